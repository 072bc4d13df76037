import Verif.Model.Emit

/-!
# The input of the printers
-/

namespace Bf.Text

/-- What the printers read of a declaration and the result of parsing it: `Bitfield`,
parsing/bitfields/bitfield.rs:10-38, and `Field`, parsing/bitfields/bitfield.rs:82-114. The tokens of the default
expressions, parsing/common/const_expr.rs:209-228, are an argument, as the parser of `Model/Parser.lean` keeps only
their values. `constMut` is the answer of the compiler check of GH:26-28.
Fields are told apart by their offsets. -/
def printerOf (s : StructSource) (p : Parsed) (default : Nat → List Tok) (constMut : Bool) : Printer where
  B := p.bitfield
  name := s.name
  vis := p.vis
  attrs := s.attrs
  ignored := p.ignored.map fun q => (q.field.name, q.field.ty, q.vis)
  args := p.args
  default := default
  fieldVis k := ((p.fields.find? fun q => decide (q.field.offset = k)).map PField.vis).getD .priv
  constMut := constMut

end Bf.Text
