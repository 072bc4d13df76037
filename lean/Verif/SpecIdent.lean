import Verif.Model.Parser

/-!
# Names that are plain identifiers

In Rust an identifier may also be written with `r#` in front of it, such as `r#type`. Plain identifiers are the others.
-/

namespace Bf

/-- A plain identifier: letters, digits, underscores (or characters beyond ASCII), not starting with a digit. -/
structure PlainIdent (x : String) : Prop where
  start : ∃ c cs, x.toList = c :: cs ∧ c.isDigit = false
  chars : ∀ c ∈ x.toList, c.isAlphanum = true ∨ c = '_' ∨ 128 ≤ c.toNat

/-- A raw identifier, such as `r#type`. -/
def RawIdent (x : String) : Prop := ∃ y, PlainIdent y ∧ x = "r#" ++ y

/-- A visibility without raw identifiers. -/
def PlainVis (v : Vis) : Prop := ∀ path, v = .restricted path → PlainIdent path

/-- A declaration without raw identifiers. -/
structure StructDecl.PlainNames (d : StructDecl) : Prop where
  vis : PlainVis d.vis
  field : ∀ ds, d.fields = some ds → ∀ f ∈ ds, PlainIdent f.name ∧ PlainVis f.vis

end Bf
