import Verif.SpecForm
import Verif.SpecIdent

/-!
# Declarations on which the macro does not fail internally

Conditions on declarations as written, well-formed or not, that are enough for the macro either to accept the
declaration or to report what is wrong with it.
-/

namespace Bf

/-- The tokens contain `key = true`. -/
def HasFlag (ts : List Tok) (key : String) : Prop :=
  ∃ v, [.ident key, .eq, .expr (boolText true) v] <:+: ts

/-- The attributes of the field contain the tokens. -/
def FieldDecl.HasTokens (d : FieldDecl) (ts : List Tok) : Prop := ∃ a ∈ d.attrs, a.tokens = some ts

/-- The type is one the macro knows: an integer type other than `usize` and `isize`, `bool`, `[u8; n]` or a path. -/
def SynType.Known (t : SynType) : Prop := ∃ s : TypeSpec, s.Supported ∧ s.Spelled t

/-- The type has no more than so many bits, if its size is known. -/
def SynType.atMost : SynType → Nat
  | .path _ _ => 128
  | .array _ (.int n) => 8 * n
  | _ => 0

/-- The field asks for no more than `n` bits: its type has no more, and no larger number is in its attributes. -/
structure FieldDecl.AtMost (d : FieldDecl) (n : Nat) : Prop where
  type : d.ty.atMost ≤ n
  attrs : ∀ ts, d.HasTokens ts → ∀ k b, .int k b ∈ ts → k ≤ n

/-- The text is a decimal float literal such as `1.5` or `-0.25f32`. -/
structure FloatText (text : List Char) : Prop where
  form : ∃ sign whole rest, sign ∈ [[], ['-']] ∧ whole ≠ [] ∧ (∀ c ∈ whole, c.isDigit = true) ∧
    text = sign ++ whole ++ '.' :: rest
  last : ∀ c, text.getLast? = some c → c.isWhitespace = false

/-- The text is one the macro reads correctly (see C43), or a float literal. -/
def ReadableText (text : List Char) : Prop := (∃ D : DefaultSpec, D.Supported ∧ D.text = text) ∨ FloatText text

/-- The field is written such that the macro can report what is wrong with it, if anything is. -/
structure FieldDecl.Reportable (d : FieldDecl) : Prop where
  /-- a default is one the macro reads correctly, or a float literal -/
  default : ∀ ts, d.HasTokens ts → ∀ text, HasDefault ts text → ReadableText text
  /-- a field with a default does not ask for more than 128 bits, unless it is an array -/
  width : ∀ name c, d.ty = .path name c → ∀ ts, d.HasTokens ts → ∀ text, HasDefault ts text →
    ∀ k b, .int k b ∈ ts → k ≤ 128
  /-- an ignored field has a known type -/
  ignore : ∀ ts, d.HasTokens ts → HasFlag ts "ignore" → d.ty.Known

/-- Every field is written such that the macro can report on it, sizes add up to less than 2^32 bits, and names are plain. -/
structure Reportable (attr : AttrInput) (d : StructDecl) : Prop where
  storage : ∀ t, attr.ty = some t → t.atMost < 2 ^ 32
  field : ∀ ds, d.fields = some ds → ∀ f ∈ ds, f.Reportable
  total : ∀ ds, d.fields = some ds → ∃ ws, Each FieldDecl.AtMost ds ws ∧ ws.sum < 2 ^ 32
  /-- the argument for testing panics is not on -/
  panic : ¬ HasFlag attr.rest "force_panic"
  /-- there are no raw identifiers -/
  names : d.PlainNames

/-- Every discriminant is one the macro reads correctly, or a float literal. -/
def EnumDecl.Reportable (d : EnumDecl) : Prop :=
  ∀ v ∈ d.variants, ∀ text n, v.discriminant = some (text, n) → ReadableText text

end Bf
