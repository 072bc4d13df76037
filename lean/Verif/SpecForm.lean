import Verif.SpecDecl
import Verif.SpecSurface
import Verif.SpecFlag

/-!
# How a declaration may be written

`SpecDecl.lean`, `SpecSurface.lean` and `SpecFlag.lean` describe what a user declares and one way of writing it. Here:
all ways the macros understand. Words such as `lsb`, `big` or `ro` in upper or lower case, commas before and after
the arguments, further attributes next to `#[bits]`.
-/

namespace Bf

/-- The lists have the same length, and their elements are related one by one. -/
inductive Each {α β : Type} (r : α → β → Prop) : List α → List β → Prop where
  | nil : Each r [] []
  | cons {a b as bs} : r a b → Each r as bs → Each r (a :: as) (b :: bs)

/-- The text is the word, in upper or lower case. -/
def Reads (text word : List Char) : Prop := text.map Char.toLower = word

/-- An argument `key = value`, as tokens. -/
def Arg.tokens (a : Arg) : List Tok := [.ident a.key, .eq, .expr a.text a.value]

/-- Arguments separated by commas, with or without a comma at the end. -/
def listed : List Arg → Bool → List Tok
  | [], _ => []
  | [a], trailing => a.tokens ++ if trailing then [.comma] else []
  | a :: as, trailing => a.tokens ++ .comma :: listed as trailing

/-- `n` commas. -/
def commas (n : Nat) : List Tok := List.replicate n .comma

/-- The argument of `#[bitfield(..)]` may be written as `w`. -/
def BitfieldArgSpec.Spelled : BitfieldArgSpec → Arg → Prop
  | .flag k b, w => w.key = k.key ∧ w.text = boolText b
  | .order o, w => w.key = "order" ∧ Reads w.text o.text
  | .endian k e, w => w.key = k.key ∧ Reads (trim w.text) e.text

/-- The arguments may be written as the tokens `ts`. -/
def SpelledArgs {α : Type} (spelled : α → Arg → Prop) (maxCommas : Nat) (as : List α) (ts : List Tok) : Prop :=
  ∃ ws n trailing, n ≤ maxCommas ∧ ts = commas n ++ listed ws trailing ∧ Each spelled as ws

/-- The argument of `#[bits(..)]` may be written as `w`. -/
def BitsArgSpec.Spelled : BitsArgSpec → Arg → Prop
  | .access a, w => w.key = "access" ∧ Reads w.text a.text
  | .ignore b, w => w.key = "ignore" ∧ w.text = boolText b
  | .default d v, w => w.key = "default" ∧ w.text = d.text ∧ w.value = v

/-- The attribute `#[bits(..)]` may be written with the tokens `ts`: up to one comma, the width, up to two commas,
the arguments. -/
def BitsSpec.Spelled (b : BitsSpec) (ts : List Tok) : Prop :=
  match b.width with
  | none => SpelledArgs BitsArgSpec.Spelled 2 b.args ts
  | some n => ∃ lead rest, lead ≤ 1 ∧ ts = commas lead ++ .int n false :: rest ∧
      SpelledArgs BitsArgSpec.Spelled 2 b.args rest

/-- The type may be written as `t`. -/
def TypeSpec.Spelled : TypeSpec → SynType → Prop
  | .int t, .path name _ => name = t.name
  | .bytes len, .array (.path name _) (.int n) => name = "u8" ∧ n = len
  | .custom name c, .path name' c' => name' = name ∧ c' = c
  | _, _ => False

/-- The field may be declared as `d`: the first outer attribute `bits` counts, other attributes do not matter. -/
structure FieldSpec.Spelled (f : FieldSpec) (d : FieldDecl) : Prop where
  name : d.name = f.name
  vis : d.vis = f.vis
  ty : f.ty.Spelled d.ty
  bits : match d.attrs.filter (fun a => a.isBits && a.outer) with
    | [] => f.bits = none
    | a :: _ => ∃ ts b, a.tokens = some ts ∧ f.bits = some b ∧ b.Spelled ts

/-- The struct, with the arguments `as` of `#[bitfield(..)]`, may be written as `attr` and `d`. -/
structure StructSpec.Spelled (s : StructSpec) (as : List BitfieldArgSpec) (attr : AttrInput) (d : StructDecl) :
    Prop where
  rest : s.rest = bitfieldTokens as
  storage : ∃ t, attr.ty = some t ∧ s.storage.Spelled t
  args : SpelledArgs BitfieldArgSpec.Spelled 1 as attr.rest
  vis : d.vis = s.vis
  fields : ∃ ds, d.fields = some ds ∧ Each FieldSpec.Spelled s.fields ds

/-- The argument of `#[bitflag(..)]` may be written as `w`. -/
def FlagArgSpec.Spelled : FlagArgSpec → Arg → Prop
  | .from e, w => w.key = "from_endian" ∧ Reads (trim w.text) e.text
  | .into e, w => w.key = "into_endian" ∧ Reads (trim w.text) e.text
  | .copy b, w => w.key = "copy" ∧ w.text = boolText b

/-- The tokens contain the default `text`. -/
def HasDefault (ts : List Tok) (text : List Char) : Prop :=
  ∃ v, [.ident "default", .eq, .expr text v] <:+: ts

/-- Every default written in a `#[bits]` attribute is one the macro reads correctly (see C43). -/
def StructDecl.DefaultsReadable (d : StructDecl) : Prop :=
  ∀ fs, d.fields = some fs → ∀ f ∈ fs, ∀ a ∈ f.attrs, ∀ ts, a.tokens = some ts → ∀ text, HasDefault ts text →
    ∃ D : DefaultSpec, D.Supported ∧ D.text = text

/-- The fields are declared alike: same name, visibility, type and first outer attribute `bits`. -/
structure FieldDecl.Alike (d e : FieldDecl) : Prop where
  name : d.name = e.name
  vis : d.vis = e.vis
  ty : d.ty = e.ty
  bits : (d.attrs.filter fun a => a.isBits && a.outer).head? = (e.attrs.filter fun a => a.isBits && a.outer).head?

/-- The enum may be written as `attr` and `d`. -/
structure EnumSpec.Spelled (s : EnumSpec) (attr : AttrInput) (d : EnumDecl) : Prop where
  ty : ∃ t, attr.ty = some t ∧ s.ty.Spelled t
  args : SpelledArgs FlagArgSpec.Spelled 1 s.args attr.rest
  decl : d = s.decl

end Bf
