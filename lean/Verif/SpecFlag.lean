import Verif.Model.Bitflag
import Verif.SpecSurface
import Verif.Spec

/-!
# Specification vocabulary for bitflag enums
-/

namespace Bf

/-- A variant as the user writes it: its name, the names of its attributes and the discriminant (its
text, and the value rustc gives it). -/
structure VariantSpec where
  name : String
  attrs : List String
  value : Option (DefaultSpec × Nat)

/-- An argument of `#[bitflag(..)]`. -/
inductive FlagArgSpec where
  | from (e : Endian)
  | into (e : Endian)
  | copy (b : Bool)

/-- Its tokens. -/
def FlagArgSpec.tokens : FlagArgSpec → List Tok
  | .from e => [.ident "from_endian", .eq, .expr e.text (.bool false)]
  | .into e => [.ident "into_endian", .eq, .expr e.text (.bool false)]
  | .copy b => [.ident "copy", .eq, .expr (boolText b) (.bool b)]

/-- An enum as the user writes it: its type, further arguments of `#[bitflag]`, visibility and
variants. -/
structure EnumSpec where
  ty : TypeSpec
  args : List FlagArgSpec
  vis : Vis
  variants : List VariantSpec

/-- The attribute's input: the type, then the arguments, each preceded by a comma. -/
def EnumSpec.attr (s : EnumSpec) : AttrInput :=
  ⟨some s.ty.syntax, s.args.flatMap fun a => .comma :: a.tokens⟩

/-- The declaration. -/
def VariantSpec.decl (v : VariantSpec) : VariantDecl where
  name := v.name
  attrs := v.attrs
  discriminant := v.value.map fun dn => (dn.1.text, dn.2)

def EnumSpec.decl (s : EnumSpec) : EnumDecl := ⟨s.vis, s.variants.map VariantSpec.decl⟩

/-- Marked `#[base]`. -/
def VariantSpec.IsBase (v : VariantSpec) : Prop := "base" ∈ v.attrs

/-- Marked `#[default]`. -/
def VariantSpec.IsDefault (v : VariantSpec) : Prop := "default" ∈ v.attrs

instance (v : VariantSpec) : Decidable v.IsBase := by unfold VariantSpec.IsBase; infer_instance
instance (v : VariantSpec) : Decidable v.IsDefault := by
  unfold VariantSpec.IsDefault; infer_instance

/-- An enum the macro should accept. -/
structure EnumSpec.Legal (s : EnumSpec) : Prop where
  /-- its type is `u8`, `u16`, `u32`, `u64` or `u128` -/
  ty : ∃ t, s.ty = .int t ∧ t ∈ [IntTy.u8, .u16, .u32, .u64, .u128]
  /-- every variant has an explicit value -/
  value : ∀ v ∈ s.variants, ∃ d n, v.value = some (d, n)
  /-- at most one variant is marked `#[base]` -/
  base : ∀ (i j : Nat) v w, s.variants[i]? = some v → s.variants[j]? = some w →
    v.IsBase → w.IsBase → i = j
  /-- some variant is marked `#[base]` or `#[default]` -/
  fallback : ∃ v ∈ s.variants, v.IsBase ∨ v.IsDefault

/-- The enum is given by a proper description, and its discriminants are ones the macro reads (see
C43). -/
structure EnumSpec.Readable (s : EnumSpec) : Prop where
  ty : s.ty.Proper
  value : ∀ v ∈ s.variants, ∀ d n, v.value = some (d, n) → d.Supported

/-- The conditions under which rustc accepts the generated enum, with a type of `w` bits: the variants
have different names, different values, and the values fit in the type. -/
structure EnumSpec.Compiles (s : EnumSpec) (w : Nat) : Prop where
  ty : ∃ t, s.ty = .int t ∧ t ≠ .bool ∧ t.bitSize = w
  name : ∀ (i j : Nat) v u, s.variants[i]? = some v → s.variants[j]? = some u →
    v.name = u.name → i = j
  value : ∀ (i j : Nat) v u d d' n, s.variants[i]? = some v → s.variants[j]? = some u →
    v.value = some (d, n) → u.value = some (d', n) → i = j
  fits : ∀ v ∈ s.variants, ∀ d n, v.value = some (d, n) → n < 2 ^ w

/-- The byte order of `from_bits`: the last argument, else by the Cargo features. -/
def EnumSpec.fromEndian (s : EnumSpec) (cfg : String → Bool) : Endian :=
  (lastArg (fun | .from e => some e | _ => none) s.args).getD
    (if cfg "bitflag_from_endian_little" && !cfg "bitflag_from_endian_big" then .little else .big)

/-- The byte order of `into_bits`. -/
def EnumSpec.intoEndian (s : EnumSpec) (cfg : String → Bool) : Endian :=
  (lastArg (fun | .into e => some e | _ => none) s.args).getD
    (if cfg "bitflag_into_endian_little" && !cfg "bitflag_into_endian_big" then .little else .big)

/-- Whether the enum is `Copy` and `Clone`. -/
def EnumSpec.copies (s : EnumSpec) (cfg : String → Bool) : Bool :=
  (lastArg (fun | .copy b => some b | _ => none) s.args).getD
    (cfg "bitflag_derive_copy" || !cfg "bitflag_disable_copy")

/-- The number an integer of `w` bits stands for: itself if the byte order is big, the number with the
bytes in reverse order if it is little. -/
def numberIn (e : Endian) {w : Nat} (bits : BitVec w) : Nat :=
  match e with
  | .big => bits.toNat
  | .little => natOf w fun i => bits.getLsbD (8 * (w / 8 - 1 - i / 8) + i % 8)

end Bf
