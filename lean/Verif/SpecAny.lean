import Verif.SpecCall
import Verif.SpecRun

/-!
# Specification vocabulary for all accepted layouts

The macro accepts more layouts than its generated code handles (`StructSpec.Usable`). What is said here makes sense for
all of them.
-/

namespace Bf

/-- The code generated for the struct compiles: the storage is not `bool`, defaults compile, and the type of a byte
array field of an integer-backed struct exists in memory. -/
structure StructSpec.Compiles (s : StructSpec) : Prop where
  storage : s.storage ≠ .int .bool
  default : ∀ f ∈ s.fields, f.ignored = false → ∀ d v, f.default? = some (d, v) →
    d.Denotes s.storage f.ty f.CanWrite v ∧ TypeSpec.Takes s.storage f.ty f.CanWrite v
  bytes : ∀ f ∈ s.fields, f.ignored = false → ∀ len, f.ty = .bytes len → ∀ u, s.storage = .int u → len < 2 ^ 60

theorem StructSpec.Usable.compiles {s : StructSpec} (h : s.Usable) : s.Compiles where
  storage := h.storage
  default := h.default
  bytes f hf hi len ht u hu := by
    have := ((h.bytes f hf hi len ht).2 u hu).2
    omega

/-- The call works on bits, ranges of bits or all of them, not on fields. -/
def Call.OnBits : Call → Bool
  | .getBit _ | .checkedGetBit _ | .setBit _ _ | .checkedSetBit _ _ | .getRange _ _ | .checkedGetRange _ _
  | .setRange _ _ _ | .checkedSetRange _ _ _ | .into _ | .intoTrait | .intoSlice _ _ | .checkedIntoSlice _ _ => true
  | _ => false

/-- Bit `i` belongs to a field with a default. -/
def Bitfield.Defaulted (B : Bitfield) (i : Nat) : Prop := ∃ f ∈ B.fields, f.default.isSome = true ∧ f.covers i = true

/-- The call may change bit `i`: a bit of the field it is a method of, a writable bit in its range, a writable bit for
`write_*`, a bit of a field with a default if it restores defaults. (The end of a range is not meaningful if it
overflows or if the range is empty, see C35.) -/
def Call.Touches (B : Bitfield) (c : Call) (i : Nat) : Prop :=
  match c with
  | .set f _ | .checkedSet f _ | .clearField f | .clearFieldToDefault f | .invertField f => f.covers i = true
  | .setBit o _ | .checkedSetBit o _ => i = o ∧ B.writable i = true
  | .setRange o l _ | .checkedSetRange o l _ =>
    o ≤ i ∧ B.writable i = true ∧ (o + l < 2 ^ 32 → 0 < l → i < o + l)
  | .write _ false _ => B.writable i = true
  | .write _ true _ => B.writable i = true ∨ B.Defaulted i
  | .writeDefaults => B.Defaulted i
  | .clear _ | .invert => True
  | _ => False

/-- Code generated for the field does not run: a byte array of more than 16 bytes that can be written, in an integer;
a byte array with fewer bits than the field; a user type in a field of more than 128 bits of a byte array storage.
(Without overflow checks the first and the last do run, but mix up bits.) -/
def StructSpec.Breaks (s : StructSpec) (m : Mode) (f : FieldSpec) : Prop :=
  match s.storage, f.ty with
  | .int _, .bytes len => 16 < len ∧ f.CanWrite ∧ m = .checked
  | .bytes _, .bytes len => 8 * len < f.width
  | .bytes _, .custom _ _ => 128 < f.width ∧ m = .checked
  | _, _ => False

/-- Bits 128 apart, one over the other. -/
def folded (bits : Nat) (x : Bits) : Bits := fun j => (List.range bits).any fun k => k % 128 == j && x k

end Bf
