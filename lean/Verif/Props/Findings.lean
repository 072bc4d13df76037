import Verif.Props.Backings
import Verif.Props.Write
import Verif.Props.BitAccess
import Verif.Props.ClearInvert

/-!
# Where the code does not do what the documentation says

For every theorem with suffix `_partial`, a concrete declaration and call on which the full
property fails. Each of these is a run of the model of the generated code on one input. `m` is arbitrary unless the behaviour depends on the overflow
mode.
-/

namespace Bf

instance {ε α : Type} [DecidableEq ε] [DecidableEq α] : DecidableEq (Except ε α)
  | .ok a, .ok b => if h : a = b then .isTrue (by rw [h]) else .isFalse fun e => h (by cases e; rfl)
  | .error a, .error b =>
    if h : a = b then .isTrue (by rw [h]) else .isFalse fun e => h (by cases e; rfl)
  | .ok _, .error _ => .isFalse fun e => by cases e
  | .error _, .ok _ => .isFalse fun e => by cases e

namespace Finding

/-- `#[bits(4)] a: u16` at the bottom of a `u8`. -/
def wide : Field := ⟨"a", .int .u16, 4, 0, .rw, false, none⟩

/-- C12: on an integer-backed bitfield the value given to a checked setter is cast to the
backing type before it is compared. 257 does not fit in 4 bits, yet `checked_set_a(257)`
succeeds and stores 1. -/
theorem finding_checked_set_wide_type : ∀ m, ¬ Fits wide (.int 257) ∧
    setImpl m true wide (.int 8 0#8) (.int 257) = .ok (.ok (), .int 8 1#8) := by
  intro m; cases m <;> decide

/-- `#[bits(4)] a: [u8; 1]` at the bottom of a `[u8; 1]`. -/
def narrow : Field := ⟨"a", .array 1, 4, 0, .rw, false, none⟩

/-- C12: checked setters of byte-array fields never fail: `checked_set_a([0xFF])` stores the low
four bits. -/
theorem finding_checked_set_array : ∀ m, ¬ Fits narrow (.arr [0xFF#8]) ∧
    setImpl m true narrow (.arr [0#8]) (.arr [0xFF#8]) = .ok (.ok (), .arr [0x0F#8]) := by
  intro m; cases m <;> decide

/-- An enum-like type whose `from_bits(0)` is a variant with `into_bits() = 1`. -/
def bump : Codec := { fromBits := fun _ => .ok 0, intoBits := fun _ => 1 }

/-- A `u8` bitfield with one field of that type and no default. -/
def bumped : Bitfield := ⟨.int 8, [⟨"a", .custom bump, 8, 0, .rw, false, none⟩], .big, .big, .big, false⟩

/-- C15: `default()` differs from `new()` when the `new` functions are not generated: `new()`
sends 0 through the custom type of a field without default, `default()` does not. -/
theorem finding_default_not_new : ∀ m,
    apiNew m bumped = .ok (.int 8 1#8) ∧ apiDefault m bumped false = .ok (.int 8 0#8) := by
  intro m; cases m <;> decide

/-- A `[u8; 2]` bitfield with a single field. -/
def pair : Bitfield := ⟨.arr 2, [⟨"a", .int .u16, 16, 0, .rw, false, none⟩], .big, .big, .big, false⟩

/-- C23: on array-backed bitfields `write_*` reads bytes in the opposite order of
`from_*`: `from_le_bytes([1, 2])` and `write_le_bytes([1, 2])` disagree, and so do `from_bytes` and
`write_bytes`, with the same (default) configuration. -/
theorem finding_write_bytes_endian : ∀ m,
    apiFromE m pair .little (.arr [1#8, 2#8]) = .ok (.arr [1#8, 2#8]) ∧
    apiWriteE m pair .little (.arr [1#8, 2#8]) (.arr [0#8, 0#8]) = .ok (.arr [2#8, 1#8]) ∧
    apiFrom m pair (.arr [1#8, 2#8]) = .ok (.arr [2#8, 1#8]) ∧
    apiWrite m pair (.arr [1#8, 2#8]) (.arr [0#8, 0#8]) = .ok (.arr [1#8, 2#8]) := by
  intro m; cases m <;> decide

/-- A `u8` bitfield with a single field. -/
def byte : Bitfield := ⟨.int 8, [⟨"a", .int .u8, 8, 0, .rw, false, none⟩], .big, .big, .big, false⟩

/-- C26, C27, C34: a range of length 0 on an integer-backed bitfield panics with overflow
checks, and without them is a range to the top of the bitfield: `get_bits_range(2, 0)` returns six
bits and `set_bits_range(2, 0, 0)` clears them. -/
theorem finding_range_length_zero :
    apiGetRange .checked byte (.int 8 0xFF#8) 2 0 = .error .shift ∧
    apiCheckedGetRange .checked byte (.int 8 0xFF#8) 2 0 = .error .shift ∧
    apiGetRange .wrapping byte (.int 8 0xFF#8) 2 0 = .ok (.int 8 0x3F#8) ∧
    apiSetRange .wrapping byte (.int 8 0xFF#8) 2 0 (.int 8 0#8) = .ok (.int 8 0x03#8) ∧
    apiCheckedSetRange .wrapping byte (.int 8 0xFF#8) 2 0 (.int 8 0#8) =
      .ok (.ok (), .int 8 0x03#8) := by
  decide

/-- C26, C27, C34: `offset + length` is computed in `u32`. When it overflows, the call panics
with overflow checks; without them an integer-backed bitfield treats it as a range to
the top although it is outside, and an array-backed one panics with an index out of bounds. -/
theorem finding_range_sum_overflow :
    apiCheckedGetRange .checked byte (.int 8 0xFF#8) 2 4294967295 = .error .arith ∧
    apiCheckedGetRange .wrapping byte (.int 8 0xFF#8) 2 4294967295 = .ok (.ok (.int 8 0x3F#8)) ∧
    apiCheckedSetRange .wrapping byte (.int 8 0xFF#8) 2 4294967295 (.int 8 0#8) =
      .ok (.ok (), .int 8 0x03#8) ∧
    (∀ bs x : List (BitVec 8), apiSetRange .wrapping pair (.arr bs) 2 4294967295 (.arr x) =
      .error .index ∧ apiGetRange .wrapping pair (.arr bs) 2 4294967295 = .error .index) := by
  refine ⟨by decide, by decide, by decide, fun bs x => ?_⟩
  exact odd_arr_wrapping (B := pair) rfl (by decide) (by decide) (by decide) (by decide) bs x

/-- C27: `checked_set_bits_range` is documented to fail if the value is too large for the range. It
stores the low bits. -/
theorem finding_checked_range_truncates : ∀ m,
    apiCheckedSetRange m byte (.int 8 0#8) 0 4 (.int 8 0xFF#8) = .ok (.ok (), .int 8 0x0F#8) := by
  intro m; cases m <;> decide

/-- `#[bits(4)] a: i8` at the bottom of a `u8`. -/
def nibble : Field := ⟨"a", .int .i8, 4, 0, .rw, false, none⟩

/-- C30: `a_inverted()` of a narrow signed field is not sign-extended. `a` holds 0, all bits of the
result should be set, i.e. it should be -1; it is 15, which no getter of the field can return. -/
theorem finding_inverted_signed : ∀ m,
    getX m nibble (.int 8 0#8) = .ok (.int 0) ∧ invertedX m nibble (.int 8 0#8) = .ok (.int 15) ∧
    getX m nibble (.int 8 0x0F#8) = .ok (.int (-1)) := by
  intro m; cases m <;> decide

/-! ## Layouts outside `Supported` -/

/-- `#[bits(12)] a: [u8; 2]` at the bottom of a `u16`. -/
def ragged : Field := ⟨"a", .array 2, 12, 0, .rw, false, none⟩

/-- C08: the setter of a byte-array field of an integer-backed bitfield packs only
whole bytes: bits 8 to 11 of a 12-bit field are lost. -/
theorem finding_array_ragged : ∀ m,
    setX m ragged (.int 16 0#16) (.arr [0xFF#8, 0xFF#8]) = .ok (.int 16 0x00FF#16) := by
  intro m; cases m <;> decide

/-- `#[bits(16)] a: [u8; 1]`, accepted by the macro, in a `[u8; 2]`. -/
def overwide : Field := ⟨"a", .array 1, 16, 0, .rw, false, none⟩

/-- C34: a byte-array field declared wider than its type is accepted; on an array-backed
bitfield its getter and setter always panic with an index out of bounds. -/
theorem finding_array_too_wide : ∀ m,
    getX m overwide (.arr [0#8, 0#8]) = .error .index ∧
    setX m overwide (.arr [0#8, 0#8]) (.arr [1#8]) = .error .index := by
  intro m; cases m <;> decide

/-- `#[bits(8)] a: [u8; 17]` in a `u8`. -/
def longArray : Field := ⟨"a", .array 17, 8, 0, .rw, false, none⟩

/-- `#[bits(136)] a: Custom` at the bottom of a `[u8; 17]`. -/
def longCustom : Field := ⟨"a", .custom idCodec, 136, 0, .rw, false, none⟩

/-- C34: the getter of a byte-array field of more than 16 bytes on an integer-backed
bitfield shifts a `u128` by 128: a panic with overflow checks, and without them the first byte
shows up again as byte 16. -/
theorem finding_array_too_long :
    getX .checked longArray (.int 8 5#8) = .error .shift ∧
    getX .wrapping longArray (.int 8 5#8) =
      .ok (.arr (5#8 :: List.replicate 15 0#8 ++ [5#8])) := by
  decide

set_option maxRecDepth 20000 in
/-- C34: a custom field of more than 128 bits is accepted on an array-backed bitfield; its
getter and setter shift a `u128` by 128. -/
theorem finding_custom_too_wide :
    getX .checked longCustom (.arr (List.replicate 17 0#8)) = .error .shift ∧
    setX .checked longCustom (.arr (List.replicate 17 0#8)) (.custom 0) = .error .shift := by
  decide

/-- C35: the two backings differ on ranges of length 0. -/
theorem finding_backings_differ :
    apiGetRange .checked byte (.int 8 1#8) 2 0 = .error .shift ∧
    apiGetRange .checked { byte with backing := .arr 1 } (.arr [1#8]) 2 0 = .ok (.arr [0#8]) := by
  decide

end Finding

end Bf
