import Verif.Machine

/-!
# The abstract machine on all arguments rustc accepts

`Machine.lean` says what each call should do. On some arguments the generated code does
something else. This file says what, for every argument, so that nothing a program can write
is left out: `fullCall` is `specCall` except for checked setters, whose comparison is not always the
documented one, and ranges on which the `u32` arithmetic of the generated code goes wrong.
-/

namespace Bf

/-- The argument of `checked_set_x` is refused. For an unsigned field of an integer-backed
bitfield it is first cut to the width of the backing type, for a custom field to the
width of the backing type or 128 bits; byte arrays are never refused. -/
def Refused (b : Backing) (f : Field) (v : Val) : Prop :=
  match f.ty, v with
  | .int .bool, _ => False
  | .int t, .int n =>
    if t.unsigned then
      match b with
      | .int w => 2 ^ f.bits ≤ n % 2 ^ w
      | .arr _ => 2 ^ f.bits ≤ n
    else n < -2 ^ (f.bits - 1) ∨ 2 ^ (f.bits - 1) ≤ n
  | .custom c, .custom code =>
    match b with
    | .int w => 2 ^ f.bits ≤ c.intoBits code % 2 ^ w
    | .arr _ => 2 ^ f.bits ≤ c.intoBits code % 2 ^ 128
  | _, _ => False

instance (b : Backing) (f : Field) (v : Val) : Decidable (Refused b f v) := by
  unfold Refused
  split
  · infer_instance
  · split
    · split <;> infer_instance
    · infer_instance
  · split <;> infer_instance
  · infer_instance

/-- Ranges that begin inside the bitfield on which the generated arithmetic goes wrong:
`offset + length` overflows `u32`, or the length is 0 on an integer-backed bitfield. -/
def oddRange (b : Backing) (o l : Nat) : Bool :=
  decide (o < b.size) && (decide (2 ^ 32 ≤ o + l) || (decide (l = 0) && match b with
    | .int _ => true
    | .arr _ => false))

/-- What a range call does on such a range. With overflow checks it panics. Without them, on an
integer-backed bitfield it is the call `top`, for the range from the offset to the top; on an
array-backed one it is `arr`. -/
def oddCall (m : Mode) (B : Bitfield) (o l : Nat) (top : Call) (arr : R (Out × Bits)) (g : Bits) :
    R (Out × Bits) :=
  match m, B.backing with
  | .checked, _ => .error (if 2 ^ 32 ≤ o + l then .arith else .shift)
  | .wrapping, .int _ => specCall B top g
  | .wrapping, .arr _ => arr

/-- The effect of one call on the bits, for all arguments rustc accepts. -/
def fullCall (m : Mode) (B : Bitfield) (c : Call) (g : Bits) : R (Out × Bits) :=
  match c with
  | .checkedSet f v =>
    if Refused B.backing f v then .ok (.fail "Value is too big to fit within the field bits.", g)
    else specCall B (.set f v) g
  | .getRange o l =>
    if oddRange B.backing o l then
      oddCall m B o l (.getRange o (B.backing.size - o)) (.error .index) g
    else specCall B c g
  | .setRange o l x =>
    if oddRange B.backing o l then
      oddCall m B o l (.setRange o (B.backing.size - o) x) (.error .index) g
    else specCall B c g
  | .checkedGetRange o l =>
    if oddRange B.backing o l then
      oddCall m B o l (.checkedGetRange o (B.backing.size - o))
        (if rangeForall o (B.backing.size - o) B.readable then .error .index
         else .ok (.fail "Attempted to read from non-readable bit(s).", g)) g
    else specCall B c g
  | .checkedSetRange o l x =>
    if oddRange B.backing o l then
      oddCall m B o l (.checkedSetRange o (B.backing.size - o) x)
        (if rangeForall o (B.backing.size - o) B.writable then .error .index
         else .ok (.fail "Attempted to write to non-writable bit(s).", g)) g
    else specCall B c g
  | c => specCall B c g

/-- A history of the abstract machine, for all arguments rustc accepts. -/
def fullHistory (m : Mode) (B : Bitfield) : List Call → Bits → R (List Out × Bits)
  | [], g => .ok ([], g)
  | c :: cs, g => do
    let (o, g) ← fullCall m B c g
    let (os, g) ← fullHistory m B cs g
    return (o :: os, g)

end Bf
