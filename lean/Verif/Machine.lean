import Verif.Spec
import Verif.Model.Op

/-!
# The abstract machine

A bitfield as a sequence of bits, and the effect of each call on it. No masks, no shifts, no
loops over bits, no overflow modes. `Call` and `Out` are only the names of methods and the shapes of
results.
-/

namespace Bf

/-- `v` is representable in the width of `f`. -/
def Fits (f : Field) (v : Val) : Prop :=
  match f.ty, v with
  | .int .bool, _ => True
  | .int t, .int n =>
    if t.unsigned then 0 ≤ n ∧ n < 2 ^ f.bits
    else -(2 ^ (f.bits - 1) : Int) ≤ n ∧ n < 2 ^ (f.bits - 1)
  | .custom c, .custom code => 0 ≤ c.intoBits code ∧ c.intoBits code < 2 ^ f.bits
  | .array _, .arr bs =>
    ∀ i < 8 * bs.length, f.bits ≤ i → (bs.getD (i / 8) 0#8).getLsbD (i % 8) = false
  | _, _ => True

instance (f : Field) (v : Val) : Decidable (Fits f v) := by
  unfold Fits; split <;> (try split) <;> infer_instance

/-- Arguments on which the comparison generated for `checked_set_x` is exact. On an
integer-backed bitfield the comparison is made after a cast to the backing type: the field type
must not be wider than the backing type. Values of custom types must have their `into_bits` inside the
integer type the comparison uses (the backing type, or `u128`). Array fields must be as wide
as their type: they are never checked. -/
def CheckExact (b : Backing) (f : Field) (v : Val) : Prop :=
  match f.ty, v with
  | .int t, _ => t.unsigned = true → ∀ w, b = .int w → t.bitSize ≤ w
  | .custom c, .custom code => 0 ≤ c.intoBits code ∧ c.intoBits code <
    match b with
    | .int w => 2 ^ w
    | .arr _ => 2 ^ 128
  | .array len, _ => f.bits = 8 * len
  | _, _ => True

/-- The value `x_inverted()` makes out of the (already inverted) bits of `f`: like `decode`,
but the bits of a signed field are padded with zeros, not with the sign bit. -/
def decodeZ (f : Field) (x : Bits) : R Val :=
  match f.ty with
  | .int .bool => .ok (.bool (x 0))
  | .int t => .ok (.int (if t.unsigned then (natOf f.bits x : Int)
      else intOf t.bitSize fun i => decide (i < f.bits) && x i))
  | .array len => .ok (.arr (bytesOf len fun i => decide (i < f.bits) && x i))
  | .custom c => (c.fromBits (natOf f.bits x)).map .custom

/-- The bits of field `f` in `g`, from 0. -/
def Field.bitsOf (f : Field) (g : Bits) : Bits := fun i => g (f.offset + i)

/-- The bits stored for a default value: a setter passes a custom value through the user's
conversions once more. -/
def Field.defaultBits (f : Field) : R Bits :=
  match f.default with
  | none => .error .unreachable
  | some v => if f.isWritable then roundTrip f (encode f.ty v) else .ok (encode f.ty v)

/-- One field after another receives new bits. -/
def storeAll (fs : List Field) (X : Field → R Bits) (g : Bits) : R Bits :=
  fs.foldlM (fun g f => (X f).map fun y => overwrite f y g) g

/-- An `n`-byte value with its bytes in the opposite order. -/
def reverseBytes (n : Nat) (g : Bits) : Bits := fun i => g (8 * (n - 1 - i / 8) + i % 8)

/-- The byte order of `from_*` and `into_*`: for an integer-backed bitfield "big" is the
value as it is and "little" its byte swap; for an array-backed one "little" is the array as
it is (byte 0 holds bits 0 to 7) and "big" the reversed array. -/
def endianBits (b : Backing) (e : Endian) (g : Bits) : Bits :=
  match b, e with
  | .int w, .little => reverseBytes (w / 8) g
  | .int _, .big => g
  | .arr _, .little => g
  | .arr n, .big => reverseBytes n g

/-- The byte order of `write_*`: "big" is the value or array as it is and "little" the
reverse. (For array-backed bitfields this is the opposite of `endianBits`.) -/
def writeEndianBits (b : Backing) (e : Endian) (g : Bits) : Bits :=
  match e with
  | .little => reverseBytes (b.size / 8) g
  | .big => g

/-- All fields set to their declared default, the others to zero if `zero`. -/
def defaultsAll (B : Bitfield) (g : Bits) : R Bits :=
  storeAll (B.fields.filter fun f => f.default.isSome) Field.defaultBits g

/-- Every bit of the range `o..o+l` satisfies `q`. -/
def rangeForall (o l : Nat) (q : Nat → Bool) : Bool := (List.range l).all fun i => q (o + i)

/-- The number or bytes `Debug` shows for a field with bits `x`. -/
def debugVal (b : Backing) (f : Field) (x : Bits) : Val :=
  match b, f.ty with
  | .arr _, .array len => .arr (bytesOf len fun i => decide (i < f.bits) && x i)
  | _, _ => .int (natOf f.bits x)

/-- A byte slice after `n` bytes `new` were copied into it. -/
def fillSlice (n : Nat) (new sl : List (BitVec 8)) : List (BitVec 8) :=
  new.take (min n sl.length) ++ sl.drop n

/-- The effect of one call on the bits. Errors are panics of the user's `from_bits`. -/
def specCall (B : Bitfield) (c : Call) (g : Bits) : R (Out × Bits) :=
  match c with
  | .get f => (decode f (f.bitsOf g)).map fun v => (.val v, g)
  | .inverted f => (decodeZ f fun i => !f.bitsOf g i).map fun v => (.val v, g)
  | .set f v => (roundTrip f (encode f.ty v)).map fun y => (.unit, overwrite f y g)
  | .checkedSet f v =>
    if Fits f v then (roundTrip f (encode f.ty v)).map fun y => (.unit, overwrite f y g)
    else .ok (.fail "Value is too big to fit within the field bits.", g)
  | .clearField f => (absorb f fun _ => false).map fun y => (.unit, overwrite f y g)
  | .clearFieldToDefault f => f.defaultBits.map fun y => (.unit, overwrite f y g)
  | .invertField f => (absorb f fun i => !f.bitsOf g i).map fun y => (.unit, overwrite f y g)
  | .getBit o => .ok (.flag (decide (o < B.backing.size) && B.readable o && g o), g)
  | .checkedGetBit o =>
    if B.backing.size ≤ o then .ok (.fail "The offset is outside the bitfield range.", g)
    else if B.readable o then .ok (.flag (g o), g)
    else .ok (.fail "Attempted to read from non-readable bit(s).", g)
  | .setBit o b => .ok (.unit, fun i => if i = o ∧ B.writable o = true then b else g i)
  | .checkedSetBit o b =>
    if B.backing.size ≤ o then .ok (.fail "The offset is outside the bitfield range.", g)
    else if B.writable o then .ok (.unit, fun i => if i = o then b else g i)
    else .ok (.fail "Attempted to write to non-writable bit(s).", g)
  | .getRange o l =>
    .ok (.store (Store.ofBits B.backing fun i =>
      decide (o + l ≤ B.backing.size) && decide (i < l) && B.readable (o + i) && g (o + i)), g)
  | .checkedGetRange o l =>
    if B.backing.size ≤ o then .ok (.fail "The offset is outside the bitfield range.", g)
    else if B.backing.size < o + l then .ok (.fail "The length is outside the bitfield range.", g)
    else if rangeForall o l B.readable then
      .ok (.store (Store.ofBits B.backing fun i => decide (i < l) && g (o + i)), g)
    else .ok (.fail "Attempted to read from non-readable bit(s).", g)
  | .setRange o l x =>
    .ok (.unit, fun i => if o + l ≤ B.backing.size ∧ o ≤ i ∧ i < o + l ∧ B.writable i = true
      then x.bit (i - o) else g i)
  | .checkedSetRange o l x =>
    if B.backing.size ≤ o then .ok (.fail "The offset is outside the bitfield range.", g)
    else if B.backing.size < o + l then .ok (.fail "The length is outside the bitfield range.", g)
    else if rangeForall o l B.writable then
      .ok (.unit, fun i => if o ≤ i ∧ i < o + l then x.bit (i - o) else g i)
    else .ok (.fail "Attempted to write to non-writable bit(s).", g)
  | .into e => .ok (.store (Store.ofBits B.backing
      (endianBits B.backing (e.getD B.intoEndian) g)), g)
  | .intoTrait => .ok (.store (Store.ofBits B.backing (endianBits B.backing B.intoEndian g)), g)
  | .intoSlice e sl =>
    .ok (.bytes (fillSlice (B.backing.size / 8)
      (bytesOf (B.backing.size / 8) (endianBits B.backing (e.getD B.intoEndian) g)) sl), g)
  | .checkedIntoSlice e sl =>
    if sl.length < B.backing.size / 8 then
      .ok (.failBytes "Slice is too small to hold the bitfield." sl, g)
    else .ok (.bytes (fillSlice (B.backing.size / 8)
      (bytesOf (B.backing.size / 8) (endianBits B.backing (e.getD B.intoEndian) g)) sl), g)
  | .write e withDefaults x => do
    let src := writeEndianBits B.backing (e.getD B.writeEndian) x.bit
    let g ← storeAll (B.fields.filter Field.isWritable) (fun f => absorb f (f.bitsOf src)) g
    let g ← if withDefaults then defaultsAll B g else .ok g
    return (.unit, g)
  | .writeDefaults => do return (.unit, ← defaultsAll B g)
  | .clear false => do
    let g ← storeAll B.fields (fun f => absorb f fun _ => false) g
    let g ← storeAll (B.fields.filter fun f => f.reserved && f.default.isSome)
      Field.defaultBits g
    return (.unit, g)
  | .clear true => do
    let g ← storeAll (B.fields.filter fun f => f.default.isNone)
      (fun f => absorb f fun _ => false) g
    return (.unit, ← defaultsAll B g)
  | .invert => do
    let src : Bits := fun i => if B.writable i then !g i else g i
    return (.unit, ← storeAll B.fields (fun f => absorb f (f.bitsOf src)) g)
  | .debug => .ok (.fields (B.fields.map fun f => (f.name, debugVal B.backing f (f.bitsOf g))), g)

/-- A history of the abstract machine. -/
def specHistory (B : Bitfield) : List Call → Bits → R (List Out × Bits)
  | [], g => .ok ([], g)
  | c :: cs, g => do
    let (o, g) ← specCall B c g
    let (os, g) ← specHistory B cs g
    return (o :: os, g)

/-- The new bits after a call when no custom type gets in the way (`Lawful`): every mutating
call has a one-line effect, the others have none. -/
def effect (B : Bitfield) (c : Call) (g : Bits) : Bits :=
  match c with
  | .set f v => overwrite f (encode f.ty v) g
  | .checkedSet f v => if Fits f v then overwrite f (encode f.ty v) g else g
  | .clearField f => overwrite f (fun _ => false) g
  | .clearFieldToDefault f => fun i =>
    if f.covers i then (f.default.map fun v => encode f.ty v (i - f.offset)).getD (g i) else g i
  | .invertField f => fun i => if f.covers i then !g i else g i
  | .setBit o b | .checkedSetBit o b => fun i => if i = o ∧ B.writable i = true then b else g i
  | .setRange o l x => fun i =>
    if o + l ≤ B.backing.size ∧ o ≤ i ∧ i < o + l ∧ B.writable i = true then x.bit (i - o) else g i
  | .checkedSetRange o l x => fun i =>
    if o + l ≤ B.backing.size ∧ o ≤ i ∧ i < o + l ∧ (∀ k < l, B.writable (o + k) = true)
    then x.bit (i - o) else g i
  | .write e false x => fun i =>
    if B.writable i then writeEndianBits B.backing (e.getD B.writeEndian) x.bit i else g i
  | .write e true x => fun i => (B.defaultBit i).getD
    (if B.writable i then writeEndianBits B.backing (e.getD B.writeEndian) x.bit i else g i)
  | .writeDefaults => fun i => (B.defaultBit i).getD (g i)
  | .clear false => fun i => (B.reservedDefaultBit i).getD false
  | .clear true => fun i => (B.defaultBit i).getD false
  | .invert => fun i => if B.writable i then !g i else g i
  | _ => g

/-- Range arguments the generated code handles: if the offset is inside the bitfield,
`offset + length` must not overflow `u32`, and an integer-backed bitfield needs a length of at least
1. (Outside this, see `Props/Findings.lean`.) -/
def RangeOK (b : Backing) (o l : Nat) : Prop :=
  o < b.size → o + l < 2 ^ 32 ∧ (l = 0 → ∃ n, b = .arr n)

/-- The method exists on `B` and its arguments have the right types. Two restrictions go
beyond what rustc checks: `CheckExact` for checked setters and `RangeOK` for ranges. -/
def Call.Valid (B : Bitfield) : Call → Prop
  | .get f | .inverted f => f ∈ B.fields ∧ f.reserved = false ∧ f.isReadable = true
  | .set f v => f ∈ B.fields ∧ f.isWritable = true ∧ HasType f.ty v
  | .checkedSet f v =>
    f ∈ B.fields ∧ f.isWritable = true ∧ HasType f.ty v ∧ CheckExact B.backing f v
  | .clearField f | .invertField f => f ∈ B.fields ∧ f.isWritable = true
  | .clearFieldToDefault f => f ∈ B.fields ∧ f.isWritable = true ∧ f.default.isSome = true
  | .getRange o l | .checkedGetRange o l => RangeOK B.backing o l
  | .setRange o l x | .checkedSetRange o l x => RangeOK B.backing o l ∧ x.HasBacking B.backing
  | .intoSlice _ _ | .checkedIntoSlice _ _ => ∃ n, B.backing = .arr n
  | .write _ _ x => x.HasBacking B.backing
  | _ => True

end Bf
