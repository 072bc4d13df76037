import Verif.Model.Types

/-!
# Specification vocabulary

A bitfield, seen from outside, is a finite sequence of bits numbered from 0 (least
significant). This file says what it means for a field to hold a value, without masks, shifts or
loops. It depends on the model only for the data types.
-/

namespace Bf

/-- A sequence of bits. -/
abbrev Bits := Nat → Bool

/-- Bit `i` of a stored value: of the integer, or bit `i % 8` of byte `i / 8` of the array.
Bits outside the storage are `false`. -/
def Store.bit : Store → Bits
  | .int _ v => fun i => v.getLsbD i
  | .arr bs => fun i => (bs.getD (i / 8) 0#8).getLsbD (i % 8)

/-- The store of a given backing type with given bits. -/
def Store.ofBits : Backing → Bits → Store
  | .int w, g => .int w (Bf.ofBits w g)
  | .arr n, g => .arr ((List.range n).map fun k => Bf.ofBits 8 fun j => g (8 * k + j))

/-- Bit `i` belongs to field `f`. -/
def Field.covers (f : Field) (i : Nat) : Bool :=
  decide (f.offset ≤ i) && decide (i < f.offset + f.bits)

/-- The field can be written: it is not reserved and its access is `rw` or `wo`. -/
def Field.isWritable (f : Field) : Bool :=
  !f.reserved && (f.access == .rw || f.access == .wo)

/-- The field's bits can be read: its access is `rw` or `ro`. -/
def Field.isReadable (f : Field) : Bool := f.access == .rw || f.access == .ro

/-- Bit `i` of the (infinite) two's complement representation of `n`. -/
def intBit (n : Int) (i : Nat) : Bool := decide (n / 2 ^ i % 2 = 1)

/-- The number formed by the lowest `n` bits. -/
def natOf : Nat → Bits → Nat
  | 0, _ => 0
  | n + 1, g => natOf n g + if g n then 2 ^ n else 0

/-- The two's complement number formed by the lowest `n` bits (`n > 0`). -/
def intOf (n : Nat) (g : Bits) : Int :=
  (natOf n g : Int) - if g (n - 1) then 2 ^ n else 0

/-- The bytes formed by bits `0..8*len`. -/
def bytesOf (len : Nat) (g : Bits) : List (BitVec 8) :=
  (List.range len).map fun k => Bf.ofBits 8 fun j => g (8 * k + j)

/-- The bits of a Rust value of type `ty`. -/
def encode (ty : DataType) : Val → Bits
  | .int n => intBit n
  | .bool b => fun i => decide (i = 0) && b
  | .arr bs => fun i => (bs.getD (i / 8) 0#8).getLsbD (i % 8)
  | .custom code =>
    match ty with
    | .custom c => intBit (c.intoBits code)
    | _ => fun _ => false

/-- `new` in the bits of field `f` (bit 0 of `new` at the field's offset), `old`
elsewhere. -/
def overwrite (f : Field) (new old : Bits) : Bits :=
  fun i => if f.covers i then new (i - f.offset) else old i

/-- The bits of field `f`, starting from 0, cut to the field's width. -/
def slice (f : Field) (g : Bits) : Bits :=
  fun i => decide (i < f.bits) && g (f.offset + i)

/-- Value `v` is a value of Rust type `ty`. -/
def HasType : DataType → Val → Prop
  | .int .bool, .bool _ => True
  | .int .bool, _ => False
  | .int t, .int n =>
    if t.unsigned then 0 ≤ n ∧ n < 2 ^ t.bitSize
    else -(2 ^ (t.bitSize - 1) : Int) ≤ n ∧ n < 2 ^ (t.bitSize - 1)
  | .array len, .arr bs => bs.length = len
  | .custom _, .custom _ => True
  | _, _ => False

/-- The user's functions preserve the pattern `n`: `from_bits(n)` returns a value whose
`into_bits()` has `n` as its low `bits` bits. -/
def Codec.Stable (c : Codec) (bits n : Nat) : Prop :=
  ∃ code, c.fromBits n = .ok code ∧ c.intoBits code % 2 ^ bits = n

/-- The user's functions preserve every pattern of the field's width. -/
def Codec.Lawful (c : Codec) (bits : Nat) : Prop := ∀ n, n < 2 ^ bits → c.Stable bits n

/-- `from_bits` accepts every pattern of the field's width. -/
def Codec.Total (c : Codec) (bits : Nat) : Prop :=
  ∀ n, n < 2 ^ bits → ∃ code, c.fromBits n = .ok code

/-- The value a getter should return for a field holding the bits `x` (bit 0 first).
`from_bits` of a custom type may panic. -/
def decode (f : Field) (x : Bits) : R Val :=
  match f.ty with
  | .int .bool => .ok (.bool (x 0))
  | .int t => .ok (.int (if t.unsigned then (natOf f.bits x : Int) else intOf f.bits x))
  | .array len => .ok (.arr (bytesOf len fun i => decide (i < f.bits) && x i))
  | .custom c => (c.fromBits (natOf f.bits x)).map .custom

/-- What a setter actually stores when given `v`: `v` itself, except that a custom value is
first converted to bits, cut to the field's width and converted back. -/
def settle (f : Field) (v : Val) : R Val :=
  match f.ty, v with
  | .custom c, .custom code =>
    (c.fromBits (natOf f.bits (intBit (c.intoBits code)))).map .custom
  | _, v => .ok v

/-- What becomes of the bits `x` of field `f` when they pass through the field's type:
nothing happens to integer, `bool` and array fields; for a custom field it is
`from_bits(x).into_bits()`. -/
def roundTrip (f : Field) (x : Bits) : R Bits :=
  match f.ty with
  | .custom c => (c.fromBits (natOf f.bits x)).map fun code => intBit (c.intoBits code)
  | _ => .ok x

/-- The bits that end up in field `f` when generated code copies the bits `x` into it:
converted to the field's type, and once more by the setter if there is one. -/
def absorb (f : Field) (x : Bits) : R Bits :=
  if f.isWritable then roundTrip f x >>= roundTrip f else roundTrip f x

/-- The field's type can hold the pattern `x` (always true unless it is custom). -/
def Preserves (f : Field) (x : Bits) : Prop :=
  ∀ c, f.ty = .custom c → c.Stable f.bits (natOf f.bits x)

/-! ## Layouts -/

/-- The backing types the macro accepts and rustc compiles. -/
def Backing.OK : Backing → Prop
  | .int w => w = 8 ∨ w = 16 ∨ w = 32 ∨ w = 64 ∨ w = 128
  | .arr n => 1 ≤ n ∧ 8 * n < 2 ^ 32

/-- Facts about one field that the macro checks: it has a width, lies inside the storage
and is no wider than its type if that is `bool` or an integer. -/
structure FieldOK (b : Backing) (f : Field) : Prop where
  pos : 1 ≤ f.bits
  fits : f.offset + f.bits ≤ b.size
  int : ∀ t, f.ty = .int t → f.bits ≤ t.bitSize

/-- Restrictions on array and custom fields the macro does *not* check but the
generated code needs: an array field is not wider than its type, and on an integer-backed
bitfield its width is a whole number of bytes and its type has at most 16 bytes; a custom field has
at most 128 bits. They hold automatically for array fields without an explicit
width. -/
structure FieldSupported (b : Backing) (f : Field) : Prop where
  array : ∀ len, f.ty = .array len → f.bits ≤ 8 * len ∧
    ∀ w, b = .int w → f.bits % 8 = 0 ∧ len ≤ 16
  custom : ∀ c, f.ty = .custom c → f.bits ≤ 128

/-- If the field has a custom type, its conversions are inverse to each other on the
field's width. -/
def FieldLawful (f : Field) : Prop := ∀ c, f.ty = .custom c → c.Lawful f.bits

/-- Default values that generated code can pass to the setter of `f`. On an integer-backed
bitfield the default of an array field is written as an integer. -/
def SetterOK (b : Backing) (f : Field) (v : Val) : Prop :=
  match f.ty, v with
  | .int .bool, .bool _ => True
  | .int .bool, _ => False
  | .int _, .int _ => True
  | .custom _, .custom _ => True
  | .array _, .int _ => match b with
    | .int _ => True
    | .arr _ => False
  | .array len, .arr a => match b with
    | .int _ => False
    | .arr _ => a.length = len
  | _, _ => False

/-- Default values that generated code can store in a field without setter. On an
integer-backed bitfield an integer must be a value of the backing type. -/
def DirectOK (b : Backing) (f : Field) (v : Val) : Prop :=
  match f.ty, v with
  | .int .bool, .bool _ => True
  | .int .bool, _ => False
  | .int _, .int n => match b with
    | .int w => 0 ≤ n ∧ n < 2 ^ w
    | .arr _ => True
  | .custom _, .custom _ => True
  | .array _, .int n => match b with
    | .int w => 0 ≤ n ∧ n < 2 ^ w
    | .arr _ => False
  | .array len, .arr a => match b with
    | .int _ => False
    | .arr _ => a.length = len
  | _, _ => False

/-- Default values with which the generated code compiles. -/
def AssignOK (b : Backing) (f : Field) (v : Val) : Prop :=
  if f.isWritable then SetterOK b f v else DirectOK b f v

/-- No bit belongs to both fields. -/
def Field.Disjoint (f g : Field) : Prop := ∀ i, ¬ (f.covers i = true ∧ g.covers i = true)

/-- What an accepted declaration guarantees about the layout (proved of the parser in
`Props/Layout.lean`): every field is legal, no two share a bit, every bit of the storage
belongs to one. -/
structure WF (B : Bitfield) : Prop where
  backing : B.backing.OK
  field : ∀ f ∈ B.fields, FieldOK B.backing f
  disjoint : B.fields.Pairwise Field.Disjoint
  cover : ∀ i < B.backing.size, ∃ f ∈ B.fields, f.covers i = true

/-- Array and custom fields satisfy the restrictions of `FieldSupported`, and default
expressions compile. -/
structure Supported (B : Bitfield) : Prop where
  field : ∀ f ∈ B.fields, FieldSupported B.backing f
  default : ∀ f ∈ B.fields, ∀ v, f.default = some v → AssignOK B.backing f v

/-- Every custom field type preserves every pattern of its field. -/
def Lawful (B : Bitfield) : Prop := ∀ f ∈ B.fields, FieldLawful f

/-- Declared default values survive the user's conversions (automatic unless a field with
a default has a custom type). -/
def DefaultsPreserved (B : Bitfield) : Prop :=
  ∀ f ∈ B.fields, ∀ v, f.default = some v → Preserves f (encode f.ty v)

/-- `from_bits(0).into_bits()` is 0 for the custom type of every field without a default
(automatic for other types). -/
def ZeroPreserved (B : Bitfield) : Prop :=
  ∀ f ∈ B.fields, f.default = none → Preserves f fun _ => false

/-- The pattern `g` survives the user's conversions in every field (automatic without custom
fields). -/
def AllPreserved (B : Bitfield) (g : Bits) : Prop :=
  ∀ f ∈ B.fields, Preserves f fun i => g (f.offset + i)

/-- Bit `i` belongs to a field with a setter. -/
def Bitfield.writable (B : Bitfield) (i : Nat) : Bool :=
  B.fields.any fun f => f.covers i && f.isWritable

/-- Bit `i` belongs to a field with read access. -/
def Bitfield.readable (B : Bitfield) (i : Nat) : Bool :=
  B.fields.any fun f => f.covers i && f.isReadable

/-- The value of bit `i` in the declared default of the field it belongs to, if that
field has one. -/
def Bitfield.defaultBit (B : Bitfield) (i : Nat) : Option Bool :=
  match B.fields.find? (fun f => f.covers i) with
  | some f => f.default.map fun v => encode f.ty v (i - f.offset)
  | none => none

/-- The same for reserved fields only. -/
def Bitfield.reservedDefaultBit (B : Bitfield) (i : Nat) : Option Bool :=
  match B.fields.find? (fun f => f.covers i) with
  | some f => if f.reserved then f.default.map fun v => encode f.ty v (i - f.offset) else none
  | none => none

end Bf
