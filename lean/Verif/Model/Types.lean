import Verif.Model.Prim

/-!
# Data types, fields and bitfields as produced by the parser

Paths are relative to `/repo/bitfields_impl/src`.
-/

namespace Bf

/-- `IntegerType`, parsing/common/spanned_data_type.rs:203-217 -/
inductive IntTy where
  | bool
  | u8 | u16 | u32 | u64 | u128
  | i8 | i16 | i32 | i64 | i128
deriving DecidableEq, Repr

/-- `IntegerType::bit_size`, parsing/common/spanned_data_type.rs:220-233 -/
def IntTy.bitSize : IntTy → Nat
  | .bool => 1
  | .u8 | .i8 => 8
  | .u16 | .i16 => 16
  | .u32 | .i32 => 32
  | .u64 | .i64 => 64
  | .u128 | .i128 => 128

/-- `IntegerType::is_unsigned`, parsing/common/spanned_data_type.rs:235-237 -/
def IntTy.unsigned : IntTy → Bool
  | .i8 | .i16 | .i32 | .i64 | .i128 => false
  | _ => true

/-- A user-defined field type. Its values are named by natural numbers. `fromBits` is the
user's `from_bits` applied to `value as _` (the cast to the parameter type is part
of it; it may panic), `intoBits` is the user's `into_bits` (as the mathematical value of the
returned integer, which generated code then casts with `as`). User code, so
arbitrary. -/
structure Codec where
  fromBits : Nat → R Nat
  intoBits : Nat → Int

/-- `DataType`, parsing/common/spanned_data_type.rs:149-156. The repo's `Custom` carries the
type tokens; here it carries the conversion functions of that type. -/
inductive DataType where
  | int (t : IntTy)
  | array (len : Nat)
  | custom (c : Codec)

/-- `DataType::unsigned`, parsing/common/spanned_data_type.rs:191-199 -/
def DataType.unsigned : DataType → Bool
  | .int t => t.unsigned
  | .array _ => true
  | .custom _ => true

/-- `matches!(.., DataType::Integer(IntegerType::Bool))` -/
def DataType.isBool : DataType → Bool
  | .int .bool => true
  | _ => false

/-- `matches!(.., DataType::Array { .. })` -/
def DataType.isArray : DataType → Bool
  | .array _ => true
  | _ => false

/-- `FieldAccess`, parsing/bitfields/bits_attribute/bits_arguments.rs:18-30 -/
inductive Access where
  | ro | wo | rw | na
deriving DecidableEq, Repr

/-- `ConversionEndian`, parsing/common/conversion_endian.rs -/
inductive Endian where
  | little | big
deriving DecidableEq, Repr

/-- A Rust value passed to or returned by generated code. Integers of every type are their
mathematical value, byte arrays are lists of bytes, values of custom types are
codes. -/
inductive Val where
  | int (n : Int)
  | bool (b : Bool)
  | arr (bs : List (BitVec 8))
  | custom (code : Nat)
deriving DecidableEq, Repr

/-- `Field`, parsing/bitfields/bitfield.rs:82-114. `default` is the value of the
`default = ..` expression (evaluated by rustc). Visibility and spans are not modelled. -/
structure Field where
  name : String
  ty : DataType
  bits : Nat
  offset : Nat
  access : Access
  reserved : Bool
  default : Option Val

/-- `has_default_value`, parsing/bitfields/bitfield.rs:167-169 -/
def Field.hasDefault (f : Field) : Bool := f.default.isSome

/-- `has_setter`, parsing/bitfields/bitfield.rs:172-179 -/
def Field.hasSetter (f : Field) : Bool :=
  if f.reserved then false
  else match f.access with
    | .wo | .rw => true
    | _ => false

/-- `has_getter`, parsing/bitfields/bitfield.rs:182-189 -/
def Field.hasGetter (f : Field) : Bool :=
  if f.reserved then false
  else match f.access with
    | .ro | .rw => true
    | _ => false

/-- `has_read_access`, parsing/bitfields/bitfield.rs:191-194 -/
def Field.hasReadAccess (f : Field) : Bool :=
  match f.access with
  | .ro | .rw => true
  | _ => false

/-- `has_constants`, parsing/bitfields/bitfield.rs:197-199 -/
def Field.hasConstants (f : Field) : Bool := f.hasGetter || f.hasSetter

/-- The backing type: an unsigned integer of width `w` or `[u8; n]`. -/
inductive Backing where
  | int (w : Nat)
  | arr (n : Nat)
deriving DecidableEq, Repr

/-- Size of the backing type in bits. -/
def Backing.size : Backing → Nat
  | .int w => w
  | .arr n => 8 * n

/-- The parts of `Bitfield` (parsing/bitfields/bitfield.rs:10-77) the generated functions
depend on: the backing type, the non-ignored fields in declaration order, the
endianness arguments and the `array_heap` argument. -/
structure Bitfield where
  backing : Backing
  fields : List Field
  fromEndian : Endian
  intoEndian : Endian
  writeEndian : Endian
  /-- `array_heap`, parsing/bitfields/bitfield_attribute/bitfield_arguments.rs:172 -/
  heap : Bool

/-- The stored value (`this.0` or `this.val`), also the type of the `bits`/`bytes`
arguments. Whether an array is stored inline or in a `Box` (`array_heap`) does not belong
to the value; emitted code has to know (`Rust.innerV`). -/
inductive Store where
  | int (w : Nat) (v : BitVec w)
  | arr (bs : List (BitVec 8))
deriving DecidableEq, Repr

/-- The store has the shape of the backing type. -/
def Store.HasBacking : Store → Backing → Prop
  | .int w _, .int w' => w = w'
  | .arr bs, .arr n => bs.length = n
  | _, _ => False

end Bf
