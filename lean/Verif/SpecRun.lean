import Verif.SpecSurface

/-!
# Specification vocabulary for the behaviour of a declared struct

Where the bits of a declared field are, what its getter returns and what its default is, in terms
of the declaration only.
-/

namespace Bf

/-- The number a literal denotes. -/
def IntLit.value (l : IntLit) : Int := if l.neg then -(l.magnitude : Int) else l.magnitude

/-- The type named by the suffix of a literal (`usize` and `isize` on a 64-bit target). -/
def suffixType (s : List Char) : Option IntTy :=
  if s = ['u', '8'] then some .u8
  else if s = ['u', '1', '6'] then some .u16
  else if s = ['u', '3', '2'] then some .u32
  else if s = ['u', '6', '4'] ∨ s = ['u', 's', 'i', 'z', 'e'] then some .u64
  else if s = ['u', '1', '2', '8'] then some .u128
  else if s = ['i', '8'] then some .i8
  else if s = ['i', '1', '6'] then some .i16
  else if s = ['i', '3', '2'] then some .i32
  else if s = ['i', '6', '4'] ∨ s = ['i', 's', 'i', 'z', 'e'] then some .i64
  else if s = ['i', '1', '2', '8'] then some .i128
  else none

/-- The type rustc gives to an integer literal: that of its suffix; else the one its context asks
for; else `i32` (Rust reference, "Integer literal expressions"). -/
def IntLit.type (l : IntLit) (context : Option IntTy) : IntTy :=
  ((suffixType l.suffix).or context).getD .i32

/-- The number of the type that is equal to `n` up to a multiple of `2 ^ bits`. -/
def IntTy.reduce (t : IntTy) (n : Int) : Int :=
  if t.unsigned then n % 2 ^ t.bitSize else n.bmod (2 ^ t.bitSize)

/-- The type asked for where the default of a field of type `t` is used. The setter of an integer
field is called with `default as _`, which asks for no type: rustc settles the type of a literal
before it looks at casts to an inferred type. Other uses are `default as u128` and an operand of the
storage type. -/
def TypeSpec.Asks (storage t : TypeSpec) (writable : Prop) (context : Option IntTy) : Prop :=
  match t, storage with
  | .int _, .int u => (writable ∧ context = none) ∨ (¬ writable ∧ context = some u)
  | .int _, .bytes _ => (writable ∧ context = none) ∨ (¬ writable ∧ context = some .u128)
  | .bytes _, .int u => (writable ∧ context = some .u128) ∨ (¬ writable ∧ context = some u)
  | _, _ => False

/-- The default, used for a field of type `t`, denotes the value. A literal that does not fit its
type is reduced to it (the lint against this does not apply to code made by an attribute macro); a
literal of an unsigned type cannot be negated. (The value of another expression is up to rustc.) -/
def DefaultSpec.Denotes (storage t : TypeSpec) (writable : Prop) : DefaultSpec → Val → Prop
  | .int l, v => ∃ context, storage.Asks t writable context ∧
    (l.neg = true → (l.type context).unsigned = false) ∧
    (¬ writable → ∀ u, storage = .int u → l.type context = u ∧ l.suffix ≠ ['u', 's', 'i', 'z', 'e']) ∧
    v = .int ((l.type context).reduce l.value)
  | .bool b, v => v = .bool b
  | .expr _, _ => True

/-- The storage can hold the number: it is an integer in its range, or a byte array, in which case
any number is cast. -/
def TypeSpec.HoldsInt (storage : TypeSpec) (n : Int) : Prop :=
  match storage with
  | .int t => 0 ≤ n ∧ n < 2 ^ t.bitSize
  | .bytes _ => True
  | .custom _ _ => False

/-- The code generated for a field of type `t` with the default value `v` compiles. A field that
can be written (`writable`) is initialised by its setter, which casts; of another field the default
becomes a number of the storage type. Defaults of byte arrays are written as a number if the
storage is a number. -/
def TypeSpec.Takes (storage : TypeSpec) (t : TypeSpec) (writable : Prop) (v : Val) : Prop :=
  match t, v with
  | .int .bool, .bool _ => True
  | .int .bool, _ => False
  | .int _, .int n => writable ∨ storage.HoldsInt n
  | .custom _ _, .custom _ => True
  | .bytes len, .arr a => (∃ n, storage = .bytes n) ∧ a.length = len
  | .bytes _, .int n => (∃ u, storage = .int u) ∧ (writable ∨ storage.HoldsInt n)
  | _, _ => False

/-- The code generated for the struct compiles and its fields are of supported shapes:
the storage is not `bool`; a byte array field is not wider than its type and, if the storage is an
integer, has a whole number of bytes and a type of at most 16; a field of a user's type has at most
128 bits; defaults compile. -/
structure StructSpec.Usable (s : StructSpec) : Prop where
  storage : s.storage ≠ .int .bool
  bytes : ∀ f ∈ s.fields, f.ignored = false → ∀ len, f.ty = .bytes len → f.width ≤ 8 * len ∧
    ∀ u, s.storage = .int u → f.width % 8 = 0 ∧ len ≤ 16
  custom : ∀ f ∈ s.fields, f.ignored = false → ∀ name c, f.ty = .custom name c → f.width ≤ 128
  default : ∀ f ∈ s.fields, f.ignored = false → ∀ d v, f.default? = some (d, v) →
    d.Denotes s.storage f.ty f.CanWrite v ∧ TypeSpec.Takes s.storage f.ty f.CanWrite v

/-- Every user type used in the layout preserves every pattern of its field. -/
def StructSpec.Lawful (s : StructSpec) : Prop :=
  ∀ f ∈ s.fields, f.ignored = false → ∀ name c, f.ty = .custom name c → c.Lawful f.width

/-- The order in force, given the arguments and the Cargo features. -/
def orderValue (cfg : String → Bool) (as : List BitfieldArgSpec) : Order :=
  (statedOrder as).getD (orderByDefault cfg)

/-- `f` is a field of the layout of `s`, and its bits are those from `offset` on. -/
def StructSpec.At (s : StructSpec) (order : Order) (f : FieldSpec) (offset : Nat) : Prop :=
  f.ignored = false ∧ ∃ pre post size, s.fields = pre ++ f :: post ∧ s.storage.size = some size ∧
    offset = specOffset order size (pre.map FieldSpec.width).sum f.width

/-- The value of a field of type `t` and `w` bits with the bits `x` (bit 0 first): a number in
binary or two's complement notation, a truth value, a byte array (the missing bits are 0), or
whatever the user's `from_bits` makes of the number. -/
def TypeSpec.read (t : TypeSpec) (w : Nat) (x : Bits) : R Val :=
  match t with
  | .int .bool => .ok (.bool (x 0))
  | .int it => .ok (.int (if it.unsigned then (natOf w x : Int) else intOf w x))
  | .bytes len => .ok (.arr (bytesOf len fun i => decide (i < w) && x i))
  | .custom _ c => (c.fromBits (natOf w x)).map .custom

/-- `v` is a value of the type. -/
def TypeSpec.Contains : TypeSpec → Val → Prop
  | .int .bool, .bool _ => True
  | .int .bool, _ => False
  | .int t, .int n =>
    if t.unsigned then 0 ≤ n ∧ n < 2 ^ t.bitSize
    else -(2 ^ (t.bitSize - 1) : Int) ≤ n ∧ n < 2 ^ (t.bitSize - 1)
  | .bytes len, .arr a => a.length = len
  | .custom _ _, .custom _ => True
  | _, _ => False

/-- The bits of a value of the type. -/
def TypeSpec.write (t : TypeSpec) : Val → Bits
  | .int n => intBit n
  | .bool b => fun i => decide (i = 0) && b
  | .arr bs => fun i => (bs.getD (i / 8) 0#8).getLsbD (i % 8)
  | .custom code =>
    match t with
    | .custom _ c => intBit (c.intoBits code)
    | _ => fun _ => false

/-- The bits of a field after construction: its default or zeros. -/
def FieldSpec.initial (f : FieldSpec) : Bits :=
  match f.default? with
  | some (_, v) => f.ty.write v
  | none => fun _ => false

end Bf
