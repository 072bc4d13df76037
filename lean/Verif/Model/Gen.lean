import Verif.Model.Types

/-!
# Building blocks of the generated code

Each definition is the Rust code emitted by the cited generator function, for a given
field. `GH` is generating/bitfield/features/common/generator_helper.rs (paths relative to
`/repo/bitfields_impl/src`). `const` names such as `X_BITS`/`X_OFFSET` are replaced
by their values (`get_field_bits_tokens`, GH:759-800).
-/

namespace Bf

/-- The error of checked setters, GH:342, 366 -/
def errTooBig : String := "Value is too big to fit within the field bits."

/-- `n as iN`/`n as uN`: the value of an integer after a cast to type `t`. -/
def IntTy.cast (t : IntTy) (n : Int) : Int :=
  if t.unsigned then ((BitVec.ofInt t.bitSize n).toNat : Int)
  else (BitVec.ofInt t.bitSize n).toInt

/-- `T::MAX >> (T::BITS - FIELD_BITS)`, GH:464, 713, 721 -/
def intMask (m : Mode) (w bits : Nat) : R (BitVec w) := do
  let s ← subU32 m w bits
  shr m (maxOf w) s

/-- `if FIELD_BITS == 128 { u128::MAX } else { (1u128 << FIELD_BITS) - 1 }`,
GH:485, 494, 543. The subtraction cannot overflow. -/
def mask128 (m : Mode) (bits : Nat) : R (BitVec 128) :=
  if bits = 128 then .ok (maxOf 128)
  else do
    let s ← shl m 1#128 bits
    return s - 1#128

/-- Loop reading `FIELD_BITS` bits of a byte array into a `u128`, GH:549-561 (without the
final inversion). `bit_index % 8` is below 8, so those shifts cannot
overflow. -/
def readU128 (m : Mode) (bs : List (BitVec 8)) (off bits : Nat) : R (BitVec 128) :=
  forUpTo bits (fun i val => do
    let bi ← addU32 m off i
    let b ← getB bs (bi / 8)
    let bv := ((b >>> (bi % 8)) &&& 1#8).setWidth 128
    let sh ← shl m bv i
    return val ||| sh) 0#128

/-- Loop reading `FIELD_BITS` bits of a byte array into `[u8; len]`, GH:506-538. -/
def readArr (m : Mode) (inv : Bool) (bs : List (BitVec 8)) (off bits len : Nat) :
    R (List (BitVec 8)) :=
  forUpTo bits (fun i arr => do
    let bi ← addU32 m off i
    let b ← getB bs (bi / 8)
    let bv := (b >>> (bi % 8)) &&& 1#8
    let bv := if inv then bv ^^^ 1#8 else bv
    let a ← getB arr (i / 8)
    setB arr (i / 8) (a ||| (bv <<< (i % 8)))) (List.replicate len 0#8)

/-- Loop writing the low `FIELD_BITS` bits of a `u128` into a byte array, GH:681-698. -/
def writeU128 (m : Mode) (bs : List (BitVec 8)) (off bits : Nat) (val : BitVec 128) :
    R (List (BitVec 8)) :=
  forUpTo bits (fun i bs => do
    let bi ← addU32 m off i
    let sh ← shr m val i
    let b ← getB bs (bi / 8)
    setB bs (bi / 8) (putBit b (bi % 8) ((sh &&& 1#128) == 1#128))) bs

/-- Loop writing the first `FIELD_BITS` bits of a byte array field into the storage,
GH:649-666. -/
def writeArr (m : Mode) (bs : List (BitVec 8)) (off bits : Nat) (src : List (BitVec 8)) :
    R (List (BitVec 8)) :=
  forUpTo bits (fun i bs => do
    let bi ← addU32 m off i
    let s ← getB src (i / 8)
    let sb := (s >>> (i % 8)) &&& 1#8
    let b ← getB bs (bi / 8)
    setB bs (bi / 8) (putBit b (bi % 8) (sb == 1#8))) bs

/-- Packing a byte array argument into the backing integer, GH:432-443:
`__v |= (__arr[__i] as T) << (__i * 8)` for `__i < pack_len`. -/
def packBytes (m : Mode) (w : Nat) (a : List (BitVec 8)) (packLen : Nat) : R (BitVec w) :=
  forUpTo packLen (fun i v => do
    let b ← getB a i
    let sh ← shl m (b.setWidth w) (i * 8)
    return v ||| sh) 0#w

/-- Unpacking a `u128` into `[u8; len]`: `__arr[__i] = ((__val >> (__i * 8)) & 0xFF) as u8`,
GH:611-620, field_getters_feature.rs:98-109, invert_bit_ops_feature.rs:198-209. -/
def unpack (m : Mode) (len : Nat) (v : BitVec 128) : R (List (BitVec 8)) :=
  forUpTo len (fun i arr => do
    let sh ← shr m v (i * 8)
    setB arr i ((sh &&& 0xFF#128).setWidth 8)) (List.replicate len 0#8)

/-- `(v & !(mask << OFFSET)) | ((field_bits & mask) << OFFSET)`, GH:716, 723 -/
def intSetBits (m : Mode) {w : Nat} (v mask fieldBits : BitVec w) (off : Nat) :
    R (BitVec w) := do
  let a ← shl m mask off
  let b ← shl m (fieldBits &&& mask) off
  return (v &&& ~~~a) ||| b

/-- `(v & !(1 << OFFSET)) | (1 << OFFSET)` / `v &= !(1 << OFFSET)`, GH:703-707;
set_get_bit_ops_feature.rs:103-107, 118-122. -/
def intSetBit (m : Mode) {w : Nat} (v : BitVec w) (off : Nat) (b : Bool) : R (BitVec w) := do
  let one ← shl m 1#w off
  return if b then (v &&& ~~~one) ||| one else v &&& ~~~one

/-- `generate_extract_field_bits_from_source_into_variable_tokens` without cast,
GH:387-566: `let value = ..` from a source of the backing type. The result is an integer of
the backing type (integer-backed), a `u128` or a byte array (array-backed). -/
def extract (m : Mode) (f : Field) (inv : Bool) : Store → R Val
  | .int w v => do
    let mask ← intMask m w f.bits
    let sh ← shr m v f.offset
    let sh := if inv then ~~~sh else sh
    return .int ((sh &&& mask).toNat : Int)
  | .arr bs =>
    match f.ty with
    | .array len => do
      let a ← readArr m inv bs f.offset f.bits len
      return .arr a
    | _ => do
      let val ← readU128 m bs f.offset f.bits
      if inv then
        let mask ← mask128 m f.bits
        return .int (((~~~val) &&& mask).toNat : Int)
      else return .int (val.toNat : Int)

/-- `generate_extract_field_bits_from_source_into_variable_tokens` with cast (setter argument
to `value`), GH:418-449 with 454-456, 468-499. The first component is `bits > mask`
(the operands of GH:341), `false` on the paths that have no `mask` variable and no
check. -/
def extractCast (m : Mode) (f : Field) (st : Store) (v : Val) : R (Bool × Val) :=
  match st with
  | .int w _ => do
    let mask ← intMask m w f.bits
    let bits : BitVec w ← match f.ty, v with
      | .custom c, .custom code => .ok (BitVec.ofInt w (c.intoBits code))
      | .array len, .arr a => packBytes m w a (min (f.bits / 8) len)
      | .int .bool, .bool b => .ok (BitVec.ofInt w (if b then 1 else 0))
      | .int _, .int n => .ok (BitVec.ofInt w n)
      | _, _ => .error .rejected
    return (mask < bits, .int ((bits &&& mask).toNat : Int))
  | .arr _ =>
    match f.ty, v with
    | .int .bool, .bool b => .ok (false, .int (if b then 1 else 0))
    | .array _, .arr a => .ok (false, .arr a)
    | .custom c, .custom code => do
      let bits := BitVec.ofInt 128 (c.intoBits code)
      let mask ← mask128 m f.bits
      return (mask < bits, .int ((bits &&& mask).toNat : Int))
    | .int t, .int n => do
      let mask ← mask128 m f.bits
      let mask := mask.setWidth t.bitSize
      let bits := BitVec.ofInt t.bitSize n
      let val := bits &&& mask
      return (mask < bits, .int (if t.unsigned then (val.toNat : Int) else val.toInt))
    | _, _ => .error .rejected

/-- `get_value_variable_tokens`, GH:321-336: what is stored, computed from `value`. -/
def valueVar (f : Field) (value : Val) : R Val :=
  match f.ty, value with
  | .custom c, .int n => do
    let code ← c.fromBits n.toNat
    return .custom code
  | .int .bool, .int n => .ok (.bool (n != 0))
  | .custom _, _ => .error .rejected
  | .int .bool, _ => .error .rejected
  | _, v => .ok v

/-- `generate_setting_field_without_setter_tokens`, GH:632-725. On an integer-backed bitfield
`let field_bits = value` must have the backing type, so an integer outside that type is
rejected by rustc. -/
def directSet (m : Mode) (f : Field) (s : Store) (v : Val) : R Store :=
  match s with
  | .arr bs =>
    match f.ty, v with
    | .array _, .arr a => do return .arr (← writeArr m bs f.offset f.bits a)
    | .int .bool, .bool b => do
      return .arr (← writeU128 m bs f.offset f.bits (if b then 1#128 else 0#128))
    | .custom c, .custom code => do
      return .arr (← writeU128 m bs f.offset f.bits (BitVec.ofInt 128 (c.intoBits code)))
    | .int .bool, _ => .error .rejected
    | .int _, .int n => do
      return .arr (← writeU128 m bs f.offset f.bits (BitVec.ofInt 128 n))
    | _, _ => .error .rejected
  | .int w x =>
    match f.ty, v with
    | .int .bool, .bool b => do return .int w (← intSetBit m x f.offset b)
    | .custom c, .custom code => do
      let mask ← intMask m w f.bits
      return .int w (← intSetBits m x mask (BitVec.ofInt w (c.intoBits code)) f.offset)
    | .int .bool, _ => .error .rejected
    | .int _, .int n | .array _, .int n =>
      if 0 ≤ n ∧ n < 2 ^ w then do
        let mask ← intMask m w f.bits
        return .int w (← intSetBits m x mask (BitVec.ofInt w n) f.offset)
      else .error .rejected
    | _, _ => .error .rejected

/-- `generate_signed_bit_size_check_tokens`, GH:350-369 -/
def signedTooBig (f : Field) (v : Val) : Bool :=
  match f.ty, v with
  | .int t, .int n =>
    if f.bits ≥ t.bitSize then false
    else decide (n > 2 ^ (f.bits - 1) - 1) || decide (n < -(2 ^ (f.bits - 1) : Int))
  | _, _ => false

/-- Body of `set_x` (`check = false`) and `checked_set_x` (`check = true`):
`generate_setting_field_from_variable_tokens` with `use_setter = false, cast_bits = true`,
GH:225-285, called from field_setters_feature.rs:41-86 and (for fields without a setter)
builder_feature.rs:137-179. Returns the `Result` and the new state. -/
def setImpl (m : Mode) (check : Bool) (f : Field) (s : Store) (v : Val) :
    R (Except String Unit × Store) := do
  if check && !f.ty.unsigned && signedTooBig f v then
    return (.error errTooBig, s)
  let (gt, value) ← extractCast m f s v
  if check && f.ty.unsigned && !f.ty.isBool && !f.ty.isArray && gt then
    return (.error errTooBig, s)
  let x ← valueVar f value
  let s' ← directSet m f s x
  return (.ok (), s')

/-- `set_x(v)`, field_setters_feature.rs:41-86 -/
def setX (m : Mode) (f : Field) (s : Store) (v : Val) : R Store := do
  let (_, s') ← setImpl m false f s v
  return s'

/-- `generate_field_setter_call_tokens`, GH:574-629: `this.set_x(value as _)` etc. -/
def setterCall (m : Mode) (f : Field) (s : Store) (v : Val) : R Store :=
  match f.ty, v with
  | .int .bool, .bool b => setX m f s (.bool b)
  | .int .bool, _ => .error .rejected
  | .int t, .int n => setX m f s (.int (t.cast n))
  | .custom _, .custom code => setX m f s (.custom code)
  | .array len, v =>
    match s, v with
    | .int _ _, .int n => do
      let a ← unpack m len (BitVec.ofInt 128 n)
      setX m f s (.arr a)
    | .arr _, .arr a => setX m f s (.arr a)
    | _, _ => .error .rejected
  | _, _ => .error .rejected

/-- `generate_setting_field_from_variable_tokens` with `use_setter = true, cast_bits = false,
check_bit_size = false`, GH:225-285: copy the field out of `src` (the `bits` variable). -/
def setFromSource (m : Mode) (f : Field) (src : Store) (s : Store) : R Store := do
  let value ← extract m f false src
  let x ← valueVar f value
  if f.hasSetter then setterCall m f s x else directSet m f s x

/-- A sequence of statements, one per field (`#( ... )*`). -/
def forFields (fs : List Field) (body : Field → Store → R Store) (s : Store) : R Store :=
  fs.foldlM (fun s f => body f s) s

/-- `ProtectionType`, GH:729-735 -/
inductive Protection where
  | readOnly | writeOnly | none
deriving DecidableEq, Repr

/-- `generate_extract_all_field_bits_from_variable_into_variable_tokens_and_set_fields_tokens`,
GH:737-756 -/
def setAllFromSource (m : Mode) (B : Bitfield) (p : Protection) (src s : Store) : R Store :=
  forFields (B.fields.filter fun f =>
    match p with
    | .readOnly => f.hasSetter
    | .writeOnly => f.hasReadAccess
    | .none => true) (fun f s => setFromSource m f src s) s

/-- `generate_setting_field_to_default_tokens`, GH:138-161 (called only on fields
with a default; without one the macro would panic). -/
def setDefault (m : Mode) (f : Field) (s : Store) : R Store :=
  match f.default with
  | some v => if f.hasSetter then setterCall m f s v else directSet m f s v
  | none => .error .unreachable

/-- `generate_setting_fields_to_default_value_tokens_list`, GH:126-135 -/
def setDefaults (m : Mode) (B : Bitfield) (s : Store) : R Store :=
  forFields (B.fields.filter Field.hasDefault) (setDefault m) s

/-- The zero of a field, GH:183-205. -/
def zeroVal (f : Field) (s : Store) : R Val :=
  match f.ty with
  | .int .bool => .ok (.bool false)
  | .int _ => .ok (.int 0)
  | .custom c => do
    let code ← c.fromBits 0
    return .custom code
  | .array len =>
    match s with
    | .int _ _ => .ok (.int 0)
    | .arr _ => .ok (.arr (List.replicate len 0#8))

/-- `generate_setting_field_to_zero_tokens`, GH:182-222 -/
def setZero (m : Mode) (f : Field) (s : Store) : R Store := do
  let v ← zeroVal f s
  if f.hasSetter then setterCall m f s v else directSet m f s v

/-- `generate_setting_fields_to_zero_tokens_list`, GH:169-179 -/
def setZeros (m : Mode) (B : Bitfield) (skipDefaults : Bool) (s : Store) : R Store :=
  forFields (B.fields.filter fun f => !(skipDefaults && f.hasDefault)) (setZero m) s

/-- `generate_bitfield_struct_initialization_tokens`, GH:44-88 (the `val` part) -/
def initStore (B : Bitfield) : Store :=
  match B.backing with
  | .int w => .int w 0#w
  | .arr n => .arr (List.replicate n 0#8)

/-- `generate_new_function_implementation_tokens`, GH:872-915, after the optional
initialisation of `this`. -/
def newBody (m : Mode) (B : Bitfield) (settingDefaults : Bool) (s : Store) : R Store := do
  let s ← setZeros m B settingDefaults s
  if settingDefaults then setDefaults m B s
  else forFields (B.fields.filter fun f => f.reserved && f.hasDefault) (setDefault m) s

/-- `generate_sign_extend_bit_operation_tokens`, GH:930-946 -/
def signExtendVal (m : Mode) (f : Field) (value : Val) : R Val :=
  match f.ty, value with
  | .int t, .int n =>
    if t.unsigned then .ok value
    else do
      let shift ← subU32 m t.bitSize f.bits
      let x := BitVec.ofInt t.bitSize n
      let x ← shl m x shift
      let x ← sshr m x shift
      return .int x.toInt
  | _, v => .ok v

/-- `generate_value_return_tokens`, field_getters_feature.rs:74-115, and
`generate_value_to_field_tokens`, invert_bit_ops_feature.rs:182-218 (same code). -/
def valueToField (m : Mode) (f : Field) (value : Val) : R Val :=
  match f.ty, value with
  | .int .bool, .int n => .ok (.bool (n != 0))
  | .int .bool, _ => .error .rejected
  | .int t, .int n => .ok (.int (t.cast n))
  | .custom c, .int n => do
    let code ← c.fromBits n.toNat
    return .custom code
  | .array len, .int n => do
    let a ← unpack m len (BitVec.ofInt 128 n)
    return .arr a
  | .array _, .arr a => .ok (.arr a)
  | _, _ => .error .rejected

/-- `x()`, field_getters_feature.rs:36-71 -/
def getX (m : Mode) (f : Field) (s : Store) : R Val := do
  let value ← extract m f false s
  let value ← signExtendVal m f value
  valueToField m f value

/-- `x_inverted()`, invert_bit_ops_feature.rs:147-180 -/
def invertedX (m : Mode) (f : Field) (s : Store) : R Val := do
  let value ← extract m f true s
  valueToField m f value

/-- `invert_x()`, invert_bit_ops_feature.rs:110-144 -/
def invertX (m : Mode) (f : Field) (s : Store) : R Store := do
  let value ← extract m f true s
  let v ← valueToField m f value
  setX m f s v

/-- The fields whose bits a protection type covers, GH:955-962 -/
def protectedFields (B : Bitfield) (p : Protection) : List Field :=
  B.fields.filter fun f =>
    match p with
    | .readOnly => !f.hasSetter
    | .writeOnly => !f.hasReadAccess
    | .none => false

/-- The `u128` mask computed at macro time, GH:965-972 -/
def protMask128 (fs : List Field) : BitVec 128 :=
  fs.foldl (fun acc f =>
    (List.range f.bits).foldl (fun acc i => acc ||| (1#128 <<< (f.offset + i))) acc) 0#128

/-- The byte mask computed at macro time, GH:977-989 -/
def protMaskBytes (fs : List Field) (n : Nat) : List (BitVec 8) :=
  fs.foldl (fun acc f =>
    (List.range f.bits).foldl (fun acc i =>
      let bit := f.offset + i
      if bit / 8 < n then
        acc.set (bit / 8) ((acc.getD (bit / 8) 0#8) ||| (1#8 <<< (bit % 8)))
      else acc) acc) (List.replicate n 0#8)

end Bf
