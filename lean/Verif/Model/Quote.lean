import Verif.Model.Rust
import Verif.Model.Api

/-!
# The generator as a producer of Rust code

Each definition returns the statements or functions that the cited generator function puts into its `quote!`, token
for token up to the points listed in `Model/Rust.lean`. `GH` is
generating/bitfield/features/common/generator_helper.rs, `features/` is generating/bitfield/features/ (paths
relative to `/repo/bitfields_impl/src`). Attributes, documentation, visibility and `const` are left out.
-/

namespace Bf.Quote

open Rust

/-- What the generator functions read from the parsed bitfield besides the fields' visibilities. -/
structure Gen where
  B : Bitfield
  /-- `has_ignored_fields`, parsing/bitfields/bitfield.rs:65-67 -/
  ignored : Bool
  /-- `generate_new`, parsing/bitfields/bitfield_attribute/bitfield_arguments.rs:106 -/
  new : Bool

/-- `to_tokens` of an integer type, parsing/common/spanned_data_type.rs:240-257 -/
def intTy (t : IntTy) : Ty :=
  match t with
  | .bool => .bool
  | t => if t.unsigned then .u t.bitSize else .i t.bitSize

/-- `to_tokens` of a field's type, parsing/common/spanned_data_type.rs:141-145 -/
def fieldTy : DataType → Ty
  | .int t => intTy t
  | .array n => .arr n
  | .custom _ => .obj

/-- `to_tokens` of the backing type, parsing/common/spanned_data_type.rs:141-145 -/
def backTy : Backing → Ty
  | .int w => .u w
  | .arr n => .arr n

/-! ## generator_helper.rs -/

/-- `BitsSource`, GH:9-16 -/
inductive Source where
  | bitfield
  | variable
deriving DecidableEq, Repr

/-- `get_field_bits_tokens`, GH:759-778 -/
def bitsTok (f : Field) (builder : Bool) : Expr :=
  if f.hasConstants then .const builder .bitsConst f.name else .lit f.bits (some (.u 32))

/-- `get_field_offset_tokens`, GH:781-800 -/
def offTok (f : Field) (builder : Bool) : Expr :=
  if f.hasConstants then .const builder .offsetConst f.name else .lit f.offset (some (.u 32))

/-- `bits_source_tokens`, GH:397-404 -/
def sourceTok (src : Source) (builder : Bool) : Expr :=
  match src with
  | .bitfield => .inner builder
  | .variable => .var "bits"

/-- `T::MAX >> (T::BITS - FIELD_BITS)`, GH:464, 713, 721 -/
def maskTok (w : Nat) (bits : Expr) : Expr := .bin .shr (.maxOf w) (.bin .sub (.bitsOf w) bits)

/-- `if FIELD_BITS == 128 { u128::MAX } else { (1u128 << FIELD_BITS) - 1 }`, GH:485, 494, 543 -/
def mask128Tok (bits : Expr) : Expr :=
  .ite (.bin .eq bits (.lit 128 none)) (.maxOf 128)
    (.bin .sub (.bin .shl (.lit 1 (some (.u 128))) bits) (.lit 1 none))

/-- `#invert_value_tokens`, GH:411-415 -/
def notIf (inv : Bool) (e : Expr) : Expr := if inv then .not e else e

/-- `i += 1` -/
def incr (i : String) : Stmt := .assign i (some .add) (.lit 1 none)

/-- `(e as u8 as ..)`: `((__val >> (__i * 8)) & 0xFF) as u8` -/
def byteTok (val : String) : Expr :=
  .cast (.bin .and (.bin .shr (.var val) (.bin .mul (.var "__i") (.lit 8 none))) (.lit 0xFF none)) (.u 8)

/-- The block that splits a `u128` into bytes, GH:611-620, features/field_getters_feature.rs:98-109,
features/invert_bit_ops_feature.rs:198-209 -/
def unpackTok (val : String) (e : Expr) (len : Nat) : Expr :=
  .block (.all
    [.letS val none (.cast e (.u 128)),
     .letS "__arr" none (.zeros len) true,
     .letS "__i" (some .usize) (.lit 0 none) true,
     .loop (.bin .lt (.var "__i") (.lit len (some .usize))) (.all
       [.assignElem "__arr" (.var "__i") none (byteTok val),
        incr "__i"])])
    (.var "__arr")

/-- The block that packs the bytes of an array argument, GH:432-442 -/
def packTok (w packLen : Nat) : Expr :=
  .block (.all
    [.letS "__arr" none (.var "bits"),
     .letS "__v" (some (.u w)) (.lit 0 none) true,
     .letS "__i" (some .usize) (.lit 0 none) true,
     .loop (.bin .lt (.var "__i") (.lit packLen (some .usize))) (.all
       [.assign "__v" (some .or)
          (.bin .shl (.cast (.index (.var "__arr") (.var "__i")) (.u w)) (.bin .mul (.var "__i") (.lit 8 none))),
        incr "__i"])])
    (.var "__v")

/-- The block that reads an array field out of a byte array, GH:508-536 -/
def readArrTok (source bits off : Expr) (len : Nat) (inv : Bool) : Expr :=
  .block (.all
    [.letS "__arr" none (.zeros len) true,
     .letS "__i" (some (.u 32)) (.lit 0 none) true,
     .loop (.bin .lt (.var "__i") bits) (.all
       [.letS "bit_index" none (.bin .add off (.var "__i")),
        .letS "byte_idx" none (.cast (.bin .div (.var "bit_index") (.lit 8 none)) .usize),
        .letS "bit_in_byte" none (.bin .rem (.var "bit_index") (.lit 8 none)),
        .letS "bit_val" none
          (let b := Expr.bin .and (.bin .shr (.index source (.var "byte_idx")) (.var "bit_in_byte")) (.lit 1 none)
           if inv then .bin .xor b (.lit 1 none) else b),
        .assignElem "__arr" (.cast (.bin .div (.var "__i") (.lit 8 none)) .usize) (some .or)
          (.bin .shl (.var "bit_val") (.bin .rem (.var "__i") (.lit 8 none))),
        incr "__i"])])
    (.var "__arr")

/-- The block that reads other fields out of a byte array, GH:549-562 -/
def readTok (source bits off : Expr) (inv : Bool) : Expr :=
  .block (.all
    [.letS "val" none (.lit 0 (some (.u 128))) true,
     .letS "i" (some (.u 32)) (.lit 0 none) true,
     .loop (.bin .lt (.var "i") bits) (.all
       [.letS "bit_index" none (.bin .add off (.var "i")),
        .letS "byte_idx" none (.bin .div (.var "bit_index") (.lit 8 none)),
        .letS "bit_in_byte" none (.bin .rem (.var "bit_index") (.lit 8 none)),
        .letS "bit_val" none
          (.cast (.bin .and (.bin .shr (.index source (.cast (.var "byte_idx") .usize)) (.var "bit_in_byte"))
            (.lit 1 none)) (.u 128)),
        .assign "val" (some .or) (.bin .shl (.var "bit_val") (.var "i")),
        incr "i"])])
    (if inv then .bin .and (.not (.var "val")) (mask128Tok bits) else .var "val")

/-- `generate_extract_field_bits_from_source_into_variable_tokens`, GH:387-566 -/
def extractTok (B : Bitfield) (f : Field) (src : Source) (cast inv builder : Bool) : Stmt :=
  let source := sourceTok src builder
  let bits := bitsTok f builder
  let off := offTok f builder
  match B.backing with
  | .int w =>
    .all
      [.letS "mask" none (maskTok w bits),
       if src = .variable && cast then
         match f.ty with
         | .custom _ => .letS "bits" none (.cast (.intoBits (.var "bits")) (.u w))
         | .array len => .letS "bits" none (packTok w (min (f.bits / 8) len))
         | .int _ => .letS "bits" none (.cast (.var "bits") (.u w))
       else .skip,
       if src = .variable && cast then
         .letS "value" none (.bin .and (notIf inv source) (.var "mask"))
       else
         .letS "value" none (.bin .and (notIf inv (.bin .shr source off)) (.var "mask"))]
  | .arr _ =>
    if src = .variable && cast then
      match f.ty with
      | .int .bool => .letS "value" none (.cast (.var "bits") (.u 128))
      | .array _ => .letS "value" none (.var "bits")
      | .custom _ => .all
          [.letS "bits" none (.cast (.intoBits (.var "bits")) (.u 128)),
           .letS "mask" none (mask128Tok bits),
           .letS "value" none (.block (.letS "val" none (.bin .and (.var "bits") (.var "mask")))
             (notIf inv (.var "val")))]
      | .int t => .all
          [.letS "mask" none (.cast (mask128Tok bits) (intTy t)),
           .letS "value" none (.block (.letS "val" none (.bin .and (.var "bits") (.var "mask")))
             (notIf inv (.var "val")))]
    else
      match f.ty with
      | .array len => .letS "value" none (readArrTok source bits off len inv)
      | _ => .letS "value" none (readTok source bits off inv)

/-- `get_value_variable_tokens`, GH:321-336 -/
def valueTok (f : Field) : Expr :=
  match f.ty with
  | .custom c => .fromBits c (.var "value")
  | .int .bool => .bin .ne (.var "value") (.lit 0 none)
  | _ => .var "value"

/-- `generate_field_setter_call_tokens`, GH:574-629 -/
def setterCallTok (B : Bitfield) (f : Field) (value : Expr) (builder : Bool) : Stmt :=
  let set := Tag.acc .set f.name
  match f.ty with
  | .int .bool => .expr (.method builder set value)
  | .int _ => .expr (.method builder set (.castInfer value))
  | .custom _ => .expr (.method builder set value)
  | .array len =>
    match B.backing with
    | .int _ => .expr (.method builder set (unpackTok "__int_val" value len))
    | .arr _ => .expr (.method builder set value)

/-- `this.0 = (this.0 & !(mask << OFFSET)) | ((field_bits & mask) << OFFSET)`, GH:716, 723 -/
def storeBitsTok (off : Expr) (builder : Bool) : Stmt :=
  .assignInner builder none
    (.bin .or (.bin .and (.inner builder) (.not (.bin .shl (.var "mask") off)))
      (.bin .shl (.bin .and (.var "field_bits") (.var "mask")) off))

/-- `if c { this.0 = (this.0 & !(1 << o)) | (1 << o); } else { this.0 &= !(1 << o); }`, GH:702-708,
features/set_get_bit_ops_feature.rs:103-107, 118-122 -/
def storeBitTok (c off : Expr) (builder : Bool) : Stmt :=
  .ite c
    (.assignInner builder none
      (.bin .or (.bin .and (.inner builder) (.not (.bin .shl (.lit 1 none) off))) (.bin .shl (.lit 1 none) off)))
    (.assignInner builder (some .and) (.not (.bin .shl (.lit 1 none) off)))

/-- `if c { this.0[i] |= 1 << k; } else { this.0[i] &= !(1 << k); }`, GH:658-662, 690-694,
features/set_get_bit_ops_feature.rs:169-173, 186-190, 210-214, 247-251 -/
def storeByteBitTok (c i k : Expr) (builder : Bool) : Stmt :=
  .ite c
    (.assignInnerElem builder i (some .or) (.bin .shl (.lit 1 none) k))
    (.assignInnerElem builder i (some .and) (.not (.bin .shl (.lit 1 none) k)))

/-- `generate_setting_field_without_setter_tokens`, GH:632-725 -/
def directTok (B : Bitfield) (f : Field) (value : Expr) (builder : Bool) : Stmt :=
  let bits := bitsTok f builder
  let off := offTok f builder
  match B.backing with
  | .arr _ =>
    match f.ty with
    | .array _ => .scope (.all
        [.letS "__src" none value,
         .letS "__i" (some (.u 32)) (.lit 0 none) true,
         .loop (.bin .lt (.var "__i") bits) (.all
           [.letS "bit_index" none (.bin .add off (.var "__i")),
            .letS "byte_idx" none (.cast (.bin .div (.var "bit_index") (.lit 8 none)) .usize),
            .letS "bit_in_byte" none (.bin .rem (.var "bit_index") (.lit 8 none)),
            .letS "src_bit" none
              (.bin .and (.bin .shr (.index (.var "__src") (.cast (.bin .div (.var "__i") (.lit 8 none)) .usize))
                (.bin .rem (.var "__i") (.lit 8 none))) (.lit 1 none)),
            storeByteBitTok (.bin .eq (.var "src_bit") (.lit 1 none)) (.var "byte_idx") (.var "bit_in_byte")
              builder,
            incr "__i"])])
    | ty => .scope (.all
        [.letS "val_to_set" none
          (match ty with
           | .int .bool => .ite value (.lit 1 (some (.u 128))) (.lit 0 (some (.u 128)))
           | .custom _ => .cast (.intoBits value) (.u 128)
           | _ => .cast value (.u 128)),
         .letS "i" (some (.u 32)) (.lit 0 none) true,
         .loop (.bin .lt (.var "i") bits) (.all
           [.letS "bit_index" none (.bin .add off (.var "i")),
            .letS "byte_idx" none (.bin .div (.var "bit_index") (.lit 8 none)),
            .letS "bit_in_byte" none (.bin .rem (.var "bit_index") (.lit 8 none)),
            .letS "bit_val" none (.bin .and (.bin .shr (.var "val_to_set") (.var "i")) (.lit 1 none)),
            storeByteBitTok (.bin .eq (.var "bit_val") (.lit 1 none)) (.cast (.var "byte_idx") .usize)
              (.var "bit_in_byte") builder,
            incr "i"])])
  | .int w =>
    match f.ty with
    | .int .bool => storeBitTok value off builder
    | .custom _ => .all
        [.letS "mask" none (maskTok w bits),
         .letS "field_bits" none (.cast (.intoBits value) (.u w)),
         storeBitsTok off builder]
    | _ => .all
        [.letS "mask" none (maskTok w bits),
         -- no annotation in the source: the type follows from `field_bits & mask`
         .letS "field_bits" (some (.u w)) value,
         storeBitsTok off builder]

/-- `generate_bit_size_check_tokens`, GH:339-345 -/
def checkTok : Stmt := .ite (.bin .gt (.var "bits") (.var "mask")) (.ret (.errE errTooBig)) .skip

/-- `generate_signed_bit_size_check_tokens`, GH:350-369, and `make_signed_literal`, GH:373-384: the literals carry
the suffix of the field's type. -/
def signedCheckTok (f : Field) : Stmt :=
  match f.ty with
  | .int t =>
    if f.bits ≥ t.bitSize then .skip
    else
      let max := 2 ^ (f.bits - 1) - 1
      .ite (.orElse (.bin .gt (.var "bits") (.lit max (some (intTy t))))
          (.bin .lt (.var "bits") (.neg (.lit (max + 1) (some (intTy t))))))
        (.ret (.errE errTooBig)) .skip
  | _ => .skip

/-- `generate_builder_direct_setter_call_tokens`, GH:287-319 -/
def builderSetTok (f : Field) (check : Bool) : Stmt :=
  let set := Tag.acc (if check then .checkedSet else .set) f.name
  let call := match f.ty with
    | .int .bool => Expr.method true set (.var "bits")
    | .int _ => .method true set (.castInfer (.var "bits"))
    | _ => .method true set (.var "bits")
  if check then .tryS call else .expr call

/-- `generate_setting_field_from_variable_tokens`, GH:225-285 -/
def setFromVarTok (B : Bitfield) (f : Field) (useSetter cast check builder : Bool) : Stmt :=
  let signed := !f.ty.unsigned
  let usingSetter := f.hasSetter && useSetter
  if builder && usingSetter then builderSetTok f check
  else .all
    [if !usingSetter && check && signed then signedCheckTok f else .skip,
     extractTok B f .variable cast false builder,
     if !usingSetter && check && !signed && !f.ty.isBool && !f.ty.isArray then checkTok else .skip,
     if usingSetter then setterCallTok B f (valueTok f) builder else directTok B f (valueTok f) builder]

/-- `generate_extract_all_field_bits_from_variable_into_variable_tokens_and_set_fields_tokens`, GH:737-756 -/
def setAllTok (B : Bitfield) (p : Protection) : Stmt :=
  .all ((B.fields.filter fun f =>
    match p with
    | .readOnly => f.hasSetter
    | .writeOnly => f.hasReadAccess
    | .none => true).map fun f => setFromVarTok B f true false false false)

/-- `generate_setting_field_to_default_tokens`, GH:138-161 -/
def setDefaultTok (B : Bitfield) (f : Field) : Stmt :=
  match f.default with
  | some v =>
    if f.hasSetter then setterCallTok B f (.user f.offset f.ty v) false
    else directTok B f (.user f.offset f.ty v) false
  | none => .skip

/-- `generate_setting_fields_to_default_value_tokens_list`, GH:126-135 -/
def setDefaultsTok (B : Bitfield) : Stmt :=
  .all ((B.fields.filter Field.hasDefault).map (setDefaultTok B))

/-- `value_tokens` of `generate_setting_field_to_zero_tokens`, GH:183-205 -/
def zeroTok (B : Bitfield) (f : Field) : Expr :=
  match f.ty with
  | .int .bool => .bool false
  | .int _ => .lit 0 none
  | .custom c => .fromBits c (.lit 0 none)
  | .array len =>
    match B.backing with
    | .int _ => .lit 0 none
    | .arr _ => .zeros len

/-- `generate_setting_field_to_zero_tokens`, GH:182-222 -/
def setZeroTok (B : Bitfield) (f : Field) : Stmt :=
  if f.hasSetter then setterCallTok B f (zeroTok B f) false else directTok B f (zeroTok B f) false

/-- `generate_setting_fields_to_zero_tokens_list`, GH:169-179 -/
def setZerosTok (B : Bitfield) (skipDefaults : Bool) : Stmt :=
  .all ((B.fields.filter fun f => !(skipDefaults && f.hasDefault)).map (setZeroTok B))

/-- `generate_bitfield_struct_initialization_tokens`, GH:44-88 (the `val` part; ignored fields are described in
`Model/Obj.lean`) -/
def initTok (B : Bitfield) (builder : Bool) (mu : Bool := true) : Stmt :=
  .initThis builder
    (match B.backing with
     | .int _ => .lit 0 none
     | .arr n => if B.heap then .boxNew (.zeros n) else .zeros n) mu

/-- `generate_this_mutable_modifier_tokens`, GH:918-927, with the lists of GH:881-892: one of them is not empty. -/
def thisMut (B : Bitfield) (settingDefaults : Bool) : Bool :=
  (B.fields.any fun f => !(settingDefaults && f.hasDefault)) || settingDefaults && B.fields.any Field.hasDefault

/-- `generate_new_function_implementation_tokens`, GH:872-915 -/
def newTok (B : Bitfield) (settingDefaults builder existing : Bool) : Stmt :=
  .all
    [if existing then .skip else initTok B builder (thisMut B settingDefaults),
     setZerosTok B settingDefaults,
     if settingDefaults then setDefaultsTok B else .skip,
     if settingDefaults then .skip
     else .all ((B.fields.filter fun f => f.reserved && f.hasDefault).map (setDefaultTok B))]

/-- `generate_sign_extend_bit_operation_tokens`, GH:930-946 -/
def signExtendTok (f : Field) : Stmt :=
  match f.ty with
  | .custom _ => .skip
  | ty =>
    if ty.unsigned then .skip
    else match ty with
      | .int t => .all
          [.letS "shift" none (.bin .sub (.lit t.bitSize (some (.u 32))) (.lit f.bits (some (.u 32)))),
           .letS "value" none (.cast (.var "value") (intTy t)),
           .letS "value" none (.bin .shr (.bin .shl (.var "value") (.var "shift")) (.var "shift"))]
      | _ => .skip

/-- `generate_protected_bits_mask_tokens`, GH:948-994 -/
def protTok (B : Bitfield) (p : Protection) : Stmt :=
  match B.backing with
  | .int w => .letS "protected_mask" none
      (.cast (.lit (protMask128 (protectedFields B p)).toNat (some (.u 128))) (.u w))
  | .arr n => .letS "protected_mask" (some (.arr n)) (.bytes (protMaskBytes (protectedFields B p) n))

/-- `generate_backing_data_param_ident`, GH:998-1004 -/
def paramTok (B : Bitfield) : String :=
  match B.backing with
  | .int _ => "bits"
  | .arr _ => "bytes"

/-! ## Fields -/

/-- `generate_value_return_tokens`, features/field_getters_feature.rs:74-115, and
`generate_value_to_field_tokens`, features/invert_bit_ops_feature.rs:182-218 -/
def returnTok (B : Bitfield) (f : Field) : Expr :=
  match f.ty with
  | .int .bool => .bin .ne (.var "value") (.lit 0 none)
  | .int _ => .castInfer (.var "value")
  | .custom c => .fromBits c (.var "value")
  | .array len =>
    match B.backing with
    | .int _ => unpackTok "__val" (.var "value") len
    | .arr _ => .var "value"

/-- `x()`, features/field_getters_feature.rs:37-71 -/
def getterFn (B : Bitfield) (f : Field) : Fn where
  builder := false
  params := []
  ret := fieldTy f.ty
  body := .all [.letThis, extractTok B f .bitfield false false false, signExtendTok f]
  tail := returnTok B f

/-- `set_x(bits)`, features/field_setters_feature.rs:51-86 -/
def setterFn (B : Bitfield) (f : Field) : Fn where
  builder := false
  params := [("bits", fieldTy f.ty)]
  ret := .unit
  body := .all [.letThis, setFromVarTok B f false true false false]
  tail := .unit

/-- `checked_set_x(bits)`, features/field_setters_feature.rs:51-86 -/
def checkedSetterFn (B : Bitfield) (f : Field) : Fn where
  builder := false
  params := [("bits", fieldTy f.ty)]
  ret := .result .unit
  body := .all [.letThis, setFromVarTok B f false true true false]
  tail := .okE .unit

/-- `x_inverted()`, features/invert_bit_ops_feature.rs:147-180 -/
def invertedFn (B : Bitfield) (f : Field) : Fn where
  builder := false
  params := []
  ret := fieldTy f.ty
  body := .all [.letThis, extractTok B f .bitfield false true false]
  tail := returnTok B f

/-- `invert_x()`, features/invert_bit_ops_feature.rs:110-144 -/
def invertFieldFn (B : Bitfield) (f : Field) : Fn where
  builder := false
  params := []
  ret := .unit
  body := .all
    [.letThis, extractTok B f .bitfield false true false,
     .expr (.method false (.acc .set f.name) (returnTok B f))]
  tail := .unit

/-- `clear_x()`, features/clear_bit_ops_feature.rs:87-108 -/
def clearFieldFn (B : Bitfield) (f : Field) : Fn where
  builder := false
  params := []
  ret := .unit
  body := .all [.letThis, setZeroTok B f]
  tail := .unit

/-- `clear_x_to_default()`, features/clear_bit_ops_feature.rs:110-126 -/
def clearToDefaultFn (B : Bitfield) (f : Field) : Fn where
  builder := false
  params := []
  ret := .unit
  body := .all [.letThis, setDefaultTok B f]
  tail := .unit

/-! ## Construction -/

/-- `new()`, `new_without_defaults()`, features/new_functions_feature.rs:53-87 -/
def newFn (B : Bitfield) (defaults : Bool) : Fn where
  builder := false
  params := []
  ret := .self
  body := newTok B defaults false false
  tail := .whole false

/-- `default()`, features/default_trait_feature.rs:33-66 -/
def defaultFn (G : Gen) : Fn where
  builder := false
  params := []
  ret := .self
  body := if G.new then .skip else .all [initTok G.B false, setDefaultsTok G.B]
  tail := if G.new then .assoc false (.fn "new") else .whole false

/-- `Builder::new()`, `Builder::new_without_defaults()`, features/builder_feature.rs:92-126 -/
def builderNewFn (G : Gen) (defaults : Bool) : Fn where
  builder := true
  params := []
  ret := .self
  body := if G.new then .skip else newTok G.B defaults true false
  tail := if G.new then .assoc true (.fn (if defaults then "new" else "new_without_defaults"))
    else .whole false

/-- `with_x(bits)`, features/builder_feature.rs:137-179 -/
def withFn (B : Bitfield) (f : Field) : Fn where
  builder := true
  params := [("bits", fieldTy f.ty)]
  ret := .self
  body := setFromVarTok B f true true false true
  tail := .whole true

/-- `checked_with_x(bits)`, features/builder_feature.rs:137-179 -/
def checkedWithFn (B : Bitfield) (f : Field) : Fn where
  builder := true
  params := [("bits", fieldTy f.ty)]
  ret := .result .self
  body := setFromVarTok B f true true true true
  tail := .okE (.whole true)

/-- `build()`, features/builder_feature.rs:84-87 -/
def buildFn : Fn where
  builder := true
  params := []
  ret := .self
  body := .skip
  tail := .whole true

/-- `default()` of the builder, features/builder_feature.rs:64-68 -/
def builderDefaultFn : Fn where
  builder := true
  params := []
  ret := .self
  body := .skip
  tail := .assoc false (.builderFn "new")

/-- `clear_bits()`, `clear_bits_with_defaults()`, features/clear_bit_ops_feature.rs:53-85 -/
def clearFn (B : Bitfield) (defaults : Bool) : Fn where
  builder := false
  params := []
  ret := .unit
  body := .all [.letThis, newTok B defaults false true]
  tail := .unit

/-! ## Conversions -/

/-- The loop that reverses `bits` with xor, features/from_into_bits_feature.rs:218-226, 343-351, 550-558,
616-624, features/write_bit_ops_feature.rs:162-169. With `suffix` it starts with `let mut i = 0usize`, otherwise with
`let mut i = 0`, which gets its type from `bits[i]`. -/
def xorLoopTok (n : Nat) (suffix : Bool) : Stmt :=
  .all
    [if suffix then .letS "i" none (.lit 0 (some .usize)) true else .letS "i" (some .usize) (.lit 0 none) true,
     .loop (.bin .lt (.var "i") (.lit (n / 2) (some .usize))) (.all
       [.letS "j" none (.bin .sub (.lit (n - 1) (some .usize)) (.var "i")),
        .assignElem "bits" (.var "i") (some .xor) (.index (.var "bits") (.var "j")),
        .assignElem "bits" (.var "j") (some .xor) (.index (.var "bits") (.var "i")),
        .assignElem "bits" (.var "i") (some .xor) (.index (.var "bits") (.var "j")),
        incr "i"])]

/-- `generate_bits_variable_endian_conversion_tokens`, generating/common/endian_conversion.rs:8-19 -/
def intEndianTok (e : Endian) : Stmt :=
  match e with
  | .little => .letS "bits" none (.swapBytes (.var "bits"))
  | .big => .skip

/-- The statements of `from_bits`/`from_le_bits`/`from_bytes`/.. before `let mut this`,
features/from_into_bits_feature.rs:76-132, 213-228; `none` is the variant without endianness in its name. -/
def fromConvTok (B : Bitfield) (e : Option Endian) : Stmt :=
  match B.backing with
  | .int _ =>
    match e with
    | none => .all [.letS "bits" none (.var "bits"), intEndianTok B.fromEndian]
    | some .little => .letS "bits" none (.swapBytes (.var "bits"))
    | some .big => .letS "bits" none (.var "bits")
  | .arr n =>
    match e.getD B.fromEndian with
    | .little => .letS "bits" none (.var "bytes")
    | .big => .all [.letS "bits" none (.var "bytes") true, xorLoopTok n false]

/-- `from_bits(bits)`, `from_le_bytes_with_defaults(bytes)`, .., features/from_into_bits_feature.rs:76-132,
234-288 -/
def fromFn (B : Bitfield) (e : Option Endian) (defaults : Bool) : Fn where
  builder := false
  params := [(paramTok B, backTy B.backing)]
  ret := .self
  body := .all
    [fromConvTok B e, initTok B false, setAllTok B .none, if defaults then setDefaultsTok B else .skip]
  tail := .whole false

/-- The stored array: `*this.0` if it is in a `Box`, otherwise `this.0`,
features/from_into_bits_feature.rs:524-530, 535-541, 604-608, features/invert_bit_ops_feature.rs:87-91,
features/from_traits_feature.rs:126-130, 135-152 -/
def innerArrTok (B : Bitfield) : Expr := if B.heap then .deref (.inner false) else .inner false

/-- `into_bits()`, `into_le_bytes()`, .., features/from_into_bits_feature.rs:135-173, 507-588 -/
def intoFn (B : Bitfield) (e : Option Endian) : Fn where
  builder := false
  params := []
  ret := backTy B.backing
  body :=
    match B.backing with
    | .int _ => .all [.letThis, .letS "bits" none (.inner false), intEndianTok (e.getD B.intoEndian)]
    | .arr n =>
      match e.getD B.intoEndian with
      | .little => .letThis
      | .big => .all [.letThis, .letS "bits" none (innerArrTok B) true, xorLoopTok n false]
  tail :=
    match B.backing with
    | .int _ => .var "bits"
    | .arr _ =>
      match e.getD B.intoEndian with
      | .little => innerArrTok B
      | .big => .var "bits"

/-- The loops `while i < N { a[i] = b[i]; i += 1; }`, features/from_into_bits_feature.rs:318-322, 327-331,
635-639, 643-647 -/
def copyLoopTok (dst src : String) (bound : Expr) : Stmt :=
  .all
    [.letS "i" none (.lit 0 (some .usize)) true,
     .loop (.bin .lt (.var "i") bound) (.all
       [.assignElem dst (.var "i") none (.index (.var src) (.var "i")), incr "i"])]

/-- `if slice.len() < N { slice.len() } else { N }`, features/from_into_bits_feature.rs:316-317, 634 -/
def copyLenTok (n : Nat) : Expr :=
  .ite (.bin .lt (.len (.var "slice")) (.lit n (some .usize))) (.len (.var "slice")) (.lit n (some .usize))

/-- `if slice.len() < N { return Err(..); }`, features/from_into_bits_feature.rs:334-338, 650-654 -/
def sliceCheckTok (n : Nat) (msg : String) : Stmt :=
  .ite (.bin .lt (.len (.var "slice")) (.lit n (some .usize))) (.ret (.errE msg)) .skip

/-- `slice_endian_conversion_tokens`, features/from_into_bits_feature.rs:340-354 -/
def sliceEndianTok (n : Nat) (e : Endian) : Stmt :=
  match e with
  | .little => .skip
  | .big => xorLoopTok n true

/-- `from_slice(slice)`, `from_le_slice_with_defaults(slice)`, .., features/from_into_bits_feature.rs:293-505
(array-backed, `n` bytes) -/
def fromSliceFn (B : Bitfield) (n : Nat) (e : Option Endian) (defaults : Bool) : Fn where
  builder := false
  params := [("slice", .slice)]
  ret := .self
  body := .all
    [.letS "bits" (some (.arr n)) (.zeros n) true,
     .letS "copy_len" none (copyLenTok n),
     copyLoopTok "bits" "slice" (.var "copy_len"),
     sliceEndianTok n (e.getD B.fromEndian),
     initTok B false, setAllTok B .none, if defaults then setDefaultsTok B else .skip]
  tail := .whole false

/-- `checked_from_slice(slice)`, .., features/from_into_bits_feature.rs:293-505 -/
def checkedFromSliceFn (B : Bitfield) (n : Nat) (e : Option Endian) (defaults : Bool) : Fn where
  builder := false
  params := [("slice", .slice)]
  ret := .result .self
  body := .all
    [sliceCheckTok n errSliceFill,
     .letS "bits" (some (.arr n)) (.zeros n) true,
     copyLoopTok "bits" "slice" (.lit n (some .usize)),
     sliceEndianTok n (e.getD B.fromEndian),
     initTok B false, setAllTok B .none, if defaults then setDefaultsTok B else .skip]
  tail := .okE (.whole false)

/-- `get_bits_var`, features/from_into_bits_feature.rs:610-627 -/
def sliceBitsTok (B : Bitfield) (n : Nat) (e : Endian) : Stmt :=
  match e with
  | .little => .letS "bits" none (innerArrTok B)
  | .big => .all [.letS "bits" none (innerArrTok B) true, xorLoopTok n true]

/-- `into_slice(slice)`, .., features/from_into_bits_feature.rs:592-718 -/
def intoSliceFn (B : Bitfield) (n : Nat) (e : Option Endian) : Fn where
  builder := false
  params := [("slice", .slice)]
  ret := .unit
  body := .all
    [.letThis, sliceBitsTok B n (e.getD B.intoEndian),
     .letS "copy_len" none (copyLenTok n),
     copyLoopTok "slice" "bits" (.var "copy_len")]
  tail := .unit

/-- `checked_into_slice(slice)`, .., features/from_into_bits_feature.rs:592-718 -/
def checkedIntoSliceFn (B : Bitfield) (n : Nat) (e : Option Endian) : Fn where
  builder := false
  params := [("slice", .slice)]
  ret := .result .unit
  body := .all
    [.letThis, sliceCheckTok n errSliceHold, sliceBitsTok B n (e.getD B.intoEndian),
     copyLoopTok "slice" "bits" (.lit n (some .usize))]
  tail := .okE .unit

/-- `generate_bits_return_endian_conversion_tokens`, features/from_traits_feature.rs:103-166 -/
def traitConvTok (B : Bitfield) (source : Expr) (e : Endian) : Expr :=
  match B.backing, e with
  | .int _, .little => .swapBytes source
  | .arr _, .little => source
  | .int _, .big => source
  | .arr _, .big =>
    let last := Expr.bin .sub (.bin .sub (.len (.var "temp_bits")) (.lit 1 none)) (.var "i")
    .block (.all
      [.letS "temp_bits" none source true,
       .letS "i" (some .usize) (.lit 0 none) true,
       .loop (.bin .lt (.var "i") (.bin .div (.len (.var "temp_bits")) (.lit 2 none))) (.all
         [.letS "temp" none (.index (.var "temp_bits") (.var "i")),
          .assignElem "temp_bits" (.var "i") none (.index (.var "temp_bits") last),
          .assignElem "temp_bits" last none (.var "temp"),
          incr "i"])])
      (.var "temp_bits")

/-- `Bitfield::from(bits)`, features/from_traits_feature.rs:52-81 -/
def traitFromFn (B : Bitfield) : Fn where
  builder := false
  params := [(paramTok B, backTy B.backing)]
  ret := .self
  body := .all
    [initTok B false, .letS "bits" none (traitConvTok B (.var (paramTok B)) B.fromEndian), setAllTok B .none]
  tail := .whole false

/-- `T::from(val)`, features/from_traits_feature.rs:83-99 -/
def traitIntoFn (B : Bitfield) : Fn where
  builder := false
  params := [("val", .self)]
  ret := backTy B.backing
  body := .moveThis "val"
  tail := traitConvTok B
    (match B.backing with
     | .int _ => .inner false
     | .arr _ => innerArrTok B) B.intoEndian

/-! ## Write and invert -/

/-- `generate_bits_variable_endian_conversion_tokens`, features/write_bit_ops_feature.rs:143-177 -/
def writeConvTok (B : Bitfield) (e : Endian) : Stmt :=
  match e with
  | .little =>
    match B.backing with
    | .int _ => .letS "bits" none (.swapBytes (.var "bits"))
    | .arr n => .all [.letS "bits" none (.var "bits") true, xorLoopTok n false]
  | .big => .skip

/-- `write_bits(bits)`, `write_le_bytes_with_defaults(bytes)`, .., features/write_bit_ops_feature.rs:82-131 -/
def writeFn (B : Bitfield) (e : Option Endian) (defaults : Bool) : Fn where
  builder := false
  params := [(paramTok B, backTy B.backing)]
  ret := .unit
  body := .all
    [.letThis, .letS "bits" none (.var (paramTok B)), writeConvTok B (e.getD B.writeEndian),
     setAllTok B .readOnly, if defaults then setDefaultsTok B else .skip]
  tail := .unit

/-- `write_defaults()`, features/write_bit_ops_feature.rs:133-137 -/
def writeDefaultsFn (B : Bitfield) : Fn where
  builder := false
  params := []
  ret := .unit
  body := .all [.letThis, setDefaultsTok B]
  tail := .unit

/-- `invert_bits()`, `invert_bytes()`, features/invert_bit_ops_feature.rs:54-107 -/
def invertFn (B : Bitfield) : Fn where
  builder := false
  params := []
  ret := .unit
  body :=
    let bits := Expr.var "bits"
    let prot := Expr.var "protected_mask"
    match B.backing with
    | .int _ => .all
        [.letThis, .letS "bits" none (.inner false), protTok B .readOnly,
         .letS "bits" none (.bin .or (.bin .and (.not bits) (.not prot)) (.bin .and bits prot)),
         setAllTok B .none]
    | .arr n =>
      let b := Expr.index bits (.var "i")
      let p := Expr.index prot (.var "i")
      .all
        [.letThis, .letS "bits" none (innerArrTok B) true, protTok B .readOnly,
         .letS "i" none (.lit 0 (some .usize)) true,
         .loop (.bin .lt (.var "i") (.lit n (some .usize))) (.all
           [.assignElem "bits" (.var "i") none (.bin .or (.bin .and (.not b) (.not p)) (.bin .and b p)),
            incr "i"]),
         setAllTok B .none]
  tail := .unit

/-! ## Bit and range operations -/

/-- `#bitfield_data_type_bits_tokens`, features/set_get_bit_ops_feature.rs:443-451, 466-474 -/
def sizeTok (B : Bitfield) : Expr :=
  match B.backing with
  | .int w => .bitsOf w
  | .arr n => .lit (n * 8) (some (.u 32))

/-- `generate_check_offset_bitfield_range_tokens`, features/set_get_bit_ops_feature.rs:438-459;
`r` is the guard's `return` -/
def offsetGuardTok (B : Bitfield) (r : Stmt) : Stmt :=
  .ite (.bin .ge (.var "offset") (sizeTok B)) r .skip

/-- `generate_check_offset_and_length_bitfield_range_tokens`, features/set_get_bit_ops_feature.rs:461-482 -/
def lengthGuardTok (B : Bitfield) (r : Stmt) : Stmt :=
  .ite (.bin .gt (.bin .add (.var "offset") (.var "length")) (sizeTok B)) r .skip

/-- `generate_field_bits_access_guard_tokens`, features/set_get_bit_ops_feature.rs:484-516 -/
def fieldGuardTok (G : Gen) (read : Bool) (r : Stmt) : Stmt :=
  .all ((G.B.fields.filter fun f => if read then !f.hasReadAccess else !f.hasSetter).map fun f =>
    if G.ignored then .ite (.contains f.offset (f.offset + f.bits) (.var "offset")) r .skip
    else .ite (.andAlso (.bin .ge (.var "offset") (.lit f.offset (some (.u 32))))
        (.bin .lt (.var "offset") (.lit (f.offset + f.bits) (some (.u 32))))) r .skip)

/-- `get_guard_return_tokens`, features/set_get_bit_ops_feature.rs:518-567, for `ReturnZero` -/
def returnZeroTok (B : Bitfield) : Stmt :=
  .ret (match B.backing with
    | .int _ => .lit 0 none
    | .arr n => .zeros n)

/-- The rest of `set_bit` after the guards, features/set_get_bit_ops_feature.rs:103-107, 118-122, 167-173, 184-190 -/
def setBitTok (B : Bitfield) : Stmt :=
  match B.backing with
  | .int _ => storeBitTok (.var "bit") (.var "offset") false
  | .arr _ => .all
      [.letS "byte_idx" none (.bin .div (.var "offset") (.lit 8 none)),
       .letS "bit_in_byte" none (.bin .rem (.var "offset") (.lit 8 none)),
       storeByteBitTok (.var "bit") (.cast (.var "byte_idx") .usize) (.var "bit_in_byte") false]

/-- `set_bit(offset, bit)`, features/set_get_bit_ops_feature.rs:96-108, 160-174 -/
def setBitFn (G : Gen) : Fn where
  builder := false
  params := [("offset", .u 32), ("bit", .bool)]
  ret := .unit
  body := .all [.letThis, offsetGuardTok G.B (.ret .unit), fieldGuardTok G false (.ret .unit), setBitTok G.B]
  tail := .unit

/-- `checked_set_bit(offset, bit)`, features/set_get_bit_ops_feature.rs:110-125, 176-193 -/
def checkedSetBitFn (G : Gen) : Fn where
  builder := false
  params := [("offset", .u 32), ("bit", .bool)]
  ret := .result .unit
  body := .all
    [.letThis, offsetGuardTok G.B (.ret (.errE errOffset)), fieldGuardTok G false (.ret (.errE errWrite)),
     setBitTok G.B]
  tail := .okE .unit

/-- `let byte_idx = ..; let bit_in_byte = ..;` (array-backed), features/set_get_bit_ops_feature.rs:360-361, 371-372 -/
def bitIndexTok (B : Bitfield) : Stmt :=
  match B.backing with
  | .int _ => .skip
  | .arr _ => .all
      [.letS "byte_idx" none (.bin .div (.var "offset") (.lit 8 none)),
       .letS "bit_in_byte" none (.bin .rem (.var "offset") (.lit 8 none))]

/-- The bit that is read, features/set_get_bit_ops_feature.rs:312, 321, 362, 373 -/
def getBitTok (B : Bitfield) : Expr :=
  match B.backing with
  | .int _ => .bin .ne (.bin .and (.bin .shr (.inner false) (.var "offset")) (.lit 1 none)) (.lit 0 none)
  | .arr _ => .bin .ne
      (.bin .and (.bin .shr (.index (.inner false) (.cast (.var "byte_idx") .usize)) (.var "bit_in_byte"))
        (.lit 1 none)) (.lit 0 none)

/-- `get_bit(offset)`, features/set_get_bit_ops_feature.rs:307-313, 355-363 -/
def getBitFn (G : Gen) : Fn where
  builder := false
  params := [("offset", .u 32)]
  ret := .bool
  body := .all
    [.letThis, offsetGuardTok G.B (.ret (.bool false)), fieldGuardTok G true (.ret (.bool false)),
     bitIndexTok G.B]
  tail := getBitTok G.B

/-- `checked_get_bit(offset)`, features/set_get_bit_ops_feature.rs:315-322, 365-374 -/
def checkedGetBitFn (G : Gen) : Fn where
  builder := false
  params := [("offset", .u 32)]
  ret := .result .bool
  body := .all
    [.letThis, offsetGuardTok G.B (.ret (.errE errOffset)), fieldGuardTok G true (.ret (.errE errRead)),
     bitIndexTok G.B]
  tail := .okE (getBitTok G.B)

/-- `((a[(i / 8) as usize] >> (i % 8)) & 1) != 0` with the byte index and the bit index given,
features/set_get_bit_ops_feature.rs:204, 208, 235, 243, 388, 414 -/
def bitSetTok (a i k : Expr) : Expr :=
  .bin .ne (.bin .and (.bin .shr (.index a i) k) (.lit 1 none)) (.lit 0 none)

/-- `let bit = offset + i; let byte = (bit / 8) as usize; let bit_in_byte = bit % 8;`,
features/set_get_bit_ops_feature.rs:205-207, 232-234, 244-246, 385-387, 411-413, 423-425 -/
def posTok (bit byte inByte : String) : Stmt :=
  .all
    [.letS bit none (.bin .add (.var "offset") (.var "i")),
     .letS byte none (.cast (.bin .div (.var bit) (.lit 8 none)) .usize),
     .letS inByte none (.bin .rem (.var bit) (.lit 8 none))]

/-- `let bit_val = ((value[(i / 8) as usize] >> (i % 8)) & 1) != 0;`,
features/set_get_bit_ops_feature.rs:204, 243 -/
def srcBitTok : Stmt :=
  .letS "bit_val" none (bitSetTok (.var "value") (.cast (.bin .div (.var "i") (.lit 8 none)) .usize)
    (.bin .rem (.var "i") (.lit 8 none)))

/-- `let is_protected = (protected_mask[byte] >> bit) & 1 != 0;`,
features/set_get_bit_ops_feature.rs:208, 235, 388, 414 -/
def isProtTok (byte inByte : String) : Stmt :=
  .letS "is_protected" none (bitSetTok (.var "protected_mask") (.var byte) (.var inByte))

/-- `let mut i = 0u32; while i < length { .. i += 1; }`,
features/set_get_bit_ops_feature.rs:202-217, 230-240, 241-253, 383-396, 409-419, 421-431 -/
def upToTok (body : List Stmt) : Stmt :=
  .all
    [.letS "i" none (.lit 0 (some (.u 32))) true,
     .loop (.bin .lt (.var "i") (.var "length")) (.all (body ++ [incr "i"]))]

/-- The loop that returns an error at a protected bit, features/set_get_bit_ops_feature.rs:230-240, 409-419 -/
def protLoopTok (bit byte inByte msg : String) : Stmt :=
  upToTok
    [posTok bit byte inByte, isProtTok byte inByte,
     .ite (.var "is_protected") (.ret (.errE msg)) .skip]

/-- `set_bits_range(offset, length, value)`, features/set_get_bit_ops_feature.rs:127-137, 195-218 -/
def setRangeFn (G : Gen) : Fn where
  builder := false
  params := [("offset", .u 32), ("length", .u 32), ("value", backTy G.B.backing)]
  ret := .unit
  body := .all
    [.letThis, offsetGuardTok G.B (.ret .unit), lengthGuardTok G.B (.ret .unit),
     match G.B.backing with
     | .int w => .all
         [.letS "range_mask" none (.bin .shl (maskTok w (.var "length")) (.var "offset")),
          protTok G.B .readOnly,
          .letS "writable_mask" none (.bin .and (.var "range_mask") (.not (.var "protected_mask"))),
          .assignInner false none
            (.bin .or (.bin .and (.inner false) (.not (.var "writable_mask")))
              (.bin .and (.bin .shl (.var "value") (.var "offset")) (.var "writable_mask")))]
     | .arr _ => .all
         [protTok G.B .readOnly,
          upToTok
            [srcBitTok, posTok "dst_bit" "dst_byte_idx" "dst_bit_in_byte",
             isProtTok "dst_byte_idx" "dst_bit_in_byte",
             .ite (.not (.var "is_protected"))
               (storeByteBitTok (.var "bit_val") (.var "dst_byte_idx") (.var "dst_bit_in_byte") false)
               .skip]]]
  tail := .unit

/-- `checked_set_bits_range(offset, length, value)`, features/set_get_bit_ops_feature.rs:139-156, 220-255 -/
def checkedSetRangeFn (G : Gen) : Fn where
  builder := false
  params := [("offset", .u 32), ("length", .u 32), ("value", backTy G.B.backing)]
  ret := .result .unit
  body := .all
    [.letThis, offsetGuardTok G.B (.ret (.errE errOffset)), lengthGuardTok G.B (.ret (.errE errLength)),
     match G.B.backing with
     | .int w => .all
         [.letS "mask" none (maskTok w (.var "length")),
          protTok G.B .readOnly,
          .letS "range_mask" none (.bin .shl (.var "mask") (.var "offset")),
          .ite (.bin .ne (.bin .and (.var "range_mask") (.var "protected_mask")) (.lit 0 none))
            (.ret (.errE errWrite)) .skip,
          .assignInner false none
            (.bin .or (.bin .and (.inner false) (.not (.bin .shl (.var "mask") (.var "offset"))))
              (.bin .shl (.bin .and (.var "value") (.var "mask")) (.var "offset")))]
     | .arr _ => .all
         [protTok G.B .readOnly,
          protLoopTok "dst_bit" "dst_byte_idx" "dst_bit_in_byte" errWrite,
          upToTok
            [srcBitTok, posTok "dst_bit" "dst_byte_idx" "dst_bit_in_byte",
             storeByteBitTok (.var "bit_val") (.var "dst_byte_idx") (.var "dst_bit_in_byte") false]]]
  tail := .okE .unit

/-- Copying one bit into `res`, features/set_get_bit_ops_feature.rs:390-393, 426-429 -/
def resBitTok : List Stmt :=
  [.letS "bit_val" none
    (.bin .and (.bin .shr (.index (.inner false) (.var "src_byte")) (.var "src_bit_in_byte")) (.lit 1 none)),
   .letS "dst_byte" none (.cast (.bin .div (.var "i") (.lit 8 none)) .usize),
   .letS "dst_bit_in_byte" none (.bin .rem (.var "i") (.lit 8 none)),
   .assignElem "res" (.var "dst_byte") (some .or) (.bin .shl (.var "bit_val") (.var "dst_bit_in_byte"))]

/-- `get_bits_range(offset, length)`, features/set_get_bit_ops_feature.rs:324-334, 376-398 -/
def getRangeFn (G : Gen) : Fn where
  builder := false
  params := [("offset", .u 32), ("length", .u 32)]
  ret := backTy G.B.backing
  body := .all
    [.letThis, offsetGuardTok G.B (returnZeroTok G.B), lengthGuardTok G.B (returnZeroTok G.B),
     match G.B.backing with
     | .int w => .all
         [.letS "mask" none (maskTok w (.var "length")),
          protTok G.B .writeOnly,
          .letS "shifted_protected_mask" none
            (.bin .and (.bin .shr (.var "protected_mask") (.var "offset")) (.var "mask")),
          .letS "readable_mask" none (.bin .and (.var "mask") (.not (.var "shifted_protected_mask")))]
     | .arr n => .all
         [protTok G.B .writeOnly,
          .letS "res" (some (.arr n)) (.zeros n) true,
          upToTok
            [posTok "src_bit" "src_byte" "src_bit_in_byte", isProtTok "src_byte" "src_bit_in_byte",
             .ite (.not (.var "is_protected")) (.all resBitTok) .skip]]]
  tail :=
    match G.B.backing with
    | .int _ => .bin .and (.bin .and (.bin .shr (.inner false) (.var "offset")) (.var "mask"))
        (.var "readable_mask")
    | .arr _ => .var "res"

/-- `checked_get_bits_range(offset, length)`, features/set_get_bit_ops_feature.rs:336-351, 400-433 -/
def checkedGetRangeFn (G : Gen) : Fn where
  builder := false
  params := [("offset", .u 32), ("length", .u 32)]
  ret := .result (backTy G.B.backing)
  body := .all
    [.letThis, offsetGuardTok G.B (.ret (.errE errOffset)), lengthGuardTok G.B (.ret (.errE errLength)),
     match G.B.backing with
     | .int w => .all
         [.letS "mask" none (maskTok w (.var "length")),
          protTok G.B .writeOnly,
          .letS "range_mask" none (.bin .shl (.var "mask") (.var "offset")),
          .ite (.bin .ne (.bin .and (.var "range_mask") (.var "protected_mask")) (.lit 0 none))
            (.ret (.errE errRead)) .skip]
     | .arr n => .all
         [protTok G.B .writeOnly,
          protLoopTok "src_bit" "src_byte" "src_bit_in_byte" errRead,
          .letS "res" (some (.arr n)) (.zeros n) true,
          upToTok (posTok "src_bit" "src_byte" "src_bit_in_byte" :: resBitTok)]]
  tail :=
    match G.B.backing with
    | .int _ => .okE (.bin .and (.bin .shr (.inner false) (.var "offset")) (.var "mask"))
    | .arr _ => .okE (.var "res")

/-- `fmt`, features/debug_trait_feature.rs:33-72: the calls of `debug.field` -/
def debugFn (B : Bitfield) : Fn where
  builder := false
  params := []
  ret := .unit
  body := .seq .letThis (.all (B.fields.map fun f =>
    .seq (extractTok B f .bitfield false false false) (.debugField f.name (.var "value"))))
  tail := .unit

/-! ## The generated program -/

/-- The variants of a function: without, with little, with big endian in its name. -/
def endians : List (String × Option Endian) := [("", none), ("le_", some .little), ("be_", some .big)]

/-- `generate_feature` of each feature: the functions it generates (the files cited at the functions). -/
def featureFns (G : Gen) : Feature → List (Tag × Fn)
  | .struct | .constants => []
  | .new => [(.fn "new", newFn G.B true), (.fn "new_without_defaults", newFn G.B false)]
  | .setters => (G.B.fields.filter Field.hasSetter).flatMap fun f =>
      [(.acc .set f.name, setterFn G.B f), (.acc .checkedSet f.name, checkedSetterFn G.B f)]
  | .getters => (G.B.fields.filter Field.hasGetter).map fun f => (.acc .get f.name, getterFn G.B f)
  | .fromTraits => [(.impl .fromBacking, traitFromFn G.B), (.impl .intoBacking, traitIntoFn G.B)]
  | .debug => [(.impl .debug, debugFn G.B)]
  | .fromIntoBits =>
    match G.B.backing with
    | .int _ =>
      (endians.flatMap fun (s, e) =>
        [(.fn ("from_" ++ s ++ "bits"), fromFn G.B e false),
         (.fn ("from_" ++ s ++ "bits_with_defaults"), fromFn G.B e true)]) ++
      endians.map fun (s, e) => (.fn ("into_" ++ s ++ "bits"), intoFn G.B e)
    | .arr n =>
      (endians.flatMap fun (s, e) =>
        [(.fn ("from_" ++ s ++ "bytes"), fromFn G.B e false),
         (.fn ("from_" ++ s ++ "bytes_with_defaults"), fromFn G.B e true)]) ++
      (endians.flatMap fun (s, e) =>
        [(.fn ("from_" ++ s ++ "slice"), fromSliceFn G.B n e false),
         (.fn ("from_" ++ s ++ "slice_with_defaults"), fromSliceFn G.B n e true),
         (.fn ("checked_from_" ++ s ++ "slice"), checkedFromSliceFn G.B n e false),
         (.fn ("checked_from_" ++ s ++ "slice_with_defaults"), checkedFromSliceFn G.B n e true)]) ++
      (endians.map fun (s, e) => (.fn ("into_" ++ s ++ "bytes"), intoFn G.B e)) ++
      endians.flatMap fun (s, e) =>
        [(.fn ("into_" ++ s ++ "slice"), intoSliceFn G.B n e),
         (.fn ("checked_into_" ++ s ++ "slice"), checkedIntoSliceFn G.B n e)]
  | .builder =>
      [(.impl .builderDefault, builderDefaultFn),
       (.builderFn "new", builderNewFn G true),
       (.builderFn "new_without_defaults", builderNewFn G false)] ++
      ((G.B.fields.filter fun f => !f.reserved).flatMap fun f =>
        [(.acc .builderWith f.name, withFn G.B f),
         (.acc .builderCheckedWith f.name, checkedWithFn G.B f)]) ++
      [(.builderFn "build", buildFn)]
  | .default => [(.impl .default, defaultFn G)]
  | .writeBitOps =>
      (endians.flatMap fun (s, e) =>
        [(.fn ("write_" ++ s ++ paramTok G.B), writeFn G.B e false),
         (.fn ("write_" ++ s ++ paramTok G.B ++ "_with_defaults"), writeFn G.B e true)]) ++
      [(.fn "write_defaults", writeDefaultsFn G.B)]
  | .setGetBitOps =>
      [(.fn "set_bit", setBitFn G), (.fn "checked_set_bit", checkedSetBitFn G),
       (.fn ("set_" ++ paramTok G.B ++ "_range"), setRangeFn G),
       (.fn ("checked_set_" ++ paramTok G.B ++ "_range"), checkedSetRangeFn G),
       (.fn "get_bit", getBitFn G), (.fn "checked_get_bit", checkedGetBitFn G),
       (.fn ("get_" ++ paramTok G.B ++ "_range"), getRangeFn G),
       (.fn ("checked_get_" ++ paramTok G.B ++ "_range"), checkedGetRangeFn G)]
  | .clearBitOps =>
      [(.fn ("clear_" ++ paramTok G.B), clearFn G.B false),
       (.fn ("clear_" ++ paramTok G.B ++ "_with_defaults"), clearFn G.B true)] ++
      ((G.B.fields.filter Field.hasSetter).map fun f => (.acc .clear f.name, clearFieldFn G.B f)) ++
      ((G.B.fields.filter fun f => f.hasSetter && f.hasDefault).map fun f =>
        (.acc .clearToDefault f.name, clearToDefaultFn G.B f))
  | .invertBitOps =>
      [(.fn ("invert_" ++ paramTok G.B), invertFn G.B)] ++
      ((G.B.fields.filter Field.hasSetter).map fun f => (.acc .invert f.name, invertFieldFn G.B f)) ++
      ((G.B.fields.filter Field.hasGetter).map fun f => (.acc .inverted f.name, invertedFn G.B f))

/-- A generated program: constants and functions. -/
structure Program where
  /-- `Box<[u8; n]>` instead of `[u8; n]`, features/bitfield_struct_feature.rs:104-114; for an integer it does
  not matter -/
  boxed : Bool
  consts : List ((Accessor × String) × Nat)
  fns : List (Tag × Fn)

/-- features/field_constants_feature.rs:44-69 -/
def constants (B : Bitfield) : List ((Accessor × String) × Nat) :=
  (B.fields.filter Field.hasConstants).flatMap fun f =>
    [((.bitsConst, f.name), f.bits), ((.offsetConst, f.name), f.offset)]

/-- What the generator functions read from a parsed bitfield. -/
def genOf (p : Parsed) : Gen := { B := p.bitfield, ignored := p.hasIgnored, new := p.args.new }

/-- `generate_features`, generating/bitfield/bitfield_generator.rs:41-82, for the features that are enabled; the
constants are always generated, features/field_constants_feature.rs:25-27 -/
def assemble (G : Gen) (enabled : Feature → Bool) : Program where
  boxed := G.B.heap
  consts := constants G.B
  fns := (Feature.all.filter enabled).flatMap (featureFns G)

/-- The program generated for a parsed bitfield, generating/bitfield/bitfield_generator.rs:41-82 -/
def program (p : Parsed) : Program := assemble (genOf p) fun f => f.enabled p.args

/-- Resolving a constant: the item with that name. -/
def Program.const (P : Program) (a : Accessor) (field : String) : Option Nat :=
  (P.consts.find? fun x => decide (x.1 = (a, field))).map Prod.snd

/-- Resolving a function. -/
def Program.fn (P : Program) (t : Tag) : Option Fn :=
  (P.fns.find? fun x => decide (x.1 = t)).map Prod.snd

/-- The surroundings of a function whose calls may nest `depth` deep. `cell` is any value of the bitfield
type. -/
def Program.ctx (P : Program) (m : Mode) (fuel : Nat) (cell : Store) : Nat → Ctx
  | 0 => { mode := m, fuel := fuel, builder := false, boxed := P.boxed, ret := .unit, const := P.const,
           method := fun _ => none, assoc := fun _ => none }
  | depth + 1 => {
      mode := m, fuel := fuel, builder := false, boxed := P.boxed, ret := .unit, const := P.const
      method := fun t =>
        match P.fn t with
        | some f =>
          match f.params with
          | [(_, ty)] => some (ty, fun v cell' => do
              let (r, env) ← f.run (P.ctx m fuel cell depth) [v] cell'
              return (r, env.cell))
          | _ => none
        | none => none
      assoc := fun t =>
        match P.fn t with
        | some f => some (do
            let (r, _) ← f.run (P.ctx m fuel cell depth) [] cell
            return r)
        | none => none }

end Bf.Quote
