import Verif.Model.Parser
import Verif.Model.Api

/-!
# Bitflag enums, and types of the macro used as field types

`#[bitflag(..)]`: parsing/bitflags/ and generating/bitflag/bitflag_generator.rs. Paths are relative
to `/repo/bitfields_impl/src`.
-/

namespace Bf

/-! ## Arguments -/

/-- `BitflagArguments`, parsing/bitflags/bitflag_arguments.rs:32-44 -/
structure BitflagArgs where
  fromEndian : Endian
  intoEndian : Endian
  copy : Bool
deriving DecidableEq, Repr

/-- `BitflagArguments::default`, parsing/bitflags/bitflag_arguments.rs:15-30, 46-65 -/
def defaultBitflagArgs (cfg : String → Bool) : BitflagArgs where
  fromEndian := resolveEndian (cfg "bitflag_from_endian_little") (cfg "bitflag_from_endian_big") .big
  intoEndian := resolveEndian (cfg "bitflag_into_endian_little") (cfg "bitflag_into_endian_big") .big
  copy := resolveBool (cfg "bitflag_derive_copy") (cfg "bitflag_disable_copy")

/-- `BitflagArgumentKey`, parsing/bitflags/bitflag_arguments.rs:67-77 -/
def bitflagKeys : List String := ["from_endian", "into_endian", "copy"]

/-- One turn of the loop of `BitflagArguments::parse`,
parsing/bitflags/bitflag_arguments.rs:90-110 -/
def applyBitflagArg (r : BitflagArgs) (a : Arg) : P BitflagArgs :=
  if a.key = "from_endian" then do return { r with fromEndian := ← endianOf a.text }
  else if a.key = "into_endian" then do return { r with intoEndian := ← endianOf a.text }
  else if a.key = "copy" then do return { r with copy := ← parseBool a }
  else .error (.panic .unreachable)

/-- `BitflagArguments::parse`, parsing/bitflags/bitflag_arguments.rs:79-114 -/
def parseBitflagArgs (cfg : String → Bool) (ts : List Tok) : P BitflagArgs := do
  let as ← parseAttributeArguments bitflagKeys ts
  as.foldlM applyBitflagArg (defaultBitflagArgs cfg)

/-- `BitflagAttribute`, parsing/bitflags/bitflag_attribute_parser.rs:12-21 -/
structure BitflagAttr where
  ty : DataType
  args : BitflagArgs

/-- The texts of parsing/bitflags/bitflag_attribute_parser.rs:36-40, 51-60 for the errors that `dataType` returns. -/
def flagTypeError : TypeError → String
  | .unexpectedFloat =>
    "The bitflag attribute must have an unsigned integer type as its first argument, floats are unsupported."
  | _ => "The bitflag attribute must have an unsigned integer type as its first argument."

/-- `create_unsupported_type_compiler_error`, parsing/bitflags/bitflag_attribute_parser.rs:93-101 -/
def unsupportedFlag (t : SynType) : String :=
  "The bitflag attribute must have an unsigned integer type as its first argument, '" ++ t.text ++ "' is unsupported."

/-- `BitflagAttribute::parse`, parsing/bitflags/bitflag_attribute_parser.rs:23-34, 42-102. (If there is something that is not
a type, the text is another one, with a message of `syn`.) -/
def parseBitflagAttr (cfg : String → Bool) (a : AttrInput) : P BitflagAttr :=
  match a.ty with
  | none => .error (.error (flagTypeError .unexpectedEnd))
  | some t =>
    match t.dataType with
    | .error e => .error (.error (flagTypeError e))
    | .ok (.custom _) => .error (.error (unsupportedFlag t))
    | .ok d =>
      if d.unsigned then do return { ty := d, args := ← parseBitflagArgs cfg a.rest }
      else .error (.error (unsupportedFlag t))

/-! ## Variants -/

/-- `syn::Variant`: the name, the paths of the attributes (those that are one identifier) and the
discriminant: its text, and the value rustc gives it as a number of the enum's type. -/
structure VariantDecl where
  name : String
  attrs : List String
  discriminant : Option (List Char × Nat)
deriving DecidableEq, Repr

/-- `syn::ItemEnum` -/
structure EnumDecl where
  vis : Vis
  variants : List VariantDecl
deriving DecidableEq, Repr

/-- `BitflagVariant`, parsing/bitflags/bitflag.rs:61-80. The value is the one of the discriminant's
text, which the generator repeats verbatim (parsing/common/const_expr.rs:209-228). -/
structure FlagVariant where
  name : String
  attrs : List String
  value : Nat
  base : Bool
  default : Bool
deriving DecidableEq, Repr

/-- `parse_variant_helper`, parsing/bitflags/bitflag_parser.rs:52-85 -/
def parseVariant (v : VariantDecl) : P FlagVariant :=
  match v.discriminant with
  | none => .error (.error
    ("Bitflag variant '" ++ v.name ++ "' must have an explicit value (e.g. `" ++ v.name ++ " = 0b0001`)."))
  | some (text, value) =>
    match constExpr text with
    | .error e => .error e
    | .ok _ => .ok {
        name := v.name
        attrs := v.attrs.filter (· != "base")
        value
        base := v.attrs.any (· == "base")
        default := v.attrs.any (· == "default") }

/-- `parse_variants`, parsing/bitflags/bitflag_parser.rs:44-47: stops at the first error. -/
def parseVariants : List VariantDecl → P (List FlagVariant)
  | [] => .ok []
  | v :: vs =>
    match parseVariant v with
    | .error e => .error e
    | .ok x =>
      match parseVariants vs with
      | .error e => .error e
      | .ok xs => .ok (x :: xs)

/-- `check_base_bitflag_variants`, parsing/bitflags/bitflag_parser.rs:87-109 -/
def checkBase (vs : List FlagVariant) : P Unit :=
  if (vs.filter FlagVariant.base).length > 1 then
    .error (.error "There can only be one bitflag variant marked as `#[base]`.")
  else if vs.any fun v => v.base || v.default then .ok ()
  else .error (.error "The bitflag must have at least one variant marked with `#[base]` or `#[default]`. If \
    a variant is marked with `#[base]`, it will take precedence over `#[default]`.")

/-- `Bitflag`, parsing/bitflags/bitflag.rs:10-32 -/
structure Bitflag where
  ty : DataType
  vis : Vis
  variants : List FlagVariant
  args : BitflagArgs

/-- `parse_bitflag_enum`, parsing/bitflags/bitflag_parser.rs:15-34. `syn` has already parsed the
enum. -/
def parseBitflag (cfg : String → Bool) (attr : AttrInput) (d : EnumDecl) : P Bitflag := do
  let A ← parseBitflagAttr cfg attr
  let variants ← parseVariants d.variants
  checkBase variants
  return { ty := A.ty, vis := d.vis, variants, args := A.args }

/-! ## Generated functions -/

/-- The `match` of the generated `from_bits`: the arms `value => Self::Name`, and the name of the arm
`_ => Self::Name`. -/
structure FlagMatch where
  arms : List (Nat × String)
  wildcard : String
deriving DecidableEq, Repr

/-- `generate_match_cases_tokens_list`, generating/bitflag/bitflag_generator.rs:83-112 -/
def matchCases (F : Bitflag) : P FlagMatch :=
  let arms := (F.variants.filter fun v => !v.base).map fun v => (v.value, v.name)
  match (F.variants.find? FlagVariant.base).or (F.variants.find? FlagVariant.default) with
  | some w => .ok { arms, wildcard := w.name }
  | none => .error (.panic .unreachable)

/-- What the macro generates: the enum (name, remaining attributes and value of each variant; `repr` of
its type, `derive(Copy, Clone)`), the visibility of its functions, the `match` of `from_bits` and the
byte orders of `from_bits` and `into_bits`. -/
structure FlagCode where
  repr : DataType
  copy : Bool
  vis : Vis
  variants : List (String × List String × Nat)
  cases : FlagMatch
  fromEndian : Endian
  intoEndian : Endian

/-- `generate_bitflag`, generating/bitflag/bitflag_generator.rs:8-63 -/
def generateBitflag (F : Bitflag) : P FlagCode := do
  let cases ← matchCases F
  return {
    repr := F.ty
    copy := F.args.copy
    vis := F.vis
    variants := F.variants.map fun v => (v.name, v.attrs, v.value)
    cases
    fromEndian := F.args.fromEndian
    intoEndian := F.args.intoEndian }

/-- `start_bitflag_generation`, lib.rs:2273-2283 -/
def expandBitflag (cfg : String → Bool) (attr : AttrInput) (d : EnumDecl) : P FlagCode := do
  generateBitflag (← parseBitflag cfg attr d)

/-- `generate_bits_variable_endian_conversion_tokens`, generating/common/endian_conversion.rs:
8-19 -/
def bitsConv (e : Endian) {w : Nat} (bits : BitVec w) : BitVec w :=
  match e with
  | .little => swapBytes bits
  | .big => bits

/-- The `match`: the first arm whose value equals the bits. -/
def FlagMatch.run (c : FlagMatch) {w : Nat} (bits : BitVec w) : String :=
  match c.arms.find? fun arm => BitVec.ofNat w arm.1 == bits with
  | some arm => arm.2
  | none => c.wildcard

/-- The generated `from_bits`, generating/bitflag/bitflag_generator.rs:65-81, for an enum of an
integer type with `w` bits. A value of the enum is given by the variant's name. -/
def flagFromBits (c : FlagCode) {w : Nat} (bits : BitVec w) : String :=
  c.cases.run (bitsConv c.fromEndian bits)

/-- The generated `into_bits`, generating/bitflag/bitflag_generator.rs:114-128: `self as T` is the
discriminant of the variant. There is no value with a name that is not a variant. -/
def flagIntoBits (c : FlagCode) (w : Nat) (name : String) : BitVec w :=
  match c.variants.find? fun v => v.1 == name with
  | some v => bitsConv c.intoEndian (BitVec.ofNat w v.2.2)
  | none => 0#w

/-! ## As field types

A field of a custom type `T` calls `T::from_bits(bits as _)` and `value.into_bits()`
(features/field_getters_feature.rs and features/common/generator_helper.rs, modelled in
`Model/Gen.lean` with a `Codec`). If `T` was itself made by one of the macros, these are the functions
above, or `from_bits` and `into_bits` of an integer-backed bitfield. -/

/-- The position of a name in the list of variants: the code of the enum value. -/
def FlagCode.index (c : FlagCode) (name : String) : Nat := c.variants.findIdx fun v => v.1 == name

/-- The conversions of a bitflag enum with a type of `w` bits. -/
def FlagCode.codec (c : FlagCode) (w : Nat) : Codec where
  fromBits n := .ok (c.index (flagFromBits c (BitVec.ofNat w n)))
  intoBits code :=
    match c.variants[code]? with
    | some v => ((flagIntoBits c w v.1).toNat : Int)
    | none => 0

/-- The number stored in an integer-backed bitfield. -/
def Store.toNat : Store → Nat
  | .int _ v => v.toNat
  | .arr _ => 0

/-- The conversions of an integer-backed bitfield `B` of `w` bits; the code of a value is the number it
stores. (Array-backed bitfields have no `from_bits`.) -/
def nestedCodec (m : Mode) (B : Bitfield) (w : Nat) : Codec where
  fromBits n := do return (← apiFrom m B (.int w (BitVec.ofNat w n))).toNat
  intoBits code :=
    match apiInto B (.int w (BitVec.ofNat w code)) with
    | .ok s => (s.toNat : Int)
    | .error _ => 0

end Bf
