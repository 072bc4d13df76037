import Verif.Model.ConstExpr

/-!
# Attribute arguments

Parsing of the `key = value` lists of the `#[bitfield]`, `#[bits]` and `#[bitflag]` attributes.
Paths are relative to `/repo/bitfields_impl/src`.

An attribute is a list of tokens. Splitting source text into tokens, and deciding where the
expression after `=` ends, is done by `syn` and not modelled: such an expression is one token
`expr`. It carries the text that `quote!(#expr).to_string()` gives and the value rustc gives
the expression (used only for `default = ..`).
-/

namespace Bf

/-- Tokens of an attribute. -/
inductive Tok where
  | comma
  | eq
  | minus
  /-- an integer literal (value, whether it has a type suffix) -/
  | int (n : Nat) (suffix : Bool)
  | ident (s : String)
  /-- the expression after `=` -/
  | expr (text : List Char) (value : Val)
  /-- anything else -/
  | other
deriving DecidableEq, Repr

/-- `AttributeArgument`, parsing/common/attribute_argument_parser.rs:12-29. -/
structure Arg where
  key : String
  text : List Char
  value : Val
deriving DecidableEq, Repr

/-- Inserting a string in alphabetical order. -/
def insertSorted (s : String) : List String → List String
  | [] => [s]
  | t :: ts => if t.toList < s.toList then t :: insertSorted s ts else s :: t :: ts

/-- `Vec::<String>::sort` (standard library) -/
def sortStrings (ss : List String) : List String := ss.foldr insertSorted []

/-- `get_keys_list`, parsing/common/attribute_argument_parser.rs:113-117. `keys` are the valid and the internal keys; the
only internal key is `force_panic`. -/
def keysList (keys : List String) : String :=
  ", ".intercalate (sortStrings ((keys.filter (· ≠ "force_panic")).map fun k => "'" ++ k ++ "'"))

/-- The `while` loop of `parse_attribute_arguments`,
parsing/common/attribute_argument_parser.rs:44-107, at the start of an argument. The comma after an
argument is consumed with it (the repo consumes it before the next one), a trailing comma is
allowed. -/
def argsLoop (keys : List String) : List Tok → P (List Arg)
  | [] => .ok []
  | .ident k :: ts =>
    if k ∉ keys then .error (.error ("Unknown argument '" ++ k ++ "'. Valid arguments are: " ++ keysList keys ++ "."))
    else match ts with
      | .eq :: .expr t v :: .comma :: rest =>
        match argsLoop keys rest with
        | .ok as => .ok (⟨k, t, v⟩ :: as)
        | .error e => .error e
      | [.eq, .expr t v] => .ok [⟨k, t, v⟩]
      | .eq :: .expr _ _ :: _ => .error (.error "expected `,`")
      | [.eq] => .error (.error "Expected value after '='")
      | .eq :: _ => .error (.error "Expected argument value")
      | _ => .error (.error "Expected '=' after argument")
  | _ => .error (.error "Invalid argument, expected an identifier")

/-- `if input.peek(Token![,]) { input.parse::<Token![,]>()?; }` -/
def skipComma : List Tok → List Tok
  | .comma :: ts => ts
  | ts => ts

/-- `parse_attribute_arguments`, parsing/common/attribute_argument_parser.rs:32-110 -/
def parseAttributeArguments (keys : List String) (ts : List Tok) : P (List Arg) :=
  argsLoop keys (skipComma ts)

/-- `parse_boolean_attribute_argument`,
parsing/common/attribute_argument_parser.rs:120-130 (`str::parse::<bool>`: exactly `true` or
`false`) -/
def parseBool (a : Arg) : P Bool :=
  if a.text = ['t', 'r', 'u', 'e'] then .ok true
  else if a.text = ['f', 'a', 'l', 's', 'e'] then .ok false
  else .error (.error ("Invalid value for boolean argument '" ++ a.key ++ "'. Valid values are 'true' or 'false'"))

/-- `ConversionEndian::from_str`, parsing/common/conversion_endian.rs:13-23 -/
def endianOf (text : List Char) : P Endian :=
  let s := (trim text).map Char.toLower
  if s = ['l', 'i', 't', 't', 'l', 'e'] then .ok .little
  else if s = ['b', 'i', 'g'] then .ok .big
  else .error (.error ("Invalid endian argument '" ++ String.ofList text ++ "'. Valid values are 'little' or 'big'."))

/-- `resolve_endian_feature`, parsing/common/conversion_endian.rs:27-41 -/
def resolveEndian (little big : Bool) (dflt : Endian) : Endian :=
  if little && big then dflt
  else if little then .little
  else if big then .big
  else dflt

/-- `BitOrder`, parsing/bitfields/bitfield_attribute/bitfield_arguments.rs:71-84 -/
inductive Order where
  | lsb | msb
deriving DecidableEq, Repr

/-- `BitOrder::from_str`, parsing/bitfields/bitfield_attribute/bitfield_arguments.rs:86-96 -/
def orderOf (text : List Char) : P Order :=
  let s := text.map Char.toLower
  if s = ['l', 's', 'b'] then .ok .lsb
  else if s = ['m', 's', 'b'] then .ok .msb
  else .error (.error ("Invalid order argument '" ++ String.ofList text ++ "'. Valid values are 'lsb' or 'msb'."))

/-- `BitfieldArguments`, parsing/bitfields/bitfield_attribute/bitfield_arguments.rs:98-176 -/
structure BitfieldArgs where
  order : Order
  fromEndian : Endian
  intoEndian : Endian
  writeEndian : Endian
  new : Bool
  fromIntoBits : Bool
  fromTraits : Bool
  default : Bool
  debug : Bool
  copy : Bool
  bitOps : Bool
  writeBitOps : Bool
  userSetWriteBitOps : Bool
  clearBitOps : Bool
  userSetClearBitOps : Bool
  setGetBitOps : Bool
  userSetSetGetBitOps : Bool
  invertBitOps : Bool
  userSetInvertBitOps : Bool
  toggleBitOps : Bool
  userSetToggleBitOps : Bool
  builder : Bool
  arrayHeap : Bool
  forcePanic : Bool
deriving DecidableEq, Repr

/-- `resolve_bool_feature`, parsing/bitfields/bitfield_attribute/bitfield_arguments.rs:265-267 -/
def resolveBool (enabled disabled : Bool) : Bool := if enabled then true else !disabled

/-- `resolve_bit_order_feature`,
parsing/bitfields/bitfield_attribute/bitfield_arguments.rs:273-281 -/
def resolveOrder (lsb msb : Bool) : Order :=
  if lsb then .lsb else if msb then .msb else .lsb

/-- `BitfieldArguments::default`,
parsing/bitfields/bitfield_attribute/bitfield_arguments.rs:17-69, 178-259. `cfg` says which Cargo
features of the crate are active (`cfg!(feature = "..")`). -/
def defaultArgs (cfg : String → Bool) : BitfieldArgs where
  order := resolveOrder (cfg "order_lsb") (cfg "order_msb")
  fromEndian := resolveEndian (cfg "from_endian_little") (cfg "from_endian_big") .big
  intoEndian := resolveEndian (cfg "into_endian_little") (cfg "into_endian_big") .big
  writeEndian := resolveEndian (cfg "write_endian_little") (cfg "write_endian_big") .big
  new := resolveBool (cfg "generate_new") (cfg "disable_new")
  fromIntoBits := resolveBool (cfg "generate_from_into_bits") (cfg "disable_from_into_bits")
  fromTraits := resolveBool (cfg "generate_from_traits") (cfg "disable_from_traits")
  default := resolveBool (cfg "generate_default") (cfg "disable_default")
  debug := resolveBool (cfg "generate_debug") (cfg "disable_debug")
  copy := resolveBool (cfg "derive_copy") (cfg "disable_copy")
  bitOps := resolveBool (cfg "generate_bit_ops") (cfg "disable_bit_ops")
  writeBitOps := resolveBool (cfg "generate_write_bit_ops") (cfg "disable_write_bit_ops")
  userSetWriteBitOps := false
  clearBitOps := resolveBool (cfg "generate_clear_bit_ops") (cfg "disable_clear_bit_ops")
  userSetClearBitOps := false
  setGetBitOps := resolveBool (cfg "generate_set_get_bit_ops") (cfg "disable_set_get_bit_ops")
  userSetSetGetBitOps := false
  invertBitOps := resolveBool (cfg "generate_invert_bit_ops") (cfg "disable_invert_bit_ops")
  userSetInvertBitOps := false
  toggleBitOps := resolveBool (cfg "generate_toggle_bit_ops") (cfg "disable_toggle_bit_ops")
  userSetToggleBitOps := false
  builder := resolveBool (cfg "generate_builder") (cfg "disable_builder")
  arrayHeap := cfg "enable_array_heap" && !cfg "disable_array_heap"
  forcePanic := false

/-- `BitfieldArgumentKey`, parsing/bitfields/bitfield_attribute/bitfield_arguments.rs:283-341
(`force_panic` is the internal key) -/
def bitfieldKeys : List String :=
  ["order", "from_endian", "into_endian", "write_endian", "new", "from_into_bits", "from_traits",
   "default", "debug", "copy", "bit_ops", "write_bit_ops", "clear_bit_ops", "set_get_bit_ops",
   "invert_bit_ops", "toggle_bit_ops", "builder", "array_heap", "force_panic"]

/-- One turn of the argument loop of `BitfieldArguments::parse`,
parsing/bitfields/bitfield_attribute/bitfield_arguments.rs:355-443 -/
def applyArg (r : BitfieldArgs) (a : Arg) : P BitfieldArgs :=
  if a.key = "order" then do return { r with order := ← orderOf a.text }
  else if a.key = "from_endian" then do return { r with fromEndian := ← endianOf a.text }
  else if a.key = "into_endian" then do return { r with intoEndian := ← endianOf a.text }
  else if a.key = "write_endian" then do return { r with writeEndian := ← endianOf a.text }
  else if a.key = "new" then do return { r with new := ← parseBool a }
  else if a.key = "from_into_bits" then do return { r with fromIntoBits := ← parseBool a }
  else if a.key = "from_traits" then do return { r with fromTraits := ← parseBool a }
  else if a.key = "default" then do return { r with default := ← parseBool a }
  else if a.key = "debug" then do return { r with debug := ← parseBool a }
  else if a.key = "copy" then do return { r with copy := ← parseBool a }
  else if a.key = "bit_ops" then do return { r with bitOps := ← parseBool a }
  else if a.key = "write_bit_ops" then do
    return { r with writeBitOps := ← parseBool a, userSetWriteBitOps := true }
  else if a.key = "clear_bit_ops" then do
    return { r with clearBitOps := ← parseBool a, userSetClearBitOps := true }
  else if a.key = "set_get_bit_ops" then do
    return { r with setGetBitOps := ← parseBool a, userSetSetGetBitOps := true }
  else if a.key = "invert_bit_ops" then do
    return { r with invertBitOps := ← parseBool a, userSetInvertBitOps := true }
  else if a.key = "toggle_bit_ops" then do
    return { r with toggleBitOps := ← parseBool a, userSetToggleBitOps := true }
  else if a.key = "builder" then do return { r with builder := ← parseBool a }
  else if a.key = "array_heap" then do return { r with arrayHeap := ← parseBool a }
  else if a.key = "force_panic" then do return { r with forcePanic := ← parseBool a }
  else .error (.panic .unreachable)

/-- `BitfieldArguments::parse`,
parsing/bitfields/bitfield_attribute/bitfield_arguments.rs:343-447 -/
def parseBitfieldArgs (cfg : String → Bool) (ts : List Tok) : P BitfieldArgs := do
  let as ← parseAttributeArguments bitfieldKeys ts
  as.foldlM applyArg (defaultArgs cfg)

/-! ## `#[bits(..)]` -/

/-- `FieldAccess::from_str`, parsing/bitfields/bits_attribute/bits_arguments.rs:32-46 -/
def accessOf (text : List Char) : P Access :=
  let s := text.map Char.toLower
  if s = ['r', 'o'] then .ok .ro
  else if s = ['w', 'o'] then .ok .wo
  else if s = ['r', 'w'] then .ok .rw
  else if s = ['n', 'a'] then .ok .na
  else .error (.error ("Invalid field access argument '" ++ String.ofList text ++
    "'. Valid values are 'ro', 'wo', 'rw', or 'na'."))

/-- `BitsArguments`, parsing/bitfields/bits_attribute/bits_arguments.rs:48-80. The default
expression comes with the value rustc gives it. -/
structure BitsArgs where
  access : Access := .rw
  userSetAccess : Bool := false
  ignored : Bool := false
  default : Option (ConstExpr × Val) := none
deriving DecidableEq, Repr

/-- One turn of the argument loop of `BitsArguments::parse`,
parsing/bitfields/bits_attribute/bits_arguments.rs:105-124 -/
def applyBitsArg (r : BitsArgs) (a : Arg) : P BitsArgs :=
  if a.key = "access" then do
    return { r with access := ← accessOf a.text, userSetAccess := true }
  else if a.key = "ignore" then do return { r with ignored := ← parseBool a }
  else if a.key = "default" then do
    return { r with default := some (← constExpr a.text, a.value) }
  else .error (.panic .unreachable)

/-- `BitsArgumentKey`, parsing/bitfields/bits_attribute/bits_arguments.rs:82-92 -/
def bitsKeys : List String := ["access", "ignore", "default"]

/-- `BitsArguments::parse`, parsing/bitfields/bits_attribute/bits_arguments.rs:94-128 -/
def parseBitsArgs (ts : List Tok) : P BitsArgs := do
  let as ← parseAttributeArguments bitsKeys ts
  as.foldlM applyBitsArg {}

/-- `BitsAttribute`, parsing/bitfields/bits_attribute/bits_attribute_parser.rs:11-23. The span is
present exactly when `bits` is. -/
structure BitsAttr where
  bits : Option Nat
  args : BitsArgs
deriving DecidableEq, Repr

/-- `parse_bits`, parsing/bitfields/bits_attribute/bits_attribute_parser.rs:50-89, with the
remaining tokens. (In the last message the literal is given as written; the model gives it in decimal.) -/
def parseBits (ts : List Tok) : P (Option Nat × List Tok) :=
  match skipComma ts with
  | .minus :: _ => .error (.error "Invalid bit count, expected an unsigned integer.")
  | .int n suffix :: rest =>
    if suffix then
      .error (.error "Invalid bit count, expected an unsigned integer without a suffix.")
    else if n < 2 ^ 32 then .ok (some n, skipComma rest)
    else .error (.error ("Bit count '" ++ toString n ++ "' is too big, the maximum amount of bits is '4,294,967,295.'"))
  | ts => .ok (none, ts)

/-- `BitsAttribute::parse`, parsing/bitfields/bits_attribute/bits_attribute_parser.rs:25-42 -/
def parseBitsAttr (ts : List Tok) : P BitsAttr := do
  let (bits, rest) ← parseBits ts
  return { bits, args := ← parseBitsArgs rest }

end Bf
