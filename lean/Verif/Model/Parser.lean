import Verif.Model.Args

/-!
# From a struct declaration to a bitfield

`parse_bitfield_struct` of parsing/bitfields/bitfield_parser.rs, on syntax trees. Paths are
relative to `/repo/bitfields_impl/src`. `Mode` says whether the macro crate was compiled with
overflow checks (it does `u32` arithmetic).
-/

namespace Bf

/-- The length expression of an array type. -/
inductive ArrayLen where
  /-- an integer literal -/
  | int (n : Nat)
  | other
deriving DecidableEq, Repr

/-- `syn::Type`. A path is given by its last segment and by what `from_bits` and
`into_bits` do on the type it names (relevant only if the name is not that of a built-in
type). -/
inductive SynType where
  | path (last : String) (c : Codec)
  | array (elem : SynType) (len : ArrayLen)
  | other

/-- `TypeParsingError`, parsing/common/type_parse_error.rs -/
inductive TypeError where
  | nonType | unexpected | unexpectedEnd | unexpectedFloat | sizeType | nonIntegerArray
  | zeroArrayLength | invalidArrayLength | arrayLengthTooLarge
deriving DecidableEq, Repr

/-- `get_data_type` and `DataType::new`, parsing/common/spanned_data_type.rs:48-101, 159-176.
`usize` and `isize` are recognised there and then rejected. -/
def SynType.dataType : SynType → Except TypeError DataType
  | .path name c =>
    if name = "f32" ∨ name = "f64" then .error .unexpectedFloat
    else if name = "u8" then .ok (.int .u8)
    else if name = "u16" then .ok (.int .u16)
    else if name = "u32" then .ok (.int .u32)
    else if name = "u64" then .ok (.int .u64)
    else if name = "u128" then .ok (.int .u128)
    else if name = "usize" ∨ name = "isize" then .error .sizeType
    else if name = "i8" then .ok (.int .i8)
    else if name = "i16" then .ok (.int .i16)
    else if name = "i32" then .ok (.int .i32)
    else if name = "i64" then .ok (.int .i64)
    else if name = "i128" then .ok (.int .i128)
    else if name = "bool" then .ok (.int .bool)
    else .ok (.custom c)
  | .array elem len =>
    match elem.dataType with
    | .error e => .error e
    | .ok (.int .u8) =>
      match len with
      | .int n =>
        if n < 2 ^ 32 then
          if n = 0 then .error .zeroArrayLength else .ok (.array n)
        else .error .arrayLengthTooLarge
      | .other => .error .invalidArrayLength
    | .ok _ => .error .nonIntegerArray
  | .other => .error .unexpected

/-- `DataType::bit_size`, parsing/common/spanned_data_type.rs:179-189 -/
def DataType.bitSize (m : Mode) : DataType → R Nat
  | .int t => .ok t.bitSize
  | .array len => mulU32 m len 8
  | .custom _ => .error .unreachable

/-- `Visibility`, parsing/common/visibility.rs:7-17 -/
inductive Vis where
  | pub
  | restricted (path : String)
  | priv
deriving DecidableEq, Repr

/-- An attribute of a field: whether its path is `bits`, whether it is an outer attribute
(`#[..]`, not `#![..]`), and its tokens if it is of the form `#[bits(..)]`. -/
structure Attribute where
  isBits : Bool
  outer : Bool
  tokens : Option (List Tok)
deriving DecidableEq, Repr

/-- `syn::Field`, a named field of the struct. -/
structure FieldDecl where
  name : String
  vis : Vis
  ty : SynType
  attrs : List Attribute

/-- `Field`, parsing/bitfields/bitfield.rs:82-114: the modelled part and the visibility and
ignored flags. -/
structure PField where
  field : Field
  vis : Vis
  ignored : Bool

/-- `BitfieldAttribute`, parsing/bitfields/bitfield_attribute/bitfield_attribute_parser.rs:13-21 -/
structure BitfieldAttr where
  ty : DataType
  args : BitfieldArgs

/-- The input of `#[bitfield(..)]`: the type (`none` if there is none, or something that is
not a type) and the tokens after it. -/
structure AttrInput where
  ty : Option SynType
  rest : List Tok

/-- `get_syn_type_string`, parsing/common/spanned_data_type.rs:38-45, of a type that has been accepted. Of a path only the
last segment is in the model, and a length is given in decimal. -/
def SynType.text : SynType → String
  | .path last _ => last
  | .array elem (.int n) => "[" ++ elem.text ++ ";" ++ toString n ++ "]"
  | _ => ""

/-- The texts of parsing/bitfields/bitfield_attribute/bitfield_attribute_parser.rs:35-40, 46-79 for the errors that
`dataType` returns. -/
def storageError : TypeError → String
  | .unexpectedFloat =>
    "The bitfield must have an unsigned integer literal as its first argument, floats are unsupported."
  | .nonIntegerArray => "The bitfield array must have an unsigned `u8` integer type as its first argument."
  | .zeroArrayLength => "The bitfield array length must be greater than 0."
  | .invalidArrayLength => "The bitfield array length must be a valid unsigned integer literal."
  | .arrayLengthTooLarge =>
    "The bitfield array length is currently capped at 4,294,967,295, please reduce the array length."
  | _ => "The bitfield must have an unsigned integer literal as its first argument."

/-- `create_unsupported_type_compiler_error`,
parsing/bitfields/bitfield_attribute/bitfield_attribute_parser.rs:110-121 -/
def unsupportedStorage (t : SynType) : String :=
  "The bitfield must have an unsigned integer literal as its first argument, '" ++ t.text ++ "' is unsupported."

/-- `BitfieldAttribute::parse`, parsing/bitfields/bitfield_attribute/bitfield_attribute_parser.rs:
23-33, 44-108. (If there is something that is not a type, the text is another one, with a message of `syn`.) -/
def parseBitfieldAttr (cfg : String → Bool) (a : AttrInput) : P BitfieldAttr :=
  match a.ty with
  | none => .error (.error (storageError .unexpectedEnd))
  | some t =>
    match t.dataType with
    | .error e => .error (.error (storageError e))
    | .ok (.custom _) => .error (.error (unsupportedStorage t))
    | .ok d =>
      if d.unsigned then do return { ty := d, args := ← parseBitfieldArgs cfg a.rest }
      else .error (.error (unsupportedStorage t))

/-- `get_bits_attribute`, parsing/bitfields/bitfield_parser.rs:169-185 -/
def getBitsAttribute (d : FieldDecl) : P (Option BitsAttr) :=
  match d.attrs.find? (fun a => a.isBits && a.outer) with
  | none => .ok none
  | some a =>
    match a.tokens with
    | none => .error (.error "The '#[bits]' attribute must be a list.")
    | some ts => (parseBitsAttr ts).map some

/-- `is_ignored_field`, parsing/bitfields/bitfield_parser.rs:188-190 -/
def isIgnored : Option BitsAttr → Bool
  | some a => a.args.ignored
  | none => false

/-- `is_reserved_field`, parsing/bitfields/bitfield_parser.rs:192-194 -/
def isReservedName (name : String) : Bool := name.toList.head? == some '_'

/-- The texts of parsing/bitfields/bitfield_parser.rs:203-235 -/
def fieldTypeError : TypeError → String
  | .sizeType =>
    "The `isize` and `usize` types are not supported, we cannot guarantee their size at runtime. Switch to a sized \
      integer type like `u8`, `i16`, etc.,"
  | .unexpectedFloat => "Floats are not supported as a field type."
  | .zeroArrayLength => "Array fields must have a length greater than 0."
  | .nonIntegerArray => "Array fields can only have `u8` as their element type."
  | .invalidArrayLength => "Field array length must be a valid unsigned integer literal."
  | .arrayLengthTooLarge =>
    "Field array length is currently capped at 4,294,967,295, please reduce the array length."
  | _ => "A field can only have `#[bits]` attributed custom or integers type."

/-- `get_field_data_type_spanned_token`, parsing/bitfields/bitfield_parser.rs:196-240 -/
def fieldDataType (d : FieldDecl) : P DataType :=
  match d.ty.dataType with
  | .ok t => .ok t
  | .error e => .error (.error (fieldTypeError e))

/-- `get_field_bits`, parsing/bitfields/bitfield_parser.rs:243-264 -/
def getFieldBits (m : Mode) (a : Option BitsAttr) (t : DataType) : P Nat :=
  match a.bind BitsAttr.bits with
  | some n => .ok n
  | none =>
    match t with
    | .custom _ => .error (.error "Custom and nested field types require a defined bit size, otherwise we can't \
        determine the size of the field.")
    | t => liftR (t.bitSize m)

/-- `check_bits`, parsing/bitfields/bitfield_parser.rs:267-280. Without a given width there is no
span and `expect` panics. -/
def checkBits (a : Option BitsAttr) (bits : Nat) : P Unit :=
  if bits = 0 then
    match a.bind BitsAttr.bits with
    | some _ => .error (.error "The field bits must be greater than 0.")
    | none => .error (.panic .unreachable)
  else .ok ()

/-- `min_max_for_bits`, parsing/bitfields/bitfield_parser.rs:380-384: the smallest `i128` and the
largest `u128`. -/
def minMaxForBits (m : Mode) (bits : Nat) : R (BitVec 128 × BitVec 128) :=
  if bits = 128 then .ok (BitVec.intMin 128, maxOf 128)
  else do
    let one ← shl m 1#128 bits
    let half ← shl m 1#128 (bits - 1)
    return (-half, one - 1#128)

/-- `check_default_value_fit_in_field`, parsing/bitfields/bitfield_parser.rs:285-351. A literal is a
`u128`; `number as i128` is the same bits, read as a signed number. -/
def checkDefault (m : Mode) (a : Option BitsAttr) (bits : Nat) (t : DataType) : P Unit :=
  match a.bind (fun a => a.args.default) with
  | some (.literal number negative, _) =>
    if t.unsigned && negative then
      .error (.error "Unsigned fields cannot have negative default values.")
    else
      match minMaxForBits m bits with
      | .error p => .error (.panic p)
      | .ok (min, max) =>
        let n := BitVec.ofNat 128 number
        if negative then
          if n = BitVec.intMin 128 then .error (.panic .unreachable)
          else if (-n).slt min then .error (.error
            ("The negative default value '-" ++ toString number ++ "' is below the minimum value for the specified '" ++
              toString bits ++ " bits (" ++ toString min.toInt ++ ")'."))
          else .ok ()
        else if max < n then .error (.error
            ("The default value '" ++ toString number ++ "' exceeds the maximum value for the specified '" ++
              toString bits ++ " bits (" ++ toString max.toNat ++ ")'."))
        else .ok ()
  | _ => .ok ()

/-- The text of a type that the macro knows (see `SynType.text`). -/
def DataType.text : DataType → String
  | .int .bool => "bool"
  | .int .u8 => "u8" | .int .u16 => "u16" | .int .u32 => "u32" | .int .u64 => "u64" | .int .u128 => "u128"
  | .int .i8 => "i8" | .int .i16 => "i16" | .int .i32 => "i32" | .int .i64 => "i64" | .int .i128 => "i128"
  | .array n => "[u8;" ++ toString n ++ "]"
  | .custom _ => ""

/-- `check_field_data_type_can_hold_bits`, parsing/bitfields/bitfield_parser.rs:354-376. Reached
with too many bits only if a width was given, so the `expect` there succeeds; it is modelled all
the same. -/
def checkCanHold (m : Mode) (a : Option BitsAttr) (bits : Nat) (t : DataType) : P Unit :=
  match a with
  | none => .ok ()
  | some a => do
    let size ← liftR (t.bitSize m)
    if size < bits then
      match a.bits with
      | some _ => .error (.error
          ("The field type '" ++ t.text ++ "' is too small to hold the specified '" ++ toString bits ++ " bits'."))
      | none => .error (.panic .unreachable)
    else .ok ()

/-- `fields.iter().map(Field::bits).sum::<u32>()`,
parsing/bitfields/bitfield_parser.rs:392, 471 -/
def sumBits (m : Mode) (fs : List PField) : R Nat :=
  fs.foldlM (fun acc p => addU32 m acc p.field.bits) 0

/-- `calculate_field_offset`, parsing/bitfields/bitfield_parser.rs:386-418 -/
def fieldOffset (m : Mode) (A : BitfieldAttr) (bits : Nat) (prev : List PField) : P Nat := do
  let offset ← liftR (sumBits m prev)
  match A.args.order with
  | .lsb => return offset
  | .msb =>
    let size ← liftR (A.ty.bitSize m)
    let total ← liftR (addU32 m offset bits)
    if total ≤ size then
      liftR (do subU32 m (← subU32 m size bits) offset)
    else .error (.error
        ("The total bits of the fields (" ++ toString total ++ " bits) exceeds the bit size of the bitfield type (" ++
          toString size ++ " bits)."))

/-- `get_field_access`, parsing/bitfields/bitfield_parser.rs:422-451 -/
def fieldAccess (a : Option BitsAttr) (reserved : Bool) : P Access :=
  match a with
  | none => .ok (if reserved then .na else .rw)
  | some a =>
    if a.args.userSetAccess && reserved then
      .error (.error "Reserved fields cannot have a defined access.")
    else if a.args.default.isSome && reserved then .ok .ro
    else .ok a.args.access

/-- `get_field_visibility`, parsing/bitfields/bitfield_parser.rs:455-463 -/
def fieldVis (structVis vis : Vis) : Vis := if vis = .priv then structVis else vis

/-- `parse_ignored_field`, parsing/bitfields/bitfield_parser.rs:151-166 -/
def parseIgnored (d : FieldDecl) : P PField :=
  match d.ty.dataType with
  | .error _ => .error (.panic .unreachable)
  | .ok t => .ok { field := ⟨d.name, t, 0, 0, .na, false, none⟩, vis := d.vis, ignored := true }

/-- `parse_field_helper`, parsing/bitfields/bitfield_parser.rs:107-149 -/
def parseField (m : Mode) (A : BitfieldAttr) (structVis : Vis) (d : FieldDecl)
    (prev : List PField) : P PField := do
  let a ← getBitsAttribute d
  if isIgnored a then parseIgnored d
  else do
    let reserved := isReservedName d.name
    let t ← fieldDataType d
    let bits ← getFieldBits m a t
    checkBits a bits
    match t with
    | .int _ => do
      checkDefault m a bits t
      checkCanHold m a bits t
    | _ => .ok ()
    let offset ← fieldOffset m A bits prev
    let access ← fieldAccess a reserved
    return {
      field := ⟨d.name, t, bits, offset, access, reserved,
        (a.bind fun a => a.args.default).map (·.2)⟩
      vis := fieldVis structVis d.vis
      ignored := false }

/-- The loop of `parse_fields`, parsing/bitfields/bitfield_parser.rs:68-104: names seen so far, the
parsed fields so far, the ignored fields so far. -/
def parseFields (m : Mode) (A : BitfieldAttr) (structVis : Vis) :
    List FieldDecl → List String → List PField → List PField → P (List PField × List PField)
  | [], _, fields, ignored => .ok (fields, ignored)
  | d :: ds, seen, fields, ignored =>
    if seen.contains d.name then 
      .error (.error ("Duplicate field name '" ++ d.name ++ "' found, all fields must have unique names."))
    else do
      let p ← parseField m A structVis d fields
      let seen := if p.field.reserved then seen else d.name :: seen
      if p.ignored then parseFields m A structVis ds seen fields (ignored ++ [p])
      else parseFields m A structVis ds seen (fields ++ [p]) ignored

/-- `check_fields_fit_in_bitfield_type`, parsing/bitfields/bitfield_parser.rs:467-507 -/
def checkFit (m : Mode) (A : BitfieldAttr) (fields : List PField) : P Unit := do
  let total ← liftR (sumBits m fields)
  let size ← liftR (A.ty.bitSize m)
  if size < total then 
    .error (.error ("The total number of bits of the fields '" ++ toString total ++
      " bits' is greater than the number of bits of the bitfield '" ++ A.ty.text ++ " (" ++ toString size ++ " bits)'."))
  else if total < size then 
    .error (.error ("The total number of bits of the fields '" ++ toString total ++
      " bits' is less than the number of bits of the bitfield '" ++ A.ty.text ++ " (" ++ toString size ++
      " bits)', you can add a reserved field (prefixed with '_') to fill the remaining '" ++ toString (size - total) ++
      " bits'."))
  else .ok ()

/-- `syn::ItemStruct`: the visibility, and the fields if they are named. -/
structure StructDecl where
  vis : Vis
  fields : Option (List FieldDecl)

/-- `Bitfield`, parsing/bitfields/bitfield.rs:10-38, without names and attributes. -/
structure Parsed where
  ty : DataType
  vis : Vis
  fields : List PField
  ignored : List PField
  args : BitfieldArgs

/-- `parse_bitfield_struct`, parsing/bitfields/bitfield_parser.rs:20-40, 56-66. `syn` has already
parsed the struct. -/
def parseBitfield (m : Mode) (cfg : String → Bool) (attr : AttrInput) (d : StructDecl) :
    P Parsed := do
  let A ← parseBitfieldAttr cfg attr
  match d.fields with
  | none => .error (.error "Non-named fields are not supported.")
  | some ds => do
    let (fields, ignored) ← parseFields m A d.vis ds [] [] []
    checkFit m A fields
    return { ty := A.ty, vis := d.vis, fields, ignored, args := A.args }

/-- The backing type of a bitfield: an integer or a byte array. -/
def DataType.backing : DataType → Backing
  | .int t => .int t.bitSize
  | .array n => .arr n
  | .custom _ => .int 0

/-- The part of the parsed bitfield that the generated functions depend on. -/
def Parsed.bitfield (p : Parsed) : Bitfield where
  backing := p.ty.backing
  fields := p.fields.map (·.field)
  fromEndian := p.args.fromEndian
  intoEndian := p.args.intoEndian
  writeEndian := p.args.writeEndian
  heap := p.args.arrayHeap

end Bf
