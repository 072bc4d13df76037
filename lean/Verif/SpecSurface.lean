import Verif.Model.Surface
import Verif.SpecDecl

/-!
# Specification vocabulary for the generated interface

Which items a user expects to be generated for a struct, and the arguments of `#[bitfield(..)]`.
-/

namespace Bf

/-- The macro generates the item. -/
def Generates (p : Parsed) (t : Tag) : Prop := ∃ v, ⟨t, v⟩ ∈ surface p

/-- The field takes part in the layout under its own name: neither reserved nor ignored. -/
def FieldSpec.Named (f : FieldSpec) : Prop := f.reserved = false ∧ f.ignored = false

/-- The user may read the field: its access is `ro` or `rw` (which is the default). -/
def FieldSpec.CanRead (f : FieldSpec) : Prop :=
  f.Named ∧ (f.access?.getD .rw = .ro ∨ f.access?.getD .rw = .rw)

/-- The user may write the field: its access is `wo` or `rw` (which is the default). -/
def FieldSpec.CanWrite (f : FieldSpec) : Prop :=
  f.Named ∧ (f.access?.getD .rw = .wo ∨ f.access?.getD .rw = .rw)

/-- The visibility a declared member inherits: its own if it has one, else that of the struct. -/
def FieldSpec.ownVis (f : FieldSpec) (structVis : Vis) : Vis :=
  if f.vis = .priv then structVis else f.vis

/-! ## Arguments of `#[bitfield(..)]` -/

/-- The arguments whose value is `true` or `false`. -/
inductive Flag where
  | new | fromIntoBits | fromTraits | default | debug | copy | bitOps | writeBitOps | clearBitOps
  | setGetBitOps | invertBitOps | toggleBitOps | builder | arrayHeap | forcePanic
deriving DecidableEq, Repr

/-- The name of the argument. -/
def Flag.key : Flag → String
  | .new => "new"
  | .fromIntoBits => "from_into_bits"
  | .fromTraits => "from_traits"
  | .default => "default"
  | .debug => "debug"
  | .copy => "copy"
  | .bitOps => "bit_ops"
  | .writeBitOps => "write_bit_ops"
  | .clearBitOps => "clear_bit_ops"
  | .setGetBitOps => "set_get_bit_ops"
  | .invertBitOps => "invert_bit_ops"
  | .toggleBitOps => "toggle_bit_ops"
  | .builder => "builder"
  | .arrayHeap => "array_heap"
  | .forcePanic => "force_panic"

/-- The Cargo features that switch it on and off. -/
def Flag.features : Flag → Option (String × String)
  | .new => some ("generate_new", "disable_new")
  | .fromIntoBits => some ("generate_from_into_bits", "disable_from_into_bits")
  | .fromTraits => some ("generate_from_traits", "disable_from_traits")
  | .default => some ("generate_default", "disable_default")
  | .debug => some ("generate_debug", "disable_debug")
  | .copy => some ("derive_copy", "disable_copy")
  | .bitOps => some ("generate_bit_ops", "disable_bit_ops")
  | .writeBitOps => some ("generate_write_bit_ops", "disable_write_bit_ops")
  | .clearBitOps => some ("generate_clear_bit_ops", "disable_clear_bit_ops")
  | .setGetBitOps => some ("generate_set_get_bit_ops", "disable_set_get_bit_ops")
  | .invertBitOps => some ("generate_invert_bit_ops", "disable_invert_bit_ops")
  | .toggleBitOps => some ("generate_toggle_bit_ops", "disable_toggle_bit_ops")
  | .builder => some ("generate_builder", "disable_builder")
  | .arrayHeap => some ("enable_array_heap", "disable_array_heap")
  | .forcePanic => none

/-- The value of a flag that is not given as an argument: `true` unless only the disabling Cargo
feature is active. Heap storage is the other way round: it needs the enabling feature without
the disabling one. -/
def Flag.byDefault (cfg : String → Bool) (k : Flag) : Bool :=
  match k.features with
  | none => false
  | some (on, off) => if k = .arrayHeap then cfg on && !cfg off else cfg on || !cfg off

/-- The arguments that name an endianness. -/
inductive EndianKey where
  | from | into | write
deriving DecidableEq, Repr

def EndianKey.key : EndianKey → String
  | .from => "from_endian"
  | .into => "into_endian"
  | .write => "write_endian"

/-- An argument of `#[bitfield(..)]`. -/
inductive BitfieldArgSpec where
  | flag (k : Flag) (b : Bool)
  | order (o : Order)
  | endian (k : EndianKey) (e : Endian)

def Order.text : Order → List Char
  | .lsb => ['l', 's', 'b']
  | .msb => ['m', 's', 'b']

def Endian.text : Endian → List Char
  | .little => ['l', 'i', 't', 't', 'l', 'e']
  | .big => ['b', 'i', 'g']

/-- The tokens of an argument. -/
def BitfieldArgSpec.tokens : BitfieldArgSpec → List Tok
  | .flag k b => [.ident k.key, .eq, .expr (boolText b) (.bool b)]
  | .order o => [.ident "order", .eq, .expr o.text (.bool false)]
  | .endian k e => [.ident k.key, .eq, .expr e.text (.bool false)]

/-- What follows the storage type: the arguments, each preceded by a comma. -/
def bitfieldTokens (as : List BitfieldArgSpec) : List Tok :=
  as.flatMap fun a => .comma :: a.tokens

/-- The value stated for a flag: its last argument. -/
def stated (as : List BitfieldArgSpec) (k : Flag) : Option Bool :=
  lastArg (fun | .flag k' b => if k' = k then some b else none | _ => none) as

/-- The order stated. -/
def statedOrder (as : List BitfieldArgSpec) : Option Order :=
  lastArg (fun | .order o => some o | _ => none) as

/-- The endianness stated. -/
def statedEndian (as : List BitfieldArgSpec) (k : EndianKey) : Option Endian :=
  lastArg (fun | .endian k' e => if k' = k then some e else none | _ => none) as

/-- The value of a flag. -/
def flagValue (cfg : String → Bool) (as : List BitfieldArgSpec) (k : Flag) : Bool :=
  (stated as k).getD (k.byDefault cfg)

/-- The endianness without an argument: little only if just the feature for little is active. -/
def EndianKey.byDefault (cfg : String → Bool) (k : EndianKey) : Endian :=
  if cfg (k.key ++ "_little") && !cfg (k.key ++ "_big") then .little else .big

/-- The field order without an argument: most significant first only if just the feature for it is
active. -/
def orderByDefault (cfg : String → Bool) : Order :=
  if cfg "order_msb" && !cfg "order_lsb" then .msb else .lsb

/-! ## Groups of generated items -/

/-- The groups of items that can be switched on and off. -/
inductive Group where
  | new | fromIntoBits | fromTraits | default | debug | builder
  | writeBits | clearBits | setGetBits | invertBits
deriving DecidableEq, Repr

/-- The flag of the group. -/
def Group.flag : Group → Flag
  | .new => .new
  | .fromIntoBits => .fromIntoBits
  | .fromTraits => .fromTraits
  | .default => .default
  | .debug => .debug
  | .builder => .builder
  | .writeBits => .writeBitOps
  | .clearBits => .clearBitOps
  | .setGetBits => .setGetBitOps
  | .invertBits => .invertBitOps

/-- The group is one of the bit operation groups. -/
def Group.isBitOps : Group → Bool
  | .writeBits | .clearBits | .setGetBits | .invertBits => true
  | _ => false

/-- The group is to be generated: an argument of its own decides; without one the default does, and
for a bit operation group also the master switch `bit_ops`. -/
def GroupOn (cfg : String → Bool) (as : List BitfieldArgSpec) (g : Group) : Bool :=
  match stated as g.flag with
  | some b => b
  | none => g.flag.byDefault cfg && (!g.isBitOps || flagValue cfg as .bitOps)

/-- The items of a group that belong to no field, for an integer-backed (`int`) or an array-backed
bitfield. -/
def Group.tags (int : Bool) : Group → List Tag
  | .new => [.fn "new", .fn "new_without_defaults"]
  | .fromIntoBits =>
    if int then
      [.fn "from_bits", .fn "from_bits_with_defaults", .fn "from_le_bits",
       .fn "from_le_bits_with_defaults", .fn "from_be_bits", .fn "from_be_bits_with_defaults",
       .fn "into_bits", .fn "into_le_bits", .fn "into_be_bits"]
    else
      [.fn "from_bytes", .fn "from_bytes_with_defaults", .fn "from_le_bytes",
       .fn "from_le_bytes_with_defaults", .fn "from_be_bytes", .fn "from_be_bytes_with_defaults",
       .fn "from_slice", .fn "from_slice_with_defaults", .fn "checked_from_slice",
       .fn "checked_from_slice_with_defaults",
       .fn "from_le_slice", .fn "from_le_slice_with_defaults", .fn "checked_from_le_slice",
       .fn "checked_from_le_slice_with_defaults",
       .fn "from_be_slice", .fn "from_be_slice_with_defaults", .fn "checked_from_be_slice",
       .fn "checked_from_be_slice_with_defaults",
       .fn "into_bytes", .fn "into_le_bytes", .fn "into_be_bytes",
       .fn "into_slice", .fn "checked_into_slice", .fn "into_le_slice",
       .fn "checked_into_le_slice", .fn "into_be_slice", .fn "checked_into_be_slice"]
  | .fromTraits => [.impl .fromBacking, .impl .intoBacking]
  | .default => [.impl .default]
  | .debug => [.impl .debug]
  | .builder => [.builder, .impl .builderDefault, .builderFn "new",
      .builderFn "new_without_defaults", .builderFn "build"]
  | .writeBits =>
    if int then
      [.fn "write_bits", .fn "write_bits_with_defaults", .fn "write_le_bits",
       .fn "write_le_bits_with_defaults", .fn "write_be_bits", .fn "write_be_bits_with_defaults",
       .fn "write_defaults"]
    else
      [.fn "write_bytes", .fn "write_bytes_with_defaults", .fn "write_le_bytes",
       .fn "write_le_bytes_with_defaults", .fn "write_be_bytes",
       .fn "write_be_bytes_with_defaults", .fn "write_defaults"]
  | .clearBits =>
    if int then [.fn "clear_bits", .fn "clear_bits_with_defaults"]
    else [.fn "clear_bytes", .fn "clear_bytes_with_defaults"]
  | .setGetBits =>
    [.fn "get_bit", .fn "checked_get_bit", .fn "set_bit", .fn "checked_set_bit"] ++
    if int then
      [.fn "get_bits_range", .fn "checked_get_bits_range", .fn "set_bits_range",
       .fn "checked_set_bits_range"]
    else
      [.fn "get_bytes_range", .fn "checked_get_bytes_range", .fn "set_bytes_range",
       .fn "checked_set_bytes_range"]
  | .invertBits => if int then [.fn "invert_bits"] else [.fn "invert_bytes"]

/-- The storage is an integer (or `bool`), not a byte array. -/
def StructSpec.intBacked (s : StructSpec) : Bool :=
  match s.storage with
  | .int _ => true
  | _ => false

/-! ## Items of a field -/

/-- Which fields have which items. -/
def FieldSpec.Has (f : FieldSpec) : Accessor → Prop
  | .get | .inverted => f.CanRead
  | .set | .checkedSet | .clear | .invert => f.CanWrite
  | .clearToDefault => f.CanWrite ∧ f.default?.isSome
  | .bitsConst | .offsetConst => f.CanRead ∨ f.CanWrite
  | .builderWith | .builderCheckedWith => f.Named

/-- The group an item of a field belongs to; the others are always generated. -/
def Accessor.group : Accessor → Option Group
  | .clear | .clearToDefault => some .clearBits
  | .invert | .inverted => some .invertBits
  | .builderWith | .builderCheckedWith => some .builder
  | _ => none

/-- The group is generated: all its items that belong to no field are. -/
def Parsed.HasGroup (p : Parsed) (g : Group) : Prop := ∀ t ∈ g.tags p.intBacked, Generates p t

end Bf
