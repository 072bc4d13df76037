import Verif.Model.Parser

/-!
# Which items the macro generates

The list of generated items (types, trait implementations, constants, functions) with their names
and visibilities, as assembled by generating/bitfield/bitfield_generator.rs. Paths are relative to
`/repo/bitfields_impl/src`; `features/` is generating/bitfield/features/. What the functions do
is modelled in `Model/Api.lean`.
-/

namespace Bf

/-! ## Fields (parsing/bitfields/bitfield.rs) -/

/-- `Field::visibility`, parsing/bitfields/bitfield.rs:145-154 -/
def PField.visibility (f : PField) : Vis :=
  if f.field.access == .rw || f.field.access == .ro then f.vis else .priv

/-- `Bitfield::has_ignored_fields`, parsing/bitfields/bitfield.rs:64-67 -/
def Parsed.hasIgnored (p : Parsed) : Bool := !p.ignored.isEmpty

/-- `Bitfield::is_integer_backed`, parsing/bitfields/bitfield.rs:74-76 -/
def Parsed.intBacked (p : Parsed) : Bool :=
  match p.ty with
  | .int _ => true
  | _ => false

/-! ## Items -/

/-- The kinds of items generated for one field. -/
inductive Accessor where
  | bitsConst | offsetConst | get | set | checkedSet | clear | clearToDefault | invert | inverted
  | builderWith | builderCheckedWith
deriving DecidableEq, Repr

/-- The trait implementations. -/
inductive TraitImpl where
  /-- `From<Backing> for Bitfield` -/
  | fromBacking
  /-- `From<Bitfield> for Backing` -/
  | intoBacking
  | debug
  | default
  /-- `Default for BitfieldBuilder` -/
  | builderDefault
deriving DecidableEq, Repr

/-- What a generated item is. -/
inductive Tag where
  /-- the struct -/
  | bitfield
  /-- the builder struct -/
  | builder
  | impl (t : TraitImpl)
  /-- a function of the bitfield that belongs to no field -/
  | fn (name : String)
  /-- a function of the builder that belongs to no field -/
  | builderFn (name : String)
  /-- an item for a field -/
  | acc (a : Accessor) (field : String)
deriving DecidableEq, Repr

/-- A generated item. Trait implementations have no visibility of their own, the model gives
them `pub`. -/
structure Item where
  tag : Tag
  vis : Vis
deriving DecidableEq, Repr

/-- The identifier of a field's item: features/common/naming_extensions.rs:22-45,
features/clear_bit_ops_feature.rs:96, 116, features/invert_bit_ops_feature.rs:121, 157,
features/builder_feature.rs:145, 148. `to_uppercase` is modelled for ASCII names. -/
def Accessor.ident (a : Accessor) (field : String) : String :=
  match a with
  | .bitsConst => field.map Char.toUpper ++ "_BITS"
  | .offsetConst => field.map Char.toUpper ++ "_OFFSET"
  | .get => field
  | .set => "set_" ++ field
  | .checkedSet => "checked_set_" ++ field
  | .clear => "clear_" ++ field
  | .clearToDefault => "clear_" ++ field ++ "_to_default"
  | .invert => "invert_" ++ field
  | .inverted => field ++ "_inverted"
  | .builderWith => "with_" ++ field
  | .builderCheckedWith => "checked_with_" ++ field

/-- Whether a field's item belongs to the builder. -/
def Accessor.ofBuilder : Accessor → Bool
  | .builderWith | .builderCheckedWith => true
  | _ => false

/-- The identifier an item defines in `impl Bitfield { .. }`. -/
def Tag.implIdent : Tag → Option String
  | .fn name => some name
  | .acc a field => if a.ofBuilder then none else some (a.ident field)
  | _ => none

/-- The identifier an item defines in `impl BitfieldBuilder { .. }`. -/
def Tag.builderIdent : Tag → Option String
  | .builderFn name => some name
  | .acc a field => if a.ofBuilder then some (a.ident field) else none
  | _ => none

/-! ## Features -/

/-- The list in `get_enabled_features`, generating/bitfield/bitfield_generator.rs:41-57 -/
inductive Feature where
  | struct | constants | new | setters | getters | fromTraits | debug | fromIntoBits | builder
  | default | writeBitOps | setGetBitOps | clearBitOps | invertBitOps
deriving DecidableEq, Repr

/-- generating/bitfield/bitfield_generator.rs:42-57 -/
def Feature.all : List Feature :=
  [.struct, .constants, .new, .setters, .getters, .fromTraits, .debug, .fromIntoBits, .builder,
   .default, .writeBitOps, .setGetBitOps, .clearBitOps, .invertBitOps]

/-- `is_bit_ops_feature_enabled`, generating/bitfield/feature.rs:49-62 -/
def bitOpsEnabled (args : BitfieldArgs) (flag userSet : Bool) : Bool :=
  if !args.bitOps then flag && userSet else flag

/-- `Feature::enabled` of each feature: features/bitfield_struct_feature.rs:26-28,
features/field_constants_feature.rs:25-27, features/new_functions_feature.rs:26-28,
features/field_setters_feature.rs:26-28, features/field_getters_feature.rs:23-25,
features/from_traits_feature.rs:27-29, features/debug_trait_feature.rs:18-20,
features/from_into_bits_feature.rs:24-26, features/builder_feature.rs:28-30,
features/default_trait_feature.rs:19-21, features/write_bit_ops_feature.rs:23-29,
features/set_get_bit_ops_feature.rs:19-25, features/clear_bit_ops_feature.rs:22-28,
features/invert_bit_ops_feature.rs:24-30 -/
def Feature.enabled (args : BitfieldArgs) : Feature → Bool
  | .struct | .constants | .setters | .getters => true
  | .new => args.new
  | .fromTraits => args.fromTraits
  | .debug => args.debug
  | .fromIntoBits => args.fromIntoBits
  | .builder => args.builder
  | .default => args.default
  | .writeBitOps => bitOpsEnabled args args.bitOps args.setGetBitOps
  | .setGetBitOps => bitOpsEnabled args args.setGetBitOps args.userSetSetGetBitOps
  | .clearBitOps => bitOpsEnabled args args.clearBitOps args.userSetClearBitOps
  | .invertBitOps => bitOpsEnabled args args.invertBitOps args.userSetInvertBitOps

/-- `get_bits_or_bytes_term`, features/common/generator_helper.rs:1006-1009 -/
def Parsed.bob (p : Parsed) : String := if p.intBacked then "bits" else "bytes"

/-- An item of the bitfield's visibility for each name. -/
def Parsed.fns (p : Parsed) (names : List String) : List Item := names.map fun n => ⟨.fn n, p.vis⟩

/-- features/from_into_bits_feature.rs:39-44: the functions of an integer-backed bitfield,
features/from_into_bits_feature.rs:48-174 -/
def intConversions : List String :=
  ["from_bits", "from_bits_with_defaults", "from_le_bits", "from_le_bits_with_defaults",
   "from_be_bits", "from_be_bits_with_defaults", "into_bits", "into_le_bits", "into_be_bits"]

/-- The functions of an array-backed bitfield, features/from_into_bits_feature.rs:176-719 -/
def arrayConversions : List String :=
  ["from_bytes", "from_bytes_with_defaults", "from_le_bytes", "from_le_bytes_with_defaults",
   "from_be_bytes", "from_be_bytes_with_defaults",
   "from_slice", "from_slice_with_defaults", "checked_from_slice",
   "checked_from_slice_with_defaults",
   "from_le_slice", "from_le_slice_with_defaults", "checked_from_le_slice",
   "checked_from_le_slice_with_defaults",
   "from_be_slice", "from_be_slice_with_defaults", "checked_from_be_slice",
   "checked_from_be_slice_with_defaults",
   "into_bytes", "into_le_bytes", "into_be_bytes",
   "into_slice", "checked_into_slice", "into_le_slice", "checked_into_le_slice",
   "into_be_slice", "checked_into_be_slice"]

/-- `generate_feature` of each feature: the items it generates.
* features/bitfield_struct_feature.rs:44-52
* features/field_constants_feature.rs:44-69
* features/new_functions_feature.rs:40-87
* features/field_setters_feature.rs:41-86
* features/field_getters_feature.rs:38-71
* features/from_traits_feature.rs:42-101
* features/debug_trait_feature.rs:33-72
* features/from_into_bits_feature.rs:38-44
* features/builder_feature.rs:42-90, 128-179
* features/default_trait_feature.rs:33-45
* features/write_bit_ops_feature.rs:41-139
* features/set_get_bit_ops_feature.rs:48-56 and the functions named there
* features/clear_bit_ops_feature.rs:40-126
* features/invert_bit_ops_feature.rs:42-180 -/
def Feature.items (p : Parsed) : Feature → List Item
  | .struct => [⟨.bitfield, p.vis⟩]
  | .constants => (p.fields.filter fun f => f.field.hasConstants).flatMap fun f =>
      [⟨.acc .bitsConst f.field.name, f.visibility⟩, ⟨.acc .offsetConst f.field.name, f.visibility⟩]
  | .new => p.fns ["new", "new_without_defaults"]
  | .setters => (p.fields.filter fun f => f.field.hasSetter).flatMap fun f =>
      [⟨.acc .set f.field.name, f.visibility⟩, ⟨.acc .checkedSet f.field.name, f.visibility⟩]
  | .getters => (p.fields.filter fun f => f.field.hasGetter).map fun f =>
      ⟨.acc .get f.field.name, f.visibility⟩
  | .fromTraits => [⟨.impl .fromBacking, .pub⟩, ⟨.impl .intoBacking, .pub⟩]
  | .debug => [⟨.impl .debug, .pub⟩]
  | .fromIntoBits => p.fns (if p.intBacked then intConversions else arrayConversions)
  | .builder =>
      [⟨.builder, p.vis⟩, ⟨.impl .builderDefault, .pub⟩, ⟨.builderFn "new", p.vis⟩,
       ⟨.builderFn "new_without_defaults", p.vis⟩] ++
      ((p.fields.filter fun f => !f.field.reserved).flatMap fun f =>
        [⟨.acc .builderWith f.field.name, f.visibility⟩,
         ⟨.acc .builderCheckedWith f.field.name, f.visibility⟩]) ++
      [⟨.builderFn "build", p.vis⟩]
  | .default => [⟨.impl .default, .pub⟩]
  | .writeBitOps => p.fns
      ["write_" ++ p.bob, "write_" ++ p.bob ++ "_with_defaults", "write_le_" ++ p.bob,
       "write_le_" ++ p.bob ++ "_with_defaults", "write_be_" ++ p.bob,
       "write_be_" ++ p.bob ++ "_with_defaults", "write_defaults"]
  | .setGetBitOps => p.fns
      ["set_bit", "checked_set_bit", "set_" ++ p.bob ++ "_range",
       "checked_set_" ++ p.bob ++ "_range", "get_bit", "checked_get_bit",
       "get_" ++ p.bob ++ "_range", "checked_get_" ++ p.bob ++ "_range"]
  | .clearBitOps =>
      p.fns ["clear_" ++ p.bob, "clear_" ++ p.bob ++ "_with_defaults"] ++
      ((p.fields.filter fun f => f.field.hasSetter).map fun f =>
        ⟨.acc .clear f.field.name, p.vis⟩) ++
      ((p.fields.filter fun f => f.field.hasSetter && f.field.default.isSome).map fun f =>
        ⟨.acc .clearToDefault f.field.name, p.vis⟩)
  | .invertBitOps =>
      p.fns ["invert_" ++ p.bob] ++
      ((p.fields.filter fun f => f.field.hasSetter).map fun f =>
        ⟨.acc .invert f.field.name, p.vis⟩) ++
      ((p.fields.filter fun f => f.field.hasGetter).map fun f =>
        ⟨.acc .inverted f.field.name, p.vis⟩)

/-- `get_enabled_features` and `generate_features`,
generating/bitfield/bitfield_generator.rs:40-82, in the order of the list of features. The order in which they are
printed (`order_priority`, `feature_position`) is in `Model/Expand.lean`. -/
def surface (p : Parsed) : List Item :=
  (Feature.all.filter fun f => f.enabled p.args).flatMap fun f => f.items p

/-! ## The struct itself -/

/-- How the bits are stored, and what is derived: features/bitfield_struct_feature.rs. -/
structure Shape where
  /-- `repr(transparent)` tuple struct rather than a `repr(C)` struct with named fields -/
  transparent : Bool
  /-- the array is in a `Box` -/
  boxed : Bool
  copy : Bool
  clone : Bool
  /-- the other members: name and visibility -/
  members : List (String × Vis)
  /-- the functions are `const fn` -/
  constFn : Bool
deriving DecidableEq, Repr

/-- features/bitfield_struct_feature.rs:69-190, features/common/generator_helper.rs:19-23 (on a
compiler that supports `const` functions with mutable references) -/
def Parsed.shape (p : Parsed) : Shape where
  transparent := !p.hasIgnored
  boxed := p.args.arrayHeap && !p.intBacked
  copy := p.args.copy && !(p.args.arrayHeap && !p.intBacked)
  clone := p.args.copy
  members := p.ignored.map fun f => (f.field.name, f.visibility)
  constFn := !p.hasIgnored && !(p.args.arrayHeap && !p.intBacked)

/-! ## The identifiers that are made up -/

/-- Whether a character may be in an identifier. Of the characters that are not ASCII all are taken to be allowed. -/
def identChar (c : Char) : Bool := c.isAlphanum || c == '_' || decide (128 ≤ c.toNat)

/-- Whether the characters are an identifier, as `proc_macro::Ident::new` demands. -/
def identText : List Char → Bool
  | [] => false
  | c :: cs => !c.isDigit && (c :: cs).all identChar

/-- Whether `format_ident!` can make an identifier with this text: after an optional leading `r#` it has to be an
identifier, otherwise `format_ident!` panics. -/
def canFormatIdent (x : String) : Bool :=
  match x.toList with
  | 'r' :: '#' :: cs => identText cs
  | cs => identText cs

/-- The identifier made up for a visibility, parsing/common/visibility.rs:46-51 -/
def Vis.idents : Vis → List String
  | .restricted path => [path]
  | _ => []

/-- The identifiers made up for an item: of its visibility and, except for getters, its own (see `Accessor.ident`). The
getter's is the field's, features/field_getters_feature.rs:46. -/
def Item.idents (i : Item) : List String :=
  i.vis.idents ++
  match i.tag with
  | .acc .get _ => []
  | .acc a x => [a.ident x]
  | _ => []

/-- All of them. Setters and constants are referred to only where they are generated. -/
def Parsed.idents (p : Parsed) : List String :=
  (surface p).flatMap Item.idents ++ p.ignored.flatMap fun f => f.visibility.idents

/-! ## The entry point -/

/-- `start_bitfield_generation`, lib.rs:2147-2163. A panic is turned into a compile error by
`catch_panics`. -/
def expandBitfield (m : Mode) (cfg : String → Bool) (attr : AttrInput) (d : StructDecl) :
    P (List Item) := do
  let p ← parseBitfield m cfg attr d
  if p.args.forcePanic then .error (.panic .unreachable)
  else if p.idents.all canFormatIdent then return surface p
  else .error (.panic .unreachable)

end Bf
