import Verif.Model.Surface
import Verif.Model.Bitflag

/-!
# The macro's output as a whole

What `#[bitfield]` prints for a struct, in the order in which it prints it, and what the entry point does with errors and
panics.
-/

namespace Bf

/-! ## Visibilities -/

/-- `syn::Visibility`: nothing, `pub`, or `pub(path)`/`pub(in path)` with the segments of the path. `inToken` is whether
`in` is written; without it the path is one of `crate`, `self`, `super`. -/
inductive SynVis where
  | inherited
  | pub
  | restricted (inToken : Bool) (path : List String)
deriving DecidableEq, Repr

/-- `Visibility::new`, parsing/common/visibility.rs:22-36: the segments are joined without separator and `in` is dropped. -/
def Vis.ofSyn : SynVis → Vis
  | .inherited => .priv
  | .pub => .pub
  | .restricted _ path => .restricted (String.join path)

/-- The tokens of a visibility that the compiler sees, by `to_tokens`, parsing/common/visibility.rs:40-59. -/
def Vis.toSyn : Vis → SynVis
  | .pub => .pub
  | .restricted path => .restricted false [path]
  | .priv => .inherited

/-! ## The order of the features -/

/-- `FeaturePosition`, generating/bitfield/feature.rs:37-47 -/
inductive Position where
  | above | inside | below
deriving DecidableEq, Repr

/-- `feature_position`: features/bitfield_struct_feature.rs:30-32, features/field_constants_feature.rs:29-31,
features/new_functions_feature.rs:30-32, features/field_setters_feature.rs:30-32, features/field_getters_feature.rs:27-29,
features/from_traits_feature.rs:31-33, features/debug_trait_feature.rs:22-24, features/from_into_bits_feature.rs:28-30,
features/builder_feature.rs:32-34, features/default_trait_feature.rs:23-25, features/write_bit_ops_feature.rs:31-33,
features/set_get_bit_ops_feature.rs:27-29, features/clear_bit_ops_feature.rs:30-32, features/invert_bit_ops_feature.rs:32-34 -/
def Feature.position : Feature → Position
  | .struct => .above
  | .fromTraits | .debug | .builder | .default => .below
  | .constants | .new | .setters | .getters | .fromIntoBits | .writeBitOps | .setGetBitOps | .clearBitOps | .invertBitOps =>
      .inside

/-- `order_priority`: features/bitfield_struct_feature.rs:34-36, features/field_constants_feature.rs:33-35,
features/new_functions_feature.rs:34-36, features/field_setters_feature.rs:34-36, features/field_getters_feature.rs:31-33,
features/from_traits_feature.rs:35-37, features/debug_trait_feature.rs:26-28, features/from_into_bits_feature.rs:32-34,
features/builder_feature.rs:36-38, features/default_trait_feature.rs:27-29, features/write_bit_ops_feature.rs:35-37,
features/set_get_bit_ops_feature.rs:31-33, features/clear_bit_ops_feature.rs:34-36, features/invert_bit_ops_feature.rs:36-38 -/
def Feature.priority : Feature → Nat
  | .struct | .constants | .fromTraits => 0
  | .new | .default => 1
  | .fromIntoBits | .debug => 2
  | .getters => 3
  | .setters => 4
  | .writeBitOps => 5
  | .setGetBitOps => 6
  | .clearBitOps => 7
  | .invertBitOps => 8
  | .builder => 100

/-- Insertion behind all elements with the same or a lower priority. -/
def insertByPriority (f : Feature) : List Feature → List Feature
  | [] => [f]
  | g :: gs => if f.priority < g.priority then f :: g :: gs else g :: insertByPriority f gs

/-- A stable sort by priority, for `sort_by_key`, generating/bitfield/bitfield_generator.rs:58 -/
def sortByPriority (fs : List Feature) : List Feature := fs.foldl (fun sorted f => insertByPriority f sorted) []

/-- `get_enabled_features`, generating/bitfield/bitfield_generator.rs:41-60 -/
def enabledFeatures (args : BitfieldArgs) : List Feature := (sortByPriority Feature.all).filter fun f => f.enabled args

/-- `generate_features_helper`, generating/bitfield/bitfield_generator.rs:72-82 -/
def section_ (p : Parsed) (pos : Position) : List Item :=
  ((enabledFeatures p.args).filter fun f => decide (f.position = pos)).flatMap fun f => f.items p

/-! ## The struct definition -/

/-- An attribute of the generated struct. -/
inductive StructAttr where
  | reprC
  | reprTransparent
  /-- `#[derive(core::clone::Clone)]` -/
  | deriveClone
  /-- `#[derive(std::marker::Copy, core::clone::Clone)]` -/
  | deriveCopyClone
  | user (tokens : String)
  /-- `#[doc = "Represents a bitfield."]` -/
  | doc
deriving DecidableEq, Repr

/-- `syn::ItemStruct`: the attributes, visibility, name, generic parameters and fields of the annotated struct. -/
structure StructSource where
  attrs : List String
  vis : SynVis
  name : String
  generics : List String
  fields : Option (List FieldDecl)

/-- What the parser sees of the source, parsing/bitfields/bitfield_parser.rs:20-40. The generic parameters are not looked at. -/
def StructSource.decl (s : StructSource) : StructDecl := ⟨Vis.ofSyn s.vis, s.fields⟩

/-- `get_default_attributes`, features/bitfield_struct_feature.rs:69-97 -/
def defaultAttrs (p : Parsed) : List StructAttr :=
  (if p.hasIgnored then [.reprC] else [.reprTransparent]) ++
  if p.args.copy then if p.args.arrayHeap && !p.intBacked then [.deriveClone] else [.deriveCopyClone] else []

/-- The definition of a struct. -/
structure StructDef where
  attrs : List StructAttr
  vis : SynVis
  name : String
  generics : List String
  shape : Shape

/-- `generate_struct_attributes_tokens`, `generate_tuple_struct_tokens`, `generate_named_field_struct_tokens`,
features/bitfield_struct_feature.rs:43-67, 116-172: attributes of the macro, attributes of the user, a doc comment; the
visibility as printed; no generic parameters -/
def structDef (s : StructSource) (p : Parsed) : StructDef where
  attrs := defaultAttrs p ++ s.attrs.map StructAttr.user ++ [.doc]
  vis := p.vis.toSyn
  name := s.name
  generics := []
  shape := p.shape

/-- `do_generate_bitfield`, generating/bitfield/bitfield_generator.rs:85-103: the struct, one `impl` block for the
struct's name, and what follows it -/
structure Expansion where
  struct : StructDef
  above : List Item
  impl : String
  inside : List Item
  below : List Item

/-- `generate_bitfield`, generating/bitfield/bitfield_generator.rs:34-38 -/
def expansion (s : StructSource) (p : Parsed) : Expansion where
  struct := structDef s p
  above := section_ p .above
  impl := s.name
  inside := section_ p .inside
  below := section_ p .below

/-! ## The entry point -/

/-- What the macro returns to the compiler: code, or `compile_error!` with a message; `none` stands for
`INTERNAL_ERROR_MESSAGE`, lib.rs:10-11, followed by the text of the panic, which is not modelled. -/
inductive Output (α : Type) where
  | code (a : α)
  | compileError (msg : Option String)

/-- `catch_panics`, lib.rs:2287-2298, around a function that reports errors with `into_compile_error`,
lib.rs:2151-2154, 2275-2278 -/
def catchPanics {α : Type} : P α → Output α
  | .ok a => .code a
  | .error (.error msg) => .compileError (some msg)
  | .error (.panic _) => .compileError none

/-- `bitfield`, lib.rs:2140-2163 -/
def bitfieldMacro (m : Mode) (cfg : String → Bool) (attr : AttrInput) (s : StructSource) : Output Expansion :=
  catchPanics do
    let p ← parseBitfield m cfg attr s.decl
    if p.args.forcePanic then .error (.panic .unreachable)
    else if p.idents.all canFormatIdent then return expansion s p
    else .error (.panic .unreachable)

/-- `bitflag`, lib.rs:2262-2281 -/
def bitflagMacro (cfg : String → Bool) (attr : AttrInput) (d : EnumDecl) : Output FlagCode :=
  catchPanics (expandBitflag cfg attr d)

end Bf
