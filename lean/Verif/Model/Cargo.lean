/-!
# The Cargo manifests

The macro is in the package `bitfields-impl`, which reads its Cargo features with `cfg!(feature = "..")`
(`defaultArgs`, `defaultBitflagArgs`). Users depend on the package `bitfields`, which re-exports the macro
(bitfields/src/lib.rs).
-/

namespace Bf.Cargo

/-- What a feature switches on: another feature of its package, or (`"package/feature"`) one of a dependency. -/
inductive FeatureRef where
  | own (feature : String)
  | dep (package feature : String)
deriving DecidableEq, Repr

/-- A dependency on a package: its default features are on unless `default-features = false` is written. -/
structure Dependency where
  package : String
  defaultFeatures : Bool
  features : List String
deriving DecidableEq, Repr

/-- A `Cargo.toml`, as far as features are concerned. -/
structure Manifest where
  name : String
  features : List (String × List FeatureRef)
  dependencies : List Dependency
deriving DecidableEq, Repr

/-- The features that both packages switch on by default, bitfields_impl/Cargo.toml:31-53, bitfields/Cargo.toml:23-48 -/
def defaultFeatures : List String :=
  [
    "order_lsb", "generate_new", "generate_from_into_bits", "from_endian_big", "into_endian_big",
    "generate_from_traits", "generate_default", "generate_debug", "derive_copy", "generate_bit_ops",
    "generate_write_bit_ops", "write_endian_big", "generate_clear_bit_ops", "generate_set_get_bit_ops",
    "generate_invert_bit_ops", "generate_toggle_bit_ops", "generate_builder", "bitflag_from_endian_big",
    "bitflag_into_endian_big", "bitflag_derive_copy", "disable_array_heap"]

/-- The other features, which switch on nothing else, bitfields_impl/Cargo.toml:55-116, bitfields/Cargo.toml:50-111 -/
def plainFeatures : List String :=
  [
    "order_lsb", "order_msb", "generate_new", "disable_new", "generate_from_into_bits", "disable_from_into_bits",
    "from_endian_little", "from_endian_big", "into_endian_little", "into_endian_big", "generate_from_traits",
    "disable_from_traits", "generate_default", "disable_default", "generate_debug", "disable_debug", "derive_copy",
    "disable_copy", "generate_bit_ops", "disable_bit_ops", "generate_write_bit_ops", "disable_write_bit_ops",
    "write_endian_little", "write_endian_big", "generate_clear_bit_ops", "disable_clear_bit_ops",
    "generate_set_get_bit_ops", "disable_set_get_bit_ops", "generate_invert_bit_ops", "disable_invert_bit_ops",
    "generate_toggle_bit_ops", "disable_toggle_bit_ops", "generate_builder", "disable_builder", "enable_array_heap",
    "disable_array_heap", "bitflag_from_endian_big", "bitflag_from_endian_little", "bitflag_into_endian_big",
    "bitflag_into_endian_little", "bitflag_derive_copy", "bitflag_disable_copy"]

/-- bitfields_impl/Cargo.toml:1-2, 17-26, 30-116. Of its dependencies none is one of the packages here. -/
def implManifest : Manifest where
  name := "bitfields-impl"
  features := ("default", defaultFeatures.map .own) :: plainFeatures.map fun f => (f, [])
  dependencies := []

/-- bitfields/Cargo.toml:1-2, 14-15, 22-111. Its features switch on nothing in `bitfields-impl`, except `default`. -/
def bitfieldsManifest : Manifest where
  name := "bitfields"
  features := ("default", .dep "bitfields-impl" "default" :: defaultFeatures.map .own) :: plainFeatures.map fun f => (f, [])
  dependencies := [⟨"bitfields-impl", true, []⟩]

end Bf.Cargo
