import Verif.SpecSurface

/-!
# Specification vocabulary for the names of generated items
-/

namespace Bf

/-- All groups. -/
def allGroups : List Group :=
  [.new, .fromIntoBits, .fromTraits, .default, .debug, .builder, .writeBits, .clearBits, .setGetBits,
   .invertBits]

/-- The names of the functions of the bitfield that belong to no field (all groups on). -/
def commonNames (int : Bool) : List String :=
  (allGroups.flatMap (Group.tags int)).filterMap fun | .fn n => some n | _ => none

/-- A field name that keeps out of the way of generated names. -/
structure SafeName (int : Bool) (x : String) : Prop where
  /-- snake case: no upper-case letters -/
  lower : ∀ c ∈ x.toList, c.isUpper = false
  /-- it does not look like a generated function of another field -/
  setter : "set_".toList.isPrefixOf x.toList = false
  checked : "checked_set_".toList.isPrefixOf x.toList = false
  clear : "clear_".toList.isPrefixOf x.toList = false
  invert : "invert_".toList.isPrefixOf x.toList = false
  inverted : "_inverted".toList.isSuffixOf x.toList = false
  toDefault : "_to_default".toList.isSuffixOf x.toList = false
  /-- `set_inverted` would be ambiguous next to a field `set` -/
  other : x ≠ "inverted"
  /-- neither its own name nor those of its functions are those of common functions -/
  getter : x ∉ commonNames int
  commonSet : "set_" ++ x ∉ commonNames int
  commonChecked : "checked_set_" ++ x ∉ commonNames int
  commonClear : "clear_" ++ x ∉ commonNames int
  commonInvert : "invert_" ++ x ∉ commonNames int

/-- The names a user can call on the bitfield (associated functions, methods and constants). -/
def bitfieldNames (p : Parsed) : List String := (surface p).filterMap fun i => i.tag.implIdent

/-- The names a user can call on the builder. -/
def builderNames (p : Parsed) : List String := (surface p).filterMap fun i => i.tag.builderIdent

end Bf
