import Verif.Model.Op
import Verif.Spec

/-!
# Specification vocabulary for calls

Which calls and constructors a program that compiles can contain, and what kind of call each is.
-/

namespace Bf

/-- The method exists on `B` and its arguments have the right types: what rustc checks. -/
def Call.Typed (B : Bitfield) : Call → Prop
  | .get f | .inverted f => f ∈ B.fields ∧ f.reserved = false ∧ f.isReadable = true
  | .set f v | .checkedSet f v => f ∈ B.fields ∧ f.isWritable = true ∧ HasType f.ty v
  | .clearField f | .invertField f => f ∈ B.fields ∧ f.isWritable = true
  | .clearFieldToDefault f => f ∈ B.fields ∧ f.isWritable = true ∧ f.default.isSome = true
  | .getBit o | .checkedGetBit o | .setBit o _ | .checkedSetBit o _ => o < 2 ^ 32
  | .getRange o l | .checkedGetRange o l => o < 2 ^ 32 ∧ l < 2 ^ 32
  | .setRange o l x | .checkedSetRange o l x =>
    o < 2 ^ 32 ∧ l < 2 ^ 32 ∧ x.HasBacking B.backing
  | .intoSlice _ _ | .checkedIntoSlice _ _ => ∃ n, B.backing = .arr n
  | .write _ _ x => x.HasBacking B.backing
  | _ => True

/-- `clear_bits*`, `write_defaults` and `write_*_with_defaults`. -/
def Call.Resets : Call → Bool
  | .clear _ | .writeDefaults | .write _ true _ => true
  | _ => false

/-- `into_*`, `From`, `Debug`: the calls that show all bits. -/
def Call.Reveals : Call → Bool
  | .into _ | .intoTrait | .intoSlice _ _ | .checkedIntoSlice _ _ | .debug => true
  | _ => false

/-- A call that only reads, through the access-controlled part of the API. -/
def Call.IsRead : Call → Bool
  | .get _ | .inverted _ | .getBit _ | .checkedGetBit _ | .getRange _ _ | .checkedGetRange _ _ => true
  | _ => false

/-- `invert_bits`. -/
def Call.isInvert : Call → Bool
  | .invert => true
  | _ => false

/-- The functions used exist and their arguments are well typed. -/
def Origin.Typed (B : Bitfield) : Origin → Prop
  | .builder _ _ cs => ∀ c ∈ cs, c.f ∈ B.fields ∧ c.f.reserved = false ∧ HasType c.f.ty c.v
  | .from _ _ x | .fromTrait x => x.HasBacking B.backing
  | .fromSlice _ _ _ | .checkedFromSlice _ _ _ => ∃ n, B.backing = .arr n
  | _ => True

/-- Raw bits without defaults: `from_bits`, `From`, `from_slice`, .. -/
def Origin.isRaw : Origin → Bool
  | .from _ d _ | .fromSlice _ d _ | .checkedFromSlice _ d _ => !d
  | .fromTrait _ => true
  | _ => false

/-- A constructor, `default()` or a builder. -/
def Origin.isFresh : Origin → Bool
  | .new | .newWithoutDefaults | .default _ | .builder _ _ _ => true
  | _ => false

end Bf
