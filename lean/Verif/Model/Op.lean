import Verif.Model.Api

/-!
# Calls and histories

Every method of a generated bitfield as one value of type `Call`, and running a list of
calls on a stored value. Paths relative to `/repo/bitfields_impl/src`, `features/` is
generating/bitfield/features/.
-/

namespace Bf

/-- A call of a generated method on an existing bitfield. An `Option Endian` selects the
`le`/`be` variant of a method; `none` is the variant without endianness in its name. -/
inductive Call where
  /-- `x()`, features/field_getters_feature.rs:36-71 -/
  | get (f : Field)
  /-- `x_inverted()`, features/invert_bit_ops_feature.rs:147-180 -/
  | inverted (f : Field)
  /-- `set_x(v)`, features/field_setters_feature.rs:41-86 -/
  | set (f : Field) (v : Val)
  /-- `checked_set_x(v)`, features/field_setters_feature.rs:41-86 -/
  | checkedSet (f : Field) (v : Val)
  /-- `clear_x()`, features/clear_bit_ops_feature.rs:87-108 -/
  | clearField (f : Field)
  /-- `clear_x_to_default()`, features/clear_bit_ops_feature.rs:110-126 -/
  | clearFieldToDefault (f : Field)
  /-- `invert_x()`, features/invert_bit_ops_feature.rs:110-144 -/
  | invertField (f : Field)
  /-- `get_bit(o)`, features/set_get_bit_ops_feature.rs:307-313, 355-363 -/
  | getBit (o : Nat)
  /-- `checked_get_bit(o)`, features/set_get_bit_ops_feature.rs:315-322, 365-374 -/
  | checkedGetBit (o : Nat)
  /-- `set_bit(o, b)`, features/set_get_bit_ops_feature.rs:96-108, 160-174 -/
  | setBit (o : Nat) (b : Bool)
  /-- `checked_set_bit(o, b)`, features/set_get_bit_ops_feature.rs:110-125, 176-193 -/
  | checkedSetBit (o : Nat) (b : Bool)
  /-- `get_bits_range(o, l)`, features/set_get_bit_ops_feature.rs:324-334, 376-398 -/
  | getRange (o l : Nat)
  /-- `checked_get_bits_range(o, l)`, features/set_get_bit_ops_feature.rs:336-351, 400-433 -/
  | checkedGetRange (o l : Nat)
  /-- `set_bits_range(o, l, x)`, features/set_get_bit_ops_feature.rs:127-137, 195-218 -/
  | setRange (o l : Nat) (x : Store)
  /-- `checked_set_bits_range(o, l, x)`, features/set_get_bit_ops_feature.rs:139-156, 220-255 -/
  | checkedSetRange (o l : Nat) (x : Store)
  /-- `into_bits()`, `into_le_bits()`, .. on a copy, features/from_into_bits_feature.rs:135-173,
  507-588 -/
  | into (e : Option Endian)
  /-- `T::from(bitfield)` on a copy, features/from_traits_feature.rs:83-99 -/
  | intoTrait
  /-- `into_slice(sl)`, .. features/from_into_bits_feature.rs:592-718 -/
  | intoSlice (e : Option Endian) (sl : List (BitVec 8))
  /-- `checked_into_slice(sl)`, .. features/from_into_bits_feature.rs:592-718 -/
  | checkedIntoSlice (e : Option Endian) (sl : List (BitVec 8))
  /-- `write_bits(x)`, `write_le_bits_with_defaults(x)`, ..
  features/write_bit_ops_feature.rs:82-131 -/
  | write (e : Option Endian) (withDefaults : Bool) (x : Store)
  /-- `write_defaults()`, features/write_bit_ops_feature.rs:133-137 -/
  | writeDefaults
  /-- `clear_bits()`, `clear_bits_with_defaults()`, features/clear_bit_ops_feature.rs:72-84 -/
  | clear (withDefaults : Bool)
  /-- `invert_bits()`, features/invert_bit_ops_feature.rs:54-107 -/
  | invert
  /-- `fmt` of `Debug`, features/debug_trait_feature.rs:33-72 -/
  | debug

/-- What a call returns. A `Result` is `fail` or the value it carries. -/
inductive Out where
  | unit
  | val (v : Val)
  | flag (b : Bool)
  | store (s : Store)
  | bytes (sl : List (BitVec 8))
  | fields (l : List (String × Val))
  | fail (msg : String)
  /-- the error of `checked_into_slice`, with the slice after the call -/
  | failBytes (msg : String) (sl : List (BitVec 8))
deriving DecidableEq, Repr

/-- Pairing the result of a `&mut self` method with its new state. -/
def outRes (r : Except String Unit × Store) : Out × Store :=
  match r with
  | (.ok (), s) => (.unit, s)
  | (.error e, s) => (.fail e, s)

/-- One call: the generated functions of `Model/Api.lean`, with results packed into `Out`. -/
def call (m : Mode) (B : Bitfield) (c : Call) (s : Store) : R (Out × Store) :=
  match c with
  | .get f => do return (.val (← getX m f s), s)
  | .inverted f => do return (.val (← invertedX m f s), s)
  | .set f v => do return (.unit, ← setX m f s v)
  | .checkedSet f v => do return outRes (← setImpl m true f s v)
  | .clearField f => do return (.unit, ← setZero m f s)
  | .clearFieldToDefault f => do return (.unit, ← setDefault m f s)
  | .invertField f => do return (.unit, ← invertX m f s)
  | .getBit o => do return (.flag (← apiGetBit m B s o), s)
  | .checkedGetBit o => do
    match ← apiCheckedGetBit m B s o with
    | .ok b => return (.flag b, s)
    | .error e => return (.fail e, s)
  | .setBit o b => do return (.unit, ← apiSetBit m B s o b)
  | .checkedSetBit o b => do return outRes (← apiCheckedSetBit m B s o b)
  | .getRange o l => do return (.store (← apiGetRange m B s o l), s)
  | .checkedGetRange o l => do
    match ← apiCheckedGetRange m B s o l with
    | .ok x => return (.store x, s)
    | .error e => return (.fail e, s)
  | .setRange o l x => do return (.unit, ← apiSetRange m B s o l x)
  | .checkedSetRange o l x => do return outRes (← apiCheckedSetRange m B s o l x)
  | .into none => do return (.store (← apiInto B s), s)
  | .into (some e) => do return (.store (← apiIntoE B e s), s)
  | .intoTrait => do return (.store (← apiTraitInto B s), s)
  | .intoSlice e sl => do return (.bytes (← apiIntoSlice B (e.getD B.intoEndian) s sl), s)
  | .checkedIntoSlice e sl => do
    match ← apiCheckedIntoSlice B (e.getD B.intoEndian) s sl with
    | (.ok (), sl') => return (.bytes sl', s)
    | (.error msg, sl') => return (.failBytes msg sl', s)
  | .write none false x => do return (.unit, ← apiWrite m B x s)
  | .write (some e) false x => do return (.unit, ← apiWriteE m B e x s)
  | .write none true x => do return (.unit, ← apiWriteDefaultsBits m B x s)
  | .write (some e) true x => do return (.unit, ← apiWriteEDefaults m B e x s)
  | .writeDefaults => do return (.unit, ← apiWriteDefaults m B s)
  | .clear false => do return (.unit, ← apiClear m B s)
  | .clear true => do return (.unit, ← apiClearDefaults m B s)
  | .invert => do return (.unit, ← apiInvert m B s)
  | .debug => do return (.fields (← apiDebug m B s), s)

/-- A history: the results of the calls in order and the final state. A panic ends it. -/
def history (m : Mode) (B : Bitfield) : List Call → Store → R (List Out × Store)
  | [], s => .ok ([], s)
  | c :: cs, s => do
    let (o, s) ← call m B c s
    let (os, s) ← history m B cs s
    return (o :: os, s)

/-- A method chain on a builder: `with_x(v)` (`check = false`) or `checked_with_x(v)?`. -/
structure BuilderCall where
  check : Bool
  f : Field
  v : Val

/-- `Builder::new().with_x(..).checked_with_y(..)?....build()`, features/builder_feature.rs:
42-179. A failing `checked_with_x` ends the chain with its error. -/
def builderRun (m : Mode) : List BuilderCall → Store → R (Except String Store)
  | [], s => .ok (.ok s)
  | c :: cs, s => do
    match ← builderWith m c.check c.f s c.v with
    | (.ok (), s) => builderRun m cs s
    | (.error e, _) => return .error e

/-- Where a bitfield value comes from: the associated functions that make one, and `From`. -/
inductive Origin where
  /-- `new()` -/
  | new
  /-- `new_without_defaults()` -/
  | newWithoutDefaults
  /-- `default()`; `genNew` says whether the `new` functions are generated -/
  | default (genNew : Bool)
  /-- `Builder::new()` or `Builder::new_without_defaults()`, calls, `build()` -/
  | builder (genNew withDefaults : Bool) (cs : List BuilderCall)
  /-- `from_bits(x)`, `from_le_bits_with_defaults(x)`, .. -/
  | from (e : Option Endian) (withDefaults : Bool) (x : Store)
  /-- `Bitfield::from(x)` -/
  | fromTrait (x : Store)
  /-- `from_slice(sl)`, `from_le_slice_with_defaults(sl)`, .. -/
  | fromSlice (e : Option Endian) (withDefaults : Bool) (sl : List (BitVec 8))
  /-- `checked_from_slice(sl)`, .. -/
  | checkedFromSlice (e : Option Endian) (withDefaults : Bool) (sl : List (BitVec 8))

/-- The functions of `Model/Api.lean` behind each origin. The inner error is that of a failing
`checked_with_x` or `checked_from_slice`. -/
def Origin.run (m : Mode) (B : Bitfield) : Origin → R (Except String Store)
  | .new => (apiNew m B).map .ok
  | .newWithoutDefaults => (apiNewWithoutDefaults m B).map .ok
  | .default genNew => (apiDefault m B genNew).map .ok
  | .builder genNew d cs => builderNew m B genNew d >>= builderRun m cs
  | .from none false x => (apiFrom m B x).map .ok
  | .from none true x => (apiFromDefaults m B x).map .ok
  | .from (some e) false x => (apiFromE m B e x).map .ok
  | .from (some e) true x => (apiFromEDefaults m B e x).map .ok
  | .fromTrait x => (apiTraitFrom m B x).map .ok
  | .fromSlice e d sl => (apiFromSlice m B (e.getD B.fromEndian) d sl).map .ok
  | .checkedFromSlice e d sl => apiCheckedFromSlice m B (e.getD B.fromEndian) d sl

end Bf
