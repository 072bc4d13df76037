import Verif.Model.Quote
import Verif.Model.Op
import Verif.SpecCall
import Verif.SpecSurface

/-!
# Calling a function of the generated code

Which generated function a call of `Model/Op.lean` stands for, with which arguments, and what the caller sees of
the run of that function. Used to state that the run-time model is what the generated code computes.
-/

namespace Bf

open Rust Quote

/-- A user's argument as a value of the generated code. -/
def argV : DataType → Val → V
  | .int .bool, .bool b => .bool b
  | .int t, .int n => if t.unsigned then .u t.bitSize n.toNat else .i t.bitSize n
  | .array _, .arr bs => .arr bs
  | .custom c, .custom code => .obj c code
  | _, _ => .unit

/-- What the caller sees of a returned field value. -/
def seenVal : V → Option Val
  | .u _ n => some (.int n)
  | .i _ n => some (.int n)
  | .usize n => some (.int n)
  | .any n => some (.int n)
  | .bool b => some (.bool b)
  | .arr bs => some (.arr bs)
  | .obj _ code => some (.custom code)
  | _ => none

/-- What the caller sees of a returned value of the backing type. -/
def seenStore : V → Option Store
  | .u w n => some (.int w (BitVec.ofNat w n))
  | .arr bs => some (.arr bs)
  | _ => none

/-- The variants of a name: without, with little, with big endianness. -/
def endianInfix : Option Endian → String
  | none => ""
  | some .little => "le_"
  | some .big => "be_"

/-- The function a call invokes. `bob` is `bits` or `bytes`. -/
def Call.tag (bob : String) : Call → Tag
  | .get f => .acc .get f.name
  | .inverted f => .acc .inverted f.name
  | .set f _ => .acc .set f.name
  | .checkedSet f _ => .acc .checkedSet f.name
  | .clearField f => .acc .clear f.name
  | .clearFieldToDefault f => .acc .clearToDefault f.name
  | .invertField f => .acc .invert f.name
  | .getBit _ => .fn "get_bit"
  | .checkedGetBit _ => .fn "checked_get_bit"
  | .setBit _ _ => .fn "set_bit"
  | .checkedSetBit _ _ => .fn "checked_set_bit"
  | .getRange _ _ => .fn ("get_" ++ bob ++ "_range")
  | .checkedGetRange _ _ => .fn ("checked_get_" ++ bob ++ "_range")
  | .setRange _ _ _ => .fn ("set_" ++ bob ++ "_range")
  | .checkedSetRange _ _ _ => .fn ("checked_set_" ++ bob ++ "_range")
  | .into e => .fn ("into_" ++ endianInfix e ++ bob)
  | .intoTrait => .impl .intoBacking
  | .intoSlice e _ => .fn ("into_" ++ endianInfix e ++ "slice")
  | .checkedIntoSlice e _ => .fn ("checked_into_" ++ endianInfix e ++ "slice")
  | .write e d _ => .fn ("write_" ++ endianInfix e ++ bob ++ if d then "_with_defaults" else "")
  | .writeDefaults => .fn "write_defaults"
  | .clear d => .fn ("clear_" ++ bob ++ if d then "_with_defaults" else "")
  | .invert => .fn ("invert_" ++ bob)
  | .debug => .impl .debug

/-- The arguments of a call, besides the receiver `self` (`T::from(b)` takes the bitfield as its argument). -/
def Call.args (s : Store) : Call → List V
  | .set f v | .checkedSet f v => [argV f.ty v]
  | .getBit o | .checkedGetBit o => [.u 32 o]
  | .setBit o b | .checkedSetBit o b => [.u 32 o, .bool b]
  | .getRange o l | .checkedGetRange o l => [.u 32 o, .u 32 l]
  | .setRange o l x | .checkedSetRange o l x => [.u 32 o, .u 32 l, ofStore x]
  | .intoTrait => [.self s]
  | .intoSlice _ sl | .checkedIntoSlice _ sl => [.arr sl]
  | .write _ _ x => [ofStore x]
  | _ => []

/-- The `slice` argument after the call. -/
def seenSlice (env : Env) : Option (List (BitVec 8)) :=
  match look "slice" env.locals with
  | some (.arr bs) => some bs
  | _ => none

/-- What the caller sees of a finished call: the returned value, a slice that was filled, or the fields shown
by `Debug`. -/
def Call.seen (c : Call) (v : V) (env : Env) : Option Out :=
  match c, v with
  | .get _, v | .inverted _, v => (seenVal v).map .val
  | .getBit _, .bool b | .checkedGetBit _, .ok (.bool b) => some (.flag b)
  | .getRange _ _, v | .checkedGetRange _ _, .ok v | .into _, v | .intoTrait, v => (seenStore v).map .store
  | .intoSlice _ _, .unit | .checkedIntoSlice _ _, .ok .unit => (seenSlice env).map .bytes
  | .checkedIntoSlice _ _, .err msg => (seenSlice env).map (.failBytes msg)
  | .debug, .unit => (env.shown.mapM fun x => (seenVal x.2).map fun v => (x.1, v)).map .fields
  | .checkedSet _ _, .ok .unit | .checkedSetBit _ _, .ok .unit | .checkedSetRange _ _ _, .ok .unit => some .unit
  | .checkedSet _ _, .err msg | .checkedSetBit _ _, .err msg | .checkedSetRange _ _ _, .err msg
  | .checkedGetBit _, .err msg | .checkedGetRange _ _, .err msg => some (.fail msg)
  | .set _ _, .unit | .clearField _, .unit | .clearFieldToDefault _, .unit | .invertField _, .unit
  | .setBit _ _, .unit | .setRange _ _ _, .unit | .write _ _ _, .unit | .writeDefaults, .unit
  | .clear _, .unit | .invert, .unit => some .unit
  | _, _ => none

/-- A call of the generated code on a bitfield with stored value `s`: the function is looked up by name in the
program and run. Loops may take `fuel` steps. -/
def Quote.Program.call (P : Program) (B : Bitfield) (m : Mode) (fuel : Nat) (c : Call) (s : Store) :
    E (Out × Store) :=
  match P.fn (c.tag (paramTok B)) with
  | none => .error .illTyped
  | some f => do
    let (v, env) ← f.run (P.ctx m fuel s 3) (c.args s) s
    match c.seen v env with
    | some o => return (o, env.cell)
    | none => .error .illTyped

/-- Calls of the generated code one after the other. -/
def Quote.Program.history (P : Program) (B : Bitfield) (m : Mode) (fuel : Nat) :
    List Call → Store → E (List Out × Store)
  | [], s => .ok ([], s)
  | c :: cs, s => do
    let (o, s) ← P.call B m fuel c s
    let (os, s) ← P.history B m fuel cs s
    return (o :: os, s)

/-- The outcome of the run-time model as an outcome of a run. -/
def liftE {α : Type} : R α → E α
  | .ok a => .ok a
  | .error .rejected => .error .illTyped
  | .error p => .error (.panic p)

/-- The item is a function or a trait implementation with one function, rather than a type or a constant. -/
def Tag.isFn : Tag → Bool
  | .bitfield | .builder => false
  | .acc a _ => a != .bitsConst && a != .offsetConst
  | _ => true

/-! ## What is needed of the bitfield -/

/-- The default value is written in a form that fits the field's type. On an integer-backed bitfield the default
of an array field is an integer. -/
def Shaped (b : Backing) (t : DataType) (v : Val) : Prop :=
  match t, v with
  | .int .bool, .bool _ => True
  | .int .bool, _ => False
  | .int _, .int _ => True
  | .custom _, .custom _ => True
  | .array _, .int _ => ∃ w, b = .int w
  | .array len, .arr a => (∃ n, b = .arr n) ∧ a.length = len
  | _, _ => False

/-- The storage is one the macro accepts, the fields are legal, defaults have the right form, fields that are not
reserved have different names, and an array field of an integer-backed bitfield has a type that exists in
memory. -/
structure Generable (B : Bitfield) : Prop where
  backing : B.backing.OK
  field : ∀ f ∈ B.fields, FieldOK B.backing f
  default : ∀ f ∈ B.fields, ∀ v, f.default = some v → Shaped B.backing f.ty v
  names : (B.fields.filter fun f => !f.reserved).Pairwise fun f g => f.name ≠ g.name
  len : ∀ f ∈ B.fields, ∀ len, f.ty = .array len → (∃ w, B.backing = .int w) → len < 2 ^ 60

/-- The `from_bits` of user types return or panic. (`rejected` stands for a program that does not compile, which user
functions are not.) -/
def UserConversions (B : Bitfield) : Prop :=
  ∀ f ∈ B.fields, ∀ cd, f.ty = .custom cd → ∀ n, cd.fromBits n ≠ .error .rejected

/-! ## Making a bitfield -/

/-- The function that makes a bitfield; for a builder the function that makes the builder. -/
def Origin.tag (bob : String) : Origin → Tag
  | .new => .fn "new"
  | .newWithoutDefaults => .fn "new_without_defaults"
  | .default _ => .impl .default
  | .builder _ d _ => .builderFn (if d then "new" else "new_without_defaults")
  | .from e d _ => .fn ("from_" ++ endianInfix e ++ bob ++ if d then "_with_defaults" else "")
  | .fromTrait _ => .impl .fromBacking
  | .fromSlice e d _ => .fn ("from_" ++ endianInfix e ++ "slice" ++ if d then "_with_defaults" else "")
  | .checkedFromSlice e d _ => .fn ("checked_from_" ++ endianInfix e ++ "slice" ++ if d then "_with_defaults" else "")

/-- The arguments of that function. -/
def Origin.args : Origin → List V
  | .from _ _ x | .fromTrait x => [ofStore x]
  | .fromSlice _ _ sl | .checkedFromSlice _ _ sl => [.arr sl]
  | _ => []

/-- `new` in the origin is the generator's setting. Without the `new` functions a builder is supported only if every
field that can be read can also be written. -/
def Origin.Fits (G : Gen) : Origin → Prop
  | .default n => n = G.new
  | .builder n _ _ => n = G.new ∧
      (G.new = false → ∀ f ∈ G.B.fields, f.reserved = false → f.isReadable = true → f.isWritable = true)
  | _ => True

/-- What the caller sees of a returned bitfield or builder. -/
def seenSelf : V → Option (Except String Store)
  | .self s => some (.ok s)
  | .ok (.self s) => some (.ok s)
  | .err msg => some (.error msg)
  | _ => none

/-- Running the function `t` of the program on `s`, when it returns a bitfield or a builder. -/
def Quote.Program.self (P : Program) (m : Mode) (fuel : Nat) (t : Tag) (args : List V) (s : Store) :
    E (Except String Store) :=
  match P.fn t with
  | none => .error .illTyped
  | some f => do
    let (v, _) ← f.run (P.ctx m fuel s 3) args s
    match seenSelf v with
    | some r => return r
    | none => .error .illTyped

/-- `.with_x(..).checked_with_y(..)?....build()` on a builder that holds `s`. -/
def Quote.Program.chain (P : Program) (m : Mode) (fuel : Nat) : List BuilderCall → Store → E (Except String Store)
  | [], s => P.self m fuel (.builderFn "build") [] s
  | c :: cs, s => do
    match ← P.self m fuel (.acc (if c.check then .builderCheckedWith else .builderWith) c.f.name) [argV c.f.ty c.v] s with
    | .ok s' => P.chain m fuel cs s'
    | .error e => return .error e

/-- Making a bitfield with the generated code. `s` is any value of the bitfield type: a function without `self`
does not depend on it. -/
def Quote.Program.make (P : Program) (B : Bitfield) (m : Mode) (fuel : Nat) (o : Origin) (s : Store) :
    E (Except String Store) := do
  match ← P.self m fuel (o.tag (paramTok B)) o.args s with
  | .ok s' =>
    match o with
    | .builder _ _ cs => P.chain m fuel cs s'
    | _ => return .ok s'
  | .error e => return .error e

end Bf
