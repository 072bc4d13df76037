import Verif.Model.Op
import Verif.Model.Surface

/-!
# The generated struct with its ignored fields

`Model/Api.lean` and `Model/Op.lean` describe the generated functions on the stored bits. Here a value of
the generated struct also has its other members. Paths relative to `/repo/bitfields_impl/src`,
`features/` is generating/bitfield/features/.
-/

namespace Bf

/-- What a member of the struct holds: the bits, or a value of an ignored field's type (values of a user's
type are named by numbers). -/
inductive Member where
  | bits (s : Store)
  | user (code : Nat)
deriving DecidableEq, Repr

/-- A value of the generated struct: a tuple struct without, a struct with named members with ignored
fields, features/bitfield_struct_feature.rs:98-190. -/
inductive Obj where
  | tuple (s : Store)
  | named (members : List (String × Member))
deriving DecidableEq, Repr

/-- The member called `name`. -/
def Obj.member : Obj → String → Option Member
  | .tuple _, _ => none
  | .named ms, name => (ms.find? fun x => x.1 == name).map Prod.snd

/-- Reading `this.0` or `this.val`, features/common/naming_extensions.rs:6-20 -/
def Obj.bits (o : Obj) : R Store :=
  match o with
  | .tuple s => .ok s
  | .named _ =>
    match o.member "val" with
    | some (.bits s) => .ok s
    | _ => .error .rejected

/-- Assigning to the first member called `name`. -/
def assign (name : String) (v : Member) : List (String × Member) → List (String × Member)
  | [] => []
  | x :: xs => if x.1 = name then (name, v) :: xs else x :: assign name v xs

/-- Assigning to `this.0` or `this.val`, features/common/naming_extensions.rs:6-20 -/
def Obj.setBits (o : Obj) (s : Store) : Obj :=
  match o with
  | .tuple _ => .tuple s
  | .named ms => .named (assign "val" (.bits s) ms)

/-- The initialisers `name: T::default()` of the ignored fields,
features/common/generator_helper.rs:90-112, in order; a user's `default` may panic. For an array the
text is `[u8; N]::default()`, which is not Rust. -/
def initIgnored (dflt : String → R Nat) : List PField → R (List (String × Member))
  | [] => .ok []
  | q :: qs =>
    match q.field.ty with
    | .array _ => .error .rejected
    | _ => do
      let v ← dflt q.field.name
      let vs ← initIgnored dflt qs
      return (q.field.name, .user v) :: vs

/-- `generate_bitfield_struct_initialization_tokens`, features/common/generator_helper.rs:35-88.
`dflt` is `T::default()` of each ignored field. rustc rejects a second member called `val`. -/
def Obj.init (p : Parsed) (dflt : String → R Nat) : R Obj :=
  if p.hasIgnored then
    if p.ignored.any fun q => q.field.name == "val" then .error .rejected
    else do
      let ms ← initIgnored dflt p.ignored
      return .named (("val", .bits (initStore p.bitfield)) :: ms)
  else .ok (.tuple (initStore p.bitfield))

/-- A call on a value of the struct. Each generated method begins with `let this = self;` and touches
nothing but the member with the bits, which it reads and assigns (Simplification: once, at its
beginning and end. A panic in between ends the history). -/
def objCall (m : Mode) (p : Parsed) (c : Call) (o : Obj) : R (Out × Obj) := do
  let s ← o.bits
  let (r, s) ← call m p.bitfield c s
  return (r, o.setBits s)

/-- A history of calls. -/
def objHistory (m : Mode) (p : Parsed) : List Call → Obj → R (List Out × Obj)
  | [], o => .ok ([], o)
  | c :: cs, o => do
    let (r, o) ← objCall m p c o
    let (rs, o) ← objHistory m p cs o
    return (r :: rs, o)

/-- Making a value: the struct is initialised, `let mut this = ..`, the bits are set and `this` is
returned. -/
def objMake (m : Mode) (p : Parsed) (dflt : String → R Nat) (g : Origin) :
    R (Except String Obj) := do
  let o ← Obj.init p dflt
  match ← g.run m p.bitfield with
  | .ok s => return .ok (o.setBits s)
  | .error e => return .error e

end Bf
