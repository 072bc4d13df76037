import Verif.SpecMut

/-!
# What is used after it was given away

In Rust a variable whose type is not `Copy` can be used as a value once: after that its value is gone. A part of a variable
that is not `Copy` cannot be taken from behind a reference. A loop must not take what was there before it. This is that rule,
for the trees of the parser in `Model/Syntax.lean`. (Not repo code.) The types of the user, the bitfield and its builder, `Box`
and `&mut` references are taken to be not `Copy`; numbers, `bool`, arrays of bytes and `&` references are.
-/

namespace Bf.Text

/-- What is known of a variable or a value. -/
inductive Kind where
  /-- of a `Copy` type, not a reference -/
  | copy
  /-- a `&` reference -/
  | shared
  /-- a `&mut` reference -/
  | exclusive
  /-- of a type that is not `Copy` -/
  | owned
  /-- was given away -/
  | gone
deriving DecidableEq, Repr

/-- The variables in scope, the latest first. -/
abbrev Kinds := List (String × Kind)

/-- The latest variable called `x`. -/
def kindOf (x : String) : Kinds → Option Kind
  | [] => none
  | (y, k) :: l => if y = x then some k else kindOf x l

/-- The variables after `x` was given away. -/
def take (x : String) : Kinds → Kinds
  | [] => []
  | (y, k) :: l => if y = x then (y, .gone) :: l else (y, k) :: take x l

/-- What is known of the types of the program. -/
structure Facts where
  /-- the member with this name is `Copy` -/
  part : String → Bool
  /-- the method with this name of the bitfield takes `self` -/
  self : String → Bool

/-- The types of numbers and `bool`. -/
def primitive : List String :=
  ["u8", "u16", "u32", "u64", "u128", "usize", "i8", "i16", "i32", "i64", "i128", "isize", "bool"]

/-- The kind of a parameter. -/
def SType.kind : SType → Kind
  | .path [.name t] [] => if t ∈ primitive then .copy else .owned
  | .arr t _ _ => t.kind
  | .ref _ false => .shared
  | .ref _ true => .exclusive
  | .unit => .copy
  | _ => .owned

/-- The kind of the receiver. -/
def Recv.kinds : Recv → Kinds
  | .none => []
  | .value | .valueMut => [("self", .owned)]
  | .ref => [("self", .shared)]
  | .refMut => [("self", .exclusive)]

/-- The method takes the value it is called on. `into_bits` and `swap_bytes` do. Of the other receivers in the code, `this` and
`self.this` are the bitfield, whose methods are given; the others are a slice, an array, a range, a formatter and a
`DebugStruct`, whose methods take references. -/
def takes (R : Facts) (e : SExpr) (name : String) : Bool :=
  decide (name = "into_bits") || decide (name = "swap_bytes") ||
  match e with
  | .path [.name x] => decide (x = "this") && R.self name
  | .field (.path [.name x]) y => decide (x = "self") && decide (y = "this") && R.self name
  | _ => false

/-- What a method returns: the value for `into_bits` is a number, and so on. -/
def returned (name : String) : Kind :=
  if name ∈ ["into_bits", "swap_bytes", "len", "contains"] then .copy else .owned

/-- Using `x` as a value. A name that is not a variable is a constant, whose value is made each time. -/
def useVar (x : String) (vs : Kinds) : Option (Kind × Kinds) :=
  match kindOf x vs with
  | some .gone => none
  | some .owned => some (.owned, take x vs)
  | some .exclusive => some (.exclusive, take x vs)
  | some k => some (k, vs)
  | none => some (.copy, vs)

/-- What `let x = e` holds if `e` has this kind: the value of a constant need not be `Copy`. -/
def heldKind (vs : Kinds) (e : SExpr) (k : Kind) : Kind :=
  match e with
  | .path [.name x] => if kindOf x vs = none then .owned else k
  | _ => k

/-- Looking at `x`. -/
def seeVar (x : String) (vs : Kinds) : Option (Kind × Kinds) :=
  if kindOf x vs = some .gone then none else some (.copy, vs)

/-- Taking a part of `e`. -/
def takePart (e : SExpr) (vs : Kinds) : Option (Kind × Kinds) :=
  match e.root with
  | some x => if kindOf x vs = some .owned then some (.owned, take x vs) else none
  | none => none

/-- What remains after a block: its own variables are dropped. -/
def leave (vs : Kinds) (r : Kind × Kinds) : Kind × Kinds := (r.1, r.2.drop (r.2.length - vs.length))

/-- After one of two branches. -/
def merge (a b : Kind × Kinds) : Kind × Kinds :=
  (if (a.1 = .copy ∨ a.1 = .shared) ∧ (b.1 = .copy ∨ b.1 = .shared) then .copy else .owned,
   List.zipWith (fun x y => (x.1, if x.2 = .gone ∨ y.2 = .gone then .gone else x.2)) a.2 b.2)

/-- The variables of a pattern `P(x)`. -/
def patternVars : SExpr → Kinds
  | .call _ [.path [.name x]] => [(x, .owned)]
  | _ => []

mutual

/-- The kind of the value and the variables afterwards; `none` if something is used that is gone. With `see` the value itself
is not used: the expression is the place of an assignment, indexed, referred to, or the receiver of a method that takes a
reference. -/
def runE (R : Facts) (see : Bool) (vs : Kinds) : SExpr → Option (Kind × Kinds)
  | .path [.name x] => if see then seeVar x vs else useVar x vs
  | .path (.name t :: _) => some (if t ∈ primitive then .copy else .owned, vs)
  | .path _ | .qpath .. | .user _ => some (.owned, vs)
  | .int .. | .str _ | .unit | .ret none => some (.copy, vs)
  | .ret (some e) => (runE R false vs e).map fun r => (.copy, r.2)
  | .pre .ref e => (runE R true vs e).map fun r => (.shared, r.2)
  | .pre .deref e => (runE R true vs e).map fun r => (.copy, r.2)
  | .pre _ e | .cast e _ => (runE R false vs e).map fun r => (.copy, r.2)
  | .bin _ a b | .repeated a b =>
    (runE R false vs a).bind fun r => (runE R false r.2 b).map fun r => (.copy, r.2)
  | .index a i => (runE R true vs a).bind fun r => (runE R false r.2 i).map fun r => (.copy, r.2)
  | .field e x => if see || R.part x then (runE R true vs e).map fun r => (.copy, r.2) else takePart e vs
  | .tupleField e n => if see || R.part (toString n) then (runE R true vs e).map fun r => (.copy, r.2) else takePart e vs
  | .call _ args => (runEs R vs args).map fun vs => (.owned, vs)
  | .method e name args =>
    (runE R (!takes R e name) vs e).bind fun r => (runEs R r.2 args).map fun vs => (returned name, vs)
  | .array es => (runEs R vs es).map fun vs => (.copy, vs)
  | .block ss => (runS R vs ss).map (leave vs)
  | .ite c a none => (runE R false vs c).bind fun r => (runS R r.2 a).map fun q => merge (leave r.2 q) (.copy, r.2)
  | .ite c a (some b) =>
    (runE R false vs c).bind fun r => (runS R r.2 a).bind fun p => (runS R r.2 b).map fun q =>
      merge (leave r.2 p) (leave r.2 q)
  | .matching e arms => (runE R false vs e).bind fun r => runArms R r.2 arms
  | .struct _ fields => (runFields R vs fields).map fun vs => (.owned, vs)

/-- One expression after the other. -/
def runEs (R : Facts) (vs : Kinds) : List SExpr → Option Kinds
  | [] => some vs
  | e :: es => (runE R false vs e).bind fun r => runEs R r.2 es

/-- One of the arms. -/
def runArms (R : Facts) (vs : Kinds) : List (SExpr × SExpr) → Option (Kind × Kinds)
  | [] => some (.copy, vs)
  | (p, e) :: es =>
    (runE R false (patternVars p ++ vs) e).bind fun r => (runArms R vs es).map fun q => merge (leave vs r) q

/-- One member after the other. -/
def runFields (R : Facts) (vs : Kinds) : List (String × SExpr) → Option Kinds
  | [] => some vs
  | (_, e) :: es => (runE R false vs e).bind fun r => runFields R r.2 es

/-- The statements of a block. -/
def runS (R : Facts) (vs : Kinds) : List SStmt → Option (Kind × Kinds)
  | [] => some (.copy, vs)
  | .letS x _ e _ :: ss => (runE R false vs e).bind fun r => runS R ((x, heldKind vs e r.1) :: r.2) ss
  | .assign _ place e :: ss => (runE R false vs e).bind fun r => (runE R true r.2 place).bind fun r => runS R r.2 ss
  | .loop c body :: ss =>
    (runE R false vs c).bind fun r => (runS R r.2 body).bind fun q =>
      if (leave r.2 q).2 = r.2 then runS R r.2 ss else none
  | [.expr e false] => runE R false vs e
  | .expr e _ :: ss => (runE R false vs e).bind fun r => runS R r.2 ss

end

/-- The function uses nothing that is gone. -/
def SFn.moveOk (R : Facts) (f : SFn) : Bool :=
  (runS R (f.params.map (fun x => (x.1, x.2.kind)) ++ f.recv.kinds) f.body).isSome

/-- The members of a struct with their names, `0` for the one of a tuple. -/
def SItem.parts : SItem → List (String × SType)
  | .tuple _ _ _ t => [("0", t)]
  | .struct _ _ _ ms => ms.map fun m => (m.2.1, m.2.2)
  | _ => []

/-- What the items say: the type of the first member with the name; the functions with the name. -/
def facts (items : List SItem) : Facts where
  part x :=
    match (items.flatMap SItem.parts).find? fun m => decide (m.1 = x) with
    | some m => decide (m.2.kind = .copy)
    | none => false
  self x := items.any fun i => i.fns.any fun f => decide (f.name = x) && (decide (f.recv = .value) || decide (f.recv = .valueMut))

end Bf.Text
