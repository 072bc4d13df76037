import Verif.Model.Syntax

/-!
# What may be changed

Rust lets a program assign to a place, or call a method that takes `&mut self` on it, only if the place can be changed: it
belongs to a variable declared with `mut`, or is reached through a `&mut` reference. This is that rule, for the trees of the
parser in `Model/Syntax.lean`. (Not repo code. `SpecMove.lean` and
`SpecBorrow.lean` are about moved values and references.)
-/

namespace Bf.Text

/-- How a variable holds its value. -/
inductive Hold where
  /-- the value is in the variable, with `mu` it was declared with `mut` -/
  | own (mu : Bool)
  /-- the variable is a reference, with `mu` a `&mut` one -/
  | borrow (mu : Bool)
deriving DecidableEq, Repr

/-- The variables in scope, the latest first. -/
abbrev Vars := List (String × Hold)

/-- The latest variable called `x`. -/
def holdOf (x : String) : Vars → Option Hold
  | [] => none
  | (y, h) :: l => if y = x then some h else holdOf x l

/-- The variable a place is a part of. -/
def SExpr.root : SExpr → Option String
  | .path [.name x] => some x
  | .field e _ => e.root
  | .tupleField e _ => e.root
  | .index a _ => a.root
  | _ => none

/-- The place is a variable, not a part of one. -/
def SExpr.isVariable : SExpr → Bool
  | .path _ => true
  | _ => false

/-- What the place holds may be changed: parts of a variable through `mut` or `&mut`, the variable itself only if it is
`mut`. -/
def SExpr.assignable (vs : Vars) (e : SExpr) : Bool :=
  match e.root.bind fun x => holdOf x vs with
  | some (.own mu) => mu
  | some (.borrow mu) => mu && !e.isVariable
  | none => false

/-- A method that takes `&mut self` may be called on the place. -/
def SExpr.lendable (vs : Vars) (e : SExpr) : Bool :=
  match e.root.bind fun x => holdOf x vs with
  | some (.own mu) => mu
  | some (.borrow mu) => mu
  | none => false

/-- How `let x = e` and `let mut x = e` hold the value: a reference remains one. -/
def SExpr.held (vs : Vars) (e : SExpr) (mu : Bool) : Hold :=
  match e with
  | .path [.name x] =>
    match holdOf x vs with
    | some (.borrow m) => .borrow m
    | _ => .own mu
  | _ => .own mu

/-- Which methods take `&mut self`. Of the receivers in the code, `this` and `self.this` are the bitfield, whose methods are
given; `f` and `debug` are a formatter and a `DebugStruct`, whose methods take `&mut self`; the others are numbers, slices,
ranges and values of the user, whose methods do not. `into_bits` takes `self`, whatever it is called on. -/
def changes (T : String → Bool) (e : SExpr) (name : String) : Bool :=
  !decide (name = "into_bits") &&
  match e with
  | .path [.name x] => if x = "this" then T name else decide (x = "f") || decide (x = "debug")
  | .field (.path [.name x]) y => decide (x = "self") && decide (y = "this") && T name
  | _ => false

mutual

/-- Nothing in the expression is changed that may not be. -/
def exprMut (T : String → Bool) (vs : Vars) : SExpr → Bool
  | .path _ | .qpath .. | .int .. | .str _ | .user _ | .unit | .ret none => true
  | .pre _ e | .cast e _ | .field e _ | .tupleField e _ | .ret (some e) => exprMut T vs e
  | .bin _ a b | .index a b | .repeated a b => exprMut T vs a && exprMut T vs b
  | .call f args => exprMut T vs f && exprsMut T vs args
  | .method e name args => exprMut T vs e && exprsMut T vs args && (!changes T e name || e.lendable vs)
  | .array es => exprsMut T vs es
  | .block ss => stmtsMut T vs ss
  | .ite c a none => exprMut T vs c && stmtsMut T vs a
  | .ite c a (some b) => exprMut T vs c && stmtsMut T vs a && stmtsMut T vs b
  | .matching e arms => exprMut T vs e && armsMut T vs arms
  | .struct _ fields => fieldsMut T vs fields

/-- Each of the expressions. -/
def exprsMut (T : String → Bool) (vs : Vars) : List SExpr → Bool
  | [] => true
  | e :: es => exprMut T vs e && exprsMut T vs es

/-- Each of the arms (patterns change nothing). -/
def armsMut (T : String → Bool) (vs : Vars) : List (SExpr × SExpr) → Bool
  | [] => true
  | (_, e) :: es => exprMut T vs e && armsMut T vs es

/-- Each of the members. -/
def fieldsMut (T : String → Bool) (vs : Vars) : List (String × SExpr) → Bool
  | [] => true
  | (_, e) :: es => exprMut T vs e && fieldsMut T vs es

/-- Nothing in the statements of a block is changed that may not be. -/
def stmtsMut (T : String → Bool) (vs : Vars) : List SStmt → Bool
  | [] => true
  | .letS x _ e mu :: ss => exprMut T vs e && stmtsMut T ((x, e.held vs mu) :: vs) ss
  | .assign _ place e :: ss => exprMut T vs place && exprMut T vs e && place.assignable vs && stmtsMut T vs ss
  | .loop c body :: ss => exprMut T vs c && stmtsMut T vs body && stmtsMut T vs ss
  | .expr e _ :: ss => exprMut T vs e && stmtsMut T vs ss

end

/-- How a parameter holds its value. -/
def SType.held : SType → Hold
  | .ref _ mu => .borrow mu
  | _ => .own false

/-- How the receiver holds its value. -/
def Recv.vars : Recv → Vars
  | .none => []
  | .value => [("self", .own false)]
  | .valueMut => [("self", .own true)]
  | .ref => [("self", .borrow false)]
  | .refMut => [("self", .borrow true)]

/-- The function changes only what it may. -/
def SFn.mutOk (T : String → Bool) (f : SFn) : Bool :=
  stmtsMut T (f.params.map (fun x => (x.1, x.2.held)) ++ f.recv.vars) f.body

/-- The functions of an item. -/
def SItem.fns : SItem → List SFn
  | .impl _ _ ms => ms.filterMap fun
    | .fn f => some f
    | .const .. => none
  | _ => []

/-- The names of the functions among the items that take `&mut self`. -/
def mutMethods (items : List SItem) (name : String) : Bool :=
  items.any fun i => i.fns.any fun f => decide (f.name = name) && decide (f.recv = .refMut)

end Bf.Text
