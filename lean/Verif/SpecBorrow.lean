import Verif.SpecMut

/-!
# What is borrowed

Rust lets a `&mut self` method run only while nothing else uses its receiver. This is a rule that is enough for that, for
the trees of the parser in `Model/Syntax.lean`: the arguments of such a call do not use the variable its receiver belongs
to; what such a call returns is kept in a variable only if the receiver's variable is not used any more; and `&e` is only
written as an argument of a method, whose result is not kept. (Not repo code. Rust accepts more than this rule does.)
-/

namespace Bf.Text

mutual

/-- The expression uses the variable `x`. -/
def exprUses (x : String) : SExpr → Bool
  | .path [.name y] => decide (y = x)
  | .path _ | .qpath .. | .int .. | .str _ | .user _ | .unit | .ret none => false
  | .pre _ e | .cast e _ | .field e _ | .tupleField e _ | .ret (some e) => exprUses x e
  | .bin _ a b | .index a b | .repeated a b => exprUses x a || exprUses x b
  | .call f args => exprUses x f || exprsUse x args
  | .method e _ args => exprUses x e || exprsUse x args
  | .array es => exprsUse x es
  | .block ss => stmtsUse x ss
  | .ite c a none => exprUses x c || stmtsUse x a
  | .ite c a (some b) => exprUses x c || stmtsUse x a || stmtsUse x b
  | .matching e arms => exprUses x e || armsUse x arms
  | .struct _ fields => fieldsUse x fields

/-- One of the expressions. -/
def exprsUse (x : String) : List SExpr → Bool
  | [] => false
  | e :: es => exprUses x e || exprsUse x es

/-- One of the arms. -/
def armsUse (x : String) : List (SExpr × SExpr) → Bool
  | [] => false
  | (_, e) :: es => exprUses x e || armsUse x es

/-- One of the members. -/
def fieldsUse (x : String) : List (String × SExpr) → Bool
  | [] => false
  | (_, e) :: es => exprUses x e || fieldsUse x es

/-- One of the statements. -/
def stmtsUse (x : String) : List SStmt → Bool
  | [] => false
  | .letS _ _ e _ :: ss => exprUses x e || stmtsUse x ss
  | .assign _ place e :: ss => exprUses x place || exprUses x e || stmtsUse x ss
  | .loop c body :: ss => exprUses x c || stmtsUse x body || stmtsUse x ss
  | .expr e _ :: ss => exprUses x e || stmtsUse x ss

end

/-- `&e` -/
def SExpr.isRef : SExpr → Bool
  | .pre .ref _ => true
  | _ => false

/-- The variable the expression belongs to is not used in the arguments. -/
def unusedIn (e : SExpr) (args : List SExpr) : Bool :=
  match e.root with
  | some x => !exprsUse x args
  | none => true

/-- What `let x = e;` keeps does not get in the way of the statements that follow. -/
def keepable (T : String → Bool) (ss : List SStmt) : SExpr → Bool
  | .method e name args =>
    !args.any SExpr.isRef &&
      (!changes T e name || match e.root with
        | some x => !stmtsUse x ss
        | none => true)
  | _ => true

mutual

/-- The expression obeys the rule; `T` tells which methods of the bitfield take `&mut self`. -/
def exprLend (T : String → Bool) : SExpr → Bool
  | .path _ | .qpath .. | .int .. | .str _ | .user _ | .unit | .ret none => true
  | .pre .ref _ => false
  | .pre _ e | .cast e _ | .field e _ | .tupleField e _ | .ret (some e) => exprLend T e
  | .bin _ a b | .index a b | .repeated a b => exprLend T a && exprLend T b
  | .call f args => exprLend T f && exprsLend T args
  | .method e name args => exprLend T e && argsLend T args && (!changes T e name || unusedIn e args)
  | .array es => exprsLend T es
  | .block ss => stmtsLend T ss
  | .ite c a none => exprLend T c && stmtsLend T a
  | .ite c a (some b) => exprLend T c && stmtsLend T a && stmtsLend T b
  | .matching e arms => exprLend T e && armsLend T arms
  | .struct _ fields => fieldsLend T fields

/-- Each of the expressions. -/
def exprsLend (T : String → Bool) : List SExpr → Bool
  | [] => true
  | e :: es => exprLend T e && exprsLend T es

/-- Each of the arguments of a method, which may be `&e`. -/
def argsLend (T : String → Bool) : List SExpr → Bool
  | [] => true
  | .pre .ref e :: es => exprLend T e && argsLend T es
  | e :: es => exprLend T e && argsLend T es

/-- Each of the arms. -/
def armsLend (T : String → Bool) : List (SExpr × SExpr) → Bool
  | [] => true
  | (_, e) :: es => exprLend T e && armsLend T es

/-- Each of the members. -/
def fieldsLend (T : String → Bool) : List (String × SExpr) → Bool
  | [] => true
  | (_, e) :: es => exprLend T e && fieldsLend T es

/-- The statements of a block obey the rule. -/
def stmtsLend (T : String → Bool) : List SStmt → Bool
  | [] => true
  | .letS _ _ e _ :: ss => exprLend T e && keepable T ss e && stmtsLend T ss
  | .assign _ place e :: ss => exprLend T place && exprLend T e && stmtsLend T ss
  | .loop c body :: ss => exprLend T c && stmtsLend T body && stmtsLend T ss
  | .expr e _ :: ss => exprLend T e && stmtsLend T ss

end

/-- The function obeys the rule. -/
def SFn.lendOk (T : String → Bool) (f : SFn) : Bool := stmtsLend T f.body

/-! ## What is returned -/

mutual

/-- There is a reference in the type. -/
def SType.hasRef : SType → Bool
  | .path _ args => typesHaveRef args
  | .arr t _ _ | .slice t => t.hasRef
  | .ref .. => true
  | .unit => false

/-- There is a reference in one of the types. -/
def typesHaveRef : List SType → Bool
  | [] => false
  | t :: ts => t.hasRef || typesHaveRef ts

end

/-- The function returns no reference, except a text as the error of a `Result`. -/
def SFn.returnsValue (f : SFn) : Bool :=
  match f.ret with
  | some (.path [.name "", .name "core", .name "result", .name "Result"] [t, .ref (.path [.name "str"] []) false]) =>
    !t.hasRef
  | some t => !t.hasRef
  | none => true

end Bf.Text
