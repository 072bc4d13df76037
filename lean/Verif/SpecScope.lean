import Verif.SpecMut
import Verif.SpecFlagText

/-!
# Which names the printed code uses

A macro's output is compiled where the struct is declared, so every name in it that is not declared by the output itself
means whatever it means there. This lists what each piece of code refers to: the variables declared before, and names from
outside. (Not repo code.)
-/

namespace Bf.Text

open Rust Quote

/-- The names of builtin types: `bool`, `str`, and `u`, `i` with a number or `size`. -/
def builtinName (x : String) : Bool :=
  decide (x ∈ ["bool", "str", "usize"]) ||
  match x.toList with
  | c :: ds => (decide (c = 'u') || decide (c = 'i')) && !ds.isEmpty && ds.all Char.isDigit
  | [] => false

/-- What the code for a struct or enum `name` may refer to outside of a function: the type itself and its builder, types
of the user's fields, what begins with `::core` or `::std` (the empty name stands for what is before the first `::`), and a few
names of the language and of the prelude. -/
def outer (name : String) : List Seg → Bool
  | .custom _ :: _ => true
  | .name x :: rest =>
    decide (x ∈ ["Self", "_", "true", "false", "Ok", "Err", "Default", "core"]) || decide (x = name) ||
      decide (x = name ++ "Builder") || builtinName x ||
      (decide (x = "") && match rest with | .name y :: _ => decide (y = "core") || decide (y = "std") | _ => false)
  | [] => false

/-- Every name of a local variable or parameter in the code. -/
def localNames : List String :=
  ["self", "this", "f", "debug", "e", "bits", "bytes", "val", "value", "slice", "offset", "length", "bit", "mask", "i", "j",
   "shift", "res", "temp", "temp_bits", "copy_len", "field_bits", "val_to_set", "bit_index", "byte_idx", "bit_in_byte",
   "bit_val", "src_bit", "src_byte", "src_bit_in_byte", "dst_bit", "dst_byte", "dst_byte_idx", "dst_bit_in_byte", "is_protected", "protected_mask", "range_mask", "readable_mask",
   "writable_mask", "shifted_protected_mask", "__arr", "__i", "__v", "__src", "__val", "__int_val"]

/-- The paths in a type satisfy `O`. -/
def typeScoped (O : List Seg → Bool) : SType → Bool
  | .path segs args => O segs && typesScoped args
  | .arr t _ _ | .slice t | .ref t _ => typeScoped O t
  | .unit => true
where
  typesScoped : List SType → Bool
    | [] => true
    | t :: ts => typeScoped O t && typesScoped ts

/-- The variables a pattern declares. -/
def boundBy : SExpr → List String
  | .call _ [.path [.name x]] => [x]
  | _ => []

/-- What a pattern refers to. -/
def patternScoped (O : List Seg → Bool) : SExpr → Bool
  | .call (.path segs) _ => O segs
  | .path segs => O segs
  | .int .. | .unit | .pre .neg (.int ..) => true
  | _ => false

mutual

/-- Every path in the expression is one of the variables `vs` or satisfies `O`, and it declares only variables in
`localNames`. -/
def exprScoped (O : List Seg → Bool) (vs : List String) : SExpr → Bool
  | .path [.name x] => decide (x ∈ vs) || O [.name x]
  | .path segs => O segs
  | .qpath t _ => typeScoped O t
  | .int .. | .str _ | .user _ | .unit | .ret none => true
  | .cast e t => exprScoped O vs e && typeScoped O t
  | .pre _ e | .field e _ | .tupleField e _ | .ret (some e) => exprScoped O vs e
  | .bin _ a b | .index a b | .repeated a b => exprScoped O vs a && exprScoped O vs b
  | .call f args => exprScoped O vs f && exprsScoped O vs args
  | .method e _ args => exprScoped O vs e && exprsScoped O vs args
  | .array es => exprsScoped O vs es
  | .block ss => stmtsScoped O vs ss
  | .ite c a none => exprScoped O vs c && stmtsScoped O vs a
  | .ite c a (some b) => exprScoped O vs c && stmtsScoped O vs a && stmtsScoped O vs b
  | .matching e arms => exprScoped O vs e && armsScoped O vs arms
  | .struct segs fields => O segs && fieldsScoped O vs fields

/-- Each of the expressions. -/
def exprsScoped (O : List Seg → Bool) (vs : List String) : List SExpr → Bool
  | [] => true
  | e :: es => exprScoped O vs e && exprsScoped O vs es

/-- Each of the arms, with the variables its pattern declares. -/
def armsScoped (O : List Seg → Bool) (vs : List String) : List (SExpr × SExpr) → Bool
  | [] => true
  | (q, e) :: es =>
    patternScoped O q && (boundBy q).all (fun x => decide (x ∈ localNames)) && exprScoped O (boundBy q ++ vs) e &&
      armsScoped O vs es

/-- Each of the members. -/
def fieldsScoped (O : List Seg → Bool) (vs : List String) : List (String × SExpr) → Bool
  | [] => true
  | (_, e) :: es => exprScoped O vs e && fieldsScoped O vs es

/-- Statements one after the other: a `let` declares a variable for those after it. -/
def stmtsScoped (O : List Seg → Bool) (vs : List String) : List SStmt → Bool
  | [] => true
  | .letS x t e _ :: ss =>
    decide (x ∈ localNames) && exprScoped O vs e &&
      (match t with | some t => typeScoped O t | none => true) && stmtsScoped O (x :: vs) ss
  | .assign _ place e :: ss => exprScoped O vs place && exprScoped O vs e && stmtsScoped O vs ss
  | .loop c body :: ss => exprScoped O vs c && stmtsScoped O vs body && stmtsScoped O vs ss
  | .expr e _ :: ss => exprScoped O vs e && stmtsScoped O vs ss

end

/-- The receiver as a variable. -/
def Recv.names : Recv → List String
  | .none => []
  | _ => ["self"]

/-- The function refers only to its receiver, its parameters, its variables and what satisfies `O`. -/
def SFn.scoped (O : List Seg → Bool) (f : SFn) : Bool :=
  f.params.all (fun x => decide (x.1 ∈ localNames) && typeScoped O x.2) &&
  (match f.ret with | some t => typeScoped O t | none => true) &&
  stmtsScoped O (f.params.map (·.1) ++ f.recv.names) f.body

/-- The same for a member of an `impl` block. -/
def SMember.scoped (O : List Seg → Bool) : SMember → Bool
  | .fn f => f.scoped O
  | .const _ _ t e => typeScoped O t && exprScoped O [] e

/-- The same for an item (attributes aside). -/
def SItem.scoped (O : List Seg → Bool) : SItem → Bool
  | .tuple _ _ _ t => typeScoped O t
  | .struct _ _ _ ms => ms.all fun m => typeScoped O m.2.2
  | .enum _ _ _ vs => vs.all fun v => exprScoped O [] v.2.2
  | .impl tr t ms => (match tr with | some t => typeScoped O t | none => true) && typeScoped O t && ms.all (SMember.scoped O)

/-! ## The user's expressions -/

/-- The names of a path without a user's type. -/
def pathNames : List Seg → Option (List String)
  | [] => some []
  | .name x :: rest => (pathNames rest).map (x :: ·)
  | .custom _ :: _ => none

/-- The path at the beginning of an expression. -/
def leadingPath : List Tok → Option (List String)
  | .ident x :: .p .path :: .ident y :: _ => some [x, y]
  | .ident x :: _ => some [x]
  | _ => none

/-- The path is written in the default expression of a field. -/
def Printer.userPath (P : Printer) (segs : List Seg) : Bool :=
  P.B.fields.any fun f => f.hasDefault && match leadingPath (P.default f.offset) with
    | some xs => decide (pathNames segs = some xs)
    | none => false

/-- The path is written as the value of a variant. -/
def FlagPrinter.userPath (P : FlagPrinter) (segs : List Seg) : Bool :=
  P.F.variants.any fun v => match leadingPath (P.value v.name) with
    | some xs => decide (pathNames segs = some xs)
    | none => false

/-- The same as `outer`, without the names that mean something else if the user has a module `core`, a trait `Default` or
constructors `Ok` and `Err` in scope. -/
def rooted (name : String) (segs : List Seg) : Bool :=
  outer name segs && match segs with
    | .name x :: _ => !decide (x ∈ ["core", "Default", "Ok", "Err"])
    | _ => true

end Bf.Text
