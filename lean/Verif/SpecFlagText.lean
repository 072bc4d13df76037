import Verif.SpecText
import Verif.Model.EmitFlag

/-!
# What a bitflag enum looks like in Rust

The enum and its `impl`, as trees of the parser in `Model/Syntax.lean`, and what the two functions do when such a tree is
run.
-/

namespace Bf.Text

/-- Tokens that are a discriminant and a pattern at once, and how they are read: an integer, a constant `X`, or a constant
`a::X`. -/
inductive Constant : List Tok → SExpr → Prop
  | int (n : Nat) (suffix : String) : Constant [.int n suffix] (.int n suffix)
  | name (x : String) : Constant [.ident x] (names [x])
  | path (a x : String) : Constant [.ident a, .p .path, .ident x] (names [a, x])

/-- `let bits = bits.swap_bytes();`, or nothing. -/
def swapSyn : Endian → List SStmt
  | .little => [.letS "bits" none (.method (names ["bits"]) "swap_bytes" [])]
  | .big => []

/-- `const fn from_bits(bits: T) -> Self { match bits { value => Self::Name, .., _ => Self::Name } }` -/
def fromBitsSyn (value : String → SExpr) (c : FlagCode) : SFn where
  vis := some c.vis
  const := true
  name := "from_bits"
  recv := .none
  params := [("bits", dataSyn c.repr)]
  ret := some (namesTy ["Self"])
  body := swapSyn c.fromEndian ++
    [.expr (.matching (names ["bits"]) (c.cases.arms.map (fun a => (value a.2, names ["Self", a.2])) ++
      [(names ["_"], names ["Self", c.cases.wildcard])])) false]

/-- `const fn into_bits(self) -> T { let bits = self as T; bits }` -/
def intoBitsSyn (c : FlagCode) : SFn where
  vis := some c.vis
  const := true
  name := "into_bits"
  recv := .value
  params := []
  ret := some (dataSyn c.repr)
  body := .letS "bits" none (.cast (names ["self"]) (dataSyn c.repr)) :: (swapSyn c.intoEndian ++
    [.expr (names ["bits"]) false])

/-- The attributes of the enum. -/
def flagAttrs (attrs : List String) (c : FlagCode) : List (List Tok) :=
  ([.ident "repr", .opn .paren] ++ typeTokens c.repr ++ [.cls .paren]) ::
  ((if c.copy then [attrSyn .deriveCopyClone] else []) ++ attrs.map fun a => [.attr a])

/-- The enum and its `impl`. -/
def flagItems (name : String) (attrs : List String) (value : String → SExpr) (c : FlagCode) : List SItem :=
  [.enum (flagAttrs attrs c) (some c.vis) name
     (c.variants.map fun v => (v.2.1.map fun a => [.attr a], v.1, value v.1)),
   .impl none (namesTy [name]) [.fn (fromBitsSyn value c), .fn (intoBitsSyn c)]]

/-! ## Running the functions -/

/-- Whether a pattern is `_`. -/
def SExpr.isWild : SExpr → Bool
  | .path [.name x] => decide (x = "_")
  | _ => false

/-- Whether an expression is the variable `x`. -/
def SExpr.isVar (x : String) : SExpr → Bool
  | .path [.name y] => decide (y = x)
  | _ => false

/-- Whether a statement is `let bits = bits.swap_bytes();`. -/
def SStmt.isSwap : SStmt → Bool
  | .letS x none (.method e f []) => decide (x = "bits") && e.isVar "bits" && decide (f = "swap_bytes")
  | _ => false

/-- Running `from_bits` on `bits`, where the constants have the values `val`: the expression it ends with. -/
def runFrom {w : Nat} (val : SExpr → Nat) : List SStmt → BitVec w → Option SExpr
  | [.expr (.matching e arms) false], bits =>
    if e.isVar "bits" then
      (arms.find? fun a => a.1.isWild || BitVec.ofNat w (val a.1) == bits).map Prod.snd
    else none
  | s :: ss, bits => if s.isSwap then runFrom val ss (swapBytes bits) else none
  | [], _ => none

/-- Running the rest of `into_bits`, with `bits`. -/
def runRest {w : Nat} : List SStmt → BitVec w → Option (BitVec w)
  | [.expr e false], bits => if e.isVar "bits" then some bits else none
  | s :: ss, bits => if s.isSwap then runRest ss (swapBytes bits) else none
  | [], _ => none

/-- Running `into_bits` on a value whose discriminant is `d`. -/
def runInto {w : Nat} (d : BitVec w) : List SStmt → Option (BitVec w)
  | .letS x none (.cast e _) :: ss => if x = "bits" && e.isVar "self" then runRest ss d else none
  | _ => none

/-- The function with a name in the `impl` blocks. -/
def fnNamed (x : String) : List SItem → Option SFn
  | [] => none
  | .impl _ _ ms :: is =>
    (ms.findSome? fun
      | .fn f => if f.name = x then some f else none
      | .const _ _ _ _ => none).or (fnNamed x is)
  | _ :: is => fnNamed x is

end Bf.Text
