import Verif.Model.Types

/-!
# Constant expressions in attributes

`ConstExpr::new` of parsing/common/const_expr.rs, on the text of a `default = ..` expression
(or of an enum discriminant). Text is a list of characters. Paths are relative to
`/repo/bitfields_impl/src`.
-/

namespace Bf

/-- Why the macro does not accept its input: a compile error it reports, or a panic of the
macro itself (which `catch_panics`, lib.rs, also turns into a compile error). -/
inductive Reject where
  | error (msg : String)
  | panic (p : Panic)
deriving DecidableEq, Repr

/-- Result of running the macro (at compile time of the user's crate). -/
abbrev P (α : Type) := Except Reject α

/-- Code that may panic, inside the macro. -/
def liftR {α : Type} : R α → P α
  | .ok a => .ok a
  | .error p => .error (.panic p)

/-- `ConstExpr`, parsing/common/const_expr.rs:17-25, without spans and tokens. -/
inductive ConstExpr where
  | literal (number : Nat) (negative : Bool)
  | path
deriving DecidableEq, Repr

/-- `str::trim` (standard library). Lean's `isWhitespace` covers the ASCII whitespace. -/
def trim (s : List Char) : List Char :=
  ((s.dropWhile Char.isWhitespace).reverse.dropWhile Char.isWhitespace).reverse

/-- `.trim().replace([' ', '_'], "").to_ascii_lowercase()`,
parsing/common/const_expr.rs:62-63 -/
def normalize (s : List Char) : List Char :=
  ((trim s).filter fun c => !(c == ' ' || c == '_')).map Char.toLower

/-- `INTEGER_IDENTIFIERS`, parsing/common/const_expr.rs:12-13 -/
def integerIdentifiers : List (List Char) :=
  [['u', '8'], ['u', '1', '6'], ['u', '3', '2'], ['u', '6', '4'], ['u', '1', '2', '8'],
   ['u', 's', 'i', 'z', 'e'],
   ['i', '8'], ['i', '1', '6'], ['i', '3', '2'], ['i', '6', '4'], ['i', '1', '2', '8'],
   ['i', 's', 'i', 'z', 'e']]

/-- `FLOAT_IDENTIFIERS`, parsing/common/const_expr.rs:9 -/
def floatIdentifiers : List (List Char) := [['f', '3', '2'], ['f', '6', '4']]

/-- `check_float`, parsing/common/const_expr.rs:80-93 -/
def checkFloat (s : List Char) : P Unit :=
  if ['0', 'x'].isPrefixOf s then .ok ()
  else if s.contains '.' || floatIdentifiers.any (fun id => id.isSuffixOf s) then
    .error (.error "Float are not supported.")
  else .ok ()

/-- `strip_integer_suffix`, parsing/common/const_expr.rs:129-140 -/
def stripSuffix (s : List Char) : List Char :=
  match integerIdentifiers.find? (fun id => id.isSuffixOf s) with
  | some id => s.take (s.length - id.length)
  | none => s

/-- `trim_start_matches` (standard library) with the two-character pattern `ab`. -/
def trimPrefix (a b : Char) : List Char → List Char
  | c :: d :: r => if c = a ∧ d = b then trimPrefix a b r else c :: d :: r
  | r => r

/-- The value of a digit in a radix up to 36 (`char::to_digit`, standard library). -/
def digitOf (radix : Nat) (c : Char) : Option Nat :=
  let v :=
    if '0'.toNat ≤ c.toNat ∧ c.toNat ≤ '9'.toNat then c.toNat - '0'.toNat
    else if 'a'.toNat ≤ c.toNat ∧ c.toNat ≤ 'z'.toNat then c.toNat - 'a'.toNat + 10
    else if 'A'.toNat ≤ c.toNat ∧ c.toNat ≤ 'Z'.toNat then c.toNat - 'A'.toNat + 10
    else radix
  if v < radix then some v else none

/-- The digit loop of `u128::from_str_radix` (standard library): fails at an invalid digit or
when the number leaves `u128`. -/
def digitsLoop (radix : Nat) : Nat → List Char → Option Nat
  | acc, [] => some acc
  | acc, c :: cs =>
    match digitOf radix c with
    | none => none
    | some d => if acc * radix + d < 2 ^ 128 then digitsLoop radix (acc * radix + d) cs else none

/-- `u128::from_str_radix` (standard library): an optional `+` and at least one digit. -/
def fromStrRadix (radix : Nat) : List Char → Option Nat
  | [] => none
  | ['+'] => none
  | '+' :: cs => digitsLoop radix 0 cs
  | cs => digitsLoop radix 0 cs

/-- `match u128::from_str_radix(..) { Ok(n) => Ok(n), Err(_) => unreachable!() }`,
parsing/common/const_expr.rs:152-158. The outer error is the panic, the inner `none` (never
here) is a parse failure. -/
def radixOrPanic (radix : Nat) (s : List Char) : P (Option Nat) :=
  match fromStrRadix radix s with
  | some n => .ok (some n)
  | none => .error (.panic .unreachable)

/-- `parse_integer_helper`, parsing/common/const_expr.rs:150-189 -/
def parseIntegerHelper (s : List Char) : P (Option Nat) :=
  if ['0', 'x'].isPrefixOf s then radixOrPanic 16 (trimPrefix '0' 'x' s)
  else if ['0', 'b'].isPrefixOf s then radixOrPanic 2 (trimPrefix '0' 'b' s)
  else if ['0', 'o'].isPrefixOf s then radixOrPanic 8 (trimPrefix '0' 'o' s)
  else .ok (fromStrRadix 10 s)

/-- `parse_integer`, parsing/common/const_expr.rs:115-127, 142-148 -/
def parseInteger (s : List Char) : P (Option ConstExpr) :=
  let t := stripSuffix s
  match parseIntegerHelper (t.dropWhile (· == '-')) with
  | .ok (some n) => .ok (some (.literal n (['-'].isPrefixOf t)))
  | .ok none => .ok none
  | .error e => .error e

/-- `ConstExpr::new`, parsing/common/const_expr.rs:61-78, 95-113, 191-195 -/
def constExpr (text : List Char) : P ConstExpr :=
  let s := normalize text
  match checkFloat s with
  | .error e => .error e
  | .ok () =>
    if s = ['t', 'r', 'u', 'e'] then .ok (.literal 1 false)
    else if s = ['f', 'a', 'l', 's', 'e'] then .ok (.literal 0 false)
    else match parseInteger s with
      | .ok (some e) => .ok e
      | .ok none => .ok .path
      | .error e => .error e

end Bf
