/-!
# Rust primitives used by the generated code

Rust semantics (not repo code): integer operations with overflow behaviour that
depends on whether overflow checks are compiled in, array indexing, `while` loops.
-/

namespace Bf

/-- Whether the crate that contains the generated code is compiled with overflow
checks (`checked`, debug profile) or without (`wrapping`, release profile). -/
inductive Mode where
  | checked
  | wrapping
deriving DecidableEq, Repr

/-- Abnormal outcomes. `rejected` is not a run-time panic: it marks programs that rustc
refuses to compile (ill-typed use of the generated code). -/
inductive Panic where
  /-- shift amount not below the operand width -/
  | shift
  /-- `u32` addition or subtraction overflow -/
  | arith
  /-- array or slice index out of bounds -/
  | index
  /-- `unreachable!()` reached -/
  | unreachable
  /-- a user-supplied `from_bits` panicked -/
  | user
  /-- the program would not type check -/
  | rejected
deriving DecidableEq, Repr

/-- Result of running generated code. -/
abbrev R (α : Type) := Except Panic α

/-- `x << s` (Rust): overflow panics with checks on; otherwise the amount is taken modulo
the width (widths are powers of two). -/
def shl (m : Mode) {w : Nat} (x : BitVec w) (s : Nat) : R (BitVec w) :=
  if s < w then .ok (x <<< s)
  else match m with
    | .checked => .error .shift
    | .wrapping => .ok (x <<< (s % w))

/-- `x >> s` on unsigned integers (Rust). -/
def shr (m : Mode) {w : Nat} (x : BitVec w) (s : Nat) : R (BitVec w) :=
  if s < w then .ok (x >>> s)
  else match m with
    | .checked => .error .shift
    | .wrapping => .ok (x >>> (s % w))

/-- `x >> s` on signed integers (Rust): arithmetic shift. -/
def sshr (m : Mode) {w : Nat} (x : BitVec w) (s : Nat) : R (BitVec w) :=
  if s < w then .ok (x.sshiftRight s)
  else match m with
    | .checked => .error .shift
    | .wrapping => .ok (x.sshiftRight (s % w))

/-- `a + b` on `u32` (both arguments are `u32` values). -/
def addU32 (m : Mode) (a b : Nat) : R Nat :=
  if a + b < 2 ^ 32 then .ok (a + b)
  else match m with
    | .checked => .error .arith
    | .wrapping => .ok ((a + b) % 2 ^ 32)

/-- `a - b` on `u32` (both arguments are `u32` values). -/
def subU32 (m : Mode) (a b : Nat) : R Nat :=
  if b ≤ a then .ok (a - b)
  else match m with
    | .checked => .error .arith
    | .wrapping => .ok ((a + 2 ^ 32 - b) % 2 ^ 32)

/-- `a * b` on `u32`. -/
def mulU32 (m : Mode) (a b : Nat) : R Nat :=
  if a * b < 2 ^ 32 then .ok (a * b)
  else match m with
    | .checked => .error .arith
    | .wrapping => .ok ((a * b) % 2 ^ 32)

/-- `bs[i]` -/
def getB (bs : List (BitVec 8)) (i : Nat) : R (BitVec 8) :=
  match bs[i]? with
  | some b => .ok b
  | none => .error .index

/-- `bs[i] = b` -/
def setB (bs : List (BitVec 8)) (i : Nat) (b : BitVec 8) : R (List (BitVec 8)) :=
  if i < bs.length then .ok (bs.set i b) else .error .index

/-- `let mut i = 0; while i < n { body; i += 1 }` -/
def forUpTo {σ : Type} : Nat → (Nat → σ → R σ) → σ → R σ
  | 0, _, s => .ok s
  | n + 1, body, s => do
    let s ← forUpTo n body s
    body n s

/-- `uN::MAX` -/
def maxOf (w : Nat) : BitVec w := BitVec.allOnes w

/-- The integer of width `w` whose bit `i` is `f i` (auxiliary, used to define
`swap_bytes`). -/
def ofBits : (w : Nat) → (Nat → Bool) → BitVec w
  | 0, _ => 0#0
  | w + 1, f => BitVec.cons (f w) (ofBits w f)

/-- `uN::swap_bytes` of the standard library: byte `k` of the result is byte
`N/8 - 1 - k` of the argument. -/
def swapBytes {w : Nat} (v : BitVec w) : BitVec w :=
  ofBits w fun i => v.getLsbD (8 * (w / 8 - 1 - i / 8) + i % 8)

/-- `b |= 1 << k` or `b &= !(1 << k)` on a byte, `k < 8`. -/
def putBit (b : BitVec 8) (k : Nat) (x : Bool) : BitVec 8 :=
  if x then b ||| (1#8 <<< k) else b &&& ~~~(1#8 <<< k)

end Bf
