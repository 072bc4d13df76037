import Verif.Model.Surface

/-!
# The fragment of Rust the macro emits

Syntax and run-time semantics of the Rust statements and expressions that occur inside `quote!` in the generator
(not repo code; `Model/Quote.lean` models the generator as a producer of this syntax). What is written out by
the semantics rather than inferred:

* An unsuffixed integer literal takes the type its context asks for (`let` annotation, assigned place, parameter,
  return type, the other operand), otherwise `i32`. Types that rustc infers from later uses are written as
  annotations in `Model/Quote.lean`.
* A value that is used at a type it does not have stops the program with `illTyped` (rustc would have refused it).
* References are not distinguished from the values they point to. A `Box` is: it is dereferenced implicitly
  by indexing and `.len()` only.
* `this`/`self`/`self.this` all denote the one bitfield value a function works on (`Env.cell`).
-/

namespace Bf.Rust

/-- Why a run ends without a result. -/
inductive Stop where
  /-- a panic -/
  | panic (p : Panic)
  /-- the program is not well typed or a name does not resolve -/
  | illTyped
  /-- the bound on loop iterations was too small -/
  | outOfFuel
deriving DecidableEq, Repr

/-- Result of running a program. -/
abbrev E (α : Type) := Except Stop α

/-- Types. -/
inductive Ty where
  /-- `uN` -/
  | u (w : Nat)
  /-- `iN` -/
  | i (w : Nat)
  | usize
  | bool
  /-- `[u8; n]` -/
  | arr (n : Nat)
  /-- `&[u8]`, `&mut [u8]` -/
  | slice
  /-- a user's type -/
  | obj
  | unit
  /-- the bitfield (or its builder, which wraps one) -/
  | self
  /-- `Result<T, &'static str>` -/
  | result (t : Ty)
deriving DecidableEq, Repr

/-- Values. Integers carry their type. -/
inductive V where
  | u (w n : Nat)
  | i (w : Nat) (n : Int)
  | usize (n : Nat)
  /-- an integer of a type only the user knows (a default expression, a result of `into_bits`) -/
  | any (n : Int)
  | bool (b : Bool)
  | arr (bs : List (BitVec 8))
  /-- `Box<[u8; n]>` -/
  | box (bs : List (BitVec 8))
  | obj (c : Codec) (code : Nat)
  | unit
  | self (s : Store)
  | ok (v : V)
  | err (msg : String)

/-- The type of an integer or `bool` value, where it is determined. -/
def V.ty : V → Option Ty
  | .u w _ => some (.u w)
  | .i w _ => some (.i w)
  | .usize _ => some .usize
  | .bool _ => some .bool
  | _ => none

/-- The mathematical value of an integer. -/
def V.num : V → Option Int
  | .u _ n => some n
  | .i _ n => some n
  | .usize n => some n
  | .any n => some n
  | _ => none

/-- An integer literal at an integer type. Literals that do not fit wrap (the lint against them is not applied
to code from an attribute macro). -/
def litV (n : Nat) : Ty → E V
  | .u w => .ok (.u w (BitVec.ofNat w n).toNat)
  | .i w => .ok (.i w (BitVec.ofNat w n).toInt)
  | .usize => .ok (.usize n)
  | _ => .error .illTyped

/-- The value may be used where type `t` is required; an integer of the user's type must be a value of `t`. -/
def coerce (v : V) (t : Ty) : E V :=
  match v, t with
  | .u w n, .u w' => if w = w' then .ok (.u w n) else .error .illTyped
  | .i w n, .i w' => if w = w' then .ok (.i w n) else .error .illTyped
  | .usize n, .usize => .ok (.usize n)
  | .any n, .u w => if 0 ≤ n ∧ n < 2 ^ w then .ok (.u w n.toNat) else .error .illTyped
  | .bool b, .bool => .ok (.bool b)
  | .arr bs, .arr n => if bs.length = n then .ok (.arr bs) else .error .illTyped
  | .arr bs, .slice => .ok (.arr bs)
  | .obj c code, .obj => .ok (.obj c code)
  | .unit, .unit => .ok .unit
  | .self s, .self => .ok (.self s)
  | .ok v, .result _ => .ok (.ok v)
  | .err msg, .result _ => .ok (.err msg)
  | _, _ => .error .illTyped

/-- `n as T` for an integer `n`. -/
def castNum (n : Int) : Ty → E V
  | .u w => .ok (.u w (BitVec.ofInt w n).toNat)
  | .i w => .ok (.i w (BitVec.ofInt w n).toInt)
  | .usize => .ok (.usize (BitVec.ofInt 64 n).toNat)
  | _ => .error .illTyped

/-- `e as T` -/
def castV (v : V) (t : Ty) : E V :=
  match v with
  | .bool b => castNum (if b then 1 else 0) t
  | _ =>
    match v.num with
    | some n => castNum n t
    | none => .error .illTyped

/-- Binary operators. -/
inductive BinOp where
  | and | or | xor | add | sub | mul | div | rem | shl | shr | eq | ne | lt | gt | ge
deriving DecidableEq, Repr

/-- Overflow: a panic or the wrapped result. -/
def overflow (m : Mode) (p : Panic) (wrapped : α) : E α :=
  match m with
  | .checked => .error (.panic p)
  | .wrapping => .ok wrapped

/-- `a + b`, `a - b`, `a * b`, `a / b`, `a % b` on unsigned integers of `w` bits. -/
def arith (m : Mode) (w : Nat) (op : BinOp) (a b : Nat) : E Nat :=
  match op with
  | .add => if a + b < 2 ^ w then .ok (a + b) else overflow m .arith ((a + b) % 2 ^ w)
  | .sub => if b ≤ a then .ok (a - b) else overflow m .arith ((a + 2 ^ w - b) % 2 ^ w)
  | .mul => if a * b < 2 ^ w then .ok (a * b) else overflow m .arith (a * b % 2 ^ w)
  | .div => if b = 0 then .error (.panic .arith) else .ok (a / b)
  | .rem => if b = 0 then .error (.panic .arith) else .ok (a % b)
  | _ => .error .illTyped

/-- `a & b`, `a | b`, `a ^ b` -/
def bitwise {w : Nat} (op : BinOp) (a b : BitVec w) : E (BitVec w) :=
  match op with
  | .and => .ok (a &&& b)
  | .or => .ok (a ||| b)
  | .xor => .ok (a ^^^ b)
  | _ => .error .illTyped

/-- Comparisons. -/
def compare (op : BinOp) (a b : Int) : E Bool :=
  match op with
  | .eq => .ok (decide (a = b))
  | .ne => .ok (decide (a ≠ b))
  | .lt => .ok (decide (a < b))
  | .gt => .ok (decide (b < a))
  | .ge => .ok (decide (b ≤ a))
  | _ => .error .illTyped

/-- `a << s`, `a >> s`: the amount is compared with the width of `a`. -/
def shiftV (m : Mode) (op : BinOp) (x : V) (s : Int) : E V :=
  if s < 0 then overflow m .shift x  -- no negative amounts occur
  else
    let k := s.toNat
    match x with
    | .u w n =>
      let a := BitVec.ofNat w n
      let sh (k : Nat) := if op = .shl then a <<< k else a >>> k
      if k < w then .ok (.u w (sh k).toNat) else overflow m .shift (.u w (sh (k % w)).toNat)
    | .i w n =>
      let a := BitVec.ofInt w n
      let sh (k : Nat) := if op = .shl then a <<< k else a.sshiftRight k
      if k < w then .ok (.i w (sh k).toInt) else overflow m .shift (.i w (sh (k % w)).toInt)
    | _ => .error .illTyped

/-- `a op b` -/
def binV (m : Mode) (op : BinOp) (x y : V) : E V :=
  match op with
  | .and | .or | .xor =>
    match x, y with
    | .u w a, .u w' b =>
      if w = w' then do return .u w (← bitwise op (BitVec.ofNat w a) (BitVec.ofNat w b)).toNat
      else .error .illTyped
    | .i w a, .i w' b =>
      if w = w' then do return .i w (← bitwise op (BitVec.ofInt w a) (BitVec.ofInt w b)).toInt
      else .error .illTyped
    | _, _ => .error .illTyped
  | .add | .sub | .mul | .div | .rem =>
    match x, y with
    | .u w a, .u w' b =>
      if w = w' then do return .u w (← arith m w op a b) else .error .illTyped
    | .usize a, .usize b => do return .usize (← arith m 64 op a b)
    | _, _ => .error .illTyped
  | .shl | .shr =>
    match y.num with
    | some s => shiftV m op x s
    | none => .error .illTyped
  | .eq | .ne | .lt | .gt | .ge =>
    match x.ty, y.ty, x.num, y.num with
    | some t, some t', some a, some b =>
      if t = t' then do return .bool (← compare op a b) else .error .illTyped
    | _, _, _, _ => .error .illTyped

/-- `!e` -/
def notV : V → E V
  | .u w n => .ok (.u w (~~~BitVec.ofNat w n).toNat)
  | .i w n => .ok (.i w (~~~BitVec.ofInt w n).toInt)
  | .bool b => .ok (.bool !b)
  | _ => .error .illTyped

/-- `-e` -/
def negV (m : Mode) : V → E V
  | .i w n => if -n < 2 ^ (w - 1) then .ok (.i w (-n)) else overflow m .arith (.i w n)
  | _ => .error .illTyped

/-- `a[i]` -/
def indexV (a i : V) : E V :=
  match a, i with
  | .arr bs, .usize k | .box bs, .usize k =>
    match bs[k]? with
    | some b => .ok (.u 8 b.toNat)
    | none => .error (.panic .index)
  | _, _ => .error .illTyped

/-- `*e` for a `Box` -/
def derefV : V → E V
  | .box bs => .ok (.arr bs)
  | _ => .error .illTyped

/-- `::std::boxed::Box::new(e)` -/
def boxV : V → E V
  | .arr bs => .ok (.box bs)
  | _ => .error .illTyped

/-- `a[i] = v` -/
def setIndex (bs : List (BitVec 8)) (i v : V) : E (List (BitVec 8)) :=
  match i, v with
  | .usize k, .u 8 n =>
    if k < bs.length then .ok (bs.set k (BitVec.ofNat 8 n)) else .error (.panic .index)
  | _, _ => .error .illTyped

/-- A value of the backing type -/
def ofStore : Store → V
  | .int w v => .u w v.toNat
  | .arr bs => .arr bs

/-- `this.0` as a value; with `boxed` an array is in a `Box` -/
def innerV (boxed : Bool) : Store → V
  | .int w v => .u w v.toNat
  | .arr bs => if boxed then .box bs else .arr bs

/-- Storing a value in `this.0`, which has a fixed type. -/
def storeAs (boxed : Bool) (old : Store) (v : V) : E Store :=
  match old, v with
  | .int w _, .u w' n => if w = w' then .ok (.int w (BitVec.ofNat w n)) else .error .illTyped
  | .arr bs, .arr bs' => if !boxed && bs'.length = bs.length then .ok (.arr bs') else .error .illTyped
  | .arr bs, .box bs' => if boxed && bs'.length = bs.length then .ok (.arr bs') else .error .illTyped
  | _, _ => .error .illTyped

/-- The type of `this.0` (for literals in it, so a `Box` does not matter). -/
def storeTy : Store → Ty
  | .int w _ => .u w
  | .arr bs => .arr bs.length

/-- A call of a user's function: its panics are panics (`rejected` stands for one that does not compile). -/
def userCall : R Nat → E Nat
  | .ok n => .ok n
  | .error .rejected => .error .illTyped
  | .error p => .error (.panic p)

/-! ## Syntax -/

mutual

/-- Expressions. -/
inductive Expr where
  /-- a local variable -/
  | var (x : String)
  /-- the stored value, `this.0`/`this.val`, or with `self` `self.this.0`/`self.this.val` -/
  | inner (self : Bool)
  /-- `this`; with `self` the receiver `self` of a builder method -/
  | whole (self : Bool)
  /-- an integer literal, with or without suffix -/
  | lit (n : Nat) (suffix : Option Ty)
  | bool (b : Bool)
  /-- a default expression of the user, that of the field at `offset`, which evaluates to a value (of type `c` if it is
  custom) -/
  | user (offset : Nat) (t : DataType) (v : Val)
  /-- `Self::NAME` or, with `byName`, `Bitfield::NAME`: a generated constant of field `field` -/
  | const (byName : Bool) (a : Accessor) (field : String)
  /-- `uN::MAX` -/
  | maxOf (w : Nat)
  /-- `uN::BITS` -/
  | bitsOf (w : Nat)
  | not (e : Expr)
  | neg (e : Expr)
  | bin (op : BinOp) (a b : Expr)
  /-- `a || b` -/
  | orElse (a b : Expr)
  /-- `a && b` -/
  | andAlso (a b : Expr)
  | cast (e : Expr) (t : Ty)
  /-- `e as _` -/
  | castInfer (e : Expr)
  | index (a i : Expr)
  /-- `*e`, of a `Box` -/
  | deref (e : Expr)
  /-- `::std::boxed::Box::new(e)` -/
  | boxNew (e : Expr)
  /-- `[0u8; n]` -/
  | zeros (n : Nat)
  /-- `[b0, b1, ..]` -/
  | bytes (bs : List (BitVec 8))
  | ite (c a b : Expr)
  /-- `{ s; e }` -/
  | block (s : Stmt) (e : Expr)
  /-- `T::from_bits(e as _)`, `T::from_bits(0)` -/
  | fromBits (c : Codec) (e : Expr)
  /-- `e.into_bits()` -/
  | intoBits (e : Expr)
  | swapBytes (e : Expr)
  | len (e : Expr)
  /-- `(lo..hi).contains(&e)`, with `u32` bounds -/
  | contains (lo hi : Nat) (e : Expr)
  /-- `this.f(e)`, with `self` `self.this.f(e)` -/
  | method (self : Bool) (f : Tag) (e : Expr)
  /-- `Self::f()` or, with `byName`, `Bitfield::f()` -/
  | assoc (byName : Bool) (f : Tag)
  | unit
  /-- `Ok(e)` -/
  | okE (e : Expr)
  /-- `Err("..")` -/
  | errE (msg : String)

/-- Statements. -/
inductive Stmt where
  | skip
  | seq (a b : Stmt)
  /-- `let x = e;`, `let x: T = e;`, with `mu` `let mut ..` -/
  | letS (x : String) (t : Option Ty) (e : Expr) (mu : Bool := false)
  /-- `let this = self;` (in a builder `self` is not the bitfield) -/
  | letThis
  /-- `let this = Self(e);` or, with `byName`, `let this = Bitfield(e);`; with ignored fields `Self { val: e, .. }`; with
  `mu` `let mut ..` -/
  | initThis (byName : Bool) (e : Expr) (mu : Bool := true)
  /-- `let mut this = x;`, where `x` is a parameter of the bitfield type -/
  | moveThis (x : String)
  /-- `x = e`, `x op= e` -/
  | assign (x : String) (op : Option BinOp) (e : Expr)
  /-- `this.0 = e`, `this.0 op= e` (`self`: `self.this.0`) -/
  | assignInner (self : Bool) (op : Option BinOp) (e : Expr)
  /-- `x[i] = e`, `x[i] op= e` -/
  | assignElem (x : String) (i : Expr) (op : Option BinOp) (e : Expr)
  /-- `this.0[i] = e`, `this.0[i] op= e` (`self`: `self.this.0[i]`) -/
  | assignInnerElem (self : Bool) (i : Expr) (op : Option BinOp) (e : Expr)
  | expr (e : Expr)
  | ite (c : Expr) (a b : Stmt)
  | loop (c : Expr) (body : Stmt)
  | ret (e : Expr)
  /-- `{ s }` -/
  | scope (s : Stmt)
  /-- `match e { Ok(()) => {}, Err(e) => return Err(e) }` -/
  | tryS (e : Expr)
  /-- `debug.field("name", &e);` -/
  | debugField (name : String) (e : Expr)

end

/-- Statements one after the other (`#( .. )*`). -/
def Stmt.all : List Stmt → Stmt
  | [] => .skip
  | s :: ss => .seq s (Stmt.all ss)

/-! ## Running -/

/-- The state of a running function. -/
structure Env where
  /-- local variables, the innermost first; `let` shadows -/
  locals : List (String × V)
  /-- whether `this` is in scope -/
  this : Bool
  /-- the bitfield value -/
  cell : Store
  /-- what was passed to the debug formatter -/
  shown : List (String × V)

/-- The latest variable called `x`. -/
def look (x : String) : List (String × V) → Option V
  | [] => none
  | (y, v) :: l => if y = x then some v else look x l

/-- Assigning to the latest variable called `x`. -/
def update (x : String) (v : V) : List (String × V) → List (String × V)
  | [] => []
  | (y, w) :: l => if y = x then (y, v) :: l else (y, w) :: update x v l

/-- Leaving a block: the variables declared in it go out of scope. -/
def Env.leave (outer inner : Env) : Env :=
  { inner with locals := inner.locals.drop (inner.locals.length - outer.locals.length),
               this := outer.this }

/-- How a statement ends. -/
inductive Flow where
  | next (e : Env)
  /-- `return` -/
  | ret (v : V) (e : Env)

/-- What the surroundings of a function provide. -/
structure Ctx where
  mode : Mode
  /-- bound on the iterations of each loop -/
  fuel : Nat
  /-- the function belongs to the builder -/
  builder : Bool
  /-- an array is stored in a `Box` -/
  boxed : Bool
  /-- the return type of the function -/
  ret : Ty
  /-- the generated constants of the bitfield -/
  const : Accessor → String → Option Nat
  /-- parameter and behaviour of the bitfield's one-parameter methods -/
  method : Tag → Option (Ty × (V → Store → E (V × Store)))
  /-- the bitfield's functions without parameters -/
  assoc : Tag → Option (E V)

/-- `Self::f` in a function of the builder is a function of the builder, elsewhere one of the bitfield;
`Bitfield::f` is one of the bitfield. -/
def Ctx.resolves (cx : Ctx) (byName : Bool) (f : Tag) : Bool :=
  match f with
  | .builderFn _ => cx.builder && !byName
  | _ => byName || !cx.builder

/-- `this.0` or `self.this.0` is available. -/
def Ctx.hasInner (cx : Ctx) (self : Bool) (env : Env) : Bool :=
  if self then cx.builder else env.this

/-- A `while` loop. -/
def loopN : Nat → (Env → E (V × Env)) → (Env → E Flow) → Env → E Flow
  | 0, _, _, _ => .error .outOfFuel
  | n + 1, cond, body, env => do
    let (c, env) ← cond env
    match c with
    | .bool true =>
      match ← body env with
      | .next env' => loopN n cond body (env.leave env')
      | .ret v env' => return .ret v env'
    | .bool false => return .next env
    | _ => .error .illTyped

/-- The new value of a place after `= e` or `op= e`. -/
def assignOp (m : Mode) (op : Option BinOp) (old new : V) : E V :=
  match op with
  | none => .ok new
  | some op => binV m op old new

/-- Entering a default expression of the user: integers have a type of their own. -/
def userV (t : DataType) : Val → E V
  | .int n => .ok (.any n)
  | .bool b => .ok (.bool b)
  | .arr bs => .ok (.arr bs)
  | .custom code =>
    match t with
    | .custom c => .ok (.obj c code)
    | _ => .error .illTyped

/-- The type an operand of `op` is expected to have, given what is expected of the result. -/
def operandTy (op : BinOp) (exp : Option Ty) : Option Ty :=
  match op with
  | .eq | .ne | .lt | .gt | .ge => none
  | _ => exp

/-- The type expected of the right operand. -/
def rightTy (op : BinOp) (left : V) : Option Ty :=
  match op with
  | .shl | .shr => none
  | _ => left.ty

mutual

/-- The value of an expression; `exp` is the type its context expects. -/
def eval (cx : Ctx) : Expr → Option Ty → Env → E (V × Env)
  | .var x, _, env =>
    match look x env.locals with
    | some v => .ok (v, env)
    | none => .error .illTyped
  | .inner self, _, env =>
    if cx.hasInner self env then .ok (innerV cx.boxed env.cell, env) else .error .illTyped
  | .whole self, _, env =>
    if cx.hasInner self env then .ok (.self env.cell, env) else .error .illTyped
  | .lit n suffix, exp, env => do
    let v ← litV n ((suffix.or exp).getD (.i 32))
    return (v, env)
  | .bool b, _, env => .ok (.bool b, env)
  | .user _ t v, _, env => do
    let v ← userV t v
    return (v, env)
  | .const byName a field, _, env =>
    if byName || !cx.builder then
      match cx.const a field with
      | some n => .ok (.u 32 n, env)
      | none => .error .illTyped
    else .error .illTyped
  | .maxOf w, _, env => .ok (.u w (Bf.maxOf w).toNat, env)
  | .bitsOf w, _, env => .ok (.u 32 w, env)
  | .not e, exp, env => do
    let (v, env) ← eval cx e exp env
    return (← notV v, env)
  | .neg e, exp, env => do
    let (v, env) ← eval cx e exp env
    return (← negV cx.mode v, env)
  | .bin op a b, exp, env => do
    let (x, env) ← eval cx a (operandTy op exp) env
    let (y, env) ← eval cx b (rightTy op x) env
    return (← binV cx.mode op x y, env)
  | .orElse a b, _, env => do
    let (x, env) ← eval cx a (some .bool) env
    match x with
    | .bool true => return (.bool true, env)
    | .bool false => eval cx b (some .bool) env
    | _ => .error .illTyped
  | .andAlso a b, _, env => do
    let (x, env) ← eval cx a (some .bool) env
    match x with
    | .bool true => eval cx b (some .bool) env
    | .bool false => return (.bool false, env)
    | _ => .error .illTyped
  | .cast e t, _, env => do
    let (v, env) ← eval cx e (some t) env
    return (← castV v t, env)
  | .castInfer e, exp, env => do
    let (v, env) ← eval cx e none env
    match exp with
    | some t => return (← castV v t, env)
    | none => .error .illTyped
  | .index a i, _, env => do
    let (x, env) ← eval cx a none env
    let (k, env) ← eval cx i (some .usize) env
    return (← indexV x k, env)
  | .deref e, _, env => do
    let (v, env) ← eval cx e none env
    return (← derefV v, env)
  | .boxNew e, exp, env => do
    let (v, env) ← eval cx e exp env
    return (← boxV v, env)
  | .zeros n, _, env => .ok (.arr (List.replicate n 0#8), env)
  | .bytes bs, _, env => .ok (.arr bs, env)
  | .ite c a b, exp, env => do
    let (x, env) ← eval cx c (some .bool) env
    match x with
    | .bool true => eval cx a exp env
    | .bool false => eval cx b exp env
    | _ => .error .illTyped
  | .block s e, exp, env => do
    match ← exec cx s env with
    | .next env' =>
      let (v, env') ← eval cx e exp env'
      return (v, env.leave env')
    | .ret _ _ => .error .illTyped  -- generated blocks do not return from inside an expression
  | .fromBits c e, _, env => do
    let (v, env) ← eval cx e none env
    match v.num with
    | some n =>
      let code ← userCall (c.fromBits n.toNat)
      return (.obj c code, env)
    | none => .error .illTyped
  | .intoBits e, _, env => do
    let (v, env) ← eval cx e none env
    match v with
    | .obj c code => return (.any (c.intoBits code), env)
    | _ => .error .illTyped
  | .swapBytes e, exp, env => do
    let (v, env) ← eval cx e exp env
    match v with
    | .u w n => return (.u w (Bf.swapBytes (BitVec.ofNat w n)).toNat, env)
    | _ => .error .illTyped
  | .len e, _, env => do
    let (v, env) ← eval cx e none env
    match v with
    | .arr bs | .box bs => return (.usize bs.length, env)
    | _ => .error .illTyped
  | .contains lo hi e, _, env => do
    let (v, env) ← eval cx e none env
    match v with
    | .u 32 n => return (.bool (decide (lo ≤ n) && decide (n < hi)), env)
    | _ => .error .illTyped
  | .method self f e, _, env =>
    if cx.hasInner self env then
      match cx.method f with
      | some (t, run) => do
        let (v, env) ← eval cx e (some t) env
        let v ← coerce v t
        let (r, cell) ← run v env.cell
        return (r, { env with cell := cell })
      | none => .error .illTyped
    else .error .illTyped
  | .assoc byName f, _, env =>
    if cx.resolves byName f then
      match cx.assoc f with
      | some run => do return (← run, env)
      | none => .error .illTyped
    else .error .illTyped
  | .unit, _, env => .ok (.unit, env)
  | .okE e, exp, env => do
    let t := match exp with
      | some (.result t) => some t
      | _ => none
    let (v, env) ← eval cx e t env
    return (.ok v, env)
  | .errE msg, _, env => .ok (.err msg, env)

/-- Running a statement. -/
def exec (cx : Ctx) : Stmt → Env → E Flow
  | .skip, env => .ok (.next env)
  | .seq a b, env => do
    match ← exec cx a env with
    | .next env => exec cx b env
    | .ret v env => return .ret v env
  | .letS x t e _, env => do
    let (v, env) ← eval cx e t env
    let v ← match t with
      | some t => coerce v t
      | none => .ok v
    return .next { env with locals := (x, v) :: env.locals }
  | .letThis, env =>
    if cx.builder then .error .illTyped else .ok (.next { env with this := true })
  | .initThis byName e _, env => do
    if byName || !cx.builder then
      let (v, env) ← eval cx e (some (storeTy env.cell)) env
      let s ← storeAs cx.boxed env.cell v
      return .next { env with this := true, cell := s }
    else .error .illTyped
  | .moveThis x, env =>
    match look x env.locals with
    | some (.self s) => .ok (.next { env with this := true, cell := s })
    | _ => .error .illTyped
  | .assign x op e, env =>
    match look x env.locals with
    | some old => do
      let (v, env) ← eval cx e old.ty env
      let new ← assignOp cx.mode op old v
      return .next { env with locals := update x new env.locals }
    | none => .error .illTyped
  | .assignInner self op e, env =>
    if cx.hasInner self env then do
      let old := innerV cx.boxed env.cell
      let (v, env) ← eval cx e (some (storeTy env.cell)) env
      let new ← assignOp cx.mode op old v
      return .next { env with cell := ← storeAs cx.boxed env.cell new }
    else .error .illTyped
  | .assignElem x i op e, env =>
    match look x env.locals with
    | some (.arr _) => do
      let (v, env) ← eval cx e (some (.u 8)) env
      let (k, env) ← eval cx i (some .usize) env
      match look x env.locals with
      | some (.arr bs) =>
        let old ← indexV (.arr bs) k
        let new ← assignOp cx.mode op old v
        let bs ← setIndex bs k new
        return .next { env with locals := update x (.arr bs) env.locals }
      | _ => .error .illTyped
    | _ => .error .illTyped
  | .assignInnerElem self i op e, env =>
    if cx.hasInner self env then do
      let (v, env) ← eval cx e (some (.u 8)) env
      let (k, env) ← eval cx i (some .usize) env
      match env.cell with
      | .arr bs =>
        let old ← indexV (.arr bs) k
        let new ← assignOp cx.mode op old v
        let bs ← setIndex bs k new
        return .next { env with cell := .arr bs }
      | .int _ _ => .error .illTyped
    else .error .illTyped
  | .expr e, env => do
    let (_, env) ← eval cx e none env
    return .next env
  | .ite c a b, env => do
    let (x, env) ← eval cx c (some .bool) env
    let r ← match x with
      | .bool true => exec cx a env
      | .bool false => exec cx b env
      | _ => .error .illTyped
    match r with
    | .next env' => return .next (env.leave env')
    | .ret v env' => return .ret v env'
  | .loop c body, env => loopN cx.fuel (eval cx c (some .bool)) (exec cx body) env
  | .ret e, env => do
    let (v, env) ← eval cx e (some cx.ret) env
    return .ret v env
  | .scope s, env => do
    match ← exec cx s env with
    | .next env' => return .next (env.leave env')
    | .ret v env' => return .ret v env'
  | .tryS e, env => do
    let (v, env) ← eval cx e none env
    match v with
    | .ok .unit => return .next env
    | .err msg => return .ret (.err msg) env
    | _ => .error .illTyped
  | .debugField name e, env => do
    let (v, env) ← eval cx e none env
    return .next { env with shown := env.shown ++ [(name, v)] }

end

/-! ## Functions -/

/-- A generated function. -/
structure Fn where
  /-- it is a function of the builder -/
  builder : Bool
  params : List (String × Ty)
  ret : Ty
  body : Stmt
  /-- the expression at the end of the body -/
  tail : Expr

/-- Binding arguments to parameters. -/
def bindArgs : List (String × Ty) → List V → E (List (String × V))
  | [], [] => .ok []
  | (x, t) :: ps, v :: vs => do
    let v ← coerce v t
    let l ← bindArgs ps vs
    return (x, v) :: l
  | _, _ => .error .illTyped

/-- Running a function on arguments, with the bitfield value it works on (for a function that makes one, any
value of the right type). The result is the returned value and the final state. -/
def Fn.run (cx : Ctx) (f : Fn) (args : List V) (cell : Store) : E (V × Env) := do
  let cx := { cx with builder := f.builder, ret := f.ret }
  let locals ← bindArgs f.params args
  let env : Env := { locals := locals, this := false, cell := cell, shown := [] }
  match ← exec cx f.body env with
  | .next env' =>
    let (v, env') ← eval cx f.tail (some f.ret) env'
    return (← coerce v f.ret, env')
  | .ret v env' => return (← coerce v f.ret, env')

end Bf.Rust
