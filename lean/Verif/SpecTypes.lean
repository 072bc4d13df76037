import Verif.Model.Quote
import Verif.SpecRun

/-!
# The static types of the emitted code

Which statements and expressions rustc accepts: every name is declared, every operand, argument, assigned and returned
value has the type that is required at its place. An unsuffixed literal takes the type its context asks for, otherwise `i32`.
(The types of the user are not told apart, and references are not distinguished from the values they point to. `SpecMut.lean`
looks at `mut`.)
-/

namespace Bf.Rust

/-- Static types. -/
inductive STy where
  | ty (t : Ty)
  /-- `Box<[u8; n]>` -/
  | box (n : Nat)
  /-- an integer type of the user's choice: what `into_bits` of a user's type returns -/
  | userInt
deriving DecidableEq, Repr

/-- Integer types. -/
def Ty.isInt : Ty → Bool
  | .u _ | .i _ | .usize => true
  | _ => false

/-- Types of which a value can be cast with `as`. -/
def STy.castable : STy → Bool
  | .ty t => t.isInt || t == .bool
  | .box _ => false
  | .userInt => true

/-- The type, if it is not one of the user's choice and not a `Box`. -/
def STy.ty? : STy → Option Ty
  | .ty t => some t
  | _ => none

/-- The type of `a[i]`, where `a` has this type. -/
def STy.indexable : STy → Bool
  | .ty (.arr _) | .ty .slice | .box _ => true
  | _ => false

/-- What is declared outside a function. -/
structure Sig where
  /-- the type of the stored value -/
  inner : STy
  /-- the function belongs to the builder -/
  builder : Bool
  /-- the return type -/
  ret : Ty
  /-- the type of the user's default expression for the field at an offset, where a type is expected -/
  user : Nat → Option Ty → Option STy
  /-- the constants that exist -/
  const : Accessor → String → Bool
  /-- parameter and result of methods with one parameter -/
  method : Tag → Option (Ty × Ty)
  /-- result of functions without parameters -/
  assoc : Tag → Option Ty

/-- What is declared inside a function. -/
structure Names where
  vars : List (String × STy)
  /-- `this` is declared -/
  this : Bool
deriving DecidableEq

/-- The latest variable called `x`. -/
def findVar (x : String) : List (String × STy) → Option STy
  | [] => none
  | (y, t) :: l => if y = x then some t else findVar x l

/-- `this` (with `self`: `self.this`) is available. -/
def Sig.hasInner (S : Sig) (self : Bool) (N : Names) : Bool := if self then S.builder else N.this

/-- `Self::f` or, with `byName`, `Bitfield::f` is a function of that name. -/
def Sig.resolves (S : Sig) (byName : Bool) (f : Tag) : Bool :=
  match f with
  | .builderFn _ => S.builder && !byName
  | _ => byName || !S.builder

/-- The type that the stored value is expected to have (a literal in it does not know of a `Box`). -/
def Sig.expected (S : Sig) : Ty :=
  match S.inner with
  | .ty t => t
  | .box n => .arr n
  | .userInt => .unit

/-- `a op b` -/
def binTy (op : BinOp) (a b : STy) : Option STy :=
  match op with
  | .and | .or | .xor => if a = b && a.castable && a != .userInt then some a else none
  | .add | .sub | .mul | .div | .rem => if a = b && a.castable && a != .userInt && a != .ty .bool then some a else none
  | .shl | .shr =>
    if a.castable && a != .userInt && a != .ty .bool && b.castable && b != .userInt && b != .ty .bool then some a else none
  | .eq | .ne | .lt | .gt | .ge => if a = b && a.castable && a != .userInt then some (.ty .bool) else none

/-- The type expected of the right operand. -/
def rightSTy (op : BinOp) (left : STy) : Option Ty :=
  match op with
  | .shl | .shr => none
  | _ => left.ty?

mutual

/-- The type of an expression where `exp` is expected, if it has one. -/
def Expr.typ (S : Sig) : Expr → Option Ty → Names → Option STy
  | .var x, _, N => findVar x N.vars
  | .inner self, _, N => if S.hasInner self N then some S.inner else none
  | .whole self, _, N => if S.hasInner self N then some (.ty .self) else none
  | .lit _ suffix, exp, _ =>
    if ((suffix.or exp).getD (.i 32)).isInt then some (.ty ((suffix.or exp).getD (.i 32))) else none
  | .bool _, _, _ => some (.ty .bool)
  | .user o _ _, exp, _ => S.user o exp
  | .const byName a field, _, _ => if (byName || !S.builder) && S.const a field then some (.ty (.u 32)) else none
  | .maxOf w, _, _ => some (.ty (.u w))
  | .bitsOf _, _, _ => some (.ty (.u 32))
  | .not e, exp, N =>
    match e.typ S exp N with
    | some (.ty t) => if t.isInt || t == .bool then some (.ty t) else none
    | _ => none
  | .neg e, exp, N =>
    match e.typ S exp N with
    | some (.ty (.i w)) => some (.ty (.i w))
    | _ => none
  | .bin op a b, exp, N =>
    match a.typ S (operandTy op exp) N with
    | some x =>
      match b.typ S (rightSTy op x) N with
      | some y => binTy op x y
      | none => none
    | none => none
  | .orElse a b, _, N | .andAlso a b, _, N =>
    if a.typ S (some .bool) N = some (.ty .bool) && b.typ S (some .bool) N = some (.ty .bool) then some (.ty .bool) else none
  | .cast e t, _, N =>
    match e.typ S (some t) N with
    | some x => if x.castable && t.isInt then some (.ty t) else none
    | none => none
  | .castInfer e, exp, N =>
    match e.typ S none N, exp with
    | some x, some t => if x.castable && t.isInt then some (.ty t) else none
    | _, _ => none
  | .index a i, _, N =>
    match a.typ S none N with
    | some x => if x.indexable && i.typ S (some .usize) N = some (.ty .usize) then some (.ty (.u 8)) else none
    | none => none
  | .deref e, _, N =>
    match e.typ S none N with
    | some (.box n) => some (.ty (.arr n))
    | _ => none
  | .boxNew e, exp, N =>
    match e.typ S exp N with
    | some (.ty (.arr n)) => some (.box n)
    | _ => none
  | .zeros n, _, _ => some (.ty (.arr n))
  | .bytes bs, _, _ => some (.ty (.arr bs.length))
  | .ite c a b, exp, N =>
    if c.typ S (some .bool) N = some (.ty .bool) && a.typ S exp N = b.typ S exp N then a.typ S exp N else none
  | .block s e, exp, N =>
    match s.typ S N with
    | some N' => e.typ S exp N'
    | none => none
  | .fromBits _ e, _, N =>
    match e.typ S none N with
    | some x => if x.castable then some (.ty .obj) else none
    | none => none
  | .intoBits e, _, N => if e.typ S none N = some (.ty .obj) then some .userInt else none
  | .swapBytes e, exp, N =>
    match e.typ S exp N with
    | some (.ty (.u w)) => some (.ty (.u w))
    | _ => none
  | .len e, _, N =>
    match e.typ S none N with
    | some x => if x.indexable then some (.ty .usize) else none
    | none => none
  | .contains _ _ e, _, N => if e.typ S none N = some (.ty (.u 32)) then some (.ty .bool) else none
  | .method self f e, _, N =>
    match S.method f with
    | some (t, r) => if S.hasInner self N && e.typ S (some t) N = some (.ty t) then some (.ty r) else none
    | none => none
  | .assoc byName f, _, _ => if S.resolves byName f then (S.assoc f).map .ty else none
  | .unit, _, _ => some (.ty .unit)
  | .okE e, exp, N =>
    match exp with
    | some (.result t) => if e.typ S (some t) N = some (.ty t) then some (.ty (.result t)) else none
    | _ => none
  | .errE _, exp, _ =>
    match exp with
    | some (.result t) => some (.ty (.result t))
    | _ => none

/-- What is declared after a statement, if it is accepted. -/
def Stmt.typ (S : Sig) : Stmt → Names → Option Names
  | .skip, N => some N
  | .seq a b, N =>
    match a.typ S N with
    | some N' => b.typ S N'
    | none => none
  | .letS x t e _, N =>
    match e.typ S t N with
    | some y =>
      match t with
      | some t => if y = .ty t then some { N with vars := (x, y) :: N.vars } else none
      | none => some { N with vars := (x, y) :: N.vars }
    | none => none
  | .letThis, N => if S.builder then none else some { N with this := true }
  | .initThis byName e _, N =>
    if (byName || !S.builder) && e.typ S (some S.expected) N = some S.inner then some { N with this := true } else none
  | .moveThis x, N => if findVar x N.vars = some (.ty .self) then some { N with this := true } else none
  | .assign x op e, N =>
    match findVar x N.vars with
    | some t =>
      match e.typ S t.ty? N with
      | some y => if (match op with | none => some y | some op => binTy op t y) = some t then some N else none
      | none => none
    | none => none
  | .assignInner self op e, N =>
    match e.typ S (some S.expected) N with
    | some y =>
      if S.hasInner self N && (match op with | none => some y | some op => binTy op S.inner y) = some S.inner then some N else none
    | none => none
  | .assignElem x i op e, N =>
    match findVar x N.vars, e.typ S (some (.u 8)) N with
    | some a, some y =>
      if a.indexable && i.typ S (some .usize) N = some (.ty .usize) &&
        (match op with | none => some y | some op => binTy op (.ty (.u 8)) y) = some (.ty (.u 8)) then some N else none
    | _, _ => none
  | .assignInnerElem self i op e, N =>
    match e.typ S (some (.u 8)) N with
    | some y =>
      if S.hasInner self N && S.inner.indexable && i.typ S (some .usize) N = some (.ty .usize) &&
        (match op with | none => some y | some op => binTy op (.ty (.u 8)) y) = some (.ty (.u 8)) then some N else none
    | none => none
  | .expr e, N => if (e.typ S none N).isSome then some N else none
  | .ite c a b, N =>
    if c.typ S (some .bool) N = some (.ty .bool) && (a.typ S N).isSome && (b.typ S N).isSome then some N else none
  | .loop c s, N => if c.typ S (some .bool) N = some (.ty .bool) && (s.typ S N).isSome then some N else none
  | .ret e, N => if e.typ S (some S.ret) N = some (.ty S.ret) then some N else none
  | .scope s, N => if (s.typ S N).isSome then some N else none
  | .tryS e, N =>
    match S.ret with
    | .result _ => if e.typ S none N = some (.ty (.result .unit)) then some N else none
    | _ => none
  | .debugField _ e, N =>
    match e.typ S none N with
    | some (.ty t) => if t.isInt || t == .bool || (STy.ty t).indexable then some N else none
    | _ => none

end

/-- The function is well typed. -/
def Fn.typed (S : Sig) (f : Fn) : Bool :=
  let S := { S with builder := f.builder, ret := f.ret }
  match f.body.typ S { vars := f.params.map fun x => (x.1, .ty x.2), this := false } with
  | some N => f.tail.typ S (some f.ret) N = some (.ty f.ret)
  | none => false

end Bf.Rust

namespace Bf.Quote

open Rust

/-- The type of the stored value, features/bitfield_struct_feature.rs:99-114 -/
def innerTy (B : Bitfield) : STy :=
  match B.backing with
  | .int w => .ty (.u w)
  | .arr n => if B.heap then .box n else .ty (.arr n)

/-- What a program declares. -/
def Program.sig (P : Program) (inner : STy) (user : Nat → Option Ty → Option STy) : Sig where
  inner := inner
  builder := false
  ret := .unit
  user := user
  const := fun a field => (P.const a field).isSome
  method := fun t =>
    match P.fn t with
    | some f =>
      match f.builder, f.params with
      | false, [(_, ty)] => some (ty, f.ret)
      | _, _ => none
    | none => none
  assoc := fun t =>
    match P.fn t with
    | some f => if f.params.isEmpty then some f.ret else none
    | none => none

/-- An expression can be used as the value of a field of type `t`; `types` gives its type, depending on the type expected
of it. A field that has a setter is set by calling it: integers are cast to an inferred type before, and where the storage
is an integer an array is given as an integer. Of a field without setter the value is made a number of the storage type or,
if the storage is an array, a `u128`; an integer of an integer storage is not cast. -/
def Accepts (b : Backing) (t : DataType) (setter : Bool) (types : Option Ty → Option STy) : Prop :=
  match t, b, setter with
  | .int .bool, _, _ => types (some .bool) = some (.ty .bool)
  | .int _, _, true => ∃ x, types none = some x ∧ x.castable = true
  | .custom _, _, true => types (some .obj) = some (.ty .obj)
  | .custom _, _, false => types none = some (.ty .obj)
  | .array len, .arr _, true => types (some (.arr len)) = some (.ty (.arr len))
  | .array _, .arr _, false => ∃ x, types none = some x ∧ x.indexable = true
  | .array _, .int _, true => ∃ x, types (some (.u 128)) = some x ∧ x.castable = true
  | .array _, .int w, false => types (some (.u w)) = some (.ty (.u w))
  | .int _, .int w, false => types (some (.u w)) = some (.ty (.u w))
  | .int _, .arr _, false => ∃ x, types (some (.u 128)) = some x ∧ x.castable = true

end Bf.Quote

namespace Bf

open Rust

/-! ## Declarations -/

/-- The type as a static type. -/
def IntTy.static : IntTy → Ty
  | .bool => .bool
  | .u8 => .u 8 | .u16 => .u 16 | .u32 => .u 32 | .u64 => .u 64 | .u128 => .u 128
  | .i8 => .i 8 | .i16 => .i 16 | .i32 => .i 32 | .i64 => .i 64 | .i128 => .i 128

/-- The static type of the value that a bitfield of this storage type holds; `heap` is the argument `array_heap`. -/
def TypeSpec.held (heap : Bool) : TypeSpec → STy
  | .int t => .ty t.static
  | .bytes n => if heap then .box n else .ty (.arr n)
  | .custom _ _ => .ty .obj

/-- The type named by the suffix of a literal (`isize` is a type different from all others). -/
def suffixStatic (s : List Char) : Option STy :=
  if s = ['u', 's', 'i', 'z', 'e'] then some (.ty .usize)
  else if s = ['i', 's', 'i', 'z', 'e'] then some .userInt
  else (suffixType s).map fun t => .ty t.static

/-- The type of a literal where `exp` is expected: that of its suffix, else the expected one if it is an integer type, else
`i32` if nothing is expected. A literal of an unsigned type cannot be negated. -/
def IntLit.typ (l : IntLit) (exp : Option Ty) : Option STy :=
  match (suffixStatic l.suffix).getD (.ty (exp.getD (.i 32))) with
  | .ty (.i w) => some (.ty (.i w))
  | .ty (.u w) => if l.neg then none else some (.ty (.u w))
  | .ty .usize => if l.neg then none else some (.ty .usize)
  | .userInt => some .userInt
  | _ => none

/-- The type of a default where `exp` is expected; `types` gives the types of expressions that are not literals. -/
def DefaultSpec.typ (types : List Char → Option STy) : DefaultSpec → Option Ty → Option STy
  | .int l, exp => l.typ exp
  | .bool _, _ => some (.ty .bool)
  | .expr e, _ => types e

/-- `user` gives the types of the defaults of the struct: `types` gives those of expressions that are not literals. -/
def StructSpec.TypesDefaults (s : StructSpec) (order : Order) (types : List Char → Option STy)
    (user : Nat → Option Ty → Option STy) : Prop :=
  ∀ f o d v, s.At order f o → f.default? = some (d, v) → user o = d.typ types

/-- A default with the type `typ` (given the expected type) can be used for a field of type `t`.

A field that can be written is set by its setter: an integer is cast first, and in an integer storage a byte array is given as
an integer, which is cast. Of another field the default becomes a number of the storage type: in a byte array it is cast; in
an integer storage it is not cast and must have the storage type. -/
def TypeSpec.Suits (storage t : TypeSpec) (writable : Prop) (typ : Option Ty → Option STy) : Prop :=
  match t, storage with
  | .int .bool, _ => typ (some .bool) = some (.ty .bool)
  | .int _, .int u =>
    (writable → ∃ x, typ none = some x ∧ x.castable = true) ∧ (¬ writable → typ (some u.static) = some (.ty u.static))
  | .int _, _ =>
    (writable → ∃ x, typ none = some x ∧ x.castable = true) ∧
    (¬ writable → ∃ x, typ (some (.u 128)) = some x ∧ x.castable = true)
  | .bytes _, .int u =>
    (writable → ∃ x, typ (some (.u 128)) = some x ∧ x.castable = true) ∧
    (¬ writable → typ (some u.static) = some (.ty u.static))
  | .bytes len, _ =>
    (writable → typ (some (.arr len)) = some (.ty (.arr len))) ∧ (¬ writable → ∃ x, typ none = some x ∧ x.indexable = true)
  | .custom _ _, _ =>
    (writable → typ (some .obj) = some (.ty .obj)) ∧ (¬ writable → typ none = some (.ty .obj))

end Bf
