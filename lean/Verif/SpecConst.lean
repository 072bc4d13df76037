import Verif.Model.Quote

/-!
# What may occur in a `const fn`

Which of the emitted statements and expressions rustc accepts in the body of a `const fn`. Not accepted are calls of
trait methods and of functions that are not `const`: `contains` of a range (it compares with `PartialOrd`), the debug
formatter, `Box::new` (and with it every use of a `Box`), functions of trait implementations. A user's `from_bits`, `into_bits` and default expressions are
required to be `const` by the documentation (README, lib.rs), and are taken to be so.
-/

namespace Bf.Rust

/-- The item is defined in `impl Bitfield` or `impl BitfieldBuilder`, not in the implementation of a trait. -/
def inherent : Tag → Bool
  | .impl _ => false
  | _ => true

mutual

/-- The expression is allowed in a `const fn`. -/
def Expr.constOk : Expr → Bool
  | .contains _ _ _ | .boxNew _ | .deref _ => false
  | .method _ f e => inherent f && e.constOk
  | .assoc _ f => inherent f
  | .not e | .neg e | .cast e _ | .castInfer e | .fromBits _ e | .intoBits e | .swapBytes e | .len e | .okE e => e.constOk
  | .bin _ a b | .orElse a b | .andAlso a b | .index a b => a.constOk && b.constOk
  | .ite c a b => c.constOk && a.constOk && b.constOk
  | .block s e => s.constOk && e.constOk
  | .var _ | .inner _ | .whole _ | .lit _ _ | .bool _ | .user _ _ _ | .const _ _ _ | .maxOf _ | .bitsOf _ | .zeros _ | .bytes _
  | .unit | .errE _ => true

/-- The statement is allowed in a `const fn`. -/
def Stmt.constOk : Stmt → Bool
  | .debugField _ _ => false
  | .skip | .letThis | .moveThis _ => true
  | .seq a b => a.constOk && b.constOk
  | .letS _ _ e _ | .initThis _ e _ | .assign _ _ e | .assignInner _ _ e | .expr e | .ret e | .tryS e => e.constOk
  | .assignElem _ i _ e | .assignInnerElem _ i _ e => i.constOk && e.constOk
  | .ite c a b => c.constOk && a.constOk && b.constOk
  | .loop c s => c.constOk && s.constOk
  | .scope s => s.constOk

end

/-- The function may be a `const fn`. -/
def Fn.constOk (f : Fn) : Bool := f.body.constOk && f.tail.constOk

end Bf.Rust
