import Verif.SpecBorrow
import Verif.Lemmas.MutFns

/-!
# What the emitted code borrows
-/

namespace Bf.Text

open Rust Quote

variable {C : Style} {T : String → Bool}

/-- The variables of which it matters where they are used. -/
def lent : List String := ["this", "self", "f", "debug"]

mutual

/-- The expression may use `x`. -/
def touchE (C : Style) (x : String) : Expr → Bool
  | .var y => decide (y = x)
  | .inner b | .whole b => decide (rootName b = x)
  | .user k _ _ => exprUses x (C.user k)
  | .lit .. | .bool _ | .const .. | .maxOf _ | .bitsOf _ | .zeros _ | .bytes _ | .assoc .. | .unit | .errE _ => false
  | .not e | .neg e | .cast e _ | .castInfer e | .deref e | .boxNew e | .fromBits _ e | .intoBits e | .swapBytes e
  | .len e | .contains _ _ e | .okE e => touchE C x e
  | .bin _ a b | .orElse a b | .andAlso a b | .index a b => touchE C x a || touchE C x b
  | .ite c a b => touchE C x c || touchE C x a || touchE C x b
  | .block s e => touchS C x s || touchE C x e
  | .method .. => true

/-- The statement may use `x`. -/
def touchS (C : Style) (x : String) : Stmt → Bool
  | .skip => false
  | .seq a b => touchS C x a || touchS C x b
  | .letS _ _ e _ | .ret e | .expr e => touchE C x e
  | .letThis => decide ("self" = x)
  | .moveThis y => decide (y = x)
  | .assign y _ e => decide (y = x) || touchE C x e
  | .assignElem y i _ e => decide (y = x) || touchE C x i || touchE C x e
  | .assignInner b _ e => decide (rootName b = x) || touchE C x e
  | .assignInnerElem b i _ e => decide (rootName b = x) || touchE C x i || touchE C x e
  | .ite c a b => touchE C x c || touchS C x a || touchS C x b
  | .loop c s => touchE C x c || touchS C x s
  | .scope s => touchS C x s
  | .debugField _ e => decide ("debug" = x) || touchE C x e
  | .initThis .. | .tryS _ => true

end

/-- What a `let` may keep. -/
def boundE (T : String → Bool) (C : Style) : Expr → Bool
  | .method .. | .contains .. => false
  | .swapBytes (.var x) | .len (.var x) => !lent.contains x
  | .swapBytes (.inner _) => true
  | .swapBytes _ | .len _ => false
  | .user k _ _ => keepable T [] (C.user k) && (match C.user k with
    | .method .. => false
    | _ => true)
  | _ => true

mutual

/-- The expression obeys the rule. -/
def lendE (T : String → Bool) (C : Style) : Expr → Bool
  | .user k _ _ => exprLend T (C.user k)
  | .var _ | .inner _ | .whole _ | .lit .. | .bool _ | .const .. | .maxOf _ | .bitsOf _ | .zeros _ | .bytes _ | .assoc ..
  | .unit | .errE _ => true
  | .not e | .neg e | .cast e _ | .castInfer e | .deref e | .boxNew e | .fromBits _ e | .intoBits e | .swapBytes e
  | .len e | .contains _ _ e | .okE e => lendE T C e
  | .bin _ a b | .orElse a b | .andAlso a b | .index a b => lendE T C a && lendE T C b
  | .ite c a b => lendE T C c && lendE T C a && lendE T C b
  | .block s e => lendS T C s && lendE T C e
  | .method b _ e => lendE T C e && !touchE C (rootName b) e

/-- The statement obeys the rule. -/
def lendS (T : String → Bool) (C : Style) : Stmt → Bool
  | .skip | .letThis | .moveThis _ => true
  | .seq a b => lendS T C a && lendS T C b
  | .letS _ _ e _ => lendE T C e && boundE T C e
  | .initThis _ e _ => lendE T C e && fieldsLend T C.ignored
  | .ret e | .expr e | .tryS e | .assign _ _ e | .assignInner _ _ e => lendE T C e
  | .assignElem _ i _ e | .assignInnerElem _ i _ e => lendE T C i && lendE T C e
  | .ite c a b => lendE T C c && lendS T C a && lendS T C b
  | .loop c s => lendE T C c && lendS T C s
  | .scope s => lendS T C s
  | .debugField _ e => lendE T C e && !touchE C "debug" e

end

theorem stmtsUse_append (x : String) (a b : List SStmt) : stmtsUse x (a ++ b) = (stmtsUse x a || stmtsUse x b) := by
  induction a with
  | nil => simp [stmtsUse]
  | cons s ss ih => cases s <;> simp [stmtsUse, ih, Bool.or_assoc]

theorem exprsUse_bytes (x : String) (bs : List (BitVec 8)) : exprsUse x (bs.map fun b => .int b.toNat "u8") = false := by
  induction bs with
  | nil => rfl
  | cons b bs ih => simp [exprsUse, exprUses, ih]

theorem exprsLend_bytes (bs : List (BitVec 8)) : exprsLend T (bs.map fun b => .int b.toNat "u8") = true := by
  induction bs with
  | nil => rfl
  | cons b bs ih => simp [exprsLend, exprLend, ih]

theorem thisSyn_uses (x : String) (b : Bool) : exprUses x (thisSyn b) = decide (rootName b = x) := by
  cases b <;> rfl

theorem innerSyn_uses (x : String) (b : Bool) : exprUses x (innerSyn C b) = decide (rootName b = x) := by
  unfold innerSyn
  split <;> simp [exprUses, thisSyn_uses]

theorem thisSyn_lend (b : Bool) : exprLend T (thisSyn b) = true := by cases b <;> rfl

theorem innerSyn_lend (b : Bool) : exprLend T (innerSyn C b) = true := by
  unfold innerSyn
  split <;> simp [exprLend, thisSyn_lend]

theorem fromBits_syn_lend (c : Codec) (e : Expr) :
    ∃ a, exprSyn C (.fromBits c e) = .call (.path [.custom c, .name "from_bits"]) [a] ∧
      (a = exprSyn C e ∨ a = .cast (exprSyn C e) (namesTy ["_"])) := by
  by_cases h : ∃ n t, e = .lit n t
  · obtain ⟨n, t, rfl⟩ := h
    exact ⟨_, by rw [exprSyn], .inl rfl⟩
  · refine ⟨_, ?_, .inr rfl⟩
    rw [exprSyn]
    exact fun n t h1 => h ⟨n, t, h1⟩

theorem lent_ne {x : String} (h : x ∈ lent) : x ≠ "true" ∧ x ≠ "false" ∧ x ≠ "Ok" ∧ x ≠ "Err" := by
  simp only [lent, List.mem_cons, List.not_mem_nil, or_false] at h
  rcases h with rfl | rfl | rfl | rfl <;> decide

mutual

theorem uses_of {x : String} (hx : x ∈ lent) : ∀ e, touchE C x e = false → exprUses x (exprSyn C e) = false
  | .var y, h => by simpa [touchE, exprSyn, names, exprUses] using h
  | .inner b, h => by rw [exprSyn, innerSyn_uses]; exact h
  | .whole b, h => by cases b <;> simpa [touchE, exprSyn, names, exprUses, rootName] using h
  | .lit _ none, _ => rfl
  | .lit _ (some _), _ => rfl
  | .bool b, _ => by
    obtain ⟨h1, h2, -⟩ := lent_ne hx
    cases b <;> simp [exprSyn, names, exprUses, h1.symm, h2.symm]
  | .user k _ _, h => h
  | .const .., _ => rfl
  | .maxOf _, _ => rfl
  | .bitsOf _, _ => rfl
  | .zeros _, _ => rfl
  | .bytes bs, _ => by rw [exprSyn, exprUses]; exact exprsUse_bytes x bs
  | .assoc .., _ => rfl
  | .unit, _ => rfl
  | .errE _, _ => by
    obtain ⟨-, -, -, h1⟩ := lent_ne hx
    simp [exprSyn, names, exprUses, exprsUse, h1.symm]
  | .not e, h => uses_of hx e h
  | .neg e, h => uses_of hx e h
  | .cast e _, h => uses_of hx e h
  | .castInfer e, h => uses_of hx e h
  | .deref e, h => uses_of hx e h
  | .boxNew e, h => by
    have := uses_of hx e h
    simp [exprSyn, names, exprUses, exprsUse, this]
  | .fromBits c e, h => by
    have := uses_of hx e h
    obtain ⟨a, h1, rfl | rfl⟩ := fromBits_syn_lend (C := C) c e <;> simp [h1, exprUses, exprsUse, this]
  | .intoBits e, h => by simpa [exprSyn, exprUses, exprsUse] using uses_of hx e h
  | .swapBytes e, h => by simpa [exprSyn, exprUses, exprsUse] using uses_of hx e h
  | .len e, h => by simpa [exprSyn, exprUses, exprsUse] using uses_of hx e h
  | .contains _ _ e, h => by simpa [exprSyn, exprUses, exprsUse] using uses_of hx e h
  | .okE e, h => by
    obtain ⟨-, -, h1, -⟩ := lent_ne hx
    simpa [exprSyn, names, exprUses, exprsUse, h1.symm] using uses_of hx e h
  | .bin _ a b, h => by
    simp only [touchE, Bool.or_eq_false_iff] at h
    simp [exprSyn, exprUses, uses_of hx a h.1, uses_of hx b h.2]
  | .orElse a b, h => by
    simp only [touchE, Bool.or_eq_false_iff] at h
    simp [exprSyn, exprUses, uses_of hx a h.1, uses_of hx b h.2]
  | .andAlso a b, h => by
    simp only [touchE, Bool.or_eq_false_iff] at h
    simp [exprSyn, exprUses, uses_of hx a h.1, uses_of hx b h.2]
  | .index a b, h => by
    simp only [touchE, Bool.or_eq_false_iff] at h
    simp [exprSyn, exprUses, uses_of hx a h.1, uses_of hx b h.2]
  | .ite c a b, h => by
    simp only [touchE, Bool.or_eq_false_iff] at h
    simp [exprSyn, exprUses, stmtsUse, uses_of hx c h.1.1, uses_of hx a h.1.2, uses_of hx b h.2]
  | .block s e, h => by
    simp only [touchE, Bool.or_eq_false_iff] at h
    simp [exprSyn, exprUses, stmtsUse, stmtsUse_append, stmts_use_of hx s h.1, uses_of hx e h.2]
  | .method .., h => by simp [touchE] at h

theorem stmts_use_of {x : String} (hx : x ∈ lent) : ∀ s, touchS C x s = false → stmtsUse x (stmtSyn C s) = false
  | .skip, _ => rfl
  | .seq a b, h => by
    simp only [touchS, Bool.or_eq_false_iff] at h
    simp [stmtSyn, stmtsUse_append, stmts_use_of hx a h.1, stmts_use_of hx b h.2]
  | .letS y t e mu, h => by
    have h1 := uses_of hx e h
    cases t with
    | none => simp [stmtSyn, stmtsUse, h1]
    | some t =>
      by_cases hz : ∃ n k, t = .arr n ∧ e = .zeros k
      · obtain ⟨n, k, rfl, rfl⟩ := hz
        rfl
      · rw [stmtSyn]
        · simp [stmtsUse, h1]
        · intro n k h3 h4
          exact hz ⟨n, k, h4, h3⟩
  | .letThis, h => by simpa [touchS, stmtSyn, stmtsUse, names, exprUses] using h
  | .moveThis y, h => by simpa [touchS, stmtSyn, stmtsUse, names, exprUses] using h
  | .assign y _ e, h => by
    simp only [touchS, Bool.or_eq_false_iff] at h
    have := h.1
    simp only [decide_eq_false_iff_not] at this
    simp [stmtSyn, stmtsUse, names, exprUses, this, uses_of hx e h.2]
  | .assignElem y i _ e, h => by
    simp only [touchS, Bool.or_eq_false_iff, decide_eq_false_iff_not] at h
    simp [stmtSyn, stmtsUse, names, exprUses, h.1.1, uses_of hx i h.1.2, uses_of hx e h.2]
  | .assignInner b _ e, h => by
    simp only [touchS, Bool.or_eq_false_iff, decide_eq_false_iff_not] at h
    simp [stmtSyn, stmtsUse, innerSyn_uses, h.1, uses_of hx e h.2]
  | .assignInnerElem b i _ e, h => by
    simp only [touchS, Bool.or_eq_false_iff, decide_eq_false_iff_not] at h
    simp [stmtSyn, stmtsUse, exprUses, innerSyn_uses, h.1.1, uses_of hx i h.1.2, uses_of hx e h.2]
  | .expr e, h => by simp [stmtSyn, stmtsUse, uses_of hx e h]
  | .ite c a b, h => by
    simp only [touchS, Bool.or_eq_false_iff] at h
    have h1 := uses_of hx c h.1.1
    have h2 := stmts_use_of hx a h.1.2
    have h3 := stmts_use_of hx b h.2
    by_cases hs : b = .skip
    · subst hs
      simp [stmtSyn, stmtsUse, exprUses, h1, h2]
    · rw [show stmtSyn C (.ite c a b) = [.expr (.ite (exprSyn C c) (stmtSyn C a) (some (stmtSyn C b))) false] by
        rw [stmtSyn]; exact hs]
      simp [stmtsUse, exprUses, h1, h2, h3]
  | .loop c s, h => by
    simp only [touchS, Bool.or_eq_false_iff] at h
    simp [stmtSyn, stmtsUse, uses_of hx c h.1, stmts_use_of hx s h.2]
  | .ret e, h => by
    have := uses_of hx e h
    by_cases h1 : e = .unit
    · subst h1; rfl
    by_cases h2 : ∃ n, e = .zeros n
    · obtain ⟨n, rfl⟩ := h2; rfl
    rw [show stmtSyn C (.ret e) = [.expr (.ret (some (exprSyn C e))) true] by
      rw [stmtSyn]
      · exact h1
      · exact fun n h => h2 ⟨n, h⟩]
    simp [stmtsUse, exprUses, this]
  | .scope s, h => by simp [stmtSyn, stmtsUse, exprUses, stmts_use_of hx s h]
  | .debugField _ e, h => by
    simp only [touchS, Bool.or_eq_false_iff, decide_eq_false_iff_not] at h
    simp [stmtSyn, stmtsUse, exprUses, exprsUse, names, h.1, uses_of hx e h.2]
  | .initThis .., h => by simp [touchS] at h
  | .tryS _, h => by simp [touchS] at h

end

theorem rootName_lent (b : Bool) : rootName b ∈ lent := by cases b <;> decide

theorem thisSyn_unused {b : Bool} {args : List SExpr} (h : exprsUse (rootName b) args = false) :
    unusedIn (thisSyn b) args = true := by
  cases b <;> simpa [unusedIn, thisSyn, names, SExpr.root, rootName] using h

theorem argsLend_one {e : SExpr} (h : exprLend T e = true) : argsLend T [e] = true := by
  rw [argsLend]
  · simp [h, argsLend]
  · rintro e' rfl
    simp [exprLend] at h

theorem unusedIn_nil (e : SExpr) : unusedIn e [] = true := by
  unfold unusedIn
  split <;> rfl

/-- What `let` keeps. -/
theorem keepable_of {e : Expr} (h : boundE T C e = true) (ss : List SStmt) : keepable T ss (exprSyn C e) = true := by
  have key : ∀ (x : String) (m : String), lent.contains x = false → changes T (names [x]) m = false := by
    intro x m hx
    simp only [lent, List.contains_eq_mem, decide_eq_false_iff_not, List.mem_cons, List.not_mem_nil, or_false, not_or] at hx
    simp [changes, names, hx.1, hx.2.2.1, hx.2.2.2]
  cases e with
  | method | contains => simp [boundE] at h
  | user k t v =>
    simp only [boundE, Bool.and_eq_true] at h
    rw [exprSyn]
    generalize C.user k = e at h
    cases e <;> first | rfl | simp at h
  | swapBytes e =>
    cases e with
    | var x =>
      simp only [boundE, Bool.not_eq_true'] at h
      simp [exprSyn, keepable, key x _ h]
    | inner b =>
      have : changes T (innerSyn C b) "swap_bytes" = false := by
        unfold innerSyn
        cases b <;> split <;> simp [changes, thisSyn, names]
      simp [exprSyn, keepable, this]
    | _ => simp [boundE] at h
  | len e =>
    cases e with
    | var x =>
      simp only [boundE, Bool.not_eq_true'] at h
      simp [exprSyn, keepable, key x _ h]
    | _ => simp [boundE] at h
  | intoBits e => simp [exprSyn, keepable, changes]
  | inner b =>
    rw [exprSyn]
    unfold innerSyn
    split <;> rfl
  | lit n t => cases t <;> rfl
  | fromBits c e => cases e <;> rfl
  | _ => rfl

mutual

theorem lend_of : ∀ e, lendE T C e = true → exprLend T (exprSyn C e) = true
  | .var y, _ => rfl
  | .inner b, _ => by rw [exprSyn]; exact innerSyn_lend b
  | .whole b, _ => rfl
  | .lit _ none, _ => rfl
  | .lit _ (some _), _ => rfl
  | .bool b, _ => rfl
  | .user k _ _, h => h
  | .const .., _ => rfl
  | .maxOf _, _ => rfl
  | .bitsOf _, _ => rfl
  | .zeros _, _ => rfl
  | .bytes bs, _ => by rw [exprSyn, exprLend]; exact exprsLend_bytes bs
  | .assoc .., _ => rfl
  | .unit, _ => rfl
  | .errE _, _ => rfl
  | .not e, h => lend_of e h
  | .neg e, h => lend_of e h
  | .cast e _, h => lend_of e h
  | .castInfer e, h => lend_of e h
  | .deref e, h => lend_of e h
  | .boxNew e, h => by simp [exprSyn, names, exprLend, exprsLend, lend_of e h]
  | .fromBits c e, h => by
    have := lend_of e h
    obtain ⟨a, h1, rfl | rfl⟩ := fromBits_syn_lend (C := C) c e <;> simp [h1, exprLend, exprsLend, this]
  | .intoBits e, h => by simp [exprSyn, exprLend, argsLend, unusedIn_nil, lend_of e h]
  | .swapBytes e, h => by simp [exprSyn, exprLend, argsLend, unusedIn_nil, lend_of e h]
  | .len e, h => by simp [exprSyn, exprLend, argsLend, unusedIn_nil, lend_of e h]
  | .contains _ _ e, h => by simp [exprSyn, exprLend, argsLend, changes, lend_of e h]
  | .okE e, h => by simp [exprSyn, names, exprLend, exprsLend, lend_of e h]
  | .bin _ a b, h => by
    simp only [lendE, Bool.and_eq_true] at h
    simp [exprSyn, exprLend, lend_of a h.1, lend_of b h.2]
  | .orElse a b, h => by
    simp only [lendE, Bool.and_eq_true] at h
    simp [exprSyn, exprLend, lend_of a h.1, lend_of b h.2]
  | .andAlso a b, h => by
    simp only [lendE, Bool.and_eq_true] at h
    simp [exprSyn, exprLend, lend_of a h.1, lend_of b h.2]
  | .index a b, h => by
    simp only [lendE, Bool.and_eq_true] at h
    simp [exprSyn, exprLend, lend_of a h.1, lend_of b h.2]
  | .ite c a b, h => by
    simp only [lendE, Bool.and_eq_true] at h
    simp [exprSyn, exprLend, stmtsLend, lend_of c h.1.1, lend_of a h.1.2, lend_of b h.2]
  | .block s e, h => by
    simp only [lendE, Bool.and_eq_true] at h
    rw [exprSyn, exprLend]
    exact stmts_lend_of s h.1 _ (by simp [stmtsLend, lend_of e h.2])
  | .method b t e, h => by
    simp only [lendE, Bool.and_eq_true, Bool.not_eq_true'] at h
    have h1 : exprsUse (rootName b) [exprSyn C e] = false := by
      simp [exprsUse, uses_of (rootName_lent b) e h.2]
    simp [exprSyn, exprLend, thisSyn_lend, argsLend_one (lend_of e h.1), thisSyn_unused h1]

theorem stmts_lend_of : ∀ s, lendS T C s = true → ∀ rest, stmtsLend T rest = true →
    stmtsLend T (stmtSyn C s ++ rest) = true
  | .skip, _, _, hr => hr
  | .seq a b, h, rest, hr => by
    simp only [lendS, Bool.and_eq_true] at h
    rw [stmtSyn, List.append_assoc]
    exact stmts_lend_of a h.1 _ (stmts_lend_of b h.2 _ hr)
  | .letS y t e mu, h, rest, hr => by
    simp only [lendS, Bool.and_eq_true] at h
    have h1 := lend_of e h.1
    have h2 := keepable_of h.2 rest
    cases t with
    | none => simp [stmtSyn, stmtsLend, h1, h2, hr]
    | some t =>
      by_cases hz : ∃ n k, t = .arr n ∧ e = .zeros k
      · obtain ⟨n, k, rfl, rfl⟩ := hz
        simp [stmtSyn, stmtsLend, exprLend, keepable, hr]
      · rw [stmtSyn]
        · simp [stmtsLend, h1, h2, hr]
        · intro n k h3 h4
          exact hz ⟨n, k, h4, h3⟩
  | .letThis, _, rest, hr => by simp [stmtSyn, stmtsLend, names, exprLend, keepable, hr]
  | .moveThis y, _, rest, hr => by simp [stmtSyn, stmtsLend, names, exprLend, keepable, hr]
  | .initThis b e mu, h, rest, hr => by
    simp only [lendS, Bool.and_eq_true] at h
    have h1 := lend_of e h.1
    have h2 := h.2
    rw [stmtSyn]
    cases hg : C.ignored with
    | nil => simp [stmtsLend, exprLend, exprsLend, names, keepable, h1, hr]
    | cons i is =>
      obtain ⟨y, i⟩ := i
      rw [hg] at h2
      simp only [fieldsLend, Bool.and_eq_true] at h2
      simp [stmtsLend, exprLend, fieldsLend, keepable, h1, h2, hr]
  | .assign y _ e, h, rest, hr => by simp [stmtSyn, stmtsLend, names, exprLend, lend_of e h, hr]
  | .assignElem y i _ e, h, rest, hr => by
    simp only [lendS, Bool.and_eq_true] at h
    simp [stmtSyn, stmtsLend, names, exprLend, lend_of i h.1, lend_of e h.2, hr]
  | .assignInner b _ e, h, rest, hr => by simp [stmtSyn, stmtsLend, innerSyn_lend, lend_of e h, hr]
  | .assignInnerElem b i _ e, h, rest, hr => by
    simp only [lendS, Bool.and_eq_true] at h
    simp [stmtSyn, stmtsLend, exprLend, innerSyn_lend, lend_of i h.1, lend_of e h.2, hr]
  | .expr e, h, rest, hr => by simp [stmtSyn, stmtsLend, lend_of e h, hr]
  | .ite c a b, h, rest, hr => by
    simp only [lendS, Bool.and_eq_true] at h
    have h1 := lend_of c h.1.1
    have h2 := stmts_lend_of a h.1.2 [] rfl
    have h3 := stmts_lend_of b h.2 [] rfl
    rw [List.append_nil] at h2 h3
    by_cases hs : b = .skip
    · subst hs
      simp [stmtSyn, stmtsLend, exprLend, h1, h2, hr]
    · rw [show stmtSyn C (.ite c a b) = [.expr (.ite (exprSyn C c) (stmtSyn C a) (some (stmtSyn C b))) false] by
        rw [stmtSyn]; exact hs]
      simp [stmtsLend, exprLend, h1, h2, h3, hr]
  | .loop c s, h, rest, hr => by
    simp only [lendS, Bool.and_eq_true] at h
    have h2 := stmts_lend_of s h.2 [] rfl
    rw [List.append_nil] at h2
    simp [stmtSyn, stmtsLend, lend_of c h.1, h2, hr]
  | .ret e, h, rest, hr => by
    have := lend_of e h
    by_cases h1 : e = .unit
    · subst h1; simp [stmtSyn, stmtsLend, exprLend, hr]
    by_cases h2 : ∃ n, e = .zeros n
    · obtain ⟨n, rfl⟩ := h2; simp [stmtSyn, stmtsLend, exprLend, hr]
    rw [show stmtSyn C (.ret e) = [.expr (.ret (some (exprSyn C e))) true] by
      rw [stmtSyn]
      · exact h1
      · exact fun n h => h2 ⟨n, h⟩]
    simp [stmtsLend, exprLend, this, hr]
  | .scope s, h, rest, hr => by
    have h2 := stmts_lend_of s h [] rfl
    rw [List.append_nil] at h2
    simp [stmtSyn, stmtsLend, exprLend, h2, hr]
  | .debugField _ e, h, rest, hr => by
    simp only [lendS, Bool.and_eq_true, Bool.not_eq_true'] at h
    have h2 := uses_of (x := "debug") (by decide) e h.2
    simp [stmtSyn, stmtsLend, exprLend, argsLend, names, unusedIn, SExpr.root, exprsUse, exprUses, lend_of e h.1, h2, hr]
  | .tryS e, h, rest, hr => by
    simp [stmtSyn, stmtsLend, exprLend, armsLend, exprsLend, names, lend_of e h, hr]

end

end Bf.Text
