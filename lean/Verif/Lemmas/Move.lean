import Verif.SpecMove
import Verif.Lemmas.MutFns

/-! # What the emitted code gives away -/

namespace Bf.Text

open Rust Quote

variable {C : Style} {R : Facts} {N D S : List String} {ic : Bool} {U : Nat → Bool}

/-- A `Copy` value or a `&` reference. -/
def Free (k : Kind) : Prop := k = .copy ∨ k = .shared

instance (k : Kind) : Decidable (Free k) := inferInstanceAs (Decidable (_ ∨ _))

/-- Variables other than those in `D` are there; other than those in `N` they are `Copy`; those in `S` are in scope. -/
def Ok (N D S : List String) (vs : Kinds) : Prop :=
  (∀ x, x ∈ D ∨ (x ∈ N ∧ kindOf x vs ≠ some .gone) ∨ (∀ k, kindOf x vs = some k → Free k)) ∧ ∀ x ∈ S, kindOf x vs ≠ none

theorem Ok.there {vs : Kinds} (h : Ok N D S vs) {x : String} (hx : x ∉ D) : kindOf x vs ≠ some .gone := by
  rcases h.1 x with h | h | h
  · exact absurd h hx
  · exact h.2
  · intro e
    rcases h _ e with h | h <;> cases h

theorem Ok.free {vs : Kinds} (h : Ok N D S vs) {x : String} (hn : x ∉ N) (hd : x ∉ D) {k : Kind} (hk : kindOf x vs = some k) :
    Free k := by
  rcases h.1 x with h | h | h
  · exact absurd h hd
  · exact absurd h.1 hn
  · exact h k hk

theorem Ok.see {vs : Kinds} (h : Ok N D S vs) {x : String} (hx : x ∉ D) : seeVar x vs = some (.copy, vs) := by
  simp [seeVar, h.there hx]

theorem Ok.use {vs : Kinds} (h : Ok N D S vs) {x : String} (hn : x ∉ N) (hd : x ∉ D) :
    ∃ k, Free k ∧ useVar x vs = some (k, vs) := by
  unfold useVar
  cases hk : kindOf x vs with
  | none => exact ⟨.copy, .inl rfl, rfl⟩
  | some k =>
    rcases h.free hn hd hk with rfl | rfl
    · exact ⟨.copy, .inl rfl, rfl⟩
    · exact ⟨.shared, .inr rfl, rfl⟩

theorem Ok.push {vs : Kinds} (h : Ok N D S vs) {x : String} {k : Kind} (hx : x ∈ D ∨ x ∈ N ∧ k ≠ .gone ∨ Free k) :
    Ok N D S ((x, k) :: vs) := by
  refine ⟨fun y => ?_, fun y hy => ?_⟩
  · by_cases hy : x = y
    · subst hy
      rcases hx with hx | hx | hx
      · exact .inl hx
      · exact .inr (.inl ⟨hx.1, by simp [kindOf, hx.2]⟩)
      · refine .inr (.inr fun k' e => ?_)
        simp only [kindOf, if_true, Option.some.injEq] at e
        exact e ▸ hx
    · simp only [kindOf, hy, if_false]
      exact h.1 y
  · simp only [kindOf]
    split
    · exact nofun
    · exact h.2 y hy

theorem merge_self (vs : Kinds) (a b : Kind) :
    merge (a, vs) (b, vs) = (if Free a ∧ Free b then .copy else .owned, vs) := by
  have : ∀ vs : Kinds, List.zipWith (fun x y => (x.1, if x.2 = .gone ∨ y.2 = .gone then .gone else x.2)) vs vs = vs := by
    intro vs
    induction vs with
    | nil => rfl
    | cons x vs ih =>
      obtain ⟨x, k⟩ := x
      simp only [List.zipWith_cons_cons, ih, or_self]
      by_cases h : k = .gone <;> simp [h]
  simp only [merge, this]
  rfl

theorem leave_append (l vs : Kinds) (k : Kind) : leave vs (k, l ++ vs) = (k, vs) := by
  simp [leave]

/-- `let x` of an expression whose value is `Copy`. -/
def copyK : Expr → Bool
  | .var _ | .inner _ | .lit .. | .bool _ | .not _ | .neg _ | .bin .. | .orElse .. | .andAlso .. | .cast .. | .castInfer _
  | .index .. | .deref _ | .zeros _ | .bytes _ | .unit | .intoBits _ | .swapBytes _ | .len _ | .contains .. => true
  | .maxOf w => decide (tyName (.u w) ∈ primitive)
  | .ite _ a b => copyK a && copyK b
  | .block _ e => copyK e
  | _ => false

/-- If the expression is a variable, it is in scope. -/
def bound (S : List String) : Expr → Bool
  | .var x => decide (x ∈ S)
  | .bool _ | .user .. => false
  | _ => true

/-- The value can be looked at. -/
def seeE (D : List String) : Expr → Bool
  | .var x => decide (x ∉ D)
  | .inner b => decide (rootName b ∉ D)
  | _ => false

/-- The tags of setters. -/
def setTag : Tag → Bool
  | .acc .set _ | .acc .checkedSet _ => true
  | _ => false

mutual

/-- The expression gives nothing away and uses nothing that may be gone. -/
def quietE (N D S : List String) (ic : Bool) (U : Nat → Bool) : Expr → Bool
  | .var x => decide (x ∉ N) && decide (x ∉ D)
  | .inner b => ic && decide (rootName b ∉ D)
  | .whole _ => false
  | .user k _ _ => U k
  | .lit .. | .const .. | .maxOf _ | .bitsOf _ | .zeros _ | .bytes _ | .assoc .. | .unit | .errE _ => true
  | .bool b => decide ((if b then "true" else "false") ∉ N) && decide ((if b then "true" else "false") ∉ D)
  | .not e | .neg e | .cast e _ | .castInfer e | .boxNew e | .fromBits _ e | .intoBits e | .swapBytes e | .okE e => quietE N D S ic U e
  | .bin _ a b | .orElse a b | .andAlso a b => quietE N D S ic U a && quietE N D S ic U b
  | .index a i => seeE D a && quietE N D S ic U i
  | .deref e | .contains _ _ e => seeE D e
  | .ite c a b => quietE N D S ic U c && quietE N D S ic U a && quietE N D S ic U b
  | .block s e => quietS N D S ic U s && quietE N D S ic U e
  | .len (.var x) => decide (x ∉ D) && decide (x ≠ "this")
  | .len _ => false
  | .method b t e => setTag t && decide (rootName b ∉ D) && quietE N D S ic U e

/-- The statement gives nothing away and uses nothing that may be gone. -/
def quietS (N D S : List String) (ic : Bool) (U : Nat → Bool) : Stmt → Bool
  | .skip => true
  | .seq a b => quietS N D S ic U a && quietS N D S ic U b
  | .letS x _ e _ => quietE N D S ic U e && (decide (x ∈ D) || decide (x ∈ N) || copyK e && bound S e)
  | .letThis | .initThis .. | .moveThis _ => false
  | .assign x _ e => quietE N D S ic U e && decide (x ∉ D)
  | .assignInner b _ e => quietE N D S ic U e && decide (rootName b ∉ D)
  | .assignElem x i _ e => quietE N D S ic U e && quietE N D S ic U i && decide (x ∉ D)
  | .assignInnerElem b i _ e => quietE N D S ic U e && quietE N D S ic U i && decide (rootName b ∉ D)
  | .expr e | .ret e | .tryS e => quietE N D S ic U e
  | .ite c a b => quietE N D S ic U c && quietS N D S ic U a && quietS N D S ic U b
  | .loop c s => quietE N D S ic U c && quietS N D S ic U s
  | .scope s => quietS N D S ic U s
  | .debugField _ e => seeE D e && decide ("debug" ∉ D)

end

/-- What the surroundings provide. -/
structure Setting (C : Style) (R : Facts) (N D S : List String) (ic : Bool) (U : Nat → Bool) : Prop where
  tuple : C.ignored = [] → R.part "0" = ic
  val : C.ignored ≠ [] → R.part "val" = ic
  setter : ∀ t b, setTag t = true → takes R (thisSyn b) (tagName t) = false
  user : ∀ k, U k = true → ∀ vs, Ok N D S vs → ∃ kk, kk ≠ .gone ∧ runE R false vs (C.user k) = some (kk, vs)

theorem runS_cons {e : SExpr} {b : Bool} {ss : List SStmt} {vs : Kinds} (h : ss ≠ []) :
    runS R vs (.expr e b :: ss) = (runE R false vs e).bind fun r => runS R r.2 ss := by
  cases ss with
  | nil => exact absurd rfl h
  | cons s ss => rw [runS]; simp

theorem runS_last {e : SExpr} {vs : Kinds} : runS R vs [.expr e false] = runE R false vs e := by rw [runS]

theorem runS_semi {e : SExpr} {vs : Kinds} :
    runS R vs [.expr e true] = (runE R false vs e).bind fun r => some (.copy, r.2) := by
  rw [runS]
  · simp only [runS]
  · simp

theorem runE_this {b : Bool} {vs : Kinds} (h : Ok N D S vs) (hb : rootName b ∉ D) :
    runE R true vs (thisSyn b) = some (.copy, vs) := by
  cases b
  · simp only [thisSyn, names, Bool.false_eq_true, if_false, List.map_cons, List.map_nil, runE, if_true]
    exact h.see hb
  · simp only [thisSyn, names, if_true, List.map_cons, List.map_nil, runE, Bool.true_or]
    rw [show seeVar "self" vs = some (.copy, vs) from h.see hb]
    rfl

theorem runE_inner {see b : Bool} {vs : Kinds} (hs : Setting C R N D S ic U) (h : Ok N D S vs) (hb : rootName b ∉ D)
    (hc : see = true ∨ ic = true) : runE R see vs (innerSyn C b) = some (.copy, vs) := by
  have ht := runE_this (R := R) h hb
  unfold innerSyn
  split
  · rename_i hi
    have : (see || R.part (toString 0)) = true := by
      rcases hc with rfl | rfl
      · rfl
      · rw [show toString 0 = "0" from rfl, hs.tuple hi, Bool.or_true]
    simp only [runE, this, if_true, ht]
    rfl
  · rename_i i is hi
    have : (see || R.part "val") = true := by
      rcases hc with rfl | rfl
      · rfl
      · rw [hs.val (by rw [hi]; exact nofun), Bool.or_true]
    simp only [runE, this, if_true, ht]
    rfl

theorem runE_see {e : Expr} {vs : Kinds} (hs : Setting C R N D S ic U) (h : Ok N D S vs) (he : seeE D e = true) :
    runE R true vs (exprSyn C e) = some (.copy, vs) := by
  cases e with
  | var x =>
    simp only [seeE, decide_eq_true_eq] at he
    simp only [exprSyn, names, List.map_cons, List.map_nil, runE, if_true]
    exact h.see he
  | inner b =>
    simp only [seeE, decide_eq_true_eq] at he
    rw [exprSyn]
    exact runE_inner hs h he (.inl rfl)
  | _ => simp [seeE] at he

theorem heldKind_eq {e : Expr} {vs : Kinds} {k : Kind} (h : Ok N D S vs) (hc : copyK e = true) (hb : bound S e = true) :
    heldKind vs (exprSyn C e) k = k := by
  cases e with
  | var x =>
    simp only [bound, decide_eq_true_eq] at hb
    simp [exprSyn, names, heldKind, h.2 x hb]
  | inner b => rw [exprSyn]; unfold innerSyn; split <;> rfl
  | lit n t => cases t <;> simp [exprSyn, heldKind]
  | _ => first | (simp [copyK] at hc; done) | (simp [bound] at hb; done) | simp [exprSyn, heldKind, names]

theorem heldKind_ne {e : SExpr} {vs : Kinds} {k : Kind} (h : k ≠ .gone) : heldKind vs e k ≠ .gone := by
  unfold heldKind
  split
  · split
    · exact nofun
    · exact h
  · exact h

theorem runEs_bytes (bs : List (BitVec 8)) (vs : Kinds) :
    runEs R vs (bs.map fun b => .int b.toNat "u8") = some vs := by
  induction bs with
  | nil => rfl
  | cons b bs ih => simp [runEs, runE, ih]

theorem fromBits_syn (c : Codec) (e : Expr) :
    ∃ e', exprSyn C (.fromBits c e) = .call (.path [.custom c, .name "from_bits"]) [e'] ∧
      (e' = exprSyn C e ∨ e' = .cast (exprSyn C e) (namesTy ["_"])) := by
  by_cases h : ∃ n t, e = .lit n t
  · obtain ⟨n, t, rfl⟩ := h
    exact ⟨_, by rw [exprSyn], .inl rfl⟩
  · exact ⟨.cast (exprSyn C e) (namesTy ["_"]), by
      rw [exprSyn]
      exact fun n t h' => h ⟨n, t, h'⟩, .inr rfl⟩

/-- Nothing is given away by the expression. -/
def RunsE (C : Style) (R : Facts) (vs : Kinds) (e : Expr) : Prop :=
  ∃ k, k ≠ .gone ∧ (copyK e = true → Free k) ∧ runE R false vs (exprSyn C e) = some (k, vs)

/-- Nothing is given away by the statement; the new variables are in front. -/
def RunsS (C : Style) (R : Facts) (N D S : List String) (vs : Kinds) (s : Stmt) : Prop :=
  ∃ l k, Ok N D S (l ++ vs) ∧ runS R vs (stmtSyn C s) = some (k, l ++ vs) ∧
    ∀ rest, rest ≠ [] → runS R vs (stmtSyn C s ++ rest) = runS R (l ++ vs) rest

theorem RunsE.copy {vs : Kinds} {e : Expr} (h : runE R false vs (exprSyn C e) = some (.copy, vs)) : RunsE C R vs e :=
  ⟨.copy, nofun, fun _ => .inl rfl, h⟩

theorem RunsE.owned {vs : Kinds} {e : Expr} (hc : copyK e = false) (h : runE R false vs (exprSyn C e) = some (.owned, vs)) :
    RunsE C R vs e :=
  ⟨.owned, nofun, fun h' => absurd h' (by simp [hc]), h⟩

/-- A statement that is an expression. -/
theorem RunsS.expr {vs : Kinds} {s : Stmt} {e : SExpr} {b : Bool} {k : Kind} (hs : stmtSyn C s = [.expr e b])
    (h : Ok N D S vs) (he : runE R false vs e = some (k, vs)) : RunsS C R N D S vs s := by
  refine ⟨[], if b then .copy else k, h, ?_, fun rest hr => ?_⟩
  · rw [hs]
    cases b
    · rw [runS_last, he]; rfl
    · rw [runS_semi, he]; rfl
  · rw [hs, List.singleton_append, runS_cons hr, he]
    rfl

/-- A statement that is an assignment. -/
theorem RunsS.assign {vs : Kinds} {s : Stmt} {p e : SExpr} {op : Option SOp} {k k' : Kind} (hs : stmtSyn C s = [.assign op p e])
    (h : Ok N D S vs) (he : runE R false vs e = some (k, vs)) (hp : runE R true vs p = some (k', vs)) : RunsS C R N D S vs s := by
  refine ⟨[], .copy, h, ?_, fun rest _ => ?_⟩
  · rw [hs, runS, he]
    simp only [Option.bind_some, hp, runS, List.nil_append]
  · rw [hs, List.singleton_append, runS, he]
    simp only [Option.bind_some, hp, List.nil_append]

/-- A statement that is a `let`. -/
theorem RunsS.letS {vs : Kinds} {s : Stmt} {x : String} {t : Option SType} {e : SExpr} {mu : Bool} {k : Kind}
    (hs : stmtSyn C s = [.letS x t e mu]) (h : Ok N D S vs) (he : runE R false vs e = some (k, vs))
    (hk : x ∈ D ∨ x ∈ N ∧ heldKind vs e k ≠ .gone ∨ Free (heldKind vs e k)) : RunsS C R N D S vs s := by
  refine ⟨[(x, heldKind vs e k)], .copy, h.push hk, ?_, fun rest _ => ?_⟩
  · rw [hs, runS, he]
    simp only [Option.bind_some, runS, List.singleton_append]
  · rw [hs, List.singleton_append, runS, he]
    rfl

theorem RunsS.seq {vs : Kinds} {a b : Stmt} (ha : RunsS C R N D S vs a) (hb : ∀ vs, Ok N D S vs → RunsS C R N D S vs b) :
    RunsS C R N D S vs (.seq a b) := by
  obtain ⟨l, k, h1, h2, h3⟩ := ha
  obtain ⟨l', k', h4, h5, h6⟩ := hb _ h1
  rw [← List.append_assoc] at h4 h5 h6
  have e : stmtSyn C (.seq a b) = stmtSyn C a ++ stmtSyn C b := by rw [stmtSyn]
  by_cases hn : stmtSyn C b = []
  · rw [hn, runS] at h5
    refine ⟨l, k, h1, by rw [e, hn, List.append_nil, h2], fun rest hr => ?_⟩
    rw [e, hn, List.append_nil, h3 _ hr]
  · refine ⟨l' ++ l, k', h4, ?_, fun rest hr => ?_⟩
    · rw [e, h3 _ hn, h5]
    · rw [e, List.append_assoc, h3 _ (by simp [hn]), h6 _ hr]

theorem let_syn (x : String) (t : Option Ty) (e : Expr) (mu : Bool) :
    (∃ n k, t = some (.arr n) ∧ e = .zeros k) ∨ ∃ t', stmtSyn C (.letS x t e mu) = [.letS x t' (exprSyn C e) mu] := by
  cases t with
  | none => exact .inr ⟨none, rfl⟩
  | some t =>
    by_cases hz : ∃ n k, t = .arr n ∧ e = .zeros k
    · obtain ⟨n, k, rfl, rfl⟩ := hz
      exact .inl ⟨n, k, rfl, rfl⟩
    · refine .inr ⟨if annotated x t then some (tySyn t) else none, ?_⟩
      rw [stmtSyn]
      intro n k h3 h4
      exact hz ⟨n, k, h4, h3⟩

theorem ret_syn (e : Expr) : (∃ n, e = .zeros n) ∨ e = .unit ∨ stmtSyn C (.ret e) = [.expr (.ret (some (exprSyn C e))) true] := by
  by_cases h1 : e = .unit
  · exact .inr (.inl h1)
  by_cases h2 : ∃ n, e = .zeros n
  · exact .inl h2
  refine .inr (.inr ?_)
  rw [stmtSyn]
  · exact h1
  · exact fun n h => h2 ⟨n, h⟩

/-- The block of a statement. -/
theorem RunsS.leave {vs : Kinds} {s : Stmt} (h : RunsS C R N D S vs s) :
    ∃ q k, runS R vs (stmtSyn C s) = some q ∧ Text.leave vs q = (k, vs) := by
  obtain ⟨l, k, -, h2, -⟩ := h
  exact ⟨_, k, h2, leave_append l vs k⟩

mutual

theorem quietE_runs (hs : Setting C R N D S ic U) : ∀ (e : Expr) (vs : Kinds), quietE N D S ic U e = true → Ok N D S vs → RunsE C R vs e
  | .var x, vs, h, ho => by
    simp only [quietE, Bool.and_eq_true, decide_eq_true_eq] at h
    obtain ⟨k, hk, hu⟩ := ho.use h.1 h.2
    refine ⟨k, by rcases hk with rfl | rfl <;> exact nofun, fun _ => hk, ?_⟩
    simpa only [exprSyn, names, List.map_cons, List.map_nil, runE, Bool.false_eq_true, if_false] using hu
  | .inner b, vs, h, ho => by
    simp only [quietE, Bool.and_eq_true, decide_eq_true_eq] at h
    exact .copy (by rw [exprSyn]; exact runE_inner hs ho h.2 (.inr h.1))
  | .whole _, vs, h, ho => by simp [quietE] at h
  | .lit n none, vs, h, ho => .copy (by simp only [exprSyn, runE])
  | .lit n (some t), vs, h, ho => .copy (by simp only [exprSyn, runE])
  | .bool b, vs, h, ho => by
    simp only [quietE, Bool.and_eq_true, decide_eq_true_eq] at h
    obtain ⟨k, hk, hu⟩ := ho.use h.1 h.2
    refine ⟨k, by rcases hk with rfl | rfl <;> exact nofun, fun _ => hk, ?_⟩
    simpa only [exprSyn, names, List.map_cons, List.map_nil, runE, Bool.false_eq_true, if_false] using hu
  | .user k t v, vs, h, ho => by
    obtain ⟨kk, h1, h2⟩ := hs.user k h vs ho
    exact ⟨kk, h1, nofun, by rw [exprSyn]; exact h2⟩
  | .const b a f, vs, h, ho => by
    refine ⟨if selfName C b ∈ primitive then .copy else .owned, by split <;> exact nofun, nofun, ?_⟩
    simp only [exprSyn, names, List.map_cons, List.map_nil, runE]
  | .maxOf w, vs, h, ho => by
    refine ⟨if tyName (.u w) ∈ primitive then .copy else .owned, by split <;> exact nofun, fun hc => ?_, ?_⟩
    · simp only [copyK, decide_eq_true_eq] at hc
      rw [if_pos hc]
      exact .inl rfl
    · simp only [exprSyn, names, List.map_cons, List.map_nil, runE]
  | .bitsOf w, vs, h, ho => by
    refine ⟨if tyName (.u w) ∈ primitive then .copy else .owned, by split <;> exact nofun, nofun, ?_⟩
    simp only [exprSyn, names, List.map_cons, List.map_nil, runE]
  | .not e, vs, h, ho => by
    obtain ⟨k, -, -, hk⟩ := quietE_runs hs e vs h ho
    exact .copy (by simp only [exprSyn, runE, hk, Option.map_some])
  | .neg e, vs, h, ho => by
    obtain ⟨k, -, -, hk⟩ := quietE_runs hs e vs h ho
    exact .copy (by simp only [exprSyn, runE, hk, Option.map_some])
  | .bin op a b, vs, h, ho => by
    simp only [quietE, Bool.and_eq_true] at h
    obtain ⟨k, -, -, hk⟩ := quietE_runs hs a vs h.1 ho
    obtain ⟨k', -, -, hk'⟩ := quietE_runs hs b vs h.2 ho
    exact .copy (by simp only [exprSyn, runE, hk, hk', Option.map_some, Option.bind_some])
  | .orElse a b, vs, h, ho => by
    simp only [quietE, Bool.and_eq_true] at h
    obtain ⟨k, -, -, hk⟩ := quietE_runs hs a vs h.1 ho
    obtain ⟨k', -, -, hk'⟩ := quietE_runs hs b vs h.2 ho
    exact .copy (by simp only [exprSyn, runE, hk, hk', Option.map_some, Option.bind_some])
  | .andAlso a b, vs, h, ho => by
    simp only [quietE, Bool.and_eq_true] at h
    obtain ⟨k, -, -, hk⟩ := quietE_runs hs a vs h.1 ho
    obtain ⟨k', -, -, hk'⟩ := quietE_runs hs b vs h.2 ho
    exact .copy (by simp only [exprSyn, runE, hk, hk', Option.map_some, Option.bind_some])
  | .cast e t, vs, h, ho => by
    obtain ⟨k, -, -, hk⟩ := quietE_runs hs e vs h ho
    exact .copy (by simp only [exprSyn, runE, hk, Option.map_some])
  | .castInfer e, vs, h, ho => by
    obtain ⟨k, -, -, hk⟩ := quietE_runs hs e vs h ho
    exact .copy (by simp only [exprSyn, runE, hk, Option.map_some])
  | .index a i, vs, h, ho => by
    simp only [quietE, Bool.and_eq_true] at h
    have hk := runE_see hs ho h.1
    obtain ⟨k', -, -, hk'⟩ := quietE_runs hs i vs h.2 ho
    exact .copy (by simp only [exprSyn, runE, hk, hk', Option.map_some, Option.bind_some])
  | .deref e, vs, h, ho => by
    have hk := runE_see hs ho (e := e) h
    exact .copy (by simp only [exprSyn, runE, hk, Option.map_some])
  | .boxNew e, vs, h, ho => by
    obtain ⟨k, -, -, hk⟩ := quietE_runs hs e vs h ho
    exact .owned rfl (by simp only [exprSyn, runE, runEs, hk, Option.map_some, Option.bind_some])
  | .zeros n, vs, h, ho => .copy (by simp only [exprSyn, runE, Option.map_some, Option.bind_some])
  | .bytes bs, vs, h, ho => .copy (by simp only [exprSyn, runE, runEs_bytes, Option.map_some])
  | .ite c a b, vs, h, ho => by
    simp only [quietE, Bool.and_eq_true] at h
    obtain ⟨k, -, -, hk⟩ := quietE_runs hs c vs h.1.1 ho
    obtain ⟨k1, h1, c1, hk1⟩ := quietE_runs hs a vs h.1.2 ho
    obtain ⟨k2, h2, c2, hk2⟩ := quietE_runs hs b vs h.2 ho
    refine ⟨if Free k1 ∧ Free k2 then .copy else .owned, by split <;> exact nofun, fun hc => ?_, ?_⟩
    · simp only [copyK, Bool.and_eq_true] at hc
      rw [if_pos ⟨c1 hc.1, c2 hc.2⟩]
      exact .inl rfl
    · have e1 := leave_append [] vs k1
      have e2 := leave_append [] vs k2
      simp only [List.nil_append] at e1 e2
      simp only [exprSyn, runE, runS_last, hk, hk1, hk2, Option.map_some, Option.bind_some, e1, e2, merge_self]
  | .block s e, vs, h, ho => by
    simp only [quietE, Bool.and_eq_true] at h
    obtain ⟨l, k, h1, -, h3⟩ := quietS_runs hs s vs h.1 ho
    obtain ⟨k1, h4, c1, hk1⟩ := quietE_runs hs e (l ++ vs) h.2 h1
    refine ⟨k1, h4, c1, ?_⟩
    rw [exprSyn, runE, h3 _ (by simp), runS_last, hk1, Option.map_some, leave_append]
  | .fromBits c e, vs, h, ho => by
    obtain ⟨k, -, -, hk⟩ := quietE_runs hs e vs h ho
    obtain ⟨e', h1, h2⟩ := fromBits_syn (C := C) c e
    refine .owned rfl ?_
    rw [h1]
    rcases h2 with rfl | rfl
    · simp only [runE, runEs, hk, Option.map_some, Option.bind_some]
    · simp only [runE, runEs, hk, Option.map_some, Option.bind_some]
  | .intoBits e, vs, h, ho => by
    obtain ⟨k, -, -, hk⟩ := quietE_runs hs e vs h ho
    exact .copy (by simp [exprSyn, runE, runEs, takes, hk, returned])
  | .swapBytes e, vs, h, ho => by
    obtain ⟨k, -, -, hk⟩ := quietE_runs hs e vs h ho
    exact .copy (by simp [exprSyn, runE, runEs, takes, hk, returned])
  | .len e, vs, h, ho => by
    cases e with
    | var x =>
      simp only [quietE, Bool.and_eq_true, decide_eq_true_eq] at h
      exact .copy (by simp [exprSyn, names, runE, runEs, takes, ho.see h.1, returned, h.2])
    | _ => simp [quietE] at h
  | .contains lo hi e, vs, h, ho => by
    have hk := runE_see hs ho (e := e) h
    exact .copy (by simp [exprSyn, runE, runEs, hk, returned])
  | .method b t e, vs, h, ho => by
    simp only [quietE, Bool.and_eq_true, decide_eq_true_eq] at h
    obtain ⟨k, -, -, hk⟩ := quietE_runs hs e vs h.2 ho
    refine ⟨returned (tagName t), by unfold returned; split <;> exact nofun, nofun, ?_⟩
    simp only [exprSyn, runE, runEs, hs.setter t b h.1.1, Bool.not_false, runE_this ho h.1.2, hk, Option.bind_some,
      Option.map_some]
  | .assoc b t, vs, h, ho => .owned rfl (by simp only [exprSyn, runE, runEs, Option.map_some])
  | .unit, vs, h, ho => .copy (by simp only [exprSyn, runE])
  | .okE e, vs, h, ho => by
    obtain ⟨k, -, -, hk⟩ := quietE_runs hs e vs h ho
    exact .owned rfl (by simp only [exprSyn, runE, runEs, hk, Option.map_some, Option.bind_some])
  | .errE m, vs, h, ho => .owned rfl (by simp only [exprSyn, runE, runEs, Option.map_some, Option.bind_some])

theorem quietS_runs (hs : Setting C R N D S ic U) :
    ∀ (s : Stmt) (vs : Kinds), quietS N D S ic U s = true → Ok N D S vs → RunsS C R N D S vs s
  | .skip, vs, h, ho => ⟨[], .copy, ho, by simp only [stmtSyn, runS, List.nil_append], fun _ _ => by simp only [stmtSyn, List.nil_append]⟩
  | .seq a b, vs, h, ho => by
    simp only [quietS, Bool.and_eq_true] at h
    exact (quietS_runs hs a vs h.1 ho).seq fun vs ho => quietS_runs hs b vs h.2 ho
  | .letS x t e mu, vs, h, ho => by
    simp only [quietS, Bool.and_eq_true, Bool.or_eq_true, decide_eq_true_eq] at h
    obtain ⟨k, h1, h2, hk⟩ := quietE_runs hs e vs h.1 ho
    rcases let_syn (C := C) x t e mu with ⟨n, m, rfl, rfl⟩ | ⟨t', ht⟩
    · exact .letS (stmtSyn.eq_3 ..) ho (k := .copy) (by simp only [runE, Option.map_some, Option.bind_some]) (.inr (.inr (.inl rfl)))
    · refine .letS ht ho hk ?_
      rcases h.2 with (hd | hn) | hc
      · exact .inl hd
      · exact .inr (.inl ⟨hn, heldKind_ne h1⟩)
      · rw [heldKind_eq ho hc.1 hc.2]
        exact .inr (.inr (h2 hc.1))
  | .letThis, vs, h, ho => by simp [quietS] at h
  | .initThis .., vs, h, ho => by simp [quietS] at h
  | .moveThis _, vs, h, ho => by simp [quietS] at h
  | .assign x op e, vs, h, ho => by
    simp only [quietS, Bool.and_eq_true, decide_eq_true_eq] at h
    obtain ⟨k, -, -, hk⟩ := quietE_runs hs e vs h.1 ho
    exact .assign (by rw [stmtSyn]) ho hk (by rw [names, List.map_cons, List.map_nil, runE, if_pos rfl]; exact ho.see h.2)
  | .assignInner b op e, vs, h, ho => by
    simp only [quietS, Bool.and_eq_true, decide_eq_true_eq] at h
    obtain ⟨k, -, -, hk⟩ := quietE_runs hs e vs h.1 ho
    exact .assign (by rw [stmtSyn]) ho hk (runE_inner hs ho h.2 (.inl rfl))
  | .assignElem x i op e, vs, h, ho => by
    simp only [quietS, Bool.and_eq_true, decide_eq_true_eq] at h
    obtain ⟨k, -, -, hk⟩ := quietE_runs hs e vs h.1.1 ho
    obtain ⟨k', -, -, hk'⟩ := quietE_runs hs i vs h.1.2 ho
    exact .assign (k' := .copy) (by rw [stmtSyn]) ho hk (by
      rw [names, List.map_cons, List.map_nil, runE, runE, if_pos rfl, ho.see h.2]
      simp only [Option.bind_some, hk', Option.map_some])
  | .assignInnerElem b i op e, vs, h, ho => by
    simp only [quietS, Bool.and_eq_true, decide_eq_true_eq] at h
    obtain ⟨k, -, -, hk⟩ := quietE_runs hs e vs h.1.1 ho
    obtain ⟨k', -, -, hk'⟩ := quietE_runs hs i vs h.1.2 ho
    exact .assign (k' := .copy) (by rw [stmtSyn]) ho hk (by
      rw [runE, runE_inner hs ho h.2 (.inl rfl)]
      simp only [Option.bind_some, hk', Option.map_some])
  | .expr e, vs, h, ho => by
    obtain ⟨k, -, -, hk⟩ := quietE_runs hs e vs h ho
    exact .expr (by rw [stmtSyn]) ho hk
  | .ite c a b, vs, h, ho => by
    simp only [quietS, Bool.and_eq_true] at h
    obtain ⟨k, -, -, hk⟩ := quietE_runs hs c vs h.1.1 ho
    obtain ⟨q1, k1, h1, l1⟩ := (quietS_runs hs a vs h.1.2 ho).leave
    obtain ⟨q2, k2, h2, l2⟩ := (quietS_runs hs b vs h.2 ho).leave
    by_cases hb : b = .skip
    · subst hb
      exact .expr (by rw [stmtSyn]) ho (by
        rw [runE, hk, Option.bind_some, h1, Option.map_some, l1, merge_self])
    · refine .expr (k := if Free k1 ∧ Free k2 then .copy else .owned)
        (e := .ite (exprSyn C c) (stmtSyn C a) (some (stmtSyn C b))) (by rw [stmtSyn]; exact hb) ho ?_
      rw [runE, hk, Option.bind_some, h1, Option.bind_some, h2, Option.map_some, l1, l2, merge_self]
  | .loop c s, vs, h, ho => by
    simp only [quietS, Bool.and_eq_true] at h
    obtain ⟨k, -, -, hk⟩ := quietE_runs hs c vs h.1 ho
    obtain ⟨q1, k1, h1, l1⟩ := (quietS_runs hs s vs h.2 ho).leave
    refine ⟨[], .copy, ho, ?_, fun rest _ => ?_⟩
    · rw [stmtSyn, runS, hk, Option.bind_some, h1, Option.bind_some, l1, if_pos rfl, runS]; rfl
    · rw [stmtSyn, List.singleton_append, runS, hk, Option.bind_some, h1, Option.bind_some, l1, if_pos rfl]; rfl
  | .ret e, vs, h, ho => by
    obtain ⟨k, -, -, hk⟩ := quietE_runs hs e vs h ho
    rcases ret_syn (C := C) e with ⟨n, rfl⟩ | rfl | he
    · exact .expr (k := .copy) (by rw [stmtSyn]) ho (by simp only [runE, Option.map_some, Option.bind_some])
    · exact .expr (k := .copy) (by rw [stmtSyn]) ho (by simp only [runE])
    · exact .expr he ho (by rw [runE, hk, Option.map_some])
  | .scope s, vs, h, ho => by
    obtain ⟨q1, k1, h1, l1⟩ := (quietS_runs hs s vs h ho).leave
    exact .expr (by rw [stmtSyn]) ho (by rw [runE, h1, Option.map_some, l1])
  | .tryS e, vs, h, ho => by
    obtain ⟨k, -, -, hk⟩ := quietE_runs hs e vs h ho
    have e1 : leave vs (.copy, ("e", .gone) :: vs) = (.copy, vs) := leave_append [("e", .gone)] vs .copy
    have e2 : leave vs (.copy, vs) = (.copy, vs) := leave_append [] vs .copy
    exact .expr (k := .copy) (by rw [stmtSyn]) ho (by
      simp [runE, hk, runArms, patternVars, names, runEs, runS, useVar, kindOf, take, e1, e2, merge_self, Free])
  | .debugField x e, vs, h, ho => by
    simp only [quietS, Bool.and_eq_true, decide_eq_true_eq] at h
    have hk := runE_see hs ho (e := e) h.1
    have hd := ho.see h.2
    exact .expr (k := .owned) (by rw [stmtSyn]) ho (by
      simp [runE, names, takes, hd, runEs, hk, returned])

end

end Bf.Text
