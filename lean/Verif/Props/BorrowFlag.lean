import Verif.SpecMove
import Verif.Lemmas.BorrowRet
import Verif.Props.FlagText

/-!
# What the code of a bitflag enum changes, gives away and borrows (C72, C73, C79)
-/

namespace Bf.Text

variable {P : FlagPrinter} {c : FlagCode} {value : String → SExpr}

theorem swap_lend (T : String → Bool) (e : Endian) (ss : List SStmt) : stmtsLend T (swapSyn e ++ ss) = stmtsLend T ss := by
  cases e <;> simp [swapSyn, stmtsLend, exprLend, argsLend, keepable, changes, names]

theorem arms_lend (T : String → Bool) (l : List (Nat × String)) (s : SExpr) (w : String) :
    armsLend T (l.map (fun a => (value a.2, names ["Self", a.2])) ++ [(s, names ["Self", w])]) = true := by
  induction l with
  | nil => rfl
  | cons a l ih => simpa [armsLend, exprLend, names] using ih

theorem swap_mut (T : String → Bool) (e : Endian) (ss : List SStmt) (h : ∀ vs, stmtsMut T vs ss = true) (vs : Vars) :
    stmtsMut T vs (swapSyn e ++ ss) = true := by
  cases e <;> simp [swapSyn, stmtsMut, exprMut, exprsMut, changes, names, h]

theorem arms_mut (T : String → Bool) (vs : Vars) (l : List (Nat × String)) (s : SExpr) (w : String) :
    armsMut T vs (l.map (fun a => (value a.2, names ["Self", a.2])) ++ [(s, names ["Self", w])]) = true := by
  induction l with
  | nil => rfl
  | cons a l ih => simpa [armsMut, exprMut, names] using ih

theorem flag_fns {i : SItem} {n : String} {as : List String} (hi : i ∈ flagItems n as value c) {f : SFn}
    (hf : f ∈ i.fns) : f = fromBitsSyn value c ∨ f = intoBitsSyn c := by
  obtain ⟨tr, ty, ms, rfl, hf'⟩ := mem_fns hf
  rcases List.mem_cons.mp hi with hi | hi
  · cases hi
  cases List.mem_singleton.mp hi
  simpa using hf'

/-- Whatever the enum is, both functions among the items printed for a bitflag enum change nothing that they may not
change. Missing: as in `C70_parses_partial`, values of variants other than integers and paths. -/
theorem C72_bitflag_partial (h : generateBitflag P.F = .ok c)
    (hv : ∀ v ∈ P.F.variants, Constant (P.value v.name) (value v.name)) :
    ∃ ts k items, flagTokens P = .ok ts ∧ (∀ n, k ≤ n → parseItems n ts = some items) ∧
      ∀ i ∈ items, ∀ f ∈ i.fns, f.mutOk (mutMethods items) = true := by
  obtain ⟨ts, h1, k, h2⟩ := C70_parses_partial h hv
  refine ⟨ts, k, _, h1, h2, ?_⟩
  generalize mutMethods _ = T
  intro i hi f hf
  rcases flag_fns hi hf with rfl | rfl
  · refine swap_mut T _ _ (fun vs => ?_) _
    simp only [stmtsMut, exprMut, names, Bool.true_and, Bool.and_true]
    exact arms_mut T _ _ _ _
  · simp only [SFn.mutOk, intoBitsSyn, stmtsMut, exprMut, names, Bool.true_and]
    exact swap_mut T _ _ (fun vs => rfl) _

theorem swap_moves (R : Facts) (e : Endian) (ss : List SStmt)
    (h : ∀ k vs, k ≠ Kind.gone → (runS R (("bits", k) :: vs) ss).isSome = true) (k : Kind) (hk : k ≠ .gone) (vs : Kinds) :
    (runS R (("bits", k) :: vs) (swapSyn e ++ ss)).isSome = true := by
  cases e with
  | little =>
    cases k <;> first | exact absurd rfl hk | skip
    all_goals
      simp [swapSyn, runS, runE, runEs, takes, names, useVar, kindOf, take, returned, heldKind, h]
  | big => exact h k vs hk

theorem arms_moves (R : Facts) (vs : Kinds) (l : List (Nat × String)) (s : SExpr) (w : String) :
    (runArms R vs (l.map (fun a => (value a.2, names ["Self", a.2])) ++ [(s, names ["Self", w])])).isSome = true := by
  induction l with
  | nil => rfl
  | cons a l ih =>
    obtain ⟨r, hr⟩ := Option.isSome_iff_exists.mp ih
    simp [runArms, runE, names] at hr ⊢
    simp [hr]

/-- Whatever the enum is, no function among the items printed for a bitflag enum uses a variable after it was given away.
Missing: as in `C70_parses_partial`, values of variants other than integers and paths. -/
theorem C73_bitflag_partial (h : generateBitflag P.F = .ok c)
    (hv : ∀ v ∈ P.F.variants, Constant (P.value v.name) (value v.name)) :
    ∃ ts k items, flagTokens P = .ok ts ∧ (∀ n, k ≤ n → parseItems n ts = some items) ∧
      ∀ i ∈ items, ∀ f ∈ i.fns, f.moveOk (facts items) = true := by
  obtain ⟨ts, h1, k, h2⟩ := C70_parses_partial h hv
  refine ⟨ts, k, _, h1, h2, ?_⟩
  generalize facts _ = R
  intro i hi f hf
  rcases flag_fns hi hf with rfl | rfl
  · refine swap_moves R _ _ (fun k vs hk => ?_) _ ?_ _
    · have hu : ∃ r, runE R false (("bits", k) :: vs) (names ["bits"]) = some r := by
        cases k <;> first | exact absurd rfl hk | exact ⟨_, rfl⟩
      obtain ⟨r, hr⟩ := hu
      simp only [runS, runE, hr, Option.bind_some]
      exact arms_moves R _ _ _ _
    · show (dataSyn c.repr).kind ≠ .gone
      cases c.repr with
      | int t => cases t <;> decide
      | array n => simp [dataSyn, tySyn, Quote.fieldTy, SType.kind, namesTy, primitive]
      | custom x => simp [dataSyn, SType.kind]
  · exact swap_moves R _ _ (fun k vs hk => by cases k <;> first | exact absurd rfl hk | rfl) .copy (by decide) _

/-- Whatever the enum is, both functions among the items printed for a bitflag enum obey the rule of `SpecBorrow.lean` and
return no reference. Missing: as in `C70_parses_partial`, values of variants other than integers and paths. -/
theorem C79_bitflag_partial (h : generateBitflag P.F = .ok c)
    (hv : ∀ v ∈ P.F.variants, Constant (P.value v.name) (value v.name)) :
    ∃ ts k items, flagTokens P = .ok ts ∧ (∀ n, k ≤ n → parseItems n ts = some items) ∧
      ∀ i ∈ items, ∀ f ∈ i.fns, f.lendOk (mutMethods items) = true ∧ f.returnsValue = true := by
  obtain ⟨ts, h1, k, h2⟩ := C70_parses_partial h hv
  refine ⟨ts, k, _, h1, h2, ?_⟩
  generalize mutMethods _ = T
  intro i hi f hf
  rcases flag_fns hi hf with rfl | rfl
  · refine ⟨?_, rfl⟩
    simp only [SFn.lendOk, fromBitsSyn, swap_lend]
    simp only [stmtsLend, exprLend, names, Bool.true_and, Bool.and_true]
    exact arms_lend T _ _ _
  · refine ⟨?_, value_plain rfl (dataSyn_noRef _)⟩
    simp [SFn.lendOk, intoBitsSyn, stmtsLend, swap_lend, exprLend, names, keepable]

/-! ## Examples -/

example : ∃ ts k items, flagTokens ExFlagText.P = .ok ts ∧ (∀ n, k ≤ n → parseItems n ts = some items) ∧
    ∀ i ∈ items, ∀ f ∈ i.fns, f.moveOk (facts items) = true :=
  C73_bitflag_partial ExFlagText.generated ExFlagText.constants

example : ∃ ts k items, flagTokens ExFlagText.P = .ok ts ∧ (∀ n, k ≤ n → parseItems n ts = some items) ∧
    ∀ i ∈ items, ∀ f ∈ i.fns, f.mutOk (mutMethods items) = true :=
  C72_bitflag_partial ExFlagText.generated ExFlagText.constants

example : ∃ ts k items, flagTokens ExFlagText.P = .ok ts ∧ (∀ n, k ≤ n → parseItems n ts = some items) ∧
    ∀ i ∈ items, ∀ f ∈ i.fns, f.lendOk (mutMethods items) = true ∧ f.returnsValue = true :=
  C79_bitflag_partial ExFlagText.generated ExFlagText.constants

end Bf.Text
