import Verif.Lemmas.Mut

/-! # What the emitted functions change -/

namespace Bf.Text

open Rust Quote

variable {P : Printer} {C : Style} {T : String → Bool} {H : Head} {tag : Tag} {B : Bitfield} {f : Field}

theorem tail_mut {e : Expr} (h : Pure T C e) (b : Bool) (vs : Vars) : stmtsMut T vs (tailSyn C b e) = true := by
  have := h vs
  unfold tailSyn
  split <;> simp [stmtsMut, exprMut, fieldsMut, this] <;> exact this

/-- The variables at the beginning of a function. -/
def startVars (H : Head) (fn : Fn) : Vars := fn.params.map (fun x => (x.1, (sigSyn H x.2).held)) ++ H.recv.vars

theorem mutOk_of {fn : Fn} (hb : stmtsMut T (startVars H fn) (stmtSyn C fn.body) = true) (ht : Pure T C fn.tail) :
    (fnSyn C H tag fn).mutOk T = true := by
  simp only [SFn.mutOk, fnSyn, List.map_map]
  rw [stmtsMut_append, tail_mut ht, Bool.and_true]
  exact hb

theorem self_kept (l : Vars) (h : ∀ x ∈ l, x.1 ≠ "self") (vs : Vars) : holdOf "self" (l ++ vs) = holdOf "self" vs := by
  induction l with
  | nil => rfl
  | cons x l ih =>
    obtain ⟨y, k⟩ := x
    have := h (y, k) (.head _)
    simp only [List.cons_append, holdOf]
    rw [if_neg this, ih fun x hx => h x (.tail _ hx)]

/-- A function that takes `&mut self` and begins with `let this = self;`. -/
theorem refMut_of {fn : Fn} {rest : Stmt} (hH : H.recv = .refMut)
    (hf : stmtSyn C fn.body = stmtSyn C (.seq .letThis rest))
    (hp : ∀ x ∈ fn.params, x.1 ≠ "self") (hr : Fine T C "this" rest) (ht : Pure T C fn.tail) :
    (fnSyn C H tag fn).mutOk T = true := by
  refine mutOk_of ?_ ht
  rw [hf, stmtSyn, stmtsMut_append]
  have h1 : holdOf "self" (startVars H fn) = some (.borrow true) := by
    unfold startVars
    rw [self_kept, hH]
    · rfl
    · intro x hx
      obtain ⟨y, hy, rfl⟩ := List.mem_map.mp hx
      exact hp y hy
  generalize startVars H fn = vs at h1
  have h2 : stmtsMut T vs (stmtSyn C .letThis) = true ∧ Can "this" (after vs (stmtSyn C .letThis)) := by
    mt [Can, h1]
  rw [h2.1, (hr _ h2.2).1]
  rfl

/-- A function that changes nothing that was there before. -/
theorem calm_of {fn : Fn} {rest : Stmt} (hf : fn.body = .seq .letThis rest) (hr : Calm T C rest) (ht : Pure T C fn.tail) :
    (fnSyn C H tag fn).mutOk T = true := by
  refine mutOk_of ?_ ht
  rw [hf, stmtSyn, stmtsMut_append, (hr _).1]
  rfl

theorem pure_unit : Pure T C .unit := fun _ => rfl

theorem pure_okUnit : Pure T C (.okE .unit) := fun _ => rfl

theorem pure_whole (b : Bool) : Pure T C (.whole b) := fun _ => by mt []

theorem pure_okWhole (b : Bool) : Pure T C (.okE (.whole b)) := fun _ => by mt []

theorem Fine.all1 {x : String} {a : Stmt} (ha : Fine T C x a) : Fine T C x (.all [a]) := ha.seq .skip

/-! ## Fields -/

theorem getter_mut : (fnSyn C H tag (getterFn B f)).mutOk T = true :=
  calm_of rfl (Calm.all2 (extract_calm B f .bitfield false false false) (signExtend_calm f)) (return_pure B f)

theorem inverted_mut : (fnSyn C H tag (invertedFn B f)).mutOk T = true :=
  calm_of rfl (Calm.all1 (extract_calm B f .bitfield false true false)) (return_pure B f)

theorem setter_mut (hH : H.recv = .refMut) : (fnSyn C H tag (setterFn B f)).mutOk T = true :=
  refMut_of hH rfl (by simp [setterFn]) (Fine.all1 (setFromVar_fine B f _ _ _ false)) pure_unit

theorem checkedSetter_mut (hH : H.recv = .refMut) : (fnSyn C H tag (checkedSetterFn B f)).mutOk T = true :=
  refMut_of hH rfl (by simp [checkedSetterFn]) (Fine.all1 (setFromVar_fine B f _ _ _ false)) pure_okUnit

theorem invertField_mut (hH : H.recv = .refMut) : (fnSyn C H tag (invertFieldFn B f)).mutOk T = true :=
  refMut_of hH rfl (by simp [invertFieldFn])
    (Fine.seq (Calm.fine (b := false) (extract_calm B f .bitfield false true false))
      (Fine.all1 (Fine.method (b := false) (return_pure B f)))) pure_unit

theorem clearField_mut (hH : H.recv = .refMut) : (fnSyn C H tag (clearFieldFn B f)).mutOk T = true :=
  refMut_of hH rfl (by simp [clearFieldFn]) (Fine.all1 (setZero_fine B f)) pure_unit

theorem clearToDefault_mut (hu : QuietDefaults T C B) (hf : f ∈ B.fields) (hH : H.recv = .refMut) :
    (fnSyn C H tag (clearToDefaultFn B f)).mutOk T = true :=
  refMut_of hH rfl (by simp [clearToDefaultFn]) (Fine.all1 (setDefault_fine hu hf)) pure_unit

/-! ## Construction -/

/-- What follows the declaration of `this`. -/
theorem newRest_fine (hu : QuietDefaults T C B) (d : Bool) : Fine T C "this" (.all
    [setZerosTok B d, if d then setDefaultsTok B else .skip,
     if d then .skip else .all ((B.fields.filter fun f => f.reserved && f.hasDefault).map (setDefaultTok B))]) := by
  refine (setZeros_fine B d).seq (.seq ?_ (.seq ?_ .skip))
  · split
    · exact setDefaults_fine hu
    · exact .skip
  · split
    · exact .skip
    · refine .all fun s hs => ?_
      obtain ⟨f, hf, rfl⟩ := List.mem_map.mp hs
      exact setDefault_fine hu (List.mem_filter.mp hf).1

/-- The members for ignored fields change nothing. -/
def QuietIgnored (T : String → Bool) (C : Style) : Prop := ∀ vs, fieldsMut T vs C.ignored = true

theorem initThis_mut (hi : QuietIgnored T C) (b mu : Bool) {e : Expr} (he : Pure T C e) (vs : Vars) :
    stmtsMut T vs (stmtSyn C (.initThis b e mu)) = true ∧
      after vs (stmtSyn C (.initThis b e mu)) = ("this", .own mu) :: vs := by
  have h1 := hi vs
  have h2 := he vs
  rw [stmtSyn]
  cases hg : C.ignored with
  | nil =>
    simp [stmtsMut, exprMut, exprsMut, names, h2, after, SExpr.held]
  | cons i is =>
    rw [hg] at h1
    obtain ⟨y, e⟩ := i
    simp only [fieldsMut, Bool.and_eq_true] at h1
    simp [stmtsMut, exprMut, fieldsMut, h2, h1, after, SExpr.held]

theorem initTok_mut (hi : QuietIgnored T C) (b mu : Bool) (vs : Vars) :
    stmtsMut T vs (stmtSyn C (initTok B b mu)) = true ∧
      ∃ h, after vs (stmtSyn C (initTok B b mu)) = ("this", h) :: vs ∧ h = .own mu := by
  unfold initTok
  have h := initThis_mut (T := T) hi b mu (e := match B.backing with
     | .int _ => .lit 0 none
     | .arr n => if B.heap then .boxNew (.zeros n) else .zeros n) (by
    intro vs
    split
    · mt []
    · split <;> mt []) vs
  exact ⟨h.1, _, h.2, rfl⟩

/-- Without a field nothing is set. -/
theorem newRest_empty {d : Bool} (h : thisMut B d = false) (vs : Vars) : stmtsMut T vs (stmtSyn C (.all
    [setZerosTok B d, if d then setDefaultsTok B else .skip,
     if d then .skip else .all ((B.fields.filter fun f => f.reserved && f.hasDefault).map (setDefaultTok B))])) = true := by
  simp only [thisMut, Bool.or_eq_false_iff, List.any_eq_false, Bool.not_eq_true, Bool.not_eq_false'] at h
  obtain ⟨h1, h2⟩ := h
  have hz : B.fields.filter (fun f => !(d && f.hasDefault)) = [] := by
    rw [List.filter_eq_nil_iff]
    intro f hf
    simp [h1 f hf]
  cases d with
  | false =>
    have : B.fields = [] := by
      cases hB : B.fields with
      | nil => rfl
      | cons f fs =>
        have := h1 f (by rw [hB]; exact .head _)
        simp at this
    simp [setZerosTok, this, Stmt.all, stmtSyn, stmtsMut]
  | true =>
    have hd : B.fields.filter Field.hasDefault = [] := by
      rw [List.filter_eq_nil_iff]
      intro f hf h3
      simp only [Bool.true_and, List.any_eq_false] at h2
      exact h2 f hf h3
    simp only [setZerosTok, hz, setDefaultsTok, hd, List.map_nil, Stmt.all, if_true]
    rfl

theorem newTok_mut (hu : QuietDefaults T C B) (hi : QuietIgnored T C) (d b : Bool) (vs : Vars) :
    stmtsMut T vs (stmtSyn C (newTok B d b false)) = true := by
  have e : newTok B d b false = .seq (initTok B b (thisMut B d)) (.all
    [setZerosTok B d, if d then setDefaultsTok B else .skip,
     if d then .skip else .all ((B.fields.filter fun f => f.reserved && f.hasDefault).map (setDefaultTok B))]) := rfl
  rw [e, stmtSyn, stmtsMut_append]
  obtain ⟨h1, h, h2, rfl⟩ := initTok_mut (T := T) (B := B) hi b (thisMut B d) vs
  rw [h1, h2, Bool.true_and]
  cases hm : thisMut B d with
  | false => exact newRest_empty hm _
  | true => exact (newRest_fine hu d _ (.inl (by simp [holdOf]))).1

theorem new_mut (hu : QuietDefaults T C B) (hi : QuietIgnored T C) (d : Bool) : (fnSyn C H tag (newFn B d)).mutOk T = true :=
  mutOk_of (newTok_mut hu hi d false _) (pure_whole _)

theorem clear_mut (hu : QuietDefaults T C B) (d : Bool) (hH : H.recv = .refMut) :
    (fnSyn C H tag (clearFn B d)).mutOk T = true :=
  refMut_of hH rfl (by simp [clearFn]) (Fine.all1 (Fine.seq .skip (newRest_fine hu d))) pure_unit

theorem default_mut {G : Gen} (hu : QuietDefaults T C G.B) (hi : QuietIgnored T C) : (fnSyn C H tag (defaultFn G)).mutOk T = true := by
  refine mutOk_of ?_ ?_
  · unfold defaultFn
    simp only []
    split
    · rfl
    · rw [Stmt.all, stmtSyn, stmtsMut_append]
      obtain ⟨h1, h, h2, rfl⟩ := initTok_mut (T := T) (B := G.B) hi false true (startVars H { builder := false, params := [], ret := .self, body := .seq (initTok G.B false) (.all [setDefaultsTok G.B]), tail := .whole false })
      rw [h1, h2, Bool.true_and]
      exact (Fine.all1 (setDefaults_fine hu) _ (.inl (by simp [holdOf]))).1
  · unfold defaultFn
    intro vs
    simp only []
    split <;> mt []

theorem builderNew_mut {G : Gen} (hu : QuietDefaults T C G.B) (hi : QuietIgnored T C) (d : Bool) :
    (fnSyn C H tag (builderNewFn G d)).mutOk T = true := by
  refine mutOk_of ?_ ?_
  · unfold builderNewFn
    simp only []
    split
    · rfl
    · exact newTok_mut hu hi d true _
  · unfold builderNewFn
    intro vs
    simp only []
    split <;> mt []

theorem builderDefault_mut : (fnSyn C H tag builderDefaultFn).mutOk T = true :=
  mutOk_of rfl fun vs => by mt [builderDefaultFn]

theorem with_mut (hH : H.recv = .valueMut) : (fnSyn C H tag (withFn B f)).mutOk T = true := by
  refine mutOk_of (setFromVar_fine B f true true false true _ (.inl ?_)).1 (pure_whole _)
  simp only [startVars, withFn, List.map_cons, List.map_nil, List.cons_append, List.nil_append, hH]
  rfl

theorem checkedWith_mut (hH : H.recv = .valueMut) : (fnSyn C H tag (checkedWithFn B f)).mutOk T = true := by
  refine mutOk_of (setFromVar_fine B f true true true true _ (.inl ?_)).1 (pure_okWhole _)
  simp only [startVars, checkedWithFn, List.map_cons, List.map_nil, List.cons_append, List.nil_append, hH]
  rfl

/-! ## Conversions -/

/-- `this` is declared with `mut`, then set. -/
theorem made_of {vs : Vars} (hu : QuietDefaults T C B) (hi : QuietIgnored T C) {p : Protection} {d : Bool} :
    stmtsMut T vs (stmtSyn C (.all [initTok B false, setAllTok B p, if d then setDefaultsTok B else .skip])) = true := by
  rw [Stmt.all, stmtSyn, stmtsMut_append]
  obtain ⟨h1, h, h2, rfl⟩ := initTok_mut (T := T) (B := B) hi false true vs
  rw [h1, h2, Bool.true_and]
  refine ((setAll_fine B p).seq (.all1 ?_) _ (.inl (by simp [holdOf]))).1
  split
  · exact setDefaults_fine hu
  · exact .skip

theorem seq_mut {a b : Stmt} {vs : Vars} (ha : stmtsMut T vs (stmtSyn C a) = true) (hb : ∀ vs, stmtsMut T vs (stmtSyn C b) = true) :
    stmtsMut T vs (stmtSyn C (.seq a b)) = true := by
  rw [stmtSyn, stmtsMut_append, ha, hb]
  rfl

theorem from_mut (hu : QuietDefaults T C B) (hi : QuietIgnored T C) (e : Option Endian) (d : Bool) :
    (fnSyn C H tag (fromFn B e d)).mutOk T = true := by
  refine mutOk_of (seq_mut ?_ fun vs => made_of hu hi) (pure_whole _)
  simp only [startVars, fromFn]
  unfold fromConvTok
  cases hB : B.backing with
  | int w => 
    cases e with
    | none => cases B.fromEndian <;> mt [paramTok, hB, intEndianTok]
    | some e => cases e <;> mt [paramTok, hB]
  | arr n =>
    simp only []
    cases e.getD B.fromEndian <;> mt [paramTok, hB, xorLoopTok, sigSyn, backTy, tySyn, SType.held]

theorem pure_inner (b : Bool) : Pure T C (.inner b) := fun vs => by mt []

theorem innerArr_pure : Pure T C (innerArrTok B) := by
  unfold innerArrTok
  split
  · intro vs; mt []
  · exact pure_inner _

theorem innerArr_held {mu : Bool} (vs : Vars) : (exprSyn C (innerArrTok B)).held vs mu = .own mu := by
  unfold innerArrTok
  split
  · rfl
  · rw [exprSyn, innerSyn_held]

theorem into_mut (e : Option Endian) : (fnSyn C H tag (intoFn B e)).mutOk T = true := by
  have ha := innerArr_pure (T := T) (C := C) (B := B)
  have hh := fun vs => innerArr_held (C := C) (B := B) (mu := true) vs
  refine mutOk_of ?_ ?_
  · generalize startVars H (intoFn B e) = vs
    simp only [intoFn]
    cases hB : B.backing with
    | int w =>
      simp only []
      cases e.getD B.intoEndian <;> mt [intEndianTok]
    | arr n =>
      simp only []
      cases e.getD B.intoEndian
      · mt []
      · have h1 := fun vs => ha vs
        simp only [Stmt.all, stmtSyn, stmtsMut, xorLoopTok, List.cons_append, List.nil_append, List.append_nil, hh, h1]
        mt []
  · simp only [intoFn]
    cases hB : B.backing with
    | int w => exact pure_var _
    | arr n =>
      simp only []
      split
      · exact ha
      · exact pure_var _

theorem slice_from_mut {n : Nat} (hu : QuietDefaults T C B) (hi : QuietIgnored T C) (e : Option Endian) (d : Bool) :
    (fnSyn C H tag (fromSliceFn B n e d)).mutOk T = true := by
  refine mutOk_of ?_ (pure_whole _)
  have e1 : stmtSyn C (fromSliceFn B n e d).body = stmtSyn C (.all
    [.letS "bits" (some (.arr n)) (.zeros n) true,
     .letS "copy_len" none (copyLenTok n),
     copyLoopTok "bits" "slice" (.var "copy_len"),
     sliceEndianTok n (e.getD B.fromEndian)]) ++
       stmtSyn C (.all [initTok B false, setAllTok B .none, if d then setDefaultsTok B else .skip]) := by
    simp only [fromSliceFn, Stmt.all, stmtSyn, List.append_assoc, List.append_nil]
  rw [e1, stmtsMut_append, made_of hu hi, Bool.and_true]
  simp only [startVars, fromSliceFn]
  cases e.getD B.fromEndian <;>
    mt [sliceEndianTok, xorLoopTok, copyLoopTok, copyLenTok, sigSyn, SType.held]

theorem checkedSlice_from_mut {n : Nat} (hu : QuietDefaults T C B) (hi : QuietIgnored T C) (e : Option Endian) (d : Bool) :
    (fnSyn C H tag (checkedFromSliceFn B n e d)).mutOk T = true := by
  refine mutOk_of ?_ (pure_okWhole _)
  have e1 : stmtSyn C (checkedFromSliceFn B n e d).body = stmtSyn C (.all
    [sliceCheckTok n errSliceFill,
     .letS "bits" (some (.arr n)) (.zeros n) true,
     copyLoopTok "bits" "slice" (.lit n (some .usize)),
     sliceEndianTok n (e.getD B.fromEndian)]) ++
       stmtSyn C (.all [initTok B false, setAllTok B .none, if d then setDefaultsTok B else .skip]) := by
    simp only [checkedFromSliceFn, Stmt.all, stmtSyn, List.append_assoc, List.append_nil]
  rw [e1, stmtsMut_append, made_of hu hi, Bool.and_true]
  simp only [startVars, checkedFromSliceFn]
  cases e.getD B.fromEndian <;>
    mt [sliceEndianTok, xorLoopTok, copyLoopTok, sliceCheckTok, sigSyn, SType.held]

theorem slice_into_mut {n : Nat} (e : Option Endian) (hH : H.slice = true) :
    (fnSyn C H tag (intoSliceFn B n e)).mutOk T = true := by
  have ha := fun vs => innerArr_pure (T := T) (C := C) (B := B) vs
  have hh := fun mu vs => innerArr_held (C := C) (B := B) (mu := mu) vs
  refine mutOk_of ?_ pure_unit
  simp only [startVars, intoSliceFn]
  cases e.getD B.intoEndian <;>
  · simp only [sliceBitsTok, Stmt.all, stmtSyn, stmtsMut, stmtsMut_append, after_append, xorLoopTok, List.cons_append,
      List.nil_append, List.append_nil, hh, ha, after]
    mt [copyLoopTok, copyLenTok, sigSyn, SType.held, hH]

theorem checkedSlice_into_mut {n : Nat} (e : Option Endian) (hH : H.slice = true) :
    (fnSyn C H tag (checkedIntoSliceFn B n e)).mutOk T = true := by
  have ha := fun vs => innerArr_pure (T := T) (C := C) (B := B) vs
  have hh := fun mu vs => innerArr_held (C := C) (B := B) (mu := mu) vs
  refine mutOk_of ?_ pure_okUnit
  simp only [startVars, checkedIntoSliceFn]
  cases e.getD B.intoEndian <;>
  · simp only [sliceBitsTok, Stmt.all, stmtSyn, stmtsMut, stmtsMut_append, after_append, xorLoopTok, List.cons_append,
      List.nil_append, List.append_nil, hh, ha, after, sliceCheckTok]
    mt [copyLoopTok, copyLenTok, sigSyn, SType.held, hH]

theorem traitConv_mut {e : Expr} {E : Endian} {vs : Vars} (he : exprMut T vs (exprSyn C e) = true)
    (hh : (exprSyn C e).held vs true = .own true) (hc : changes T (exprSyn C e) "swap_bytes" = false) :
    exprMut T vs (exprSyn C (traitConvTok B e E)) = true := by
  unfold traitConvTok
  split
  · simp [exprSyn, exprMut, exprsMut, he, hc]
  · exact he
  · exact he
  · simp only [exprSyn, Stmt.all, stmtSyn, stmtsMut, exprMut, List.cons_append, List.nil_append, List.append_nil, he, hh]
    mt []

theorem param_start {fn : Fn} (hp : fn.params = [(paramTok B, backTy B.backing)]) :
    startVars H fn = (paramTok B, .own false) :: H.recv.vars := by
  simp only [startVars, hp, List.map_cons, List.map_nil, List.cons_append, List.nil_append]
  cases B.backing <;> rfl

theorem param_held (vs : Vars) (y : String × Hold) (hy : y.1 ≠ paramTok B) (mu : Bool) :
    (exprSyn C (.var (paramTok B))).held (y :: (paramTok B, .own false) :: vs) mu = .own mu := by
  simp [exprSyn, names, SExpr.held, holdOf, hy]

theorem param_changes (x : String) : changes T (exprSyn C (.var (paramTok B))) x = false := by
  simp only [exprSyn, names, List.map_cons, List.map_nil, changes]
  unfold paramTok
  cases B.backing <;> simp

theorem param_ne {y : String} (h1 : y ≠ "bits") (h2 : y ≠ "bytes") : y ≠ paramTok B := by
  unfold paramTok
  cases B.backing
  · exact h1
  · exact h2

theorem traitFrom_mut (hi : QuietIgnored T C) : (fnSyn C H tag (traitFromFn B)).mutOk T = true := by
  refine mutOk_of ?_ (pure_whole _)
  rw [param_start rfl]
  simp only [traitFromFn, Stmt.all]
  rw [stmtSyn, stmtsMut_append]
  obtain ⟨h1, h, h2, rfl⟩ := initTok_mut (T := T) (B := B) hi false true ((paramTok B, .own false) :: H.recv.vars)
  rw [h1, h2, Bool.true_and, stmtSyn, stmtsMut_append]
  have h3 : exprMut T (("this", .own true) :: (paramTok B, .own false) :: H.recv.vars)
      (exprSyn C (traitConvTok B (.var (paramTok B)) B.fromEndian)) = true :=
    traitConv_mut (pure_var _ _) (param_held _ _ (param_ne (by decide) (by decide)) _) (param_changes _)
  have h4 := fun vs hc => (Fine.all1 (setAll_fine (T := T) (C := C) B .none) vs hc).1
  simp only [Stmt.all] at h4
  rw [h4 _ (.inl (by simp [stmtSyn, after, holdOf]))]
  simp [stmtSyn, stmtsMut, h3]

theorem traitInto_mut : (fnSyn C H tag (traitIntoFn B)).mutOk T = true := by
  have key : ∀ vs e, Pure T C e → (exprSyn C e).held vs true = .own true → changes T (exprSyn C e) "swap_bytes" = false →
      exprMut T vs (exprSyn C (traitConvTok B e B.intoEndian)) = true := fun vs e h1 h2 h3 => traitConv_mut (h1 vs) h2 h3
  refine mutOk_of (by simp [traitIntoFn, stmtSyn, stmtsMut, exprMut, names]) fun vs => ?_
  simp only [traitIntoFn]
  have hc : changes T (innerSyn C false) "swap_bytes" = false := by
    unfold innerSyn
    split <;> simp [changes, thisSyn, names]
  cases B.backing with
  | int w => exact key _ _ (pure_inner _) (by rw [exprSyn, innerSyn_held]) (by rw [exprSyn]; exact hc)
  | arr n =>
    refine key _ _ innerArr_pure (innerArr_held _) ?_
    show changes T (exprSyn C (innerArrTok B)) _ = _
    unfold innerArrTok
    split
    · rfl
    · rw [exprSyn]; exact hc

/-! ## Writing and inverting -/

theorem write_mut (hu : QuietDefaults T C B) (e : Option Endian) (d : Bool) (hH : H.recv = .refMut) :
    (fnSyn C H tag (writeFn B e d)).mutOk T = true := by
  refine mutOk_of ?_ pure_unit
  rw [param_start rfl, hH]
  have h1 : Fine T C "this" (.all [setAllTok B .readOnly, if d then setDefaultsTok B else .skip]) := by
    refine (setAll_fine B .readOnly).seq (.all1 ?_)
    split
    · exact setDefaults_fine hu
    · exact .skip
  have e1 : stmtSyn C (writeFn B e d).body = stmtSyn C (.all
      [.letThis, .letS "bits" none (.var (paramTok B)), writeConvTok B (e.getD B.writeEndian)]) ++
        stmtSyn C (.all [setAllTok B .readOnly, if d then setDefaultsTok B else .skip]) := by
    simp only [writeFn, Stmt.all, stmtSyn, List.append_assoc, List.append_nil]
  rw [e1, stmtsMut_append]
  unfold writeConvTok
  have e2 : paramTok B = (match B.backing with
    | .int _ => "bits"
    | .arr _ => "bytes") := rfl
  rw [e2]
  cases B.backing with
  | int w =>
    simp only []
    cases e.getD B.writeEndian
    · rw [(h1 _ (.inr (by mt [Recv.vars]))).1]
      mt [Recv.vars]
    · rw [(h1 _ (.inr (by mt [Recv.vars]))).1]
      mt [Recv.vars]
  | arr n =>
    simp only []
    cases e.getD B.writeEndian
    · rw [(h1 _ (.inr (by mt [Recv.vars, xorLoopTok]))).1]
      mt [Recv.vars, xorLoopTok]
    · rw [(h1 _ (.inr (by mt [Recv.vars]))).1]
      mt [Recv.vars]

theorem writeDefaults_mut (hu : QuietDefaults T C B) (hH : H.recv = .refMut) :
    (fnSyn C H tag (writeDefaultsFn B)).mutOk T = true :=
  refMut_of hH rfl (by simp [writeDefaultsFn]) (Fine.all1 (setDefaults_fine hu)) pure_unit

theorem prot_calm (p : Protection) : Calm T C (protTok B p) := by
  unfold protTok
  split
  · exact .letS (fun vs => by mt []) (by decide)
  · exact .letS (fun vs => by mt []) (by decide)

theorem invert_mut (hH : H.recv = .refMut) : (fnSyn C H tag (invertFn B)).mutOk T = true := by
  cases hB : B.backing with
  | int w =>
    refine refMut_of hH (rest := .all
        [.letS "bits" none (.inner false), protTok B .readOnly,
         .letS "bits" none (.bin .or (.bin .and (.not (.var "bits")) (.not (.var "protected_mask")))
           (.bin .and (.var "bits") (.var "protected_mask"))),
         setAllTok B .none]) ?_ (by simp [invertFn]) ?_ pure_unit
    · simp [invertFn, hB, Stmt.all]
    · exact .seq (.letS (pure_inner _) (by decide)) (.seq (Calm.fine (b := false) (prot_calm _))
        (.seq (.letS (fun vs => by mt []) (by decide)) (.all1 (setAll_fine B _))))
  | arr n =>
    refine refMut_of hH (rest := .seq (.all
        [.letS "bits" none (innerArrTok B) true, protTok B .readOnly,
         .letS "i" none (.lit 0 (some .usize)) true,
         .loop (.bin .lt (.var "i") (.lit n (some .usize))) (.all
           [.assignElem "bits" (.var "i") none (.bin .or
              (.bin .and (.not (.index (.var "bits") (.var "i"))) (.not (.index (.var "protected_mask") (.var "i"))))
              (.bin .and (.index (.var "bits") (.var "i")) (.index (.var "protected_mask") (.var "i")))),
            incr "i"])]) (.all [setAllTok B .none])) ?_ (by simp [invertFn]) ?_ pure_unit
    · simp only [invertFn, hB, Stmt.all, stmtSyn, List.append_assoc, List.append_nil]
    · intro vs h
      have h1 := (Fine.all1 (setAll_fine (T := T) (C := C) B .none))
      rw [stmtSyn, stmtsMut_append, after_append]
      have ha := fun vs => innerArr_pure (T := T) (C := C) (B := B) vs
      have hh := fun mu vs => innerArr_held (C := C) (B := B) (mu := mu) vs
      have h2 : ∀ l : List SStmt, l = stmtSyn C (.all
        [.letS "bits" none (innerArrTok B) true, protTok B .readOnly,
         .letS "i" none (.lit 0 (some .usize)) true,
         .loop (.bin .lt (.var "i") (.lit n (some .usize))) (.all
           [.assignElem "bits" (.var "i") none (.bin .or
              (.bin .and (.not (.index (.var "bits") (.var "i"))) (.not (.index (.var "protected_mask") (.var "i"))))
              (.bin .and (.index (.var "bits") (.var "i")) (.index (.var "protected_mask") (.var "i")))),
            incr "i"])]) → stmtsMut T vs l = true ∧ Can "this" (after vs l) := by
        rintro l rfl
        have hp : protTok B .readOnly = .letS "protected_mask" (some (.arr n))
            (.bytes (protMaskBytes (protectedFields B .readOnly) n)) := by simp only [protTok, hB]
        rw [hp]
        simp only [Stmt.all, stmtSyn, stmtsMut, List.cons_append, List.nil_append, List.append_nil, hh, ha, after]
        have h := h
        unfold Can at h
        mt [Can, h]
      obtain ⟨h3, h4⟩ := h2 _ rfl
      rw [h3, (h1 _ h4).1]
      exact ⟨rfl, (h1 _ h4).2⟩

/-! ## Bits and ranges -/

theorem size_pure : Pure T C (sizeTok B) := by
  intro vs
  unfold sizeTok
  split <;> mt []

theorem offsetGuard_calm {r : Stmt} (hr : Calm T C r) : Calm T C (offsetGuardTok B r) :=
  .ite (fun vs => by mt [size_pure vs]) hr .skip

theorem lengthGuard_calm {r : Stmt} (hr : Calm T C r) : Calm T C (lengthGuardTok B r) :=
  .ite (fun vs => by mt [size_pure vs]) hr .skip

theorem fieldGuard_calm {G : Gen} {read : Bool} {r : Stmt} (hr : Calm T C r) : Calm T C (fieldGuardTok G read r) := by
  refine .all fun s hs => ?_
  obtain ⟨f, -, rfl⟩ := List.mem_map.mp hs
  split
  · exact .ite (fun vs => by mt []) hr .skip
  · exact .ite (fun vs => by mt []) hr .skip

theorem err_calm (msg : String) : Calm T C (.ret (.errE msg)) := .ret fun vs => by mt []

theorem ret_calm : Calm T C (.ret .unit) := .ret pure_unit

theorem setBit_fine : Fine T C "this" (setBitTok B) := by
  unfold setBitTok
  split
  · exact storeBit_fine (b := false) (pure_var _) (pure_var _)
  · exact .seq (.letS (fun vs => by mt []) (by decide)) (.seq (.letS (fun vs => by mt []) (by decide))
      (.all1 (storeByteBit_fine (b := false) (pure_var _) (pure_cast (pure_var _)) (pure_var _))))

theorem setBit_mut {G : Gen} (hH : H.recv = .refMut) : (fnSyn C H tag (setBitFn G)).mutOk T = true :=
  refMut_of hH rfl (by simp [setBitFn])
    (.seq (Calm.fine (b := false) (offsetGuard_calm ret_calm)) (.seq (Calm.fine (b := false) (fieldGuard_calm ret_calm))
      (.all1 setBit_fine))) pure_unit

theorem checkedSetBit_mut {G : Gen} (hH : H.recv = .refMut) : (fnSyn C H tag (checkedSetBitFn G)).mutOk T = true :=
  refMut_of hH rfl (by simp [checkedSetBitFn])
    (.seq (Calm.fine (b := false) (offsetGuard_calm (err_calm _))) (.seq (Calm.fine (b := false) (fieldGuard_calm (err_calm _)))
      (.all1 setBit_fine))) pure_okUnit

theorem getBit_pure : Pure T C (getBitTok B) := by
  intro vs
  unfold getBitTok
  split <;> mt []

theorem bitIndex_calm : Calm T C (bitIndexTok B) := by
  unfold bitIndexTok
  split
  · exact .skip
  · exact .all2 (.letS (fun vs => by mt []) (by decide)) (.letS (fun vs => by mt []) (by decide))

theorem getBit_mut {G : Gen} : (fnSyn C H tag (getBitFn G)).mutOk T = true :=
  calm_of rfl (.all3 (offsetGuard_calm (.ret fun vs => by mt [])) (fieldGuard_calm (.ret fun vs => by mt [])) bitIndex_calm)
    getBit_pure

theorem checkedGetBit_mut {G : Gen} : (fnSyn C H tag (checkedGetBitFn G)).mutOk T = true :=
  calm_of rfl (.all3 (offsetGuard_calm (err_calm _)) (fieldGuard_calm (err_calm _)) bitIndex_calm)
    fun vs => by mt [checkedGetBitFn, getBit_pure vs]

theorem returnZero_calm : Calm T C (returnZeroTok B) := by
  refine .ret ?_
  split <;> exact fun vs => by mt []

theorem protLoop_calm {bit byte inByte msg : String} (h : bit ≠ "i" ∧ byte ≠ "i" ∧ inByte ≠ "i") :
    Calm T C (protLoopTok bit byte inByte msg) := by
  obtain ⟨h1, h2, h3⟩ := h
  intro vs
  refine ⟨?_, fun x hx => ?_⟩
  · mt [protLoopTok, upToTok, posTok, isProtTok, bitSetTok, h1, h2, h3]
  · simp only [constant, List.mem_cons, List.not_mem_nil, or_false] at hx
    rcases hx with rfl | rfl | rfl <;> mt [protLoopTok, upToTok, posTok, isProtTok, bitSetTok, h1, h2, h3]

theorem setRange_mut {G : Gen} (hH : H.recv = .refMut) : (fnSyn C H tag (setRangeFn G)).mutOk T = true := by
  refine refMut_of hH rfl (by simp [setRangeFn]) (.seq (Calm.fine (b := false) (offsetGuard_calm ret_calm))
    (.seq (Calm.fine (b := false) (lengthGuard_calm ret_calm)) (.all1 ?_))) pure_unit
  split
  · exact .seq (.letS (fun vs => by mt [mask_pure (pure_var _) vs]) (by decide))
      (.seq (Calm.fine (b := false) (prot_calm _)) (.seq (.letS (fun vs => by mt []) (by decide))
        (.all1 (Fine.assignInner (b := false) fun vs => by mt []))))
  · refine .seq (Calm.fine (b := false) (prot_calm _)) (.all1 ?_)
    intro vs h
    have hs := fun vs => (storeByteBit_fine (T := T) (C := C) (b := false) (c := .var "bit_val")
      (i := .var "dst_byte_idx") (k := .var "dst_bit_in_byte") (pure_var _) (pure_var _) (pure_var _) vs · |>.1)
    refine ⟨?_, by mt [upToTok]; exact h.cons (by decide)⟩
    mt [upToTok, srcBitTok, posTok, isProtTok, bitSetTok]
    exact hs _ (by cn)

theorem checkedSetRange_mut {G : Gen} (hH : H.recv = .refMut) :
    (fnSyn C H tag (checkedSetRangeFn G)).mutOk T = true := by
  refine refMut_of hH rfl (by simp [checkedSetRangeFn]) (.seq (Calm.fine (b := false) (offsetGuard_calm (err_calm _)))
    (.seq (Calm.fine (b := false) (lengthGuard_calm (err_calm _))) (.all1 ?_))) pure_okUnit
  split
  · exact .seq (.letS (mask_pure (pure_var _)) (by decide))
      (.seq (Calm.fine (b := false) (prot_calm _)) (.seq (.letS (fun vs => by mt []) (by decide))
        (.seq (Calm.fine (b := false) (.ite (fun vs => by mt []) (err_calm _) .skip))
        (.all1 (Fine.assignInner (b := false) fun vs => by mt [])))))
  · refine .seq (Calm.fine (b := false) (prot_calm _)) (.seq (Calm.fine (b := false) (protLoop_calm (by decide))) (.all1 ?_))
    intro vs h
    have hs := fun vs => (storeByteBit_fine (T := T) (C := C) (b := false) (c := .var "bit_val")
      (i := .var "dst_byte_idx") (k := .var "dst_bit_in_byte") (pure_var _) (pure_var _) (pure_var _) vs · |>.1)
    refine ⟨?_, by mt [upToTok]; exact h.cons (by decide)⟩
    mt [upToTok, srcBitTok, posTok, isProtTok, bitSetTok, stmtsMut_append, after_storeByteBit]
    exact hs _ (by cn)

theorem getRange_mut {G : Gen} : (fnSyn C H tag (getRangeFn G)).mutOk T = true := by
  refine calm_of rfl (.all3 (offsetGuard_calm returnZero_calm) (lengthGuard_calm returnZero_calm) ?_) ?_
  · split
    · exact .seq (.letS (mask_pure (pure_var _)) (by decide)) (.all3 (prot_calm _) (.letS (fun vs => by mt []) (by decide))
        (.letS (fun vs => by mt []) (by decide)))
    · refine .seq (prot_calm _) fun vs => ⟨?_, fun x hx => ?_⟩
      · mt [upToTok, posTok, isProtTok, bitSetTok, resBitTok]
      · simp only [constant, List.mem_cons, List.not_mem_nil, or_false] at hx
        rcases hx with rfl | rfl | rfl <;> mt [upToTok]
  · unfold getRangeFn
    simp only []
    split <;> exact fun vs => by mt []

theorem checkedGetRange_mut {G : Gen} : (fnSyn C H tag (checkedGetRangeFn G)).mutOk T = true := by
  refine calm_of rfl (.all3 (offsetGuard_calm (err_calm _)) (lengthGuard_calm (err_calm _)) ?_) ?_
  · split
    · exact .seq (.letS (mask_pure (pure_var _)) (by decide)) (.all3 (prot_calm _) (.letS (fun vs => by mt []) (by decide))
        (.ite (fun vs => by mt []) (err_calm _) .skip))
    · refine .seq (prot_calm _) (.seq (protLoop_calm (by decide)) fun vs => ⟨?_, fun x hx => ?_⟩)
      · mt [upToTok, posTok, isProtTok, bitSetTok, resBitTok]
      · simp only [constant, List.mem_cons, List.not_mem_nil, or_false] at hx
        rcases hx with rfl | rfl | rfl <;> mt [upToTok]
  · unfold checkedGetRangeFn
    simp only []
    split <;> exact fun vs => by mt []

/-! ## `fmt` and `build` -/

theorem debugFields_fine (P : Printer) {l : List Field} :
    Fine T C "debug" (.all (l.map fun f => .seq (extractTok P.B f .bitfield false false false)
      (.debugField f.name (.var "value")))) := by
  refine .all fun s hs => ?_
  obtain ⟨f, -, rfl⟩ := List.mem_map.mp hs
  refine .seq (fun vs h => ⟨(extract_calm P.B f .bitfield false false false vs).1, ?_⟩) fun vs h => ?_
  · simp only [Can, (extract_calm (T := T) P.B f .bitfield false false false vs).2 "debug" (by decide)]
    exact h
  · have h' := h
    rcases h with h | h <;> mt [h, h']

theorem fmt_mut (P : Printer) : (P.fmtSyn C).mutOk T = true := by
  simp only [SFn.mutOk, Printer.fmtSyn, debugFn]
  simp only [stmtsMut_append, after_append]
  have key : ∀ vs, Can "debug" vs → stmtsMut T vs [.expr (.method (names ["debug"]) "finish" []) false] = true := by
    intro vs h
    rcases h with h | h <;> mt [h]
  have h := debugFields_fine (T := T) (C := C) P (l := P.B.fields)
    (after (after ([("f", SType.ref (namesTy ["core", "fmt", "Formatter"]) true)].map (fun x => (x.1, x.2.held)) ++ Recv.ref.vars)
      (stmtSyn C .letThis)) [.letS "debug" none (.method (names ["f"]) "debug_struct" [.str P.name]) true])
    (.inl (by mt []))
  rw [h.1, key _ h.2]
  mt [SType.held, Recv.vars]

theorem build_mut (P : Printer) : P.buildSyn.mutOk T = true := rfl

/-! ## Everything -/

theorem quietDefaults_of {P : Printer} (h : Fits P C) : QuietDefaults T C P.B := by
  intro f hf hd vs
  have := h.user f hf hd
  generalize C.user f.offset = e at this ⊢
  generalize P.default f.offset = ts at this
  generalize f.ty = t at this
  cases this <;> rfl

theorem quietIgnored_of {P : Printer} (h : Fits P C) : QuietIgnored T C := by
  intro vs
  rw [h.ignored]
  generalize P.ignored = l
  induction l with
  | nil => rfl
  | cons x l ih =>
    have : exprMut T vs (defaultSyn x.2.1) = true := by
      unfold defaultSyn
      split <;> rfl
    simp [fieldsMut, this, ih]

theorem members_mut {P : Printer} (h : Fits P C) (F : Feature) : ∀ x ∈ P.fns F, (fnSyn C x.1 x.2.1 x.2.2).mutOk T = true := by
  have hu := quietDefaults_of (T := T) h
  have hi := quietIgnored_of (T := T) h
  intro x hx
  cases F with
  | struct | fromTraits | debug | builder | default | constants => cases hx
  | new =>
    simp only [Printer.fns, List.mem_cons, List.not_mem_nil, or_false] at hx
    rcases hx with rfl | rfl <;> exact new_mut hu hi _
  | setters =>
    obtain ⟨f, -, hx⟩ := List.mem_flatMap.mp hx
    simp only [List.mem_cons, List.not_mem_nil, or_false] at hx
    rcases hx with rfl | rfl
    · exact setter_mut rfl
    · exact checkedSetter_mut rfl
  | getters =>
    obtain ⟨f, -, rfl⟩ := List.mem_map.mp hx
    exact getter_mut
  | fromIntoBits =>
    simp only [Printer.fns] at hx
    split at hx
    · rcases List.mem_append.mp hx with hx | hx
      · obtain ⟨e, -, hx⟩ := List.mem_flatMap.mp hx
        simp only [List.mem_cons, List.not_mem_nil, or_false] at hx
        rcases hx with rfl | rfl <;> exact from_mut hu hi _ _
      · obtain ⟨f, -, rfl⟩ := List.mem_map.mp hx
        exact into_mut _
    · rcases List.mem_append.mp hx with hx | hx
      · rcases List.mem_append.mp hx with hx | hx
        · rcases List.mem_append.mp hx with hx | hx
          · obtain ⟨e, -, hx⟩ := List.mem_flatMap.mp hx
            simp only [List.mem_cons, List.not_mem_nil, or_false] at hx
            rcases hx with rfl | rfl <;> exact from_mut hu hi _ _
          · obtain ⟨e, -, hx⟩ := List.mem_flatMap.mp hx
            simp only [List.mem_cons, List.not_mem_nil, or_false] at hx
            rcases hx with rfl | rfl | rfl | rfl
            · exact slice_from_mut hu hi _ _
            · exact slice_from_mut hu hi _ _
            · exact checkedSlice_from_mut hu hi _ _
            · exact checkedSlice_from_mut hu hi _ _
        · obtain ⟨f, -, rfl⟩ := List.mem_map.mp hx
          exact into_mut _
      · obtain ⟨e, -, hx⟩ := List.mem_flatMap.mp hx
        simp only [List.mem_cons, List.not_mem_nil, or_false] at hx
        rcases hx with rfl | rfl
        · exact slice_into_mut _ rfl
        · exact checkedSlice_into_mut _ rfl
  | writeBitOps =>
    rcases List.mem_append.mp hx with hx | hx
    · obtain ⟨e, -, hx⟩ := List.mem_flatMap.mp hx
      simp only [List.mem_cons, List.not_mem_nil, or_false] at hx
      rcases hx with rfl | rfl <;> exact write_mut hu _ _ rfl
    · cases List.mem_singleton.mp hx
      exact writeDefaults_mut hu rfl
  | setGetBitOps =>
    simp only [Printer.fns, List.mem_cons, List.not_mem_nil, or_false] at hx
    rcases hx with rfl | rfl | rfl | rfl | rfl | rfl | rfl | rfl
    · exact setBit_mut rfl
    · exact checkedSetBit_mut rfl
    · exact setRange_mut rfl
    · exact checkedSetRange_mut rfl
    · exact getBit_mut
    · exact checkedGetBit_mut
    · exact getRange_mut
    · exact checkedGetRange_mut
  | clearBitOps =>
    rcases List.mem_append.mp hx with hx | hx
    · rcases List.mem_append.mp hx with hx | hx
      · simp only [List.mem_cons, List.not_mem_nil, or_false] at hx
        rcases hx with rfl | rfl <;> exact clear_mut hu _ rfl
      · obtain ⟨f, -, rfl⟩ := List.mem_map.mp hx
        exact clearField_mut rfl
    · obtain ⟨f, hf, rfl⟩ := List.mem_map.mp hx
      exact clearToDefault_mut hu (List.mem_filter.mp hf).1 rfl
  | invertBitOps =>
    rcases List.mem_append.mp hx with hx | hx
    · rcases List.mem_append.mp hx with hx | hx
      · cases List.mem_singleton.mp hx
        exact invert_mut rfl
      · obtain ⟨f, -, rfl⟩ := List.mem_map.mp hx
        exact invertField_mut rfl
    · obtain ⟨f, -, rfl⟩ := List.mem_map.mp hx
      exact inverted_mut

theorem builder_mut {P : Printer} (h : Fits P C) : ∀ x ∈ P.builderFns, (fnSyn C x.1 x.2.1 x.2.2).mutOk T = true := by
  have hu := quietDefaults_of (T := T) h
  have hi := quietIgnored_of (T := T) h
  intro x hx
  rcases List.mem_append.mp hx with hx | hx
  · simp only [List.mem_cons, List.not_mem_nil, or_false] at hx
    rcases hx with rfl | rfl <;> exact builderNew_mut hu hi _
  · obtain ⟨f, -, hx⟩ := List.mem_flatMap.mp hx
    simp only [List.mem_cons, List.not_mem_nil, or_false] at hx
    rcases hx with rfl | rfl
    · exact with_mut rfl
    · exact checkedWith_mut rfl

theorem mem_fns {i : SItem} {g : SFn} (h : g ∈ i.fns) : ∃ tr ty ms, i = .impl tr ty ms ∧ .fn g ∈ ms := by
  cases i with
  | impl tr ty ms =>
    obtain ⟨m, hm, e⟩ := List.mem_filterMap.mp h
    cases m with
    | fn f => cases e; exact ⟨tr, ty, ms, rfl, hm⟩
    | const => cases e
  | _ => cases h

theorem items_mut {P : Printer} (h : Fits P C) (F : Feature) : ∀ i ∈ P.items C F, ∀ g ∈ i.fns, g.mutOk T = true := by
  have hu := quietDefaults_of (T := T) h
  have hi := quietIgnored_of (T := T) h
  intro i hx g hg
  obtain ⟨tr, ty, ms, rfl, hg'⟩ := mem_fns hg
  replace hg := hg'
  cases F with
  | constants | new | setters | getters | fromIntoBits | writeBitOps | setGetBitOps | clearBitOps | invertBitOps => cases hx
  | struct =>
    simp only [Printer.items] at hx
    split at hx <;> cases List.mem_singleton.mp hx
  | fromTraits =>
    simp only [Printer.items, List.mem_cons, List.not_mem_nil, or_false] at hx
    rcases hx with hx | hx <;> cases hx <;> cases List.mem_singleton.mp hg
    · exact traitFrom_mut hi
    · exact traitInto_mut (H := traitHead .none P.name) (tag := .impl .intoBacking)
  | debug =>
    cases List.mem_singleton.mp hx
    cases List.mem_singleton.mp hg
    exact fmt_mut P
  | default =>
    cases List.mem_singleton.mp hx
    cases List.mem_singleton.mp hg
    exact default_mut (G := P.G) hu hi
  | builder =>
    simp only [Printer.items, List.mem_cons, List.not_mem_nil, or_false] at hx
    rcases hx with hx | hx | hx <;> cases hx
    · cases List.mem_singleton.mp hg
      exact builderDefault_mut
    · rcases List.mem_append.mp hg with hg | hg
      · obtain ⟨x, hx, e⟩ := List.mem_map.mp hg
        cases e
        exact builder_mut h x hx
      · cases List.mem_singleton.mp hg
        exact build_mut P

theorem expansion_mut {P : Printer} (h : Fits P C) : ∀ i ∈ P.expansion C, ∀ g ∈ i.fns, g.mutOk T = true := by
  intro i hx g hg
  rcases List.mem_append.mp hx with hx | hx
  · rcases List.mem_append.mp hx with hx | hx
    · obtain ⟨F, -, hx⟩ := List.mem_flatMap.mp hx
      exact items_mut h F i hx g hg
    · cases List.mem_singleton.mp hx
      obtain ⟨tr, ty, ms, e, hg⟩ := mem_fns hg
      cases e
      obtain ⟨F, -, hg⟩ := List.mem_flatMap.mp hg
      have hc : ∀ F' : Feature, SMember.fn g ∈ (P.fns F').map (fun x => SMember.fn (fnSyn C x.1 x.2.1 x.2.2)) →
          g.mutOk T = true := by
        intro F' hg
        obtain ⟨x, hx, e⟩ := List.mem_map.mp hg
        cases e
        exact members_mut h F' x hx
      cases F with
      | constants =>
        obtain ⟨f, -, hg⟩ := List.mem_flatMap.mp hg
        simp only [List.mem_cons, List.not_mem_nil, or_false, reduceCtorEq] at hg
      | _ => exact hc _ hg
  · obtain ⟨F, -, hx⟩ := List.mem_flatMap.mp hx
    exact items_mut h F i hx g hg

end Bf.Text
