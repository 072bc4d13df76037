import Verif.Lemmas.MoveFns

/-! # None of the emitted functions uses what is gone -/

namespace Bf.Text

open Rust Quote

variable {P : Printer} {C : Style} {R : Facts} {S N D : List String} {H : Head} {tag : Tag} {B : Bitfield} {f : Field} {b : Bool}

theorem nameTy_free {x : String} (h : x ∈ primitive) : Free (namesTy [x]).kind := by
  simp only [namesTy, List.map_cons, List.map_nil, SType.kind, if_pos h]
  exact .inl rfl

theorem field_free (h : ∀ c, f.ty ≠ .custom c) : Free (sigSyn H (fieldTy f.ty)).kind := by
  cases hf : f.ty with
  | custom c => exact absurd hf (h c)
  | array n => exact .inl rfl
  | int t =>
    have h1 : sigSyn H (fieldTy (.int t)) = tySyn (intTy t) := by cases t <;> rfl
    have h2 : (tySyn (intTy t)).kind = .copy := by cases t <;> decide +kernel
    rw [h1]
    exact .inl h2

theorem back_free (hk : (tySyn (backTy B.backing)).kind = .copy) : Free (sigSyn H (backTy B.backing)).kind := by
  cases hB : B.backing <;> rw [hB] at hk <;> exact .inl hk

/-! ## Fields -/

theorem signExtend_moves (hs : Around C R B b S) : Moves C R b S (signExtendTok f) := by
  unfold signExtendTok
  split
  · exact .skip
  · split
    · exact .skip
    · split
      · exact .all3 (.letS hs (by qt []) rfl rfl) (.letS hs (by qt []) rfl rfl) (.letS hs (by qt []) rfl rfl)
      · exact .skip

theorem getter_move (hs : ∀ b S, Around C R B b S) (hH : H.recv ≠ .none) : (fnSyn C H tag (getterFn B f)).moveOk R = true :=
  this_of hH rfl (by simp [getterFn]) (Moves.all2 (extract_moves (hs _ _)) (signExtend_moves (hs _ _)))
    fun _ hv => ends_quiet (hs _ _) hv return_quiet

theorem inverted_move (hs : ∀ b S, Around C R B b S) (hH : H.recv ≠ .none) : (fnSyn C H tag (invertedFn B f)).moveOk R = true :=
  this_of hH rfl (by simp [invertedFn]) (Moves.all1 (extract_moves (hs _ _)))
    fun _ hv => ends_quiet (hs _ _) hv return_quiet

theorem invertField_move (hs : ∀ b S, Around C R B b S) (hH : H.recv ≠ .none) :
    (fnSyn C H tag (invertFieldFn B f)).moveOk R = true :=
  this_of hH rfl (by simp [invertFieldFn]) (Moves.all2 (extract_moves (hs _ _)) (.of (hs _ _) (by
    have := return_quiet (B := B) (b := false) (S := (invertFieldFn B f).params.map Prod.fst) (f := f)
    qt [this, rootName])))
    fun _ _ => ends_unit

/-- A setter, whatever it ends with. -/
theorem param_of {check : Bool} {r : Ty} {e : Expr} (hs : ∀ b S, Around C R B b S) (hH : H.recv ≠ .none)
    (ht : ∀ vs, Ends C R vs e) :
    (fnSyn C H tag ⟨false, [("bits", fieldTy f.ty)], r, .all [.letThis, setFromVarTok B f false true check false], e⟩).moveOk R = true := by
  by_cases hf : ∀ c, f.ty ≠ .custom c
  · refine this_of hH rfl ?_ (Moves.all1 (setFromParam_moves (hs _ _) (by simp) hf (by simp))) fun vs _ => ht vs
    intro x hx
    cases List.mem_singleton.mp hx
    exact ⟨by simp, field_free hf⟩
  · have ⟨c, hc⟩ : ∃ c, f.ty = .custom c := by
      cases h : f.ty with
      | custom c => exact ⟨c, rfl⟩
      | _ => exact absurd (fun c h' => by rw [h] at h'; cases h') hf
    generalize hfn : (⟨false, [("bits", fieldTy f.ty)], r, .all [.letThis, setFromVarTok B f false true check false], e⟩ : Fn) = fn
    have hp : fn.params = [("bits", fieldTy f.ty)] := by rw [← hfn]
    have h1 : Ok ("bits" :: looked) (dead false) (fn.params.map Prod.fst) (startKinds H fn) :=
      start_ok (by decide) fun x hx => .inr (by
        rw [hp] at hx
        cases List.mem_singleton.mp hx
        exact .head _)
    obtain ⟨k, h2, h3⟩ := start_self (H := H) (fn := fn) (fun x hx => by
      rw [hp] at hx
      cases List.mem_singleton.mp hx
      simp) hH
    obtain ⟨vs, h4, h5⟩ := letThis_goes (C := C) (R := R) h1 h2 h3 (by decide) (by decide)
    obtain ⟨vs', h6, h7⟩ := setFromParam_goes (hs false) hc (u := false) (check := check) (by simp) h4
    refine moveOk_of (vs := vs') ?_ (by rw [← hfn]; exact ht _)
    have : fn.body = .all [.letThis, setFromVarTok B f false true check false] := by rw [← hfn]
    rw [this]
    exact h5.seq h7.all1

theorem setter_move (hs : ∀ b S, Around C R B b S) (hH : H.recv ≠ .none) : (fnSyn C H tag (setterFn B f)).moveOk R = true :=
  param_of hs hH fun _ => ends_unit

theorem checkedSetter_move (hs : ∀ b S, Around C R B b S) (hH : H.recv ≠ .none) :
    (fnSyn C H tag (checkedSetterFn B f)).moveOk R = true := param_of hs hH fun _ => ends_okUnit

/-- A function of the builder that sets a field. -/
theorem with_of {check : Bool} {r : Ty} {e : Expr} (hs : ∀ b S, Around C R B b S)
    (ht : ∀ vs, kindOf "self" vs ≠ some .gone → Ends C R vs e) :
    (fnSyn C H tag ⟨true, [("bits", fieldTy f.ty)], r, setFromVarTok B f true true check true, e⟩).moveOk R = true := by
  generalize hfn : (⟨true, [("bits", fieldTy f.ty)], r, setFromVarTok B f true true check true, e⟩ : Fn) = fn
  have hp : fn.params = [("bits", fieldTy f.ty)] := by rw [← hfn]
  have hb : fn.body = setFromVarTok B f true true check true := by rw [← hfn]
  have hS : fn.params.map Prod.fst = ["bits"] := by rw [hp]; rfl
  have h1 : Ok ("bits" :: looked) (dead true) ["bits"] (startKinds H fn) := hS ▸
    start_ok (by decide) fun x hx => .inr (by
      rw [hp] at hx
      cases List.mem_singleton.mp hx
      exact .head _)
  have key : ∀ vs', kindOf "self" vs' ≠ some .gone → Goes C R (startKinds H fn) fn.body vs' → (fnSyn C H tag fn).moveOk R = true :=
    fun vs' h3 h4 => moveOk_of h4 (by rw [← hfn]; exact ht _ h3)
  by_cases hu : f.hasSetter = true
  · obtain ⟨vs', h3, h4⟩ := builderSet_goes (f := f) (check := check) (hs true ["bits"]) h1
    refine key vs' h3 ?_
    rw [hb]
    simp only [setFromVarTok, hu, Bool.and_self, if_true]
    exact h4
  · have hu' : (true && (f.hasSetter && true)) = false := by simp [hu]
    by_cases hf : ∀ c, f.ty ≠ .custom c
    · have h1' : Ok looked (dead true) ["bits"] (startKinds H fn) := hS ▸
        start_ok (by decide) fun x hx => .inl (by
          rw [hp] at hx
          cases List.mem_singleton.mp hx
          exact field_free hf)
      obtain ⟨vs', h3, h4⟩ := (setFromParam_moves (hs true ["bits"]) (by simp) hf (u := true) (check := check) hu').goes h1'
      exact key vs' (h3.there (by decide)) (hb ▸ h4)
    · have ⟨c, hc⟩ : ∃ c, f.ty = .custom c := by
        cases h : f.ty with
        | custom c => exact ⟨c, rfl⟩
        | _ => exact absurd (fun c h' => by rw [h] at h'; cases h') hf
      obtain ⟨vs', h3, h4⟩ := setFromParam_goes (hs true) hc (u := true) (check := check) hu' h1
      exact key vs' (h3.there (by decide)) (hb ▸ h4)

theorem with_move (hs : ∀ b S, Around C R B b S) : (fnSyn C H tag (withFn B f)).moveOk R = true :=
  with_of hs fun _ h => ends_whole h

theorem checkedWith_move (hs : ∀ b S, Around C R B b S) : (fnSyn C H tag (checkedWithFn B f)).moveOk R = true :=
  with_of hs fun _ h => ends_okWhole h

/-! ## Zeros and defaults -/

theorem setZero_moves (hs : Around C R B false S) : Moves C R false S (setZeroTok B f) := by
  refine .if (.of hs (setterCall_quiet zero_quiet)) (.direct hs zero_quiet fun n => ?_)
  unfold zeroTok
  split
  · exact .inl nofun
  · exact .inl nofun
  · exact .inl nofun
  · split
    · exact .inl nofun
    · rename_i m h
      exact .inr (.inr ⟨m, h⟩)

theorem setDefault_moves (hs : Around C R B false S) (hf : f ∈ B.fields) : Moves C R false S (setDefaultTok B f) := by
  unfold setDefaultTok
  split
  · rename_i v h
    have hq : QE B false S (.user f.offset f.ty v) := by
      simp only [QE, quietE, hasUser]
      exact List.any_eq_true.mpr ⟨f, hf, by simp [Field.hasDefault, h]⟩
    exact .if (.of hs (setterCall_quiet hq)) (.direct hs hq fun n => .inl nofun)
  · exact .skip

theorem setZeros_moves (hs : Around C R B false S) (d : Bool) : Moves C R false S (setZerosTok B d) := by
  refine .all fun s h => ?_
  obtain ⟨f, -, rfl⟩ := List.mem_map.mp h
  exact setZero_moves hs

theorem setDefaults_moves (hs : Around C R B false S) : Moves C R false S (setDefaultsTok B) := by
  refine .all fun s h => ?_
  obtain ⟨f, hf, rfl⟩ := List.mem_map.mp h
  exact setDefault_moves hs (List.mem_filter.mp hf).1

theorem setAll_moves (hs : Around C R B false S) (p : Protection) : Moves C R false S (setAllTok B p) := by
  refine .all fun s h => ?_
  obtain ⟨f, -, rfl⟩ := List.mem_map.mp h
  exact setFromVar_moves hs

theorem newRest_moves (hs : Around C R B false S) (d : Bool) : Moves C R false S (.all
    [setZerosTok B d, if d then setDefaultsTok B else .skip,
     if d then .skip else .all ((B.fields.filter fun f => f.reserved && f.hasDefault).map (setDefaultTok B))]) := by
  refine .all3 (setZeros_moves hs d) (.if (setDefaults_moves hs) .skip) (.if .skip (.all fun s h => ?_))
  obtain ⟨f, hf, rfl⟩ := List.mem_map.mp h
  exact setDefault_moves hs (List.mem_filter.mp hf).1

theorem clearField_move (hs : ∀ b S, Around C R B b S) (hH : H.recv ≠ .none) : (fnSyn C H tag (clearFieldFn B f)).moveOk R = true :=
  this_of hH rfl (by simp [clearFieldFn]) (Moves.all1 (setZero_moves (hs _ _))) fun _ _ => ends_unit

theorem clearToDefault_move (hs : ∀ b S, Around C R B b S) (hf : f ∈ B.fields) (hH : H.recv ≠ .none) :
    (fnSyn C H tag (clearToDefaultFn B f)).moveOk R = true :=
  this_of hH rfl (by simp [clearToDefaultFn]) (Moves.all1 (setDefault_moves (hs _ _) hf)) fun _ _ => ends_unit

theorem clear_move (hs : ∀ b S, Around C R B b S) (d : Bool) (hH : H.recv ≠ .none) : (fnSyn C H tag (clearFn B d)).moveOk R = true :=
  this_of hH rfl (by simp [clearFn]) (Moves.all1 (.seq .skip (newRest_moves (hs _ _) d))) fun _ _ => ends_unit

/-! ## Construction -/

/-- The members for ignored fields take nothing. -/
def FreshIgnored (C : Style) : Prop := ∀ R vs, runFields R vs C.ignored = some vs

theorem initThis_goes (hi : FreshIgnored C) {b' mu : Bool} {e : Expr} {k : Kind} {vs : Kinds}
    (h1 : runE R false vs (exprSyn C e) = some (k, vs)) : Goes C R vs (.initThis b' e mu) (("this", .owned) :: vs) := by
  cases hg : C.ignored with
  | nil =>
    exact Goes.letS (C := C) (e := .call (names [selfName C b']) [exprSyn C e]) (k := .owned) (by rw [stmtSyn, hg]) (by
      rw [runE, runEs, h1, Option.bind_some, runEs, Option.map_some])
  | cons i is =>
    exact Goes.letS (C := C) (e := .struct [.name (selfName C b')] (("val", exprSyn C e) :: i :: is)) (k := .owned) (by rw [stmtSyn, hg]) (by
      rw [runE, runFields, h1, Option.bind_some, ← hg, hi, Option.map_some])

theorem init_goes (hi : FreshIgnored C) {b' mu : Bool} {vs : Kinds} (hs : Around C R B b S) (hv : Ok looked (dead b) S vs) :
    ∃ vs', Ok looked (dead b) ("this" :: S) vs' ∧ Goes C R vs (initTok B b' mu) vs' := by
  refine ⟨("this", .owned) :: vs, hv.grow (.inr (.inl ⟨by decide, nofun⟩)), ?_⟩
  have hq : QE B b S (match B.backing with
     | .int _ => .lit 0 none
     | .arr n => if B.heap then .boxNew (.zeros n) else .zeros n) := by
    split
    · qt []
    · split <;> qt []
  obtain ⟨k, -, -, h⟩ := quietE_runs hs _ vs hq hv
  exact initThis_goes hi h

/-- A function that makes the bitfield after some statements. -/
theorem made_move {fn : Fn} {S' : List String} {rest : Stmt} (hi : FreshIgnored C) {b' mu : Bool} (hs : ∀ b S, Around C R B b S) {vs : Kinds} {s : Stmt}
    (h1 : Goes C R (startKinds H fn) s vs) (hv : Ok looked (dead false) S vs) (hS : ∀ x ∈ S', x ∈ "this" :: S)
    (hf : stmtSyn C fn.body = stmtSyn C (.seq s (.seq (initTok B b' mu) rest)))
    (hr : Moves C R false S' rest) (ht : ∀ vs, kindOf "this" vs ≠ some .gone → Ends C R vs fn.tail) :
    (fnSyn C H tag fn).moveOk R = true := by
  obtain ⟨v1, h2, g2⟩ := init_goes (b' := b') (mu := mu) hi (hs false S) hv
  obtain ⟨v2, h3, g3⟩ := hr.goes (h2.less hS)
  have g := h1.seq (g2.seq g3)
  refine moveOk_of (vs := v2) ?_ (ht _ (h3.there (by decide)))
  unfold Goes
  rw [hf]
  exact g

theorem ok_empty {fn : Fn} (hp : fn.params = []) : Ok looked (dead b) [] (startKinds H fn) := by
  have h := start_ok (N := looked) (D := dead b) (H := H) (fn := fn) (by decide) (by simp [hp])
  rw [hp] at h
  exact h

theorem new_move (hs : ∀ b S, Around C R B b S) (hi : FreshIgnored C) (d : Bool) :
    (fnSyn C H tag (newFn B d)).moveOk R = true :=
  made_move (s := .skip) (S := []) (S' := []) hi hs .skip (ok_empty rfl) (by simp) rfl (newRest_moves (hs _ _) d)
    fun _ h => ends_whole h

theorem ends_assoc {vs : Kinds} {c : Bool} {t : Tag} : Ends C R vs (.assoc c t) :=
  ends_of ⟨(.owned, vs), by rw [exprSyn, runE, runEs, Option.map_some]⟩

theorem default_move {G : Gen} (hs : ∀ b S, Around C R G.B b S) (hi : FreshIgnored C) :
    (fnSyn C H tag (defaultFn G)).moveOk R = true := by
  unfold defaultFn
  by_cases hn : G.new = true
  · simp only [hn, if_true]
    exact moveOk_of .skip ends_assoc
  · simp only [hn, Bool.false_eq_true, if_false]
    exact made_move (s := .skip) (S := []) (S' := []) hi hs .skip (ok_empty rfl) (by simp) rfl
      (Moves.all1 (setDefaults_moves (hs _ _))) fun _ h => ends_whole h

theorem builderNew_move {G : Gen} (hs : ∀ b S, Around C R G.B b S) (hi : FreshIgnored C) (d : Bool) :
    (fnSyn C H tag (builderNewFn G d)).moveOk R = true := by
  unfold builderNewFn
  by_cases hn : G.new = true
  · simp only [hn, if_true]
    exact moveOk_of .skip ends_assoc
  · simp only [hn, Bool.false_eq_true, if_false]
    exact made_move (s := .skip) (S := []) (S' := []) hi hs .skip (ok_empty rfl) (by simp) rfl
      (newRest_moves (hs _ _) d) fun _ h => ends_whole h

theorem builderDefault_move : (fnSyn C H tag builderDefaultFn).moveOk R = true := moveOk_of .skip ends_assoc

/-! ## Conversions -/

theorem xorLoop_moves (hs : Around C R B b S) {n : Nat} {c : Bool} : Moves C R b S (xorLoopTok n c) := by
  refine .of hs ?_
  cases c <;> qt [xorLoopTok]

theorem intEndian_moves (hs : Around C R B b S) {e : Endian} : Moves C R b S (intEndianTok e) := by
  cases e
  · exact .letS hs (by qt []) rfl rfl
  · exact .skip

theorem fromConv_moves (hs : Around C R B b S) (hS : paramTok B ∈ S) (e : Option Endian) : Moves C R b S (fromConvTok B e) := by
  unfold paramTok at hS
  unfold fromConvTok
  cases hB : B.backing with
  | int w =>
    simp only [hB] at hS
    cases e with
    | none => exact .all2 (.letS hs (by qt []) rfl (by simp [bound, hS])) (intEndian_moves hs)
    | some e =>
      cases e
      · exact .letS hs (by qt []) rfl rfl
      · exact .letS hs (by qt []) rfl (by simp [bound, hS])
  | arr n =>
    simp only [hB] at hS
    simp only []
    split
    · exact .letS hs (by qt []) rfl (by simp [bound, hS])
    · exact .all2 (.letS hs (by qt []) rfl (by simp [bound, hS])) (xorLoop_moves hs)

theorem param_ok {fn : Fn} (hk : (tySyn (backTy B.backing)).kind = .copy) (hp : fn.params = [(paramTok B, backTy B.backing)]) :
    Ok looked (dead b) [paramTok B] (startKinds H fn) := by
  have h := start_ok (N := looked) (D := dead b) (H := H) (fn := fn) (by decide) fun x hx => .inl (by
    rw [hp] at hx
    cases List.mem_singleton.mp hx
    exact back_free hk)
  rw [hp] at h
  exact h

theorem setRest_moves (hs : Around C R B false S) {p : Protection} {d : Bool} :
    Moves C R false S (.all [setAllTok B p, if d then setDefaultsTok B else .skip]) :=
  .all2 (setAll_moves hs p) (.if (setDefaults_moves hs) .skip)

theorem from_move (hs : ∀ b S, Around C R B b S) (hi : FreshIgnored C) (hk : (tySyn (backTy B.backing)).kind = .copy)
    (e : Option Endian) (d : Bool) : (fnSyn C H tag (fromFn B e d)).moveOk R = true := by
  obtain ⟨vs, h1, h2⟩ := (fromConv_moves (hs false [paramTok B]) (by simp) e).goes (param_ok (H := H) (fn := fromFn B e d) hk rfl)
  exact made_move (S' := []) hi hs h2 h1 (by simp) rfl (setRest_moves (hs false [])) fun _ h => ends_whole h

theorem innerArr_quiet {n : Nat} (hB : B.backing = .arr n) : QE B false S (innerArrTok B) := by
  unfold innerArrTok
  cases hh : B.heap <;> simp [QE, quietE, seeE, root_dead, plainStore, hB, hh]

theorem innerArr_copy : copyK (innerArrTok B) = true := by
  unfold innerArrTok
  cases B.heap <;> rfl

theorem innerArr_bound : bound S (innerArrTok B) = true := by
  unfold innerArrTok
  cases B.heap <;> rfl

theorem inner_quiet {w : Nat} (hB : B.backing = .int w) : QE B false S (.inner false) := by
  simp [QE, quietE, root_dead, plainStore, hB]

theorem into_move (hs : ∀ b S, Around C R B b S) (e : Option Endian) (hH : H.recv ≠ .none) :
    (fnSyn C H tag (intoFn B e)).moveOk R = true := by
  cases hB : B.backing with
  | int w =>
    refine this_of (rest := .all [.letS "bits" none (.inner false), intEndianTok (e.getD B.intoEndian)]) hH ?_ (by simp [intoFn])
      (Moves.all2 (.letS (hs _ _) (inner_quiet hB) rfl rfl) (intEndian_moves (hs _ _))) fun vs hv => ?_
    · simp only [intoFn, hB, Stmt.all]
    · simp only [intoFn, hB]
      exact ends_quiet (hs _ _) hv (by qt [])
  | arr n =>
    cases he : e.getD B.intoEndian with
    | little =>
      refine this_of (rest := .skip) hH ?_ (by simp [intoFn]) .skip fun vs hv => ?_
      · simp only [intoFn, hB, he, stmtSyn, List.append_nil]
      · simp only [intoFn, hB, he]
        exact ends_quiet (hs _ _) hv (innerArr_quiet hB)
    | big =>
      refine this_of (rest := .all [.letS "bits" none (innerArrTok B) true, xorLoopTok n false]) hH ?_ (by simp [intoFn])
        (Moves.all2 (.letS (hs _ _) (innerArr_quiet hB) innerArr_copy innerArr_bound) (xorLoop_moves (hs _ _))) fun vs hv => ?_
      · simp only [intoFn, hB, he, Stmt.all]
      · simp only [intoFn, hB, he]
        exact ends_quiet (hs _ _) hv (by qt [])

theorem copyLen_quiet {n : Nat} : QE B b S (copyLenTok n) := by qt [copyLenTok]

theorem copyLoop_moves (hs : Around C R B b S) {x y : String} {e : Expr} (hx : x ∉ dead b) (hy : y ∉ dead b) (he : QE B b S e) :
    Moves C R b S (copyLoopTok x y e) := by
  refine .of hs ?_
  simp only [mem_dead] at hx hy
  qt [copyLoopTok, he, hx, hy]

theorem sliceCheck_moves (hs : Around C R B b S) {n : Nat} {m : String} : Moves C R b S (sliceCheckTok n m) :=
  .of hs (by qt [sliceCheckTok])

theorem sliceEndian_moves (hs : Around C R B b S) {n : Nat} {e : Endian} : Moves C R b S (sliceEndianTok n e) := by
  cases e
  · exact .skip
  · exact xorLoop_moves hs

theorem slice_ok {fn : Fn} (hp : fn.params = [("slice", .slice)]) : Ok looked (dead b) [] (startKinds H fn) := by
  have h := start_ok (N := looked) (D := dead b) (H := H) (fn := fn) (by decide) fun x hx => .inr (by
    rw [hp] at hx
    cases List.mem_singleton.mp hx
    decide)
  exact h.less (by simp)

theorem notDead {x : String} (h1 : x ≠ "self") (h2 : x ≠ "field_bits") : x ∉ dead b := by simp [mem_dead, h1, h2]

theorem slice_from_move {n : Nat} (hs : ∀ b S, Around C R B b S) (hi : FreshIgnored C) (e : Option Endian) (d : Bool) :
    (fnSyn C H tag (fromSliceFn B n e d)).moveOk R = true := by
  obtain ⟨vs, h1, h2⟩ := (Moves.seq (s := .letS "bits" (some (.arr n)) (.zeros n) true) (.letS (hs false []) (by qt []) rfl rfl)
    (.all3 (.letS (x := "copy_len") (t := none) (mu := false) (hs _ _) (copyLen_quiet (n := n)) rfl rfl)
      (copyLoop_moves (x := "bits") (y := "slice") (hs _ _) (by decide) (by decide) (e := .var "copy_len") (by qt []))
      (sliceEndian_moves (hs _ _) (n := n) (e := e.getD B.fromEndian)))).goes (slice_ok (H := H) (fn := fromSliceFn B n e d) rfl)
  refine made_move (b' := false) (mu := true) (S' := []) hi hs h2 h1 (by simp) ?_ (setRest_moves (hs false []) (p := .none) (d := d)) fun _ h => ends_whole h
  simp only [fromSliceFn, Stmt.all, stmtSyn, List.append_assoc, List.nil_append]

theorem checkedSlice_from_move {n : Nat} (hs : ∀ b S, Around C R B b S) (hi : FreshIgnored C) (e : Option Endian) (d : Bool) :
    (fnSyn C H tag (checkedFromSliceFn B n e d)).moveOk R = true := by
  obtain ⟨vs, h1, h2⟩ := (Moves.seq (sliceCheck_moves (hs false []) (n := n) (m := errSliceFill)) (Moves.all3
    (.letS (x := "bits") (t := some (.arr n)) (e := .zeros n) (mu := true) (hs false []) (by qt []) rfl rfl)
      (copyLoop_moves (x := "bits") (y := "slice") (hs _ _) (by decide) (by decide) (e := .lit n (some .usize)) (by qt []))
      (sliceEndian_moves (hs _ _) (n := n) (e := e.getD B.fromEndian)))).goes (slice_ok (H := H) (fn := checkedFromSliceFn B n e d) rfl)
  refine made_move (b' := false) (mu := true) (S' := []) hi hs h2 h1 (by simp) ?_ (setRest_moves (hs false []) (p := .none) (d := d)) fun _ h => ends_okWhole h
  simp only [checkedFromSliceFn, Stmt.all, stmtSyn, List.append_assoc, List.nil_append]

theorem sliceBits_moves {n m : Nat} {e : Endian} (hs : Around C R B false S) (hB : B.backing = .arr m) :
    Moves C R false S (sliceBitsTok B n e) := by
  have h := fun mu => Moves.letS hs (x := "bits") (t := none) (mu := mu) (innerArr_quiet hB) innerArr_copy innerArr_bound
  cases e
  · exact h _
  · exact .all2 (h _) (xorLoop_moves hs)

/-- As `this_of` with a slice. -/
theorem slice_of {fn : Fn} {rest : Stmt} (hH : H.recv ≠ .none) (hf : stmtSyn C fn.body = stmtSyn C (.seq .letThis rest))
    (hp : fn.params = [("slice", .slice)]) (hr : Moves C R false [] rest) (ht : ∀ vs, Ends C R vs fn.tail) :
    (fnSyn C H tag fn).moveOk R = true := by
  obtain ⟨k, h2, h3⟩ := start_self (H := H) (fn := fn) (fun x hx => by
    rw [hp] at hx
    cases List.mem_singleton.mp hx
    simp) hH
  obtain ⟨vs, h4, h5⟩ := letThis_goes (C := C) (R := R) (slice_ok (b := false) hp) h2 h3 (by decide) (by decide)
  obtain ⟨vs', -, h7⟩ := hr.goes h4
  have h8 := h5.seq h7
  refine moveOk_of (vs := vs') ?_ (ht _)
  unfold Goes
  rw [hf]
  exact h8

theorem slice_into_move {n m : Nat} (hs : ∀ b S, Around C R B b S) (e : Option Endian) (hB : B.backing = .arr m) (hH : H.recv ≠ .none) :
    (fnSyn C H tag (intoSliceFn B n e)).moveOk R = true :=
  slice_of hH rfl rfl (Moves.all3 (sliceBits_moves (hs _ _) hB) (.letS (hs _ _) copyLen_quiet rfl rfl)
    (copyLoop_moves (hs _ _) (by decide) (by decide) (by qt []))) fun _ => ends_unit

theorem checkedSlice_into_move {n m : Nat} (hs : ∀ b S, Around C R B b S) (e : Option Endian) (hB : B.backing = .arr m) (hH : H.recv ≠ .none) :
    (fnSyn C H tag (checkedIntoSliceFn B n e)).moveOk R = true :=
  slice_of hH rfl rfl (Moves.all3 (sliceCheck_moves (hs _ _)) (sliceBits_moves (hs _ _) hB)
    (copyLoop_moves (hs _ _) (by decide) (by decide) (by qt []))) fun _ => ends_okUnit

/-- The conversion of a value that can be used. -/
theorem traitConv_quiet {ic : Bool} {U : Nat → Bool} {e : Expr} {E : Endian} (h : quietE looked D S ic U e = true) (hc : copyK e = true)
    (hb : bound S e = true) (hD : ∀ x ∈ ["temp_bits", "i", "temp"], x ∉ D) :
    quietE looked D S ic U (traitConvTok B e E) = true ∧ copyK (traitConvTok B e E) = true ∧ bound S (traitConvTok B e E) = true := by
  have h1 := hD "temp_bits" (by simp)
  have h2 := hD "i" (by simp)
  have h3 := hD "temp" (by simp)
  unfold traitConvTok
  split
  · exact ⟨by simpa [quietE] using h, rfl, rfl⟩
  · exact ⟨h, hc, hb⟩
  · exact ⟨h, hc, hb⟩
  · refine ⟨?_, rfl, rfl⟩
    simp [quietS, quietE, Stmt.all, seeE, incr, h, hc, hb, h1, h2, h3, mem_looked]
    simp [copyK, bound]

theorem traitFrom_move (hs : ∀ b S, Around C R B b S) (hi : FreshIgnored C) (hk : (tySyn (backTy B.backing)).kind = .copy) :
    (fnSyn C H tag (traitFromFn B)).moveOk R = true := by
  have hq := traitConv_quiet (B := B) (D := dead false) (S := [paramTok B]) (ic := plainStore B) (U := hasUser B) (e := .var (paramTok B))
    (E := B.fromEndian) (by unfold paramTok; cases B.backing <;> qt []) rfl (by simp [bound]) (by decide)
  exact made_move (s := .skip) (S' := [paramTok B]) hi hs .skip (param_ok hk rfl) (by simp) rfl
    (Moves.all2 (.letS (hs _ _) hq.1 hq.2.1 hq.2.2) (setAll_moves (hs _ _) .none)) fun _ h => ends_whole h

theorem traitInto_move (hs : ∀ b S, Around C R B b S) (hH : H.recv = .none) : (fnSyn C H tag (traitIntoFn B)).moveOk R = true := by
  have h0 : startKinds H (traitIntoFn B) = [("val", (sigSyn H .self).kind)] := by simp [startKinds, traitIntoFn, hH, Recv.kinds]
  have hk := kind_ne (sigSyn H .self)
  generalize (sigSyn H .self).kind = k at h0 hk
  obtain ⟨vs', hu⟩ := use_held (x := "val") (vs := [("val", k)]) (k := k) (by simp [kindOf]) hk
  have hg : Goes C R (startKinds H (traitIntoFn B)) (.moveThis "val") (("this", k) :: vs') := by
    rw [h0]
    have := Goes.letS (C := C) (R := R) (s := .moveThis "val") (vs := [("val", k)]) (k := k) (vs' := vs') (by rw [stmtSyn]) (by
      simpa only [names, List.map_cons, List.map_nil, runE, Bool.false_eq_true, if_false] using hu)
    simpa [names, heldKind, kindOf] using this
  have hv : Ok looked ["val"] [] (("this", k) :: vs') := by
    refine Ok.push ⟨fun x => ?_, by simp⟩ (.inr (.inl ⟨by decide, hk⟩))
    by_cases hx : "val" = x
    · exact .inl (by simp [hx])
    · rw [use_other hu x hx]
      refine .inr (.inr ?_)
      simp [kindOf, hx]
  refine moveOk_of hg ?_
  have hset := Setting.bare (hs false []) looked ["val"] []
  have hq : quietE looked ["val"] [] (plainStore B) (fun _ => false) (match B.backing with
     | .int _ => .inner false
     | .arr _ => innerArrTok B) = true := by
    cases hB : B.backing with
    | int w => simp [quietE, plainStore, hB, rootName]
    | arr n => cases hh : B.heap <;> simp [innerArrTok, quietE, seeE, plainStore, hB, hh, rootName]
  obtain ⟨k', -, -, h⟩ := quietE_runs hset _ _ (traitConv_quiet (B := B) (E := B.intoEndian) hq (by
    cases B.backing
    · rfl
    · exact innerArr_copy) (by
    cases B.backing
    · rfl
    · exact innerArr_bound) (by decide)).1 hv
  exact ends_of ⟨_, h⟩

/-! ## Writing and inverting -/

theorem writeConv_moves (hs : Around C R B b S) (hS : "bits" ∈ S) (e : Endian) : Moves C R b S (writeConvTok B e) := by
  unfold writeConvTok
  cases e
  · simp only []
    split
    · exact .letS hs (by qt []) rfl rfl
    · exact .all2 (.letS hs (by qt []) rfl (by simp [bound, hS])) (xorLoop_moves hs)
  · exact .skip

theorem write_move (hs : ∀ b S, Around C R B b S) (hk : (tySyn (backTy B.backing)).kind = .copy) (e : Option Endian) (d : Bool)
    (hH : H.recv ≠ .none) : (fnSyn C H tag (writeFn B e d)).moveOk R = true := by
  have hp : paramTok B ≠ "self" ∧ quietE looked (dead false) [paramTok B] (plainStore B) (hasUser B) (.var (paramTok B)) = true := by
    unfold paramTok
    cases B.backing <;> exact ⟨by simp, by qt []⟩
  obtain ⟨k, h2, h3⟩ := start_self (H := H) (fn := writeFn B e d) (fun x hx => by
    cases List.mem_singleton.mp hx
    exact hp.1) hH
  obtain ⟨v1, h4, g1⟩ := letThis_goes (C := C) (R := R) (param_ok (b := false) hk (fn := writeFn B e d) rfl) h2 h3 (by decide) (by decide)
  obtain ⟨k2, c1, c2, h5⟩ := quietE_runs (hs false [paramTok B]) _ v1 hp.2 h4
  have g2 := Goes.letS (C := C) (s := .letS "bits" none (.var (paramTok B))) (by rw [stmtSyn]) h5
  rw [heldKind_eq h4 rfl (by simp [bound])] at g2
  have h6 : Ok looked (dead false) ["bits", paramTok B] (("bits", k2) :: v1) := h4.grow (.inr (.inr (c2 rfl)))
  obtain ⟨v3, h7, g3⟩ := (Moves.seq (writeConv_moves (hs false ["bits", paramTok B]) (by simp) (e.getD B.writeEndian))
    (setRest_moves (hs false ["bits", paramTok B]) (p := .readOnly) (d := d))).goes h6
  exact moveOk_of (g1.seq (g2.seq g3)) ends_unit

theorem writeDefaults_move (hs : ∀ b S, Around C R B b S) (hH : H.recv ≠ .none) : (fnSyn C H tag (writeDefaultsFn B)).moveOk R = true :=
  this_of hH rfl (by simp [writeDefaultsFn]) (Moves.all1 (setDefaults_moves (hs _ _))) fun _ _ => ends_unit

theorem prot_moves (hs : Around C R B b S) (p : Protection) : Moves C R b S (protTok B p) := by
  unfold protTok
  split <;> exact .letS hs (by qt []) rfl rfl

theorem invert_move (hs : ∀ b S, Around C R B b S) (hH : H.recv ≠ .none) : (fnSyn C H tag (invertFn B)).moveOk R = true := by
  cases hB : B.backing with
  | int w =>
    refine this_of hH (rest := .all
        [.letS "bits" none (.inner false), protTok B .readOnly,
         .letS "bits" none (.bin .or (.bin .and (.not (.var "bits")) (.not (.var "protected_mask")))
           (.bin .and (.var "bits") (.var "protected_mask"))),
         setAllTok B .none]) ?_ (by simp [invertFn]) ?_ fun _ _ => ends_unit
    · simp [invertFn, hB, Stmt.all]
    · exact .seq (.letS (hs _ _) (inner_quiet hB) rfl rfl) (.all3 (prot_moves (hs _ _) _) (.letS (hs _ _) (by qt []) rfl rfl)
        (setAll_moves (hs _ _) _))
  | arr n =>
    refine this_of hH (rest := .all
        [.letS "bits" none (innerArrTok B) true, protTok B .readOnly,
         .letS "i" none (.lit 0 (some .usize)) true,
         .loop (.bin .lt (.var "i") (.lit n (some .usize))) (.all
           [.assignElem "bits" (.var "i") none (.bin .or
              (.bin .and (.not (.index (.var "bits") (.var "i"))) (.not (.index (.var "protected_mask") (.var "i"))))
              (.bin .and (.index (.var "bits") (.var "i")) (.index (.var "protected_mask") (.var "i")))),
            incr "i"]), setAllTok B .none]) ?_ (by simp [invertFn]) ?_ fun _ _ => ends_unit
    · simp only [invertFn, hB, Stmt.all]
    · exact .seq (.letS (hs _ _) (innerArr_quiet hB) innerArr_copy innerArr_bound) (.seq (prot_moves (hs _ _) _)
        (.all3 (.letS (hs _ _) (by qt []) rfl rfl) (.of (hs _ _) (by qt [])) (setAll_moves (hs _ _) _)))

/-! ## Bits and ranges -/

theorem size_quiet : QE B b S (sizeTok B) := by
  unfold sizeTok
  split <;> qt []

theorem offsetGuard_moves (hs : Around C R B b S) {r : Stmt} (hr : QS B b S r) : Moves C R b S (offsetGuardTok B r) :=
  .of hs (by
    have := size_quiet (B := B) (b := b) (S := S)
    qt [offsetGuardTok, this, hr])

theorem lengthGuard_moves (hs : Around C R B b S) {r : Stmt} (hr : QS B b S r) : Moves C R b S (lengthGuardTok B r) :=
  .of hs (by
    have := size_quiet (B := B) (b := b) (S := S)
    qt [lengthGuardTok, this, hr])

theorem fieldGuard_moves {G : Gen} (hs : Around C R G.B b S) {read : Bool} {r : Stmt} (hr : QS G.B b S r) :
    Moves C R b S (fieldGuardTok G read r) := by
  refine .all fun s h => ?_
  obtain ⟨f, -, rfl⟩ := List.mem_map.mp h
  split <;> exact .of hs (by qt [hr])

theorem retUnit_quiet : QS B b S (.ret .unit) := by qt []

theorem retErr_quiet {m : String} : QS B b S (.ret (.errE m)) := by qt []

theorem retFalse_quiet : QS B b S (.ret (.bool false)) := by qt []

theorem setBit_moves (hs : Around C R B false S) : Moves C R false S (setBitTok B) := by
  unfold setBitTok
  cases hB : B.backing with
  | int w => exact .of hs (storeBit_quiet (by simp [plainStore, hB]) (by qt []) (by qt []))
  | arr n =>
    exact .all3 (.letS hs (by qt []) rfl rfl) (.letS hs (by qt []) rfl rfl)
      (.of hs (storeByteBit_quiet (by qt []) (by qt []) (by qt [])))

/-- Parameters that are numbers. -/
theorem plain_params {l : List (String × Ty)} {x : String × Ty} (hx : x ∈ l)
    (h : ∀ x ∈ l, x.1 ≠ "self" ∧ (x.2 = .u 32 ∨ x.2 = .bool ∨ x.2 = backTy B.backing)) (hk : (tySyn (backTy B.backing)).kind = .copy) :
    x.1 ≠ "self" ∧ Free (sigSyn H x.2).kind := by
  obtain ⟨h1, h2 | h2 | h2⟩ := h x hx
  · rw [h2]
    exact ⟨h1, .inl (show (tySyn (.u 32)).kind = .copy by decide +kernel)⟩
  · rw [h2]
    exact ⟨h1, .inl (show (tySyn .bool).kind = .copy by decide +kernel)⟩
  · rw [h2]
    exact ⟨h1, back_free hk⟩

theorem setBit_move {G : Gen} (hs : ∀ b S, Around C R G.B b S) (hk : (tySyn (backTy G.B.backing)).kind = .copy) (hH : H.recv ≠ .none) :
    (fnSyn C H tag (setBitFn G)).moveOk R = true :=
  this_of hH rfl (fun _ hx => plain_params hx (by simp [setBitFn]) hk)
    (Moves.all3 (offsetGuard_moves (hs _ _) retUnit_quiet) (fieldGuard_moves (hs _ _) retUnit_quiet) (setBit_moves (hs _ _)))
    fun _ _ => ends_unit

theorem checkedSetBit_move {G : Gen} (hs : ∀ b S, Around C R G.B b S) (hk : (tySyn (backTy G.B.backing)).kind = .copy) (hH : H.recv ≠ .none) :
    (fnSyn C H tag (checkedSetBitFn G)).moveOk R = true :=
  this_of hH rfl (fun _ hx => plain_params hx (by simp [checkedSetBitFn]) hk)
    (Moves.all3 (offsetGuard_moves (hs _ _) retErr_quiet) (fieldGuard_moves (hs _ _) retErr_quiet) (setBit_moves (hs _ _)))
    fun _ _ => ends_okUnit

theorem bitIndex_moves (hs : Around C R B b S) : Moves C R b S (bitIndexTok B) := by
  unfold bitIndexTok
  split
  · exact .skip
  · exact .all2 (.letS hs (by qt []) rfl rfl) (.letS hs (by qt []) rfl rfl)

theorem getBit_quiet : QE B false S (getBitTok B) := by
  unfold getBitTok
  cases hB : B.backing with
  | int w =>
    have hp : plainStore B = true := by simp [plainStore, hB]
    qt [hp, rootName]
  | arr n => qt []

theorem getBit_move {G : Gen} (hs : ∀ b S, Around C R G.B b S) (hk : (tySyn (backTy G.B.backing)).kind = .copy) (hH : H.recv ≠ .none) :
    (fnSyn C H tag (getBitFn G)).moveOk R = true :=
  this_of hH rfl (fun _ hx => plain_params hx (by simp [getBitFn]) hk)
    (Moves.all3 (offsetGuard_moves (hs _ _) retFalse_quiet) (fieldGuard_moves (hs _ _) retFalse_quiet) (bitIndex_moves (hs _ _)))
    fun _ hv => ends_quiet (hs _ _) hv getBit_quiet

theorem checkedGetBit_move {G : Gen} (hs : ∀ b S, Around C R G.B b S) (hk : (tySyn (backTy G.B.backing)).kind = .copy) (hH : H.recv ≠ .none) :
    (fnSyn C H tag (checkedGetBitFn G)).moveOk R = true :=
  this_of hH rfl (fun _ hx => plain_params hx (by simp [checkedGetBitFn]) hk)
    (Moves.all3 (offsetGuard_moves (hs _ _) retErr_quiet) (fieldGuard_moves (hs _ _) retErr_quiet) (bitIndex_moves (hs _ _)))
    fun _ hv => ends_quiet (hs _ _) hv (by
      have := getBit_quiet (B := G.B) (S := ["offset"])
      simp only [QE] at this
      qt [checkedGetBitFn, this])

theorem retZero_quiet : QS B b S (returnZeroTok B) := by
  unfold returnZeroTok
  split <;> qt []

/-- Names that are neither looked at only nor gone. -/
theorem plain_name {x : String} (h : x ∉ "self" :: "field_bits" :: looked) : x ∉ looked ∧ x ∉ dead b := by
  simp only [List.mem_cons, not_or] at h
  exact ⟨h.2.2, notDead h.1 h.2.1⟩

theorem protLoop_moves (hs : Around C R B b S) {x y z m : String} (hx : x ∉ "self" :: "field_bits" :: looked)
    (hy : y ∉ "self" :: "field_bits" :: looked) (hz : z ∉ "self" :: "field_bits" :: looked) : Moves C R b S (protLoopTok x y z m) := by
  have h1 := plain_name (b := b) hx
  have h2 := plain_name (b := b) hy
  have h3 := plain_name (b := b) hz
  simp only [mem_looked, mem_dead] at h1 h2 h3
  exact .of hs (by qt [protLoopTok, upToTok, posTok, isProtTok, bitSetTok, h1, h2, h3])

theorem setRange_move {G : Gen} (hs : ∀ b S, Around C R G.B b S) (hk : (tySyn (backTy G.B.backing)).kind = .copy) (hH : H.recv ≠ .none) :
    (fnSyn C H tag (setRangeFn G)).moveOk R = true := by
  refine this_of hH rfl (fun _ hx => plain_params hx (by simp [setRangeFn]) hk)
    (Moves.all3 (offsetGuard_moves (hs _ _) retUnit_quiet) (lengthGuard_moves (hs _ _) retUnit_quiet) ?_) fun _ _ => ends_unit
  generalize (setRangeFn G).params.map Prod.fst = S
  cases hB : G.B.backing with
  | int w =>
    have hp : plainStore G.B = true := by simp [plainStore, hB]
    refine .seq (.letS (hs _ _) ?_ rfl rfl) (.all3 (prot_moves (hs _ _) _) (.letS (hs _ _) (by qt []) rfl rfl) (.of (hs _ _) ?_))
    · have := mask_quiet (B := G.B) (b := false) (S := S) (w := w) (e := .var "length") (by qt [])
      qt [this]
    · qt [hp, rootName]
  | arr n =>
    refine .all2 (prot_moves (hs _ _) _) (.of (hs _ _) ?_)
    have := storeByteBit_quiet (B := G.B) (b := false) (S := S) (c := .var "bit_val") (i := .var "dst_byte_idx") (k := .var "dst_bit_in_byte")
      (by qt []) (by qt []) (by qt [])
    qt [upToTok, srcBitTok, posTok, isProtTok, bitSetTok, this]

theorem checkedSetRange_move {G : Gen} (hs : ∀ b S, Around C R G.B b S) (hk : (tySyn (backTy G.B.backing)).kind = .copy) (hH : H.recv ≠ .none) :
    (fnSyn C H tag (checkedSetRangeFn G)).moveOk R = true := by
  refine this_of hH rfl (fun _ hx => plain_params hx (by simp [checkedSetRangeFn]) hk)
    (Moves.all3 (offsetGuard_moves (hs _ _) retErr_quiet) (lengthGuard_moves (hs _ _) retErr_quiet) ?_) fun _ _ => ends_okUnit
  generalize (checkedSetRangeFn G).params.map Prod.fst = S
  cases hB : G.B.backing with
  | int w =>
    have hp : plainStore G.B = true := by simp [plainStore, hB]
    exact .seq (.letS (hs _ _) (mask_quiet (by qt [])) rfl rfl) (.seq (prot_moves (hs _ _) _) (.all3 (.letS (hs _ _) (by qt []) rfl rfl)
      (.of (hs _ _) (by qt [])) (.of (hs _ _) (by qt [hp, rootName]))))
  | arr n =>
    refine .all3 (prot_moves (hs _ _) _) (protLoop_moves (hs _ _) (by decide) (by decide) (by decide)) (.of (hs _ _) ?_)
    have := storeByteBit_quiet (B := G.B) (b := false) (S := S) (c := .var "bit_val") (i := .var "dst_byte_idx") (k := .var "dst_bit_in_byte")
      (by qt []) (by qt []) (by qt [])
    qt [upToTok, srcBitTok, posTok, isProtTok, bitSetTok, this]

theorem getRange_move {G : Gen} (hs : ∀ b S, Around C R G.B b S) (hk : (tySyn (backTy G.B.backing)).kind = .copy) (hH : H.recv ≠ .none) :
    (fnSyn C H tag (getRangeFn G)).moveOk R = true := by
  refine this_of hH rfl (fun _ hx => plain_params hx (by simp [getRangeFn]) hk)
    (Moves.all3 (offsetGuard_moves (hs _ _) retZero_quiet) (lengthGuard_moves (hs _ _) retZero_quiet) ?_) fun _ hv => ?_
  · generalize (getRangeFn G).params.map Prod.fst = S
    cases hB : G.B.backing with
    | int w =>
      exact .seq (.letS (hs _ _) (mask_quiet (by qt [])) rfl rfl) (.all3 (prot_moves (hs _ _) _) (.letS (hs _ _) (by qt []) rfl rfl)
        (.letS (hs _ _) (by qt []) rfl rfl))
    | arr n =>
      exact .all3 (prot_moves (hs _ _) _) (.letS (hs _ _) (by qt []) rfl rfl)
        (.of (hs _ _) (by qt [upToTok, posTok, isProtTok, bitSetTok, resBitTok]))
  · refine ends_quiet (hs _ _) hv ?_
    simp only [getRangeFn]
    cases hB : G.B.backing with
    | int w =>
      have hp : plainStore G.B = true := by simp [plainStore, hB]
      qt [hp, rootName]
    | arr n => qt []

theorem checkedGetRange_move {G : Gen} (hs : ∀ b S, Around C R G.B b S) (hk : (tySyn (backTy G.B.backing)).kind = .copy) (hH : H.recv ≠ .none) :
    (fnSyn C H tag (checkedGetRangeFn G)).moveOk R = true := by
  refine this_of hH rfl (fun _ hx => plain_params hx (by simp [checkedGetRangeFn]) hk)
    (Moves.all3 (offsetGuard_moves (hs _ _) retErr_quiet) (lengthGuard_moves (hs _ _) retErr_quiet) ?_) fun _ hv => ?_
  · generalize (checkedGetRangeFn G).params.map Prod.fst = S
    cases hB : G.B.backing with
    | int w =>
      exact .seq (.letS (hs _ _) (mask_quiet (by qt [])) rfl rfl) (.all3 (prot_moves (hs _ _) _) (.letS (hs _ _) (by qt []) rfl rfl)
        (.of (hs _ _) (by qt [])))
    | arr n =>
      exact .seq (prot_moves (hs _ _) _) (.all3 (protLoop_moves (hs _ _) (by decide) (by decide) (by decide)) (.letS (hs _ _) (by qt []) rfl rfl)
        (.of (hs _ _) (by qt [upToTok, posTok, isProtTok, bitSetTok, resBitTok])))
  · refine ends_quiet (hs _ _) hv ?_
    simp only [checkedGetRangeFn]
    cases hB : G.B.backing with
    | int w =>
      have hp : plainStore G.B = true := by simp [plainStore, hB]
      qt [hp, rootName]
    | arr n => qt []

end Bf.Text
