import Verif.Lemmas.ScopeFns

/-! # The names the printed code uses -/

namespace Bf.Text

open Rust Quote

variable {C : Style} {X : List Seg → Bool} {need : List String} {B : Bitfield} {f : Field}

/-! ## Fields -/

theorem setFromVar_scoped {us ca ch b : Bool} (hc : ch = true → ca = true) (hb : base b ∈ need) (h : "bits" ∈ need) :
    SS X C need [] (setFromVarTok B f us ca ch b) := by
  unfold setFromVarTok
  simp only []
  split
  · rename_i h1
    cases b with
    | false => cases h1
    | true => exact builderSet_scoped h hb
  · simp only [Stmt.all]
    refine SS.seq (g1 := []) (g2 := []) ?_ ?_
    · split
      · exact signedCheck_scoped h
      · exact SS.skip
    · have he : SS X C ([] ++ need) ["value"] (extractTok B f .variable ca false b) := extract_scoped (src := .variable) h
      have hk : ∀ n, (∀ x ∈ need, x ∈ n) → "value" ∈ n → SS X C n []
          (if (f.hasSetter && us) = true then setterCallTok B f (valueTok f) b else directTok B f (valueTok f) b) := by
        intro n hn hv
        split
        · exact setterCall_scoped (hn _ hb) (value_scoped hv)
        · exact direct_scoped (hn _ hb) (value_scoped hv)
      split
      · rename_i h2
        simp only [Bool.and_eq_true, Bool.not_eq_true'] at h2
        have he : SS X C ([] ++ need) ["value", "mask"] (extractTok B f .variable ca false b) :=
          extract_mask (hc h2.1.1.1.2) h h2.1.2 h2.2
        apply SS.drop
        apply SS.seq he
        apply SS.seq (check_scoped (by simp [h]) (by simp))
        exact SS.seq (hk _ (fun x hx => by simp [hx]) (by simp)) SS.skip
      · apply SS.drop
        apply SS.seq he
        apply SS.seq SS.skip
        exact SS.seq (hk _ (fun x hx => by simp [hx]) (by simp)) SS.skip

theorem mapAll {l : List Field} {g : Field → Stmt} (h : ∀ f ∈ l, SS X C need [] (g f)) : SS X C need [] (.all (l.map g)) := by
  refine SS.all fun s hs => ?_
  obtain ⟨f, hf, rfl⟩ := List.mem_map.mp hs
  exact h f hf

theorem setAll_scoped {p : Protection} (hb : "this" ∈ need) (h : "bits" ∈ need) : SS X C need [] (setAllTok B p) :=
  mapAll fun _ _ => setFromVar_scoped (b := false) (fun h => by cases h) hb h

/-- The default expressions refer only to what is allowed. -/
def DefaultsIn (X : List Seg → Bool) (C : Style) (B : Bitfield) : Prop :=
  ∀ f ∈ B.fields, f.hasDefault = true → ∀ vs, exprScoped (allow C.name X) vs (C.user f.offset) = true

theorem setDefault_scoped (hd : DefaultsIn X C B) (hf : f ∈ B.fields) (hb : "this" ∈ need) : SS X C need [] (setDefaultTok B f) := by
  unfold setDefaultTok
  split
  · rename_i v hv
    have hu : SE X C need (.user f.offset f.ty v) := by
      unfold SE
      intro vs _
      rw [exprSyn]
      exact hd f hf (by unfold Field.hasDefault; rw [hv]; rfl) vs
    split
    · exact setterCall_scoped (b := false) hb hu
    · exact direct_scoped (b := false) hb hu
  · exact SS.skip

theorem setDefaults_scoped (hd : DefaultsIn X C B) (hb : "this" ∈ need) : SS X C need [] (setDefaultsTok B) :=
  mapAll fun _ hf => setDefault_scoped hd (List.mem_filter.mp hf).1 hb

theorem zero_scoped : SE X C need (zeroTok B f) := by
  unfold zeroTok
  repeat' split
  all_goals sw

theorem setZero_scoped (hb : "this" ∈ need) : SS X C need [] (setZeroTok B f) := by
  unfold setZeroTok
  split
  · exact setterCall_scoped (b := false) hb zero_scoped
  · exact direct_scoped (b := false) hb zero_scoped

theorem setZeros_scoped {s : Bool} (hb : "this" ∈ need) : SS X C need [] (setZerosTok B s) :=
  mapAll fun _ _ => setZero_scoped hb

theorem letThis_scoped (h : "self" ∈ need) : SS X C need ["this"] .letThis := by
  unfold SS
  intro vs hv
  refine ⟨?_, by simp [stmtSyn, declared]⟩
  sc [hv _ h, names]

theorem moveThis_scoped {x : String} (h : x ∈ need) : SS X C need ["this"] (.moveThis x) := by
  unfold SS
  intro vs hv
  refine ⟨?_, by simp [stmtSyn, declared]⟩
  sc [hv _ h, names]

/-- The members for ignored fields refer only to what is allowed. -/
def IgnoredIn (X : List Seg → Bool) (C : Style) : Prop := ∀ vs, fieldsScoped (allow C.name X) vs C.ignored = true

theorem initThis_scoped (hi : IgnoredIn X C) {b mu : Bool} {e : Expr} (he : SE X C need e) :
    SS X C need ["this"] (.initThis b e mu) := by
  unfold SS
  unfold SE at he
  intro vs hv
  have h1 := hi vs
  have h2 := he vs hv
  rw [stmtSyn]
  cases hg : C.ignored with
  | nil =>
    refine ⟨?_, by simp [declared]⟩
    sc [h2, names]
  | cons i is =>
    rw [hg] at h1
    refine ⟨?_, by simp [declared]⟩
    obtain ⟨y, e⟩ := i
    simp only [fieldsScoped, Bool.and_eq_true] at h1
    sc [h2, h1, names]

theorem init_scoped (hi : IgnoredIn X C) {b mu : Bool} : SS X C need ["this"] (initTok B b mu) := by
  refine initThis_scoped hi ?_
  split
  · sw
  · split <;> sw

theorem newRest_scoped (hd : DefaultsIn X C B) {d : Bool} (hb : "this" ∈ need) : SS X C need [] (.all
    [setZerosTok B d, if d then setDefaultsTok B else .skip,
     if d then .skip else .all ((B.fields.filter fun f => f.reserved && f.hasDefault).map (setDefaultTok B))]) := by
  refine SS.all fun s hs => ?_
  simp only [List.mem_cons, List.not_mem_nil, or_false] at hs
  rcases hs with rfl | rfl | rfl
  · exact setZeros_scoped hb
  · split
    · exact setDefaults_scoped hd hb
    · exact SS.skip
  · split
    · exact SS.skip
    · exact mapAll fun _ hf => setDefault_scoped hd (List.mem_filter.mp hf).1 hb

theorem new_scoped (hd : DefaultsIn X C B) (hi : IgnoredIn X C) {d b : Bool} : SS X C need ["this"] (newTok B d b false) :=
  SS.seq (init_scoped hi) (newRest_scoped hd (by simp))

theorem clear_scoped (hd : DefaultsIn X C B) {d b : Bool} (hb : "this" ∈ need) : SS X C need [] (newTok B d b true) :=
  SS.seq SS.skip (newRest_scoped hd (by simpa using hb))

theorem signExtend_scoped (h : "value" ∈ need) : SS X C need [] (signExtendTok f) := by
  unfold signExtendTok
  split
  · exact SS.skip
  · split
    · exact SS.skip
    · split
      · gv
      · exact SS.skip

theorem prot_scoped {p : Protection} : SS X C need ["protected_mask"] (protTok B p) := by
  unfold protTok
  split <;> gv

theorem return_scoped (h : "value" ∈ need) : SE X C need (returnTok B f) := by
  have hu := fun len => unpack_scoped (X := X) (C := C) (len := len) (v := "__val") (by simp) (SE.var h)
  unfold returnTok
  repeat' split
  all_goals sw

/-! ## Functions -/

section
variable {H : Head} {tag : Tag}

theorem tail_scoped {e : Expr} {vs : List String} {b : Bool} (h : exprScoped (allow C.name X) vs (exprSyn C e) = true) :
    stmtsScoped (allow C.name X) vs (tailSyn C b e) = true := by
  unfold tailSyn
  split <;> simp [stmtsScoped, exprScoped, fieldsScoped] <;> exact h

/-- The types in the head refer only to what is allowed. -/
def HeadIn (X : List Seg → Bool) (C : Style) (H : Head) : Prop :=
  typeScoped (allow C.name X) H.obj = true ∧ typeScoped (allow C.name X) H.self = true

theorem fn_scoped {fn : Fn} {g : List String} (hH : HeadIn X C H) (hp : ∀ x ∈ fn.params, x.1 ∈ localNames)
    (hb : SS X C (fn.params.map (·.1) ++ H.recv.names) g fn.body)
    (ht : SE X C (g ++ (fn.params.map (·.1) ++ H.recv.names)) fn.tail) :
    (fnSyn C H tag fn).scoped (allow C.name X) = true := by
  unfold SS at hb
  unfold SE at ht
  obtain ⟨h1, h2⟩ := hb _ fun x hx => hx
  have h3 := ht (declared (fn.params.map (·.1) ++ H.recv.names) (stmtSyn C fn.body)) fun x hx => by
    rcases List.mem_append.mp hx with hx | hx
    · exact h2 x hx
    · exact declared_sub _ hx
  have hr : (match retSyn H fn.ret with | some t => typeScoped (allow C.name X) t | none => true) = true := by
    unfold retSyn
    split
    · rename_i t h
      split at h
      · cases h
      · cases h; exact type_sig hH.1 hH.2 _
    · rfl
  simp only [SFn.scoped, fnSyn, Bool.and_eq_true, List.all_eq_true, List.map_map, stmtsScoped_append, decide_eq_true_eq]
  refine ⟨⟨?_, hr⟩, h1, tail_scoped h3⟩
  intro x hx
  obtain ⟨y, hy, rfl⟩ := List.mem_map.mp hx
  exact ⟨hp y hy, type_sig hH.1 hH.2 _⟩

/-- A function that begins with `let this = self;`. -/
theorem fn_this {fn : Fn} {g : List String} {rest : Stmt} (hH : HeadIn X C H) (hr : H.recv.names = ["self"])
    (hp : ∀ x ∈ fn.params, x.1 ∈ localNames) (hf : fn.body = .seq .letThis rest)
    (hb : SS X C ("this" :: fn.params.map (·.1)) g rest)
    (ht : SE X C (g ++ ("this" :: fn.params.map (·.1))) fn.tail) :
    (fnSyn C H tag fn).scoped (allow C.name X) = true := by
  refine fn_scoped (g := g ++ ["this"]) hH hp ?_ (ht.mono fun x hx => ?_)
  · rw [hf]
    refine SS.seq (letThis_scoped (by simp [hr])) (hb.mono (fun x hx => ?_) fun _ h => h)
    rcases List.mem_cons.mp hx with rfl | hx
    · simp
    · exact List.mem_append_right _ (List.mem_append_left _ hx)
  · rcases List.mem_append.mp hx with hx | hx
    · simp [hx]
    · rcases List.mem_cons.mp hx with rfl | hx
      · simp
      · exact List.mem_append_right _ (List.mem_append_left _ hx)

theorem all1 {s : Stmt} {g : List String} (h : SS X C need g s) : SS X C need g (.all [s]) := SS.seq h SS.skip

theorem okUnit : SE X C need (.okE .unit) := SE.okE SE.unit

theorem param_local : ∀ x ∈ [(paramTok B, backTy B.backing)], x.1 ∈ localNames := by
  intro x hx
  cases List.mem_singleton.mp hx
  unfold paramTok
  cases B.backing <;> simp

theorem getter_scoped (hH : HeadIn X C H) (hr : H.recv.names = ["self"]) : (fnSyn C H tag (getterFn B f)).scoped (allow C.name X) = true :=
  fn_this hH hr (fun _ h => by cases h) rfl
    (SS.seq (extract_scoped (src := .bitfield) (b := false) (by simp [sourceName, base])) (all1 (signExtend_scoped (by simp))))
    (return_scoped (by simp))

theorem inverted_scoped (hH : HeadIn X C H) (hr : H.recv.names = ["self"]) : (fnSyn C H tag (invertedFn B f)).scoped (allow C.name X) = true :=
  fn_this hH hr (fun _ h => by cases h) rfl
    (all1 (extract_scoped (src := .bitfield) (b := false) (by simp [sourceName, base])))
    (return_scoped (by simp))

theorem setter_scoped (hH : HeadIn X C H) (hr : H.recv.names = ["self"]) : (fnSyn C H tag (setterFn B f)).scoped (allow C.name X) = true :=
  fn_this hH hr (by simp [setterFn]) rfl
    (all1 (setFromVar_scoped (b := false) (fun h => by cases h) (by simp [base]) (by simp [setterFn]))) SE.unit

theorem checkedSetter_scoped (hH : HeadIn X C H) (hr : H.recv.names = ["self"]) :
    (fnSyn C H tag (checkedSetterFn B f)).scoped (allow C.name X) = true :=
  fn_this hH hr (by simp [checkedSetterFn]) rfl
    (all1 (setFromVar_scoped (b := false) (fun _ => rfl) (by simp [base]) (by simp [checkedSetterFn]))) okUnit

theorem invertField_scoped (hH : HeadIn X C H) (hr : H.recv.names = ["self"]) :
    (fnSyn C H tag (invertFieldFn B f)).scoped (allow C.name X) = true :=
  fn_this hH hr (fun _ h => by cases h) rfl
    (SS.seq (extract_scoped (src := .bitfield) (b := false) (by simp [sourceName, base]))
      (all1 (SS.expr (SE.method (b := false) (by simp [base]) (return_scoped (by simp)))))) SE.unit

theorem clearField_scoped (hH : HeadIn X C H) (hr : H.recv.names = ["self"]) :
    (fnSyn C H tag (clearFieldFn B f)).scoped (allow C.name X) = true :=
  fn_this hH hr (fun _ h => by cases h) rfl (all1 (setZero_scoped (by simp))) SE.unit

theorem clearToDefault_scoped (hd : DefaultsIn X C B) (hf : f ∈ B.fields) (hH : HeadIn X C H) (hr : H.recv.names = ["self"]) :
    (fnSyn C H tag (clearToDefaultFn B f)).scoped (allow C.name X) = true :=
  fn_this hH hr (fun _ h => by cases h) rfl (all1 (setDefault_scoped hd hf (by simp))) SE.unit

theorem newFn_scoped (hd : DefaultsIn X C B) (hi : IgnoredIn X C) (hH : HeadIn X C H) {d : Bool} :
    (fnSyn C H tag (newFn B d)).scoped (allow C.name X) = true :=
  fn_scoped hH (fun _ h => by cases h) (new_scoped hd hi) (SE.whole (b := false) (by simp [base]))

theorem clearFn_scoped (hd : DefaultsIn X C B) (hH : HeadIn X C H) (hr : H.recv.names = ["self"]) {d : Bool} :
    (fnSyn C H tag (clearFn B d)).scoped (allow C.name X) = true :=
  fn_this hH hr (fun _ h => by cases h) rfl (all1 (clear_scoped hd (by simp))) SE.unit

theorem default_scoped {G : Gen} (hd : DefaultsIn X C G.B) (hi : IgnoredIn X C) (hH : HeadIn X C H) :
    (fnSyn C H tag (defaultFn G)).scoped (allow C.name X) = true := by
  refine fn_scoped (g := if G.new then [] else ["this"]) hH (fun _ h => by cases h) ?_ ?_
  · simp only [defaultFn]
    split
    · exact SS.skip
    · exact SS.seq (init_scoped hi) (all1 (setDefaults_scoped hd (by simp)))
  · simp only [defaultFn]
    split
    · exact SE.assoc
    · exact SE.whole (b := false) (by simp [base])

theorem builderNew_scoped {G : Gen} (hd : DefaultsIn X C G.B) (hi : IgnoredIn X C) (hH : HeadIn X C H) {d : Bool} :
    (fnSyn C H tag (builderNewFn G d)).scoped (allow C.name X) = true := by
  refine fn_scoped (g := if G.new then [] else ["this"]) hH (fun _ h => by cases h) ?_ ?_
  · simp only [builderNewFn]
    split
    · exact SS.skip
    · exact new_scoped hd hi
  · simp only [builderNewFn]
    split
    · exact SE.assoc
    · exact SE.whole (b := false) (by simp [base])

theorem builderDefault_scoped (hH : HeadIn X C H) : (fnSyn C H tag builderDefaultFn).scoped (allow C.name X) = true :=
  fn_scoped hH (fun _ h => by cases h) SS.skip SE.assoc

theorem with_scoped (hH : HeadIn X C H) (hr : H.recv.names = ["self"]) : (fnSyn C H tag (withFn B f)).scoped (allow C.name X) = true :=
  fn_scoped hH (by simp [withFn]) (setFromVar_scoped (b := true) (fun h => by cases h) (by simp [hr, base]) (by simp [withFn]))
    (SE.whole (b := true) (by simp [hr, base]))

theorem checkedWith_scoped (hH : HeadIn X C H) (hr : H.recv.names = ["self"]) :
    (fnSyn C H tag (checkedWithFn B f)).scoped (allow C.name X) = true :=
  fn_scoped hH (by simp [checkedWithFn]) (setFromVar_scoped (b := true) (fun _ => rfl) (by simp [hr, base]) (by simp [checkedWithFn]))
    (SE.okE (SE.whole (b := true) (by simp [hr, base])))

/-! ## Conversions -/

theorem xorLoop_scoped {n : Nat} {sf : Bool} (h : "bits" ∈ need) : SS X C need [] (xorLoopTok n sf) := by
  unfold xorLoopTok
  cases sf <;> simp only [if_true, if_false, Bool.false_eq_true] <;> gv

theorem fromConv_scoped {e : Option Endian} (h : paramTok B ∈ need) : SS X C need ["bits"] (fromConvTok B e) := by
  have hx := fun n sf need => xorLoop_scoped (X := X) (C := C) (n := n) (sf := sf) (need := need)
  unfold fromConvTok
  unfold paramTok at h
  cases hB : B.backing with
  | int w =>
    rw [hB] at h
    simp only [] at h ⊢
    cases e with
    | none => unfold intEndianTok; cases B.fromEndian <;> gv
    | some e => cases e <;> gv
  | arr n =>
    rw [hB] at h
    simp only [] at h ⊢
    cases e.getD B.fromEndian <;> gv

theorem made_scoped (hd : DefaultsIn X C B) (hi : IgnoredIn X C) {p : Protection} {d : Bool} (h : "bits" ∈ need) :
    SS X C need ["this"] (.all [initTok B false, setAllTok B p, if d then setDefaultsTok B else .skip]) := by
  refine SS.seq (g2 := []) (init_scoped hi) (SS.seq (g1 := []) (g2 := []) (setAll_scoped (by simp) (by simp [h])) (all1 ?_))
  split
  · exact setDefaults_scoped hd (by simp)
  · exact SS.skip

theorem from_scoped (hd : DefaultsIn X C B) (hi : IgnoredIn X C) (hH : HeadIn X C H) {e : Option Endian} {d : Bool} :
    (fnSyn C H tag (fromFn B e d)).scoped (allow C.name X) = true :=
  fn_scoped hH param_local (SS.seq (fromConv_scoped (by simp [fromFn])) (made_scoped hd hi (by simp)))
    (SE.whole (b := false) (by simp [base]))

theorem innerArr_scoped (h : "this" ∈ need) : SE X C need (innerArrTok B) := by
  have h : base false ∈ need := h
  unfold innerArrTok
  split <;> sw

theorem into_scoped (hH : HeadIn X C H) (hr : H.recv.names = ["self"]) {e : Option Endian} :
    (fnSyn C H tag (intoFn B e)).scoped (allow C.name X) = true := by
  have hx := fun n sf need => xorLoop_scoped (X := X) (C := C) (n := n) (sf := sf) (need := need)
  have ha := fun need => innerArr_scoped (X := X) (C := C) (B := B) (need := need)
  have hl := fun need => letThis_scoped (X := X) (C := C) (need := need)
  have hb : base false = "this" := rfl
  cases hB : B.backing with
  | int w =>
    cases hE : e.getD B.intoEndian
    all_goals
    · apply fn_scoped hH (fun _ h => by cases h)
      · simp only [intoFn, hB, hE, intEndianTok]
        sw
      · simp only [intoFn, hB, hE, intEndianTok]
        sw
  | arr n =>
    cases hE : e.getD B.intoEndian
    all_goals
    · apply fn_scoped hH (fun _ h => by cases h)
      · simp only [intoFn, hB, hE]
        sw
      · simp only [intoFn, hB, hE]
        sw

theorem copyLoop_scoped {a b : String} {e : Expr} (ha : a ∈ need) (hb : b ∈ need) (he : SE X C need e) :
    SS X C need [] (copyLoopTok a b e) := by
  have he := he.enough
  unfold Enough at he
  unfold copyLoopTok
  gv

theorem copyLen_scoped {n : Nat} (h : "slice" ∈ need) : SE X C need (copyLenTok n) := by
  unfold copyLenTok
  sw

theorem sliceCheck_scoped {n : Nat} {m : String} (h : "slice" ∈ need) : SS X C need [] (sliceCheckTok n m) := by
  unfold sliceCheckTok
  gv

theorem sliceEndian_scoped {n : Nat} {e : Endian} (h : "bits" ∈ need) : SS X C need [] (sliceEndianTok n e) := by
  cases e
  · exact SS.skip
  · exact xorLoop_scoped h

theorem fromSlice_scoped (hd : DefaultsIn X C B) (hi : IgnoredIn X C) (hH : HeadIn X C H) {n : Nat} {e : Option Endian} {d : Bool} :
    (fnSyn C H tag (fromSliceFn B n e d)).scoped (allow C.name X) = true :=
  fn_scoped hH (by simp [fromSliceFn])
    (SS.seq (SS.letS SE.zeros (by simp) fun _ h => by cases h; rfl)
      (SS.seq (SS.let' (copyLen_scoped (by simp [fromSliceFn])) (by simp))
        (SS.seq (copyLoop_scoped (by simp) (by simp [fromSliceFn]) (SE.var (by simp)))
          (SS.seq (sliceEndian_scoped (by simp)) (made_scoped hd hi (by simp))))))
    (SE.whole (b := false) (by simp [base]))

theorem checkedFromSlice_scoped (hd : DefaultsIn X C B) (hi : IgnoredIn X C) (hH : HeadIn X C H) {n : Nat} {e : Option Endian} {d : Bool} :
    (fnSyn C H tag (checkedFromSliceFn B n e d)).scoped (allow C.name X) = true :=
  fn_scoped hH (by simp [checkedFromSliceFn])
    (SS.seq (sliceCheck_scoped (by simp [checkedFromSliceFn]))
      (SS.seq (SS.letS SE.zeros (by simp) fun _ h => by cases h; rfl)
        (SS.seq (copyLoop_scoped (by simp) (by simp [checkedFromSliceFn]) SE.lit)
          (SS.seq (sliceEndian_scoped (by simp)) (made_scoped hd hi (by simp))))))
    (SE.okE (SE.whole (b := false) (by simp [base])))

theorem sliceBits_scoped {n : Nat} {e : Endian} (h : "this" ∈ need) : SS X C need ["bits"] (sliceBitsTok B n e) := by
  cases e
  · exact SS.let' (innerArr_scoped h) (by simp)
  · exact SS.seq (SS.let' (innerArr_scoped h) (by simp)) (all1 (xorLoop_scoped (by simp)))

theorem intoSlice_scoped (hH : HeadIn X C H) (hr : H.recv.names = ["self"]) {n : Nat} {e : Option Endian} :
    (fnSyn C H tag (intoSliceFn B n e)).scoped (allow C.name X) = true :=
  fn_this hH hr (by simp [intoSliceFn]) rfl
    (SS.seq (sliceBits_scoped (by simp)) (SS.seq (SS.let' (copyLen_scoped (by simp [intoSliceFn])) (by simp))
      (all1 (copyLoop_scoped (by simp [intoSliceFn]) (by simp) (SE.var (by simp)))))) SE.unit

theorem checkedIntoSlice_scoped (hH : HeadIn X C H) (hr : H.recv.names = ["self"]) {n : Nat} {e : Option Endian} :
    (fnSyn C H tag (checkedIntoSliceFn B n e)).scoped (allow C.name X) = true :=
  fn_this hH hr (by simp [checkedIntoSliceFn]) rfl
    (SS.seq (sliceCheck_scoped (by simp [checkedIntoSliceFn])) (SS.seq (sliceBits_scoped (by simp))
      (all1 (copyLoop_scoped (by simp [checkedIntoSliceFn]) (by simp) SE.lit)))) okUnit

theorem traitConv_scoped {s : Expr} {e : Endian} (h : SE X C need s) : SE X C need (traitConvTok B s e) := by
  unfold traitConvTok
  split <;> (try simp only []) <;> sw

theorem traitFrom_scoped (hi : IgnoredIn X C) (hH : HeadIn X C H) :
    (fnSyn C H tag (traitFromFn B)).scoped (allow C.name X) = true :=
  fn_scoped hH param_local
    (SS.seq (init_scoped hi) (SS.seq (SS.let' (traitConv_scoped (SE.var (by simp [traitFromFn]))) (by simp))
      (all1 (setAll_scoped (by simp) (by simp)))))
    (SE.whole (b := false) (by simp [base]))

theorem traitInto_scoped (hH : HeadIn X C H) : (fnSyn C H tag (traitIntoFn B)).scoped (allow C.name X) = true := by
  refine fn_scoped hH (by simp [traitIntoFn]) (moveThis_scoped (by simp [traitIntoFn])) (traitConv_scoped ?_)
  split
  · exact SE.inner (b := false) (by simp [base])
  · exact innerArr_scoped (by simp)

/-! ## Writing and inverting -/

theorem writeConv_scoped {e : Endian} (h : "bits" ∈ need) : SS X C need [] (writeConvTok B e) := by
  have hx := fun n sf need => xorLoop_scoped (X := X) (C := C) (n := n) (sf := sf) (need := need)
  unfold writeConvTok
  repeat' split
  all_goals gv

theorem write_scoped (hd : DefaultsIn X C B) (hH : HeadIn X C H) (hr : H.recv.names = ["self"]) {e : Option Endian} {d : Bool} :
    (fnSyn C H tag (writeFn B e d)).scoped (allow C.name X) = true := by
  refine fn_this (g := ["bits"]) hH hr param_local rfl (SS.seq (g2 := []) (SS.let' (SE.var (by simp [writeFn])) (by simp))
    (SS.seq (g1 := []) (g2 := []) (writeConv_scoped (by simp)) (SS.seq (g1 := []) (g2 := []) (setAll_scoped (by simp) (by simp)) (all1 ?_))))
    SE.unit
  split
  · exact setDefaults_scoped hd (by simp)
  · exact SS.skip

theorem writeDefaults_scoped (hd : DefaultsIn X C B) (hH : HeadIn X C H) (hr : H.recv.names = ["self"]) :
    (fnSyn C H tag (writeDefaultsFn B)).scoped (allow C.name X) = true :=
  fn_this hH hr (fun _ h => by cases h) rfl (all1 (setDefaults_scoped hd (by simp))) SE.unit

theorem invert_scoped (hH : HeadIn X C H) (hr : H.recv.names = ["self"]) :
    (fnSyn C H tag (invertFn B)).scoped (allow C.name X) = true := by
  have hl := letThis_scoped (X := X) (C := C) (need := (invertFn B).params.map (·.1) ++ H.recv.names) (by simp [hr])
  have hp := fun need => prot_scoped (X := X) (C := C) (B := B) (p := .readOnly) (need := need)
  have hs := fun need => setAll_scoped (X := X) (C := C) (B := B) (p := .none) (need := need)
  have ha := fun need => innerArr_scoped (X := X) (C := C) (B := B) (need := need)
  have hb : base false = "this" := rfl
  apply fn_scoped (g := []) hH (fun _ h => by cases h)
  · simp only [invertFn] at hl ⊢
    cases hB : B.backing with
    | int w => gv
    | arr n => gv
  · exact SE.unit

/-! ## Bits and ranges -/

theorem size_scoped : SE X C need (sizeTok B) := by
  unfold sizeTok
  split <;> sw

theorem offsetGuard_scoped {r : Stmt} (h : "offset" ∈ need) (hr : SS X C need [] r) : SS X C need [] (offsetGuardTok B r) :=
  SS.ite (SE.bin (SE.var h) size_scoped) hr SS.skip

theorem lengthGuard_scoped {r : Stmt} (h : "offset" ∈ need) (h' : "length" ∈ need) (hr : SS X C need [] r) :
    SS X C need [] (lengthGuardTok B r) := SS.ite (SE.bin (SE.bin (SE.var h) (SE.var h')) size_scoped) hr SS.skip

theorem fieldGuard_scoped {G : Gen} {read : Bool} {r : Stmt} (h : "offset" ∈ need) (hr : SS X C need [] r) :
    SS X C need [] (fieldGuardTok G read r) := by
  refine mapAll fun f _ => ?_
  split
  · gv
  · gv

theorem retErr {m : String} : SS X C need [] (.ret (.errE m)) := SS.ret SE.errE

theorem retUnit : SS X C need [] (.ret .unit) := SS.ret SE.unit

theorem retFalse : SS X C need [] (.ret (.bool false)) := SS.ret SE.bool

theorem retZero : SS X C need [] (returnZeroTok B) := by
  refine SS.ret ?_
  split <;> sw

theorem setBitTok_scoped (h : "offset" ∈ need) (hb : "bit" ∈ need) (ht : "this" ∈ need) : SS X C need [] (setBitTok B) := by
  have ht : base false ∈ need := ht
  have hs := fun need c o hb => storeBit_scoped (X := X) (C := C) (b := false) (need := need) (c := c) (o := o) hb
  have hs' := fun need c i k hb => storeByteBit_scoped (X := X) (C := C) (b := false) (need := need) (c := c) (i := i) (k := k) hb
  unfold setBitTok
  split <;> gv

theorem setBit_scoped {G : Gen} (hH : HeadIn X C H) (hr : H.recv.names = ["self"]) :
    (fnSyn C H tag (setBitFn G)).scoped (allow C.name X) = true :=
  fn_this hH hr (by simp [setBitFn]) rfl
    (SS.seq (offsetGuard_scoped (by simp [setBitFn]) retUnit) (SS.seq (fieldGuard_scoped (by simp [setBitFn]) retUnit)
      (all1 (setBitTok_scoped (by simp [setBitFn]) (by simp [setBitFn]) (by simp))))) SE.unit

theorem checkedSetBit_scoped {G : Gen} (hH : HeadIn X C H) (hr : H.recv.names = ["self"]) :
    (fnSyn C H tag (checkedSetBitFn G)).scoped (allow C.name X) = true :=
  fn_this hH hr (by simp [checkedSetBitFn]) rfl
    (SS.seq (offsetGuard_scoped (by simp [checkedSetBitFn]) retErr) (SS.seq (fieldGuard_scoped (by simp [checkedSetBitFn]) retErr)
      (all1 (setBitTok_scoped (by simp [checkedSetBitFn]) (by simp [checkedSetBitFn]) (by simp))))) okUnit

/-- What `bitIndexTok` declares. -/
def indexNames (b : Backing) : List String :=
  match b with
  | .int _ => []
  | .arr _ => ["byte_idx", "bit_in_byte"]

theorem bitIndex_scoped (h : "offset" ∈ need) : SS X C need (indexNames B.backing) (bitIndexTok B) := by
  unfold bitIndexTok indexNames
  cases B.backing <;> simp only [] <;> gv

theorem getBitTok_scoped (h : "offset" ∈ need) (ht : "this" ∈ need) (hi : ∀ x ∈ indexNames B.backing, x ∈ need) :
    SE X C need (getBitTok B) := by
  have ht : base false ∈ need := ht
  unfold getBitTok
  unfold indexNames at hi
  split
  · sw
  · rename_i hB
    simp only [hB] at hi
    have h1 := hi "byte_idx" (by simp)
    have h2 := hi "bit_in_byte" (by simp)
    sw

theorem getBit_scoped {G : Gen} (hH : HeadIn X C H) (hr : H.recv.names = ["self"]) :
    (fnSyn C H tag (getBitFn G)).scoped (allow C.name X) = true :=
  fn_this hH hr (by simp [getBitFn]) rfl
    (SS.seq (offsetGuard_scoped (by simp [getBitFn]) retFalse) (SS.seq (fieldGuard_scoped (by simp [getBitFn]) retFalse)
      (all1 (bitIndex_scoped (B := G.B) (by simp [getBitFn])))))
    (getBitTok_scoped (by simp [getBitFn]) (by simp) fun x hx => by simp [hx])

theorem checkedGetBit_scoped {G : Gen} (hH : HeadIn X C H) (hr : H.recv.names = ["self"]) :
    (fnSyn C H tag (checkedGetBitFn G)).scoped (allow C.name X) = true :=
  fn_this hH hr (by simp [checkedGetBitFn]) rfl
    (SS.seq (offsetGuard_scoped (by simp [checkedGetBitFn]) retErr) (SS.seq (fieldGuard_scoped (by simp [checkedGetBitFn]) retErr)
      (all1 (bitIndex_scoped (B := G.B) (by simp [checkedGetBitFn])))))
    (SE.okE (getBitTok_scoped (by simp [checkedGetBitFn]) (by simp) fun x hx => by simp [hx]))

/-- The guards of the functions for ranges, then the rest. -/
theorem range_scoped {fn : Fn} {g : List String} {r1 r2 rest : Stmt} (hH : HeadIn X C H) (hr : H.recv.names = ["self"])
    (hp : ∀ x ∈ fn.params, x.1 ∈ localNames) (ho : "offset" ∈ fn.params.map (·.1)) (hl : "length" ∈ fn.params.map (·.1))
    (hf : fn.body = .all [.letThis, offsetGuardTok B r1, lengthGuardTok B r2, rest])
    (h1 : ∀ need, SS X C need [] r1) (h2 : ∀ need, SS X C need [] r2)
    (hb : SS X C ("this" :: fn.params.map (·.1)) g rest) (ht : SE X C (g ++ ("this" :: fn.params.map (·.1))) fn.tail) :
    (fnSyn C H tag fn).scoped (allow C.name X) = true := by
  refine fn_this (g := g) hH hr hp hf ?_ ht
  have := SS.seq (offsetGuard_scoped (B := B) (by simp [ho]) (h1 _)) (SS.seq (lengthGuard_scoped (B := B) (by simp [ho]) (by simp [hl]) (h2 _))
    (all1 (need := [] ++ ([] ++ ("this" :: fn.params.map (·.1)))) hb))
  exact this.mono (fun _ h => h) fun x hx => by simp [hx]

theorem setRange_scoped {G : Gen} (hH : HeadIn X C H) (hr : H.recv.names = ["self"]) :
    (fnSyn C H tag (setRangeFn G)).scoped (allow C.name X) = true := by
  have hp := fun need => prot_scoped (X := X) (C := C) (B := G.B) (p := .readOnly) (need := need)
  have hm := fun need w e h => mask_scoped (X := X) (C := C) (need := need) (w := w) (e := e) h
  have hs := fun need c i k hb => storeByteBit_scoped (X := X) (C := C) (b := false) (need := need) (c := c) (i := i) (k := k) hb
  have hb : base false = "this" := rfl
  refine range_scoped (g := []) (B := G.B) hH hr (by simp [setRangeFn]) (by simp [setRangeFn]) (by simp [setRangeFn]) rfl (fun _ => retUnit)
    (fun _ => retUnit) ?_ SE.unit
  simp only [setRangeFn, List.map_cons, List.map_nil]
  cases hB : G.B.backing with
  | int w => gv
  | arr n =>
    simp only [upToTok, srcBitTok, posTok, isProtTok, bitSetTok, List.cons_append, List.nil_append]
    gv

theorem checkedSetRange_scoped {G : Gen} (hH : HeadIn X C H) (hr : H.recv.names = ["self"]) :
    (fnSyn C H tag (checkedSetRangeFn G)).scoped (allow C.name X) = true := by
  have hp := fun need => prot_scoped (X := X) (C := C) (B := G.B) (p := .readOnly) (need := need)
  have hm := fun need w e h => mask_scoped (X := X) (C := C) (need := need) (w := w) (e := e) h
  have hs := fun need c i k hb => storeByteBit_scoped (X := X) (C := C) (b := false) (need := need) (c := c) (i := i) (k := k) hb
  have hb : base false = "this" := rfl
  refine range_scoped (g := []) (B := G.B) hH hr (by simp [checkedSetRangeFn]) (by simp [checkedSetRangeFn])
    (by simp [checkedSetRangeFn]) rfl (fun _ => retErr) (fun _ => retErr) ?_ okUnit
  simp only [checkedSetRangeFn, List.map_cons, List.map_nil]
  cases hB : G.B.backing with
  | int w => gv
  | arr n =>
    simp only [protLoopTok, upToTok, srcBitTok, posTok, isProtTok, bitSetTok, List.cons_append, List.nil_append]
    gv

theorem getRange_scoped {G : Gen} (hH : HeadIn X C H) (hr : H.recv.names = ["self"]) :
    (fnSyn C H tag (getRangeFn G)).scoped (allow C.name X) = true := by
  have hp := fun need => prot_scoped (X := X) (C := C) (B := G.B) (p := .writeOnly) (need := need)
  have hm := fun need w e h => mask_scoped (X := X) (C := C) (need := need) (w := w) (e := e) h
  have hb : base false = "this" := rfl
  cases hB : G.B.backing with
  | int w =>
    refine range_scoped (g := ["mask", "readable_mask"]) (B := G.B) hH hr (by simp [getRangeFn]) (by simp [getRangeFn]) (by simp [getRangeFn]) rfl (fun _ => retZero)
      (fun _ => retZero) ?_ ?_
    · simp only [getRangeFn, List.map_cons, List.map_nil, hB]
      gv
    · simp only [getRangeFn, List.map_cons, List.map_nil, hB]
      sw
  | arr n =>
    refine range_scoped (g := ["res"]) (B := G.B) hH hr (by simp [getRangeFn]) (by simp [getRangeFn]) (by simp [getRangeFn]) rfl (fun _ => retZero)
      (fun _ => retZero) ?_ ?_
    · simp only [getRangeFn, List.map_cons, List.map_nil, hB, resBitTok, upToTok, posTok, isProtTok, bitSetTok, List.cons_append, List.nil_append]
      gv
    · simp only [getRangeFn, List.map_cons, List.map_nil, hB]
      sw

theorem checkedGetRange_scoped {G : Gen} (hH : HeadIn X C H) (hr : H.recv.names = ["self"]) :
    (fnSyn C H tag (checkedGetRangeFn G)).scoped (allow C.name X) = true := by
  have hp := fun need => prot_scoped (X := X) (C := C) (B := G.B) (p := .writeOnly) (need := need)
  have hm := fun need w e h => mask_scoped (X := X) (C := C) (need := need) (w := w) (e := e) h
  have hb : base false = "this" := rfl
  cases hB : G.B.backing with
  | int w =>
    refine range_scoped (g := ["mask"]) (B := G.B) hH hr (by simp [checkedGetRangeFn]) (by simp [checkedGetRangeFn]) (by simp [checkedGetRangeFn]) rfl
      (fun _ => retErr) (fun _ => retErr) ?_ ?_
    · simp only [checkedGetRangeFn, List.map_cons, List.map_nil, hB]
      gv
    · simp only [checkedGetRangeFn, List.map_cons, List.map_nil, hB]
      sw
  | arr n =>
    refine range_scoped (g := ["res"]) (B := G.B) hH hr (by simp [checkedGetRangeFn]) (by simp [checkedGetRangeFn]) (by simp [checkedGetRangeFn]) rfl
      (fun _ => retErr) (fun _ => retErr) ?_ ?_
    · simp only [checkedGetRangeFn, List.map_cons, List.map_nil, hB, protLoopTok, resBitTok, upToTok, posTok, isProtTok, bitSetTok,
        List.cons_append, List.nil_append]
      gv
    · simp only [checkedGetRangeFn, List.map_cons, List.map_nil, hB]
      sw

end

end Bf.Text
