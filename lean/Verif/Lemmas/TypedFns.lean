import Verif.Lemmas.Typed
import Verif.Lemmas.CodeProgram
import Verif.Lemmas.Names

/-!
# Every emitted function is well typed: helper lemmas
-/

namespace Bf.Quote

open Rust

variable {S : Sig} {B : Bitfield} {f : Field} {N : Names}

/-- The surroundings of a function. -/
def atFn (S : Sig) (f : Fn) : Sig := { S with builder := f.builder, ret := f.ret }

theorem Declares.at (h : Declares S B) (g : Fn) : Declares (atFn S g) B := ⟨h.inner, h.const, h.set, h.checkedSet⟩

theorem DefaultsOk.at (h : DefaultsOk S B) (g : Fn) : DefaultsOk (atFn S g) B := h

theorem typed_of {g : Fn} (h : ∃ N, g.body.typ (atFn S g) { vars := g.params.map fun x => (x.1, .ty x.2), this := false } =
    some N ∧ g.tail.typ (atFn S g) (some g.ret) N = some (.ty g.ret)) : g.typed S = true := by
  obtain ⟨N, h1, h2⟩ := h
  unfold atFn at h1 h2
  simp only [Fn.typed, h1, h2, decide_true]

theorem reaches_false (h : S.builder = false) : Reaches S B := fun hx => by rw [h] at hx; cases hx

theorem letThis_typ (h : S.builder = false) : Stmt.letThis.typ S N = some { N with this := true } := by ty [h]

theorem skip_typ {Q : Names → Prop} (h : Q N) : ∃ N', Stmt.skip.typ S N = some N' ∧ Q N' := ⟨N, by ty [], h⟩

theorem last_typ {s : Stmt} {Q : Names → Prop} (h : ∃ N', s.typ S N = some N' ∧ Q N') :
    ∃ N', (Stmt.seq s .skip).typ S N = some N' ∧ Q N' := by
  obtain ⟨N', h1, h2⟩ := h
  exact seq_typ h1 (skip_typ h2)

theorem return_typ {t : Ty} (hv : findVar "value" N.vars = some (.ty t))
    (ht : t = readTy B.backing f.ty ∨ (∃ it, f.ty = .int it ∧ it ≠ .bool ∧ t = intTy it)) :
    (returnTok B f).typ S (some (fieldTy f.ty)) N = some (.ty (fieldTy f.ty)) := by
  unfold returnTok
  cases hty : f.ty with
  | int it =>
    rw [hty] at ht
    by_cases hb : it = .bool
    · subst hb
      have ht : t = readTy B.backing (.int .bool) := by
        rcases ht with h | ⟨_, h1, h2, -⟩
        · exact h
        · cases h1; exact absurd rfl h2
      subst ht
      cases hB : B.backing <;> ty [hv, readTy, hB, fieldTy, intTy]
    · have hI := intTy_isInt hb
      have hc : (STy.ty t).castable = true := by
        rcases ht with rfl | ⟨_, -, -, rfl⟩
        · cases B.backing <;> rfl
        · exact intTy_castable _
      cases it <;> first | exact absurd rfl hb | ty [hv, hc, fieldTy, hI]
  | array len =>
    rw [hty] at ht
    have ht : t = readTy B.backing (.array len) := by
      rcases ht with h | ⟨_, h1, _⟩
      · exact h
      · cases h1
    subst ht
    cases hB : B.backing with
    | int w =>
      rw [hB] at hv
      exact unpack_typ (by decide) (x := .ty (.u w)) (by ty [hv, readTy]) rfl
    | arr n => rw [hB] at hv; ty [hv, readTy, fieldTy]
  | custom c =>
    rw [hty] at ht
    have ht : t = readTy B.backing (.custom c) := by
      rcases ht with h | ⟨_, h1, _⟩
      · exact h
      · cases h1
    subst ht
    cases hB : B.backing <;> rw [hB] at hv <;> ty [hv, readTy, fieldTy]

theorem signExtend_typ (hv : findVar "value" N.vars = some (.ty (readTy B.backing f.ty))) :
    ∃ N', (signExtendTok f).typ S N = some N' ∧ ∃ t, findVar "value" N'.vars = some (.ty t) ∧
      (t = readTy B.backing f.ty ∨ (∃ it, f.ty = .int it ∧ it ≠ .bool ∧ t = intTy it)) := by
  have h0 : ∃ N', Stmt.skip.typ S N = some N' ∧ ∃ t, findVar "value" N'.vars = some (.ty t) ∧
      (t = readTy B.backing f.ty ∨ (∃ it, f.ty = .int it ∧ it ≠ .bool ∧ t = intTy it)) :=
    skip_typ ⟨_, hv, .inl rfl⟩
  unfold signExtendTok
  cases hty : f.ty with
  | int it =>
    rw [hty] at hv h0
    have hc : (STy.ty (readTy B.backing (.int it))).castable = true := by cases B.backing <;> rfl
    dsimp only
    split
    · exact h0
    · cases it <;> first
        | exact absurd rfl ‹_›
        | ty [hv, intTy, hc, IntTy.unsigned, IntTy.bitSize]
  | array len => rw [hty] at h0; exact h0
  | custom c => rw [hty] at h0; exact h0

/-! ## Fields -/

theorem getter_typed (h : Declares S B) (hf : f ∈ B.fields) : (getterFn B f).typed S = true := by
  refine typed_of ?_
  have h := h.at (getterFn B f)
  generalize hS : atFn S (getterFn B f) = T at h
  have hb : T.builder = false := by subst hS; rfl
  simp only [getterFn, Stmt.all]
  refine seq_typ (letThis_typ hb) ?_
  obtain ⟨N', h1, -, h2, -⟩ := extract_typ (inv := false) (src := .bitfield) (x := innerTy B)
    (N := { vars := [], this := true }) h hf (b := false) (fun _ => hb)
    ⟨h.inner, rfl⟩ (.inl rfl)
  refine seq_typ h1 (last_typ ?_)
  obtain ⟨N'', h3, t, h4, h5⟩ := signExtend_typ (S := T) h2
  exact ⟨N'', h3, return_typ h4 h5⟩

theorem inverted_typed (h : Declares S B) (hf : f ∈ B.fields) : (invertedFn B f).typed S = true := by
  refine typed_of ?_
  have h := h.at (invertedFn B f)
  generalize hS : atFn S (invertedFn B f) = T at h
  have hb : T.builder = false := by subst hS; rfl
  simp only [invertedFn, Stmt.all]
  refine seq_typ (letThis_typ hb) ?_
  obtain ⟨N', h1, -, h2, -⟩ := extract_typ (inv := true) (src := .bitfield) (x := innerTy B)
    (N := { vars := [], this := true }) h hf (b := false) (fun _ => hb)
    ⟨h.inner, rfl⟩ (.inl rfl)
  exact seq_typ h1 (skip_typ (return_typ h2 (.inl rfl)))

theorem invertField_typed (h : Declares S B) (hf : f ∈ B.fields) (hs : f.hasSetter = true) :
    (invertFieldFn B f).typed S = true := by
  refine typed_of ?_
  have h := h.at (invertFieldFn B f)
  generalize hS : atFn S (invertFieldFn B f) = T at h
  have hb : T.builder = false := by subst hS; rfl
  simp only [invertFieldFn, Stmt.all]
  refine seq_typ (letThis_typ hb) ?_
  obtain ⟨N', h1, h3, h2, -⟩ := extract_typ (inv := true) (src := .bitfield) (x := innerTy B)
    (N := { vars := [], this := true }) h hf (b := false) (fun _ => hb)
    ⟨h.inner, rfl⟩ (.inl rfl)
  have h4 := return_typ (S := T) (B := B) (f := f) h2 (.inl rfl)
  refine seq_typ h1 (last_typ ⟨N', ?_, by ty []⟩)
  ty [h.set f hf hs, h4, Sig.hasInner, h3]

theorem setter_typed (h : Declares S B) (hf : f ∈ B.fields) : (setterFn B f).typed S = true := by
  refine typed_of ?_
  have h := h.at (setterFn B f)
  generalize hS : atFn S (setterFn B f) = T at h
  have hb : T.builder = false := by subst hS; rfl
  simp only [setterFn, Stmt.all]
  refine seq_typ (letThis_typ hb) (last_typ ?_)
  obtain ⟨N', h1, -⟩ := setArg_typ (us := false) (check := false) (t := .unit)
    (N := { vars := List.map (fun x => (x.1, STy.ty x.2)) [("bits", fieldTy f.ty)], this := true }) h hf hb
    (by simp) rfl rfl
  exact ⟨N', h1, by ty []⟩

theorem checkedSetter_typed (h : Declares S B) (hf : f ∈ B.fields) : (checkedSetterFn B f).typed S = true := by
  refine typed_of ?_
  have h := h.at (checkedSetterFn B f)
  generalize hS : atFn S (checkedSetterFn B f) = T at h
  have hb : T.builder = false := by subst hS; rfl
  simp only [checkedSetterFn, Stmt.all]
  refine seq_typ (letThis_typ hb) (last_typ ?_)
  obtain ⟨N', h1, -⟩ := setArg_typ (us := false) (check := true) (t := .unit)
    (N := { vars := List.map (fun x => (x.1, STy.ty x.2)) [("bits", fieldTy f.ty)], this := true }) h hf hb
    (fun _ => by subst hS; rfl) rfl rfl
  exact ⟨N', h1, by ty []⟩

theorem clearField_typed (h : Declares S B) (hf : f ∈ B.fields) : (clearFieldFn B f).typed S = true := by
  refine typed_of ?_
  have h := h.at (clearFieldFn B f)
  generalize hS : atFn S (clearFieldFn B f) = T at h
  have hb : T.builder = false := by subst hS; rfl
  simp only [clearFieldFn, Stmt.all]
  refine seq_typ (letThis_typ hb) (last_typ ?_)
  obtain ⟨N', h1, -⟩ := setZero_typ (N := { vars := [], this := true }) h
    (reaches_false hb) hf ⟨rfl, rfl⟩
  exact ⟨N', h1, by ty []⟩

theorem clearToDefault_typed (h : Declares S B) (hd : DefaultsOk S B) (hf : f ∈ B.fields) :
    (clearToDefaultFn B f).typed S = true := by
  refine typed_of ?_
  have h := h.at (clearToDefaultFn B f)
  have hd := hd.at (clearToDefaultFn B f)
  generalize hS : atFn S (clearToDefaultFn B f) = T at h hd
  have hb : T.builder = false := by subst hS; rfl
  simp only [clearToDefaultFn, Stmt.all]
  refine seq_typ (letThis_typ hb) (last_typ ?_)
  obtain ⟨N', h1, -⟩ := setDefault_typ (N := { vars := [], this := true }) h hd
    (reaches_false hb) hf ⟨rfl, rfl⟩
  exact ⟨N', h1, by ty []⟩

/-! ## Construction -/

theorem whole_typ {x : Option STy} {e : Option Ty} (h : Inside x N) : (Expr.whole false).typ S e N = some (.ty .self) := by
  ty [Sig.hasInner, h.1]

theorem newFn_typed (h : Declares S B) (hd : DefaultsOk S B) (d : Bool) : (newFn B d).typed S = true := by
  refine typed_of ?_
  have h := h.at (newFn B d)
  have hd := hd.at (newFn B d)
  generalize hS : atFn S (newFn B d) = T at h hd
  have hb : T.builder = false := by subst hS; rfl
  simp only [newFn]
  obtain ⟨N', h1, h2⟩ := new_typ (N := { vars := [], this := false }) (d := d) (e := false)
    h hd (reaches_false hb) (fun _ => hb) rfl (fun hx => by cases hx)
  exact ⟨N', h1, whole_typ h2⟩

theorem default_typed {G : Gen} (h : Declares S G.B) (hd : DefaultsOk S G.B)
    (hn : G.new = true → S.assoc (.fn "new") = some .self) : (defaultFn G).typed S = true := by
  refine typed_of ?_
  have h := h.at (defaultFn G)
  have hd := hd.at (defaultFn G)
  have hn : G.new = true → (atFn S (defaultFn G)).assoc (.fn "new") = some .self := hn
  generalize hS : atFn S (defaultFn G) = T at h hd hn
  have hb : T.builder = false := by subst hS; rfl
  simp only [defaultFn]
  cases hg : G.new with
  | true => exact skip_typ (by ty [Sig.resolves, hb, hn hg])
  | false =>
    simp only [Bool.false_eq_true, if_false, Stmt.all]
    refine seq_typ (init_typ h hb) (last_typ ?_)
    obtain ⟨N', h1, h2⟩ := setDefaults_typ (N := { vars := [], this := true }) h hd
      (reaches_false hb) ⟨rfl, rfl⟩
    exact ⟨N', h1, whole_typ h2⟩

theorem builderNew_typed {G : Gen} (h : Declares S G.B) (hd : DefaultsOk S G.B) (d : Bool)
    (hn : G.new = true → S.assoc (.fn (if d then "new" else "new_without_defaults")) = some .self)
    (hr : G.new = false → ∀ f ∈ G.B.fields, f.hasConstants = true → f.hasSetter = true) :
    (builderNewFn G d).typed S = true := by
  refine typed_of ?_
  have h := h.at (builderNewFn G d)
  have hd := hd.at (builderNewFn G d)
  have hn : G.new = true → (atFn S (builderNewFn G d)).assoc (.fn (if d then "new" else "new_without_defaults")) = some .self := hn
  generalize hS : atFn S (builderNewFn G d) = T at h hd hn
  have hb : T.builder = true := by subst hS; rfl
  simp only [builderNewFn]
  cases hg : G.new with
  | true =>
    refine skip_typ ?_
    simp only [if_true, Expr.typ, Sig.resolves, hn hg, Bool.true_or, Option.map_some]
  | false =>
    simp only [Bool.false_eq_true, if_false]
    obtain ⟨N', h1, h2⟩ := new_typ (N := { vars := [], this := false }) (d := d) (e := false)
      h hd (fun _ => hr hg) (fun _ => hb) rfl (fun hx => by cases hx)
    exact ⟨N', h1, whole_typ h2⟩

theorem with_typed (h : Declares S B) (hf : f ∈ B.fields) : (withFn B f).typed S = true := by
  refine typed_of ?_
  have h := h.at (withFn B f)
  generalize hS : atFn S (withFn B f) = T at h
  have hb : T.builder = true := by subst hS; rfl
  simp only [withFn]
  obtain ⟨N', h1, -⟩ := setArg_typ (us := true) (check := false) (t := .unit)
    (N := { vars := List.map (fun x => (x.1, STy.ty x.2)) [("bits", fieldTy f.ty)], this := false }) h hf hb
    (by simp) (by simp [Sig.hasInner, hb]) rfl
  exact ⟨N', h1, by ty [Sig.hasInner, hb]⟩

theorem checkedWith_typed (h : Declares S B) (hf : f ∈ B.fields) : (checkedWithFn B f).typed S = true := by
  refine typed_of ?_
  have h := h.at (checkedWithFn B f)
  generalize hS : atFn S (checkedWithFn B f) = T at h
  have hb : T.builder = true := by subst hS; rfl
  simp only [checkedWithFn]
  obtain ⟨N', h1, -⟩ := setArg_typ (us := true) (check := true) (t := .self)
    (N := { vars := List.map (fun x => (x.1, STy.ty x.2)) [("bits", fieldTy f.ty)], this := false }) h hf hb
    (fun _ => by subst hS; rfl) (by simp [Sig.hasInner, hb]) rfl
  exact ⟨N', h1, by ty [Sig.hasInner, hb]⟩

theorem build_typed : buildFn.typed S = true := by
  refine typed_of (skip_typ ?_)
  ty [buildFn, atFn, Sig.hasInner]

theorem builderDefault_typed (hn : S.assoc (.builderFn "new") = some .self) : builderDefaultFn.typed S = true := by
  refine typed_of (skip_typ ?_)
  ty [builderDefaultFn, atFn, Sig.resolves, hn]

theorem clear_typed (h : Declares S B) (hd : DefaultsOk S B) (d : Bool) : (clearFn B d).typed S = true := by
  refine typed_of ?_
  have h := h.at (clearFn B d)
  have hd := hd.at (clearFn B d)
  generalize hS : atFn S (clearFn B d) = T at h hd
  have hb : T.builder = false := by subst hS; rfl
  simp only [clearFn, Stmt.all]
  refine seq_typ (letThis_typ hb) (last_typ ?_)
  obtain ⟨N', h1, h2⟩ := new_typ (N := { vars := [], this := true }) (d := d) (e := true)
    (b := false) h hd (reaches_false hb) (fun _ => hb) rfl (fun _ => rfl)
  exact ⟨N', h1, by ty []⟩

/-! ## Conversions -/

theorem xorLoop_typ {n m : Nat} {suffix : Bool} (h : findVar "bits" N.vars = some (.ty (.arr m))) :
    ∃ N', (xorLoopTok n suffix).typ S N = some N' ∧ N'.this = N.this ∧ findVar "bits" N'.vars = some (.ty (.arr m)) := by
  cases suffix <;> ty [xorLoopTok, incr, h]

theorem innerArr_typ {n : Nat} (h : Declares S B) (hB : B.backing = .arr n) (hi : N.this = true) (e : Option Ty) :
    (innerArrTok B).typ S e N = some (.ty (.arr n)) := by
  have hin := h.inner
  simp only [innerTy, hB] at hin
  cases hh : B.heap <;> rw [hh] at hin <;> ty [innerArrTok, hh, Sig.hasInner, hi, hin]

theorem fromConv_typ {e : Option Endian} (h : findVar (paramTok B) N.vars = some (.ty (backTy B.backing))) :
    ∃ N', (fromConvTok B e).typ S N = some N' ∧ N'.this = N.this ∧
      findVar "bits" N'.vars = some (.ty (backTy B.backing)) := by
  unfold fromConvTok
  cases hB : B.backing with
  | int w =>
    simp only [hB, paramTok, backTy] at h
    dsimp only
    cases e with
    | none => cases B.fromEndian <;> ty [h, intEndianTok, backTy]
    | some e => cases e <;> ty [h, backTy]
  | arr n =>
    simp only [hB, paramTok, backTy] at h
    dsimp only
    cases e.getD B.fromEndian with
    | little => ty [h, backTy]
    | big =>
      simp only [Stmt.all]
      exact seq_typ (N₁ := { N with vars := ("bits", .ty (.arr n)) :: N.vars }) (by ty [h])
        (last_typ (xorLoop_typ (by simp [findVar])))

theorem defaults_typ (h : Declares S B) (hd : DefaultsOk S B) (hb : S.builder = false) {d : Bool} {x : Option STy}
    (hN : Inside x N) : ∃ N', (if d then setDefaultsTok B else .skip).typ S N = some N' ∧ Inside x N' := by
  cases d with
  | true => exact setDefaults_typ h hd (reaches_false hb) hN
  | false => exact skip_typ hN

theorem from_typed (h : Declares S B) (hd : DefaultsOk S B) (e : Option Endian) (d : Bool) : (fromFn B e d).typed S = true := by
  refine typed_of ?_
  have h := h.at (fromFn B e d)
  have hd := hd.at (fromFn B e d)
  generalize hS : atFn S (fromFn B e d) = T at h hd
  have hb : T.builder = false := by subst hS; rfl
  simp only [fromFn, Stmt.all]
  obtain ⟨N₁, h1, -, h2⟩ := fromConv_typ (S := T) (B := B) (e := e)
    (N := { vars := List.map (fun x => (x.1, STy.ty x.2)) [(paramTok B, backTy B.backing)], this := false })
    (by simp [findVar])
  refine seq_typ h1 (seq_typ (init_typ h hb) ?_)
  obtain ⟨N₂, h3, i3⟩ := setAll_typ (N := { N₁ with this := true }) h hb .none ⟨rfl, h2⟩
  obtain ⟨N₃, h4, i4⟩ := defaults_typ (d := d) h hd hb i3
  exact seq_typ h3 (seq_typ h4 (skip_typ (whole_typ i4)))

theorem into_typed (h : Declares S B) (e : Option Endian) : (intoFn B e).typed S = true := by
  refine typed_of ?_
  have h := h.at (intoFn B e)
  generalize hS : atFn S (intoFn B e) = T at h
  have hb : T.builder = false := by subst hS; rfl
  have hin := h.inner
  unfold intoFn
  cases hB : B.backing with
  | int w =>
    simp only [innerTy, hB] at hin
    cases e.getD B.intoEndian <;> ty [hb, hin, Sig.hasInner, intEndianTok, backTy]
  | arr n =>
    dsimp only
    cases e.getD B.intoEndian with
    | little =>
      exact ⟨_, letThis_typ hb, innerArr_typ h hB rfl _⟩
    | big =>
      simp only [Stmt.all]
      refine seq_typ (letThis_typ hb) (seq_typ (N₁ := { vars := [("bits", .ty (.arr n))], this := true }) ?_ (last_typ ?_))
      · simp only [Stmt.typ, List.map, innerArr_typ (N := { vars := [], this := true }) h hB rfl]
      · obtain ⟨N', h1, -, h3⟩ := xorLoop_typ (S := T) (suffix := false) (n := n) (m := n) (N := { vars := [("bits", .ty (.arr n))], this := true })
          (by simp [findVar])
        exact ⟨N', h1, by ty [h3, backTy]⟩

theorem copyLoop_typ {dst src : String} {bound : Expr} {x y : STy} (hi : dst ≠ "i" ∧ src ≠ "i")
    (h1 : findVar dst N.vars = some x) (hx : x.indexable = true) (h2 : findVar src N.vars = some y) (hy : y.indexable = true)
    (hb : bound.typ S (some .usize) { N with vars := ("i", .ty .usize) :: N.vars } = some (.ty .usize)) :
    (copyLoopTok dst src bound).typ S N = some { N with vars := ("i", .ty .usize) :: N.vars } := by
  have h3 : ¬ "i" = dst := fun e => hi.1 e.symm
  have h4 : ¬ "i" = src := fun e => hi.2 e.symm
  ty [copyLoopTok, incr, h1, h2, h3, h4, hx, hy, hb]

theorem sliceEndian_typ {n : Nat} {e : Endian} (h : findVar "bits" N.vars = some (.ty (.arr n))) :
    ∃ N', (sliceEndianTok n e).typ S N = some N' ∧ N'.this = N.this ∧ findVar "bits" N'.vars = some (.ty (.arr n)) := by
  cases e with
  | little => exact skip_typ ⟨rfl, h⟩
  | big => exact xorLoop_typ h

theorem fromSlice_typed {n : Nat} (h : Declares S B) (hd : DefaultsOk S B) (hB : B.backing = .arr n) (e : Option Endian)
    (d : Bool) : (fromSliceFn B n e d).typed S = true := by
  refine typed_of ?_
  have h := h.at (fromSliceFn B n e d)
  have hd := hd.at (fromSliceFn B n e d)
  generalize hS : atFn S (fromSliceFn B n e d) = T at h hd
  have hb : T.builder = false := by subst hS; rfl
  simp only [fromSliceFn, Stmt.all]
  refine seq_typ (N₁ := { vars := [("bits", .ty (.arr n)), ("slice", .ty .slice)], this := false }) (by ty []) ?_
  refine seq_typ (N₁ := { vars := [("copy_len", .ty .usize), ("bits", .ty (.arr n)), ("slice", .ty .slice)], this := false })
    (by ty [copyLenTok]) ?_
  refine seq_typ (copyLoop_typ (x := .ty (.arr n)) (y := .ty .slice) (by decide) (by simp [findVar]) rfl (by simp [findVar]) rfl
    (by ty [])) ?_
  obtain ⟨N₁, h1, -, h2⟩ := sliceEndian_typ (S := T) (n := n) (e := e.getD B.fromEndian)
    (N := { vars := [("i", .ty .usize), ("copy_len", .ty .usize), ("bits", .ty (.arr n)), ("slice", .ty .slice)], this := false })
    (by simp [findVar])
  refine seq_typ h1 (seq_typ (init_typ h hb) ?_)
  obtain ⟨N₂, h3, i3⟩ := setAll_typ (N := { N₁ with this := true }) h hb .none ⟨rfl, by rw [hB]; exact h2⟩
  obtain ⟨N₃, h4, i4⟩ := defaults_typ (d := d) h hd hb i3
  exact seq_typ h3 (seq_typ h4 (skip_typ (whole_typ i4)))

theorem checkedFromSlice_typed {n : Nat} (h : Declares S B) (hd : DefaultsOk S B) (hB : B.backing = .arr n)
    (e : Option Endian) (d : Bool) : (checkedFromSliceFn B n e d).typed S = true := by
  refine typed_of ?_
  have h := h.at (checkedFromSliceFn B n e d)
  have hd := hd.at (checkedFromSliceFn B n e d)
  generalize hS : atFn S (checkedFromSliceFn B n e d) = T at h hd
  have hb : T.builder = false := by subst hS; rfl
  have hr : T.ret = .result .self := by subst hS; rfl
  simp only [checkedFromSliceFn, Stmt.all]
  refine seq_typ (N₁ := { vars := [("slice", .ty .slice)], this := false }) (by ty [sliceCheckTok, hr]) ?_
  refine seq_typ (N₁ := { vars := [("bits", .ty (.arr n)), ("slice", .ty .slice)], this := false }) (by ty []) ?_
  refine seq_typ (copyLoop_typ (x := .ty (.arr n)) (y := .ty .slice) (by decide) (by simp [findVar]) rfl (by simp [findVar]) rfl
    (by ty [])) ?_
  obtain ⟨N₁, h1, -, h2⟩ := sliceEndian_typ (S := T) (n := n) (e := e.getD B.fromEndian)
    (N := { vars := [("i", .ty .usize), ("bits", .ty (.arr n)), ("slice", .ty .slice)], this := false })
    (by simp [findVar])
  refine seq_typ h1 (seq_typ (init_typ h hb) ?_)
  obtain ⟨N₂, h3, i3⟩ := setAll_typ (N := { N₁ with this := true }) h hb .none ⟨rfl, by rw [hB]; exact h2⟩
  obtain ⟨N₃, h4, i4⟩ := defaults_typ (d := d) h hd hb i3
  exact seq_typ h3 (seq_typ h4 (skip_typ (by ty [Sig.hasInner, i4.1])))

theorem sliceBits_typ {n : Nat} {e : Endian} (h : Declares S B) (hB : B.backing = .arr n) :
    ∃ N', (sliceBitsTok B n e).typ S { vars := [("slice", .ty .slice)], this := true } = some N' ∧
      findVar "slice" N'.vars = some (.ty .slice) ∧ findVar "bits" N'.vars = some (.ty (.arr n)) := by
  have h1 := innerArr_typ (N := { vars := [("slice", .ty .slice)], this := true }) h hB rfl
  cases e with
  | little => ty [sliceBitsTok, h1]
  | big => ty [sliceBitsTok, h1, xorLoopTok, incr]

theorem intoSlice_typed {n : Nat} (h : Declares S B) (hB : B.backing = .arr n) (e : Option Endian) :
    (intoSliceFn B n e).typed S = true := by
  refine typed_of ?_
  have h := h.at (intoSliceFn B n e)
  generalize hS : atFn S (intoSliceFn B n e) = T at h
  have hb : T.builder = false := by subst hS; rfl
  simp only [intoSliceFn, Stmt.all]
  obtain ⟨N₁, h1, h2, h3⟩ := sliceBits_typ (e := e.getD B.intoEndian) h hB
  refine seq_typ (letThis_typ hb) (seq_typ h1 ?_)
  refine seq_typ (N₁ := { N₁ with vars := ("copy_len", .ty .usize) :: N₁.vars }) (by ty [copyLenTok, h2]) ?_
  refine seq_typ (copyLoop_typ (x := .ty .slice) (y := .ty (.arr n)) (by decide) (by simp [findVar, h2]) rfl
    (by simp [findVar, h3]) rfl (by ty [])) (skip_typ (by ty []))

theorem checkedIntoSlice_typed {n : Nat} (h : Declares S B) (hB : B.backing = .arr n) (e : Option Endian) :
    (checkedIntoSliceFn B n e).typed S = true := by
  refine typed_of ?_
  have h := h.at (checkedIntoSliceFn B n e)
  generalize hS : atFn S (checkedIntoSliceFn B n e) = T at h
  have hb : T.builder = false := by subst hS; rfl
  have hr : T.ret = .result .unit := by subst hS; rfl
  simp only [checkedIntoSliceFn, Stmt.all]
  obtain ⟨N₁, h1, h2, h3⟩ := sliceBits_typ (e := e.getD B.intoEndian) h hB
  refine seq_typ (letThis_typ hb) (seq_typ (N₁ := { vars := [("slice", .ty .slice)], this := true })
    (by ty [sliceCheckTok, hr]) (seq_typ h1 ?_))
  refine seq_typ (copyLoop_typ (x := .ty .slice) (y := .ty (.arr n)) (by decide) h2 rfl h3 rfl (by ty [])) (skip_typ (by ty []))

theorem traitConv_typ {src : Expr} {e : Endian} (h : ∀ x, src.typ S x N = some (.ty (backTy B.backing))) (x : Option Ty) :
    (traitConvTok B src e).typ S x N = some (.ty (backTy B.backing)) := by
  unfold traitConvTok
  cases hB : B.backing <;> rw [hB] at h <;> simp only [backTy] at h <;> cases e <;> ty [h, backTy, incr]

theorem traitFrom_typed (h : Declares S B) : (traitFromFn B).typed S = true := by
  refine typed_of ?_
  have h := h.at (traitFromFn B)
  generalize hS : atFn S (traitFromFn B) = T at h
  have hb : T.builder = false := by subst hS; rfl
  simp only [traitFromFn, Stmt.all]
  refine seq_typ (init_typ h hb) ?_
  have h1 := traitConv_typ (S := T) (B := B) (src := .var (paramTok B)) (e := B.fromEndian)
    (N := { vars := [(paramTok B, .ty (backTy B.backing))], this := true }) (fun _ => by simp [Expr.typ, findVar])
  refine seq_typ (N₁ := { vars := ("bits", .ty (backTy B.backing)) :: [(paramTok B, .ty (backTy B.backing))], this := true })
    (by simp only [Stmt.typ, List.map, h1]) ?_
  obtain ⟨N₂, h3, i3⟩ := setAll_typ
    (N := { vars := ("bits", .ty (backTy B.backing)) :: [(paramTok B, .ty (backTy B.backing))], this := true })
    h hb .none ⟨rfl, by simp [findVar]⟩
  exact seq_typ h3 (skip_typ (whole_typ i3))

theorem traitInto_typed (h : Declares S B) : (traitIntoFn B).typed S = true := by
  refine typed_of ?_
  have h := h.at (traitIntoFn B)
  generalize hS : atFn S (traitIntoFn B) = T at h
  simp only [traitIntoFn]
  refine ⟨{ vars := [("val", .ty .self)], this := true }, by ty [], ?_⟩
  refine traitConv_typ (fun x => ?_) _
  cases hB : B.backing with
  | int w =>
    have hin := h.inner
    simp only [innerTy, hB] at hin
    ty [Sig.hasInner, hin, backTy]
  | arr n => exact innerArr_typ h hB rfl x

/-! ## Write and invert -/

theorem writeConv_typ {e : Endian} (h : findVar "bits" N.vars = some (.ty (backTy B.backing))) :
    ∃ N', (writeConvTok B e).typ S N = some N' ∧ N'.this = N.this ∧
      findVar "bits" N'.vars = some (.ty (backTy B.backing)) := by
  unfold writeConvTok
  cases e with
  | big => exact skip_typ ⟨rfl, h⟩
  | little =>
    cases hB : B.backing <;> rw [hB] at h <;> simp only [backTy] at h <;> ty [h, backTy, xorLoopTok, incr]

theorem write_typed (h : Declares S B) (hd : DefaultsOk S B) (e : Option Endian) (d : Bool) : (writeFn B e d).typed S = true := by
  refine typed_of ?_
  have h := h.at (writeFn B e d)
  have hd := hd.at (writeFn B e d)
  generalize hS : atFn S (writeFn B e d) = T at h hd
  have hb : T.builder = false := by subst hS; rfl
  simp only [writeFn, Stmt.all]
  refine seq_typ (letThis_typ hb) ?_
  refine seq_typ (N₁ := { vars := ("bits", .ty (backTy B.backing)) :: [(paramTok B, .ty (backTy B.backing))], this := true })
    (by ty []) ?_
  obtain ⟨N₁, h1, h5, h2⟩ := writeConv_typ (S := T) (B := B) (e := e.getD B.writeEndian)
    (N := { vars := ("bits", .ty (backTy B.backing)) :: [(paramTok B, .ty (backTy B.backing))], this := true })
    (by simp [findVar])
  refine seq_typ h1 ?_
  obtain ⟨N₂, h3, i3⟩ := setAll_typ h hb .readOnly ⟨h5, h2⟩
  obtain ⟨N₃, h4, i4⟩ := defaults_typ (d := d) h hd hb i3
  exact seq_typ h3 (seq_typ h4 (skip_typ (by ty [])))

theorem writeDefaults_typed (h : Declares S B) (hd : DefaultsOk S B) : (writeDefaultsFn B).typed S = true := by
  refine typed_of ?_
  have h := h.at (writeDefaultsFn B)
  have hd := hd.at (writeDefaultsFn B)
  generalize hS : atFn S (writeDefaultsFn B) = T at h hd
  have hb : T.builder = false := by subst hS; rfl
  simp only [writeDefaultsFn, Stmt.all]
  obtain ⟨N', h1, h2⟩ := setDefaults_typ (N := { vars := [], this := true }) h hd (reaches_false hb) ⟨rfl, rfl⟩
  exact seq_typ (letThis_typ hb) (seq_typ h1 (skip_typ (by ty [])))

theorem prot_typ (p : Protection) :
    (protTok B p).typ S N = some { N with vars := ("protected_mask", .ty (backTy B.backing)) :: N.vars } := by
  unfold protTok
  cases hB : B.backing with
  | int w => ty [backTy]
  | arr n => ty [backTy, protMaskBytes_length]

theorem invert_typed (h : Declares S B) : (invertFn B).typed S = true := by
  refine typed_of ?_
  have h := h.at (invertFn B)
  generalize hS : atFn S (invertFn B) = T at h
  have hb : T.builder = false := by subst hS; rfl
  unfold invertFn
  cases hB : B.backing with
  | int w =>
    have hin := h.inner
    simp only [innerTy, hB] at hin
    simp only [Stmt.all]
    refine seq_typ (letThis_typ hb) (seq_typ (N₁ := { vars := [("bits", .ty (.u w))], this := true }) (by ty [Sig.hasInner, hin])
      (seq_typ (prot_typ _) ?_))
    rw [hB]
    refine seq_typ (N₁ := { vars := [("bits", .ty (.u w)), ("protected_mask", .ty (.u w)), ("bits", .ty (.u w))], this := true })
      (by ty [backTy]) ?_
    obtain ⟨N₂, h3, i3⟩ := setAll_typ
      (N := { vars := [("bits", .ty (.u w)), ("protected_mask", .ty (.u w)), ("bits", .ty (.u w))], this := true })
      h hb .none ⟨rfl, by simp [findVar, hB, backTy]⟩
    exact seq_typ h3 (skip_typ (by ty []))
  | arr n =>
    have h1 := innerArr_typ (N := { vars := [], this := true }) h hB rfl
    simp only [Stmt.all]
    refine seq_typ (letThis_typ hb) (seq_typ (N₁ := { vars := [("bits", .ty (.arr n))], this := true })
      (by simp only [Stmt.typ, List.map, h1]) (seq_typ (prot_typ _) ?_))
    rw [hB]
    refine seq_typ (N₁ := { vars := [("i", .ty .usize), ("protected_mask", .ty (.arr n)), ("bits", .ty (.arr n))], this := true })
      (by ty [backTy]) (seq_typ (N₁ :=
        { vars := [("i", .ty .usize), ("protected_mask", .ty (.arr n)), ("bits", .ty (.arr n))], this := true })
        (by ty [incr]) ?_)
    obtain ⟨N₂, h3, i3⟩ := setAll_typ
      (N := { vars := [("i", .ty .usize), ("protected_mask", .ty (.arr n)), ("bits", .ty (.arr n))], this := true })
      h hb .none ⟨rfl, by simp [findVar, hB, backTy]⟩
    exact seq_typ h3 (skip_typ (by ty []))

/-! ## Bit and range operations -/

theorem size_typ (e : Option Ty) : (sizeTok B).typ S e N = some (.ty (.u 32)) := by
  unfold sizeTok
  split <;> ty []

theorem offsetGuard_typ {r : Stmt} (ho : findVar "offset" N.vars = some (.ty (.u 32))) (hr : (r.typ S N).isSome = true) :
    (offsetGuardTok B r).typ S N = some N := by
  ty [offsetGuardTok, ho, size_typ, hr]

theorem lengthGuard_typ {r : Stmt} (ho : findVar "offset" N.vars = some (.ty (.u 32)))
    (hl : findVar "length" N.vars = some (.ty (.u 32))) (hr : (r.typ S N).isSome = true) :
    (lengthGuardTok B r).typ S N = some N := by
  ty [lengthGuardTok, ho, hl, size_typ, hr]

theorem fieldGuard_typ {G : Gen} {read : Bool} {r : Stmt} (ho : findVar "offset" N.vars = some (.ty (.u 32)))
    (hr : (r.typ S N).isSome = true) : (fieldGuardTok G read r).typ S N = some N := by
  obtain ⟨N', h1, h2⟩ := all_typ (S := S) (N := N) (I := fun N' => N' = N)
    (l := G.B.fields.filter fun f => if read then !f.hasReadAccess else !f.hasSetter)
    (g := fun f =>
      if G.ignored then .ite (.contains f.offset (f.offset + f.bits) (.var "offset")) r .skip
      else .ite (.andAlso (.bin .ge (.var "offset") (.lit f.offset (some (.u 32))))
        (.bin .lt (.var "offset") (.lit (f.offset + f.bits) (some (.u 32))))) r .skip)
    (fun f _ N' e => by subst e; split <;> ty [ho, hr]) rfl
  subst h2
  exact h1

theorem returnZero_typ (hr : S.ret = backTy B.backing) : ((returnZeroTok B).typ S N).isSome = true := by
  unfold returnZeroTok
  cases hB : B.backing <;> rw [hB] at hr <;> ty [hr, backTy]

section
variable {G : Gen}

theorem setBit_typ (h : Declares S B) (hi : N.this = true) (ho : findVar "offset" N.vars = some (.ty (.u 32)))
    (hv : findVar "bit" N.vars = some (.ty .bool)) : ((setBitTok B).typ S N).isSome = true := by
  have hin := h.inner
  unfold setBitTok
  cases hB : B.backing with
  | int w =>
    simp only [innerTy, hB] at hin
    ty [storeBitTok, Sig.hasInner, hi, hin, ho, hv, Sig.expected]
  | arr n =>
    have hx : S.inner.indexable = true := by rw [hin]; simp only [innerTy, hB]; split <;> rfl
    ty [storeByteBitTok, Sig.hasInner, hi, hx, ho, hv]

theorem some_typ {s : Stmt} {Q : Names → Prop} (h : (s.typ S N).isSome = true) (hq : ∀ N', Q N') :
    ∃ N', s.typ S N = some N' ∧ Q N' := by
  obtain ⟨N', h⟩ := Option.isSome_iff_exists.mp h
  exact ⟨N', h, hq N'⟩

theorem setBitFn_typed (h : Declares S G.B) : (setBitFn G).typed S = true := by
  refine typed_of ?_
  have h := h.at (setBitFn G)
  generalize hS : atFn S (setBitFn G) = T at h
  have hb : T.builder = false := by subst hS; rfl
  have hr : T.ret = .unit := by subst hS; rfl
  simp only [setBitFn, Stmt.all, List.map]
  refine seq_typ (letThis_typ hb) (seq_typ (offsetGuard_typ (by simp [findVar]) (by ty [hr])) (seq_typ (fieldGuard_typ (by simp [findVar])
    (by ty [hr])) (last_typ (some_typ (setBit_typ h rfl (by simp [findVar]) (by simp [findVar])) fun N' => by ty []))))

theorem checkedSetBitFn_typed (h : Declares S G.B) : (checkedSetBitFn G).typed S = true := by
  refine typed_of ?_
  have h := h.at (checkedSetBitFn G)
  generalize hS : atFn S (checkedSetBitFn G) = T at h
  have hb : T.builder = false := by subst hS; rfl
  have hr : T.ret = .result .unit := by subst hS; rfl
  simp only [checkedSetBitFn, Stmt.all, List.map]
  refine seq_typ (letThis_typ hb) (seq_typ (offsetGuard_typ (by simp [findVar]) (by ty [hr])) (seq_typ (fieldGuard_typ (by simp [findVar])
    (by ty [hr])) (last_typ (some_typ (setBit_typ h rfl (by simp [findVar]) (by simp [findVar])) fun N' => by ty []))))

theorem getBit_typ (h : Declares S B) (hi : N.this = true) (ho : findVar "offset" N.vars = some (.ty (.u 32))) :
    ∃ N', (bitIndexTok B).typ S N = some N' ∧ ∀ e, (getBitTok B).typ S e N' = some (.ty .bool) := by
  have hin := h.inner
  unfold bitIndexTok getBitTok
  cases hB : B.backing with
  | int w =>
    simp only [innerTy, hB] at hin
    ty [Sig.hasInner, hi, hin, ho]
  | arr n =>
    have hx : S.inner.indexable = true := by rw [hin]; simp only [innerTy, hB]; split <;> rfl
    ty [Sig.hasInner, hi, hx, ho]

theorem getBitFn_typed (h : Declares S G.B) : (getBitFn G).typed S = true := by
  refine typed_of ?_
  have h := h.at (getBitFn G)
  generalize hS : atFn S (getBitFn G) = T at h
  have hb : T.builder = false := by subst hS; rfl
  have hr : T.ret = .bool := by subst hS; rfl
  simp only [getBitFn, Stmt.all, List.map]
  obtain ⟨N', h1, h2⟩ := getBit_typ (N := { vars := [("offset", .ty (.u 32))], this := true }) h rfl (by simp [findVar])
  exact seq_typ (letThis_typ hb) (seq_typ (offsetGuard_typ (by simp [findVar]) (by ty [hr])) (seq_typ (fieldGuard_typ (by simp [findVar])
    (by ty [hr])) (seq_typ h1 (skip_typ (h2 _)))))

theorem checkedGetBitFn_typed (h : Declares S G.B) : (checkedGetBitFn G).typed S = true := by
  refine typed_of ?_
  have h := h.at (checkedGetBitFn G)
  generalize hS : atFn S (checkedGetBitFn G) = T at h
  have hb : T.builder = false := by subst hS; rfl
  have hr : T.ret = .result .bool := by subst hS; rfl
  simp only [checkedGetBitFn, Stmt.all, List.map]
  obtain ⟨N', h1, h2⟩ := getBit_typ (N := { vars := [("offset", .ty (.u 32))], this := true }) h rfl (by simp [findVar])
  exact seq_typ (letThis_typ hb) (seq_typ (offsetGuard_typ (by simp [findVar]) (by ty [hr])) (seq_typ (fieldGuard_typ (by simp [findVar])
    (by ty [hr])) (seq_typ h1 (skip_typ (by ty [h2])))))

theorem setRange_typed (h : Declares S G.B) : (setRangeFn G).typed S = true := by
  refine typed_of ?_
  have h := h.at (setRangeFn G)
  generalize hS : atFn S (setRangeFn G) = T at h
  have hb : T.builder = false := by subst hS; rfl
  have hr : T.ret = .unit := by subst hS; rfl
  simp only [setRangeFn, Stmt.all, List.map]
  refine seq_typ (letThis_typ hb) (seq_typ (offsetGuard_typ (by simp [findVar]) (by ty [hr])) (seq_typ (lengthGuard_typ (by simp [findVar])
    (by simp [findVar]) (by ty [hr])) (last_typ (some_typ ?_ fun N' => by ty []))))
  have hin := h.inner
  have hp := fun N => prot_typ (S := T) (N := N) (B := G.B) .readOnly
  cases hB : G.B.backing with
  | int w =>
    rw [hB] at hp
    simp only [innerTy, hB] at hin
    ty [maskTok, hp, backTy, hin, Sig.hasInner, Sig.expected]
  | arr n =>
    rw [hB] at hp
    have hx : T.inner.indexable = true := by rw [hin]; simp only [innerTy, hB]; split <;> rfl
    ty [upToTok, srcBitTok, bitSetTok, posTok, isProtTok, storeByteBitTok, incr, hp, backTy, hx, Sig.hasInner]

theorem checkedSetRange_typed (h : Declares S G.B) : (checkedSetRangeFn G).typed S = true := by
  refine typed_of ?_
  have h := h.at (checkedSetRangeFn G)
  generalize hS : atFn S (checkedSetRangeFn G) = T at h
  have hb : T.builder = false := by subst hS; rfl
  have hr : T.ret = .result .unit := by subst hS; rfl
  simp only [checkedSetRangeFn, Stmt.all, List.map]
  refine seq_typ (letThis_typ hb) (seq_typ (offsetGuard_typ (by simp [findVar]) (by ty [hr])) (seq_typ (lengthGuard_typ (by simp [findVar])
    (by simp [findVar]) (by ty [hr])) (last_typ (some_typ ?_ fun N' => by ty []))))
  have hin := h.inner
  have hp := fun N => prot_typ (S := T) (N := N) (B := G.B) .readOnly
  cases hB : G.B.backing with
  | int w =>
    rw [hB] at hp
    simp only [innerTy, hB] at hin
    ty [maskTok, hp, backTy, hin, Sig.hasInner, Sig.expected, hr]
  | arr n =>
    rw [hB] at hp
    have hx : T.inner.indexable = true := by rw [hin]; simp only [innerTy, hB]; split <;> rfl
    ty [upToTok, srcBitTok, bitSetTok, posTok, protLoopTok, isProtTok, storeByteBitTok, incr, hp, backTy, hx, Sig.hasInner, hr]

theorem getRange_typed (h : Declares S G.B) : (getRangeFn G).typed S = true := by
  refine typed_of ?_
  have h := h.at (getRangeFn G)
  generalize hS : atFn S (getRangeFn G) = T at h
  have hb : T.builder = false := by subst hS; rfl
  have hr : T.ret = backTy G.B.backing := by subst hS; rfl
  simp only [getRangeFn, Stmt.all, List.map]
  refine seq_typ (letThis_typ hb) (seq_typ (offsetGuard_typ (by simp [findVar]) (returnZero_typ hr)) (seq_typ (lengthGuard_typ
    (by simp [findVar]) (by simp [findVar]) (returnZero_typ hr)) (last_typ ?_)))
  have hin := h.inner
  have hp := fun N => prot_typ (S := T) (N := N) (B := G.B) .writeOnly
  cases hB : G.B.backing with
  | int w =>
    rw [hB] at hp
    simp only [innerTy, hB] at hin
    ty [maskTok, hp, backTy, hin, Sig.hasInner]
  | arr n =>
    rw [hB] at hp
    have hx : T.inner.indexable = true := by rw [hin]; simp only [innerTy, hB]; split <;> rfl
    ty [upToTok, bitSetTok, posTok, isProtTok, resBitTok, incr, hp, backTy, hx, Sig.hasInner]

theorem checkedGetRange_typed (h : Declares S G.B) : (checkedGetRangeFn G).typed S = true := by
  refine typed_of ?_
  have h := h.at (checkedGetRangeFn G)
  generalize hS : atFn S (checkedGetRangeFn G) = T at h
  have hb : T.builder = false := by subst hS; rfl
  have hr : T.ret = .result (backTy G.B.backing) := by subst hS; rfl
  simp only [checkedGetRangeFn, Stmt.all, List.map]
  refine seq_typ (letThis_typ hb) (seq_typ (offsetGuard_typ (by simp [findVar]) (by ty [hr])) (seq_typ (lengthGuard_typ
    (by simp [findVar]) (by simp [findVar]) (by ty [hr])) (last_typ ?_)))
  have hin := h.inner
  have hp := fun N => prot_typ (S := T) (N := N) (B := G.B) .writeOnly
  cases hB : G.B.backing with
  | int w =>
    rw [hB] at hp
    simp only [innerTy, hB] at hin
    ty [maskTok, hp, backTy, hin, Sig.hasInner, hr]
  | arr n =>
    rw [hB] at hp
    have hx : T.inner.indexable = true := by rw [hin]; simp only [innerTy, hB]; split <;> rfl
    ty [upToTok, bitSetTok, posTok, protLoopTok, isProtTok, resBitTok, incr, hp, backTy, hx, Sig.hasInner, hr]

end

theorem debug_typed (h : Declares S B) : (debugFn B).typed S = true := by
  refine typed_of ?_
  have h := h.at (debugFn B)
  generalize hS : atFn S (debugFn B) = T at h
  have hb : T.builder = false := by subst hS; rfl
  simp only [debugFn, List.map]
  obtain ⟨N', h1, -⟩ := all_typ (S := T) (N := { vars := [], this := true }) (I := fun N => N.this = true) (l := B.fields)
    (g := fun f => .seq (extractTok B f .bitfield false false false) (.debugField f.name (.var "value")))
    (fun f hf N hN => by
      obtain ⟨N', h1, h3, h2, -⟩ := extract_typ (inv := false) (src := .bitfield) (x := innerTy B) (N := N)
        h hf (b := false) (fun _ => hb) ⟨h.inner, by simpa [Sig.hasInner] using hN⟩ (.inl rfl)
      refine seq_typ h1 ⟨N', ?_, h3.trans hN⟩
      cases hB : B.backing <;> cases hty : f.ty <;> rw [hB, hty] at h2 <;> ty [h2, readTy]) rfl
  exact seq_typ (letThis_typ hb) ⟨N', h1, by ty []⟩

/-! ## All functions -/

/-- What a function of a generated program can refer to. -/
structure Knows (S : Sig) (G : Gen) : Prop where
  decl : Declares S G.B
  defaults : DefaultsOk S G.B
  new : G.new = true → S.assoc (.fn "new") = some .self
  newWithout : G.new = true → S.assoc (.fn "new_without_defaults") = some .self

/-- The functions are well typed, except the constructors of a builder for which `new` is not generated and a field
without setter has constants. -/
theorem featureFns_typed {G : Gen} (h : Knows S G) (ft : Feature)
    (hbn : ft = .builder → S.assoc (.builderFn "new") = some .self) :
    ∀ x ∈ featureFns G ft,
      ((x.1 = .builderFn "new" ∨ x.1 = .builderFn "new_without_defaults") → G.new = false →
        ∀ f ∈ G.B.fields, f.hasConstants = true → f.hasSetter = true) → x.2.typed S = true := by
  intro x hx hi
  have hd := h.decl
  have ho := h.defaults
  cases ft with
  | struct => exact absurd hx (by simp [featureFns])
  | constants => exact absurd hx (by simp [featureFns])
  | fromIntoBits =>
    simp only [featureFns] at hx
    cases hb : G.B.backing <;> rw [hb] at hx <;>
      simp only [List.mem_append, List.mem_flatMap, List.mem_map, List.mem_cons, List.not_mem_nil, or_false] at hx
    · rcases hx with ⟨_, _, rfl | rfl⟩ | ⟨_, _, rfl⟩
      · exact from_typed hd ho _ _
      · exact from_typed hd ho _ _
      · exact into_typed hd _
    · rcases hx with ((⟨_, _, rfl | rfl⟩ | ⟨_, _, rfl | rfl | rfl | rfl⟩) | ⟨_, _, rfl⟩) | ⟨_, _, rfl | rfl⟩
      · exact from_typed hd ho _ _
      · exact from_typed hd ho _ _
      · exact fromSlice_typed hd ho hb _ _
      · exact fromSlice_typed hd ho hb _ _
      · exact checkedFromSlice_typed hd ho hb _ _
      · exact checkedFromSlice_typed hd ho hb _ _
      · exact into_typed hd _
      · exact intoSlice_typed hd hb _
      · exact checkedIntoSlice_typed hd hb _
  | new =>
    simp only [featureFns, List.mem_cons, List.not_mem_nil, or_false] at hx
    rcases hx with rfl | rfl <;> exact newFn_typed hd ho _
  | setters =>
    simp only [featureFns, List.mem_flatMap, List.mem_cons, List.not_mem_nil, or_false, List.mem_filter] at hx
    obtain ⟨f, ⟨hf, _⟩, rfl | rfl⟩ := hx
    · exact setter_typed hd hf
    · exact checkedSetter_typed hd hf
  | getters =>
    simp only [featureFns, List.mem_map, List.mem_filter] at hx
    obtain ⟨f, ⟨hf, _⟩, rfl⟩ := hx
    exact getter_typed hd hf
  | fromTraits =>
    simp only [featureFns, List.mem_cons, List.not_mem_nil, or_false] at hx
    rcases hx with rfl | rfl
    · exact traitFrom_typed hd
    · exact traitInto_typed hd
  | debug =>
    simp only [featureFns, List.mem_cons, List.not_mem_nil, or_false] at hx
    subst hx; exact debug_typed hd
  | default =>
    simp only [featureFns, List.mem_cons, List.not_mem_nil, or_false] at hx
    subst hx; exact default_typed hd ho h.new
  | builder =>
    simp only [featureFns, List.mem_append, List.mem_flatMap, List.mem_cons, List.not_mem_nil, or_false, List.mem_filter] at hx
    rcases hx with ((rfl | rfl | rfl) | ⟨f, ⟨hf, _⟩, rfl | rfl⟩) | rfl
    · exact builderDefault_typed (hbn rfl)
    · exact builderNew_typed hd ho true h.new (hi (.inl rfl))
    · exact builderNew_typed hd ho false h.newWithout (hi (.inr rfl))
    · exact with_typed hd hf
    · exact checkedWith_typed hd hf
    · exact build_typed
  | writeBitOps =>
    simp only [featureFns, List.mem_append, List.mem_flatMap, List.mem_cons, List.not_mem_nil, or_false] at hx
    rcases hx with ⟨_, _, rfl | rfl⟩ | rfl
    · exact write_typed hd ho _ _
    · exact write_typed hd ho _ _
    · exact writeDefaults_typed hd ho
  | setGetBitOps =>
    simp only [featureFns, List.mem_cons, List.not_mem_nil, or_false] at hx
    rcases hx with rfl | rfl | rfl | rfl | rfl | rfl | rfl | rfl
    · exact setBitFn_typed hd
    · exact checkedSetBitFn_typed hd
    · exact setRange_typed hd
    · exact checkedSetRange_typed hd
    · exact getBitFn_typed hd
    · exact checkedGetBitFn_typed hd
    · exact getRange_typed hd
    · exact checkedGetRange_typed hd
  | clearBitOps =>
    simp only [featureFns, List.mem_append, List.mem_map, List.mem_cons, List.not_mem_nil, or_false, List.mem_filter] at hx
    rcases hx with ((rfl | rfl) | ⟨f, ⟨hf, _⟩, rfl⟩) | ⟨f, ⟨hf, _⟩, rfl⟩
    · exact clear_typed hd ho _
    · exact clear_typed hd ho _
    · exact clearField_typed hd hf
    · exact clearToDefault_typed hd ho hf
  | invertBitOps =>
    simp only [featureFns, List.mem_append, List.mem_map, List.mem_cons, List.not_mem_nil, or_false, List.mem_filter] at hx
    rcases hx with (rfl | ⟨f, ⟨hf, hs⟩, rfl⟩) | ⟨f, ⟨hf, _⟩, rfl⟩
    · exact invert_typed hd
    · exact invertField_typed hd hf hs
    · exact inverted_typed hd hf

end Bf.Quote

namespace Bf

open Rust Quote

variable {G : Gen} {en : Feature → Bool}

/-- Fields that are not reserved have different names. -/
def NamesDiffer (B : Bitfield) : Prop := (B.fields.filter fun f => !f.reserved).Pairwise fun f g => f.name ≠ g.name

theorem NamesDiffer.unique {B : Bitfield} (g : NamesDiffer B) {f h : Field} (hf : f ∈ B.fields) (hh : h ∈ B.fields)
    (h1 : f.reserved = false) (h2 : h.reserved = false) (hn : f.name = h.name) : f = h := by
  have hf' : f ∈ B.fields.filter fun f => !f.reserved := List.mem_filter.mpr ⟨hf, by simp [h1]⟩
  have hh' : h ∈ B.fields.filter fun f => !f.reserved := List.mem_filter.mpr ⟨hh, by simp [h2]⟩
  obtain ⟨i, hi, rfl⟩ := List.getElem_of_mem hf'
  obtain ⟨j, hj, rfl⟩ := List.getElem_of_mem hh'
  have hp := List.pairwise_iff_getElem.mp g
  rcases Nat.lt_trichotomy i j with h | h | h
  · exact absurd hn (hp i j hi hj h)
  · subst h; rfl
  · exact absurd hn.symm (hp j i hj hi h)

theorem declares_const {f : Field} (hf : f ∈ G.B.fields) (hc : f.hasConstants = true) :
    ((assemble G en).const .bitsConst f.name).isSome = true ∧ ((assemble G en).const .offsetConst f.name).isSome = true := by
  unfold Program.const
  simp only [Option.isSome_map, List.find?_isSome, decide_eq_true_eq, assemble, constants, List.mem_flatMap, List.mem_filter]
  exact ⟨⟨_, ⟨f, ⟨hf, hc⟩, by simp; exact .inl rfl⟩, rfl⟩, ⟨_, ⟨f, ⟨hf, hc⟩, by simp; exact .inr rfl⟩, rfl⟩⟩

theorem declares_set (g : NamesDiffer G.B) (he : en .setters = true) {f : Field} (hf : f ∈ G.B.fields)
    (hs : f.hasSetter = true) : (assemble G en).fn (.acc .set f.name) = some (setterFn G.B f) := by
  refine fn_unique ?_ (setter_present he hf hs).1
  intro feat F' h
  cases feat <;> simp [featureFns, endians] at h
  · obtain ⟨f', ⟨h1, h2⟩, h3, rfl⟩ := h
    rw [g.unique hf h1 (setter_open hs) (setter_open h2) h3]
  · split at h <;> simp at h

theorem declares_checkedSet (g : NamesDiffer G.B) (he : en .setters = true) {f : Field} (hf : f ∈ G.B.fields)
    (hs : f.hasSetter = true) : (assemble G en).fn (.acc .checkedSet f.name) = some (checkedSetterFn G.B f) := by
  refine fn_unique ?_ (setter_present he hf hs).2
  intro feat F' h
  cases feat <;> simp [featureFns, endians] at h
  · obtain ⟨f', ⟨h1, h2⟩, h3, rfl⟩ := h
    rw [g.unique hf h1 (setter_open hs) (setter_open h2) h3]
  · split at h <;> simp at h

theorem declares_new (he : en .new = true) (d : Bool) :
    (assemble G en).fn (.fn (if d then "new" else "new_without_defaults")) = some (newFn G.B d) := by
  have hm : (Tag.fn (if d then "new" else "new_without_defaults"), newFn G.B d) ∈ featureFns G .new := by
    cases d <;> simp [featureFns]
  refine fn_unique ?_ (fn_present he hm)
  intro feat F' h
  cases d <;> cases feat <;> simp [featureFns, endians] at h <;> first | exact h | skip
  all_goals first
    | (split at h <;> simp at h)
    | (unfold paramTok at h; split at h <;> simp at h)
    | (rcases h with h | h <;> first | exact h | simp at h)

theorem declares_builderNew (he : en .builder = true) :
    (assemble G en).fn (.builderFn "new") = some (builderNewFn G true) := by
  refine fn_unique ?_ (fn_present (feat := .builder) (F := builderNewFn G true) he (by simp [featureFns]))
  intro feat F' h
  cases feat <;> simp [featureFns, endians] at h <;> first | exact h | skip
  all_goals (split at h <;> simp at h)

theorem declares_program {p : Parsed} {user : Nat → Option Ty → Option STy} {inner : STy} (hin : inner = innerTy p.bitfield)
    (hd : p.Distinct) : Declares ((program p).sig inner user) (genOf p).B := by
  have g : NamesDiffer (genOf p).B := by
    have e : p.bitfield.fields = p.fields.map (·.field) := rfl
    unfold NamesDiffer
    show ((p.bitfield.fields).filter _).Pairwise _
    rw [e, List.filter_map, List.pairwise_map]
    exact hd
  refine ⟨hin, fun f hf hc => declares_const hf hc, ?_, ?_⟩
  · intro f hf hs
    have e : (program p).fn _ = _ := declares_set (en := fun f => f.enabled p.args) g rfl hf hs
    simp only [Program.sig, e, setterFn]
  · intro f hf hs
    have e : (program p).fn _ = _ := declares_checkedSet (en := fun f => f.enabled p.args) g rfl hf hs
    simp only [Program.sig, e, checkedSetterFn]

theorem knows_program {p : Parsed} {user : Nat → Option Ty → Option STy} {inner : STy} (hin : inner = innerTy p.bitfield)
    (hd : p.Distinct)
    (ho : ∀ f ∈ p.bitfield.fields, ∀ v, f.default = some v → Accepts p.bitfield.backing f.ty f.hasSetter (user f.offset)) :
    Knows ((program p).sig inner user) (genOf p) := by
  refine ⟨declares_program hin hd, ho, ?_, ?_⟩
  · intro hn
    have e : (program p).fn _ = _ := declares_new (G := genOf p) (en := fun f => f.enabled p.args) hn true
    simp only [if_true] at e
    simp only [Program.sig, e, newFn]
    rfl
  · intro hn
    have e : (program p).fn _ = _ := declares_new (G := genOf p) (en := fun f => f.enabled p.args) hn false
    simp only [Bool.false_eq_true, if_false] at e
    simp only [Program.sig, e, newFn]
    rfl

theorem knows_builder {p : Parsed} {user : Nat → Option Ty → Option STy} {inner : STy} (h : p.args.builder = true) :
    ((program p).sig inner user).assoc (.builderFn "new") = some .self := by
  have e : (program p).fn _ = _ := declares_builderNew (G := genOf p) (en := fun f => f.enabled p.args) h
  simp only [Program.sig, e, builderNewFn]
  rfl

/-- The functions of a generated program are well typed. -/
theorem program_typed {p : Parsed} {user : Nat → Option Ty → Option STy} {inner : STy} (hin : inner = innerTy p.bitfield)
    (hd : p.Distinct)
    (ho : ∀ f ∈ p.bitfield.fields, ∀ v, f.default = some v → Accepts p.bitfield.backing f.ty f.hasSetter (user f.offset))
    {t : Tag} {F : Fn} (hF : (t, F) ∈ (program p).fns)
    (hx : (t = .builderFn "new" ∨ t = .builderFn "new_without_defaults") → p.args.new = false →
      ∀ f ∈ p.bitfield.fields, f.hasConstants = true → f.hasSetter = true) :
    F.typed ((program p).sig inner user) = true := by
  simp only [program, assemble, List.mem_flatMap, List.mem_filter] at hF
  obtain ⟨ft, ⟨-, he⟩, hm⟩ := hF
  exact featureFns_typed (knows_program hin hd ho) ft (fun e => by subst e; exact knows_builder he) _ hm hx

end Bf
