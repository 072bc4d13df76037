import Verif.Lemmas.TypedFns

/-!
# Defaults that are not accepted

The converse of the lemmas about defaults in `Lemmas/Typed.lean`: where the code that sets the default is well typed, the
default fits.
-/

namespace Bf.Quote

open Rust

variable {S : Sig} {B : Bitfield} {f : Field} {N : Names}

theorem seq_some {a b : Stmt} (h : ((Stmt.seq a b).typ S N).isSome = true) :
    ∃ N', a.typ S N = some N' ∧ (b.typ S N').isSome = true := by
  simp only [Stmt.typ] at h
  split at h
  · exact ⟨_, by assumption, h⟩
  · cases h

theorem scope_some {a : Stmt} (h : ((Stmt.scope a).typ S N).isSome = true) : (a.typ S N).isSome = true := by
  simp only [Stmt.typ] at h
  split at h
  · assumption
  · cases h

theorem let_some {x : String} {t : Option Ty} {e : Expr} {mu : Bool} {N' : Names} (h : (Stmt.letS x t e mu).typ S N = some N') :
    ∃ y, e.typ S t N = some y ∧ (∀ t', t = some t' → y = .ty t') ∧ N' = { N with vars := (x, y) :: N.vars } := by
  simp only [Stmt.typ] at h
  split at h
  · rename_i y hy
    refine ⟨y, hy, ?_⟩
    cases t with
    | none => exact ⟨fun _ he => absurd he (by simp), (Option.some.inj h).symm⟩
    | some t =>
      dsimp only at h
      split at h
      · rename_i e; exact ⟨fun t' ht => by cases ht; exact e, (Option.some.inj h).symm⟩
      · cases h
  · cases h

theorem cast_some {e : Expr} {t : Ty} {exp : Option Ty} {y : STy} (h : (Expr.cast e t).typ S exp N = some y) :
    ∃ x, e.typ S (some t) N = some x ∧ x.castable = true := by
  simp only [Expr.typ] at h
  split at h
  · rename_i x hx
    split at h
    · rename_i hc; exact ⟨x, hx, (Bool.and_eq_true _ _ ▸ hc).1⟩
    · cases h
  · cases h

theorem castInfer_some {e : Expr} {exp : Option Ty} {y : STy} (h : (Expr.castInfer e).typ S exp N = some y) :
    ∃ x, e.typ S none N = some x ∧ x.castable = true := by
  simp only [Expr.typ] at h
  split at h
  · rename_i x t hx
    split at h
    · rename_i hc; exact ⟨x, hx, (Bool.and_eq_true _ _ ▸ hc).1⟩
    · cases h
  · cases h

theorem unpack_exact {v : String} {a : Expr} {n : Nat} {e : Option Ty} {y : STy} (h : (unpackTok v a n).typ S e N = some y) :
    ∃ x, a.typ S (some (.u 128)) N = some x ∧ x.castable = true := by
  unfold unpackTok at h
  simp only [Expr.typ, Stmt.all] at h
  split at h
  · rename_i N' h1
    obtain ⟨_, h2, -⟩ := seq_some (S := S) (N := N) (by rw [h1]; rfl)
    obtain ⟨_, h3, -⟩ := let_some h2
    exact cast_some h3
  · cases h

theorem method_some {b : Bool} {t : Tag} {e : Expr} {p r : Ty} (hm : S.method t = some (p, r))
    (h : ((Stmt.expr (.method b t e)).typ S N).isSome = true) : e.typ S (some p) N = some (.ty p) := by
  simp only [Stmt.typ, Expr.typ, hm] at h
  split at h
  · rename_i hc
    simp only [Bool.and_eq_true, decide_eq_true_eq] at hc
    exact hc.2
  · cases h

theorem setterCall_exact (h : Declares S B) (hf : f ∈ B.fields) (hs : f.hasSetter = true) {b : Bool} {a : Expr}
    (ha : ((setterCallTok B f a b).typ S N).isSome = true) : Accepts B.backing f.ty true fun e => a.typ S e N := by
  have h1 := h.set f hf hs
  unfold setterCallTok at ha
  cases hty : f.ty with
  | int it =>
    rw [hty] at ha h1
    cases it <;> first | exact method_some h1 ha | exact castInfer_some (method_some h1 ha)
  | array len =>
    rw [hty] at ha h1
    cases hB : B.backing with
    | int w => rw [hB] at ha; exact unpack_exact (method_some h1 ha)
    | arr n => rw [hB] at ha; exact method_some h1 ha
  | custom c => rw [hty] at ha h1; exact method_some h1 ha

theorem ite_some {c : Expr} {a b : Stmt} (h : ((Stmt.ite c a b).typ S N).isSome = true) :
    c.typ S (some .bool) N = some (.ty .bool) := by
  simp only [Stmt.typ] at h
  split at h
  · rename_i hc
    simp only [Bool.and_eq_true, decide_eq_true_eq] at hc
    exact hc.1.1
  · cases h

theorem iteE_some {c a b : Expr} {e : Option Ty} {y : STy} (h : (Expr.ite c a b).typ S e N = some y) :
    c.typ S (some .bool) N = some (.ty .bool) := by
  simp only [Expr.typ] at h
  split at h
  · rename_i hc
    simp only [Bool.and_eq_true, decide_eq_true_eq] at hc
    exact hc.1
  · cases h

theorem intoBits_some {a : Expr} {e : Option Ty} {y : STy} (h : (Expr.intoBits a).typ S e N = some y) :
    a.typ S none N = some (.ty .obj) := by
  simp only [Expr.typ] at h
  split at h
  · assumption
  · cases h

theorem direct_exact {b : Bool} {a : Expr} (hm : ∀ t e, a.typ S e { N with vars := ("mask", t) :: N.vars } = a.typ S e N)
    (ha : ((directTok B f a b).typ S N).isSome = true) : Accepts B.backing f.ty false fun e => a.typ S e N := by
  unfold directTok at ha
  cases hB : B.backing with
  | int w =>
    rw [hB] at ha
    have key : ∀ {l}, ((Stmt.all (.letS "mask" none (maskTok w (bitsTok f b)) :: .letS "field_bits" (some (.u w)) a :: l)).typ
        S N).isSome = true → a.typ S (some (.u w)) N = some (.ty (.u w)) := by
      intro l ha
      obtain ⟨N1, h1, ha⟩ := seq_some ha
      obtain ⟨N2, h2, ha⟩ := seq_some ha
      obtain ⟨y, -, -, rfl⟩ := let_some h1
      obtain ⟨z, h3, h4, -⟩ := let_some h2
      rw [hm, h4 _ rfl] at h3
      exact h3
    cases hty : f.ty with
    | int it =>
      rw [hty] at ha
      cases it <;> first | exact ite_some ha | exact key ha
    | array len => rw [hty] at ha; exact key ha
    | custom c =>
      rw [hty] at ha
      obtain ⟨N1, h1, ha⟩ := seq_some ha
      obtain ⟨N2, h2, ha⟩ := seq_some ha
      obtain ⟨y, -, -, rfl⟩ := let_some h1
      obtain ⟨z, h3, -, -⟩ := let_some h2
      obtain ⟨x, h4, -⟩ := cast_some h3
      have := intoBits_some h4
      rw [hm] at this
      exact this
  | arr n =>
    rw [hB] at ha
    cases hty : f.ty with
    | int it =>
      rw [hty] at ha
      obtain ⟨N1, h1, ha⟩ := seq_some (scope_some ha)
      obtain ⟨y, h2, -, rfl⟩ := let_some h1
      cases it <;> first | exact iteE_some h2 | exact cast_some h2
    | custom c =>
      rw [hty] at ha
      obtain ⟨N1, h1, ha⟩ := seq_some (scope_some ha)
      obtain ⟨y, h2, -, rfl⟩ := let_some h1
      obtain ⟨x, h3, -⟩ := cast_some h2
      exact intoBits_some h3
    | array len =>
      rw [hty] at ha
      obtain ⟨N1, h1, ha⟩ := seq_some (scope_some ha)
      obtain ⟨y, h2, -, rfl⟩ := let_some h1
      refine ⟨y, h2, ?_⟩
      obtain ⟨N2, h3, ha⟩ := seq_some ha
      obtain ⟨z, h4, h5, rfl⟩ := let_some h3
      have h5 := h5 _ rfl
      subst h5
      obtain ⟨N3, h6, -⟩ := seq_some ha
      simp only [Stmt.typ] at h6
      split at h6
      · rename_i hc
        simp only [Bool.and_eq_true] at hc
        have ha := hc.2
        obtain ⟨N4, h7, ha⟩ := seq_some ha
        obtain ⟨x1, -, -, rfl⟩ := let_some h7
        obtain ⟨N5, h7, ha⟩ := seq_some ha
        obtain ⟨x2, -, -, rfl⟩ := let_some h7
        obtain ⟨N6, h7, ha⟩ := seq_some ha
        obtain ⟨x3, -, -, rfl⟩ := let_some h7
        obtain ⟨N7, h7, ha⟩ := seq_some ha
        obtain ⟨x4, h8, -, -⟩ := let_some h7
        cases hy : y.indexable with
        | true => rfl
        | false => simp [Expr.typ, findVar, hy] at h8
      · cases h6

theorem setDefault_exact (h : Declares S B) (hf : f ∈ B.fields) {v : Val} (hv : f.default = some v)
    (ha : ((setDefaultTok B f).typ S N).isSome = true) : Accepts B.backing f.ty f.hasSetter (S.user f.offset) := by
  simp only [setDefaultTok, hv] at ha
  split at ha
  · rename_i hs
    rw [hs]
    have := setterCall_exact h hf hs ha
    simpa only [Expr.typ] using this
  · rename_i hs
    rw [Bool.eq_false_iff.mpr hs]
    have := direct_exact (a := .user f.offset f.ty v) (fun t e => by simp only [Expr.typ]) ha
    simpa only [Expr.typ] using this

theorem all_exact {l : List Field} {g : Field → Stmt} (h : ((Stmt.all (l.map g)).typ S N).isSome = true) (hf : f ∈ l) :
    ∃ N, ((g f).typ S N).isSome = true := by
  induction l generalizing N with
  | nil => cases hf
  | cons x l ih =>
    obtain ⟨N', h1, h2⟩ := seq_some h
    rcases List.mem_cons.mp hf with rfl | hf
    · exact ⟨N, by rw [h1]; rfl⟩
    · exact ih h2 hf

theorem setDefaults_exact (h : Declares S B) (hf : f ∈ B.fields) {v : Val} (hv : f.default = some v)
    (ha : ((setDefaultsTok B).typ S N).isSome = true) : Accepts B.backing f.ty f.hasSetter (S.user f.offset) := by
  obtain ⟨N', h1⟩ := all_exact ha (List.mem_filter.mpr ⟨hf, by simp [Field.hasDefault, hv]⟩)
  exact setDefault_exact h hf hv h1

theorem typed_some {g : Fn} (h : g.typed S = true) :
    (g.body.typ (atFn S g) { vars := g.params.map fun x => (x.1, .ty x.2), this := false }).isSome = true := by
  simp only [Fn.typed] at h
  split at h
  · rename_i hN; simp only [atFn]; rw [hN]; rfl
  · cases h

/-- If `new` is well typed, the defaults fit. -/
theorem newFn_exact (h : Declares S B) (ht : (newFn B true).typed S = true) : DefaultsOk S B := by
  intro f hf v hv
  have h1 := typed_some ht
  have h := h.at (newFn B true)
  have hu : (atFn S (newFn B true)).user = S.user := rfl
  rw [← hu]
  generalize atFn S (newFn B true) = T at h h1 hu
  simp only [newFn, newTok, Stmt.all] at h1
  obtain ⟨N1, -, h1⟩ := seq_some h1
  obtain ⟨N2, -, h1⟩ := seq_some h1
  obtain ⟨N3, h2, h1⟩ := seq_some h1
  exact setDefaults_exact h hf hv (by simp only [if_true] at h2; rw [h2]; rfl)

/-- If `clear_x_to_default` is well typed, the default fits. -/
theorem clearToDefault_exact (h : Declares S B) (hf : f ∈ B.fields) {v : Val} (hv : f.default = some v)
    (ht : (clearToDefaultFn B f).typed S = true) : Accepts B.backing f.ty f.hasSetter (S.user f.offset) := by
  have h1 := typed_some ht
  have h := h.at (clearToDefaultFn B f)
  have hu : (atFn S (clearToDefaultFn B f)).user = S.user := rfl
  rw [← hu]
  generalize atFn S (clearToDefaultFn B f) = T at h h1 hu
  simp only [clearToDefaultFn, Stmt.all] at h1
  obtain ⟨N1, -, h1⟩ := seq_some h1
  obtain ⟨N2, h2, h1⟩ := seq_some h1
  exact setDefault_exact h hf hv (by rw [h2]; rfl)

/-! ## Builders -/

theorem bits_builder (hb : S.builder = true) (hc : f.hasConstants = true) {e : Option Ty} :
    (bitsTok f false).typ S e N = none := by simp [bitsTok, hc, Expr.typ, hb]

theorem off_builder (hb : S.builder = true) (hc : f.hasConstants = true) {e : Option Ty} :
    (offTok f false).typ S e N = none := by simp [offTok, hc, Expr.typ, hb]

theorem mask_builder (hb : S.builder = true) (hc : f.hasConstants = true) {w : Nat} {e : Option Ty} :
    (maskTok w (bitsTok f false)).typ S e N = none := by
  simp only [maskTok, Expr.typ, bits_builder hb hc]

theorem loop_some {c : Expr} {a : Stmt} (h : ((Stmt.loop c a).typ S N).isSome = true) :
    c.typ S (some .bool) N = some (.ty .bool) := by
  simp only [Stmt.typ] at h
  split at h
  · rename_i hc
    simp only [Bool.and_eq_true, decide_eq_true_eq] at hc
    exact hc.1
  · cases h

/-- In a function of the builder the constants of the bitfield are not found by `Self::`. -/
theorem direct_builder (hb : S.builder = true) (hc : f.hasConstants = true) {a : Expr} :
    ((directTok B f a false).typ S N).isSome = false := by
  rw [Bool.eq_false_iff]
  intro h
  unfold directTok at h
  cases hB : B.backing with
  | int w =>
    rw [hB] at h
    have key : ∀ {l}, ((Stmt.all (.letS "mask" none (maskTok w (bitsTok f false)) :: l)).typ S N).isSome ≠ true := by
      intro l h
      obtain ⟨N1, h1, -⟩ := seq_some h
      obtain ⟨y, h2, -⟩ := let_some h1
      rw [mask_builder hb hc] at h2
      cases h2
    cases hty : f.ty with
    | int it =>
      rw [hty] at h
      cases it <;> first | exact key h | skip
      have e : ∀ x e, (Expr.bin .shl x (offTok f false)).typ S e N = none := by
        intro x e
        simp only [Expr.typ, off_builder hb hc]
        split <;> rfl
      have e' : ∀ x e, (Expr.not (.bin .shl x (offTok f false))).typ S e N = none := by
        intro x t
        unfold Expr.typ
        rw [e]
      have hz : (Stmt.assignInner false (some .and) (.not (.bin .shl (.lit 1 none) (offTok f false)))).typ S N = none := by
        unfold Stmt.typ
        rw [e']
      unfold storeBitTok at h
      unfold Stmt.typ at h
      rw [hz] at h
      simp at h
    | array len => rw [hty] at h; exact key h
    | custom c => rw [hty] at h; exact key h
  | arr n =>
    rw [hB] at h
    have key : ∀ {s x l} {t e mu}, ((Stmt.all (s :: .letS x t e mu ::
        .loop (.bin .lt (.var x) (bitsTok f false)) l :: [])).typ S N).isSome ≠ true := by
      intro s x l t e mu h
      obtain ⟨N1, -, h⟩ := seq_some h
      obtain ⟨N2, -, h⟩ := seq_some h
      obtain ⟨N3, h3, -⟩ := seq_some h
      have := loop_some (by rw [h3]; rfl)
      simp only [Expr.typ, bits_builder hb hc] at this
      revert this; split <;> simp
    cases hty : f.ty with
    | int it => rw [hty] at h; exact key (scope_some h)
    | array len => rw [hty] at h; exact key (scope_some h)
    | custom c => rw [hty] at h; exact key (scope_some h)

/-- The constructors of the builder are not well typed if they set a field directly. -/
theorem builderNew_exact {G : Gen} {d : Bool} (hn : G.new = false) (hf : f ∈ G.B.fields) (hc : f.hasConstants = true)
    (hs : f.hasSetter = false) : (builderNewFn G d).typed S = false := by
  rw [Bool.eq_false_iff]
  intro ht
  have h1 := typed_some ht
  have hb : (atFn S (builderNewFn G d)).builder = true := rfl
  generalize atFn S (builderNewFn G d) = T at h1 hb
  simp only [builderNewFn, hn, newTok, Stmt.all] at h1
  obtain ⟨N1, -, h1⟩ := seq_some h1
  obtain ⟨N2, h2, h1⟩ := seq_some h1
  obtain ⟨N3, h3, h1⟩ := seq_some h1
  by_cases hz : d = true ∧ f.hasDefault = true
  · obtain ⟨rfl, hd⟩ := hz
    obtain ⟨N', h⟩ := all_exact (f := f) (l := G.B.fields.filter Field.hasDefault) (g := setDefaultTok G.B) (N := N2) (S := T)
      (by simp only [if_true, setDefaultsTok] at h3; rw [h3]; rfl) (List.mem_filter.mpr ⟨hf, hd⟩)
    obtain ⟨v, hv⟩ := Option.isSome_iff_exists.mp hd
    simp only [setDefaultTok, hv, hs, Bool.false_eq_true, if_false] at h
    rw [direct_builder hb hc] at h
    cases h
  · obtain ⟨N', h⟩ := all_exact (f := f) (l := G.B.fields.filter fun f => !(d && f.hasDefault)) (g := setZeroTok G.B)
      (N := N1) (S := T) (by simp only [setZerosTok] at h2; rw [h2]; rfl)
      (List.mem_filter.mpr ⟨hf, by cases d <;> simp_all⟩)
    simp only [setZeroTok, hs, Bool.false_eq_true, if_false] at h
    rw [direct_builder hb hc] at h
    cases h

end Bf.Quote
