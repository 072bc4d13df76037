import Verif.Lemmas.CodeWhole

/-!
# Running generated functions: the builder
-/

namespace Bf

open Rust Quote

set_option linter.unusedSimpArgs false

/-- `self.this.checked_set_x(v)` does what `setImpl` with a check does. -/
def CheckedSetterIs (cx : Ctx) (b : Backing) (f : Field) : Prop :=
  ∃ run, cx.method (.acc .checkedSet f.name) = some (fieldTy f.ty, run) ∧
    ∀ v s, HasType f.ty v → s.HasBacking b →
      run (argV f.ty v) s = (liftE (setImpl cx.mode true f s v)).map fun r =>
        (match r.1 with
          | .ok () => V.ok .unit
          | .error msg => .err msg, r.2)

theorem argV_num {t : IntTy} {n : Int} (ht : t ≠ .bool) (h : HasType (.int t) (.int n)) :
    (argV (.int t) (.int n)).num = some n := by
  cases hu : t.unsigned
  · rw [argV_i hu]; rfl
  · have hr : 0 ≤ n ∧ n < 2 ^ t.bitSize := by
      cases t <;> first | exact absurd rfl ht | exact absurd hu (by decide) | exact h
    rw [argV_u ht hu h, bv_num, ofInt_toNat hr]
    exact congrArg some (Int.toNat_of_nonneg hr.1)

/-- The value a builder hands to the setter. -/
def handed (f : Field) (v : Val) : Val :=
  match f.ty, v with
  | .int .bool, v => v
  | .int t, .int n => .int (t.cast n)
  | _, v => v

theorem builderWith_eq (m : Mode) (check : Bool) (f : Field) (s : Store) (v : Val) :
    builderWith m check f s v = setImpl m check f s (if f.hasSetter then handed f v else v) := by
  unfold builderWith handed
  cases f.hasSetter
  · rfl
  · simp only [if_true]
    split <;> first | rfl | (split <;> first | rfl | simp_all)

theorem setImpl_unchecked {m : Mode} {f : Field} {s : Store} {v : Val} :
    setImpl m false f s v = setX m f s v >>= fun s' => pure (.ok (), s') := by
  unfold setX setImpl
  simp only [Bool.false_and, Bool.false_eq_true, if_false]
  cases h2 : extractCast m f s v with
  | error p => rfl
  | ok r =>
    simp only [ebind_ok]
    cases h3 : valueVar f r.2 with
    | error p => rfl
    | ok x =>
      simp only [ebind_ok]
      cases h4 : directSet m f s x with
      | error p => rfl
      | ok x => rfl

section
variable {cx : Ctx} {B : Bitfield} {f : Field} {s : Store} {l sh : List (String × V)} {th : Bool} {t : Ty}

/-- The argument a builder hands to the setter. -/
theorem eval_handed {v : Val} (hv : HasType f.ty v) (hb : look "bits" l = some (argV f.ty v)) :
    HasType f.ty (handed f v) ∧
    ∃ e : Expr, (∀ check, builderSetTok f check =
        if check then .tryS (.method true (.acc .checkedSet f.name) e) else .expr (.method true (.acc .set f.name) e)) ∧
      ∀ cx : Ctx, eval cx e (some (fieldTy f.ty)) ⟨l, th, s, sh⟩ = .ok (argV f.ty (handed f v), ⟨l, th, s, sh⟩) := by
  have stay : ∀ {v' : Val}, v' = v → HasType f.ty v' ∧ ∀ cx : Ctx,
      eval cx (.var "bits") (some (fieldTy f.ty)) ⟨l, th, s, sh⟩ = .ok (argV f.ty v', ⟨l, th, s, sh⟩) := by
    rintro v' rfl; exact ⟨hv, fun cx => by run [hb]⟩
  cases hty : f.ty with
  | custom cd =>
    obtain ⟨h1, h2⟩ := stay (v' := handed f v) (by simp only [handed, hty])
    rw [hty] at h1 h2
    exact ⟨h1, .var "bits", by intro check; cases check <;> simp [builderSetTok, hty], h2⟩
  | array len =>
    obtain ⟨h1, h2⟩ := stay (v' := handed f v) (by simp only [handed, hty])
    rw [hty] at h1 h2
    exact ⟨h1, .var "bits", by intro check; cases check <;> simp [builderSetTok, hty], h2⟩
  | int t =>
    by_cases ht : t = .bool
    · subst ht
      obtain ⟨h1, h2⟩ := stay (v' := handed f v) (by simp only [handed, hty])
      rw [hty] at h1 h2
      exact ⟨h1, .var "bits", by intro check; cases check <;> simp [builderSetTok, hty], h2⟩
    · rw [hty] at hv hb
      have hx : ∃ n, v = .int n := by
        cases v with
        | int n => exact ⟨n, rfl⟩
        | _ => cases t <;> first | exact absurd rfl ht | exact absurd hv id
      obtain ⟨n, rfl⟩ := hx
      have e : handed f (.int n) = .int (t.cast n) := by simp only [handed, hty]
      rw [e]
      refine ⟨IntTy.cast_range t ht n, .castInfer (.var "bits"), ?_, ?_⟩
      · intro check
        cases check <;> simp [builderSetTok, hty] <;> cases t <;> first | exact absurd rfl ht | rfl
      · intro cx
        run [hb, fieldTy, castV_intTy (argV_num ht hv) ht]

/-- What `with_x` returns. -/
def WithIs (r : Except String Unit × Store) (v : V) (env : Env) : Prop :=
  env.cell = r.2 ∧ r.1 = .ok () ∧ v = .self r.2

/-- What `checked_with_x` returns. -/
def CheckedWithIs (r : Except String Unit × Store) (v : V) (_ : Env) : Prop :=
  v = match r.1 with
    | .ok () => .ok (.self r.2)
    | .error msg => .err msg

theorem ends_withBody {v : Val} {check : Bool} (g : Surround cx B)
    (hc : f.hasSetter = true → CheckedSetterIs cx B.backing f) (hf : f ∈ B.fields)
    (hs : s.HasBacking B.backing) (hv : HasType f.ty v) :
    EndsR (exec (inside cx true t) (setFromVarTok B f true true check true) ⟨[("bits", argV f.ty v)], false, s, []⟩)
      (builderWith cx.mode check f s v) fun _ s' env => env.cell = s' := by
  rw [builderWith_eq]
  cases hset : f.hasSetter with
  | false =>
    simp only [Bool.false_eq_true, if_false]
    have gc : FieldCtx (inside cx true t) B.backing f true := g.fieldCtx hf
    have h := ends_setBody (use := true) (check := check) (l := [("bits", argV f.ty v)]) (sh := []) (th := false)
      (by rw [hset]; rfl) gc rfl hs hv (by run [])
    change EndsR _ (setImpl cx.mode check f s v) _ at h
    cases hx : setImpl cx.mode check f s v with
    | error p => rw [hx] at h; exact h
    | ok r =>
      obtain ⟨r, s'⟩ := r
      rw [hx] at h
      cases r with
      | error msg => exact h
      | ok u => obtain ⟨env, he, _, l', rfl⟩ := h; exact ⟨_, he, rfl⟩
  | true =>
    simp only [if_true]
    have e0 : setFromVarTok B f true true check true = builderSetTok f check := by
      simp [setFromVarTok, hset]
    obtain ⟨hv', e, he1, he2⟩ := eval_handed (s := s) (sh := []) (th := false) (l := [("bits", argV f.ty v)]) hv (by run [])
    rw [e0, he1]
    have he2 := he2 (inside cx true t)
    generalize handed f v = x at hv' he2 ⊢
    cases check with
    | false =>
      simp only [Bool.false_eq_true, if_false]
      have h := ends_method (B := B) (cx := inside cx true t) (builder := true) rfl hs (g.setter f hf hset) hv' he2
      rw [setImpl_unchecked]
      change Ends _ (setX cx.mode f s x) _ at h
      cases hx : setX cx.mode f s x with
      | error p => rw [hx] at h; exact h
      | ok s' => rw [hx] at h; obtain ⟨env, he, _, rfl⟩ := h; exact ⟨_, he, rfl⟩
    | true =>
      simp only [if_true]
      obtain ⟨f', hm, hr⟩ := hc hset
      have hr := hr x s hv' hs
      have hev : eval (inside cx true t) (.method true (.acc .checkedSet f.name) e) none
          ⟨[("bits", argV f.ty v)], false, s, []⟩ =
          (liftE (setImpl cx.mode true f s x)).map fun r => (match r.1 with
          | .ok () => V.ok .unit
          | .error msg => .err msg, ⟨[("bits", argV f.ty v)], false, r.2, []⟩) := by
        run [Ctx.hasInner, hm, he2, coerce_argV hv', hr]
        cases setImpl cx.mode true f s x <;> run []
      rw [exec.eq_16, hev]
      cases hx : setImpl cx.mode true f s x with
      | error p => simp only [EndsR, liftE_err, emap_error, ebind_error]
      | ok r =>
        obtain ⟨r, s'⟩ := r
        cases r with
        | error msg => exact ⟨⟨[("bits", argV f.ty v)], false, s', []⟩, by simp only [liftE_ok, emap_ok, ebind_ok, epure], rfl⟩
        | ok u => exact ⟨⟨[("bits", argV f.ty v)], false, s', []⟩, by simp only [liftE_ok, emap_ok, ebind_ok, epure], rfl⟩

theorem returns_with {v : Val} (g : Surround cx B) (hc : f.hasSetter = true → CheckedSetterIs cx B.backing f)
    (hf : f ∈ B.fields) (hs : s.HasBacking B.backing) (hv : HasType f.ty v) :
    Returns ((withFn B f).run cx [argV f.ty v] s) (builderWith cx.mode false f s v) WithIs := by
  have h := ends_withBody (check := false) (t := .self) g hc hf hs hv
  have hno : ∀ r s', builderWith cx.mode false f s v = .ok (r, s') → r = .ok () := by
    intro r s' hx
    rw [builderWith_eq, setImpl_unchecked] at hx
    cases hy : setX cx.mode f s (if f.hasSetter = true then handed f v else v) with
    | error p => rw [hy] at hx; cases hx
    | ok z => rw [hy] at hx; cases hx; rfl
  simp only [Fn.run, show bindArgs (withFn B f).params [argV f.ty v] = _ from bindArgs_one hv, ebind_ok]
  change EndsR (exec _ (withFn B f).body _) _ _ at h
  cases hx : builderWith cx.mode false f s v with
  | error p =>
    rw [hx] at h
    simp only [EndsR] at h
    simp only [Returns]
    erw [h]
    rfl
  | ok r =>
    obtain ⟨r, s'⟩ := r
    obtain rfl := hno r s' hx
    rw [hx] at h
    obtain ⟨env, he, rfl⟩ := h
    refine ⟨.self env.cell, env, ?_, rfl, rfl, rfl⟩
    erw [he]
    simp only [withFn, ebind_ok]
    run [Ctx.hasInner]

theorem returns_checkedWith {v : Val} (g : Surround cx B) (hc : f.hasSetter = true → CheckedSetterIs cx B.backing f)
    (hf : f ∈ B.fields) (hs : s.HasBacking B.backing) (hv : HasType f.ty v) :
    Returns ((checkedWithFn B f).run cx [argV f.ty v] s) (builderWith cx.mode true f s v) CheckedWithIs := by
  have h := ends_withBody (check := true) (t := .result .self) g hc hf hs hv
  simp only [Fn.run, show bindArgs (checkedWithFn B f).params [argV f.ty v] = _ from bindArgs_one hv, ebind_ok]
  change EndsR (exec _ (checkedWithFn B f).body _) _ _ at h
  cases hx : builderWith cx.mode true f s v with
  | error p =>
    rw [hx] at h
    simp only [EndsR] at h
    simp only [Returns]
    erw [h]
    rfl
  | ok r =>
    obtain ⟨r, s'⟩ := r
    rw [hx] at h
    cases r with
    | error msg =>
      obtain ⟨env, he, rfl⟩ := h
      refine ⟨.err msg, env, ?_, rfl⟩
      erw [he]
      simp only [checkedWithFn, ebind_ok]
      run []
    | ok u =>
      obtain ⟨env, he, rfl⟩ := h
      refine ⟨.ok (.self env.cell), env, ?_, rfl⟩
      erw [he]
      simp only [checkedWithFn, ebind_ok]
      run [Ctx.hasInner]

/-- The bodies of the constructors run in the builder when no field without a setter has constants. -/
theorem Surround.builderCtx (g : Surround cx B) (h : ∀ f ∈ B.fields, f.hasConstants = true → f.hasSetter = true) :
    BodyCtx (inside cx true t) B where
  field f hf := by
    refine ⟨(g.toBase.fieldCtx (b := true) (t := t) hf).len, fun hn => ?_, fun h => g.setter f hf h⟩
    have gc := g.toBase.fieldCtx (b := true) (t := t) hf
    have hc : f.hasConstants = false := by
      cases hc : f.hasConstants with
      | false => rfl
      | true => rw [h f hf hc] at hn; cases hn
    refine ⟨?_, ?_, gc.fuel, gc.len, gc.ok, gc.back⟩
    · intro exp env
      have := gc.bits exp env
      simp only [bitsTok, hc] at this ⊢
      exact this
    · intro exp env
      have := gc.off exp env
      simp only [offTok, hc] at this ⊢
      exact this
  default := g.default
  box := g.box

theorem returns_builderNew {G : Gen} {d : Bool} (hn : G.new = false) (g : Surround cx G.B)
    (h : ∀ f ∈ G.B.fields, f.hasConstants = true → f.hasSetter = true) (hs : s.HasBacking G.B.backing) :
    Returns ((builderNewFn G d).run cx [] s) (newBody cx.mode G.B d (initStore G.B)) fun s' v env => v = .self s' := by
  have := returns_self (cx := cx) (f := builderNewFn G d) (args := []) (cell := s) (l := []) (b := false)
    (m := newBody cx.mode G.B d (initStore G.B)) (Q := After G.B [] true []) rfl
    (by simp only [builderNewFn, hn, Bool.false_eq_true, if_false]) rfl (by
      simp only [builderNewFn, hn, Bool.false_eq_true, if_false]
      exact ends_newTok (g.builderCtx h) rfl hs) (by
      rintro s' env ⟨_, l', rfl, _⟩
      exact ⟨rfl, rfl⟩)
  exact this.weaken fun _ _ _ h => h.1

theorem returns_build : buildFn.run cx [] s = .ok (.self s, ⟨[], false, s, []⟩) := by
  simp only [Fn.run, buildFn, bindArgs, ebind_ok]
  run [Ctx.hasInner]

end

end Bf
