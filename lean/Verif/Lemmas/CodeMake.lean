import Verif.Lemmas.CodeRun

/-!
# Running generated functions: making a bitfield
-/

namespace Bf

open Rust Quote

set_option linter.unusedSimpArgs false

theorem self_of_returns {P : Program} {m : Mode} {fuel : Nat} {t : Tag} {args : List V} {s : Store} {F : Fn}
    {M : R (Except String Store)} (hfn : P.fn t = some F)
    (h : Returns (F.run (P.ctx m fuel s 3) args s) M fun r v _ => seenSelf v = some r) :
    P.self m fuel t args s = liftE M := by
  simp only [Program.self, hfn]
  cases hx : M with
  | error p =>
    rw [hx] at h
    simp only [Returns] at h
    rw [h, liftE_err, ebind_error]
  | ok r =>
    rw [hx] at h
    obtain ⟨v, env, h1, h2⟩ := h
    simp only [h1, ebind_ok, h2, epure, liftE_ok]

theorem self_of_store {P : Program} {m : Mode} {fuel : Nat} {t : Tag} {args : List V} {s : Store} {F : Fn}
    {M : R Store} (hfn : P.fn t = some F)
    (h : Returns (F.run (P.ctx m fuel s 3) args s) M fun s' v _ => v = .self s') :
    P.self m fuel t args s = liftE (M.map .ok) := by
  refine self_of_returns hfn ?_
  cases M with
  | error p => exact h
  | ok s' => obtain ⟨v, env, h1, rfl⟩ := h; exact ⟨_, env, h1, rfl⟩

theorem newBody_backing {cx : Ctx} {B : Bitfield} {d : Bool} {s' : Store} (g : Surround cx B)
    (h : newBody cx.mode B d (initStore B) = .ok s') : s'.HasBacking B.backing := by
  have := ends_newBody (d := d) (l := []) (sh := []) (th := true) (g.bodyCtx (t := .unit)) rfl (initStore_backing B)
  change Ends _ (newBody cx.mode B d (initStore B)) _ at this
  rw [h] at this
  obtain ⟨env, -, hb, -⟩ := this
  exact hb

variable {G : Gen} {en : Feature → Bool} {m : Mode} {fuel : Nat} {s : Store}

theorem fn_new {d : Bool} (h : ((assemble G en).fn (.fn (if d then "new" else "new_without_defaults"))).isSome = true) :
    (assemble G en).fn (.fn (if d then "new" else "new_without_defaults")) = some (newFn G.B d) := by
  cases d <;> named h

theorem new_present (he : en .new = true) (d : Bool) :
    ((assemble G en).fn (.fn (if d then "new" else "new_without_defaults"))).isSome = true := by
  refine fn_present (F := newFn G.B d) he ?_
  cases d <;> simp [featureFns]

theorem assoc_new (g : Generable G.B) (he : en .setters = true) (hn : en .new = true) (hf : 2 ^ 64 ≤ fuel)
    (hs : s.HasBacking G.B.backing) (d : Bool) (k : Nat) :
    ∃ run, ((assemble G en).ctx m fuel s (k + 2)).assoc (.fn (if d then "new" else "new_without_defaults")) = some run ∧
      run = (liftE (newBody m G.B d (initStore G.B))).map fun s' => .self s' := by
  refine ⟨do
    let (r, _) ← (newFn G.B d).run ((assemble G en).ctx m fuel s (k + 1)) [] s
    return r, by rw [Program.ctx]; simp only [fn_new (new_present (G := G) hn d)], ?_⟩
  have h := returns_new (d := d) (s := s) (ctx_surround (m := m) g he hf s k) hs
  rw [ctx_mode] at h
  cases hx : newBody m G.B d (initStore G.B) with
  | error p =>
    rw [hx] at h
    simp only [Returns] at h
    simp only [h, ebind_error, liftE_err, emap_error]
  | ok s' =>
    rw [hx] at h
    obtain ⟨v, env, h1, rfl, -⟩ := h
    simp only [h1, ebind_ok, liftE_ok, emap_ok, epure]

/-- The functions that make a builder. -/
theorem returns_builder (g : Generable G.B) (he : en .setters = true) (hn : G.new = true → en .new = true)
    (hf : 2 ^ 64 ≤ fuel) (hs : s.HasBacking G.B.backing) (d : Bool)
    (hw : G.new = false → ∀ f ∈ G.B.fields, f.hasConstants = true → f.hasSetter = true) (k : Nat) :
    Returns ((builderNewFn G d).run ((assemble G en).ctx m fuel s (k + 2)) [] s) (builderNew m G.B G.new d)
      fun s' v _ => v = .self s' := by
  have e : builderNew m G.B G.new d = newBody m G.B d (initStore G.B) := by
    cases G.new <;> cases d <;> rfl
  rw [e]
  cases hG : G.new with
  | false =>
    have h := returns_builderNew (d := d) (s := s) hG (ctx_surround (m := m) g he hf s (k + 1)) (hw hG) hs
    rw [ctx_mode] at h
    exact h
  | true =>
    obtain ⟨run, h1, h2⟩ := assoc_new (m := m) g he (hn hG) hf hs d k
    exact returns_assoc (f := builderNewFn G d) rfl (by simp only [builderNewFn, hG, if_true])
      (by simp only [builderNewFn, hG, if_true]; rfl) rfl rfl h1 h2

theorem fn_builderNew {d : Bool}
    (h : ((assemble G en).fn (.builderFn (if d then "new" else "new_without_defaults"))).isSome = true) :
    (assemble G en).fn (.builderFn (if d then "new" else "new_without_defaults")) = some (builderNewFn G d) := by
  cases d <;> named h

theorem builder_enabled {d : Bool}
    (h : ((assemble G en).fn (.builderFn (if d then "new" else "new_without_defaults"))).isSome = true) :
    en .builder = true := by
  obtain ⟨feat, F, h1, h2⟩ := fn_enabled h
  cases feat <;> simp [featureFns, endians] at h2
  · split at h2 <;> simp at h2
  · exact h1

theorem fn_build (he : en .builder = true) : (assemble G en).fn (.builderFn "build") = some buildFn := by
  have h : ((assemble G en).fn (.builderFn "build")).isSome = true :=
    fn_present (F := buildFn) he (by simp [featureFns])
  named h

theorem with_present (he : en .builder = true) {f : Field} (hf : f ∈ G.B.fields) (hr : f.reserved = false) :
    ((assemble G en).fn (.acc .builderWith f.name)).isSome = true ∧
    ((assemble G en).fn (.acc .builderCheckedWith f.name)).isSome = true := by
  constructor
  · refine fn_present (F := withFn G.B f) he ?_
    simp only [featureFns, List.mem_append, List.mem_flatMap, List.mem_filter]
    exact .inl (.inr ⟨f, ⟨hf, by simp [hr]⟩, by simp⟩)
  · refine fn_present (F := checkedWithFn G.B f) he ?_
    simp only [featureFns, List.mem_append, List.mem_flatMap, List.mem_filter]
    exact .inl (.inr ⟨f, ⟨hf, by simp [hr]⟩, by simp⟩)

theorem with_eq (g : Generable G.B) (he : en .setters = true) (hb : en .builder = true) (hf : 2 ^ 64 ≤ fuel)
    (hs : s.HasBacking G.B.backing) {c : BuilderCall} (h1 : c.f ∈ G.B.fields) (h2 : c.f.reserved = false)
    (h3 : HasType c.f.ty c.v) :
    (assemble G en).self m fuel (.acc (if c.check then .builderCheckedWith else .builderWith) c.f.name)
      [argV c.f.ty c.v] s = liftE ((builderWith m c.check c.f s c.v).map fun r => r.1.map fun _ => r.2) := by
  have sur := ctx_surround (m := m) g he hf s 2
  have hc : c.f.hasSetter = true → CheckedSetterIs ((assemble G en).ctx m fuel s 3) G.B.backing c.f :=
    fun hset => ctx_checkedSetter g he hf s 2 h1 hset
  cases hk : c.check with
  | false =>
    refine self_of_returns (fn_with g h1 h2 (with_present hb h1 h2).1) ?_
    have h := returns_with sur hc h1 hs h3
    rw [ctx_mode] at h
    cases hx : builderWith m false c.f s c.v with
    | error p => rw [hx] at h; exact h
    | ok r =>
      rw [hx] at h
      obtain ⟨v, env, h4, h5, h6, rfl⟩ := h
      obtain ⟨r, s'⟩ := r
      subst h6
      exact ⟨_, env, h4, rfl⟩
  | true =>
    refine self_of_returns (fn_checkedWith g h1 h2 (with_present hb h1 h2).2) ?_
    have h := returns_checkedWith sur hc h1 hs h3
    rw [ctx_mode] at h
    cases hx : builderWith m true c.f s c.v with
    | error p => rw [hx] at h; exact h
    | ok r =>
      rw [hx] at h
      obtain ⟨v, env, h4, rfl⟩ := h
      obtain ⟨r, s'⟩ := r
      cases r <;> exact ⟨_, env, h4, rfl⟩

theorem chain_eq (g : Generable G.B) (he : en .setters = true) (hb : en .builder = true) (hf : 2 ^ 64 ≤ fuel) :
    ∀ (cs : List BuilderCall) {s : Store}, s.HasBacking G.B.backing →
      (∀ c ∈ cs, c.f ∈ G.B.fields ∧ c.f.reserved = false ∧ HasType c.f.ty c.v) →
      (assemble G en).chain m fuel cs s = liftE (builderRun m cs s) := by
  intro cs
  induction cs with
  | nil =>
    intro s hs _
    simp only [Program.chain, builderRun]
    refine self_of_returns (M := .ok (.ok s)) (fn_build hb) ?_
    exact ⟨_, _, returns_build, rfl⟩
  | cons c cs ih =>
    intro s hs hc
    obtain ⟨h1, h2, h3⟩ := hc c (by simp)
    simp only [Program.chain, builderRun, with_eq g he hb hf hs h1 h2 h3]
    cases hx : builderWith m c.check c.f s c.v with
    | error p => simp only [emap_error, liftE_err, ebind_error]
    | ok r =>
      obtain ⟨r, s'⟩ := r
      cases r with
      | error e => simp only [emap_ok, liftE_ok, ebind_ok]; rfl
      | ok u =>
        simp only [emap_ok, liftE_ok, ebind_ok]
        refine ih ?_ fun c h => hc c (by simp [h])
        rw [builderWith_eq] at hx
        exact setImpl_backing hs hx

set_option maxHeartbeats 1000000 in
theorem Origin.fits_setters {d : Bool} {cs : List BuilderCall} (h : (Origin.builder G.new d cs).Fits G) :
    G.new = false → ∀ f ∈ G.B.fields, f.hasConstants = true → f.hasSetter = true := by
  intro hG f hf hc
  cases h1 : f.hasSetter with
  | true => rfl
  | false =>
    rw [Field.hasConstants, h1, Bool.or_false] at hc
    have h2 := h.2 hG f hf (getter_open hc) (by
      simp only [Field.hasGetter] at hc
      unfold Field.isReadable
      cases hr : f.reserved <;> cases ha : f.access <;> simp [hr, ha] at hc ⊢)
    rw [← hasSetter_eq, h1] at h2
    cases h2

/-- `Builder::default()`. -/
theorem builderDefault_eq (g : Generable G.B) (he : en .setters = true) (hn : G.new = true → en .new = true)
    (hf : 2 ^ 64 ≤ fuel) (hs : s.HasBacking G.B.backing)
    (hw : G.new = false → ∀ f ∈ G.B.fields, f.hasConstants = true → f.hasSetter = true) (hb : en .builder = true) :
    (assemble G en).self m fuel (.impl .builderDefault) [] s = liftE ((apiNew m G.B).map .ok) := by
  have hp : ((assemble G en).fn (.impl .builderDefault)).isSome = true :=
    fn_present (F := builderDefaultFn) hb (by simp [featureFns])
  have hp' : ((assemble G en).fn (.builderFn (if true then "new" else "new_without_defaults"))).isSome = true :=
    fn_present (F := builderNewFn G true) hb (by simp [featureFns])
  refine self_of_store (F := builderDefaultFn) (by named hp) ?_
  have h := returns_builder (m := m) g he hn hf hs true hw 0
  have e : builderNew m G.B G.new true = newBody m G.B true (initStore G.B) := by
    cases G.new <;> rfl
  rw [e] at h
  refine returns_assoc (f := builderDefaultFn) (t := .builderFn "new") (run := do
    let (r, _) ← (builderNewFn G true).run ((assemble G en).ctx m fuel s 2) [] s
    return r) rfl rfl rfl rfl rfl (by rw [Program.ctx]; simp only [show (assemble G en).fn (.builderFn "new") = _ from fn_builderNew (d := true) hp']) ?_
  show _ = (liftE (newBody m G.B true (initStore G.B))).map _
  cases hx : newBody m G.B true (initStore G.B) with
  | error p =>
    rw [hx] at h
    simp only [Returns] at h
    simp only [h, ebind_error, liftE_err, emap_error]
  | ok s' =>
    rw [hx] at h
    obtain ⟨v, env, h1, rfl⟩ := h
    simp only [h1, ebind_ok, liftE_ok, emap_ok, epure]

theorem make_eq (g : Generable G.B) (he : en .setters = true) (hn : G.new = true → en .new = true)
    (hf : 2 ^ 64 ≤ fuel) (hs : s.HasBacking G.B.backing) {o : Origin} (ho : o.Typed G.B) (hw : o.Fits G)
    (hp : ((assemble G en).fn (o.tag (paramTok G.B))).isSome = true) :
    (assemble G en).make G.B m fuel o s = liftE (o.run m G.B) := by
  have sur := ctx_surround (m := m) g he hf s 2
  have fin : ∀ {M : R (Except String Store)}, (∀ n d cs, o ≠ .builder n d cs) →
      (assemble G en).self m fuel (o.tag (paramTok G.B)) o.args s = liftE M →
      (assemble G en).make G.B m fuel o s = liftE M := by
    intro M hne h
    simp only [Program.make, h]
    cases M with
    | error p => simp only [liftE_err, ebind_error]
    | ok r =>
      simp only [liftE_ok, ebind_ok]
      cases r with
      | error e => rfl
      | ok s' =>
        cases o <;> first | rfl | exact absurd rfl (hne _ _ _)
  cases o with
  | new =>
    refine fin (by simp) (self_of_store (M := apiNew m G.B) (F := newFn G.B true) (by named hp) ?_)
    exact (returns_new sur hs).weaken fun _ _ _ h => h.1
  | newWithoutDefaults =>
    refine fin (by simp) (self_of_store (M := apiNewWithoutDefaults m G.B) (F := newFn G.B false) (by named hp) ?_)
    exact (returns_new sur hs).weaken fun _ _ _ h => h.1
  | default n =>
    obtain rfl : n = G.new := hw
    refine fin (by simp) (self_of_store (M := apiDefault m G.B G.new) (F := defaultFn G) (by named hp) ?_)
    cases hG : G.new with
    | false =>
      exact (returns_default hG sur hs).weaken fun _ _ _ h => h.1
    | true =>
      obtain ⟨run, h1, h2⟩ := assoc_new (m := m) g he (hn hG) hf hs true 1
      exact returns_assoc (f := defaultFn G) rfl (by simp only [defaultFn, hG, if_true])
        (by simp only [defaultFn, hG, if_true]; rfl) rfl rfl h1 h2
  | builder n d cs =>
    obtain ⟨rfl, hw⟩ : n = G.new ∧ _ := hw
    have hw' := Origin.fits_setters (d := d) (cs := cs) ⟨rfl, hw⟩
    have h := self_of_store (M := builderNew m G.B G.new d) (fn_builderNew hp)
      (returns_builder g he hn hf hs d hw' 1)
    simp only [Program.make]
    rw [show Origin.tag (paramTok G.B) (.builder G.new d cs) = .builderFn (if d then "new" else "new_without_defaults") from rfl,
      show Origin.args (.builder G.new d cs) = [] from rfl, h]
    simp only [Origin.run]
    cases hx : builderNew m G.B G.new d with
    | error p => simp only [emap_error, liftE_err, ebind_error]
    | ok s' =>
      simp only [emap_ok, liftE_ok, ebind_ok]
      refine chain_eq g he (builder_enabled hp) hf cs ?_ ho
      have e : builderNew m G.B G.new d = newBody m G.B d (initStore G.B) := by
        cases G.new <;> cases d <;> rfl
      rw [e] at hx
      exact newBody_backing (cx := (assemble G en).ctx m fuel s 3) sur (by rw [ctx_mode]; exact hx)
  | «from» e d x =>
    have h := (returns_from (e := e) (d := d) sur hs ho).weaken (Q' := fun s' v _ => v = .self s') fun _ _ _ h => h.1
    rw [ctx_mode] at h
    refine fin (by simp) ?_
    rcases e with _ | _ | _ <;> cases d
    · refine self_of_store (M := apiFrom m G.B x) (F := fromFn G.B none false) (by named hp) ?_
      simp only [Option.getD, if_true, Bool.false_eq_true, if_false, bind_pure] at h
      exact h
    · refine self_of_store (M := apiFromDefaults m G.B x) (F := fromFn G.B none true) (by named hp) ?_
      simp only [Option.getD, if_true, Bool.false_eq_true, if_false, bind_pure] at h
      exact h
    · refine self_of_store (M := apiFromE m G.B .little x) (F := fromFn G.B (some .little) false) (by named hp) ?_
      simp only [Option.getD, if_true, Bool.false_eq_true, if_false, bind_pure] at h
      exact h
    · refine self_of_store (M := apiFromEDefaults m G.B .little x) (F := fromFn G.B (some .little) true) (by named hp) ?_
      simp only [Option.getD, if_true, Bool.false_eq_true, if_false, bind_pure] at h
      exact h
    · refine self_of_store (M := apiFromE m G.B .big x) (F := fromFn G.B (some .big) false) (by named hp) ?_
      simp only [Option.getD, if_true, Bool.false_eq_true, if_false, bind_pure] at h
      exact h
    · refine self_of_store (M := apiFromEDefaults m G.B .big x) (F := fromFn G.B (some .big) true) (by named hp) ?_
      simp only [Option.getD, if_true, Bool.false_eq_true, if_false, bind_pure] at h
      exact h
  | fromTrait x =>
    refine fin (by simp) (self_of_store (M := apiTraitFrom m G.B x) (F := traitFromFn G.B) (by named hp) ?_)
    exact (returns_traitFrom sur hs ho).weaken fun _ _ _ h => h.1
  | fromSlice e d sl =>
    obtain ⟨n, hB⟩ := ho
    refine fin (by simp) (self_of_store (M := apiFromSlice m G.B (e.getD G.B.fromEndian) d sl)
      (F := fromSliceFn G.B n e d) ?_ ?_)
    · rcases e with _ | _ | _ <;> cases d <;> namedB hB, hp
    · exact (returns_fromSlice sur hB hs).weaken fun _ _ _ h => h.1
  | checkedFromSlice e d sl =>
    obtain ⟨n, hB⟩ := ho
    refine fin (by simp) (self_of_returns (M := apiCheckedFromSlice m G.B (e.getD G.B.fromEndian) d sl)
      (F := checkedFromSliceFn G.B n e d) ?_ ?_)
    · rcases e with _ | _ | _ <;> cases d <;> namedB hB, hp
    · refine (returns_checkedFromSlice sur hB hs).weaken ?_
      rintro r v env h
      cases r with
      | ok s' => rw [h.1]; rfl
      | error e => rw [h]; rfl

end Bf
