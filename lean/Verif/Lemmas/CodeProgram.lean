import Verif.Lemmas.CodeBuilder
import Verif.Lemmas.CodeSlice
import Verif.Lemmas.CodeWrite
import Verif.Lemmas.CodeBits
import Verif.Lemmas.CodeRangeFn
import Verif.Lemmas.CodeGetRangeFn
import Verif.Lemmas.Ranges

/-!
# Running generated functions: finding them in the program
-/

namespace Bf

open Rust Quote

set_option linter.unusedSimpArgs false

variable {G : Gen} {en : Feature → Bool}

theorem fn_unique {t : Tag} {F : Fn}
    (hu : ∀ feat F', (t, F') ∈ featureFns G feat → F' = F) (h : ((assemble G en).fn t).isSome = true) :
    (assemble G en).fn t = some F := by
  unfold Program.fn at h ⊢
  cases hx : (assemble G en).fns.find? fun x => decide (x.1 = t) with
  | none => rw [hx] at h; cases h
  | some x =>
    obtain ⟨t', F'⟩ := x
    have ht := List.find?_some hx
    have hm := List.mem_of_find?_eq_some hx
    simp only [decide_eq_true_eq] at ht
    subst ht
    simp only [assemble, List.mem_flatMap] at hm
    obtain ⟨feat, -, hm⟩ := hm
    simp only [Option.map_some]
    rw [hu feat F' hm]

theorem fn_enabled {t : Tag} (h : ((assemble G en).fn t).isSome = true) :
    ∃ feat F, en feat = true ∧ (t, F) ∈ featureFns G feat := by
  unfold Program.fn at h
  cases hx : (assemble G en).fns.find? fun x => decide (x.1 = t) with
  | none => rw [hx] at h; cases h
  | some x =>
    obtain ⟨t', F'⟩ := x
    have ht := List.find?_some hx
    have hm := List.mem_of_find?_eq_some hx
    simp only [decide_eq_true_eq] at ht
    subst ht
    simp only [assemble, List.mem_flatMap, List.mem_filter] at hm
    obtain ⟨feat, ⟨-, he⟩, hm⟩ := hm
    exact ⟨feat, F', he, hm⟩

theorem fn_present {t : Tag} {F : Fn} {feat : Feature} (he : en feat = true) (hm : (t, F) ∈ featureFns G feat) :
    ((assemble G en).fn t).isSome = true := by
  unfold Program.fn
  rw [Option.isSome_map, List.find?_isSome]
  refine ⟨(t, F), ?_, by simp⟩
  simp only [assemble, List.mem_flatMap, List.mem_filter]
  exact ⟨feat, ⟨by cases feat <;> simp [Feature.all], he⟩, hm⟩

/-! ## Names -/

theorem Generable.unique {B : Bitfield} (g : Generable B) {f h : Field} (hf : f ∈ B.fields) (hh : h ∈ B.fields)
    (h1 : f.reserved = false) (h2 : h.reserved = false) (hn : f.name = h.name) : f = h := by
  have hf' : f ∈ B.fields.filter fun f => !f.reserved := List.mem_filter.mpr ⟨hf, by simp [h1]⟩
  have hh' : h ∈ B.fields.filter fun f => !f.reserved := List.mem_filter.mpr ⟨hh, by simp [h2]⟩
  obtain ⟨i, hi, rfl⟩ := List.getElem_of_mem hf'
  obtain ⟨j, hj, rfl⟩ := List.getElem_of_mem hh'
  have hp := List.pairwise_iff_getElem.mp g.names
  rcases Nat.lt_trichotomy i j with h | h | h
  · exact absurd hn (hp i j hi hj h)
  · subst h; rfl
  · exact absurd hn.symm (hp j i hj hi h)

theorem setter_open {f : Field} (h : f.hasSetter = true) : f.reserved = false := by
  cases hr : f.reserved with
  | false => rfl
  | true => simp [Field.hasSetter, hr] at h

theorem getter_open {f : Field} (h : f.hasGetter = true) : f.reserved = false := by
  cases hr : f.reserved with
  | false => rfl
  | true => simp [Field.hasGetter, hr] at h

theorem constants_open {f : Field} (h : f.hasConstants = true) : f.reserved = false := by
  cases hr : f.reserved with
  | false => rfl
  | true => simp [Field.hasConstants, Field.hasGetter, Field.hasSetter, hr] at h

theorem const_find (g : Generable G.B) {f : Field} (hf : f ∈ G.B.fields) (hc : f.hasConstants = true) :
    (assemble G en).const .bitsConst f.name = some f.bits ∧ (assemble G en).const .offsetConst f.name = some f.offset := by
  have key : ∀ a n, ((a, f.name), n) ∈ constants G.B → (∀ n', ((a, f.name), n') ∈ constants G.B → n' = n) →
      (assemble G en).const a f.name = some n := by
    intro a n hm hu
    unfold Program.const
    cases hx : (assemble G en).consts.find? fun x => decide (x.1 = (a, f.name)) with
    | none =>
      rw [List.find?_eq_none] at hx
      have := hx _ hm
      simp at this
    | some x =>
      obtain ⟨t', n'⟩ := x
      have ht := List.find?_some hx
      have hm := List.mem_of_find?_eq_some hx
      simp only [decide_eq_true_eq] at ht
      subst ht
      simp only [Option.map_some]
      rw [hu n' hm]
  constructor
  · refine key _ _ ?_ ?_
    · simp only [constants, List.mem_flatMap, List.mem_filter]
      exact ⟨f, ⟨hf, hc⟩, by simp⟩
    · intro n' h
      simp only [constants, List.mem_flatMap, List.mem_filter] at h
      obtain ⟨f', ⟨hf', hc'⟩, h⟩ := h
      simp at h
      rw [h.2, g.unique hf hf' (constants_open hc) (constants_open hc') h.1]
  · refine key _ _ ?_ ?_
    · simp only [constants, List.mem_flatMap, List.mem_filter]
      exact ⟨f, ⟨hf, hc⟩, by simp⟩
    · intro n' h
      simp only [constants, List.mem_flatMap, List.mem_filter] at h
      obtain ⟨f', ⟨hf', hc'⟩, h⟩ := h
      simp at h
      rw [h.2, g.unique hf hf' (constants_open hc) (constants_open hc') h.1]

/-! ## The functions of a field -/

section
variable {f : Field}

theorem fn_get (g : Generable G.B) (hf : f ∈ G.B.fields) (hr : f.reserved = false)
    (h : ((assemble G en).fn (.acc .get f.name)).isSome = true) :
    (assemble G en).fn (.acc .get f.name) = some (getterFn G.B f) := by
  refine fn_unique ?_ h
  intro feat F' h
  cases feat <;> simp [featureFns, endians] at h
  · obtain ⟨f', ⟨h1, h2⟩, h3, rfl⟩ := h
    rw [g.unique hf h1 hr (getter_open h2) h3.symm]
  · split at h <;> simp at h

theorem fn_inverted (g : Generable G.B) (hf : f ∈ G.B.fields) (hr : f.reserved = false)
    (h : ((assemble G en).fn (.acc .inverted f.name)).isSome = true) :
    (assemble G en).fn (.acc .inverted f.name) = some (invertedFn G.B f) := by
  refine fn_unique ?_ h
  intro feat F' h
  cases feat <;> simp [featureFns, endians] at h
  · split at h <;> simp at h
  · obtain ⟨f', ⟨h1, h2⟩, h3, rfl⟩ := h
    rw [g.unique hf h1 hr (getter_open h2) h3.symm]

theorem fn_set (g : Generable G.B) (hf : f ∈ G.B.fields) (hr : f.reserved = false)
    (h : ((assemble G en).fn (.acc .set f.name)).isSome = true) :
    (assemble G en).fn (.acc .set f.name) = some (setterFn G.B f) := by
  refine fn_unique ?_ h
  intro feat F' h
  cases feat <;> simp [featureFns, endians] at h
  · obtain ⟨f', ⟨h1, h2⟩, h3, rfl⟩ := h
    rw [g.unique hf h1 hr (setter_open h2) h3]
  · split at h <;> simp at h

theorem fn_checkedSet (g : Generable G.B) (hf : f ∈ G.B.fields) (hr : f.reserved = false)
    (h : ((assemble G en).fn (.acc .checkedSet f.name)).isSome = true) :
    (assemble G en).fn (.acc .checkedSet f.name) = some (checkedSetterFn G.B f) := by
  refine fn_unique ?_ h
  intro feat F' h
  cases feat <;> simp [featureFns, endians] at h
  · obtain ⟨f', ⟨h1, h2⟩, h3, rfl⟩ := h
    rw [g.unique hf h1 hr (setter_open h2) h3]
  · split at h <;> simp at h

theorem fn_clear (g : Generable G.B) (hf : f ∈ G.B.fields) (hr : f.reserved = false)
    (h : ((assemble G en).fn (.acc .clear f.name)).isSome = true) :
    (assemble G en).fn (.acc .clear f.name) = some (clearFieldFn G.B f) := by
  refine fn_unique ?_ h
  intro feat F' h
  cases feat <;> simp [featureFns, endians] at h
  · split at h <;> simp at h
  · obtain ⟨f', ⟨h1, h2⟩, h3, rfl⟩ := h
    rw [g.unique hf h1 hr (setter_open h2) h3.symm]

theorem fn_clearToDefault (g : Generable G.B) (hf : f ∈ G.B.fields) (hr : f.reserved = false)
    (h : ((assemble G en).fn (.acc .clearToDefault f.name)).isSome = true) :
    (assemble G en).fn (.acc .clearToDefault f.name) = some (clearToDefaultFn G.B f) := by
  refine fn_unique ?_ h
  intro feat F' h
  cases feat <;> simp [featureFns, endians] at h
  · split at h <;> simp at h
  · obtain ⟨f', ⟨h1, h2, _⟩, h3, rfl⟩ := h
    rw [g.unique hf h1 hr (setter_open h2) h3.symm]

theorem fn_invertField (g : Generable G.B) (hf : f ∈ G.B.fields) (hr : f.reserved = false)
    (h : ((assemble G en).fn (.acc .invert f.name)).isSome = true) :
    (assemble G en).fn (.acc .invert f.name) = some (invertFieldFn G.B f) := by
  refine fn_unique ?_ h
  intro feat F' h
  cases feat <;> simp [featureFns, endians] at h
  · split at h <;> simp at h
  · obtain ⟨f', ⟨h1, h2⟩, h3, rfl⟩ := h
    rw [g.unique hf h1 hr (setter_open h2) h3.symm]

theorem fn_with (g : Generable G.B) (hf : f ∈ G.B.fields) (hr : f.reserved = false)
    (h : ((assemble G en).fn (.acc .builderWith f.name)).isSome = true) :
    (assemble G en).fn (.acc .builderWith f.name) = some (withFn G.B f) := by
  refine fn_unique ?_ h
  intro feat F' h
  cases feat <;> simp [featureFns, endians] at h
  · split at h <;> simp at h
  · obtain ⟨f', ⟨h1, h2⟩, h3, rfl⟩ := h
    rw [g.unique hf h1 hr h2 h3]

theorem fn_checkedWith (g : Generable G.B) (hf : f ∈ G.B.fields) (hr : f.reserved = false)
    (h : ((assemble G en).fn (.acc .builderCheckedWith f.name)).isSome = true) :
    (assemble G en).fn (.acc .builderCheckedWith f.name) = some (checkedWithFn G.B f) := by
  refine fn_unique ?_ h
  intro feat F' h
  cases feat <;> simp [featureFns, endians] at h
  · split at h <;> simp at h
  · obtain ⟨f', ⟨h1, h2⟩, h3, rfl⟩ := h
    rw [g.unique hf h1 hr h2 h3]

end

/-! ## The surroundings the program provides -/

theorem ctx_mode (P : Program) (m : Mode) (fuel : Nat) (s : Store) (d : Nat) : (P.ctx m fuel s d).mode = m := by
  cases d <;> rfl

theorem ctx_base (g : Generable G.B) {m : Mode} {fuel : Nat} (hf : 2 ^ 64 ≤ fuel) (s : Store) (d : Nat) :
    Base ((assemble G en).ctx m fuel s d) G.B where
  bits f h hc := by cases d <;> exact (const_find g h hc).1
  off f h hc := by cases d <;> exact (const_find g h hc).2
  fuel := by cases d <;> exact hf
  ok := g.field
  back := g.backing
  len := g.len
  default := g.default
  box := by cases d <;> rfl

theorem setter_present (he : en .setters = true) {f : Field} (hf : f ∈ G.B.fields) (hs : f.hasSetter = true) :
    ((assemble G en).fn (.acc .set f.name)).isSome = true ∧
    ((assemble G en).fn (.acc .checkedSet f.name)).isSome = true := by
  constructor
  · refine fn_present (F := setterFn G.B f) he ?_
    simp only [featureFns, List.mem_flatMap, List.mem_filter]
    exact ⟨f, ⟨hf, hs⟩, by simp⟩
  · refine fn_present (F := checkedSetterFn G.B f) he ?_
    simp only [featureFns, List.mem_flatMap, List.mem_filter]
    exact ⟨f, ⟨hf, hs⟩, by simp⟩

theorem ctx_surround (g : Generable G.B) (he : en .setters = true) {m : Mode} {fuel : Nat} (hf : 2 ^ 64 ≤ fuel)
    (s : Store) (d : Nat) : Surround ((assemble G en).ctx m fuel s (d + 1)) G.B where
  toBase := ctx_base g hf s (d + 1)
  setter f hm hset := by
    have hfn := fn_set g hm (setter_open hset) (setter_present he hm hset).1
    refine ⟨fun v cell' => do
      let (r, env) ← (setterFn G.B f).run ((assemble G en).ctx m fuel s d) [v] cell'
      return (r, env.cell), ?_, ?_⟩
    · simp only [Program.ctx, hfn]
      rfl
    · intro v c hv hc
      have h := returns_setter (v := v) (s := c) (ctx_base (en := en) (m := m) g hf s d) hm hc hv
      rw [ctx_mode] at h ⊢
      cases hx : setX m f c v with
      | error p =>
        rw [hx] at h
        simp only [Returns] at h
        simp only [h, ebind_error, liftE_err, emap_error]
      | ok s' =>
        rw [hx] at h
        obtain ⟨v', env, h1, rfl, rfl⟩ := h
        simp only [h1, ebind_ok, liftE_ok, emap_ok, epure]

theorem ctx_checkedSetter (g : Generable G.B) (he : en .setters = true) {m : Mode} {fuel : Nat} (hf : 2 ^ 64 ≤ fuel)
    (s : Store) (d : Nat) {f : Field} (hm : f ∈ G.B.fields) (hset : f.hasSetter = true) :
    CheckedSetterIs ((assemble G en).ctx m fuel s (d + 1)) G.B.backing f := by
  have hfn := fn_checkedSet g hm (setter_open hset) (setter_present he hm hset).2
  refine ⟨fun v cell' => do
    let (r, env) ← (checkedSetterFn G.B f).run ((assemble G en).ctx m fuel s d) [v] cell'
    return (r, env.cell), ?_, ?_⟩
  · simp only [Program.ctx, hfn]
    rfl
  · intro v c hv hc
    have h := returns_checkedSetter (v := v) (s := c) (ctx_base (en := en) (m := m) g hf s d) hm hc hv
    rw [ctx_mode] at h ⊢
    cases hx : setImpl m true f c v with
    | error p =>
      rw [hx] at h
      simp only [Returns] at h
      simp only [h, ebind_error, liftE_err, emap_error]
    | ok r =>
      rw [hx] at h
      obtain ⟨v', env, h1, h2, h3⟩ := h
      subst h3
      simp only [h1, ebind_ok, liftE_ok, emap_ok, epure, h2]
      obtain ⟨r, _⟩ := r
      cases r <;> rfl

end Bf
