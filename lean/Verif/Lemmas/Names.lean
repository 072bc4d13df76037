import Verif.SpecNames
import Verif.Lemmas.Surface

/-!
# Names of generated items: helper lemmas
-/

namespace Bf

/-! ## Every item is generated once -/

/-- The feature that generates an item. -/
def Tag.feature : Tag → Feature
  | .bitfield => .struct
  | .builder | .builderFn _ | .impl .builderDefault => .builder
  | .impl .fromBacking | .impl .intoBacking => .fromTraits
  | .impl .debug => .debug
  | .impl .default => .default
  | .acc .bitsConst _ | .acc .offsetConst _ => .constants
  | .acc .get _ => .getters
  | .acc .set _ | .acc .checkedSet _ => .setters
  | .acc .clear _ | .acc .clearToDefault _ => .clearBitOps
  | .acc .invert _ | .acc .inverted _ => .invertBitOps
  | .acc .builderWith _ | .acc .builderCheckedWith _ => .builder
  | .fn n =>
    if n ∈ ["new", "new_without_defaults"] then .new
    else if n ∈ intConversions ++ arrayConversions then .fromIntoBits
    else if n ∈ ["set_bit", "checked_set_bit", "set_bits_range", "checked_set_bits_range",
      "set_bytes_range", "checked_set_bytes_range", "get_bit", "checked_get_bit", "get_bits_range",
      "checked_get_bits_range", "get_bytes_range", "checked_get_bytes_range"] then .setGetBitOps
    else if n ∈ ["clear_bits", "clear_bits_with_defaults", "clear_bytes",
      "clear_bytes_with_defaults"] then .clearBitOps
    else if n ∈ ["invert_bits", "invert_bytes"] then .invertBitOps
    else .writeBitOps

theorem bob_cases (p : Parsed) : p.bob = "bits" ∨ p.bob = "bytes" := by
  simp only [Parsed.bob]; split <;> simp

theorem fns_feature {p : Parsed} {ns : List String} {F : Feature}
    (h : ∀ n ∈ ns, Tag.feature (.fn n) = F) : ∀ i ∈ p.fns ns, i.tag.feature = F := by
  intro i hi
  obtain ⟨n, hn, rfl⟩ := List.mem_map.mp hi
  exact h n hn

theorem items_feature (p : Parsed) (F : Feature) : ∀ i ∈ F.items p, i.tag.feature = F := by
  have hb := bob_cases p
  cases F <;> simp only [Feature.items]
  · simp [Tag.feature]
  · simp only [List.mem_flatMap]
    rintro i ⟨f, -, hi⟩
    simp only [List.mem_cons, List.not_mem_nil, or_false] at hi
    rcases hi with rfl | rfl <;> rfl
  · exact fns_feature (by decide)
  · simp only [List.mem_flatMap]
    rintro i ⟨f, -, hi⟩
    simp only [List.mem_cons, List.not_mem_nil, or_false] at hi
    rcases hi with rfl | rfl <;> rfl
  · simp only [List.mem_map]
    rintro i ⟨f, -, rfl⟩
    rfl
  · simp [Tag.feature]
  · simp [Tag.feature]
  · split <;> exact fns_feature (by decide)
  · intro i hi
    simp only [List.mem_append, List.mem_flatMap, List.mem_cons, List.not_mem_nil, or_false] at hi
    rcases hi with ((rfl | rfl | rfl | rfl) | ⟨f, -, rfl | rfl⟩) | rfl <;> rfl
  · simp [Tag.feature]
  · rcases hb with hb | hb <;> rw [hb] <;> exact fns_feature (by decide)
  · rcases hb with hb | hb <;> rw [hb] <;> exact fns_feature (by decide)
  · intro i hi
    simp only [List.mem_append, List.mem_map] at hi
    rcases hi with (hi | ⟨f, -, rfl⟩) | ⟨f, -, rfl⟩
    · revert hi
      rcases hb with hb | hb <;> rw [hb] <;> exact fns_feature (by decide) i
    · rfl
    · rfl
  · intro i hi
    simp only [List.mem_append, List.mem_map] at hi
    rcases hi with (hi | ⟨f, -, rfl⟩) | ⟨f, -, rfl⟩
    · revert hi
      rcases hb with hb | hb <;> rw [hb] <;> exact fns_feature (by decide) i
    · rfl
    · rfl


/-- Fields that are not reserved have different names. -/
def Parsed.Distinct (p : Parsed) : Prop :=
  (p.fields.filter fun f => !f.field.reserved).Pairwise fun f g => f.field.name ≠ g.field.name

theorem Parsed.Distinct.filter {p : Parsed} (h : p.Distinct) (P : PField → Bool)
    (hP : ∀ f, P f = true → f.field.reserved = false) :
    (p.fields.filter P).Pairwise fun f g => f.field.name ≠ g.field.name := by
  have e : p.fields.filter P = (p.fields.filter fun f => !f.field.reserved).filter P := by
    rw [List.filter_filter]
    refine List.filter_congr fun f _ => ?_
    cases hf : P f with
    | false => rfl
    | true => simp [hP f hf]
  rw [e]
  exact List.Pairwise.filter P h

theorem nodup_accs {fs : List PField} (h : fs.Pairwise fun f g => f.field.name ≠ g.field.name)
    (a : Accessor) (vis : PField → Vis) :
    (fs.map fun f => (⟨.acc a f.field.name, vis f⟩ : Item)).Pairwise fun i j => i.tag ≠ j.tag := by
  rw [List.pairwise_map]
  refine h.imp fun hne e => hne ?_
  injection e

theorem nodup_pairs {fs : List PField} (h : fs.Pairwise fun f g => f.field.name ≠ g.field.name)
    {a b : Accessor} (hab : a ≠ b) (vis : PField → Vis) :
    (fs.flatMap fun f => [(⟨.acc a f.field.name, vis f⟩ : Item), ⟨.acc b f.field.name, vis f⟩]).Pairwise
      fun i j => i.tag ≠ j.tag := by
  rw [List.pairwise_flatMap]
  constructor
  · intro f _
    simp [hab]
  · refine h.imp fun {f g} hne => ?_
    intro i hi j hj
    simp only [List.mem_cons, List.not_mem_nil, or_false] at hi hj
    rcases hi with rfl | rfl <;> rcases hj with rfl | rfl <;> intro e <;> injection e <;> contradiction

theorem nodup_fns {p : Parsed} {ns : List String} (h : ns.Nodup) :
    (p.fns ns).Pairwise fun i j => i.tag ≠ j.tag := by
  rw [Parsed.fns, List.pairwise_map]
  refine h.imp fun hne e => hne ?_
  injection e

theorem setter_named {f : PField} (h : f.field.hasSetter = true) : f.field.reserved = false := by
  simp only [Field.hasSetter] at h
  cases hr : f.field.reserved with
  | false => rfl
  | true => rw [hr] at h; cases h

theorem getter_named {f : PField} (h : f.field.hasGetter = true) : f.field.reserved = false := by
  simp only [Field.hasGetter] at h
  cases hr : f.field.reserved with
  | false => rfl
  | true => rw [hr] at h; cases h

theorem constants_named {f : PField} (h : f.field.hasConstants = true) :
    f.field.reserved = false := by
  rcases Bool.or_eq_true_iff.mp h with h | h
  · exact getter_named h
  · exact setter_named h

theorem mem_fns {p : Parsed} {ns : List String} {i : Item} (h : i ∈ p.fns ns) :
    ∃ n, i.tag = .fn n := by
  obtain ⟨n, -, rfl⟩ := List.mem_map.mp h
  exact ⟨n, rfl⟩

theorem items_nodup {p : Parsed} (h : p.Distinct) (F : Feature) :
    (F.items p).Pairwise fun i j => i.tag ≠ j.tag := by
  have hb := bob_cases p
  have hS := h.filter (fun f => f.field.hasSetter) (fun _ => setter_named)
  have hG := h.filter (fun f => f.field.hasGetter) (fun _ => getter_named)
  cases F <;> simp only [Feature.items]
  · simp
  · exact nodup_pairs (h.filter _ fun _ => constants_named) (by decide) _
  · exact nodup_fns (by decide)
  · exact nodup_pairs hS (by decide) _
  · exact nodup_accs hG _ _
  · simp
  · simp
  · split <;> exact nodup_fns (by decide)
  · rw [List.pairwise_append, List.pairwise_append]
    refine ⟨⟨by simp, nodup_pairs h (by decide) _, ?_⟩, by simp, ?_⟩
    · intro i hi j hj
      simp only [List.mem_flatMap, List.mem_cons, List.not_mem_nil, or_false] at hi hj
      obtain ⟨f, -, rfl | rfl⟩ := hj <;> rcases hi with rfl | rfl | rfl | rfl <;> simp
    · intro i hi j hj
      simp only [List.mem_append, List.mem_flatMap, List.mem_cons, List.not_mem_nil, or_false] at hi hj
      subst hj
      rcases hi with (rfl | rfl | rfl | rfl) | ⟨f, -, rfl | rfl⟩ <;> simp
  · simp
  · rcases hb with hb | hb <;> rw [hb] <;> exact nodup_fns (by decide)
  · rcases hb with hb | hb <;> rw [hb] <;> exact nodup_fns (by decide)
  · rw [List.pairwise_append, List.pairwise_append]
    refine ⟨⟨?_, nodup_accs hS _ _, ?_⟩, nodup_accs (h.filter _ ?_) _ _, ?_⟩
    · rcases hb with hb | hb <;> rw [hb] <;> exact nodup_fns (by decide)
    · intro i hi j hj e
      obtain ⟨n, hn⟩ := mem_fns hi
      obtain ⟨f, -, rfl⟩ := List.mem_map.mp hj
      rw [hn] at e
      cases e
    · intro f hf
      simp only [Bool.and_eq_true] at hf
      exact setter_named hf.1
    · intro i hi j hj e
      obtain ⟨f, -, rfl⟩ := List.mem_map.mp hj
      rcases List.mem_append.mp hi with hi | hi
      · obtain ⟨n, hn⟩ := mem_fns hi
        rw [hn] at e
        cases e
      · obtain ⟨g, -, rfl⟩ := List.mem_map.mp hi
        cases e
  · rw [List.pairwise_append, List.pairwise_append]
    refine ⟨⟨?_, nodup_accs hS _ _, ?_⟩, nodup_accs hG _ _, ?_⟩
    · rcases hb with hb | hb <;> rw [hb] <;> exact nodup_fns (by decide)
    · intro i hi j hj e
      obtain ⟨n, hn⟩ := mem_fns hi
      obtain ⟨f, -, rfl⟩ := List.mem_map.mp hj
      rw [hn] at e
      cases e
    · intro i hi j hj e
      obtain ⟨f, -, rfl⟩ := List.mem_map.mp hj
      rcases List.mem_append.mp hi with hi | hi
      · obtain ⟨n, hn⟩ := mem_fns hi
        rw [hn] at e
        cases e
      · obtain ⟨g, -, rfl⟩ := List.mem_map.mp hi
        cases e

/-- Every item is generated only once. -/
theorem surface_nodup {p : Parsed} (h : p.Distinct) :
    (surface p).Pairwise fun i j => i.tag ≠ j.tag := by
  rw [surface, List.pairwise_flatMap]
  refine ⟨fun F _ => items_nodup h F, ?_⟩
  have hall : Feature.all.Pairwise fun a b => a ≠ b := by decide
  refine (hall.filter _).imp fun {F G} hne => ?_
  intro i hi j hj e
  refine hne ?_
  rw [← items_feature p F i hi, ← items_feature p G j hj, e]

theorem distinct_of {m : Mode} {cfg : String → Bool} {s : StructSpec} {p : Parsed}
    (hr : s.Readable) (h : parseBitfield m cfg s.attr s.decl = .ok p) : p.Distinct := by
  have k := StructSpec.kept hr h
  have key : ∀ f : FieldSpec, f.ignored = false → (f.view s.vis).name = f.name ∧
      (f.view s.vis).reserved = f.reserved := by
    intro f hf; simp only [FieldSpec.view, hf]; exact ⟨rfl, rfl⟩
  have h1 : ((p.fields.map PField.view).filter fun v => !v.reserved).Pairwise
      fun v w => v.name ≠ w.name := by
    rw [k.fields, List.filter_map, List.pairwise_map, List.filter_filter]
    have h2 := k.names.filter fun f => !f.reserved && !f.ignored
    have e : (s.fields.filter fun a => ((fun v => !v.reserved) ∘ FieldSpec.view s.vis) a && !a.ignored) =
        s.fields.filter fun f => !f.reserved && !f.ignored := by
      refine List.filter_congr fun f _ => ?_
      cases hi : f.ignored with
      | true => simp
      | false => simp only [Function.comp_apply, (key f hi).2]
    rw [e]
    refine List.Pairwise.imp_of_mem (fun {f g} hf hg hne => ?_) h2
    have hf' := (List.mem_filter.mp hf).2
    have hg' := (List.mem_filter.mp hg).2
    simp only [Bool.and_eq_true, Bool.not_eq_true'] at hf' hg'
    rw [(key f hf'.2).1, (key g hg'.2).1]
    exact hne hf'.1
  rw [List.filter_map, List.pairwise_map] at h1
  exact h1

end Bf
