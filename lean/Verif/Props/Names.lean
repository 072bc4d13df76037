import Verif.Lemmas.Idents
import Verif.Props.Surface

/-!
# Names of generated items (C50)
-/

namespace Bf

variable {m : Mode} {cfg : String → Bool} {s : StructSpec} {p : Parsed}

theorem fns_common {ns : List String} {int : Bool} (h : ∀ n ∈ ns, n ∈ commonNames int) :
    ∀ i ∈ p.fns ns, ∀ n, i.tag = .fn n → n ∈ commonNames int := by
  intro i hi n hn
  obtain ⟨k, hk, rfl⟩ := List.mem_map.mp hi
  cases hn
  exact h _ hk

theorem items_common (F : Feature) :
    ∀ i ∈ F.items p, ∀ n, i.tag = .fn n → n ∈ commonNames p.intBacked := by
  have hb : p.bob = if p.intBacked then "bits" else "bytes" := rfl
  generalize hI : p.intBacked = int at hb
  cases F <;> simp only [Feature.items]
  case struct | fromTraits | debug | default => simp
  case constants | setters =>
    simp only [List.mem_flatMap]
    rintro i ⟨f, -, hi⟩ n hn
    simp only [List.mem_cons, List.not_mem_nil, or_false] at hi
    rcases hi with rfl | rfl <;> cases hn
  case getters =>
    simp only [List.mem_map]
    rintro i ⟨f, -, rfl⟩ n hn
    cases hn
  case new => exact fns_common (by cases int <;> decide)
  case fromIntoBits => rw [hI]; cases int <;> exact fns_common (by decide)
  case builder =>
    intro i hi n hn
    simp only [List.mem_append, List.mem_flatMap, List.mem_cons, List.not_mem_nil, or_false] at hi
    rcases hi with ((rfl | rfl | rfl | rfl) | ⟨f, -, rfl | rfl⟩) | rfl <;> cases hn
  case writeBitOps => rw [hb]; cases int <;> exact fns_common (by decide)
  case setGetBitOps => rw [hb]; cases int <;> exact fns_common (by decide)
  case clearBitOps | invertBitOps =>
    intro i hi n hn
    simp only [List.mem_append, List.mem_map] at hi
    rcases hi with (hi | ⟨f, -, rfl⟩) | ⟨f, -, rfl⟩
    · revert i
      rw [hb]
      cases int <;> exact fun i hn hi => fns_common (by decide) i hi n hn
    · cases hn
    · cases hn

theorem fn_common {i : Item} (hi : i ∈ surface p) {n : String} (hn : i.tag = .fn n) :
    n ∈ commonNames p.intBacked := by
  simp only [surface, List.mem_flatMap] at hi
  obtain ⟨F, -, hi⟩ := hi
  exact items_common F i hi n hn

theorem common_shape (int : Bool) : ∀ n ∈ commonNames int, n.toList.any Char.isUpper = false ∧
    kInverted.isSuffixOf n.toList = false ∧ kToDefault.isSuffixOf n.toList = false := by
  cases int <;> decide

theorem ident_not_common {int : Bool} {x : String} (h : SafeName int x) {a : Accessor}
    (ha : a.ofBuilder = false) : a.ident x ∉ commonNames int := by
  cases a
  case get => exact h.getter
  case set => exact h.commonSet
  case checkedSet => exact h.commonChecked
  case clear => exact h.commonClear
  case invert => exact h.commonInvert
  case builderWith => cases ha
  case builderCheckedWith => cases ha
  case bitsConst =>
    intro hn
    have := (common_shape int _ hn).1
    simp only [Accessor.ident, String.toList_append, List.any_append, Bool.or_eq_false_iff] at this
    exact absurd this.2 (by decide)
  case offsetConst =>
    intro hn
    have := (common_shape int _ hn).1
    simp only [Accessor.ident, String.toList_append, List.any_append, Bool.or_eq_false_iff] at this
    exact absurd this.2 (by decide)
  case inverted =>
    intro hn
    have := (common_shape int _ hn).2.1
    simp only [Accessor.ident, String.toList_append] at this
    rw [show "_inverted".toList = kInverted from rfl, isSuffixOf_append] at this
    cases this
  case clearToDefault =>
    intro hn
    have := (common_shape int _ hn).2.2
    simp only [Accessor.ident, String.toList_append] at this
    rw [show "_to_default".toList = kToDefault from rfl, isSuffixOf_append] at this
    cases this

theorem acc_named (hr : s.Readable) (h : parseBitfield m cfg s.attr s.decl = .ok p) {a : Accessor}
    {x : String} {v : Vis} (hi : (⟨.acc a x, v⟩ : Item) ∈ surface p) :
    ∃ f ∈ s.fields, f.name = x ∧ f.Named := by
  obtain ⟨-, f, hf, hn, hh⟩ := (C05_accessors hr h a x).mp ⟨v, hi⟩
  refine ⟨f, hf, hn, ?_⟩
  cases a <;> simp only [FieldSpec.Has] at hh
  case bitsConst | offsetConst => rcases hh with hh | hh <;> exact hh.1
  case get | set | checkedSet | clear | invert | inverted => exact hh.1
  case clearToDefault => exact hh.1.1
  case builderWith | builderCheckedWith => exact hh

/-- **C50** (items). No item is generated twice. -/
theorem C50_items (hr : s.Readable) (h : parseBitfield m cfg s.attr s.decl = .ok p) :
    ((surface p).map Item.tag).Nodup :=
  List.pairwise_map.mpr (surface_nodup (distinct_of hr h))

/-- **C50** (bitfield). If all fields that are neither reserved nor ignored have safe names, no two of
the functions and constants of the generated struct have the same name. Missing: names that are not
safe, where the generated code may not compile (see the findings below). -/
theorem C50_bitfield_partial (hr : s.Readable) (h : parseBitfield m cfg s.attr s.decl = .ok p)
    (hs : ∀ f ∈ s.fields, f.Named → SafeName s.intBacked f.name) : (bitfieldNames p).Nodup := by
  have hint := (StructSpec.kept hr h).int
  rw [← hint] at hs
  have safe : ∀ {a x v}, (⟨.acc a x, v⟩ : Item) ∈ surface p → SafeName p.intBacked x := by
    intro a x v hi
    obtain ⟨f, hf, rfl, hn⟩ := acc_named hr h hi
    exact hs f hf hn
  rw [bitfieldNames, List.Nodup, List.pairwise_filterMap]
  refine List.Pairwise.imp_of_mem (fun {i j} hi hj hne => ?_) (surface_nodup (distinct_of hr h))
  intro b hb b' hb' e
  subst e
  obtain ⟨t, v⟩ := i
  obtain ⟨t', v'⟩ := j
  cases t with
  | bitfield | builder | impl | builderFn => cases hb
  | fn n =>
    cases t' with
    | bitfield | builder | impl | builderFn => cases hb'
    | fn n' =>
      refine hne ?_
      injection hb with hb
      injection hb' with hb'
      simp only [hb, hb']
    | acc a x =>
      simp only [Tag.implIdent] at hb hb'
      split at hb'
      · cases hb'
      · next ha =>
        injection hb with hb
        injection hb' with hb'
        refine ident_not_common (safe hj) (Bool.not_eq_true _ |>.mp ha) ?_
        rw [hb', ← hb]
        exact fn_common hi rfl
  | acc a x =>
    simp only [Tag.implIdent] at hb
    split at hb
    · cases hb
    · next ha =>
      injection hb with hb
      cases t' with
      | bitfield | builder | impl | builderFn => cases hb'
      | fn n =>
        simp only [Tag.implIdent] at hb'
        injection hb' with hb'
        refine ident_not_common (safe hi) (Bool.not_eq_true _ |>.mp ha) ?_
        rw [hb, ← hb']
        exact fn_common hj rfl
      | acc a' x' =>
        simp only [Tag.implIdent] at hb'
        split at hb'
        · cases hb'
        · next ha' =>
          injection hb' with hb'
          obtain ⟨rfl, rfl⟩ := ident_inj (safe hi).chars (safe hj).chars
            (Bool.not_eq_true _ |>.mp ha) (Bool.not_eq_true _ |>.mp ha') (hb.trans hb'.symm)
          exact hne rfl

theorem builderFn_names (F : Feature) : ∀ i ∈ F.items p, ∀ n, i.tag = .builderFn n →
    n = "new" ∨ n = "new_without_defaults" ∨ n = "build" := by
  have fns : ∀ ns : List String, ∀ i ∈ p.fns ns, ∀ n, i.tag = .builderFn n →
      n = "new" ∨ n = "new_without_defaults" ∨ n = "build" := by
    intro ns i hi n hn
    obtain ⟨k, hk, rfl⟩ := List.mem_map.mp hi
    cases hn
  cases F <;> simp only [Feature.items]
  case struct | fromTraits | debug | default => simp
  case constants | setters =>
    simp only [List.mem_flatMap]
    rintro i ⟨f, -, hi⟩ n hn
    simp only [List.mem_cons, List.not_mem_nil, or_false] at hi
    rcases hi with rfl | rfl <;> cases hn
  case getters =>
    simp only [List.mem_map]
    rintro i ⟨f, -, rfl⟩ n hn
    cases hn
  case new => exact fns _
  case fromIntoBits => split <;> exact fns _
  case builder =>
    intro i hi n hn
    simp only [List.mem_append, List.mem_flatMap, List.mem_cons, List.not_mem_nil, or_false] at hi
    rcases hi with ((rfl | rfl | rfl | rfl) | ⟨f, -, rfl | rfl⟩) | rfl <;> cases hn <;> simp
  case writeBitOps | setGetBitOps => exact fns _
  case clearBitOps | invertBitOps =>
    intro i hi n hn
    simp only [List.mem_append, List.mem_map] at hi
    rcases hi with (hi | ⟨f, -, rfl⟩) | ⟨f, -, rfl⟩
    · exact fns _ i hi n hn
    · cases hn
    · cases hn

theorem builder_ident_inj {t t' : Tag} {b : String}
    (ht : ∀ n, t = .builderFn n → n = "new" ∨ n = "new_without_defaults" ∨ n = "build")
    (ht' : ∀ n, t' = .builderFn n → n = "new" ∨ n = "new_without_defaults" ∨ n = "build")
    (h : t.builderIdent = some b) (h' : t'.builderIdent = some b) : t = t' := by
  have left : ∀ {u x y : String}, u ++ x = u ++ y → x = y := by
    intro u x y e
    have := congrArg String.toList e
    simp only [String.toList_append, List.append_cancel_left_eq] at this
    exact String.ext this
  have lists : ∀ {x y : String}, x = y → x.toList = y.toList := congrArg _
  cases t with
  | bitfield | builder | impl | fn => cases h
  | builderFn n =>
    injection h with h
    subst h
    cases t' with
    | bitfield | builder | impl | fn => cases h'
    | builderFn n' => injection h' with h'; rw [h']
    | acc a x =>
      have hn := ht n rfl
      cases a <;> first | (cases h'; done) | skip
      all_goals
        injection h' with h'
        have := lists h'
        simp only [Accessor.ident, String.toList_append] at this
        rcases hn with rfl | rfl | rfl <;> simp at this
  | acc a x =>
    cases t' with
    | bitfield | builder | impl | fn => cases h'
    | builderFn n =>
      injection h' with h'
      subst h'
      have hn := ht' n rfl
      cases a <;> first | (cases h; done) | skip
      all_goals
        injection h with h
        have := lists h
        simp only [Accessor.ident, String.toList_append] at this
        rcases hn with rfl | rfl | rfl <;> simp at this
    | acc a' y =>
      cases a <;> first | (cases h; done) | skip
      all_goals
        cases a' <;> first | (cases h'; done) | skip
        all_goals
          injection h with h
          injection h' with h'
          rw [← h'] at h
          first
          | rw [left h]
          | exfalso
            have := lists h
            simp [Accessor.ident, String.toList_append] at this

/-- **C50** (builder). No two functions of the builder have the same name, whatever the fields are
called. -/
theorem C50_builder (hr : s.Readable) (h : parseBitfield m cfg s.attr s.decl = .ok p) :
    (builderNames p).Nodup := by
  rw [builderNames, List.Nodup, List.pairwise_filterMap]
  refine List.Pairwise.imp_of_mem (fun {i j} hi hj hne => ?_) (surface_nodup (distinct_of hr h))
  intro b hb b' hb' e
  subst e
  have names : ∀ {i}, i ∈ surface p → ∀ n, i.tag = .builderFn n →
      n = "new" ∨ n = "new_without_defaults" ∨ n = "build" := by
    intro i hi
    simp only [surface, List.mem_flatMap] at hi
    obtain ⟨F, -, hi⟩ := hi
    exact builderFn_names F i hi
  exact hne (builder_ident_inj (names hi) (names hj) hb hb')

/-! ## Examples -/

namespace ExNames

/-- `#[bitfield(u8)] pub struct N { .. }` with two fields of four bits. -/
def two (x y : String) : StructSpec where
  storage := .int .u8
  rest := []
  vis := .pub
  fields := [⟨x, .pub, .int .u8, some ⟨some 4, []⟩⟩, ⟨y, .pub, .int .u8, some ⟨some 4, []⟩⟩]

theorem readable (x y : String) : (two x y).Readable where
  storage := trivial
  ty := by
    intro f hf
    simp only [two, List.mem_cons, List.not_mem_nil, or_false] at hf
    rcases hf with rfl | rfl <;> trivial
  default := by
    intro f hf d v hd
    simp only [two, List.mem_cons, List.not_mem_nil, or_false] at hf
    rcases hf with rfl | rfl <;> simp [FieldSpec.args] at hd

end ExNames

theorem ExNames.safe : ∀ x ∈ ["mode", "speed", "interrupt_enable", "offset", "a", "b", "c", "data"],
    SafeName true x ∧ SafeName false x := by
  intro x hx
  simp only [List.mem_cons, List.not_mem_nil, or_false] at hx
  rcases hx with rfl | rfl | rfl | rfl | rfl | rfl | rfl | rfl <;>
    exact ⟨⟨by decide, by decide, by decide, by decide, by decide, by decide, by decide, by decide,
      by decide, by decide, by decide, by decide, by decide⟩, by decide, by decide, by decide, by decide,
      by decide, by decide, by decide, by decide, by decide, by decide, by decide, by decide, by decide⟩

example : ∀ f ∈ ExT.T.fields, f.Named → SafeName ExT.T.intBacked f.name := by
  intro f hf hn
  simp only [ExT.T, List.mem_cons, List.not_mem_nil, or_false] at hf
  rcases hf with rfl | rfl | rfl | rfl | rfl
  · exact (ExNames.safe "a" (by decide)).1
  · exact (ExNames.safe "b" (by decide)).1
  · exact (ExNames.safe "c" (by decide)).1
  · exact absurd hn.2 (by decide)
  · exact absurd hn.1 (by decide)

example : "set_a" ∈ bitfieldNames ExT.p :=
  List.mem_filterMap.mpr ⟨⟨.acc .set "a", .pub⟩, by decide, rfl⟩

/-! ## Findings -/

/-- C50: structs that are accepted although two generated items have the same name, so that the
expansion does not compile. A field called `bit` (`set_bit`), a field called `bits` (`clear_bits`),
fields `x` and `set_x`, fields `a` and `a_inverted`. -/
theorem finding_name_clash : ∀ m,
    ∀ xy ∈ [("bit", "y"), ("bits", "y"), ("x", "set_x"), ("a", "a_inverted")],
    ∃ p, parseBitfield m (fun _ => false) (ExNames.two xy.1 xy.2).attr (ExNames.two xy.1 xy.2).decl = .ok p ∧
      ¬ (bitfieldNames p).Nodup := by
  intro m xy hxy
  simp only [List.mem_cons, List.not_mem_nil, or_false] at hxy
  rcases hxy with rfl | rfl | rfl | rfl <;> cases m <;> exact ⟨_, rfl, by decide⟩

/-- C50: fields whose names differ in case only are accepted, although they share the names of the
constants. -/
theorem finding_name_clash_case : ∀ m,
    ∃ p, parseBitfield m (fun _ => false) (ExNames.two "foo" "FOO").attr (ExNames.two "foo" "FOO").decl = .ok p ∧
      Generates p (.acc .bitsConst "foo") ∧ Generates p (.acc .bitsConst "FOO") ∧
      Accessor.bitsConst.ident "foo" = Accessor.bitsConst.ident "FOO" := by
  intro m
  have : Accessor.bitsConst.ident "foo" = Accessor.bitsConst.ident "FOO" := by
    refine String.ext ?_
    simp [Accessor.ident, String.toList_append, String.toList_map]
  cases m <;> exact ⟨_, rfl, ⟨.pub, by decide⟩, ⟨.pub, by decide⟩, this⟩

end Bf
