import Verif.Lemmas.Surface
import Verif.SpecIdent

/-!
# Which identifiers can be made up
-/

namespace Bf

variable {m : Mode} {cfg : String → Bool} {attr : AttrInput} {d : StructDecl} {p : Parsed}

theorem identChar_iff {c : Char} : identChar c = true ↔ c.isAlphanum = true ∨ c = '_' ∨ 128 ≤ c.toNat := by
  simp [identChar, or_assoc]

/-- Characters of identifiers, behind a first one. -/
theorem identText_append {a b : List Char} (h : identText a = true) (hb : b.all identChar = true) :
    identText (a ++ b) = true := by
  cases a with
  | nil => cases h
  | cons c cs =>
    simp only [identText, List.cons_append, List.all_cons, List.all_append, Bool.and_eq_true] at h ⊢
    exact ⟨h.1, h.2.1, h.2.2, hb⟩

theorem canFormat_of {x : String} (h : identText x.toList = true) : canFormatIdent x = true := by
  unfold canFormatIdent
  split
  · rename_i cs hx
    rw [hx] at h
    simp [identText, identChar] at h
  · exact h

theorem canFormat_prefix {a b : String} (ha : identText a.toList = true) (hb : b.toList.all identChar = true) :
    canFormatIdent (a ++ b) = true := by
  apply canFormat_of
  rw [String.toList_append]
  exact identText_append ha hb

theorem PlainIdent.text {x : String} (h : PlainIdent x) : identText x.toList = true := by
  obtain ⟨c, cs, hx, hd⟩ := h.start
  have : x.toList.all identChar = true := List.all_eq_true.mpr fun c hc => identChar_iff.mpr (h.chars c hc)
  rw [hx] at this ⊢
  simp [identText, hd]
  simpa using this

theorem PlainIdent.all {x : String} (h : PlainIdent x) : x.toList.all identChar = true :=
  List.all_eq_true.mpr fun c hc => identChar_iff.mpr (h.chars c hc)

theorem toUpper_ident {c : Char} (h : identChar c = true) : identChar c.toUpper = true := by
  unfold Char.toUpper
  split
  · rename_i hc
    have h1 : c.val ≥ 97 := hc.1
    have h2 : c.val ≤ 122 := hc.2
    rw [identChar_iff]
    left
    have h1' : 97 ≤ c.toNat := by simpa using UInt32.le_iff_toNat_le.mp h1
    have h2' : c.toNat ≤ 122 := by simpa using UInt32.le_iff_toNat_le.mp h2
    simp only [Char.isAlphanum, Char.isAlpha, Char.isUpper, Bool.or_eq_true]
    left; left
    simp [UInt32.le_iff_toNat_le, UInt32.toNat_add]
    omega
  · exact h

theorem toUpper_digit {c : Char} (h : c.isDigit = false) : c.toUpper.isDigit = false := by
  unfold Char.toUpper
  split
  · rename_i hc
    have h1 : c.val ≥ 97 := hc.1
    have h2 : c.val ≤ 122 := hc.2
    have h1' : 97 ≤ c.toNat := by simpa using UInt32.le_iff_toNat_le.mp h1
    have h2' : c.toNat ≤ 122 := by simpa using UInt32.le_iff_toNat_le.mp h2
    simp [Char.isDigit, UInt32.le_iff_toNat_le, UInt32.toNat_add]
    omega
  · exact h

theorem PlainIdent.upper {x : String} (h : PlainIdent x) : identText (x.map Char.toUpper).toList = true := by
  have ht := h.text
  rw [String.toList_map]
  cases hx : x.toList with
  | nil => rw [hx] at ht; cases ht
  | cons c cs =>
    rw [hx] at ht
    simp only [identText, List.map_cons, List.all_cons, Bool.and_eq_true, Bool.not_eq_true', List.all_map, List.all_eq_true,
      Function.comp] at ht ⊢
    exact ⟨toUpper_digit ht.1, toUpper_ident ht.2.1, fun c hc => toUpper_ident (ht.2.2 c hc)⟩

/-- From a plain name every name of an accessor can be made. -/
theorem PlainIdent.accessor {x : String} (h : PlainIdent x) (a : Accessor) : canFormatIdent (a.ident x) = true := by
  have pre : ∀ pre : String, identText pre.toList = true → canFormatIdent (pre ++ x) = true := fun _ hp =>
    canFormat_prefix hp h.all
  cases a with
  | bitsConst => exact canFormat_prefix h.upper (by decide)
  | offsetConst => exact canFormat_prefix h.upper (by decide)
  | get => exact canFormat_of h.text
  | set => exact pre _ (by decide)
  | checkedSet => exact pre _ (by decide)
  | clear => exact pre _ (by decide)
  | clearToDefault =>
    refine canFormat_prefix ?_ (by decide)
    rw [String.toList_append]
    exact identText_append (by decide) h.all
  | invert => exact pre _ (by decide)
  | inverted => exact canFormat_prefix h.text (by decide)
  | builderWith => exact pre _ (by decide)
  | builderCheckedWith => exact pre _ (by decide)

/-- From a raw name only the names that start with it can be made. -/
theorem RawIdent.accessor {x : String} (h : RawIdent x) (a : Accessor) :
    canFormatIdent (a.ident x) = true ↔ a = .get ∨ a = .inverted := by
  obtain ⟨y, hy, rfl⟩ := h
  have hash : ∀ {cs : List Char}, '#' ∈ cs → identText cs = false := by
    intro cs hc
    cases cs with
    | nil => rfl
    | cons c cs =>
      simp only [identText, Bool.and_eq_false_iff]
      right
      rw [List.all_eq_false]
      exact ⟨'#', hc, by decide⟩
  have no : ∀ {c : Char} {z : String}, z.toList.head? = some c → c ≠ 'r' → '#' ∈ z.toList → canFormatIdent z = false := by
    intro c z hc hr hz
    unfold canFormatIdent
    split
    · rename_i cs hx
      rw [hx] at hc
      cases hc
      exact absurd rfl hr
    · exact hash hz
  have raw : ∀ {z : String} {cs : List Char}, z.toList = 'r' :: '#' :: cs → identText cs = true → canFormatIdent z = true := by
    intro z cs hz hc
    unfold canFormatIdent
    rw [hz]
    exact hc
  cases a with
  | get => simp only [Accessor.ident, reduceCtorEq, or_false, iff_true]; exact raw (by simp) hy.text
  | inverted =>
    simp only [Accessor.ident, reduceCtorEq, or_true, iff_true]
    refine raw (cs := y.toList ++ "_inverted".toList) (by simp) (identText_append hy.text (by decide))
  | clearToDefault =>
    simp only [Accessor.ident, reduceCtorEq, or_self, iff_false, Bool.not_eq_true]
    refine no (c := 'c') (by simp) (by decide) (by simp)
  | bitsConst =>
    simp only [Accessor.ident, reduceCtorEq, or_self, iff_false, Bool.not_eq_true]
    refine no (c := 'R') (by simp [String.toList_map]) (by decide) ?_
    rw [String.toList_append, String.toList_map, String.toList_append]
    simp
  | offsetConst =>
    simp only [Accessor.ident, reduceCtorEq, or_self, iff_false, Bool.not_eq_true]
    refine no (c := 'R') (by simp [String.toList_map]) (by decide) ?_
    rw [String.toList_append, String.toList_map, String.toList_append]
    simp
  | set =>
    simp only [Accessor.ident, reduceCtorEq, or_self, iff_false, Bool.not_eq_true]
    refine no (c := 's') (by simp) (by decide) (by simp)
  | checkedSet =>
    simp only [Accessor.ident, reduceCtorEq, or_self, iff_false, Bool.not_eq_true]
    refine no (c := 'c') (by simp) (by decide) (by simp)
  | clear =>
    simp only [Accessor.ident, reduceCtorEq, or_self, iff_false, Bool.not_eq_true]
    refine no (c := 'c') (by simp) (by decide) (by simp)
  | invert =>
    simp only [Accessor.ident, reduceCtorEq, or_self, iff_false, Bool.not_eq_true]
    refine no (c := 'i') (by simp) (by decide) (by simp)
  | builderWith =>
    simp only [Accessor.ident, reduceCtorEq, or_self, iff_false, Bool.not_eq_true]
    refine no (c := 'w') (by simp) (by decide) (by simp)
  | builderCheckedWith =>
    simp only [Accessor.ident, reduceCtorEq, or_self, iff_false, Bool.not_eq_true]
    refine no (c := 'c') (by simp) (by decide) (by simp)

/-! ## Names and visibilities come from the declaration -/

theorem parseField_from {A : BitfieldAttr} {v : Vis} {d : FieldDecl} {prev : List PField} {f : PField}
    (h : parseField m A v d prev = .ok f) :
    f.field.name = d.name ∧ (f.vis = v ∨ f.vis = d.vis) ∧ (f.ignored = true → f.field.access = .na) := by
  unfold parseField at h
  obtain ⟨a, ha, h⟩ := bind_ok.mp h
  split at h
  · unfold parseIgnored at h
    split at h
    · cases h
    · cases h; exact ⟨rfl, .inr rfl, fun _ => rfl⟩
  · obtain ⟨t, -, h⟩ := bind_ok.mp h
    obtain ⟨bits, -, h⟩ := bind_ok.mp h
    obtain ⟨-, -, h⟩ := bind_ok.mp h
    dsimp only at h
    have h : ∃ off acc, f = ⟨⟨d.name, t, bits, off, acc, isReservedName d.name,
        (a.bind fun a => a.args.default).map (·.2)⟩, fieldVis v d.vis, false⟩ := by
      cases t <;> dsimp only at h
      · obtain ⟨-, -, h⟩ := bind_ok.mp h
        obtain ⟨-, -, h⟩ := bind_ok.mp h
        obtain ⟨off, -, h⟩ := bind_ok.mp h
        obtain ⟨acc, -, h⟩ := bind_ok.mp h
        cases h
        exact ⟨_, _, rfl⟩
      all_goals
        obtain ⟨-, -, h⟩ := bind_ok.mp h
        obtain ⟨off, -, h⟩ := bind_ok.mp h
        obtain ⟨acc, -, h⟩ := bind_ok.mp h
        cases h
        exact ⟨_, _, rfl⟩
    obtain ⟨off, acc, rfl⟩ := h
    refine ⟨rfl, ?_, fun h => by cases h⟩
    simp only [fieldVis]
    split
    · exact .inl rfl
    · exact .inr rfl

theorem parseFields_from {A : BitfieldAttr} {v : Vis} : ∀ {ds : List FieldDecl} {seen : List String} {fs ig : List PField}
    {x : List PField × List PField}, parseFields m A v ds seen fs ig = .ok x →
    ∀ f, f ∈ x.1 ∨ f ∈ x.2 → (f ∈ fs ∨ f ∈ ig) ∨ ∃ d ∈ ds, f.field.name = d.name ∧ (f.vis = v ∨ f.vis = d.vis) := by
  intro ds
  induction ds with
  | nil => intro seen fs ig x h f hf; cases h; exact .inl hf
  | cons d ds ih =>
    intro seen fs ig x h f hf
    unfold parseFields at h
    split at h
    · cases h
    · obtain ⟨g, hg, h⟩ := bind_ok.mp h
      obtain ⟨h1, h2, -⟩ := parseField_from hg
      have step : (f ∈ fs ∨ f ∈ ig ∨ f = g) ∨ (∃ d' ∈ ds, f.field.name = d'.name ∧ (f.vis = v ∨ f.vis = d'.vis)) := by
        dsimp only at h
        split at h
        · rcases ih h f hf with (h | h) | h
          · exact .inl (.inl h)
          · rcases List.mem_append.mp h with h | h
            · exact .inl (.inr (.inl h))
            · exact .inl (.inr (.inr (by simpa using h)))
          · exact .inr h
        · rcases ih h f hf with (h | h) | h
          · rcases List.mem_append.mp h with h | h
            · exact .inl (.inl h)
            · exact .inl (.inr (.inr (by simpa using h)))
          · exact .inl (.inr (.inl h))
          · exact .inr h
      rcases step with (h | h | rfl) | ⟨d', hd', h⟩
      · exact .inl (.inl h)
      · exact .inl (.inr h)
      · exact .inr ⟨d, by simp, h1, h2⟩
      · exact .inr ⟨d', by simp [hd'], h⟩

theorem parsed_plain (hd : d.PlainNames) (h : parseBitfield m cfg attr d = .ok p) :
    PlainVis p.vis ∧ ∀ f, f ∈ p.fields ∨ f ∈ p.ignored → PlainIdent f.field.name ∧ PlainVis f.vis := by
  obtain ⟨hv, -, -, ds, A, hds, hf⟩ := parsed_attr h
  refine ⟨hv ▸ hd.vis, fun f hmem => ?_⟩
  rcases parseFields_from hf f hmem with (h | h) | ⟨d', hd', h1, h2⟩
  · cases h
  · cases h
  · obtain ⟨h3, h4⟩ := hd.field ds hds d' hd'
    refine ⟨h1 ▸ h3, ?_⟩
    rcases h2 with h2 | h2
    · rw [h2]; exact hd.vis
    · rw [h2]; exact h4

theorem PlainVis.idents {v : Vis} (h : PlainVis v) : ∀ x ∈ v.idents, canFormatIdent x = true := by
  intro x hx
  cases v with
  | restricted path =>
    simp only [Vis.idents, List.mem_singleton] at hx
    subst hx
    exact canFormat_of (h _ rfl).text
  | _ => cases hx

theorem PField.visibility_plain {f : PField} (h : PlainVis f.vis) : PlainVis f.visibility := by
  unfold PField.visibility
  split
  · exact h
  · intro path hp; cases hp

/-- All identifiers can be made up from plain names. -/
theorem idents_of_plain (hd : d.PlainNames) (h : parseBitfield m cfg attr d = .ok p) :
    p.idents.all canFormatIdent = true := by
  obtain ⟨hv, hf⟩ := parsed_plain hd h
  rw [List.all_eq_true]
  intro x hx
  simp only [Parsed.idents, List.mem_append, List.mem_flatMap] at hx
  rcases hx with ⟨i, hi, hx⟩ | ⟨f, hm, hx⟩
  · have hvis : PlainVis i.vis ∧ ∀ a y, i.tag = .acc a y → PlainIdent y := by
      obtain ⟨F, -, hi⟩ := mem_surface.mp hi
      have pub : PlainVis .pub := fun _ h => by cases h
      cases F <;> simp only [Feature.items, Parsed.fns, List.mem_flatMap, List.mem_map, List.mem_filter, List.mem_append,
        List.mem_cons, List.not_mem_nil, or_false] at hi
      all_goals grind [PField.visibility_plain]
    simp only [Item.idents, List.mem_append] at hx
    rcases hx with hx | hx
    · exact hvis.1.idents x hx
    · split at hx
      · cases hx
      · rename_i a y ht
        simp only [List.mem_singleton] at hx
        subst hx
        exact (hvis.2 _ _ ‹_›).accessor _
      · cases hx
  · exact (PField.visibility_plain (hf f (.inr hm)).2).idents x hx

theorem expandBitfield_ok {items : List Item} : expandBitfield m cfg attr d = .ok items ↔
    ∃ p, parseBitfield m cfg attr d = .ok p ∧ p.args.forcePanic = false ∧ p.idents.all canFormatIdent = true ∧
      items = surface p := by
  unfold expandBitfield
  cases hp : parseBitfield m cfg attr d with
  | error e => exact ⟨fun h => (by cases h), fun ⟨p, h, _⟩ => by cases h⟩
  | ok p =>
    change (if p.args.forcePanic = true then _ else if p.idents.all canFormatIdent = true then _ else _ : P _) = _ ↔ _
    split
    · rename_i hf
      exact ⟨fun h => by (cases h), fun ⟨q, h1, h2, _⟩ => by cases h1; rw [h2] at hf; cases hf⟩
    · rename_i hf
      split
      · rename_i hi
        constructor
        · intro h; cases h; exact ⟨p, rfl, by simpa using hf, hi, rfl⟩
        · rintro ⟨q, h1, _, _, rfl⟩; cases h1; rfl
      · rename_i hi
        exact ⟨fun h => by (cases h), fun ⟨q, h1, _, h2, _⟩ => by cases h1; exact absurd h2 hi⟩

end Bf
