import Verif.Lemmas.Accept

/-!
# Renaming reserved fields: helper lemmas
-/

namespace Bf

theorem sumBits_congr {m : Mode} {ps qs : List PField}
    (h : ps.map (fun p => p.field.bits) = qs.map fun p => p.field.bits) : sumBits m ps = sumBits m qs := by
  have : ∀ (l : List PField), sumBits m l =
      (l.map fun p => p.field.bits).foldlM (fun acc b => addU32 m acc b) 0 := by
    intro l
    simp only [sumBits, List.foldlM_map]
  rw [this, this, h]

/-- The same field with another name. -/
def PField.renamed (p : PField) (n : String) : PField := { p with field := { p.field with name := n } }

theorem parseField_renamed {m : Mode} {A : BitfieldAttr} {sv : Vis} {d : FieldDecl} {n : String}
    {prev prev' : List PField} {p : PField} (h : parseField m A sv d prev = .ok p)
    (hb : prev.map (fun p => p.field.bits) = prev'.map fun p => p.field.bits)
    (hn : isReservedName n = isReservedName d.name) :
    parseField m A sv { d with name := n } prev' = .ok (p.renamed n) := by
  obtain ⟨a, ha, h⟩ := parseField_ok.mp h
  refine parseField_ok.mpr ⟨a, ha, ?_⟩
  by_cases hi : isIgnored a = true
  · rw [if_pos hi] at h ⊢
    simp only [parseIgnored] at h ⊢
    split at h
    · cases h
    · next t ht =>
      cases h
      rfl
  · rw [if_neg hi] at h ⊢
    obtain ⟨t, w, o, ac, h1, h2, h3, h4, h5, h6, rfl⟩ := h
    refine ⟨t, w, o, ac, h1, h2, h3, h4, ?_, ?_, ?_⟩
    · simp only [fieldOffset] at h5 ⊢
      rw [← sumBits_congr hb]
      exact h5
    · simp only [hn]
      exact h6
    · simp only [mkField, PField.renamed, hn]

/-- Fields with the names they are to get. -/
structure Renaming (ig : FieldDecl → Bool) (ps : List (FieldDecl × String)) : Prop where
  /-- only reserved fields get other names, and stay reserved -/
  pair : ∀ q ∈ ps, q.2 = q.1.name ∨
    (isReservedName q.1.name = true ∧ isReservedName q.2 = true ∧ ig q.1 = false)
  /-- new names are not those of ignored fields -/
  fresh : ∀ q ∈ ps, q.2 = q.1.name ∨ ∀ r ∈ ps, ig r.1 = true → q.2 ≠ r.1.name

theorem parseFields_renamed {m : Mode} {A : BitfieldAttr} {sv : Vis} {ig : FieldDecl → Bool} :
    ∀ (ps : List (FieldDecl × String)), Renaming ig ps →
    (∀ q ∈ ps, ∀ a, getBitsAttribute q.1 = .ok a → isIgnored a = ig q.1) →
    ∀ (seen : List String) (fs fs' is is' : List PField),
    (∀ q ∈ ps, q.2 = q.1.name ∨ q.2 ∉ seen) →
    fs.map (fun p => p.field.bits) = fs'.map (fun p => p.field.bits) →
    ∀ r, parseFields m A sv (ps.map Prod.fst) seen fs is = .ok r →
    ∃ r', parseFields m A sv (ps.map fun q => { q.1 with name := q.2 }) seen fs' is' = .ok r' ∧
      r.1.map (fun p => p.field.bits) = r'.1.map fun p => p.field.bits := by
  intro ps
  induction ps with
  | nil =>
    intro _ _ seen fs fs' is is' _ hb r h
    cases h
    exact ⟨_, rfl, hb⟩
  | cons q ps ih =>
    intro hR hig seen fs fs' is is' hseen hb r h
    obtain ⟨d, n⟩ := q
    simp only [List.map_cons, parseFields] at h ⊢
    split at h
    · cases h
    · next hd =>
      have hn : ¬ seen.contains n = true := by
        rcases hseen (d, n) List.mem_cons_self with e | e
        · simp only at e; rw [e]; exact hd
        · simpa using e
      rw [if_neg hn]
      obtain ⟨p, hp, h⟩ := bind_ok.mp h
      have hres : isReservedName n = isReservedName d.name := by
        rcases hR.pair (d, n) List.mem_cons_self with e | ⟨e1, e2, _⟩
        · simp only at e; rw [e]
        · simp only at e1 e2; rw [e1, e2]
      have hp' := parseField_renamed hp hb hres
      have hs : (if (p.renamed n).field.reserved then seen else n :: seen) =
          if p.field.reserved then seen else d.name :: seen := by
        show (if p.field.reserved then seen else n :: seen) = _
        rcases hR.pair (d, n) List.mem_cons_self with e | ⟨e1, e2, e3⟩
        · simp only at e; rw [e]
        · simp only at e1 e2 e3
          obtain ⟨a, ha, h'⟩ := parseField_ok.mp hp
          rw [hig _ List.mem_cons_self a ha, e3] at h'
          simp only [Bool.false_eq_true, if_false] at h'
          obtain ⟨_, _, _, _, _, _, _, _, _, _, rfl⟩ := h'
          simp only [mkField, e1, if_true]
      have hseen' : ∀ q ∈ ps, q.2 = q.1.name ∨ q.2 ∉ (if p.field.reserved then seen else d.name :: seen) := by
        intro q hq
        rcases hseen q (List.mem_cons_of_mem _ hq) with e | e
        · exact .inl e
        · by_cases hpr : p.field.reserved = true
          · rw [if_pos hpr]; exact .inr e
          · rw [if_neg hpr]
            rcases hR.pair q (List.mem_cons_of_mem _ hq) with e' | ⟨_, e2, _⟩
            · exact .inl e'
            · rcases hR.fresh q (List.mem_cons_of_mem _ hq) with e' | e'
              · exact .inl e'
              · right
                rw [List.mem_cons]
                rintro (hc | hc)
                · obtain ⟨a, ha, h'⟩ := parseField_ok.mp hp
                  by_cases hi : isIgnored a = true
                  · rw [hig _ List.mem_cons_self a ha] at hi
                    exact e' (d, n) List.mem_cons_self hi hc
                  · rw [if_neg hi] at h'
                    obtain ⟨_, _, _, _, _, _, _, _, _, _, rfl⟩ := h'
                    rw [hc] at e2
                    exact hpr e2
                · exact e hc
      have hR' : Renaming ig ps :=
        ⟨fun q hq => hR.pair q (List.mem_cons_of_mem _ hq), fun q hq =>
          (hR.fresh q (List.mem_cons_of_mem _ hq)).imp id fun h r hr => h r (List.mem_cons_of_mem _ hr)⟩
      have hig' := fun q (hq : q ∈ ps) => hig q (List.mem_cons_of_mem _ hq)
      by_cases hpi : p.ignored = true
      · rw [if_pos hpi] at h
        obtain ⟨r', h1, h2⟩ := ih hR' hig' _ fs fs' _ (is' ++ [p.renamed n]) hseen' hb r h
        refine ⟨r', bind_ok.mpr ⟨_, hp', ?_⟩, h2⟩
        rw [hs, if_pos (show (p.renamed n).ignored = true from hpi)]
        exact h1
      · rw [if_neg hpi] at h
        obtain ⟨r', h1, h2⟩ := ih hR' hig' _ (fs ++ [p]) (fs' ++ [p.renamed n]) _ is' hseen'
          (by simp only [List.map_append, hb]; rfl) r h
        refine ⟨r', bind_ok.mpr ⟨_, hp', ?_⟩, h2⟩
        rw [hs, if_neg (show ¬ (p.renamed n).ignored = true from hpi)]
        exact h1

/-- Whether a declaration is read as an ignored field. -/
def FieldDecl.ig (d : FieldDecl) : Bool :=
  match getBitsAttribute d with
  | .ok a => isIgnored a
  | .error _ => false

theorem ig_decl {f : FieldSpec} (h : f.Readable) (hi : f.decl.ig = true) : f.ignored = true := by
  simp only [FieldDecl.ig] at hi
  split at hi
  · next a ha =>
    rw [getBitsAttribute_decl constExpr_text h (getBitsAttribute_width ha)] at ha
    cases ha
    rw [← FieldSpec.info_ignored]
    exact hi
  · cases hi

end Bf
