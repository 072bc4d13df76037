import Verif.SpecExpand
import Verif.Lemmas.Report

/-!
# Sections of the output
-/

namespace Bf

variable {m : Mode} {cfg : String → Bool} {attr : AttrInput} {s : StructSource} {p : Parsed}

theorem sorted_perm : (sortByPriority Feature.all).Perm Feature.all := by decide

theorem partition_perm (fs : List Feature) :
    ((fs.filter fun f => decide (f.position = .above)) ++ (fs.filter fun f => decide (f.position = .inside)) ++
      (fs.filter fun f => decide (f.position = .below))).Perm fs := by
  induction fs with
  | nil => exact .refl _
  | cons f fs ih =>
    cases h : f.position <;> simp only [List.filter_cons, h, decide_true, decide_false, if_true, reduceCtorEq, Bool.false_eq_true,
      if_false]
    · exact ih.cons f
    · rw [List.append_assoc, List.cons_append]
      refine List.perm_middle.trans ?_
      rw [← List.append_assoc]
      exact ih.cons f
    · exact List.perm_middle.trans (ih.cons f)

theorem item_position {F : Feature} {i : Item} (h : i ∈ F.items p) :
    (F.position = .above ↔ i.tag = .bitfield) ∧ (F.position = .inside ↔ i.tag.OfImpl) := by
  cases F <;> simp only [Feature.items, Parsed.fns, List.mem_flatMap, List.mem_map, List.mem_filter, List.mem_append,
        List.mem_cons, List.not_mem_nil, or_false] at h
  all_goals grind [Feature.position, Tag.OfImpl]

theorem mem_section {pos : Position} {i : Item} :
    i ∈ section_ p pos ↔ ∃ F : Feature, F.enabled p.args = true ∧ F.position = pos ∧ i ∈ F.items p := by
  simp only [section_, enabledFeatures, List.mem_flatMap, List.mem_filter, decide_eq_true_eq]
  constructor
  · rintro ⟨F, ⟨⟨-, h1⟩, h2⟩, h3⟩; exact ⟨F, h1, h2, h3⟩
  · rintro ⟨F, h1, h2, h3⟩; exact ⟨F, ⟨⟨sorted_perm.mem_iff.mpr (by cases F <;> decide), h1⟩, h2⟩, h3⟩

theorem bitfieldMacro_eq : bitfieldMacro m cfg attr s =
    match parseBitfield m cfg attr s.decl with
    | .ok p => if p.args.forcePanic = true then .compileError none
        else if p.idents.all canFormatIdent = true then .code (expansion s p) else .compileError none
    | .error (.error msg) => .compileError (some msg)
    | .error (.panic _) => .compileError none := by
  unfold bitfieldMacro
  cases h : parseBitfield m cfg attr s.decl with
  | ok p =>
    rw [ok_bind]
    by_cases h1 : p.args.forcePanic = true
    · simp only [h1, if_true]; rfl
    · by_cases h2 : p.idents.all canFormatIdent = true
      · simp only [h1, h2, if_true]; rfl
      · simp only [h1, h2]; rfl
  | error e => cases e <;> rfl

theorem pairwise_ne {fs : List FieldSpec} (h : fs.Pairwise fun f g => f.reserved = false → f.name ≠ g.name) {x y : FieldSpec}
    (hx : x ∈ fs) (hy : y ∈ fs) (hxy : x ≠ y) (h1 : x.reserved = false) (h2 : y.reserved = false) : x.name ≠ y.name := by
  induction fs with
  | nil => cases hx
  | cons f fs ih =>
    rw [List.pairwise_cons] at h
    rcases List.mem_cons.mp hx with rfl | hx' <;> rcases List.mem_cons.mp hy with rfl | hy'
    · exact absurd rfl hxy
    · exact h.1 y hy' h1
    · exact (h.1 x hx' h2).symm
    · exact ih h.2 hx' hy'

end Bf
