import Verif.Model.Docs
import Verif.SpecDocs
import Verif.Lemmas.Run

/-!
# The texts of the documentation
-/

namespace Bf

variable {m : Mode} {cfg : String → Bool} {s : StructSpec} {p : Parsed} {as : List BitfieldArgSpec}

theorem order_of (hr : s.Readable) (ha : s.rest = bitfieldTokens as) (h : parseBitfield m cfg s.attr s.decl = .ok p) :
    p.args.order = orderValue cfg as := by
  have key : ∀ l b, resolveOrder l b = if b && !l then .msb else .lsb := by decide
  obtain ⟨r, h1, h2⟩ := parseBitfieldArgs_tokens cfg as
  have e := (StructSpec.kept hr h).args
  rw [ha, h1] at e
  have := h2.order
  rw [Except.ok.inj e] at this
  simp only [defaultArgs, key] at this
  rw [this]; rfl

theorem doc_words (o : Order) (f : Field) (hf : ∀ n, f.ty ≠ .array n) (a : Accessor)
    (ha : a ∉ [.bitsConst, .offsetConst]) :
    ∃ pre post, a.doc o f = a.verb ++ pre ++ bitsInWords o f.offset f.bits ++ post := by
  have hu : f.units = ("bit", "bits") := by
    unfold Field.units
    split
    · exact absurd ‹_› (hf _)
    · rfl
  have l1 : "Sets " = "Sets" ++ " " := by decide
  have l2 : "bit `" = "bit" ++ " `" := by decide
  have l3 : "bits `" = "bits" ++ " `" := by decide
  have l4 : "Returns " = "Returns" ++ " " := by decide
  have l5 : "Returns sign-extended " = "Returns" ++ " sign-extended " := by decide
  have l6 : "`." = "`" ++ "." := by decide
  have l7 : "`, from the sign-" = "`" ++ ", from the sign-" := by decide
  have set : ∀ checked builder, ∃ pre post, f.setterDoc o checked builder =
      "Sets" ++ pre ++ bitsInWords o f.offset f.bits ++ post := by
    intro checked builder
    refine ⟨" " ++ (if builder then "builder" else "") ++ " ", ?_⟩
    unfold Field.setterDoc bitsInWords
    by_cases hb : f.bits = 1
    · simp only [hb, hu, l1, l2, if_true, String.append_assoc]
      exact ⟨_, rfl⟩
    · cases o <;> simp only [hb, hu, l1, l3, if_false, Field.docSpan, String.append_assoc, reduceCtorEq, if_true]
      all_goals exact ⟨_, rfl⟩
  have change : ∀ verb, ∃ pre post, f.changeDoc verb o = verb ++ pre ++ bitsInWords o f.offset f.bits ++ post := by
    intro verb
    refine ⟨" ", ?_⟩
    unfold Field.changeDoc bitsInWords
    by_cases hb : f.bits = 1
    · simp only [hb, hu, l2, l6, if_true, String.append_assoc]
      exact ⟨_, rfl⟩
    · cases o <;> simp only [hb, hu, l3, l6, if_false, Field.docSpan, String.append_assoc, reduceCtorEq, if_true]
      all_goals exact ⟨_, rfl⟩
  have get : ∃ pre post, f.getterDoc o = "Returns" ++ pre ++ bitsInWords o f.offset f.bits ++ post := by
    refine ⟨if f.ty.unsigned then " " else " sign-extended ", ?_⟩
    unfold Field.getterDoc bitsInWords
    by_cases hb : f.bits = 1 <;> cases hs : f.ty.unsigned
    · simp only [hb, hu, l2, l5, l6, if_true, Bool.false_eq_true, if_false, String.append_assoc]
      exact ⟨_, rfl⟩
    · simp only [hb, hu, l2, l4, l6, if_true, String.append_assoc]
      exact ⟨_, rfl⟩
    · cases o <;> simp only [hb, hu, l3, l5, l7, if_false, Field.docSpan, String.append_assoc, reduceCtorEq, if_true,
        Bool.false_eq_true]
      all_goals exact ⟨_, rfl⟩
    · cases o <;> simp only [hb, hu, l3, l4, l6, if_false, Field.docSpan, String.append_assoc, reduceCtorEq, if_true]
      all_goals exact ⟨_, rfl⟩
  cases a with
  | get => exact get
  | set => exact set _ _
  | checkedSet => exact set _ _
  | clear => exact change _
  | clearToDefault => exact change _
  | invert => exact change _
  | inverted => exact change _
  | builderWith => exact set _ _
  | builderCheckedWith => exact set _ _
  | bitsConst => simp at ha
  | offsetConst => simp at ha

/-- The texts are those of the specification. -/
theorem doc_comment (o : Order) (f : Field) (t : TypeSpec) (ht : f.ty = t.data) (hf : ∀ n, t ≠ .bytes n)
    (hb : t.isBool = true → f.bits = 1) (a : Accessor) (ha : a ∉ [.bitsConst, .offsetConst]) :
    a.doc o f = a.comment o t f.offset f.bits := by
  have hu : f.units = ("bit", "bits") := by
    unfold Field.units
    split
    · rename_i n h
      rw [ht] at h
      cases t with
      | bytes n => exact absurd rfl (hf n)
      | _ => cases h
    · rfl
  have hs : f.ty.unsigned = !t.signed := by
    rw [ht]
    cases t with
    | bytes n => exact absurd rfl (hf n)
    | int t => cases t <;> rfl
    | custom _ _ => rfl
  have hbool : f.ty.isBool = t.isBool := by
    rw [ht]
    cases t with
    | bytes n => exact absurd rfl (hf n)
    | int t => cases t <;> rfl
    | custom _ _ => rfl
  have l2 : "bit `" = "bit" ++ " `" := by decide
  have l3 : "bits `" = "bits" ++ " `" := by decide
  have l6 : "`." = "`" ++ "." := by decide
  have l7 : "`, from the sign-" = "`" ++ ", from the sign-" := by decide
  have l8 : ", from the sign-bit `" = ", from the sign-" ++ "bit" ++ " `" := by decide
  have l9 : "Sets  " = "Sets " ++ "" ++ " " := by decide
  have l10 : "Sets builder " = "Sets " ++ "builder" ++ " " := by decide
  have l11 : "bit." = "bit" ++ "." := by decide
  have l12 : "bits." = "bits" ++ "." := by decide
  have l13 : "Clears " = "Clears" ++ " " := by decide
  have l14 : "Inverts " = "Inverts" ++ " " := by decide
  have nil : ∀ s : String, "" ++ s = s := fun s => by simp
  have words1 : f.bits = 1 → bitsInWords o f.offset f.bits = "bit" ++ (" `" ++ (toString f.offset ++ "`")) := by
    intro h
    unfold bitsInWords
    rw [if_pos h, l2]
    simp only [String.append_assoc]
  have words2 : f.bits ≠ 1 → bitsInWords o f.offset f.bits =
      "bits" ++ (" `" ++ (toString (f.docSpan o).1 ++ ("..=" ++ (toString (f.docSpan o).2 ++ "`")))) := by
    intro h
    unfold bitsInWords
    rw [if_neg h, l3]
    cases o <;> simp only [String.append_assoc, Field.docSpan, reduceCtorEq, if_true, if_false]
  cases a with
  | bitsConst => simp at ha
  | offsetConst => simp at ha
  | get =>
    unfold Accessor.doc Accessor.comment Field.getterDoc
    rw [hs, hu]
    by_cases h1 : f.bits = 1
    · rw [words1 h1]
      cases t.signed <;> simp only [h1, if_true, if_false, Bool.not_true, Bool.not_false, Bool.false_eq_true, l6,
        String.append_assoc]
    · rw [words2 h1]
      cases t.signed <;> simp only [h1, if_true, if_false, Bool.not_true, Bool.not_false, Bool.false_eq_true, l6, l7, l8,
        String.append_assoc]
  | set | builderWith =>
    unfold Accessor.doc Accessor.comment Field.setterDoc
    rw [hu]
    by_cases h1 : f.bits = 1
    · rw [words1 h1]
      simp only [h1, if_true, if_false, Bool.false_eq_true, Bool.false_and, l9, l10, nil, String.append_assoc]
    · rw [words2 h1]
      simp only [h1, if_true, if_false, Bool.false_eq_true, l9, l10, nil, String.append_assoc]
  | checkedSet | builderCheckedWith =>
    unfold Accessor.doc Accessor.comment Field.setterDoc
    rw [hu, hbool]
    by_cases h1 : f.bits = 1
    · rw [words1 h1]
      cases t.isBool <;> simp only [h1, if_true, if_false, Bool.false_eq_true, Bool.not_false, Bool.not_true,
        Bool.and_true, Bool.and_false, l9, l10, l11, nil, String.append_assoc]
    · rw [words2 h1]
      cases h2 : t.isBool with
      | true => exact absurd (hb h2) h1
      | false => simp only [h1, if_true, if_false, Bool.false_eq_true, l9, l10, l12, nil, String.append_assoc]
  | clear | clearToDefault | invert | inverted =>
    unfold Accessor.doc Accessor.comment Field.changeDoc
    rw [hu]
    by_cases h1 : f.bits = 1
    · rw [words1 h1]
      simp only [h1, if_true, l6, l13, l14, String.append_assoc]
    · rw [words2 h1]
      simp only [h1, if_false, l6, l13, l14, String.append_assoc]

theorem mem_docs {i : Item} {text : String} (h : (i, text) ∈ p.docs) :
    i ∈ surface p ∧ ∃ f ∈ p.fields, f.field.reserved = false ∧ ∃ a, i.tag = .acc a f.field.name ∧
      text = a.doc p.args.order f.field := by
  simp only [Parsed.docs, List.mem_flatMap, List.mem_map, List.mem_filter] at h
  obtain ⟨f, hf, j, ⟨hj, hx⟩, he⟩ := h
  cases he
  cases ht : i.tag with
  | acc a x =>
    simp only [ht, Bool.and_eq_true, Bool.not_eq_true', decide_eq_true_eq] at hx ⊢
    obtain ⟨rfl, hres⟩ := hx
    exact ⟨hj, f, hf, hres, a, rfl, rfl⟩
  | _ => simp [ht] at hx

end Bf
