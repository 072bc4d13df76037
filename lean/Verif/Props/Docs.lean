import Verif.Lemmas.Docs
import Verif.Props.Declared
import Verif.Props.Arguments

/-!
# Documentation of the generated functions (C63)
-/

namespace Bf

variable {m : Mode} {cfg : String → Bool} {s : StructSpec} {p : Parsed} {as : List BitfieldArgSpec}

/-- **C63** (every item is documented). Every item of a field has a comment. -/
theorem C63_documented {a : Accessor} {x : String} {v : Vis} (h : (⟨.acc a x, v⟩ : Item) ∈ surface p) :
    ∃ text, ((⟨.acc a x, v⟩ : Item), text) ∈ p.docs := by
  obtain ⟨-, w, hw, hn, happ, -⟩ := mem_surface_acc.mp h
  obtain ⟨f, hf, rfl⟩ := List.mem_map.mp hw
  have hres : f.field.reserved = false := by
    cases hr : f.field.reserved with
    | false => rfl
    | true => exfalso; revert happ; cases a <;> simp [Accessor.applies, PField.view, hr, View.hasSetter, View.hasGetter]
  refine ⟨a.doc p.args.order f.field, ?_⟩
  simp only [Parsed.docs, List.mem_flatMap, List.mem_map, List.mem_filter]
  refine ⟨f, hf, _, ⟨h, ?_⟩, rfl⟩
  have hn : f.field.name = x := hn
  simp [hn, hres]

/-- **C63** (the right bits). Missing from the full property: fields of byte array types, whose bits are called bytes
(`finding_array_docs`). The comment of every function for any other field says what it does and names exactly the bits at
the field's declared position. -/
theorem C63_bits_partial (hr : s.Readable) (ha : s.rest = bitfieldTokens as) (hl : s.Legal)
    (h : parseBitfield m cfg s.attr s.decl = .ok p) {f : FieldSpec} {o : Nat} (hf : s.At (orderValue cfg as) f o)
    (hty : ∀ len, f.ty ≠ .bytes len) {a : Accessor} (hc : a ∉ [.bitsConst, .offsetConst]) {v : Vis} {text : String}
    (ht : ((⟨.acc a f.name, v⟩ : Item), text) ∈ p.docs) :
    ∃ pre post, text = a.verb ++ pre ++ bitsInWords (orderValue cfg as) o f.width ++ post := by
  obtain ⟨-, g, hg, hres, a', hn, rfl⟩ := mem_docs ht
  injection hn with h1 h2
  subst h1
  obtain ⟨_, size, hs, -, hp⟩ := StructSpec.parsed hr (.inr hl.small) h
  have ho := order_of hr ha h
  have hg' : g.field ∈ p.bitfield.fields := List.mem_map_of_mem hg
  obtain ⟨f', o', hat, he⟩ := (ho ▸ fields_iff hl hp hs (g := g.field)).mp hg'
  rw [he] at h2 hres
  obtain ⟨rfl, rfl⟩ := At.unique hl hat hf h2 hres
  rw [he, ho]
  refine doc_words _ _ ?_ _ hc
  intro n hx
  cases hft : f.ty with
  | bytes len => exact hty len hft
  | int t => change f.ty.data = _ at hx; rw [hft] at hx; cases hx
  | custom name c => change f.ty.data = _ at hx; rw [hft] at hx; cases hx

/-- **C63** (the whole text, for the same fields). In particular a checked function says that it returns an error exactly
if the type is not `bool`. -/
theorem C63_text_partial (hr : s.Readable) (ha : s.rest = bitfieldTokens as) (hl : s.Legal)
    (h : parseBitfield m cfg s.attr s.decl = .ok p) {f : FieldSpec} {o : Nat} (hf : s.At (orderValue cfg as) f o)
    (hty : ∀ len, f.ty ≠ .bytes len) {a : Accessor} (hc : a ∉ [.bitsConst, .offsetConst]) {v : Vis} {text : String}
    (ht : ((⟨.acc a f.name, v⟩ : Item), text) ∈ p.docs) :
    text = a.comment (orderValue cfg as) f.ty o f.width := by
  obtain ⟨-, g, hg, hres, a', hn, rfl⟩ := mem_docs ht
  injection hn with h1 h2
  subst h1
  obtain ⟨_, size, hs, -, hp⟩ := StructSpec.parsed hr (.inr hl.small) h
  have ho := order_of hr ha h
  have hg' : g.field ∈ p.bitfield.fields := List.mem_map_of_mem hg
  obtain ⟨f', o', hat, he⟩ := (ho ▸ fields_iff hl hp hs (g := g.field)).mp hg'
  rw [he] at h2 hres
  obtain ⟨rfl, rfl⟩ := At.unique hl hat hf h2 hres
  rw [he, ho]
  refine doc_comment _ _ f.ty rfl hty (fun hb => ?_) _ hc
  have hi : f.ignored = false := hf.1
  have hL := hl.field _ (At.mem hf)
  obtain ⟨w, hw, hpos⟩ := hL.width hi
  have hle : f.width ≤ 1 := by
    cases hft : f.ty with
    | int t => rw [hft] at hb; cases t <;> first | exact hL.holds hi _ hft | cases hb
    | bytes _ => rw [hft] at hb; cases hb
    | custom _ _ => rw [hft] at hb; cases hb
  have e : f.width = w := by simp [FieldSpec.width, hw, hi]
  show f.width = 1
  omega

/-- **C63** (constants). The comments of the constants name the field and say bits, except for byte arrays. -/
theorem C63_constants_partial {a : Accessor} {x : String} {v : Vis} {text : String}
    (ht : ((⟨.acc a x, v⟩ : Item), text) ∈ p.docs) :
    ∃ f ∈ p.fields, f.field.name = x ∧ ((∀ n, f.field.ty ≠ .array n) →
      (a = .bitsConst → text = "The number of bits `" ++ x ++ "` occupies in the bitfield.") ∧
      (a = .offsetConst → text = "The bit offset of `" ++ x ++ "` in the bitfield.")) := by
  obtain ⟨-, g, hg, hres, a', hn, rfl⟩ := mem_docs ht
  injection hn with h1 h2
  subst h1 h2
  refine ⟨g, hg, rfl, fun hna => ?_⟩
  have hu : g.field.units = ("bit", "bits") := by
    unfold Field.units
    split
    · exact absurd ‹_› (hna _)
    · rfl
  have l1 : "The number of bits `" = "The number of " ++ "bits" ++ " `" := by decide
  have l2 : "The bit offset of `" = "The " ++ "bit" ++ " offset of `" := by decide
  constructor <;> rintro rfl
  · simp only [Accessor.doc, hu, l1]
  · simp only [Accessor.doc, hu, l2]

/-! ## Examples and findings -/

/-- The comments for `ExT.T`: `c` is at the bits 11 to 14. -/
example : ((⟨.acc .get "c", .pub⟩ : Item), "Returns bits `11..=14`.") ∈ ExT.p.docs ∧
    ((⟨.acc .checkedSet "b", .priv⟩ : Item),
      "Sets  bits `8..=10`. Returns an error if the value is too big to fit within the field bits.") ∈ ExT.p.docs := by
  decide

example {text : String} (h : ((⟨.acc .get "c", .pub⟩ : Item), text) ∈ ExT.p.docs) :
    ∃ pre post, text = "Returns" ++ pre ++ "bits `11..=14`" ++ post := by
  have hl := ((C03_acceptance_partial (m := .checked) ExT.readable (.inl rfl)).mp ⟨_, ExT.accepted .checked⟩).1
  have hat : ExT.T.At (orderValue (fun _ => false) ExT.as) ⟨"c", .priv, .int .u8, some ⟨some 4, [.access .ro]⟩⟩ 11 :=
    ⟨rfl, [_, _], [_, _], 16, rfl, rfl, by decide⟩
  obtain ⟨pre, post, e⟩ := C63_bits_partial ExT.readable rfl hl (ExT.accepted .checked) hat (fun _ h => by cases h) (by decide) h
  exact ⟨pre, post, e⟩

example {text : String} (h : ((⟨.acc .checkedSet "b", .priv⟩ : Item), text) ∈ ExT.p.docs) :
    text = Accessor.comment .lsb .checkedSet (.int .u8) 8 3 := by
  have hl := ((C03_acceptance_partial (m := .checked) ExT.readable (.inl rfl)).mp ⟨_, ExT.accepted .checked⟩).1
  have hat : ExT.T.At (orderValue (fun _ => false) ExT.as) ⟨"b", .restricted "crate", .int .u8,
      some ⟨some 3, [.access .wo, .default (.int ⟨false, 0, .dec, ['5'], []⟩) (.int 5)]⟩⟩ 8 :=
    ⟨rfl, [_], [_, _, _], 16, rfl, rfl, by decide⟩
  exact C63_text_partial ExT.readable rfl hl (ExT.accepted .checked) hat (fun _ h => by cases h) (by decide) h

namespace Finding

/-- C63: the comments of a byte array field call its bits bytes. (`#[bitfield([u8; 4])] struct S { a: [u8; 4] }`: 4 bytes, of
which the comment says `0..=31`.) -/
theorem finding_array_docs {f : Field} {len : Nat} (h : f.ty = .array len) (hb : f.bits ≠ 1) :
    f.getterDoc .lsb =
      "Returns bytes `" ++ toString f.offset ++ "..=" ++ toString (f.offset + f.bits - 1) ++ "`." ∧
    Accessor.doc .lsb f .bitsConst = "The number of bytes `" ++ f.name ++ "` occupies in the bitfield." := by
  have l1 : "Returns bytes `" = "Returns " ++ "bytes" ++ " `" := by decide
  have l2 : "The number of bytes `" = "The number of " ++ "bytes" ++ " `" := by decide
  simp [Field.getterDoc, Accessor.doc, hb, Field.units, h, DataType.unsigned, Field.docSpan, l1, l2]

example : (⟨"a", .array 4, 32, 0, .rw, false, none⟩ : Field).getterDoc .lsb = "Returns bytes `0..=31`." := by decide

/-- C63: the comment of the getter of a signed field says that the value is extended from its lowest bit. It is
extended from its highest bit (C09, C52). -/
theorem finding_sign_docs {o : Order} {f : Field} {t : IntTy} (h : f.ty = .int t) (ht : t.unsigned = false) (hb : f.bits ≠ 1) :
    ∃ pre, f.getterDoc o = pre ++ ", from the sign-bit `" ++ toString f.offset ++ "." := by
  have l1 : ", from the sign-bit `" = ", from the sign-" ++ "bit" ++ " `" := by decide
  have l2 : "`, from the sign-" = "`" ++ ", from the sign-" := by decide
  simp only [Field.getterDoc, hb, Field.units, h, DataType.unsigned, ht, l1, l2, if_false, Bool.false_eq_true]
  refine ⟨"Returns sign-extended " ++ "bits" ++ " `" ++ toString (f.docSpan o).1 ++ "..=" ++ toString (f.docSpan o).2 ++ "`", ?_⟩
  simp only [String.append_assoc]

example : (⟨"a", .int .i8, 4, 0, .rw, false, none⟩ : Field).getterDoc .lsb =
    "Returns sign-extended bits `0..=3`, from the sign-bit `0." := by decide

end Finding

end Bf
