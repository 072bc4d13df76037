import Verif.Lemmas.Names

/-!
# Identifiers of different items are different: helper lemmas
-/

namespace Bf

def kSet : List Char := ['s', 'e', 't', '_']
def kChecked : List Char := ['c', 'h', 'e', 'c', 'k', 'e', 'd', '_', 's', 'e', 't', '_']
def kClear : List Char := ['c', 'l', 'e', 'a', 'r', '_']
def kInvert : List Char := ['i', 'n', 'v', 'e', 'r', 't', '_']
def kInverted : List Char := ['_', 'i', 'n', 'v', 'e', 'r', 't', 'e', 'd']
def kToDefault : List Char := ['_', 't', 'o', '_', 'd', 'e', 'f', 'a', 'u', 'l', 't']
def kBits : List Char := ['_', 'B', 'I', 'T', 'S']
def kOffset : List Char := ['_', 'O', 'F', 'F', 'S', 'E', 'T']

/-- What an identifier says about the item: the accessor and the part for the field. -/
def readIdent (l : List Char) : Accessor × List Char :=
  if l.any Char.isUpper then
    if kBits.isSuffixOf l then (.bitsConst, l.take (l.length - 5)) else (.offsetConst, l.take (l.length - 7))
  else if kSet.isPrefixOf l ∧ l.drop 4 ≠ kInverted.drop 1 then (.set, l.drop 4)
  else if kChecked.isPrefixOf l ∧ l.drop 12 ≠ kInverted.drop 1 then (.checkedSet, l.drop 12)
  else if kInvert.isPrefixOf l ∧ l.drop 7 ≠ kInverted.drop 1 then (.invert, l.drop 7)
  else if kClear.isPrefixOf l ∧ l.drop 6 ≠ kInverted.drop 1 then
    if kToDefault.isSuffixOf (l.drop 6) then
      (.clearToDefault, (l.drop 6).take ((l.drop 6).length - 11))
    else (.clear, l.drop 6)
  else if kInverted.isSuffixOf l then (.inverted, l.take (l.length - 9))
  else (.get, l)

/-- The name, as characters. -/
structure SafeChars (l : List Char) : Prop where
  lower : l.any Char.isUpper = false
  setter : kSet.isPrefixOf l = false
  checked : kChecked.isPrefixOf l = false
  clear : kClear.isPrefixOf l = false
  invert : kInvert.isPrefixOf l = false
  inverted : kInverted.isSuffixOf l = false
  toDefault : kToDefault.isSuffixOf l = false
  other : l ≠ kInverted.drop 1

theorem SafeName.chars {int : Bool} {x : String} (h : SafeName int x) : SafeChars x.toList where
  lower := by
    rw [List.any_eq_false]
    intro c hc e
    rw [h.lower c hc] at e
    cases e
  setter := h.setter
  checked := h.checked
  clear := h.clear
  invert := h.invert
  inverted := h.inverted
  toDefault := h.toDefault
  other e := h.other (String.ext e)

theorem isSuffixOf_append (a b : List Char) : a.isSuffixOf (b ++ a) = true := by
  rw [List.isSuffixOf_iff_suffix]
  exact List.suffix_append b a

/-- The part of an identifier for the field. -/
def Accessor.part (a : Accessor) (l : List Char) : List Char :=
  match a with
  | .bitsConst | .offsetConst => l.map Char.toUpper
  | _ => l

/-- A word followed by `_inverted` begins with one of the prefixes only if `inverted` is what follows
the prefix. -/
theorem inverted_prefix {q l : List Char} (hq : q.isPrefixOf l = false)
    (hk : ∀ k, k < q.length → (q.drop k).isPrefixOf kInverted = true → k + 1 = q.length)
    (h : q.isPrefixOf (l ++ kInverted) = true) : (l ++ kInverted).drop q.length = kInverted.drop 1 := by
  obtain ⟨t, ht⟩ := List.isPrefixOf_iff_prefix.mp h
  rcases List.append_eq_append_iff.mp ht with ⟨a, h1, h2⟩ | ⟨c, h1, h2⟩
  · exfalso
    have : q.isPrefixOf l = true := List.isPrefixOf_iff_prefix.mpr ⟨a, h1.symm⟩
    rw [this] at hq; cases hq
  · have hlen : q.length = l.length + c.length := by rw [h1, List.length_append]
    by_cases hc : c = []
    · exfalso
      subst hc
      rw [List.append_nil] at h1
      subst h1
      rw [List.isPrefixOf_iff_prefix.mpr (List.prefix_refl _)] at hq
      cases hq
    · have hpos : 0 < c.length := List.length_pos_iff.mpr hc
      have hd : q.drop l.length = c := by rw [h1, List.drop_left]
      have := hk l.length (by omega) (by
        rw [hd, List.isPrefixOf_iff_prefix]
        exact ⟨t, h2.symm⟩)
      rw [List.drop_append, List.drop_eq_nil_of_le (by omega), List.nil_append]
      congr 1
      omega

theorem readIdent_lower {l : List Char} (h : l.any Char.isUpper = false) : readIdent l =
  if kSet.isPrefixOf l ∧ l.drop 4 ≠ kInverted.drop 1 then (.set, l.drop 4)
  else if kChecked.isPrefixOf l ∧ l.drop 12 ≠ kInverted.drop 1 then (.checkedSet, l.drop 12)
  else if kInvert.isPrefixOf l ∧ l.drop 7 ≠ kInverted.drop 1 then (.invert, l.drop 7)
  else if kClear.isPrefixOf l ∧ l.drop 6 ≠ kInverted.drop 1 then
    if kToDefault.isSuffixOf (l.drop 6) then
      (.clearToDefault, (l.drop 6).take ((l.drop 6).length - 11))
    else (.clear, l.drop 6)
  else if kInverted.isSuffixOf l then (.inverted, l.take (l.length - 9))
  else (.get, l) := by
  rw [readIdent, h]; rfl

theorem suffix_false {q l r : List Char} (hl : q.length ≤ r.length) 
    (h : q.isSuffixOf r = false) : q.isSuffixOf (l ++ r) = false := by
  rw [Bool.eq_false_iff] at h ⊢
  intro e
  apply h
  rw [List.isSuffixOf_iff_suffix] at e ⊢
  exact List.suffix_of_suffix_length_le e (List.suffix_append l r) hl

theorem readIdent_ident {x : String} (h : SafeChars x.toList) (a : Accessor) (ha : a.ofBuilder = false) :
    readIdent (a.ident x).toList = (a, a.part x.toList) := by
  generalize hl : x.toList = l at h
  cases a <;> simp only [Accessor.ident, String.toList_append, String.toList_map, hl, Accessor.part]
  case bitsConst =>
    have e : (List.map Char.toUpper l ++ "_BITS".toList).any Char.isUpper = true := by
      rw [List.any_append]
      exact Bool.or_eq_true_iff.mpr (.inr (by decide))
    rw [readIdent, e, if_pos rfl, if_pos]
    · simp
    · exact isSuffixOf_append kBits _
  case offsetConst =>
    have e : (List.map Char.toUpper l ++ "_OFFSET".toList).any Char.isUpper = true := by
      rw [List.any_append]
      exact Bool.or_eq_true_iff.mpr (.inr (by decide))
    rw [readIdent, e, if_pos rfl, if_neg]
    · simp
    · rw [suffix_false (by decide) (by decide)]
      decide
  case get =>
    rw [readIdent_lower h.lower, h.setter, h.checked, h.invert, h.clear, h.inverted]
    rfl
  case set =>
    have e : ("set_".toList ++ l).any Char.isUpper = false := by
      rw [List.any_append, h.lower]; rfl
    rw [readIdent_lower e, if_pos]
    · rfl
    · exact ⟨rfl, h.other⟩
  case checkedSet =>
    have e : ("checked_set_".toList ++ l).any Char.isUpper = false := by
      rw [List.any_append, h.lower]; rfl
    rw [readIdent_lower e, if_neg, if_pos]
    · rfl
    · exact ⟨rfl, h.other⟩
    · rintro ⟨h1, -⟩; exact absurd h1 (by simp [kSet, List.isPrefixOf])
  case invert =>
    have e : ("invert_".toList ++ l).any Char.isUpper = false := by
      rw [List.any_append, h.lower]; rfl
    rw [readIdent_lower e, if_neg, if_neg, if_pos]
    · rfl
    · exact ⟨rfl, h.other⟩
    · rintro ⟨h1, -⟩; exact absurd h1 (by simp [kChecked, List.isPrefixOf])
    · rintro ⟨h1, -⟩; exact absurd h1 (by simp [kSet, List.isPrefixOf])
  case clear =>
    have e : ("clear_".toList ++ l).any Char.isUpper = false := by
      rw [List.any_append, h.lower]; rfl
    rw [readIdent_lower e, if_neg, if_neg, if_neg, if_pos, if_neg]
    · rfl
    · intro h1
      have h1 : kToDefault.isSuffixOf l = true := h1
      rw [h.toDefault] at h1
      cases h1
    · exact ⟨rfl, h.other⟩
    · rintro ⟨h1, -⟩; exact absurd h1 (by simp [kInvert, List.isPrefixOf])
    · rintro ⟨h1, -⟩; exact absurd h1 (by simp [kChecked, List.isPrefixOf])
    · rintro ⟨h1, -⟩; exact absurd h1 (by simp [kSet, List.isPrefixOf])
  case clearToDefault =>
    have e : ("clear_".toList ++ l ++ "_to_default".toList).any Char.isUpper = false := by
      rw [List.any_append, List.any_append, h.lower]; rfl
    have d : ("clear_".toList ++ l ++ "_to_default".toList).drop 6 = l ++ kToDefault := rfl
    rw [readIdent_lower e, if_neg, if_neg, if_neg, if_pos, if_pos, d]
    · simp [kToDefault]
    · rw [d]; exact isSuffixOf_append _ _
    · refine ⟨rfl, ?_⟩
      rw [d]
      intro h1
      have := congrArg List.length h1
      simp [kToDefault, kInverted] at this
    · rintro ⟨h1, -⟩; exact absurd h1 (by simp [kInvert, List.isPrefixOf])
    · rintro ⟨h1, -⟩; exact absurd h1 (by simp [kChecked, List.isPrefixOf])
    · rintro ⟨h1, -⟩; exact absurd h1 (by simp [kSet, List.isPrefixOf])
  case inverted =>
    have e : (l ++ "_inverted".toList).any Char.isUpper = false := by
      rw [List.any_append, h.lower]; rfl
    rw [readIdent_lower e, if_neg, if_neg, if_neg, if_neg, if_pos]
    · simp
    · exact isSuffixOf_append kInverted _
    · rintro ⟨h1, h2⟩; exact h2 (inverted_prefix h.clear (by decide) h1)
    · rintro ⟨h1, h2⟩; exact h2 (inverted_prefix h.invert (by decide) h1)
    · rintro ⟨h1, h2⟩; exact h2 (inverted_prefix h.checked (by decide) h1)
    · rintro ⟨h1, h2⟩; exact h2 (inverted_prefix h.setter (by decide) h1)
  case builderWith => cases ha
  case builderCheckedWith => cases ha

theorem toUpper_inj {c d : Char} (hc : c.isUpper = false) (hd : d.isUpper = false)
    (h : c.toUpper = d.toUpper) : c = d := by
  have key : ∀ c : Char, c.isUpper = false →
      (c.toUpper = c ∨ c.toUpper.isUpper = true ∧ c.toUpper.val + 32 = c.val) := by
    intro c hc
    simp only [Char.toUpper]
    split
    · next hl =>
      right
      have a1 : 97 ≤ c.val.toNat := hl.1
      have a2 : c.val.toNat ≤ 122 := hl.2
      have a3 : (c.val + ('A'.val - 'a'.val)).toNat = c.val.toNat - 32 := by
        rw [UInt32.toNat_add]
        show (c.val.toNat + 4294967264) % 4294967296 = _
        omega
      constructor
      · simp only [Char.isUpper, decide_eq_true_eq, ge_iff_le, UInt32.le_iff_toNat_le, a3]
        show 65 ≤ _ ∧ _ ≤ 90
        omega
      · apply UInt32.toNat_inj.mp
        rw [UInt32.toNat_add, a3]
        show (_ + 32) % 4294967296 = _
        omega
    · exact .inl rfl
  rcases key c hc with h1 | ⟨h1, h2⟩ <;> rcases key d hd with h3 | ⟨h3, h4⟩
  · rw [h1, h3] at h; exact h
  · rw [← h, h1, hc] at h3; cases h3
  · rw [h, h3, hd] at h1; cases h1
  · rw [h, h4] at h2
    exact Char.ext h2.symm

theorem map_toUpper_inj : ∀ {l r : List Char}, l.any Char.isUpper = false → r.any Char.isUpper = false →
    l.map Char.toUpper = r.map Char.toUpper → l = r
  | [], [], _, _, _ => rfl
  | [], _ :: _, _, _, h => by simp at h
  | _ :: _, [], _, _, h => by simp at h
  | c :: l, d :: r, h1, h2, h => by
    simp only [List.any_cons, Bool.or_eq_false_iff] at h1 h2
    simp only [List.map_cons, List.cons.injEq] at h
    rw [toUpper_inj h1.1 h2.1 h.1, map_toUpper_inj h1.2 h2.2 h.2]

/-- Different items of fields with safe names have different identifiers. -/
theorem ident_inj {x y : String} (hx : SafeChars x.toList) (hy : SafeChars y.toList) {a b : Accessor}
    (ha : a.ofBuilder = false) (hb : b.ofBuilder = false) (h : a.ident x = b.ident y) :
    a = b ∧ x = y := by
  have e := readIdent_ident hx a ha
  rw [h, readIdent_ident hy b hb] at e
  injection e with e1 e2
  subst e1
  refine ⟨rfl, String.ext ?_⟩
  cases b <;> simp only [Accessor.part] at e2 <;>
    first | exact e2.symm | exact (map_toUpper_inj hy.lower hx.lower e2).symm

end Bf
