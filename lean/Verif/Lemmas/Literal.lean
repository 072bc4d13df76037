import Verif.SpecDecl

/-!
# Lemmas about reading literals
-/

namespace Bf

/-! ## Characters -/

theorem digits_lower {r : Radix} {c : Char} (h : c ∈ r.digits) :
    digitOf r.base c.toLower = some (digitValue c) := by
  have key : ∀ r ∈ [Radix.dec, .hex, .bin, .oct], ∀ c ∈ r.digits,
      digitOf r.base c.toLower = some (digitValue c) := by decide
  exact key r (by cases r <;> decide) c h

/-- Characters that occur in (lower-cased) digits. -/
def plain : List Char :=
  ['0', '1', '2', '3', '4', '5', '6', '7', '8', '9', 'a', 'b', 'c', 'd', 'e', 'f']

theorem digits_plain {r : Radix} {c : Char} (h : c ∈ r.digits) : c.toLower ∈ plain := by
  have key : ∀ r ∈ [Radix.dec, .hex, .bin, .oct], ∀ c ∈ r.digits, c.toLower ∈ plain := by decide
  exact key r (by cases r <;> decide) c h

theorem digits_ne {r : Radix} {c : Char} (h : c ∈ r.digits) :
    c ≠ ' ' ∧ c ≠ '_' ∧ c.isWhitespace = false := by
  have key : ∀ r ∈ [Radix.dec, .hex, .bin, .oct], ∀ c ∈ r.digits,
      c ≠ ' ' ∧ c ≠ '_' ∧ c.isWhitespace = false := by decide
  exact key r (by cases r <;> decide) c h

/-! ## Trimming -/

theorem dropWhile_of_head {p : Char → Bool} {s : List Char}
    (h : ∀ c, s.head? = some c → p c = false) : s.dropWhile p = s := by
  cases s with
  | nil => rfl
  | cons c s =>
    have := h c rfl
    simp [List.dropWhile, this]

theorem trim_of_ends {s : List Char} (h1 : ∀ c, s.head? = some c → c.isWhitespace = false)
    (h2 : ∀ c, s.getLast? = some c → c.isWhitespace = false) : trim s = s := by
  simp only [trim]
  rw [dropWhile_of_head h1, dropWhile_of_head, List.reverse_reverse]
  intro c hc
  rw [List.head?_reverse] at hc
  exact h2 c hc

/-! ## Digits -/

theorem digitsLoop_eq {r : Radix} (ds : List Char) :
    ∀ acc, (∀ c ∈ ds, c ∈ r.digits) →
      ds.foldl (fun acc c => r.base * acc + digitValue c) acc < 2 ^ 128 →
      digitsLoop r.base acc (ds.map Char.toLower) =
        some (ds.foldl (fun acc c => r.base * acc + digitValue c) acc) := by
  have hb : 1 ≤ r.base := by cases r <;> decide
  have mono : ∀ (ds : List Char) acc,
      acc ≤ ds.foldl (fun acc c => r.base * acc + digitValue c) acc := by
    intro ds
    induction ds with
    | nil => intro acc; exact Nat.le_refl _
    | cons c ds ih =>
      intro acc
      rw [List.foldl_cons]
      refine Nat.le_trans ?_ (ih _)
      have : 1 * acc ≤ r.base * acc := Nat.mul_le_mul_right acc hb
      omega
  induction ds with
  | nil => intro acc _ _; rfl
  | cons c ds ih =>
    intro acc hd hlt
    rw [List.map_cons]
    simp only [digitsLoop]
    rw [digits_lower (hd c (by simp))]
    rw [List.foldl_cons] at hlt ⊢
    have hm := mono ds (r.base * acc + digitValue c)
    have e : acc * r.base + digitValue c = r.base * acc + digitValue c := by
      rw [Nat.mul_comm]
    simp only [e]
    rw [if_pos (by omega)]
    exact ih _ (fun c' hc' => hd c' (by simp [hc'])) hlt

/-! ## Suffixes -/

theorem isSuffixOf_append_left {α : Type} [DecidableEq α] {id a b : List α}
    (h : id.length ≤ b.length) : id.isSuffixOf (a ++ b) = id.isSuffixOf b := by
  rw [Bool.eq_iff_iff, List.isSuffixOf_iff_suffix, List.isSuffixOf_iff_suffix]
  constructor
  · intro hs
    exact List.suffix_of_suffix_length_le hs (List.suffix_append a b) h
  · intro hs
    exact hs.trans (List.suffix_append a b)

theorem last_of_suffix {α : Type} {id s : List α} {x : α} (h : id <:+ s)
    (hx : id.getLast? = some x) : s.getLast? = some x := by
  obtain ⟨t, rfl⟩ := h
  rw [List.getLast?_append, hx]
  rfl

theorem mem_of_suffix {α : Type} {id s : List α} {x : α} (h : id <:+ s) (hx : x ∈ id) : x ∈ s :=
  h.subset hx

/-- A text without the letters `u` and `i` does not end in an integer type. -/
theorem stripSuffix_none {s : List Char} (hu : 'u' ∉ s) (hi : 'i' ∉ s) : stripSuffix s = s := by
  have hnone : integerIdentifiers.find? (fun id => id.isSuffixOf s) = none := by
    rw [List.find?_eq_none]
    intro id hid hs
    rw [List.isSuffixOf_iff_suffix] at hs
    have key : ∀ id ∈ integerIdentifiers, 'u' ∈ id ∨ 'i' ∈ id := by decide
    rcases key id hid with h | h
    · exact hu (mem_of_suffix hs h)
    · exact hi (mem_of_suffix hs h)
  simp only [stripSuffix, hnone]

theorem suffix_length {id s a : List Char} (hs : id.isSuffixOf (a ++ s) = true)
    (h : id.length ≤ s.length) : id.isSuffixOf s = true := by
  rwa [isSuffixOf_append_left h] at hs

/-- A text that ends in an integer type loses it. -/
theorem stripSuffix_some {a id : List Char} (hid : id ∈ literalSuffixes) :
    stripSuffix (a ++ id) = a := by
  have hfind : integerIdentifiers.find? (fun x => x.isSuffixOf (a ++ id)) = some id := by
    have hself : id.isSuffixOf (a ++ id) = true := by
      rw [List.isSuffixOf_iff_suffix]; exact List.suffix_append a id
    have hsome : (integerIdentifiers.find? (fun x => x.isSuffixOf (a ++ id))).isSome = true := by
      rw [List.find?_isSome]
      exact ⟨id, hid, hself⟩
    obtain ⟨x, hx⟩ := Option.isSome_iff_exists.mp hsome
    rw [hx]
    have hxm : x ∈ integerIdentifiers := List.mem_of_find?_eq_some hx
    have hxs : x.isSuffixOf (a ++ id) = true := by
      have := List.find?_some hx
      simpa using this
    by_cases hl : x.length ≤ id.length
    · rw [isSuffixOf_append_left hl] at hxs
      have key : ∀ id ∈ literalSuffixes, ∀ x ∈ integerIdentifiers, x.isSuffixOf id = true →
          x = id := by decide
      rw [key id hid x hxm hxs]
    · exfalso
      rw [List.isSuffixOf_iff_suffix] at hxs
      have hsub : id <:+ x :=
        List.suffix_of_suffix_length_le (List.suffix_append a id) hxs (by omega)
      have key : ∀ id ∈ literalSuffixes, ∀ x ∈ integerIdentifiers, id.isSuffixOf x = true →
          x = id := by decide
      rw [key id hid x hxm (List.isSuffixOf_iff_suffix.mpr hsub)] at hl
      exact hl (Nat.le_refl _)
  simp only [stripSuffix, hfind]
  simp

/-- A text that ends in an integer type does not end in `f32` or `f64`. -/
theorem not_float_suffix {a id : List Char} (hid : id ∈ literalSuffixes) :
    floatIdentifiers.any (fun x => x.isSuffixOf (a ++ id)) = false := by
  rw [List.any_eq_false]
  intro x hx hs
  have hs' : x.isSuffixOf (a ++ id) = true := by simpa using hs
  have hlen : ∀ x ∈ floatIdentifiers, x.length = 3 := by decide
  by_cases hl : 3 ≤ id.length
  · rw [isSuffixOf_append_left (by rw [hlen x hx]; exact hl)] at hs'
    have key : ∀ id ∈ literalSuffixes, ∀ x ∈ floatIdentifiers, x.isSuffixOf id = true → False := by
      decide
    exact key id hid x hx hs'
  · have key : ∀ id ∈ literalSuffixes, ¬ 3 ≤ id.length → id.getLast? = some '8' := by decide
    have h8 : (a ++ id).getLast? = some '8' := by
      rw [List.getLast?_append, key id hid hl]
      rfl
    rw [List.isSuffixOf_iff_suffix] at hs'
    have key2 : ∀ x ∈ floatIdentifiers, x.getLast? = some '2' ∨ x.getLast? = some '4' := by decide
    rcases key2 x hx with h | h
    · rw [last_of_suffix hs' h] at h8
      exact absurd h8 (by decide)
    · rw [last_of_suffix hs' h] at h8
      exact absurd h8 (by decide)

/-! ## The normalised text of a literal -/

/-- The sign. -/
def IntLit.sign (l : IntLit) : List Char := if l.neg then ['-'] else []

theorem IntLit.Valid.filtered {l : IntLit} (h : l.Valid) :
    ∀ c ∈ l.body.filter (fun c => c != '_'), c ∈ l.radix.digits := by
  intro c hc
  rw [List.mem_filter] at hc
  rcases h.body c hc.1 with rfl | h
  · simp at hc
  · exact h

theorem IntLit.Valid.lower_plain {l : IntLit} (h : l.Valid) : ∀ c ∈ l.lower, c ∈ plain := by
  intro c hc
  rw [IntLit.lower, List.mem_map] at hc
  obtain ⟨d, hd, rfl⟩ := hc
  exact digits_plain (h.filtered d hd)

theorem IntLit.Valid.lower_ne {l : IntLit} (h : l.Valid) : l.lower ≠ [] := by
  obtain ⟨c, hc, hd⟩ := h.digit
  intro e
  simp only [IntLit.lower, List.map_eq_nil_iff] at e
  have : c ∈ l.body.filter (fun c => c != '_') := by
    rw [List.mem_filter]
    exact ⟨hc, by simpa using (digits_ne hd).2.1⟩
  rw [e] at this
  cases this

theorem suffix_chars {s : List Char} (h : s = [] ∨ s ∈ literalSuffixes) :
    ∀ c ∈ s, c ≠ ' ' ∧ c ≠ '_' ∧ c ≠ '.' ∧ c.isWhitespace = false ∧ c.toLower = c := by
  rcases h with rfl | h
  · intro c hc; cases hc
  · have key : ∀ s ∈ literalSuffixes, ∀ c ∈ s,
        c ≠ ' ' ∧ c ≠ '_' ∧ c ≠ '.' ∧ c.isWhitespace = false ∧ c.toLower = c := by decide
    exact key s h

theorem pfx_chars (r : Radix) :
    ∀ c ∈ r.pfx, c ≠ ' ' ∧ c ≠ '_' ∧ c ≠ '.' ∧ c.isWhitespace = false ∧ c.toLower = c := by
  cases r <;> decide

theorem text_not_space {l : IntLit} (h : l.Valid) :
    ∀ c ∈ l.radix.pfx ++ l.body ++ l.suffix, c.isWhitespace = false := by
  intro c hc
  simp only [List.mem_append] at hc
  rcases hc with (hc | hc) | hc
  · exact (pfx_chars _ c hc).2.2.2.1
  · rcases h.body c hc with rfl | h
    · decide
    · exact (digits_ne h).2.2
  · exact (suffix_chars h.suffix c hc).2.2.2.1

theorem filter_keep {s : List Char} (h : ∀ c ∈ s, c ≠ ' ' ∧ c ≠ '_') :
    s.filter (fun c => !(c == ' ' || c == '_')) = s := by
  rw [List.filter_eq_self]
  intro c hc
  simp [h c hc]

theorem map_keep {s : List Char} (h : ∀ c ∈ s, c.toLower = c) : s.map Char.toLower = s := by
  induction s with
  | nil => rfl
  | cons c s ih =>
    rw [List.map_cons, h c (by simp), ih fun d hd => h d (by simp [hd])]

theorem normalize_text {l : IntLit} (h : l.Valid) :
    normalize l.text = l.sign ++ (l.radix.pfx ++ l.lower) ++ l.suffix := by
  have hns := text_not_space h
  have hbody : l.body ≠ [] := by
    obtain ⟨c, hc, _⟩ := h.digit
    intro e
    rw [e] at hc
    cases hc
  have hne : l.radix.pfx ++ l.body ++ l.suffix ≠ [] := by simp [hbody]
  have htext : l.text = (if l.neg then '-' :: List.replicate l.spaces ' ' else []) ++
      (l.radix.pfx ++ l.body ++ l.suffix) := by
    simp [IntLit.text]
  have htrim : trim l.text = l.text := by
    refine trim_of_ends ?_ ?_
    · intro c hc
      rw [htext] at hc
      cases hn : l.neg with
      | true =>
        rw [hn] at hc
        simp only [if_true, List.cons_append, List.head?_cons, Option.some.injEq] at hc
        subst hc
        decide
      | false =>
        rw [hn] at hc
        simp only [Bool.false_eq_true, if_false, List.nil_append] at hc
        exact hns c (List.mem_of_head? hc)
    · intro c hc
      rw [htext, List.getLast?_append] at hc
      obtain ⟨x, hx⟩ : ∃ x, (l.radix.pfx ++ l.body ++ l.suffix).getLast? = some x :=
        ⟨_, List.getLast?_eq_some_getLast hne⟩
      rw [hx] at hc
      simp only [Option.some_or, Option.some.injEq] at hc
      subst hc
      exact hns _ (List.mem_of_getLast? hx)
  simp only [normalize, htrim]
  rw [htext]
  have hfb : l.body.filter (fun c => !(c == ' ' || c == '_')) = l.body.filter (fun c => c != '_') := by
    refine List.filter_congr ?_
    intro c hc
    rcases h.body c hc with rfl | hd
    · rfl
    · have := digits_ne hd
      have e1 : (c == ' ') = false := by simpa using this.1
      have e2 : (c == '_') = false := by simpa using this.2.1
      simp only [e1, e2, bne]
      rfl
  rw [List.filter_append, List.filter_append, List.filter_append, hfb,
    filter_keep fun c hc => ⟨(pfx_chars l.radix c hc).1, (pfx_chars l.radix c hc).2.1⟩,
    filter_keep fun c hc => ⟨(suffix_chars h.suffix c hc).1, (suffix_chars h.suffix c hc).2.1⟩,
    List.map_append, List.map_append, List.map_append,
    map_keep fun c hc => (pfx_chars l.radix c hc).2.2.2.2,
    map_keep fun c hc => (suffix_chars h.suffix c hc).2.2.2.2]
  have hsign : ((if l.neg then '-' :: List.replicate l.spaces ' ' else []).filter
      fun c => !(c == ' ' || c == '_')).map Char.toLower = l.sign := by
    cases hn : l.neg with
    | true =>
      simp [IntLit.sign, hn]
    | false => simp [IntLit.sign, hn]
  rw [hsign]
  simp [IntLit.lower]

/-! ## Reading the normalised text -/

theorem plain_ne {c : Char} (h : c ∈ plain) :
    c ≠ 'u' ∧ c ≠ 'i' ∧ c ≠ 'x' ∧ c ≠ 'o' ∧ c ≠ '-' ∧ c ≠ '+' ∧ c ≠ '.' ∧ c ≠ 't' := by
  have key : ∀ c ∈ plain,
      c ≠ 'u' ∧ c ≠ 'i' ∧ c ≠ 'x' ∧ c ≠ 'o' ∧ c ≠ '-' ∧ c ≠ '+' ∧ c ≠ '.' ∧ c ≠ 't' := by decide
  exact key c h

/-- Decimal, binary and octal digits are not letters. -/
theorem lower_digit {l : IntLit} (h : l.Valid) (hr : l.radix ≠ .hex) :
    ∀ c ∈ l.lower, c ∈ ['0', '1', '2', '3', '4', '5', '6', '7', '8', '9'] := by
  intro c hc
  rw [IntLit.lower, List.mem_map] at hc
  obtain ⟨d, hd, rfl⟩ := hc
  have hd := h.filtered d hd
  have key : ∀ r ∈ [Radix.dec, .bin, .oct], ∀ c ∈ r.digits,
      c.toLower ∈ ['0', '1', '2', '3', '4', '5', '6', '7', '8', '9'] := by decide
  refine key l.radix ?_ d hd
  cases hx : l.radix <;> simp_all

theorem core_no_ui {l : IntLit} (h : l.Valid) :
    'u' ∉ l.sign ++ (l.radix.pfx ++ l.lower) ∧ 'i' ∉ l.sign ++ (l.radix.pfx ++ l.lower) := by
  have hs : ∀ c ∈ l.sign, c ≠ 'u' ∧ c ≠ 'i' := by
    cases hn : l.neg <;> simp [IntLit.sign, hn]
  have hp : ∀ c ∈ l.radix.pfx, c ≠ 'u' ∧ c ≠ 'i' := by
    cases l.radix <;> decide
  constructor
  · intro hm
    simp only [List.mem_append] at hm
    rcases hm with hm | hm | hm
    · exact (hs _ hm).1 rfl
    · exact (hp _ hm).1 rfl
    · exact (plain_ne (h.lower_plain _ hm)).1 rfl
  · intro hm
    simp only [List.mem_append] at hm
    rcases hm with hm | hm | hm
    · exact (hs _ hm).2 rfl
    · exact (hp _ hm).2 rfl
    · exact (plain_ne (h.lower_plain _ hm)).2.1 rfl

theorem stripSuffix_text {l : IntLit} (h : l.Valid) :
    stripSuffix (l.sign ++ (l.radix.pfx ++ l.lower) ++ l.suffix) =
      l.sign ++ (l.radix.pfx ++ l.lower) := by
  obtain ⟨hu, hi⟩ := core_no_ui h
  rcases h.suffix with hs | hs
  · rw [hs, List.append_nil]
    exact stripSuffix_none hu hi
  · exact stripSuffix_some hs

theorem core_head {l : IntLit} (h : l.Valid) :
    ∃ c r, l.radix.pfx ++ l.lower = c :: r ∧
      c ∈ ['0', '1', '2', '3', '4', '5', '6', '7', '8', '9'] := by
  cases hr : l.radix with
  | dec =>
    obtain ⟨c, r, hc⟩ := List.exists_cons_of_ne_nil h.lower_ne
    exact ⟨c, r, by simpa [Radix.pfx] using hc,
      lower_digit h (by rw [hr]; decide) c (by rw [hc]; simp)⟩
  | hex => exact ⟨'0', 'x' :: l.lower, rfl, by decide⟩
  | bin => exact ⟨'0', 'b' :: l.lower, rfl, by decide⟩
  | oct => exact ⟨'0', 'o' :: l.lower, rfl, by decide⟩

theorem fromStrRadix_lower {l : IntLit} (h : l.Valid) (hlt : l.magnitude < 2 ^ 128) :
    fromStrRadix l.radix.base l.lower = some l.magnitude := by
  have hd : digitsLoop l.radix.base 0 l.lower = some l.magnitude :=
    digitsLoop_eq _ 0 h.filtered hlt
  obtain ⟨c, r, hc⟩ := List.exists_cons_of_ne_nil h.lower_ne
  have hp : c ≠ '+' := (plain_ne (h.lower_plain c (by rw [hc]; simp))).2.2.2.2.2.1
  rw [hc] at hd ⊢
  simp only [fromStrRadix]
  split
  · rename_i e; cases e
  · rename_i e; cases e; exact absurd rfl hp
  · rename_i e; cases e; exact absurd rfl hp
  · exact hd

theorem trimPrefix_lower {l : IntLit} {b : Char} (hb : b ∉ l.lower) :
    trimPrefix '0' b ('0' :: b :: l.lower) = l.lower := by
  have base : trimPrefix '0' b l.lower = l.lower := by
    match hl : l.lower with
    | [] => rfl
    | [c] => rfl
    | c :: d :: r =>
      simp only [trimPrefix]
      rw [if_neg]
      rintro ⟨-, rfl⟩
      exact hb (by rw [hl]; simp)
  simp only [trimPrefix]
  simpa using base

theorem parseIntegerHelper_core {l : IntLit} (h : l.Valid) (hlt : l.magnitude < 2 ^ 128) :
    parseIntegerHelper (l.radix.pfx ++ l.lower) = .ok (some l.magnitude) := by
  have hf := fromStrRadix_lower h hlt
  cases hr : l.radix with
  | hex =>
    rw [hr] at hf
    have hx : 'x' ∉ l.lower := fun hm => (plain_ne (h.lower_plain _ hm)).2.2.1 rfl
    show parseIntegerHelper ('0' :: 'x' :: l.lower) = _
    have e : ['0', 'x'].isPrefixOf ('0' :: 'x' :: l.lower) = true := by simp [List.isPrefixOf]
    simp only [parseIntegerHelper, e, if_true, trimPrefix_lower hx, radixOrPanic]
    have hf : fromStrRadix 16 l.lower = some l.magnitude := hf
    rw [hf]
  | bin =>
    have hd := lower_digit h (by rw [hr]; decide)
    rw [hr] at hf
    have hx : 'b' ∉ l.lower := fun hm => absurd (hd _ hm) (by decide)
    show parseIntegerHelper ('0' :: 'b' :: l.lower) = _
    have e1 : ['0', 'x'].isPrefixOf ('0' :: 'b' :: l.lower) = false := by simp [List.isPrefixOf]
    have e2 : ['0', 'b'].isPrefixOf ('0' :: 'b' :: l.lower) = true := by simp [List.isPrefixOf]
    simp only [parseIntegerHelper, e1, e2, if_true, trimPrefix_lower hx, radixOrPanic,
      Bool.false_eq_true, if_false]
    have hf : fromStrRadix 2 l.lower = some l.magnitude := hf
    rw [hf]
  | oct =>
    rw [hr] at hf
    have hx : 'o' ∉ l.lower := fun hm => (plain_ne (h.lower_plain _ hm)).2.2.2.1 rfl
    show parseIntegerHelper ('0' :: 'o' :: l.lower) = _
    have e1 : ['0', 'x'].isPrefixOf ('0' :: 'o' :: l.lower) = false := by simp [List.isPrefixOf]
    have e2 : ['0', 'b'].isPrefixOf ('0' :: 'o' :: l.lower) = false := by simp [List.isPrefixOf]
    have e3 : ['0', 'o'].isPrefixOf ('0' :: 'o' :: l.lower) = true := by simp [List.isPrefixOf]
    simp only [parseIntegerHelper, e1, e2, e3, if_true, trimPrefix_lower hx, radixOrPanic,
      Bool.false_eq_true, if_false]
    have hf : fromStrRadix 8 l.lower = some l.magnitude := hf
    rw [hf]
  | dec =>
    have hd := lower_digit h (by rw [hr]; decide)
    rw [hr] at hf
    show parseIntegerHelper l.lower = _
    have no : ∀ b, b ∉ ['0', '1', '2', '3', '4', '5', '6', '7', '8', '9'] →
        ['0', b].isPrefixOf l.lower = false := by
      intro b hb
      cases hx : ['0', b].isPrefixOf l.lower with
      | false => rfl
      | true =>
        rw [List.isPrefixOf_iff_prefix] at hx
        exact absurd (hd b (hx.subset (by simp))) hb
    simp only [parseIntegerHelper, no 'x' (by decide), no 'b' (by decide), no 'o' (by decide),
      Bool.false_eq_true, if_false]
    exact congrArg Except.ok hf

theorem parseInteger_text {l : IntLit} (h : l.Valid) (hlt : l.magnitude < 2 ^ 128) :
    parseInteger (l.sign ++ (l.radix.pfx ++ l.lower) ++ l.suffix) =
      .ok (some (.literal l.magnitude l.neg)) := by
  obtain ⟨c, r, hc, hp⟩ := core_head h
  have hm : c ≠ '-' := by rintro rfl; exact absurd hp (by decide)
  simp only [parseInteger, stripSuffix_text h]
  have hdrop : (l.sign ++ (l.radix.pfx ++ l.lower)).dropWhile (· == '-') =
      l.radix.pfx ++ l.lower := by
    rw [hc]
    have e : (c == '-') = false := by simpa using hm
    cases hn : l.neg <;> simp [IntLit.sign, hn, List.dropWhile, e]
  have hpre : ['-'].isPrefixOf (l.sign ++ (l.radix.pfx ++ l.lower)) = l.neg := by
    rw [hc]
    cases hn : l.neg <;> simp [IntLit.sign, hn, List.isPrefixOf, hm.symm]
  rw [hdrop, parseIntegerHelper_core h hlt, hpre]

theorem checkFloat_text {l : IntLit} (h : l.Valid) (hq : ¬ l.FloatLike) :
    checkFloat (l.sign ++ (l.radix.pfx ++ l.lower) ++ l.suffix) = .ok () := by
  simp only [checkFloat]
  by_cases hx : ['0', 'x'].isPrefixOf (l.sign ++ (l.radix.pfx ++ l.lower) ++ l.suffix) = true
  · rw [if_pos hx]
  · rw [if_neg hx]
    have hdot : (l.sign ++ (l.radix.pfx ++ l.lower) ++ l.suffix).contains '.' = false := by
      rw [Bool.eq_false_iff]
      intro hc
      rw [List.contains_iff_mem] at hc
      simp only [List.mem_append] at hc
      rcases hc with (hc | hc | hc) | hc
      · cases hn : l.neg <;> simp [IntLit.sign, hn] at hc
      · exact (pfx_chars _ _ hc).2.2.1 rfl
      · exact (plain_ne (h.lower_plain _ hc)).2.2.2.2.2.2.1 rfl
      · exact (suffix_chars h.suffix _ hc).2.2.1 rfl
    have hfl : floatIdentifiers.any
        (fun id => id.isSuffixOf (l.sign ++ (l.radix.pfx ++ l.lower) ++ l.suffix)) = false := by
      rcases h.suffix with hs | hs
      · rw [hs, List.append_nil]
        rw [List.any_eq_false]
        intro x hxm hsuf
        have hsuf' : x <:+ l.sign ++ (l.radix.pfx ++ l.lower) :=
          List.isSuffixOf_iff_suffix.mp (by simpa using hsuf)
        by_cases hr : l.radix = .hex
        · -- non-negative hexadecimal literals were dealt with above
          have hneg : l.neg = true := by
            cases hn : l.neg with
            | true => rfl
            | false => exfalso; apply hx; simp [IntLit.sign, hn, hr, Radix.pfx, List.isPrefixOf]
          -- the three last characters are digits
          have hxl : x <:+ l.lower := by
            by_cases hlen : x.length ≤ l.lower.length
            · exact List.suffix_of_suffix_length_le hsuf'
                ((List.suffix_append _ _).trans (List.suffix_append _ _)) hlen
            · exfalso
              have hsub : l.lower <:+ x := List.suffix_of_suffix_length_le
                ((List.suffix_append _ _).trans (List.suffix_append _ _)) hsuf' (by omega)
              -- otherwise the character `x` of the prefix is among them
              have hxs : x <:+ ('-' :: '0' :: 'x' :: l.lower) := by
                simpa [IntLit.sign, hneg, hr, Radix.pfx] using hsuf'
              have h3 : ∀ y ∈ floatIdentifiers, y.length = 3 ∧ 'x' ∉ y := by decide
              obtain ⟨hx3, hnx⟩ := h3 x hxm
              have hx4 : ('x' :: l.lower) <:+ x := by
                refine List.suffix_of_suffix_length_le (l₃ := '-' :: '0' :: 'x' :: l.lower) ?_ hxs ?_
                · exact ⟨['-', '0'], rfl⟩
                · simp only [List.length_cons]; omega
              exact hnx (hx4.subset (by simp))
          refine hq ⟨hneg, hr, hs, ?_⟩
          simp only [floatIdentifiers, List.mem_cons, List.not_mem_nil, or_false] at hxm
          rcases hxm with rfl | rfl
          · exact .inl hxl
          · exact .inr hxl
        · have hf : 'f' ∈ l.sign ++ (l.radix.pfx ++ l.lower) := by
            have key : ∀ y ∈ floatIdentifiers, 'f' ∈ y := by decide
            exact hsuf'.subset (key x hxm)
          simp only [List.mem_append] at hf
          rcases hf with hf | hf | hf
          · cases hn : l.neg <;> simp [IntLit.sign, hn] at hf
          · have : ∀ r : Radix, 'f' ∉ r.pfx := by intro r; cases r <;> decide
            exact this _ hf
          · exact absurd (lower_digit h hr _ hf) (by decide)
      · exact not_float_suffix hs
    simp only [hdot, hfl]
    rfl

theorem normalize_eq_compact {s : List Char} (h1 : ∀ c, s.head? = some c → c.isWhitespace = false)
    (h2 : ∀ c, s.getLast? = some c → c.isWhitespace = false) : normalize s = compact s := by
  simp only [normalize, trim_of_ends h1 h2, compact]
  refine congrArg _ (List.filter_congr fun c _ => ?_)
  simp only [bne]
  cases (c == ' ') <;> cases (c == '_') <;> rfl

theorem alpha_facts {c : Char} (h : c.isAlpha = true) :
    c ≠ ' ' ∧ c ≠ '_' ∧ c.isWhitespace = false ∧ c.toLower ≠ '-' ∧ c.toLower ≠ '+' ∧
      c.toLower ≠ '0' ∧ digitOf 10 c.toLower = none := by
  have hv : (65 ≤ c.toNat ∧ c.toNat ≤ 90) ∨ (97 ≤ c.toNat ∧ c.toNat ≤ 122) := by
    simp only [Char.isAlpha, Char.isUpper, Char.isLower, Bool.or_eq_true, Bool.and_eq_true,
      decide_eq_true_eq] at h
    rcases h with ⟨h1, h2⟩ | ⟨h1, h2⟩
    · exact .inl ⟨h1, h2⟩
    · exact .inr ⟨h1, h2⟩
  have key : ∀ n < 128, (65 ≤ n ∧ n ≤ 90) ∨ (97 ≤ n ∧ n ≤ 122) →
      (Char.ofNat n ≠ ' ' ∧ Char.ofNat n ≠ '_' ∧ (Char.ofNat n).isWhitespace = false ∧
      (Char.ofNat n).toLower ≠ '-' ∧ (Char.ofNat n).toLower ≠ '+' ∧
      (Char.ofNat n).toLower ≠ '0' ∧ digitOf 10 (Char.ofNat n).toLower = none) := by decide
  have := key c.toNat (by omega) hv
  rwa [Char.ofNat_toNat] at this

end Bf
