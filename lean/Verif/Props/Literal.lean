import Verif.Lemmas.Literal

/-!
# Default literals (C43)

`constExpr text` is what the macro makes of `default = text`: a literal with a magnitude and a
sign, which is compared with the field's range, or a path, which is not looked at.
-/

namespace Bf

/-- **C43** (integer literals). A decimal, `0x`, `0b` or `0o` literal with any digits, letter case,
underscores, suffix and minus sign is read with its Rust value. Missing from the full property
(and false, see `finding_literal_float_like`): negated hexadecimal literals that end in `f32` or
`f64`. Literals of 2^128 and more are not valid Rust. -/
theorem C43_literal_partial (l : IntLit) (h : l.Valid) (hlt : l.magnitude < 2 ^ 128)
    (hq : ¬ l.FloatLike) : constExpr l.text = .ok (.literal l.magnitude l.neg) := by
  simp only [constExpr, normalize_text h, checkFloat_text h hq, parseInteger_text h hlt]
  obtain ⟨c, r, hc, hp⟩ := core_head h
  have hne : ∀ d s, d ∉ ['-', '0', '1', '2', '3', '4', '5', '6', '7', '8', '9'] →
      ¬ l.sign ++ (l.radix.pfx ++ l.lower) ++ l.suffix = d :: s := by
    intro d s hd e
    rw [hc] at e
    cases hn : l.neg with
    | true =>
      simp only [IntLit.sign, hn, if_true, List.cons_append] at e
      obtain ⟨rfl, -⟩ := List.cons.inj e
      exact hd (by simp)
    | false =>
      simp only [IntLit.sign, hn, Bool.false_eq_true, if_false, List.nil_append,
        List.cons_append] at e
      obtain ⟨rfl, -⟩ := List.cons.inj e
      exact hd (List.mem_cons_of_mem _ hp)
  rw [if_neg (hne _ _ (by decide)), if_neg (hne _ _ (by decide))]

/-- `-0xF_fu32`, `0b1_0`, `- 128i8` -/
example : constExpr ['-', '0', 'x', 'F', '_', 'f', 'u', '3', '2'] = .ok (.literal 255 true) :=
  C43_literal_partial ⟨true, 0, .hex, ['F', '_', 'f'], ['u', '3', '2']⟩
    ⟨by decide, by decide, by decide, by decide⟩ (by decide) (by decide)

example : constExpr ['0', 'b', '1', '_', '0'] = .ok (.literal 2 false) :=
  C43_literal_partial ⟨false, 0, .bin, ['1', '_', '0'], []⟩
    ⟨by decide, by decide, by decide, by decide⟩ (by decide) (by decide)

example : constExpr ['-', ' ', '1', '2', '8', 'i', '8'] = .ok (.literal 128 true) :=
  C43_literal_partial ⟨true, 1, .dec, ['1', '2', '8'], ['i', '8']⟩
    ⟨by decide, by decide, by simp [Radix.digits], by decide⟩ (by decide) (by decide)

/-- **C43** (bool literals). `true` counts as 1 and `false` as 0. -/
theorem C43_bool : constExpr ['t', 'r', 'u', 'e'] = .ok (.literal 1 false) ∧
    constExpr ['f', 'a', 'l', 's', 'e'] = .ok (.literal 0 false) := by
  constructor <;> rfl

/-- **C43** (other expressions). An expression that is neither a literal nor looks like a float
is not checked by the macro. Missing from the full property (and false, see
`finding_path_float_like`): expressions with a dot, or that end in `f32` or `f64`. -/
theorem C43_path_partial (s : List Char) (h : PathLike s) : constExpr s = .ok .path := by
  obtain ⟨c, r, rfl, hc⟩ := h.first
  obtain ⟨hsp, hus, hws, hm, hp, h0, hd⟩ := alpha_facts hc
  have hn : normalize (c :: r) = compact (c :: r) :=
    normalize_eq_compact (fun d hd => by cases hd; exact hws) h.last
  obtain ⟨r', hr⟩ : ∃ r', compact (c :: r) = c.toLower :: r' := by
    refine ⟨compact r, ?_⟩
    have e1 : (c == ' ') = false := by simpa using hsp
    have e2 : (c == '_') = false := by simpa using hus
    simp [compact, List.filter, bne, e1, e2]
  have hfl : checkFloat (compact (c :: r)) = .ok () := by
    simp only [checkFloat]
    have e1 : ['0', 'x'].isPrefixOf (compact (c :: r)) = false := by
      rw [hr]; simp [List.isPrefixOf, Ne.symm h0]
    have e2 : (compact (c :: r)).contains '.' = false := by
      rw [Bool.eq_false_iff]
      intro hx
      rw [List.contains_iff_mem, compact, List.mem_map] at hx
      obtain ⟨d, hd', e⟩ := hx
      rw [List.mem_filter] at hd'
      have hdot : d = '.' := by
        by_cases hu : d.isUpper = true
        · exfalso
          have : d.isAlpha = true := by simp [Char.isAlpha, hu]
          have hv : 65 ≤ d.toNat ∧ d.toNat ≤ 90 := by
            simp only [Char.isUpper, decide_eq_true_eq] at hu
            exact ⟨hu.1, hu.2⟩
          have key : ∀ n < 128, 65 ≤ n ∧ n ≤ 90 → (Char.ofNat n).toLower ≠ '.' := by decide
          have := key d.toNat (by omega) hv
          rw [Char.ofNat_toNat] at this
          exact this e
        · have hu : d.isUpper = false := by simpa using hu
          have : d.toLower = d := by
            simp only [Char.toLower]
            rw [dif_neg]
            intro hc
            simp only [Char.isUpper, decide_eq_false_iff_not] at hu
            exact hu hc
          rw [← this, e]
      rw [hdot] at hd'
      exact h.dot hd'.1
    have e3 : floatIdentifiers.any (fun id => id.isSuffixOf (compact (c :: r))) = false := by
      rw [List.any_eq_false]
      intro x hx hs
      have hs : x <:+ compact (c :: r) := List.isSuffixOf_iff_suffix.mp (by simpa using hs)
      simp only [floatIdentifiers, List.mem_cons, List.not_mem_nil, or_false] at hx
      rcases hx with rfl | rfl
      · exact h.float.1 hs
      · exact h.float.2 hs
    simp only [e1, e2, e3]
    rfl
  simp only [constExpr, hn, hfl]
  rw [if_neg h.bool.1, if_neg h.bool.2]
  have hstrip : stripSuffix (compact (c :: r)) = [] ∨
      ∃ r'', stripSuffix (compact (c :: r)) = c.toLower :: r'' := by
    simp only [stripSuffix]
    split
    · rw [hr]
      rename_i id _
      cases hk : (c.toLower :: r').length - id.length with
      | zero => left; simp
      | succ k => right; exact ⟨r'.take k, by simp⟩
    · right; exact ⟨r', hr⟩
  have hpi : parseInteger (compact (c :: r)) = .ok none := by
    simp only [parseInteger]
    rcases hstrip with e | ⟨r'', e⟩
    · rw [e]; rfl
    · rw [e]
      have e1 : (c.toLower == '-') = false := by simpa using hm
      have e2 : (c.toLower :: r'').dropWhile (· == '-') = c.toLower :: r'' := by
        simp [List.dropWhile, e1]
      rw [e2]
      have e3 : ∀ b, ['0', b].isPrefixOf (c.toLower :: r'') = false := by
        intro b
        simp [List.isPrefixOf, Ne.symm h0]
      have e4 : fromStrRadix 10 (c.toLower :: r'') = none := by
        simp only [fromStrRadix]
        split
        · rename_i e; cases e
        · rfl
        · rename_i x e; exact absurd (List.cons.inj e).1 hp
        · simp only [digitsLoop, hd]
      simp only [parseIntegerHelper, e3, Bool.false_eq_true, if_false, e4]
  rw [hpi]

/-- `Cf::M_u8` -/
example : constExpr ['C', 'f', ':', ':', 'M', '_', 'u', '8'] = .ok .path :=
  C43_path_partial _ ⟨⟨_, _, rfl, by decide⟩, by simp, by decide, by decide, by decide⟩

end Bf
