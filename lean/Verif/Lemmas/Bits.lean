import Verif.Spec

namespace Bf

/-! ## `ofBits` -/

theorem getLsbD_ofBits (w : Nat) (g : Bits) (i : Nat) :
    (ofBits w g).getLsbD i = (decide (i < w) && g i) := by
  induction w with
  | zero => simp [ofBits]
  | succ w ih =>
    simp only [ofBits, BitVec.getLsbD_cons, ih]
    by_cases h : i = w
    · subst h; simp
    · have : (i < w + 1) ↔ (i < w) := by omega
      simp [h, this]

theorem ofBits_getLsbD {w : Nat} (v : BitVec w) : ofBits w v.getLsbD = v := by
  apply BitVec.eq_of_getLsbD_eq
  intro i hi
  simp only [getLsbD_ofBits, decide_eq_true hi, Bool.true_and]

theorem ofBits_congr {w : Nat} {g h : Bits} (e : ∀ i < w, g i = h i) : ofBits w g = ofBits w h := by
  apply BitVec.eq_of_getLsbD_eq
  intro i hi
  simp only [getLsbD_ofBits, decide_eq_true hi, Bool.true_and, e i hi]

theorem eq_ofBits {w : Nat} {v : BitVec w} {g : Bits} (e : ∀ i < w, v.getLsbD i = g i) :
    v = ofBits w g := by
  apply BitVec.eq_of_getLsbD_eq
  intro i hi
  simp only [getLsbD_ofBits, decide_eq_true hi, Bool.true_and, e i hi]

/-! ## `natOf` -/

theorem natOf_lt (n : Nat) (g : Bits) : natOf n g < 2 ^ n := by
  induction n with
  | zero => simp [natOf]
  | succ n ih =>
    simp only [natOf, Nat.pow_succ]
    split <;> omega

theorem testBit_natOf (n : Nat) (g : Bits) (i : Nat) :
    (natOf n g).testBit i = (decide (i < n) && g i) := by
  induction n with
  | zero => simp [natOf]
  | succ n ih =>
    have hlt := natOf_lt n g
    have e : natOf (n + 1) g = 2 ^ n * (if g n then 1 else 0) + natOf n g := by
      simp only [natOf]; split <;> omega
    rw [e, Nat.testBit_two_pow_mul_add _ hlt, ih]
    by_cases hi : i < n
    · simp [hi, show i < n + 1 by omega]
    · rw [if_neg hi]
      by_cases hin : i = n
      · subst hin; by_cases hg : g i <;> simp [hg]
      · have : ¬ i < n + 1 := by omega
        simp only [this, decide_false, Bool.false_and]
        obtain ⟨k, hk⟩ : ∃ k, i - n = k + 1 := ⟨i - n - 1, by omega⟩
        rw [hk]
        by_cases hg : g n <;> simp [hg, Nat.testBit_add_one]

theorem natOf_congr {n : Nat} {g h : Bits} (e : ∀ i < n, g i = h i) : natOf n g = natOf n h := by
  apply Nat.eq_of_testBit_eq
  intro i
  simp only [testBit_natOf]
  by_cases hi : i < n
  · simp [hi, e i hi]
  · simp [hi]

theorem toNat_eq_natOf {w : Nat} (v : BitVec w) : v.toNat = natOf w v.getLsbD := by
  apply Nat.eq_of_testBit_eq
  intro i
  rw [testBit_natOf, BitVec.testBit_toNat]
  by_cases hi : i < w
  · simp [hi]
  · simp [hi, BitVec.getLsbD_of_ge v i (by omega)]

theorem natOf_inj {n : Nat} {g h : Bits} (e : natOf n g = natOf n h) : ∀ i < n, g i = h i := by
  intro i hi
  have := congrArg (fun x => x.testBit i) e
  simpa [testBit_natOf, hi] using this

/-! ## `intBit` -/

theorem intBit_natCast (n i : Nat) : intBit (n : Int) i = n.testBit i := by
  rw [Nat.testBit_eq_decide_div_mod_eq, intBit]
  have : ((n : Int) / 2 ^ i % 2 = 1) ↔ (n / 2 ^ i % 2 = 1) := by
    have h : ((n : Int) / 2 ^ i % 2) = ((n / 2 ^ i % 2 : Nat) : Int) := by push_cast; rfl
    rw [h]; omega
  simp [this]

theorem intBit_emod (n : Int) {w i : Nat} (h : i < w) : intBit (n % 2 ^ w) i = intBit n i := by
  unfold intBit
  obtain ⟨k, rfl⟩ : ∃ k, w = i + 1 + k := ⟨w - (i + 1), by omega⟩
  congr 2
  have e : n % 2 ^ (i + 1 + k) = n + 2 ^ i * (2 * (2 ^ k * -(n / 2 ^ (i + 1 + k)))) := by
    rw [Int.emod_def, Int.pow_add, Int.pow_succ]
    grind
  rw [e, Int.add_mul_ediv_left _ _ (Int.pow_ne_zero (by decide)), Int.add_mul_emod_self_left]

theorem getLsbD_ofInt (w : Nat) (n : Int) (i : Nat) :
    (BitVec.ofInt w n).getLsbD i = (decide (i < w) && intBit n i) := by
  by_cases hi : i < w
  · rw [← BitVec.testBit_toNat, BitVec.toNat_ofInt, ← intBit_natCast]
    rw [Int.toNat_of_nonneg (Int.emod_nonneg _ (by simp; exact Int.pow_ne_zero (by decide)))]
    push_cast
    simp only [intBit_emod n hi, decide_eq_true hi, Bool.true_and]
  · rw [BitVec.getLsbD_of_ge _ i (by omega : w ≤ i)]
    simp [hi]

end Bf
