import Verif.Lemmas.Whole

namespace Bf

/-! ## Reading back -/

theorem intOf_congr {n : Nat} (hn : 1 ≤ n) {x y : Bits} (h : ∀ i < n, x i = y i) :
    intOf n x = intOf n y := by
  simp only [intOf]
  rw [natOf_congr h, h (n - 1) (by omega)]

theorem decode_congr {b : Backing} {f : Field} (hf : FieldOK b f) {x y : Bits}
    (h : ∀ i < f.bits, x i = y i) : decode f x = decode f y := by
  have hp := hf.pos
  unfold decode
  cases hty : f.ty with
  | int t =>
    cases t <;> simp only [h 0 (by omega), natOf_congr h, intOf_congr hp h]
  | array len =>
    simp only
    refine congrArg (fun k => Except.ok (Val.arr k)) (bytesOf_congr fun i _ => ?_)
    by_cases hi : i < f.bits
    · rw [h i hi]
    · simp [hi]
  | custom c => simp only [natOf_congr h]

theorem intOf_intBit {n : Nat} (hn : 1 ≤ n) (k : Int) :
    intOf n (intBit k) = (BitVec.ofInt n k).toInt := by
  rw [intOf_eq_toInt hn]
  congr 1
  apply BitVec.eq_of_getLsbD_eq
  intro i hi
  rw [getLsbD_ofBits, decide_eq_true hi, Bool.true_and]
  have := intBit_toNat (BitVec.ofInt n k) i
  rw [← this, BitVec.toNat_ofInt]
  have h0 : 0 ≤ k % 2 ^ n := Int.emod_nonneg _ (Int.pow_ne_zero (by decide))
  have e : ((2 ^ n : Nat) : Int) = 2 ^ n := by push_cast; rfl
  rw [e, Int.toNat_of_nonneg h0, ← natOf_intBit, intBit_natOf]
  simp [hi]

theorem intOf_range {n : Nat} (hn : 1 ≤ n) (x : Bits) :
    -(2 ^ (n - 1) : Int) ≤ intOf n x ∧ intOf n x < 2 ^ (n - 1) := by
  rw [intOf_eq_toInt hn]
  have h1 := BitVec.le_toInt (ofBits n x)
  have h2 := BitVec.toInt_lt (x := ofBits n x)
  exact ⟨h1, h2⟩

theorem intOf_dvd {n : Nat} (x : Bits) : (2 ^ n : Int) ∣ (intOf n x - natOf n x) := by
  unfold intOf
  by_cases h : x (n - 1)
  · simp only [h, if_true]
    exact ⟨-1, by omega⟩
  · simp [h]

/-- Bits of a number determined by the residue. -/
theorem two_pow_dvd_intOf_sub {n : Nat} (k : Int) : (2 ^ n : Int) ∣ (intOf n (intBit k) - k) := by
  have h1 := intOf_dvd (n := n) (intBit k)
  rw [natOf_intBit] at h1
  have h2 : (2 ^ n : Int) ∣ (k % 2 ^ n - k) := by
    rw [Int.emod_def]
    exact ⟨-(k / 2 ^ n), by rw [Int.mul_neg]; omega⟩
  have := Int.dvd_add h1 h2
  have e : intOf n (intBit k) - k % 2 ^ n + (k % 2 ^ n - k) = intOf n (intBit k) - k := by omega
  rwa [e] at this

/-- The only number in a window of length `2^n` with given residue. -/
theorem unique_in_window {n : Nat} (hn : 1 ≤ n) {a b : Int}
    (ha : -(2 ^ (n - 1) : Int) ≤ a ∧ a < 2 ^ (n - 1))
    (hb : -(2 ^ (n - 1) : Int) ≤ b ∧ b < 2 ^ (n - 1)) (h : (2 ^ n : Int) ∣ (a - b)) : a = b := by
  have hpow : (2 : Int) ^ n = 2 * 2 ^ (n - 1) := by
    have e : n = n - 1 + 1 := by omega
    conv => lhs; rw [e]
    rw [Int.pow_succ]; omega
  obtain ⟨c, hc⟩ := h
  rw [hpow] at hc
  generalize (2 : Int) ^ (n - 1) = P at *
  have hP : 0 < P := by omega
  have : c = 0 := by
    rcases Int.lt_trichotomy c 0 with hc0 | hc0 | hc0
    · have : 2 * P * c ≤ 2 * P * (-1) := Int.mul_le_mul_of_nonneg_left (by omega) (by omega)
      omega
    · exact hc0
    · have : 2 * P * 1 ≤ 2 * P * c := Int.mul_le_mul_of_nonneg_left (by omega) (by omega)
      omega
  subst this
  omega

/-- Reading a field after its bits were overwritten. -/
theorem getX_overwrite (m : Mode) {b : Backing} {f : Field} (hb : b.OK) (hf : FieldOK b f)
    (hs : FieldSupported b f) (y g : Bits) :
    getX m f (Store.ofBits b (overwrite f y g)) = decode f y := by
  rw [getX_eq m hb hf hs]
  apply decode_congr hf
  intro i hi
  rw [overwrite_covers (covers_iff.mpr ⟨by omega, by omega⟩)]
  congr 1
  omega

theorem getX_overwrite_ne (m : Mode) {b : Backing} {f f' : Field} (hb : b.OK) (hf' : FieldOK b f')
    (hs' : FieldSupported b f') (hd : f.Disjoint f') (y g : Bits) :
    getX m f' (Store.ofBits b (overwrite f y g)) = getX m f' (Store.ofBits b g) := by
  rw [getX_eq m hb hf' hs', getX_eq m hb hf' hs']
  apply decode_congr hf'
  intro i hi
  apply overwrite_not_covers
  have := hd (f'.offset + i)
  cases hc : f.covers (f'.offset + i)
  · rfl
  · exact absurd ⟨hc, covers_iff.mpr ⟨by omega, by omega⟩⟩ this

theorem roundTrip_noncustom {f : Field} (h : ∀ c, f.ty ≠ .custom c) (x : Bits) :
    roundTrip f x = .ok x := by
  unfold roundTrip
  cases hty : f.ty with
  | custom c => exact absurd hty (h c)
  | _ => rfl

theorem setX_noncustom (m : Mode) {b : Backing} {f : Field} (hb : b.OK) (hf : FieldOK b f)
    (hs : FieldSupported b f) (hc : ∀ c, f.ty ≠ .custom c) {v : Val} (hv : HasType f.ty v) (g : Bits) :
    setX m f (Store.ofBits b g) v = .ok (Store.ofBits b (overwrite f (encode f.ty v) g)) := by
  rw [setX_bits m hb hf hs hv, roundTrip_noncustom hc]
  rfl

theorem WF.disjoint_ne {B : Bitfield} (h : WF B) {f f' : Field} (hf : f ∈ B.fields)
    (hf' : f' ∈ B.fields) (hne : f ≠ f') : f.Disjoint f' := by
  intro i hi
  exact hne (h.owner_unique hf hf' hi.1 hi.2)

end Bf
