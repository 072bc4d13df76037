import Verif.Lemmas.Store

namespace Bf

/-! ## Masks -/

theorem getLsbD_intMask {w b : Nat} (h : b ≤ w) (i : Nat) :
    (maxOf w >>> (w - b)).getLsbD i = decide (i < b) := by
  simp only [maxOf, BitVec.getLsbD_ushiftRight, BitVec.getLsbD_allOnes]
  congr 1
  apply propext
  omega

theorem intMask_eq (m : Mode) {w b : Nat} (h1 : 1 ≤ b) (h2 : b ≤ w) :
    intMask m w b = .ok (ofBits w fun i => decide (i < b)) := by
  simp only [intMask, subU32_ok m h2, R_bind_ok]
  rw [shr_ok m _ (by omega)]
  congr 1
  apply eq_ofBits
  intro i _
  exact getLsbD_intMask h2 i

theorem mask128_eq (m : Mode) {b : Nat} (h : b ≤ 128) :
    mask128 m b = .ok (ofBits 128 fun i => decide (i < b)) := by
  unfold mask128
  split
  · subst b
    refine congrArg Except.ok ?_
    apply eq_ofBits
    intro i hi
    simp only [maxOf, BitVec.getLsbD_allOnes]
  · rw [shl_ok m _ (by omega)]
    simp only [R_bind_ok, R_pure]
    refine congrArg Except.ok ?_
    apply eq_ofBits
    intro i hi
    have hb : b < 128 := by omega
    have e : (1#128 <<< b - 1#128) = BitVec.ofNat 128 (2 ^ b - 1) := by
      apply BitVec.eq_of_toNat_eq
      have h1 : 2 ^ b < 2 ^ 128 := Nat.pow_lt_pow_right (by omega) hb
      have h2 : 0 < 2 ^ b := Nat.two_pow_pos b
      have h3 : (1#128 <<< b).toNat = 2 ^ b := by
        rw [BitVec.toNat_shiftLeft]
        simp [Nat.shiftLeft_eq, Nat.mod_eq_of_lt h1]
      rw [BitVec.toNat_sub, h3, BitVec.toNat_ofNat, BitVec.toNat_ofNat]
      omega
    rw [e, BitVec.getLsbD_ofNat, Nat.testBit_two_pow_sub_one]
    simp [hi]

theorem ofBits_single {w : Nat} (x : Bool) :
    (ofBits w fun j => decide (j = 0) && x) = if x then 1#w else 0#w := by
  symm
  apply eq_ofBits
  intro i hi
  cases x
  · simp
  · simp only [if_true, BitVec.getLsbD_one, Bool.and_true]
    simp; omega

theorem one_ne_zero_bv {w : Nat} (h : 0 < w) : (1#w) ≠ 0#w := by
  intro e
  have := congrArg (fun x => x.getLsbD 0) e
  simp [h] at this

theorem ofBits_single_eq_one' {w : Nat} (h : 0 < w) (x : Bool) :
    ((ofBits w fun j => decide (j = 0) && x) == 1#w) = x := by
  rw [ofBits_single]
  cases x
  · simp only [Bool.false_eq_true, if_false, beq_eq_false_iff_ne, ne_eq]
    exact fun e => one_ne_zero_bv h e.symm
  · simp

theorem ofBits_single_ne_zero' {w : Nat} (h : 0 < w) (x : Bool) :
    ((ofBits w fun j => decide (j = 0) && x) != 0#w) = x := by
  rw [ofBits_single]
  cases x
  · simp
  · simp only [if_true, bne_iff_ne, ne_eq]
    exact one_ne_zero_bv h

/-! ## Loops over byte arrays -/

theorem readU128_eq (m : Mode) {n off bits : Nat} (g : Bits) (h : off + bits ≤ 8 * n)
    (hn : 8 * n < 2 ^ 32) (hb : bits ≤ 128) :
    readU128 m (bytesOf n g) off bits =
      .ok (ofBits 128 fun j => decide (j < bits) && g (off + j)) := by
  have h0 : (0#128) = ofBits 128 (fun j => decide (j < 0) && g (off + j)) := by
    apply eq_ofBits; intro i hi; simp
  unfold readU128
  rw [h0]
  refine forUpTo_eq (F := fun k => ofBits 128 fun j => decide (j < k) && g (off + j)) ?_
  intro i hi
  rw [addU32_ok m (by omega)]
  simp only [R_bind_ok]
  rw [getB_bytesOf g (by omega)]
  simp only [R_bind_ok]
  rw [byteBit_ofBits _ (by omega), shl_ok m _ (by omega)]
  simp only [R_bind_ok, R_pure]
  refine congrArg Except.ok ?_
  apply eq_ofBits
  intro j hj
  have e : 8 * ((off + i) / 8) + (off + i) % 8 = off + i := by omega
  simp only [BitVec.getLsbD_or, getLsbD_ofBits, BitVec.getLsbD_shiftLeft,
    BitVec.getLsbD_setWidth, e, hj, decide_true, Bool.true_and]
  by_cases h1 : j < i
  · simp [h1, show j < i + 1 by omega]
  · by_cases h2 : j = i
    · subst h2; simp
    · simp [h1, show ¬ j < i + 1 by omega, show ¬ j - i = 0 by omega]

/-- The effect of writing `k` bits at `off`. -/
def put (off k : Nat) (new old : Bits) : Bits :=
  fun i => if off ≤ i ∧ i < off + k then new (i - off) else old i

theorem put_zero (off : Nat) (new old : Bits) : put off 0 new old = old := by
  funext i; simp only [put]; rw [if_neg (by omega)]

theorem put_succ (off k : Nat) (new old : Bits) :
    put off (k + 1) new old = fun i => if i = off + k then new k else put off k new old i := by
  funext i
  simp only [put]
  by_cases h : i = off + k
  · subst h
    rw [if_pos (by omega), if_pos rfl]
    congr 1
    omega
  · rw [if_neg h]
    by_cases h2 : off ≤ i ∧ i < off + k
    · rw [if_pos h2, if_pos (by omega)]
    · rw [if_neg h2, if_neg (by omega)]

/-- Setting one bit of a byte array through `getB`/`putBit`/`setB`. -/
theorem setBit_bytesOf {n : Nat} (g : Bits) {d : Nat} (hd : d < 8 * n) (x : Bool) :
    (do let b ← getB (bytesOf n g) (d / 8)
        setB (bytesOf n g) (d / 8) (putBit b (d % 8) x)) =
      (.ok (bytesOf n fun i => if i = d then x else g i) : R _) := by
  rw [getB_bytesOf g (by omega)]
  simp only [R_bind_ok]
  rw [putBit_ofBits _ (by omega), setB_bytesOf _ _ (by omega)]
  refine congrArg Except.ok ?_
  apply bytesOf_congr
  intro i hi
  by_cases h : i = d
  · subst h; simp
  · simp only [h, if_false]
    by_cases h2 : i / 8 = d / 8
    · rw [if_pos h2, if_neg (by omega)]
      congr 1
      omega
    · rw [if_neg h2]

theorem writeU128_eq (m : Mode) {n off bits : Nat} (g : Bits) (v : BitVec 128)
    (h : off + bits ≤ 8 * n) (hn : 8 * n < 2 ^ 32) (hb : bits ≤ 128) :
    writeU128 m (bytesOf n g) off bits v = .ok (bytesOf n (put off bits v.getLsbD g)) := by
  unfold writeU128
  have h0 : bytesOf n g = bytesOf n (put off 0 v.getLsbD g) := by rw [put_zero]
  rw [h0]
  refine forUpTo_eq (F := fun k => bytesOf n (put off k v.getLsbD g)) ?_
  intro i hi
  rw [addU32_ok m (by omega), shr_ok m _ (by omega)]
  simp only [R_bind_ok]
  have e : ((v >>> i &&& 1#128) == 1#128) = v.getLsbD i := by
    have : (v >>> i &&& 1#128) = ofBits 128 (fun j => decide (j = 0) && v.getLsbD i) := by
      apply eq_ofBits
      intro j hj
      simp only [BitVec.getLsbD_and, BitVec.getLsbD_ushiftRight, BitVec.getLsbD_one]
      by_cases h : j = 0
      · subst h; simp
      · simp [h]
    rw [this]
    exact ofBits_single_eq_one' (by omega) _
  rw [e]
  have := setBit_bytesOf (n := n) (put off i v.getLsbD g) (d := off + i) (by omega) (v.getLsbD i)
  rw [put_succ]
  exact this

theorem writeArr_eq (m : Mode) {n off bits len : Nat} (g a : Bits)
    (h : off + bits ≤ 8 * n) (hn : 8 * n < 2 ^ 32) (hb : bits ≤ 8 * len) :
    writeArr m (bytesOf n g) off bits (bytesOf len a) = .ok (bytesOf n (put off bits a g)) := by
  unfold writeArr
  have h0 : bytesOf n g = bytesOf n (put off 0 a g) := by rw [put_zero]
  rw [h0]
  refine forUpTo_eq (F := fun k => bytesOf n (put off k a g)) ?_
  intro i hi
  rw [addU32_ok m (by omega)]
  simp only [R_bind_ok]
  rw [getB_bytesOf a (by omega)]
  simp only [R_bind_ok]
  rw [byteBit_ofBits _ (by omega), ofBits_single_eq_one]
  have e : 8 * (i / 8) + i % 8 = i := by omega
  rw [e, put_succ]
  exact setBit_bytesOf (n := n) (put off i a g) (d := off + i) (by omega) (a i)

theorem readArr_eq (m : Mode) (inv : Bool) {n off bits len : Nat} (g : Bits)
    (h : off + bits ≤ 8 * n) (hn : 8 * n < 2 ^ 32) (hb : bits ≤ 8 * len) :
    readArr m inv (bytesOf n g) off bits len =
      .ok (bytesOf len fun j => decide (j < bits) && (g (off + j) ^^ inv)) := by
  unfold readArr
  have h0 : List.replicate len 0#8 =
      bytesOf len (fun j => decide (j < 0) && (g (off + j) ^^ inv)) := by
    rw [← bytesOf_zero]; simp
  rw [h0]
  refine forUpTo_eq (F := fun k => bytesOf len fun j => decide (j < k) && (g (off + j) ^^ inv)) ?_
  intro i hi
  rw [addU32_ok m (by omega)]
  simp only [R_bind_ok]
  rw [getB_bytesOf g (by omega)]
  simp only [R_bind_ok]
  rw [byteBit_ofBits _ (by omega)]
  have e : 8 * ((off + i) / 8) + (off + i) % 8 = off + i := by omega
  rw [e]
  have e2 : (if inv = true then (ofBits 8 fun j => decide (j = 0) && g (off + i)) ^^^ 1#8
      else ofBits 8 fun j => decide (j = 0) && g (off + i)) =
      ofBits 8 fun j => decide (j = 0) && (g (off + i) ^^ inv) := by
    cases inv <;> cases g (off + i) <;> decide
  rw [e2, getB_bytesOf _ (by omega)]
  simp only [R_bind_ok]
  have e3 : ∀ (q : Bits) (x : Bool), q (i % 8) = false →
      (ofBits 8 q ||| (ofBits 8 fun j => decide (j = 0) && x) <<< (i % 8)) =
      ofBits 8 fun j => if j = i % 8 then x else q j := by
    intro q x hq
    apply eq_ofBits
    intro j hj
    simp only [BitVec.getLsbD_or, getLsbD_ofBits, BitVec.getLsbD_shiftLeft]
    by_cases h1 : j = i % 8
    · subst h1; simp [hj, hq]
    · by_cases h2 : j < i % 8
      · simp [hj, h1, h2]
      · simp [hj, h1, show ¬ j - i % 8 = 0 by omega]
  rw [e3 _ _ (by simp; omega), setB_bytesOf _ _ (by omega)]
  refine congrArg Except.ok ?_
  apply bytesOf_congr
  intro j hj
  by_cases h1 : j / 8 = i / 8
  · rw [if_pos h1]
    by_cases h2 : j % 8 = i % 8
    · have : j = i := by omega
      subst this
      simp
    · rw [if_neg h2]
      have e4 : 8 * (i / 8) + j % 8 = j := by omega
      rw [e4]
      congr 2
      apply propext
      omega
  · rw [if_neg h1]
    congr 2
    apply propext
    omega

theorem unpack_eq (m : Mode) {len : Nat} (v : BitVec 128) (h : len ≤ 16) :
    unpack m len v = .ok (bytesOf len v.getLsbD) := by
  unfold unpack
  have h0 : List.replicate len 0#8 =
      bytesOf len (fun j => decide (j < 8 * 0) && v.getLsbD j) := by
    rw [← bytesOf_zero]; simp
  rw [h0]
  have key := forUpTo_eq (n := len)
    (F := fun k => bytesOf len fun j => decide (j < 8 * k) && v.getLsbD j)
    (body := fun i arr => do
      let sh ← shr m v (i * 8)
      setB arr i ((sh &&& 0xFF#128).setWidth 8)) ?_
  · rw [key]
    refine congrArg Except.ok ?_
    apply bytesOf_congr
    intro j hj
    simp [hj]
  · intro i hi
    rw [shr_ok m _ (by omega)]
    simp only [R_bind_ok]
    have e : (v >>> (i * 8) &&& 255#128).setWidth 8 = ofBits 8 fun j => v.getLsbD (8 * i + j) := by
      apply eq_ofBits
      intro j hj
      have e1 : (255#128).getLsbD j = true := by
        have : (255#128) = BitVec.ofNat 128 (2 ^ 8 - 1) := by decide
        rw [this, BitVec.getLsbD_ofNat, Nat.testBit_two_pow_sub_one]
        simp only [hj, decide_true, Bool.and_true]
        simp; omega
      simp only [BitVec.getLsbD_setWidth, BitVec.getLsbD_and, BitVec.getLsbD_ushiftRight, e1,
        hj, decide_true, Bool.true_and, Bool.and_true]
      congr 1
      omega
    rw [e, setB_bytesOf _ _ (by omega)]
    refine congrArg Except.ok ?_
    apply bytesOf_congr
    intro j hj
    by_cases h1 : j / 8 = i
    · rw [if_pos h1, decide_eq_true (by omega), Bool.true_and]
      congr 1
      omega
    · rw [if_neg h1]
      congr 2
      apply propext
      omega

theorem packBytes_eq (m : Mode) {w len k : Nat} (a : Bits) (hk : k ≤ len) (hw : 8 * k ≤ w) :
    packBytes m w (bytesOf len a) k = .ok (ofBits w fun j => decide (j < 8 * k) && a j) := by
  unfold packBytes
  have h0 : (0#w) = ofBits w (fun j => decide (j < 8 * 0) && a j) := by
    apply eq_ofBits; intro i hi; simp
  rw [h0]
  refine forUpTo_eq (F := fun k => ofBits w fun j => decide (j < 8 * k) && a j) ?_
  intro i hi
  rw [getB_bytesOf a (by omega)]
  simp only [R_bind_ok]
  rw [shl_ok m _ (by omega)]
  simp only [R_bind_ok, R_pure]
  refine congrArg Except.ok ?_
  apply eq_ofBits
  intro j hj
  simp only [BitVec.getLsbD_or, getLsbD_ofBits, BitVec.getLsbD_shiftLeft,
    BitVec.getLsbD_setWidth, hj, decide_true, Bool.true_and]
  by_cases h1 : j < 8 * i
  · simp [h1, show j < 8 * (i + 1) by omega, show j < i * 8 by omega]
  · by_cases h2 : j < 8 * (i + 1)
    · have e : 8 * i + (j - i * 8) = j := by omega
      have h3 : j - i * 8 < w := by omega
      simp [h1, h2, e, h3, show ¬ j < i * 8 by omega, show j - i * 8 < 8 by omega]
    · simp [h1, h2, show ¬ j - i * 8 < 8 by omega]

/-! ## Integer-backed updates -/

theorem intSetBits_eq (m : Mode) {w off bits : Nat} (g : Bits) (fb : BitVec w)
    (hp : 1 ≤ bits) (h : off + bits ≤ w) :
    intSetBits m (ofBits w g) (ofBits w fun i => decide (i < bits)) fb off =
      .ok (ofBits w (put off bits fb.getLsbD g)) := by
  unfold intSetBits
  rw [shl_ok m _ (by omega), shl_ok m _ (by omega)]
  simp only [R_bind_ok, R_pure]
  refine congrArg Except.ok ?_
  apply eq_ofBits
  intro i hi
  simp only [BitVec.getLsbD_or, BitVec.getLsbD_and, BitVec.getLsbD_not, getLsbD_ofBits,
    BitVec.getLsbD_shiftLeft, hi, decide_true, Bool.true_and, put]
  by_cases h1 : i < off
  · rw [if_neg (by omega)]
    simp [h1]
  · by_cases h2 : i < off + bits
    · rw [if_pos (by omega)]
      simp [h1, show i - off < bits by omega, show i - off < w by omega]
    · rw [if_neg (by omega)]
      simp [h1, show ¬ i - off < bits by omega]

theorem intSetBit_eq (m : Mode) {w off : Nat} (g : Bits) (b : Bool) (h : off < w) :
    intSetBit m (ofBits w g) off b = .ok (ofBits w fun i => if i = off then b else g i) := by
  unfold intSetBit
  rw [shl_ok m _ h]
  simp only [R_bind_ok, R_pure]
  refine congrArg Except.ok ?_
  apply eq_ofBits
  intro i hi
  have e : (1#w <<< off).getLsbD i = decide (i = off) := by
    simp only [BitVec.getLsbD_shiftLeft, BitVec.getLsbD_one, hi, decide_true, Bool.true_and]
    by_cases h1 : i = off
    · subst h1; simp; omega
    · by_cases h2 : i < off
      · simp [h1, h2]
      · simp [h1, show ¬ i - off = 0 by omega]
  cases b
  · simp only [Bool.false_eq_true, if_false, BitVec.getLsbD_and, BitVec.getLsbD_not, e,
      getLsbD_ofBits, hi, decide_true, Bool.true_and]
    by_cases h1 : i = off <;> simp [h1]
  · simp only [if_true, BitVec.getLsbD_or, BitVec.getLsbD_and, BitVec.getLsbD_not, e,
      getLsbD_ofBits, hi, decide_true, Bool.true_and]
    by_cases h1 : i = off <;> simp [h1]

end Bf
