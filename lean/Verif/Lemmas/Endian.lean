import Verif.Lemmas.Whole

namespace Bf

/-! ## Lists given by a function -/

/-- The list of the first `n` values of `v`. -/
def tab (n : Nat) (v : Nat → BitVec 8) : List (BitVec 8) := (List.range n).map v

@[simp] theorem length_tab (n : Nat) (v : Nat → BitVec 8) : (tab n v).length = n := by simp [tab]

theorem getElem?_tab (n : Nat) (v : Nat → BitVec 8) (k : Nat) :
    (tab n v)[k]? = if k < n then some (v k) else none := by
  simp only [tab, List.getElem?_map]
  by_cases h : k < n
  · simp [h]
  · simp [h]

theorem tab_congr {n : Nat} {v v' : Nat → BitVec 8} (h : ∀ i < n, v i = v' i) : tab n v = tab n v' := by
  apply List.ext_getElem?
  intro k
  simp only [getElem?_tab]
  split
  · rw [h k (by assumption)]
  · rfl

theorem getB_tab {n : Nat} (v : Nat → BitVec 8) {k : Nat} (h : k < n) : getB (tab n v) k = .ok (v k) := by
  simp only [getB, getElem?_tab, h, if_true]

theorem setB_tab {n : Nat} (v : Nat → BitVec 8) {k : Nat} (h : k < n) (x : BitVec 8) :
    setB (tab n v) k x = .ok (tab n fun i => if i = k then x else v i) := by
  simp only [setB, length_tab, h, if_true]
  refine congrArg Except.ok ?_
  apply List.ext_getElem?
  intro i
  simp only [List.getElem?_set, getElem?_tab, length_tab]
  by_cases hk : k = i
  · subst hk; simp [h]
  · simp only [hk, if_false]
    have : ¬ i = k := fun e => hk e.symm
    simp [this]

theorem eq_tab (bs : List (BitVec 8)) : bs = tab bs.length (fun i => bs.getD i 0#8) := by
  apply List.ext_getElem?
  intro k
  rw [getElem?_tab]
  by_cases h : k < bs.length
  · simp [h]
  · simp [h]

theorem tab_reverse (n : Nat) (v : Nat → BitVec 8) : (tab n v).reverse = tab n fun i => v (n - 1 - i) := by
  apply List.ext_getElem?
  intro k
  by_cases h : k < n
  · rw [List.getElem?_reverse (by simpa using h), getElem?_tab, getElem?_tab]
    simp only [length_tab, h, if_true]
    rw [if_pos (by omega)]
  · have h1 : (tab n v).reverse.length ≤ k := by simp; omega
    rw [List.getElem?_eq_none h1, getElem?_tab, if_neg h]

/-! ## In-place reversals -/

theorem xor_swap (a b : BitVec 8) : (a ^^^ b) ^^^ (b ^^^ (a ^^^ b)) = b ∧ b ^^^ (a ^^^ b) = a := by
  have h : b ^^^ (a ^^^ b) = a := by
    rw [BitVec.xor_comm a b, ← BitVec.xor_assoc, BitVec.xor_self, BitVec.zero_xor]
  refine ⟨?_, h⟩
  rw [h, BitVec.xor_comm a b, BitVec.xor_assoc, BitVec.xor_self, BitVec.xor_zero]

/-- State after `k` swaps. -/
def swapped (n : Nat) (v : Nat → BitVec 8) (k : Nat) : List (BitVec 8) :=
  tab n fun i => if i < k ∨ n - k ≤ i then v (n - 1 - i) else v i

theorem swapped_zero (n : Nat) (v : Nat → BitVec 8) : swapped n v 0 = tab n v := by
  apply tab_congr
  intro i hi
  rw [if_neg (by omega)]

theorem swapped_half (n : Nat) (v : Nat → BitVec 8) : swapped n v (n / 2) = (tab n v).reverse := by
  rw [tab_reverse]
  apply tab_congr
  intro i hi
  split
  · rfl
  · congr 1; omega

theorem xorReverse_eq {n : Nat} {bs : List (BitVec 8)} (h : bs.length = n) :
    xorReverse n bs = .ok bs.reverse := by
  subst h
  generalize hn : bs.length = n
  have e := eq_tab bs
  rw [hn] at e
  rw [e]
  generalize (fun i => bs.getD i 0#8) = v
  rw [← swapped_half]
  unfold xorReverse
  rw [← swapped_zero]
  refine forUpTo_eq (F := swapped n v) ?_
  intro k hk
  have hk1 : k < n := by omega
  have hj : n - 1 - k < n := by omega
  have hne : ¬ (n - 1 - k = k) := by omega
  have hne' : ¬ (k = n - 1 - k) := by omega
  simp only [swapped]
  simp only [getB_tab _ hk1, getB_tab _ hj, setB_tab _ hk1, setB_tab _ hj, R_bind_ok,
    hne, hne', if_true, if_false]
  refine congrArg Except.ok ?_
  apply tab_congr
  intro i hi
  have e1 : ¬ (k < k ∨ n - k ≤ k) := by omega
  have e2 : ¬ (n - 1 - k < k ∨ n - k ≤ n - 1 - k) := by omega
  simp only [e1, e2, if_false]
  by_cases h1 : i = k
  · subst h1
    simp only [if_true]
    rw [if_pos (by omega)]
    exact (xor_swap _ _).1
  · by_cases h2 : i = n - 1 - k
    · subst h2
      simp only [h1, if_false, if_true]
      rw [if_pos (by omega)]
      rw [(xor_swap _ _).2]
      congr 1; omega
    · simp only [h1, h2, if_false]
      by_cases h3 : i < k ∨ n - k ≤ i
      · rw [if_pos h3, if_pos (by omega)]
      · rw [if_neg h3, if_neg (by omega)]

theorem tempReverse_eq (bs : List (BitVec 8)) : tempReverse bs = .ok bs.reverse := by
  generalize hn : bs.length = n
  have e := eq_tab bs
  rw [hn] at e
  rw [e]
  generalize (fun i => bs.getD i 0#8) = v
  rw [← swapped_half]
  unfold tempReverse
  rw [← swapped_zero]
  have hl : (swapped n v 0).length = n := by simp [swapped]
  rw [hl]
  refine forUpTo_eq (F := swapped n v) ?_
  intro k hk
  have hk1 : k < n := by omega
  have hj : n - 1 - k < n := by omega
  have hne : ¬ (n - 1 - k = k) := by omega
  have hne' : ¬ (k = n - 1 - k) := by omega
  simp only [swapped, length_tab]
  simp only [getB_tab _ hk1, getB_tab _ hj, setB_tab _ hk1, setB_tab _ hj, R_bind_ok,
    length_tab]
  refine congrArg Except.ok ?_
  apply tab_congr
  intro i hi
  have e1 : ¬ (k < k ∨ n - k ≤ k) := by omega
  have e2 : ¬ (n - 1 - k < k ∨ n - k ≤ n - 1 - k) := by omega
  simp only [e1, e2, if_false]
  by_cases h1 : i = k
  · subst h1
    simp only [hne', if_false, if_true]
    rw [if_pos (by omega)]
  · by_cases h2 : i = n - 1 - k
    · subst h2
      simp only [if_true]
      rw [if_pos (by omega)]
      congr 1; omega
    · simp only [h1, h2, if_false]
      by_cases h3 : i < k ∨ n - k ≤ i
      · rw [if_pos h3, if_pos (by omega)]
      · rw [if_neg h3, if_neg (by omega)]

/-! ## As bits -/

/-- The bits of an `n`-byte value with its bytes in the opposite order. -/
def revBytes (n : Nat) (g : Bits) : Bits := fun i => g (8 * (n - 1 - i / 8) + i % 8)

theorem revBytes_revBytes {n : Nat} (g : Bits) {i : Nat} (h : i < 8 * n) :
    revBytes n (revBytes n g) i = g i := by
  simp only [revBytes]
  congr 1
  omega

theorem swapBytes_ofBits {w : Nat} (h8 : w % 8 = 0) (g : Bits) :
    swapBytes (ofBits w g) = ofBits w (revBytes (w / 8) g) := by
  unfold swapBytes
  apply ofBits_congr
  intro i hi
  rw [getLsbD_ofBits, decide_eq_true (by omega), Bool.true_and]
  rfl

theorem bytesOf_eq_tab (n : Nat) (g : Bits) : bytesOf n g = tab n fun k => ofBits 8 fun j => g (8 * k + j) := rfl

theorem reverse_bytesOf (n : Nat) (g : Bits) : (bytesOf n g).reverse = bytesOf n (revBytes n g) := by
  rw [bytesOf_eq_tab, tab_reverse, bytesOf_eq_tab]
  apply tab_congr
  intro i hi
  apply ofBits_congr
  intro j hj
  simp only [revBytes]
  congr 1
  omega

/-- Number of bytes of the backing type. -/
def Backing.bytes (b : Backing) : Nat := b.size / 8

/-- The bits with the byte order reversed or not. -/
def revIf (c : Bool) (n : Nat) (g : Bits) : Bits := if c then revBytes n g else g

/-- `from_*`/`into_*` reverse the bytes when the endianness is little (integers) or big
(arrays). -/
def convReverses (b : Backing) (e : Endian) : Bool :=
  match b, e with
  | .int _, .little => true
  | .int _, .big => false
  | .arr _, .little => false
  | .arr _, .big => true

theorem fromConv_bits {B : Bitfield} (h : B.backing.OK) (e : Endian) (g : Bits) :
    fromConv B e (Store.ofBits B.backing g) =
      .ok (Store.ofBits B.backing (revIf (convReverses B.backing e) B.backing.bytes g)) := by
  unfold fromConv
  cases hB : B.backing with
  | int w =>
    rw [hB] at h
    have := h.int_le
    cases e
    · simp only [Store.ofBits_int, convReverses, revIf, if_true, Backing.bytes, Backing.size]
      rw [swapBytes_ofBits this.2.2]
    · simp only [Store.ofBits_int, convReverses, revIf, Bool.false_eq_true, if_false]
  | arr n =>
    cases e
    · simp only [Store.ofBits_arr, convReverses, revIf, Bool.false_eq_true, if_false]
    · simp only [Store.ofBits_arr, convReverses, revIf, if_true, Backing.bytes, Backing.size]
      rw [xorReverse_eq (by simp)]
      simp only [R_bind_ok, R_pure]
      rw [reverse_bytesOf]
      rw [show 8 * n / 8 = n by omega]

theorem intoConv_eq_fromConv (B : Bitfield) (e : Endian) (s : Store) : intoConv B e s = fromConv B e s := by
  unfold intoConv fromConv
  cases s <;> cases B.backing <;> cases e <;> rfl

theorem intoConv_bits {B : Bitfield} (h : B.backing.OK) (e : Endian) (g : Bits) :
    intoConv B e (Store.ofBits B.backing g) =
      .ok (Store.ofBits B.backing (revIf (convReverses B.backing e) B.backing.bytes g)) := by
  rw [intoConv_eq_fromConv, fromConv_bits h]

theorem traitConv_eq {B : Bitfield} (e : Endian) {s : Store} (hs : s.HasBacking B.backing) :
    traitConv B e s = fromConv B e s := by
  unfold traitConv fromConv
  cases s with
  | int w v => cases B.backing <;> cases e <;> rfl
  | arr bs =>
    cases hB : B.backing with
    | int w => cases e <;> rfl
    | arr n =>
      rw [hB] at hs
      cases e
      · rfl
      · simp only [tempReverse_eq, xorReverse_eq (n := n) hs]

/-- `write_*` reverses the bytes when the endianness is little. -/
def writeReverses (e : Endian) : Bool :=
  match e with
  | .little => true
  | .big => false

theorem writeConv_bits {B : Bitfield} (h : B.backing.OK) (e : Endian) (g : Bits) :
    writeConv B e (Store.ofBits B.backing g) =
      .ok (Store.ofBits B.backing (revIf (writeReverses e) B.backing.bytes g)) := by
  unfold writeConv
  cases hB : B.backing with
  | int w =>
    rw [hB] at h
    have := h.int_le
    cases e
    · simp only [Store.ofBits_int, writeReverses, revIf, if_true, Backing.bytes, Backing.size]
      rw [swapBytes_ofBits this.2.2]
    · simp only [Store.ofBits_int, writeReverses, revIf, Bool.false_eq_true, if_false]
  | arr n =>
    cases e
    · simp only [Store.ofBits_arr, writeReverses, revIf, if_true, Backing.bytes, Backing.size]
      rw [xorReverse_eq (by simp)]
      simp only [R_bind_ok, R_pure]
      rw [reverse_bytesOf]
      rw [show 8 * n / 8 = n by omega]
    · simp only [Store.ofBits_arr, writeReverses, revIf, Bool.false_eq_true, if_false]

theorem Backing.OK.bytes_mul {b : Backing} (h : b.OK) : 8 * b.bytes = b.size := by
  cases b with
  | int w => have := h.int_le; simp only [Backing.bytes, Backing.size]; omega
  | arr n => simp only [Backing.bytes, Backing.size]; omega

theorem revIf_revIf {b : Backing} (h : b.OK) (c : Bool) (g : Bits) {i : Nat} (hi : i < b.size) :
    revIf c b.bytes (revIf c b.bytes g) i = g i := by
  cases c
  · rfl
  · exact revBytes_revBytes g (by rw [h.bytes_mul]; exact hi)

theorem ofBits_revIf_revIf {b : Backing} (h : b.OK) (c : Bool) (g : Bits) :
    Store.ofBits b (revIf c b.bytes (revIf c b.bytes g)) = Store.ofBits b g :=
  Store.ofBits_congr fun _ hi => revIf_revIf h c g hi

theorem revIf_congr {b : Backing} (h : b.OK) (c : Bool) {g g' : Bits}
    (e : ∀ i < b.size, g i = g' i) {i : Nat} (hi : i < b.size) :
    revIf c b.bytes g i = revIf c b.bytes g' i := by
  cases c
  · exact e i hi
  · simp only [revIf, if_true, revBytes]
    have := h.bytes_mul
    exact e _ (by omega)

end Bf
