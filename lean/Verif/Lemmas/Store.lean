import Verif.Lemmas.Bits
import Verif.Model.Gen

namespace Bf

/-! ## Monad and loop lemmas -/

@[simp] theorem R_bind_ok {α β : Type} (a : α) (f : α → R β) :
    (Bind.bind (m := Except Panic) (Except.ok a) f) = f a := rfl

@[simp] theorem R_bind_err {α β : Type} (p : Panic) (f : α → R β) :
    (Bind.bind (m := Except Panic) (Except.error p) f) = Except.error p := rfl

@[simp] theorem R_pure {α : Type} (a : α) : (pure a : R α) = Except.ok a := rfl

theorem forUpTo_eq {σ : Type} (F : Nat → σ) {body : Nat → σ → R σ} {n : Nat}
    (h : ∀ i < n, body i (F i) = .ok (F (i + 1))) : forUpTo n body (F 0) = .ok (F n) := by
  induction n with
  | zero => rfl
  | succ n ih =>
    simp only [forUpTo]
    rw [ih (fun i hi => h i (by omega))]
    simp only [R_bind_ok]
    exact h n (by omega)

theorem shl_ok {w : Nat} (m : Mode) (x : BitVec w) {s : Nat} (h : s < w) :
    shl m x s = .ok (x <<< s) := by simp [shl, h]

theorem shr_ok {w : Nat} (m : Mode) (x : BitVec w) {s : Nat} (h : s < w) :
    shr m x s = .ok (x >>> s) := by simp [shr, h]

theorem sshr_ok {w : Nat} (m : Mode) (x : BitVec w) {s : Nat} (h : s < w) :
    sshr m x s = .ok (x.sshiftRight s) := by simp [sshr, h]

theorem addU32_ok (m : Mode) {a b : Nat} (h : a + b < 2 ^ 32) : addU32 m a b = .ok (a + b) := by
  simp [addU32, h]

theorem subU32_ok (m : Mode) {a b : Nat} (h : b ≤ a) : subU32 m a b = .ok (a - b) := by
  simp [subU32, h]

/-! ## Byte lists -/

@[simp] theorem length_bytesOf (n : Nat) (g : Bits) : (bytesOf n g).length = n := by
  simp [bytesOf]

theorem getElem?_bytesOf (n : Nat) (g : Bits) (k : Nat) :
    (bytesOf n g)[k]? = if k < n then some (ofBits 8 fun j => g (8 * k + j)) else none := by
  simp only [bytesOf, List.getElem?_map]
  by_cases h : k < n
  · simp [h]
  · simp [h]

theorem getB_bytesOf {n k : Nat} (g : Bits) (h : k < n) :
    getB (bytesOf n g) k = .ok (ofBits 8 fun j => g (8 * k + j)) := by
  simp only [getB, getElem?_bytesOf, h, if_true]

theorem bytesOf_congr {n : Nat} {g h : Bits} (e : ∀ i < 8 * n, g i = h i) :
    bytesOf n g = bytesOf n h := by
  apply List.ext_getElem?
  intro k
  simp only [getElem?_bytesOf]
  by_cases hk : k < n
  · simp only [hk, if_true]
    congr 1
    apply ofBits_congr
    intro j hj
    exact e _ (by omega)
  · simp [hk]

theorem setB_bytesOf {n k : Nat} (g h : Bits) (hk : k < n) :
    setB (bytesOf n g) k (ofBits 8 h) =
      .ok (bytesOf n fun i => if i / 8 = k then h (i % 8) else g i) := by
  simp only [setB, length_bytesOf, hk, if_true]
  congr 1
  apply List.ext_getElem?
  intro l
  simp only [List.getElem?_set, getElem?_bytesOf, length_bytesOf]
  by_cases hl : l < n
  · by_cases hkl : k = l
    · subst hkl
      simp only [hl, if_true]
      congr 1
      apply ofBits_congr
      intro j hj
      rw [if_pos (by omega)]
      congr 1
      omega
    · simp only [hl, hkl, if_true, if_false]
      congr 1
      apply ofBits_congr
      intro j hj
      rw [if_neg (by omega)]
  · have : k ≠ l := by omega
    simp [hl, this]

theorem bit_list_eq_bytesOf {n : Nat} {bs : List (BitVec 8)} (h : bs.length = n) :
    bs = bytesOf n (fun i => (bs.getD (i / 8) 0#8).getLsbD (i % 8)) := by
  apply List.ext_getElem?
  intro k
  rw [getElem?_bytesOf]
  by_cases hk : k < n
  · have hk' : k < bs.length := by omega
    simp only [hk, if_true, List.getElem?_eq_getElem hk']
    congr 1
    apply eq_ofBits
    intro j hj
    have e1 : (8 * k + j) / 8 = k := by omega
    have e2 : (8 * k + j) % 8 = j := by omega
    simp [e1, e2, List.getD, List.getElem?_eq_getElem hk']
  · rw [List.getElem?_eq_none (by omega)]
    simp [hk]

theorem bytesOf_bit (n : Nat) (g : Bits) (i : Nat) :
    ((bytesOf n g).getD (i / 8) 0#8).getLsbD (i % 8) = (decide (i < 8 * n) && g i) := by
  simp only [List.getD, getElem?_bytesOf]
  by_cases h : i < 8 * n
  · have : i / 8 < n := by omega
    simp only [this, if_true, Option.getD_some, getLsbD_ofBits, h, decide_true, Bool.true_and]
    rw [decide_eq_true (by omega), Bool.true_and]
    congr 1
    omega
  · have : ¬ i / 8 < n := by omega
    simp [this, h]

theorem bytesOf_zero (n : Nat) : bytesOf n (fun _ => false) = List.replicate n 0#8 := by
  apply List.ext_getElem?
  intro k
  rw [getElem?_bytesOf, List.getElem?_replicate]
  congr 2

/-! ## Bytes -/

theorem putBit_ofBits (g : Bits) {k : Nat} (hk : k < 8) (x : Bool) :
    putBit (ofBits 8 g) k x = ofBits 8 fun j => if j = k then x else g j := by
  apply eq_ofBits
  intro j hj
  cases x
  · simp only [putBit, Bool.false_eq_true, if_false, BitVec.getLsbD_and, BitVec.getLsbD_not,
      BitVec.getLsbD_shiftLeft, BitVec.getLsbD_one, getLsbD_ofBits]
    by_cases h : j = k
    · subst h; simp [hj]
    · by_cases h2 : j < k
      · simp [hj, h, h2]
      · simp [hj, h, show ¬ (j - k = 0) by omega]
  · simp only [putBit, if_true, BitVec.getLsbD_or,
      BitVec.getLsbD_shiftLeft, BitVec.getLsbD_one, getLsbD_ofBits]
    by_cases h : j = k
    · subst h; simp [hj]
    · by_cases h2 : j < k
      · simp [hj, h, h2]
      · simp [hj, h, show ¬ (j - k = 0) by omega]

theorem byteBit_ofBits (g : Bits) {k : Nat} (hk : k < 8) :
    (ofBits 8 g >>> k) &&& 1#8 = ofBits 8 fun j => decide (j = 0) && g k := by
  apply eq_ofBits
  intro j hj
  simp only [BitVec.getLsbD_and, BitVec.getLsbD_ushiftRight, BitVec.getLsbD_one, getLsbD_ofBits]
  by_cases h : j = 0
  · subst h; simp [hk]
  · simp [h]

theorem ofBits_single_eq_one (x : Bool) :
    ((ofBits 8 fun j => decide (j = 0) && x) == 1#8) = x := by cases x <;> decide

theorem ofBits_single_ne_zero (x : Bool) :
    ((ofBits 8 fun j => decide (j = 0) && x) != 0#8) = x := by cases x <;> decide

/-! ## Stores -/

theorem Store.bit_ofBits (b : Backing) (g : Bits) (i : Nat) :
    (Store.ofBits b g).bit i = (decide (i < b.size) && g i) := by
  cases b with
  | int w => exact getLsbD_ofBits w g i
  | arr n => exact bytesOf_bit n g i

theorem Store.ofBits_arr (n : Nat) (g : Bits) : Store.ofBits (.arr n) g = .arr (bytesOf n g) := rfl

theorem Store.ofBits_int (w : Nat) (g : Bits) :
    Store.ofBits (.int w) g = .int w (Bf.ofBits w g) := rfl

@[simp] theorem Store.hasBacking_ofBits (b : Backing) (g : Bits) :
    (Store.ofBits b g).HasBacking b := by
  cases b <;> simp [Store.ofBits, Store.HasBacking]

theorem Store.ofBits_congr {b : Backing} {g h : Bits} (e : ∀ i < b.size, g i = h i) :
    Store.ofBits b g = Store.ofBits b h := by
  cases b with
  | int w => simp only [Store.ofBits]; congr 1; exact Bf.ofBits_congr e
  | arr n => rw [Store.ofBits_arr, Store.ofBits_arr, bytesOf_congr e]

theorem Store.ofBits_bit {b : Backing} {s : Store} (h : s.HasBacking b) :
    Store.ofBits b s.bit = s := by
  cases s with
  | int w v =>
    cases b with
    | int w' =>
      have : w = w' := h
      subst this
      simp only [Store.ofBits, Store.bit]
      congr 1
      exact ofBits_getLsbD v
    | arr n => exact absurd h id
  | arr bs =>
    cases b with
    | int w => exact absurd h id
    | arr n =>
      have h' : bs.length = n := h
      rw [Store.ofBits_arr]
      congr 1
      exact (bit_list_eq_bytesOf h').symm

theorem Store.eq_ofBits {b : Backing} {s : Store} (h : s.HasBacking b) {g : Bits}
    (e : ∀ i < b.size, s.bit i = g i) : s = Store.ofBits b g := by
  rw [← Store.ofBits_bit h]
  exact Store.ofBits_congr e

theorem Store.ext {b : Backing} {s t : Store} (hs : s.HasBacking b) (ht : t.HasBacking b)
    (e : ∀ i < b.size, s.bit i = t.bit i) : s = t := by
  rw [Store.eq_ofBits hs e, Store.ofBits_bit ht]

theorem Store.bit_ge {b : Backing} {s : Store} (h : s.HasBacking b) {i : Nat} (hi : b.size ≤ i) :
    s.bit i = false := by
  rw [← Store.ofBits_bit h, Store.bit_ofBits]
  simp [show ¬ i < b.size by omega]

theorem Store.bit_ofBits_lt {b : Backing} {g : Bits} {i : Nat} (h : i < b.size) :
    (Store.ofBits b g).bit i = g i := by
  simp [Store.bit_ofBits, h]

/-- every store of a backing is `ofBits` of something; handy for case analysis -/
theorem Store.cases_ofBits {b : Backing} {s : Store} (h : s.HasBacking b) :
    ∃ g, s = Store.ofBits b g := ⟨s.bit, (Store.ofBits_bit h).symm⟩

theorem Store.ofBits_inj {b : Backing} {g h : Bits} (e : Store.ofBits b g = Store.ofBits b h) :
    ∀ i < b.size, g i = h i := by
  intro i hi
  have := congrArg (fun s => s.bit i) e
  simpa [Store.bit_ofBits, hi] using this

end Bf
