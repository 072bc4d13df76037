import Verif.Lemmas.Effect
import Verif.SpecCall

/-!
# Range arguments outside `RangeOK`

What the range functions do when `offset + length` overflows `u32`, or when an integer-backed
bitfield is given length 0.
-/

namespace Bf

variable {B : Bitfield}

/-- A range the generated code does not handle: the offset is inside the bitfield, and either
`offset + length` overflows or the length is 0 on an integer-backed bitfield. -/
def RangeOdd (b : Backing) (o l : Nat) : Prop :=
  o < b.size ∧ (2 ^ 32 ≤ o + l ∨ (l = 0 ∧ ∃ w, b = .int w))

theorem rangeOK_or_odd (b : Backing) (o l : Nat) : RangeOK b o l ∨ RangeOdd b o l := by
  unfold RangeOK RangeOdd
  by_cases h1 : o < b.size
  · by_cases h2 : o + l < 2 ^ 32
    · by_cases h3 : l = 0
      · cases b with
        | int w => exact .inr ⟨h1, .inr ⟨h3, w, rfl⟩⟩
        | arr n => exact .inl fun _ => ⟨h2, fun _ => ⟨n, rfl⟩⟩
      · exact .inl fun _ => ⟨h2, fun h => absurd h h3⟩
    · exact .inr ⟨h1, .inl (by omega)⟩
  · exact .inl fun h => absurd h h1

/-- The `u32` computations of the integer-backed functions in release mode, for an odd range:
the mask has at least the bits from the offset up. -/
theorem odd_int_wrapping {w o l : Nat} (hw : w ≤ 128) (ho : o < w) (hl : l < 2 ^ 32)
    (h : 2 ^ 32 ≤ o + l ∨ l = 0) :
    ∃ sum k j, addU32 .wrapping o l = .ok sum ∧ ¬ sum > w ∧ subU32 .wrapping w l = .ok k ∧
      shr .wrapping (maxOf w) k = .ok (maxOf w >>> j) ∧ j ≤ o := by
  rcases h with h | rfl
  · refine ⟨(o + l) % 2 ^ 32, (w + 2 ^ 32 - l) % 2 ^ 32, 2 ^ 32 - l, ?_, ?_, ?_, ?_, by omega⟩
    · unfold addU32; rw [if_neg (by omega)]
    · have : (o + l) % 2 ^ 32 = o + l - 2 ^ 32 := by
        rw [Nat.mod_eq_sub_mod h, Nat.mod_eq_of_lt (by omega)]
      omega
    · unfold subU32; rw [if_neg (by omega)]
    · have e : (w + 2 ^ 32 - l) % 2 ^ 32 = w + (2 ^ 32 - l) := by
        rw [Nat.mod_eq_of_lt (by omega)]; omega
      rw [e]
      unfold shr
      rw [if_neg (by omega)]
      simp only
      rw [Nat.add_mod_left, Nat.mod_eq_of_lt (by omega)]
  · refine ⟨o, w, 0, ?_, by omega, ?_, ?_, by omega⟩
    · unfold addU32; rw [if_pos (by omega)]; rfl
    · unfold subU32; rw [if_pos (by omega)]; rfl
    · unfold shr; rw [if_neg (by omega)]; simp only [Nat.mod_self]

theorem maxShr_shl {w o j : Nat} (hj : j ≤ o) :
    ((maxOf w >>> j) <<< o : BitVec w) = maxOf w <<< o := by
  apply BitVec.eq_of_getLsbD_eq
  intro i hi
  simp only [BitVec.getLsbD_shiftLeft, BitVec.getLsbD_ushiftRight, maxOf, BitVec.getLsbD_allOnes]
  by_cases h : i < o
  · simp [h]
  · simp only [hi, h]
    simp [show j + (i - o) < w by omega, show i - o < w by omega]

theorem andShr_shl {w o j : Nat} (hj : j ≤ o) (x : BitVec w) :
    ((x &&& maxOf w >>> j) <<< o : BitVec w) = x <<< o := by
  apply BitVec.eq_of_getLsbD_eq
  intro i hi
  simp only [BitVec.getLsbD_shiftLeft, BitVec.getLsbD_ushiftRight, BitVec.getLsbD_and, maxOf,
    BitVec.getLsbD_allOnes]
  by_cases h : i < o
  · simp [h]
  · simp [h, show j + (i - o) < w by omega]

theorem shr_andShr {w o j : Nat} (hj : j ≤ o) (v : BitVec w) :
    (v >>> o) &&& (maxOf w >>> j) = v >>> o := by
  apply BitVec.eq_of_getLsbD_eq
  intro i hi
  simp only [BitVec.getLsbD_ushiftRight, BitVec.getLsbD_and, maxOf,
    BitVec.getLsbD_allOnes]
  by_cases h : o + i < w
  · simp [show j + i < w by omega]
  · rw [BitVec.getLsbD_of_ge v (o + i) (by omega)]; rfl

theorem full_int (m : Mode) {w o : Nat} (hw : w ≤ 128) (ho : o < w) :
    addU32 m o (w - o) = .ok w ∧ subU32 m w (w - o) = .ok o ∧
      shr m (maxOf w) o = .ok (maxOf w >>> o) := by
  refine ⟨?_, ?_, shr_ok m _ ho⟩
  · rw [addU32_ok m (by omega)]; exact congrArg Except.ok (by omega)
  · rw [subU32_ok m (by omega)]; exact congrArg Except.ok (by omega)

/-- In release mode an odd range of an integer-backed bitfield is the range from the offset
to the top. -/
theorem apiSetRange_odd_int {w o l : Nat} (hb : B.backing = .int w) (hw : w ≤ 128) (ho : o < w)
    (hl : l < 2 ^ 32) (h : 2 ^ 32 ≤ o + l ∨ l = 0) (v x : BitVec w) :
    apiSetRange .wrapping B (.int w v) o l (.int w x) =
      apiSetRange .wrapping B (.int w v) o (w - o) (.int w x) := by
  obtain ⟨sum, k, j, h1, h2, h3, h4, h5⟩ := odd_int_wrapping hw ho hl h
  obtain ⟨g1, g2, g3⟩ := full_int .wrapping hw ho
  unfold apiSetRange
  rw [hb, show (Backing.int w).size = w from rfl, if_neg (by omega), if_neg (by omega), h1, g1]
  simp only [R_bind_ok]
  rw [if_neg h2, if_neg (Nat.lt_irrefl w)]
  simp only [dite_true, h3, g2, h4, g3, R_bind_ok, shl_ok _ _ ho]
  rw [maxShr_shl h5, maxShr_shl (Nat.le_refl o)]

theorem apiCheckedSetRange_odd_int {w o l : Nat} (hb : B.backing = .int w) (hw : w ≤ 128)
    (ho : o < w) (hl : l < 2 ^ 32) (h : 2 ^ 32 ≤ o + l ∨ l = 0) (v x : BitVec w) :
    apiCheckedSetRange .wrapping B (.int w v) o l (.int w x) =
      apiCheckedSetRange .wrapping B (.int w v) o (w - o) (.int w x) := by
  obtain ⟨sum, k, j, h1, h2, h3, h4, h5⟩ := odd_int_wrapping hw ho hl h
  obtain ⟨g1, g2, g3⟩ := full_int .wrapping hw ho
  unfold apiCheckedSetRange
  rw [hb, show (Backing.int w).size = w from rfl, if_neg (by omega), if_neg (by omega), h1, g1]
  simp only [R_bind_ok]
  rw [if_neg h2, if_neg (Nat.lt_irrefl w)]
  simp only [dite_true, h3, g2, h4, g3, R_bind_ok, shl_ok _ _ ho]
  rw [maxShr_shl h5, maxShr_shl (Nat.le_refl o), andShr_shl h5, andShr_shl (Nat.le_refl o)]

theorem apiGetRange_odd_int {w o l : Nat} (hb : B.backing = .int w) (hw : w ≤ 128)
    (ho : o < w) (hl : l < 2 ^ 32) (h : 2 ^ 32 ≤ o + l ∨ l = 0) (v : BitVec w) :
    apiGetRange .wrapping B (.int w v) o l = apiGetRange .wrapping B (.int w v) o (w - o) := by
  obtain ⟨sum, k, j, h1, h2, h3, h4, h5⟩ := odd_int_wrapping hw ho hl h
  obtain ⟨g1, g2, g3⟩ := full_int .wrapping hw ho
  unfold apiGetRange
  rw [hb, show (Backing.int w).size = w from rfl, if_neg (by omega), if_neg (by omega), h1, g1]
  simp only [R_bind_ok]
  rw [if_neg h2, if_neg (Nat.lt_irrefl w)]
  simp only [h3, g2, h4, g3, R_bind_ok, shr_ok _ _ ho]
  refine congrArg (fun z => Except.ok (Store.int w z)) ?_
  rw [shr_andShr h5, shr_andShr h5, shr_andShr (Nat.le_refl o), shr_andShr (Nat.le_refl o),
    ← BitVec.and_assoc, ← BitVec.and_assoc, shr_andShr h5, shr_andShr (Nat.le_refl o)]

theorem apiCheckedGetRange_odd_int {w o l : Nat} (hb : B.backing = .int w) (hw : w ≤ 128)
    (ho : o < w) (hl : l < 2 ^ 32) (h : 2 ^ 32 ≤ o + l ∨ l = 0) (v : BitVec w) :
    apiCheckedGetRange .wrapping B (.int w v) o l =
      apiCheckedGetRange .wrapping B (.int w v) o (w - o) := by
  obtain ⟨sum, k, j, h1, h2, h3, h4, h5⟩ := odd_int_wrapping hw ho hl h
  obtain ⟨g1, g2, g3⟩ := full_int .wrapping hw ho
  unfold apiCheckedGetRange
  rw [hb, show (Backing.int w).size = w from rfl, if_neg (by omega), if_neg (by omega), h1, g1]
  simp only [R_bind_ok]
  rw [if_neg h2, if_neg (Nat.lt_irrefl w)]
  simp only [h3, g2, h4, g3, R_bind_ok, shr_ok _ _ ho, shl_ok _ _ ho]
  rw [maxShr_shl h5, maxShr_shl (Nat.le_refl o), shr_andShr h5, shr_andShr (Nat.le_refl o)]

/-- The panic of an odd range with overflow checks. -/
def oddPanic (o l : Nat) : Panic := if 2 ^ 32 ≤ o + l then .arith else .shift

theorem addU32_odd {o l : Nat} (h : 2 ^ 32 ≤ o + l) : addU32 .checked o l = .error .arith := by
  unfold addU32; rw [if_neg (by omega)]

theorem odd_int_checked {w o : Nat} (hw : w ≤ 128) (ho : o < w) :
    addU32 .checked o 0 = .ok o ∧ subU32 .checked w 0 = .ok w ∧
      shr .checked (maxOf w) w = .error .shift := by
  refine ⟨addU32_ok _ (by omega), subU32_ok _ (by omega), ?_⟩
  unfold shr; rw [if_neg (by omega)]

/-- With overflow checks every range function panics on an odd range. -/
theorem odd_checked {o l : Nat} (hB : WF B) (h : RangeOdd B.backing o l) (s x : Store)
    (hs : s.HasBacking B.backing) (hx : x.HasBacking B.backing) :
    apiSetRange .checked B s o l x = .error (oddPanic o l) ∧
    apiCheckedSetRange .checked B s o l x = .error (oddPanic o l) ∧
    apiGetRange .checked B s o l = .error (oddPanic o l) ∧
    apiCheckedGetRange .checked B s o l = .error (oddPanic o l) := by
  obtain ⟨ho, h⟩ := h
  unfold apiSetRange apiCheckedSetRange apiGetRange apiCheckedGetRange oddPanic
  have hn : ¬ o ≥ B.backing.size := by omega
  rw [if_neg hn, if_neg hn, if_neg hn, if_neg hn]
  by_cases h1 : 2 ^ 32 ≤ o + l
  · rw [if_pos h1, addU32_odd h1]
    exact ⟨rfl, rfl, rfl, rfl⟩
  · obtain ⟨hl, w, hb⟩ := h.resolve_left h1
    subst hl
    have hw := hB.backing
    rw [hb] at hs hx ho hw ⊢
    have hw' : w ≤ 128 := by simp only [Backing.OK] at hw; omega
    obtain ⟨g1, g2, g3⟩ := odd_int_checked hw' ho
    cases s with
    | arr bs => cases hs
    | int w1 v =>
      cases x with
      | arr bs => cases hx
      | int w2 x =>
        cases hs
        cases hx
        rw [if_neg h1, g1]
        simp only [R_bind_ok]
        rw [if_neg (show ¬ o > (Backing.int w).size by omega),
          if_neg (show ¬ o > (Backing.int w).size by omega),
          if_neg (show ¬ o > (Backing.int w).size by omega),
          if_neg (show ¬ o > (Backing.int w).size by omega)]
        simp only [dite_true, g2, R_bind_ok, g3]
        exact ⟨rfl, rfl, rfl, rfl⟩

theorem forUpTo_error {σ : Type} {P : Panic → Prop} {body : Nat → σ → R σ}
    (hb : ∀ i s p, body i s = .error p → P p) {n k : Nat} (hk : k < n)
    (he : ∀ s, ∃ p, body k s = .error p) (s : σ) : ∃ p, forUpTo n body s = .error p ∧ P p := by
  have hP : ∀ n s p, forUpTo n body s = .error p → P p := by
    intro n
    induction n with
    | zero => intro s p h; cases h
    | succ n ih =>
      intro s p h
      rcases Rbind_err h with h | ⟨x, _, h⟩
      · exact ih s p h
      · exact hb n x p h
  have hE : ∃ p, forUpTo n body s = .error p := by
    induction n with
    | zero => omega
    | succ n ih =>
      simp only [forUpTo]
      by_cases h : k < n
      · obtain ⟨p, h⟩ := ih h
        exact ⟨p, by rw [h]; rfl⟩
      · have : k = n := by omega
        subst this
        cases h1 : forUpTo k body s with
        | error p => exact ⟨p, rfl⟩
        | ok x => exact he x
  obtain ⟨p, h⟩ := hE
  exact ⟨p, h, hP n s p h⟩

theorem bitAt_error {bs : List (BitVec 8)} {i : Nat} (h : bs.length ≤ i / 8) :
    bitAt bs i = .error .index := by
  unfold bitAt getB
  rw [List.getElem?_eq_none h]
  rfl

theorem getB_index {bs : List (BitVec 8)} {i : Nat} {p : Panic} (h : getB bs i = .error p) :
    p = .index := by
  unfold getB at h
  split at h <;> cases h
  rfl

theorem setB_index {bs : List (BitVec 8)} {i : Nat} {b : BitVec 8} {p : Panic}
    (h : setB bs i b = .error p) : p = .index := by
  unfold setB at h
  split at h <;> cases h
  rfl

theorem bitAt_index {bs : List (BitVec 8)} {i : Nat} {p : Panic} (h : bitAt bs i = .error p) :
    p = .index := by
  unfold bitAt at h
  rcases Rbind_err h with h | ⟨_, _, h⟩
  · exact getB_index h
  · cases h

theorem addU32_wrapping (a b : Nat) : ∃ n, addU32 .wrapping a b = .ok n := by
  unfold addU32
  split
  · exact ⟨_, rfl⟩
  · exact ⟨_, rfl⟩

theorem addU32_top {n o : Nat} (ho : o < 8 * n) (hn : 8 * n < 2 ^ 32) :
    addU32 .wrapping o (8 * n - o) = .ok (8 * n) := by
  rw [addU32_ok _ (by omega)]; exact congrArg Except.ok (by omega)

theorem anyProtected_odd {n o l : Nat} (ho : o < 8 * n) (hn : 8 * n < 2 ^ 32)
    (h : 2 ^ 32 ≤ o + l) (p : Bits) :
    anyProtected .wrapping (bytesOf n p) o l = .error .index ∨
      anyProtected .wrapping (bytesOf n p) o l = .ok true := by
  unfold anyProtected
  have key : ∀ k s, (∃ b, forUpTo k (fun i (found : Bool) => do
      if found then return true
      else
        let dst ← addU32 .wrapping o i
        bitAt (bytesOf n p) dst) s = .ok b ∧ (8 * n - o < k → b = true)) ∨
      forUpTo k (fun i (found : Bool) => do
      if found then return true
      else
        let dst ← addU32 .wrapping o i
        bitAt (bytesOf n p) dst) s = .error .index := by
    intro k s
    induction k with
    | zero => exact .inl ⟨s, rfl, fun h => by omega⟩
    | succ k ih =>
      rcases ih with ⟨b, h1, h2⟩ | h1
      · simp only [forUpTo]
        rw [h1]
        cases b with
        | true => exact .inl ⟨true, rfl, fun _ => rfl⟩
        | false =>
          simp only [R_bind_ok, Bool.false_eq_true, if_false]
          obtain ⟨d, hd⟩ := addU32_wrapping o k
          rw [hd]
          simp only [R_bind_ok]
          cases hb : bitAt (bytesOf n p) d with
          | error q => exact .inr (by rw [bitAt_index hb])
          | ok b =>
            refine .inl ⟨b, rfl, fun hk => ?_⟩
            by_cases hk' : 8 * n - o < k
            · exact absurd (h2 hk') (by decide)
            · have : k = 8 * n - o := by omega
              subst this
              rw [addU32_top ho hn] at hd
              cases hd
              rw [bitAt_error (by rw [length_bytesOf]; omega)] at hb
              cases hb
      · exact .inr (by simp only [forUpTo]; rw [h1]; rfl)
  rcases key l false with ⟨b, h1, h2⟩ | h1
  · right; rw [h1, h2 (by omega)]
  · left; exact h1

theorem odd_arr_sum {n o l : Nat} (ho : o < 8 * n) (hn : 8 * n < 2 ^ 32) (hl : l < 2 ^ 32)
    (h : 2 ^ 32 ≤ o + l) : ∃ sum, addU32 .wrapping o l = .ok sum ∧ ¬ sum > 8 * n := by
  refine ⟨(o + l) % 2 ^ 32, ?_, ?_⟩
  · unfold addU32; rw [if_neg (by omega)]
  · rw [Nat.mod_eq_sub_mod h, Nat.mod_eq_of_lt (by omega)]; omega

/-- In release mode the unchecked range functions of an array-backed bitfield panic on an odd
range. -/
theorem odd_arr_wrapping {n o l : Nat} (hb : B.backing = .arr n) (hn : 8 * n < 2 ^ 32)
    (ho : o < 8 * n) (hl : l < 2 ^ 32) (h : 2 ^ 32 ≤ o + l) (bs x : List (BitVec 8)) :
    apiSetRange .wrapping B (.arr bs) o l (.arr x) = .error .index ∧
    apiGetRange .wrapping B (.arr bs) o l = .error .index := by
  obtain ⟨sum, h1, h2⟩ := odd_arr_sum ho hn hl h
  unfold apiSetRange apiGetRange
  rw [hb, show (Backing.arr n).size = 8 * n from rfl, if_neg (by omega), if_neg (by omega), h1]
  simp only [R_bind_ok]
  rw [if_neg h2, if_neg h2]
  have hlen : ∀ fs, (protMaskBytes fs n).length ≤ (8 * n) / 8 := by
    intro fs; rw [protMaskBytes_eq, length_bytesOf]; omega
  refine ⟨?_, ?_⟩
  · have key : ∃ p, forUpTo l (fun i bs => do
          let bv ← bitAt x i
          let dst ← addU32 .wrapping o i
          let p ← bitAt (protMaskBytes (protectedFields B .readOnly) n) dst
          if !p then do
            let b ← getB bs (dst / 8)
            setB bs (dst / 8) (putBit b (dst % 8) bv)
          else return bs) bs = .error p ∧ p = .index := by
      refine forUpTo_error (P := (· = Panic.index)) (k := 8 * n - o) ?_ (by omega) ?_ _
      · intro i s p he
        rcases Rbind_err he with he | ⟨_, _, he⟩
        · exact bitAt_index he
        · obtain ⟨d, hd⟩ := addU32_wrapping o i
          rw [hd] at he
          rcases Rbind_err (show (bitAt _ d >>= _) = _ from he) with he | ⟨_, _, he⟩
          · exact bitAt_index he
          · split at he
            · rcases Rbind_err he with he | ⟨_, _, he⟩
              · exact getB_index he
              · exact setB_index he
            · cases he
      · intro s
        cases hx : bitAt x (8 * n - o) with
        | error p => exact ⟨p, rfl⟩
        | ok b =>
          simp only [R_bind_ok]
          rw [addU32_top ho hn]
          simp only [R_bind_ok]
          rw [bitAt_error (hlen _)]
          exact ⟨_, rfl⟩
    obtain ⟨p, e, hp⟩ := key
    rw [e, hp]; rfl
  · have key : ∃ p, forUpTo l (fun i res => do
          let src ← addU32 .wrapping o i
          let p ← bitAt (protMaskBytes (protectedFields B .writeOnly) n) src
          if !p then do
            let b ← getB bs (src / 8)
            let bv := (b >>> (src % 8)) &&& 1#8
            let r ← getB res (i / 8)
            setB res (i / 8) (r ||| (bv <<< (i % 8)))
          else return res) (List.replicate n 0#8) = .error p ∧ p = .index := by
      refine forUpTo_error (P := (· = Panic.index)) (k := 8 * n - o) ?_ (by omega) ?_ _
      · intro i s p he
        obtain ⟨d, hd⟩ := addU32_wrapping o i
        rw [hd] at he
        rcases Rbind_err (show (bitAt _ d >>= _) = _ from he) with he | ⟨_, _, he⟩
        · exact bitAt_index he
        · split at he
          · rcases Rbind_err he with he | ⟨_, _, he⟩
            · exact getB_index he
            · rcases Rbind_err he with he | ⟨_, _, he⟩
              · exact getB_index he
              · exact setB_index he
          · cases he
      · intro s
        rw [addU32_top ho hn]
        simp only [R_bind_ok]
        rw [bitAt_error (hlen _)]
        exact ⟨_, rfl⟩
    obtain ⟨p, e, hp⟩ := key
    rw [e, hp]; rfl

/-- In release mode the checked range functions of an array-backed bitfield panic on an odd
range, or fail. Which of them does not depend on the state. -/
theorem odd_arr_wrapping_checked {n o l : Nat} (hb : B.backing = .arr n) (hn : 8 * n < 2 ^ 32)
    (ho : o < 8 * n) (hl : l < 2 ^ 32) (h : 2 ^ 32 ≤ o + l) :
    ((∀ bs x, apiCheckedSetRange .wrapping B (.arr bs) o l (.arr x) = .error .index) ∨
      (∀ bs x, apiCheckedSetRange .wrapping B (.arr bs) o l (.arr x) =
        .ok (.error errWrite, .arr bs))) ∧
    ((∀ bs, apiCheckedGetRange .wrapping B (.arr bs) o l = .error .index) ∨
      (∀ bs, apiCheckedGetRange .wrapping B (.arr bs) o l = .ok (.error errRead))) := by
  obtain ⟨sum, h1, h2⟩ := odd_arr_sum ho hn hl h
  unfold apiCheckedSetRange apiCheckedGetRange
  have hno : ¬ o ≥ 8 * n := by omega
  simp only [hb, show (Backing.arr n).size = 8 * n from rfl, if_neg hno, h1, R_bind_ok, if_neg h2,
    protMaskBytes_eq]
  constructor
  · rcases anyProtected_odd ho hn h (anyCovers (protectedFields B .readOnly)) with e | e
    · left; intro bs x; rw [e]; rfl
    · right; intro bs x; rw [e]; rfl
  · rcases anyProtected_odd ho hn h (anyCovers (protectedFields B .writeOnly)) with e | e
    · left; intro bs; rw [e]; rfl
    · right; intro bs; rw [e]; rfl

/-- Every well-typed call is in the domain of the refinement, or panics from every state, or fails
from every state without changing it, or does the same as another call that is in the
domain. -/
theorem typed_cases (m : Mode) (hB : WF B) (hS : Supported B) {c : Call} (hc : c.Typed B) :
    c.Valid B ∨
    (∃ p, ∀ s : Store, s.HasBacking B.backing → call m B c s = .error p) ∨
    (∃ msg, ∀ s : Store, s.HasBacking B.backing → call m B c s = .ok (.fail msg, s)) ∨
    (∃ c' : Call, c'.Valid B ∧ c'.Resets = c.Resets ∧ c'.Reveals = c.Reveals ∧
      c'.isInvert = c.isInvert ∧ c'.IsRead = c.IsRead ∧
      ∀ s : Store, s.HasBacking B.backing → call m B c s = call m B c' s) := by
  have hOK := hB.backing
  cases c with
  | checkedSet f v =>
    obtain ⟨hf, hw, hv⟩ := hc
    right; right
    have e := fun g => checkedSet_eq m hB.backing (hB.field f hf) (hS.field f hf) hv g
    by_cases ht : codeTooBig B.backing f v = true
    · refine .inl ⟨errTooBig, fun s hs => ?_⟩
      obtain ⟨g, rfl⟩ := Store.cases_ofBits hs
      simp only [call, e, ht, if_true]
      rfl
    · refine .inr ⟨.set f v, ⟨hf, hw, hv⟩, rfl, rfl, rfl, rfl, fun s hs => ?_⟩
      obtain ⟨g, rfl⟩ := Store.cases_ofBits hs
      simp only [call, e, setX_eq m hB.backing (hB.field f hf) (hS.field f hf) hv, if_neg ht]
      cases settle f v <;> rfl
  | getRange o l =>
    rcases rangeOK_or_odd B.backing o l with h | h
    · exact .inl h
    · right
      cases m with
      | checked =>
        refine .inl ⟨oddPanic o l, fun s hs => ?_⟩
        simp only [call, (odd_checked hB h s s hs hs).2.2.1]
        rfl
      | wrapping =>
        cases hb : B.backing with
        | int w =>
          rw [hb] at hOK h
          have hw : w ≤ 128 := by simp only [Backing.OK] at hOK; omega
          have ho : o < w := h.1
          have h' : 2 ^ 32 ≤ o + l ∨ l = 0 := h.2.imp id fun h => h.1
          refine .inr (.inr ⟨.getRange o (w - o), ?_, rfl, rfl, rfl, rfl, fun s hs => ?_⟩)
          · show RangeOK B.backing o (w - o)
            rw [hb]; exact fun _ => ⟨by omega, by omega⟩
          · cases s with
            | arr bs => cases hs
            | int w1 v =>
              cases hs
              simp only [call, apiGetRange_odd_int hb hw ho hc.2 h']
        | arr n =>
          rw [hb] at hOK h
          simp only [Backing.OK] at hOK
          refine .inl ⟨.index, fun s hs => ?_⟩
          cases s with
          | int w1 v => cases hs
          | arr bs =>
            have h' : 2 ^ 32 ≤ o + l := h.2.resolve_right fun h => by obtain ⟨_, _, h⟩ := h; cases h
            simp only [call, (odd_arr_wrapping hb hOK.2 h.1 hc.2 h' bs bs).2]
            rfl
  | checkedGetRange o l =>
    rcases rangeOK_or_odd B.backing o l with h | h
    · exact .inl h
    · right
      cases m with
      | checked =>
        refine .inl ⟨oddPanic o l, fun s hs => ?_⟩
        simp only [call, (odd_checked hB h s s hs hs).2.2.2]
        rfl
      | wrapping =>
        cases hb : B.backing with
        | int w =>
          rw [hb] at hOK h
          have hw : w ≤ 128 := by simp only [Backing.OK] at hOK; omega
          have ho : o < w := h.1
          have h' : 2 ^ 32 ≤ o + l ∨ l = 0 := h.2.imp id fun h => h.1
          refine .inr (.inr ⟨.checkedGetRange o (w - o), ?_, rfl, rfl, rfl, rfl, fun s hs => ?_⟩)
          · show RangeOK B.backing o (w - o)
            rw [hb]; exact fun _ => ⟨by omega, by omega⟩
          · cases s with
            | arr bs => cases hs
            | int w1 v =>
              cases hs
              simp only [call, apiCheckedGetRange_odd_int hb hw ho hc.2 h']
        | arr n =>
          rw [hb] at hOK h
          simp only [Backing.OK] at hOK
          have h' : 2 ^ 32 ≤ o + l := h.2.resolve_right fun h => by obtain ⟨_, _, h⟩ := h; cases h
          rcases (odd_arr_wrapping_checked hb hOK.2 h.1 hc.2 h').2 with e | e
          · refine .inl ⟨.index, fun s hs => ?_⟩
            cases s with
            | int w1 v => cases hs
            | arr bs => simp only [call, e]; rfl
          · refine .inr (.inl ⟨errRead, fun s hs => ?_⟩)
            cases s with
            | int w1 v => cases hs
            | arr bs => simp only [call, e]; rfl
  | setRange o l x =>
    rcases rangeOK_or_odd B.backing o l with h | h
    · exact .inl ⟨h, hc.2.2⟩
    · right
      have hx := hc.2.2
      cases m with
      | checked =>
        refine .inl ⟨oddPanic o l, fun s hs => ?_⟩
        simp only [call, (odd_checked hB h s x hs hx).1]
        rfl
      | wrapping =>
        cases hb : B.backing with
        | int w =>
          rw [hb] at hOK h hx
          have hw : w ≤ 128 := by simp only [Backing.OK] at hOK; omega
          have ho : o < w := h.1
          have h' : 2 ^ 32 ≤ o + l ∨ l = 0 := h.2.imp id fun h => h.1
          refine .inr (.inr ⟨.setRange o (w - o) x, ?_, rfl, rfl, rfl, rfl, fun s hs => ?_⟩)
          · refine ⟨?_, hc.2.2⟩
            rw [hb]; exact fun _ => ⟨by omega, by omega⟩
          · cases s with
            | arr bs => cases hs
            | int w1 v =>
              cases x with
              | arr bs => cases hx
              | int w2 x =>
                cases hs
                cases hx
                simp only [call, apiSetRange_odd_int hb hw ho hc.2.1 h']
        | arr n =>
          rw [hb] at hOK h hx
          simp only [Backing.OK] at hOK
          refine .inl ⟨.index, fun s hs => ?_⟩
          cases s with
          | int w1 v => cases hs
          | arr bs =>
            cases x with
            | int w2 x => cases hx
            | arr x =>
              have h' : 2 ^ 32 ≤ o + l := h.2.resolve_right fun h => by
                obtain ⟨_, _, h⟩ := h; cases h
              simp only [call, (odd_arr_wrapping hb hOK.2 h.1 hc.2.1 h' bs x).1]
              rfl
  | checkedSetRange o l x =>
    rcases rangeOK_or_odd B.backing o l with h | h
    · exact .inl ⟨h, hc.2.2⟩
    · right
      have hx := hc.2.2
      cases m with
      | checked =>
        refine .inl ⟨oddPanic o l, fun s hs => ?_⟩
        simp only [call, (odd_checked hB h s x hs hx).2.1]
        rfl
      | wrapping =>
        cases hb : B.backing with
        | int w =>
          rw [hb] at hOK h hx
          have hw : w ≤ 128 := by simp only [Backing.OK] at hOK; omega
          have ho : o < w := h.1
          have h' : 2 ^ 32 ≤ o + l ∨ l = 0 := h.2.imp id fun h => h.1
          refine .inr (.inr ⟨.checkedSetRange o (w - o) x, ?_, rfl, rfl, rfl, rfl, fun s hs => ?_⟩)
          · refine ⟨?_, hc.2.2⟩
            rw [hb]; exact fun _ => ⟨by omega, by omega⟩
          · cases s with
            | arr bs => cases hs
            | int w1 v =>
              cases x with
              | arr bs => cases hx
              | int w2 x =>
                cases hs
                cases hx
                simp only [call, apiCheckedSetRange_odd_int hb hw ho hc.2.1 h']
        | arr n =>
          rw [hb] at hOK h hx
          simp only [Backing.OK] at hOK
          have h' : 2 ^ 32 ≤ o + l := h.2.resolve_right fun h => by obtain ⟨_, _, h⟩ := h; cases h
          cases x with
          | int w2 x => cases hx
          | arr x =>
            rcases (odd_arr_wrapping_checked hb hOK.2 h.1 hc.2.1 h').1 with e | e
            · refine .inl ⟨.index, fun s hs => ?_⟩
              cases s with
              | int w1 v => cases hs
              | arr bs => simp only [call, e]; rfl
            · refine .inr (.inl ⟨errWrite, fun s hs => ?_⟩)
              cases s with
              | int w1 v => cases hs
              | arr bs => simp only [call, e]; rfl
  | get f => exact .inl hc
  | inverted f => exact .inl hc
  | set f v => exact .inl hc
  | clearField f => exact .inl hc
  | clearFieldToDefault f => exact .inl hc
  | invertField f => exact .inl hc
  | getBit o => exact .inl trivial
  | checkedGetBit o => exact .inl trivial
  | setBit o b => exact .inl trivial
  | checkedSetBit o b => exact .inl trivial
  | into e => exact .inl trivial
  | intoTrait => exact .inl trivial
  | intoSlice e sl => exact .inl hc
  | checkedIntoSlice e sl => exact .inl hc
  | write e d x => exact .inl hc
  | writeDefaults => exact .inl trivial
  | clear d => exact .inl trivial
  | invert => exact .inl trivial
  | debug => exact .inl trivial

end Bf
