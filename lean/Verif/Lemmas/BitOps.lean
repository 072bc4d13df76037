import Verif.Lemmas.Endian

namespace Bf

/-! ## Protection masks -/

/-- Some field of the list covers the bit. -/
def anyCovers (fs : List Field) (i : Nat) : Bool := fs.any fun f => f.covers i

theorem covers_range (f : Field) (i : Nat) :
    f.covers i = (List.range f.bits).any (fun k => decide (i = f.offset + k)) := by
  rw [Bool.eq_iff_iff, covers_iff, List.any_eq_true]
  constructor
  · intro ⟨h1, h2⟩
    exact ⟨i - f.offset, by simp; omega, by simp; omega⟩
  · intro ⟨k, h1, h2⟩
    simp only [List.mem_range] at h1
    simp only [decide_eq_true_eq] at h2
    omega

theorem mask128_inner (off : Nat) (ks : List Nat) (acc : BitVec 128) (i : Nat) :
    (ks.foldl (fun acc k => acc ||| (1#128 <<< (off + k))) acc).getLsbD i =
      (acc.getLsbD i || (decide (i < 128) && ks.any fun k => decide (i = off + k))) := by
  induction ks generalizing acc with
  | nil => simp
  | cons k ks ih =>
    rw [List.foldl_cons, ih, BitVec.getLsbD_or, BitVec.getLsbD_shiftLeft, BitVec.getLsbD_one,
      List.any_cons]
    by_cases h : i < 128
    · by_cases h2 : i = off + k
      · subst h2; simp [h]
      · have : (decide (i < 128) && !decide (i < off + k) &&
            (decide (0 < 128) && decide (i - (off + k) = 0))) = false := by
          by_cases h3 : i < off + k
          · simp [h3]
          · have : ¬ (i - (off + k) = 0) := by omega
            simp [this]
        rw [this]; simp [h2]
    · simp [h]

theorem getLsbD_protMask128 (fs : List Field) (i : Nat) :
    (protMask128 fs).getLsbD i = (decide (i < 128) && anyCovers fs i) := by
  unfold protMask128
  have : ∀ acc : BitVec 128, (fs.foldl (fun acc f =>
      (List.range f.bits).foldl (fun acc k => acc ||| (1#128 <<< (f.offset + k))) acc) acc).getLsbD i =
      (acc.getLsbD i || (decide (i < 128) && anyCovers fs i)) := by
    induction fs with
    | nil => intro acc; simp [anyCovers]
    | cons f fs ih =>
      intro acc
      rw [List.foldl_cons, ih, mask128_inner, ← covers_range]
      simp only [anyCovers, List.any_cons]
      cases acc.getLsbD i <;> cases decide (i < 128) <;> cases f.covers i <;> simp
  rw [this]; simp

theorem protMask_int {w : Nat} (hw : w ≤ 128) (fs : List Field) :
    (protMask128 fs).setWidth w = ofBits w (anyCovers fs) := by
  apply eq_ofBits
  intro i hi
  rw [BitVec.getLsbD_setWidth, getLsbD_protMask128]
  simp [hi, show i < 128 by omega]

theorem or_one_ofBits (g : Bits) (k : Nat) :
    ofBits 8 g ||| (1#8 <<< k) = ofBits 8 fun j => g j || decide (j = k) := by
  apply eq_ofBits
  intro j hj
  rw [BitVec.getLsbD_or, getLsbD_ofBits, BitVec.getLsbD_shiftLeft, BitVec.getLsbD_one]
  simp only [hj, decide_true, Bool.true_and]
  congr 1
  by_cases h : j < k
  · simp [h]; omega
  · have : decide (j - k = 0) = decide (j = k) := by
      apply decide_eq_decide.mpr; omega
    simp [h, this]

theorem maskBytes_inner (n off : Nat) (ks : List Nat) (g : Bits) :
    ks.foldl (fun acc k =>
      let bit := off + k
      if bit / 8 < n then
        acc.set (bit / 8) ((acc.getD (bit / 8) 0#8) ||| (1#8 <<< (bit % 8)))
      else acc) (bytesOf n g) =
    bytesOf n fun i => g i || ks.any fun k => decide (i = off + k) := by
  induction ks generalizing g with
  | nil => simp
  | cons k ks ih =>
    rw [List.foldl_cons]
    have step : (let bit := off + k
        if bit / 8 < n then
          (bytesOf n g).set (bit / 8) (((bytesOf n g).getD (bit / 8) 0#8) ||| (1#8 <<< (bit % 8)))
        else bytesOf n g) = bytesOf n fun i => g i || decide (i = off + k) := by
      simp only
      split
      · rename_i h
        have e1 : (bytesOf n g).getD ((off + k) / 8) 0#8 =
            ofBits 8 fun j => g (8 * ((off + k) / 8) + j) := by
          simp only [List.getD, getElem?_bytesOf, h, if_true, Option.getD_some]
        rw [e1, or_one_ofBits _ _]
        have := setB_bytesOf (n := n) (k := (off + k) / 8) g
          (fun j => g (8 * ((off + k) / 8) + j) || decide (j = (off + k) % 8)) h
        simp only [setB, length_bytesOf, h, if_true, Except.ok.injEq] at this
        rw [this]
        apply bytesOf_congr
        intro i hi
        by_cases h1 : i / 8 = (off + k) / 8
        · rw [if_pos h1]
          have : 8 * ((off + k) / 8) + i % 8 = i := by omega
          rw [this]
          congr 1
          apply decide_eq_decide.mpr
          omega
        · rw [if_neg h1]
          have : ¬ i = off + k := by omega
          simp [this]
      · apply bytesOf_congr
        intro i hi
        have : ¬ i = off + k := by omega
        simp [this]
    rw [step, ih]
    apply bytesOf_congr
    intro i hi
    simp only [List.any_cons, Bool.or_assoc]

theorem protMaskBytes_eq (fs : List Field) (n : Nat) : protMaskBytes fs n = bytesOf n (anyCovers fs) := by
  unfold protMaskBytes
  have : ∀ g : Bits, fs.foldl (fun acc f =>
      (List.range f.bits).foldl (fun acc i =>
        let bit := f.offset + i
        if bit / 8 < n then
          acc.set (bit / 8) ((acc.getD (bit / 8) 0#8) ||| (1#8 <<< (bit % 8)))
        else acc) acc) (bytesOf n g) = bytesOf n fun i => g i || anyCovers fs i := by
    induction fs with
    | nil => intro g; simp [anyCovers]
    | cons f fs ih =>
      intro g
      rw [List.foldl_cons, maskBytes_inner, ih]
      apply bytesOf_congr
      intro i _
      rw [← covers_range]
      simp only [anyCovers, List.any_cons, Bool.or_assoc]
  rw [← bytesOf_zero, this]
  apply bytesOf_congr
  intro i _
  simp

theorem WF.prot_writable {B : Bitfield} (h : WF B) {i : Nat} (hi : i < B.backing.size) :
    anyCovers (protectedFields B .readOnly) i = !B.writable i := by
  obtain ⟨f, hf, hc⟩ := h.cover i hi
  rw [h.writable_eq hf hc]
  unfold anyCovers protectedFields
  cases hw : f.isWritable with
  | false =>
    rw [Bool.not_false, List.any_eq_true]
    exact ⟨f, List.mem_filter.mpr ⟨hf, by simp [hasSetter_eq, hw]⟩, hc⟩
  | true =>
    rw [Bool.not_true, List.any_eq_false]
    intro f' hf'
    obtain ⟨h1, h2⟩ := List.mem_filter.mp hf'
    intro hc'
    have := h.owner_unique hf h1 hc hc'
    subst this
    simp [hasSetter_eq, hw] at h2

theorem WF.prot_readable {B : Bitfield} (h : WF B) {i : Nat} (hi : i < B.backing.size) :
    anyCovers (protectedFields B .writeOnly) i = !B.readable i := by
  obtain ⟨f, hf, hc⟩ := h.cover i hi
  rw [h.readable_eq hf hc]
  unfold anyCovers protectedFields
  cases hw : f.isReadable with
  | false =>
    rw [Bool.not_false, List.any_eq_true]
    exact ⟨f, List.mem_filter.mpr ⟨hf, by simp [hasReadAccess_eq, hw]⟩, hc⟩
  | true =>
    rw [Bool.not_true, List.any_eq_false]
    intro f' hf'
    obtain ⟨h1, h2⟩ := List.mem_filter.mp hf'
    intro hc'
    have := h.owner_unique hf h1 hc hc'
    subst this
    simp [hasReadAccess_eq, hw] at h2

/-! ## Invert -/

theorem invertLoop_eq {n : Nat} (p g : Bits) :
    invertLoop n (bytesOf n p) (bytesOf n g) =
      .ok (bytesOf n fun i => if p i then g i else !g i) := by
  unfold invertLoop
  have h0 : bytesOf n g = bytesOf n (fun i => if i / 8 < 0 then (if p i then g i else !g i) else g i) := by
    apply bytesOf_congr; intro i _; simp
  conv => lhs; arg 3; rw [h0]
  have h1 : (bytesOf n fun i => if p i then g i else !g i) =
      bytesOf n (fun i => if i / 8 < n then (if p i then g i else !g i) else g i) := by
    apply bytesOf_congr; intro i hi; rw [if_pos (show i / 8 < n by omega)]
  rw [h1]
  refine forUpTo_eq (F := fun k => bytesOf n fun i => if i / 8 < k then (if p i then g i else !g i) else g i) ?_
  intro k hk
  rw [getB_bytesOf _ hk, getB_bytesOf _ hk]
  simp only [R_bind_ok]
  have e : (~~~(ofBits 8 fun j => if (8 * k + j) / 8 < k then (if p (8 * k + j) then g (8 * k + j) else !g (8 * k + j)) else g (8 * k + j)) &&&
      ~~~(ofBits 8 fun j => p (8 * k + j)) |||
      (ofBits 8 fun j => if (8 * k + j) / 8 < k then (if p (8 * k + j) then g (8 * k + j) else !g (8 * k + j)) else g (8 * k + j)) &&&
      (ofBits 8 fun j => p (8 * k + j))) = ofBits 8 fun j => if p (8 * k + j) then g (8 * k + j) else !g (8 * k + j) := by
    apply eq_ofBits
    intro j hj
    simp only [BitVec.getLsbD_or, BitVec.getLsbD_and, BitVec.getLsbD_not, getLsbD_ofBits, hj,
      decide_true, Bool.true_and, show ¬ (8 * k + j) / 8 < k by omega, if_false]
    cases p (8 * k + j) <;> cases g (8 * k + j) <;> rfl
  rw [e, setB_bytesOf _ _ hk]
  refine congrArg Except.ok ?_
  apply bytesOf_congr
  intro i hi
  by_cases h : i / 8 = k
  · rw [if_pos h, if_pos (show i / 8 < k + 1 by omega)]
    have : 8 * k + i % 8 = i := by omega
    rw [this]
  · rw [if_neg h]
    by_cases h2 : i / 8 < k
    · rw [if_pos h2, if_pos (show i / 8 < k + 1 by omega)]
    · rw [if_neg h2, if_neg (show ¬ i / 8 < k + 1 by omega)]

/-- The source the inversion is read back from. -/
theorem apiInvert_source (m : Mode) {B : Bitfield} (h : WF B) (g : Bits) :
    apiInvert m B (Store.ofBits B.backing g) =
      setAllFromSource m B .none
        (Store.ofBits B.backing fun i => if B.writable i then !g i else g i)
        (Store.ofBits B.backing g) := by
  unfold apiInvert
  cases hB : B.backing with
  | int w =>
    have hb := h.backing
    rw [hB] at hb
    have hw := hb.int_le
    simp only [Store.ofBits_int]
    rw [protMask_int hw.2.1]
    congr 2
    apply eq_ofBits
    intro i hi
    have := h.prot_writable (i := i) (by rw [hB]; exact hi)
    simp only [BitVec.getLsbD_or, BitVec.getLsbD_and, BitVec.getLsbD_not, getLsbD_ofBits, hi,
      decide_true, Bool.true_and, this]
    cases B.writable i <;> cases g i <;> rfl
  | arr n =>
    simp only [Store.ofBits_arr]
    rw [protMaskBytes_eq, invertLoop_eq]
    simp only [R_bind_ok]
    congr 2
    apply bytesOf_congr
    intro i hi
    have := h.prot_writable (i := i) (by rw [hB]; exact hi)
    rw [this]
    cases B.writable i <;> simp

/-! ## Single bits -/

theorem fieldGuard_eq (fs : List Field) (i : Nat) : fieldGuard fs i = anyCovers fs i := rfl

theorem guard_writable {B : Bitfield} (h : WF B) {i : Nat} (hi : i < B.backing.size) :
    fieldGuard (B.fields.filter fun f => !f.hasSetter) i = !B.writable i := h.prot_writable hi

theorem guard_readable {B : Bitfield} (h : WF B) {i : Nat} (hi : i < B.backing.size) :
    fieldGuard (B.fields.filter fun f => !f.hasReadAccess) i = !B.readable i := h.prot_readable hi

theorem putStoreBit_eq (m : Mode) {b : Backing} (g : Bits) {k : Nat} (hk : k < b.size) (x : Bool) :
    putStoreBit m (Store.ofBits b g) k x =
      .ok (Store.ofBits b fun i => if i = k then x else g i) := by
  cases b with
  | int w =>
    simp only [putStoreBit, Store.ofBits_int]
    rw [intSetBit_eq m (w := w) g x hk]
    rfl
  | arr n =>
    have := setBit_bytesOf (n := n) g hk x
    simp only [putStoreBit, Store.ofBits_arr]
    rw [getB_bytesOf g (by simp only [Backing.size] at hk; omega)] at this ⊢
    simp only [R_bind_ok] at this ⊢
    rw [this]
    rfl

theorem readStoreBit_eq (m : Mode) {b : Backing} (g : Bits) {k : Nat} (hk : k < b.size) :
    readStoreBit m (Store.ofBits b g) k = .ok (g k) := by
  cases b with
  | int w =>
    simp only [Backing.size] at hk
    simp only [readStoreBit, Store.ofBits_int]
    rw [shr_ok m _ hk]
    simp only [R_bind_ok, R_pure]
    refine congrArg Except.ok ?_
    have : (ofBits w g >>> k &&& 1#w) = ofBits w fun j => decide (j = 0) && g k := by
      apply eq_ofBits
      intro j hj
      simp only [BitVec.getLsbD_and, BitVec.getLsbD_ushiftRight, getLsbD_ofBits, BitVec.getLsbD_one]
      by_cases h0 : j = 0
      · subst h0; simp [hk, show 0 < w by omega]
      · simp [h0]
    rw [this, ofBits_single_ne_zero' (by omega)]
  | arr n =>
    simp only [Backing.size] at hk
    simp only [readStoreBit, Store.ofBits_arr]
    rw [getB_bytesOf g (by omega)]
    simp only [R_bind_ok, R_pure]
    rw [byteBit_ofBits _ (by omega), ofBits_single_ne_zero]
    refine congrArg Except.ok ?_
    congr 1; omega

/-! ## Ranges -/

theorem bitAt_bytesOf {n : Nat} (g : Bits) {k : Nat} (h : k < 8 * n) : bitAt (bytesOf n g) k = .ok (g k) := by
  unfold bitAt
  rw [getB_bytesOf g (by omega)]
  simp only [R_bind_ok, R_pure]
  rw [byteBit_ofBits _ (by omega), ofBits_single_ne_zero]
  refine congrArg Except.ok ?_
  congr 1; omega

/-- Bit `i` lies in the range. -/
def inRange (offset length i : Nat) : Bool := decide (offset ≤ i) && decide (i < offset + length)

theorem inRange_iff {o l i : Nat} : inRange o l i = true ↔ o ≤ i ∧ i < o + l := by simp [inRange]

theorem inRange_zero (o i : Nat) : inRange o 0 i = false := by
  cases hr : inRange o 0 i
  · rfl
  · have := inRange_iff.mp hr; omega

theorem rangeMask_eq (m : Mode) {w offset length : Nat} (hl : 1 ≤ length) (h : offset + length ≤ w) :
    (do let k ← subU32 m w length
        let r ← shr m (maxOf w) k
        shl m r offset) = .ok (ofBits w (inRange offset length)) := by
  have e1 := intMask_eq m (w := w) hl (by omega)
  simp only [intMask] at e1
  have : (do let k ← subU32 m w length
             let r ← shr m (maxOf w) k
             shl m r offset) = (do
             let r ← (do let k ← subU32 m w length
                         shr m (maxOf w) k)
             shl m r offset) := by
    cases subU32 m w length <;> rfl
  rw [this, e1]
  simp only [R_bind_ok]
  rw [shl_ok m _ (by omega)]
  refine congrArg Except.ok ?_
  apply eq_ofBits
  intro i hi
  simp only [BitVec.getLsbD_shiftLeft, getLsbD_ofBits, hi, decide_true, Bool.true_and, inRange]
  by_cases h1 : i < offset
  · rw [decide_eq_true h1, decide_eq_false (show ¬ offset ≤ i by omega)]; rfl
  · simp only [h1, decide_false, Bool.not_false, Bool.true_and]
    rw [decide_eq_true (show i - offset < w by omega), decide_eq_true (show offset ≤ i by omega)]
    simp only [Bool.true_and]
    apply decide_eq_decide.mpr
    omega

/-- Effect of a range write. -/
def rangeWrite (B : Bitfield) (offset length : Nat) (x g : Bits) : Bits :=
  fun i => if inRange offset length i && B.writable i then x (i - offset) else g i

/-- Result of a range read. -/
def rangeRead (B : Bitfield) (offset length : Nat) (g : Bits) : Bits :=
  fun i => decide (i < length) && (B.readable (offset + i) && g (offset + i))

theorem subU32_shr_mask (m : Mode) {w length : Nat} (hl : 1 ≤ length) (h : length ≤ w) :
    subU32 m w length = .ok (w - length) ∧
      shr m (maxOf w) (w - length) = .ok (ofBits w fun i => decide (i < length)) := by
  have e1 := intMask_eq m (w := w) hl h
  simp only [intMask, subU32_ok m h, R_bind_ok] at e1
  exact ⟨subU32_ok m h, e1⟩

theorem shl_mask (m : Mode) {w offset length : Nat} (hl : 1 ≤ length) (h : offset + length ≤ w) :
    shl m (ofBits w fun i => decide (i < length)) offset = .ok (ofBits w (inRange offset length)) := by
  have e := rangeMask_eq m hl h
  obtain ⟨h1, h2⟩ := subU32_shr_mask m hl (show length ≤ w by omega)
  rw [h1] at e
  simp only [R_bind_ok] at e
  rw [h2] at e
  exact e

theorem apiSetRange_ok (m : Mode) {B : Bitfield} (h : WF B) {offset length : Nat} (x g : Bits)
    (ho : offset < B.backing.size) (hl : offset + length ≤ B.backing.size)
    (hpos : (∃ w, B.backing = .int w) → 1 ≤ length) :
    apiSetRange m B (Store.ofBits B.backing g) offset length (Store.ofBits B.backing x) =
      .ok (Store.ofBits B.backing (rangeWrite B offset length x g)) := by
  have hsz := h.backing.size_lt
  unfold apiSetRange
  rw [if_neg (by omega), addU32_ok m (by omega)]
  simp only [R_bind_ok]
  rw [if_neg (by omega)]
  cases hB : B.backing with
  | int w =>
    have hpos := hpos ⟨w, hB⟩
    have hb := h.backing
    rw [hB] at hb ho hl
    simp only [Backing.size] at ho hl
    have hw := hb.int_le
    obtain ⟨e1, e2⟩ := subU32_shr_mask m hpos (show length ≤ w by omega)
    simp only [Store.ofBits_int, dif_pos]
    rw [e1]
    simp only [R_bind_ok]
    rw [e2]
    simp only [R_bind_ok]
    rw [shl_mask m hpos hl]
    simp only [R_bind_ok]
    rw [protMask_int hw.2.1, shl_ok m _ ho]
    simp only [R_bind_ok, R_pure]
    refine congrArg (fun k => Except.ok (Store.int w k)) ?_
    apply eq_ofBits
    intro i hi
    have := h.prot_writable (i := i) (by rw [hB]; exact hi)
    simp only [BitVec.getLsbD_or, BitVec.getLsbD_and, BitVec.getLsbD_not, BitVec.getLsbD_shiftLeft,
      getLsbD_ofBits, hi, decide_true, Bool.true_and, this, rangeWrite]
    rw [decide_eq_true (show i - offset < w by omega)]
    cases hr : inRange offset length i
    · simp
    · have := inRange_iff.mp hr
      rw [decide_eq_false (show ¬ i < offset by omega)]
      cases B.writable i <;> simp
  | arr n =>
    rw [hB] at ho hl hsz
    simp only [Backing.size] at ho hl hsz
    simp only [Store.ofBits_arr]
    rw [protMaskBytes_eq]
    have h0 : bytesOf n g = bytesOf n (rangeWrite B offset 0 x g) := by
      apply bytesOf_congr
      intro i _
      have : inRange offset 0 i = false := inRange_zero offset i
      simp [rangeWrite, this]
    rw [h0]
    rw [forUpTo_eq (F := fun k => bytesOf n (rangeWrite B offset k x g))]
    · rfl
    · intro k hk
      rw [bitAt_bytesOf x (by omega), addU32_ok m (by omega)]
      simp only [R_bind_ok]
      rw [bitAt_bytesOf _ (by omega)]
      simp only [R_bind_ok]
      have := h.prot_writable (i := offset + k) (by rw [hB]; simp only [Backing.size]; omega)
      rw [this, Bool.not_not]
      cases hw : B.writable (offset + k)
      · simp only [Bool.false_eq_true, if_false, R_pure]
        refine congrArg Except.ok ?_
        apply bytesOf_congr
        intro i hi
        simp only [rangeWrite]
        by_cases hik : i = offset + k
        · subst hik; simp [hw]
        · have : inRange offset (k + 1) i = inRange offset k i := by
            rw [Bool.eq_iff_iff, inRange_iff, inRange_iff]; omega
          rw [this]
      · simp only [if_true]
        rw [setBit_bytesOf _ (by omega)]
        refine congrArg Except.ok ?_
        apply bytesOf_congr
        intro i hi
        simp only [rangeWrite]
        by_cases hik : i = offset + k
        · subst hik
          have : inRange offset (k + 1) (offset + k) = true := by rw [inRange_iff]; omega
          simp [hw, this]
        · have : inRange offset (k + 1) i = inRange offset k i := by
            rw [Bool.eq_iff_iff, inRange_iff, inRange_iff]; omega
          rw [this, if_neg hik]

/-- Every bit of the range satisfies `q`. -/
def rangeAll (offset length : Nat) (q : Nat → Bool) : Bool :=
  (List.range length).all fun i => q (offset + i)

theorem rangeAll_iff {o l : Nat} {q : Nat → Bool} :
    rangeAll o l q = true ↔ ∀ i, o ≤ i → i < o + l → q i = true := by
  unfold rangeAll
  rw [List.all_eq_true]
  constructor
  · intro h i h1 h2
    have := h (i - o) (by simp; omega)
    rwa [show o + (i - o) = i by omega] at this
  · intro h i hi
    simp only [List.mem_range] at hi
    exact h _ (by omega) (by omega)

theorem anyProtected_eq (m : Mode) {n offset length : Nat} (p : Bits) (h : offset + length ≤ 8 * n)
    (hn : 8 * n < 2 ^ 32) :
    anyProtected m (bytesOf n p) offset length = .ok (!rangeAll offset length fun i => !p i) := by
  unfold anyProtected
  refine forUpTo_eq (F := fun k => !rangeAll offset k fun i => !p i) ?_
  intro k hk
  have e : (!rangeAll offset (k + 1) fun i => !p i) =
      ((!rangeAll offset k fun i => !p i) || p (offset + k)) := by
    simp only [rangeAll, List.range_succ, List.all_append, List.all_cons, List.all_nil,
      Bool.and_true, Bool.not_and, Bool.not_not]
  rw [e]
  cases hc : (!rangeAll offset k fun i => !p i)
  · simp only [Bool.false_eq_true, if_false, Bool.false_or]
    rw [addU32_ok m (by omega)]
    simp only [R_bind_ok]
    exact bitAt_bytesOf p (by omega)
  · simp

theorem range_and_prot {w offset length : Nat} (p : Bits) (h : offset + length ≤ w) :
    (ofBits w (inRange offset length) &&& ofBits w p ≠ 0#w) ↔
      (rangeAll offset length fun i => !p i) = false := by
  rw [← Bool.not_eq_true, rangeAll_iff]
  refine not_congr ?_
  constructor
  · intro e i h1 h2
    have := congrArg (fun v => v.getLsbD i) e
    simp only [BitVec.getLsbD_and, getLsbD_ofBits, BitVec.getLsbD_zero] at this
    rw [decide_eq_true (show i < w by omega), inRange_iff.mpr ⟨h1, h2⟩] at this
    simpa using this
  · intro e
    apply BitVec.eq_of_getLsbD_eq
    intro i hi
    simp only [BitVec.getLsbD_and, getLsbD_ofBits, BitVec.getLsbD_zero]
    cases hr : inRange offset length i
    · simp
    · have := inRange_iff.mp hr
      have := e i this.1 this.2
      simp at this
      simp [this]

theorem rangeAll_congr {o l : Nat} {q q' : Nat → Bool} (h : ∀ i, o ≤ i → i < o + l → q i = q' i) :
    rangeAll o l q = rangeAll o l q' := by
  rw [Bool.eq_iff_iff, rangeAll_iff, rangeAll_iff]
  constructor
  · intro e i h1 h2; rw [← h i h1 h2]; exact e i h1 h2
  · intro e i h1 h2; rw [h i h1 h2]; exact e i h1 h2

theorem apiCheckedSetRange_ok (m : Mode) {B : Bitfield} (h : WF B) {offset length : Nat} (x g : Bits)
    (ho : offset < B.backing.size) (hl : offset + length ≤ B.backing.size)
    (hpos : (∃ w, B.backing = .int w) → 1 ≤ length) :
    apiCheckedSetRange m B (Store.ofBits B.backing g) offset length (Store.ofBits B.backing x) =
      if rangeAll offset length B.writable then
        .ok (.ok (), Store.ofBits B.backing (rangeWrite B offset length x g))
      else .ok (.error errWrite, Store.ofBits B.backing g) := by
  have hsz := h.backing.size_lt
  unfold apiCheckedSetRange
  rw [if_neg (by omega), addU32_ok m (by omega)]
  simp only [R_bind_ok]
  rw [if_neg (by omega)]
  have hrc : (rangeAll offset length fun i => !anyCovers (protectedFields B .readOnly) i) =
      rangeAll offset length B.writable := by
    apply rangeAll_congr
    intro i h1 h2
    rw [h.prot_writable (by omega), Bool.not_not]
  cases hB : B.backing with
  | int w =>
    have hpos := hpos ⟨w, hB⟩
    have hb := h.backing
    rw [hB] at hb ho hl
    simp only [Backing.size] at ho hl
    have hw := hb.int_le
    obtain ⟨e1, e2⟩ := subU32_shr_mask m hpos (show length ≤ w by omega)
    simp only [Store.ofBits_int, dif_pos]
    rw [e1]
    simp only [R_bind_ok]
    rw [e2]
    simp only [R_bind_ok]
    rw [shl_mask m hpos hl]
    simp only [R_bind_ok]
    rw [protMask_int hw.2.1]
    cases hra : rangeAll offset length B.writable
    · rw [if_pos ((range_and_prot _ hl).mpr (by rw [hrc, hra]))]
      simp
    · rw [if_neg (fun e => by have := (range_and_prot _ hl).mp e; rw [hrc, hra] at this; cases this)]
      rw [shl_ok m _ ho]
      simp only [R_bind_ok, R_pure, if_true]
      refine congrArg (fun k => Except.ok (_, Store.int w k)) ?_
      apply eq_ofBits
      intro i hi
      simp only [BitVec.getLsbD_or, BitVec.getLsbD_and, BitVec.getLsbD_not, BitVec.getLsbD_shiftLeft,
        getLsbD_ofBits, hi, decide_true, Bool.true_and, rangeWrite]
      rw [decide_eq_true (show i - offset < w by omega)]
      cases hr : inRange offset length i
      · have hn : ¬ (offset ≤ i ∧ i < offset + length) := by rw [← inRange_iff, hr]; simp
        by_cases h1 : i < offset
        · simp [h1]
        · rw [decide_eq_false (show ¬ i - offset < length by omega)]
          simp
      · have hh := inRange_iff.mp hr
        rw [decide_eq_false (show ¬ i < offset by omega), decide_eq_true (show i - offset < length by omega)]
        have := rangeAll_iff.mp hra i hh.1 hh.2
        simp [this]
  | arr n =>
    rw [hB] at ho hl hsz
    simp only [Backing.size] at ho hl hsz
    simp only [Store.ofBits_arr]
    rw [protMaskBytes_eq, anyProtected_eq m _ hl hsz, hrc]
    simp only [R_bind_ok]
    cases hra : rangeAll offset length B.writable
    · simp
    · simp only [Bool.not_true, Bool.false_eq_true, if_false, if_true]
      have h0 : bytesOf n g = bytesOf n (rangeWrite B offset 0 x g) := by
        apply bytesOf_congr
        intro i _
        have : inRange offset 0 i = false := inRange_zero offset i
        simp [rangeWrite, this]
      conv => lhs; arg 1; arg 3; rw [h0]
      rw [forUpTo_eq (F := fun k => bytesOf n (rangeWrite B offset k x g))]
      · rfl
      · intro k hk
        rw [bitAt_bytesOf x (by omega), addU32_ok m (by omega)]
        simp only [R_bind_ok]
        have hw := rangeAll_iff.mp hra (offset + k) (by omega) (by omega)
        rw [setBit_bytesOf _ (by omega)]
        refine congrArg Except.ok ?_
        apply bytesOf_congr
        intro i hi
        simp only [rangeWrite]
        by_cases hik : i = offset + k
        · subst hik
          have : inRange offset (k + 1) (offset + k) = true := by rw [inRange_iff]; omega
          simp [hw, this]
        · have : inRange offset (k + 1) i = inRange offset k i := by
            rw [Bool.eq_iff_iff, inRange_iff, inRange_iff]; omega
          rw [this, if_neg hik]

/-- One step of copying a bit into a zeroed place. -/
theorem orBit_bytesOf {n : Nat} (g : Bits) {k : Nat} (hk : k < 8 * n) (x : Bool) (hg : g k = false) :
    (do let r ← getB (bytesOf n g) (k / 8)
        setB (bytesOf n g) (k / 8) (r ||| ((ofBits 8 fun j => decide (j = 0) && x) <<< (k % 8)))) =
      (.ok (bytesOf n fun i => if i = k then x else g i) : R _) := by
  rw [getB_bytesOf g (by omega)]
  simp only [R_bind_ok]
  have e : (ofBits 8 fun j => g (8 * (k / 8) + j)) ||| ((ofBits 8 fun j => decide (j = 0) && x) <<< (k % 8)) =
      ofBits 8 fun j => if j = k % 8 then x else g (8 * (k / 8) + j) := by
    apply eq_ofBits
    intro j hj
    rw [BitVec.getLsbD_or, getLsbD_ofBits, BitVec.getLsbD_shiftLeft, getLsbD_ofBits]
    simp only [hj, decide_true, Bool.true_and]
    by_cases h : j = k % 8
    · have : 8 * (k / 8) + j = k := by omega
      rw [this, hg, if_pos h, h]; simp
    · rw [if_neg h]
      by_cases h2 : j < k % 8
      · simp [h2]
      · have : ¬ (j - k % 8 = 0) := by omega
        simp [this]
  rw [e, setB_bytesOf _ _ (by omega)]
  refine congrArg Except.ok ?_
  apply bytesOf_congr
  intro i hi
  by_cases h : i / 8 = k / 8
  · rw [if_pos h]
    have e2 : 8 * (k / 8) + i % 8 = i := by omega
    rw [e2]
    by_cases h3 : i = k
    · subst h3; simp
    · rw [if_neg h3, if_neg (by omega)]
  · rw [if_neg h, if_neg (by intro e; subst e; exact h rfl)]

theorem apiGetRange_ok (m : Mode) {B : Bitfield} (h : WF B) {offset length : Nat} (g : Bits)
    (ho : offset < B.backing.size) (hl : offset + length ≤ B.backing.size)
    (hpos : (∃ w, B.backing = .int w) → 1 ≤ length) :
    apiGetRange m B (Store.ofBits B.backing g) offset length =
      .ok (Store.ofBits B.backing (rangeRead B offset length g)) := by
  have hsz := h.backing.size_lt
  unfold apiGetRange
  rw [if_neg (by omega), addU32_ok m (by omega)]
  simp only [R_bind_ok]
  rw [if_neg (by omega)]
  cases hB : B.backing with
  | int w =>
    have hpos := hpos ⟨w, hB⟩
    have hb := h.backing
    rw [hB] at hb ho hl
    simp only [Backing.size] at ho hl
    have hw := hb.int_le
    obtain ⟨e1, e2⟩ := subU32_shr_mask m hpos (show length ≤ w by omega)
    simp only [Store.ofBits_int]
    rw [e1]
    simp only [R_bind_ok]
    rw [e2]
    simp only [R_bind_ok]
    rw [protMask_int hw.2.1, shr_ok m _ ho, shr_ok m _ ho]
    simp only [R_bind_ok, R_pure]
    refine congrArg (fun k => Except.ok (Store.int w k)) ?_
    apply eq_ofBits
    intro i hi
    simp only [BitVec.getLsbD_and, BitVec.getLsbD_not, BitVec.getLsbD_ushiftRight,
      getLsbD_ofBits, hi, decide_true, Bool.true_and, rangeRead]
    by_cases h1 : i < length
    · have := h.prot_readable (i := offset + i) (by rw [hB]; simp only [Backing.size]; omega)
      rw [decide_eq_true h1, decide_eq_true (show offset + i < w by omega), this]
      cases B.readable (offset + i) <;> simp
    · simp [h1]
  | arr n =>
    rw [hB] at ho hl hsz
    simp only [Backing.size] at ho hl hsz
    simp only [Store.ofBits_arr]
    rw [protMaskBytes_eq]
    have h0 : List.replicate n 0#8 = bytesOf n (rangeRead B offset 0 g) := by
      rw [← bytesOf_zero]
      apply bytesOf_congr
      intro i _
      simp [rangeRead]
    rw [h0]
    rw [forUpTo_eq (F := fun k => bytesOf n (rangeRead B offset k g))]
    · rfl
    · intro k hk
      rw [addU32_ok m (by omega)]
      simp only [R_bind_ok]
      rw [bitAt_bytesOf _ (by omega)]
      simp only [R_bind_ok]
      have := h.prot_readable (i := offset + k) (by rw [hB]; simp only [Backing.size]; omega)
      rw [this, Bool.not_not]
      have hext : ∀ i, i ≠ k → rangeRead B offset (k + 1) g i = rangeRead B offset k g i := by
        intro i hik
        simp only [rangeRead]
        congr 1
        apply decide_eq_decide.mpr
        omega
      cases hw : B.readable (offset + k)
      · simp only [Bool.false_eq_true, if_false, R_pure]
        refine congrArg Except.ok ?_
        apply bytesOf_congr
        intro i hi
        by_cases hik : i = k
        · subst hik; simp [rangeRead, hw]
        · rw [hext i hik]
      · simp only [if_true]
        rw [getB_bytesOf g (by omega)]
        simp only [R_bind_ok]
        rw [byteBit_ofBits _ (by omega), orBit_bytesOf _ (by omega) _ (by simp [rangeRead])]
        refine congrArg Except.ok ?_
        apply bytesOf_congr
        intro i hi
        by_cases hik : i = k
        · subst hik
          rw [if_pos rfl]
          have e : 8 * ((offset + i) / 8) + (offset + i) % 8 = offset + i := by omega
          simp [rangeRead, hw, e]
        · rw [if_neg hik, hext i hik]

theorem apiCheckedGetRange_ok (m : Mode) {B : Bitfield} (h : WF B) {offset length : Nat} (g : Bits)
    (ho : offset < B.backing.size) (hl : offset + length ≤ B.backing.size)
    (hpos : (∃ w, B.backing = .int w) → 1 ≤ length) :
    apiCheckedGetRange m B (Store.ofBits B.backing g) offset length =
      if rangeAll offset length B.readable then
        .ok (.ok (Store.ofBits B.backing fun i => decide (i < length) && g (offset + i)))
      else .ok (.error errRead) := by
  have hsz := h.backing.size_lt
  unfold apiCheckedGetRange
  rw [if_neg (by omega), addU32_ok m (by omega)]
  simp only [R_bind_ok]
  rw [if_neg (by omega)]
  have hrc : (rangeAll offset length fun i => !anyCovers (protectedFields B .writeOnly) i) =
      rangeAll offset length B.readable := by
    apply rangeAll_congr
    intro i h1 h2
    rw [h.prot_readable (by omega), Bool.not_not]
  cases hB : B.backing with
  | int w =>
    have hpos := hpos ⟨w, hB⟩
    have hb := h.backing
    rw [hB] at hb ho hl
    simp only [Backing.size] at ho hl
    have hw := hb.int_le
    obtain ⟨e1, e2⟩ := subU32_shr_mask m hpos (show length ≤ w by omega)
    simp only [Store.ofBits_int]
    rw [e1]
    simp only [R_bind_ok]
    rw [e2]
    simp only [R_bind_ok]
    rw [shl_mask m hpos hl]
    simp only [R_bind_ok]
    rw [protMask_int hw.2.1]
    cases hra : rangeAll offset length B.readable
    · rw [if_pos ((range_and_prot _ hl).mpr (by rw [hrc, hra]))]
      simp
    · rw [if_neg (fun e => by have := (range_and_prot _ hl).mp e; rw [hrc, hra] at this; cases this)]
      rw [shr_ok m _ ho]
      simp only [R_bind_ok, R_pure, if_true]
      refine congrArg (fun k => Except.ok (Except.ok (Store.int w k))) ?_
      apply eq_ofBits
      intro i hi
      simp only [BitVec.getLsbD_and, BitVec.getLsbD_ushiftRight,
        getLsbD_ofBits, hi, decide_true, Bool.true_and]
      by_cases h1 : i < length
      · rw [decide_eq_true h1, decide_eq_true (show offset + i < w by omega)]; simp
      · simp [h1]
  | arr n =>
    rw [hB] at ho hl hsz
    simp only [Backing.size] at ho hl hsz
    simp only [Store.ofBits_arr]
    rw [protMaskBytes_eq, anyProtected_eq m _ hl hsz, hrc]
    simp only [R_bind_ok]
    cases hra : rangeAll offset length B.readable
    · simp
    · simp only [Bool.not_true, Bool.false_eq_true, if_false, if_true]
      have h0 : List.replicate n 0#8 = bytesOf n (fun i => decide (i < 0) && g (offset + i)) := by
        rw [← bytesOf_zero]
        apply bytesOf_congr
        intro i _
        simp
      rw [h0]
      rw [forUpTo_eq (F := fun k => bytesOf n fun i => decide (i < k) && g (offset + i))]
      · rfl
      · intro k hk
        rw [addU32_ok m (by omega)]
        simp only [R_bind_ok]
        rw [getB_bytesOf g (by omega)]
        simp only [R_bind_ok]
        rw [byteBit_ofBits _ (by omega), orBit_bytesOf _ (by omega) _ (by simp)]
        refine congrArg Except.ok ?_
        apply bytesOf_congr
        intro i hi
        by_cases hik : i = k
        · subst hik
          rw [if_pos rfl]
          have e : 8 * ((offset + i) / 8) + (offset + i) % 8 = offset + i := by omega
          simp [e]
        · rw [if_neg hik]
          congr 1
          apply decide_eq_decide.mpr
          omega

end Bf
