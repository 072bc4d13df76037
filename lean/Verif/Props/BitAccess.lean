import Verif.Lemmas.Effect
import Verif.Props.Example

/-!
# Bit and range operations (C24 - C27, C37)

Offsets and lengths are `u32` in the code; the theorems hold for all natural numbers unless they say
otherwise.
-/

namespace Bf

variable {B : Bitfield} {f : Field}

/-- Bit `i` is in field `f`. -/
def Bitfield.Owns (B : Bitfield) (f : Field) (i : Nat) : Prop :=
  f ∈ B.fields ∧ f.offset ≤ i ∧ i < f.offset + f.bits

theorem Bitfield.Owns.covers {i : Nat} (h : B.Owns f i) : f.covers i = true :=
  covers_iff.mpr ⟨h.2.1, h.2.2⟩

/-- **C24.** `get_bit(i)` and `checked_get_bit(i)`: out of range; a bit of a readable field (`ro` or
`rw`); a bit of any other field. Every bit in range is in one of the last two cases. -/
theorem C24_get_bit (m : Mode) (hB : WF B) (s : Store) (hs : s.HasBacking B.backing) (i : Nat) :
    (B.backing.size ≤ i → apiGetBit m B s i = .ok false ∧
      apiCheckedGetBit m B s i = .ok (.error "The offset is outside the bitfield range.")) ∧
    (∀ f, B.Owns f i → (f.access = .ro ∨ f.access = .rw) →
      apiGetBit m B s i = .ok (s.bit i) ∧ apiCheckedGetBit m B s i = .ok (.ok (s.bit i))) ∧
    (∀ f, B.Owns f i → (f.access = .wo ∨ f.access = .na) →
      apiGetBit m B s i = .ok false ∧
      apiCheckedGetBit m B s i = .ok (.error "Attempted to read from non-readable bit(s).")) ∧
    (i < B.backing.size → ∃ f, B.Owns f i) := by
  obtain ⟨g, rfl⟩ := Store.cases_ofBits hs
  unfold apiGetBit apiCheckedGetBit
  refine ⟨?_, ?_, ?_, ?_⟩
  · intro h; rw [if_pos h, if_pos h]; exact ⟨rfl, rfl⟩
  · intro f ho ha
    have hlt := hB.covers_lt ho.1 ho.covers
    have hr : f.isReadable = true := by
      unfold Field.isReadable; rcases ha with h | h <;> rw [h] <;> rfl
    have hn : ¬ i ≥ B.backing.size := by omega
    rw [if_neg hn, if_neg hn, guard_readable hB hlt, hB.readable_eq ho.1 ho.covers, hr,
      readStoreBit_eq m g hlt, Store.bit_ofBits_lt hlt]
    exact ⟨rfl, rfl⟩
  · intro f ho ha
    have hlt := hB.covers_lt ho.1 ho.covers
    have hr : f.isReadable = false := by
      unfold Field.isReadable; rcases ha with h | h <;> rw [h] <;> rfl
    have hn : ¬ i ≥ B.backing.size := by omega
    rw [if_neg hn, if_neg hn, guard_readable hB hlt, hB.readable_eq ho.1 ho.covers, hr]
    exact ⟨rfl, rfl⟩
  · intro h
    obtain ⟨f, hf, hc⟩ := hB.cover i h
    exact ⟨f, hf, covers_iff.mp hc⟩

example (m : Mode) (v : BitVec 16) : apiGetBit m Ex.I (.int 16 v) 7 = .ok (v.getLsbD 7) :=
  ((C24_get_bit m Ex.wfI (.int 16 v) rfl 7).2.1 Ex.c ⟨by simp [Ex.I], by decide, by decide⟩
    (.inl rfl)).1

example (m : Mode) (v : BitVec 16) : apiGetBit m Ex.I (.int 16 v) 9 = .ok false :=
  ((C24_get_bit m Ex.wfI (.int 16 v) rfl 9).2.2.1 Ex.d ⟨by simp [Ex.I], by decide, by decide⟩
    (.inl rfl)).1

/-- **C25.** `set_bit(i, b)` and `checked_set_bit(i, b)`: out of range; a bit of a field that is not
reserved and `wo` or `rw`; a bit of any other field. -/
theorem C25_set_bit (m : Mode) (hB : WF B) (s : Store) (hs : s.HasBacking B.backing) (i : Nat)
    (b : Bool) :
    (B.backing.size ≤ i → apiSetBit m B s i b = .ok s ∧
      apiCheckedSetBit m B s i b = .ok (.error "The offset is outside the bitfield range.", s)) ∧
    (∀ f, B.Owns f i → f.reserved = false → (f.access = .wo ∨ f.access = .rw) →
      ∃ s', apiSetBit m B s i b = .ok s' ∧ apiCheckedSetBit m B s i b = .ok (.ok (), s') ∧
        s'.HasBacking B.backing ∧ ∀ j < B.backing.size, s'.bit j = if j = i then b else s.bit j) ∧
    (∀ f, B.Owns f i → (f.reserved = true ∨ f.access = .ro ∨ f.access = .na) →
      apiSetBit m B s i b = .ok s ∧
      apiCheckedSetBit m B s i b = .ok (.error "Attempted to write to non-writable bit(s).", s)) := by
  obtain ⟨g, rfl⟩ := Store.cases_ofBits hs
  unfold apiSetBit apiCheckedSetBit
  refine ⟨?_, ?_, ?_⟩
  · intro h; rw [if_pos h, if_pos h]; exact ⟨rfl, rfl⟩
  · intro f ho hr ha
    have hlt := hB.covers_lt ho.1 ho.covers
    have hw : f.isWritable = true := by
      unfold Field.isWritable; rw [hr]; rcases ha with h | h <;> rw [h] <;> rfl
    have hn : ¬ i ≥ B.backing.size := by omega
    rw [if_neg hn, if_neg hn, guard_writable hB hlt, hB.writable_eq ho.1 ho.covers, hw,
      putStoreBit_eq m g hlt]
    refine ⟨_, rfl, rfl, Store.hasBacking_ofBits _ _, fun j hj => ?_⟩
    rw [Store.bit_ofBits_lt hj, Store.bit_ofBits_lt hj]
  · intro f ho ha
    have hlt := hB.covers_lt ho.1 ho.covers
    have hw : f.isWritable = false := by
      unfold Field.isWritable
      rcases ha with h | h | h <;> rw [h]
      · rfl
      · cases f.reserved <;> rfl
      · cases f.reserved <;> rfl
    have hn : ¬ i ≥ B.backing.size := by omega
    rw [if_neg hn, if_neg hn, guard_writable hB hlt, hB.writable_eq ho.1 ho.covers, hw]
    exact ⟨rfl, rfl⟩

example (m : Mode) (v : BitVec 16) (b : Bool) : apiSetBit m Ex.I (.int 16 v) 7 b = .ok (.int 16 v) :=
  ((C25_set_bit m Ex.wfI (.int 16 v) rfl 7 b).2.2 Ex.c ⟨by simp [Ex.I], by decide, by decide⟩
    (.inr (.inl rfl))).1

example (m : Mode) (v : BitVec 16) (b : Bool) : ∃ s', apiSetBit m Ex.I (.int 16 v) 5 b = .ok s' ∧
    apiCheckedSetBit m Ex.I (.int 16 v) 5 b = .ok (.ok (), s') ∧
    s'.HasBacking (.int 16) ∧ ∀ j < 16, s'.bit j = if j = 5 then b else v.getLsbD j :=
  (C25_set_bit m Ex.wfI (.int 16 v) rfl 5 b).2.1 Ex.b ⟨by simp [Ex.I], by decide, by decide⟩
    rfl (.inr rfl)

/-- Bit `i` belongs to a field with access `ro` or `rw`. -/
def Bitfield.ReadableBit (B : Bitfield) (i : Nat) : Prop :=
  ∃ f, B.Owns f i ∧ (f.access = .ro ∨ f.access = .rw)

/-- Bit `i` belongs to a field that is not reserved and has access `wo` or `rw`. -/
def Bitfield.WritableBit (B : Bitfield) (i : Nat) : Prop :=
  ∃ f, B.Owns f i ∧ f.reserved = false ∧ (f.access = .wo ∨ f.access = .rw)

theorem readable_iff {i : Nat} : B.readable i = true ↔ B.ReadableBit i := by
  unfold Bitfield.readable Bitfield.ReadableBit
  rw [List.any_eq_true]
  constructor
  · rintro ⟨f, hf, h⟩
    rw [Bool.and_eq_true] at h
    refine ⟨f, ⟨hf, covers_iff.mp h.1⟩, ?_⟩
    have h2 := h.2
    unfold Field.isReadable at h2
    cases ha : f.access <;> rw [ha] at h2 <;> simp at h2 ⊢
  · rintro ⟨f, ho, ha⟩
    refine ⟨f, ho.1, ?_⟩
    rw [ho.covers]
    unfold Field.isReadable
    rcases ha with h | h <;> rw [h] <;> rfl

theorem writable_iff {i : Nat} : B.writable i = true ↔ B.WritableBit i := by
  unfold Bitfield.writable Bitfield.WritableBit
  rw [List.any_eq_true]
  constructor
  · rintro ⟨f, hf, h⟩
    rw [Bool.and_eq_true] at h
    have h2 := h.2
    unfold Field.isWritable at h2
    rw [Bool.and_eq_true] at h2
    refine ⟨f, ⟨hf, covers_iff.mp h.1⟩, by simpa using h2.1, ?_⟩
    have h3 := h2.2
    cases ha : f.access <;> rw [ha] at h3 <;> simp at h3 ⊢
  · rintro ⟨f, ho, hr, ha⟩
    refine ⟨f, ho.1, ?_⟩
    rw [ho.covers]
    unfold Field.isWritable
    rw [hr]
    rcases ha with h | h <;> rw [h] <;> rfl

/-- The range arguments on which integer-backed range functions work: at least one bit. Array-backed
ones accept an empty range. -/
def NonEmptyIfInt (B : Bitfield) (l : Nat) : Prop := (∃ w, B.backing = .int w) → 1 ≤ l

/-- **C26** (part). `get_bits_range(o, l)` of a range inside the storage returns the `l` bits from
`o`, unreadable bits as 0, and the rest of the result is 0; otherwise it returns 0. The full
property has no `hu` and no `hl` and says that no call panics; it is false then, see `finding_range_length_zero` and
`finding_range_sum_overflow` in `Props/Findings.lean`. -/
theorem C26_get_range_partial (m : Mode) (hB : WF B) (s : Store) (hs : s.HasBacking B.backing)
    (o l : Nat) (hu : o < B.backing.size → o + l < 2 ^ 32) (hl : NonEmptyIfInt B l) :
    ∃ r, apiGetRange m B s o l = .ok r ∧ r.HasBacking B.backing ∧
      (¬ (o < B.backing.size ∧ o + l ≤ B.backing.size) → ∀ i < B.backing.size, r.bit i = false) ∧
      (o < B.backing.size → o + l ≤ B.backing.size → ∀ i < B.backing.size,
        (i < l → B.ReadableBit (o + i) → r.bit i = s.bit (o + i)) ∧
        (i < l → ¬ B.ReadableBit (o + i) → r.bit i = false) ∧
        (l ≤ i → r.bit i = false)) := by
  obtain ⟨g, rfl⟩ := Store.cases_ofBits hs
  by_cases hin : o < B.backing.size ∧ o + l ≤ B.backing.size
  · refine ⟨_, apiGetRange_ok m hB g hin.1 hin.2 hl, Store.hasBacking_ofBits _ _,
      fun h => absurd hin h, fun _ _ i hi => ?_⟩
    rw [Store.bit_ofBits_lt hi]
    unfold rangeRead
    refine ⟨fun h1 h2 => ?_, fun h1 h2 => ?_, fun h1 => ?_⟩
    · rw [Store.bit_ofBits_lt (by omega)]
      simp [h1, readable_iff.mpr h2]
    · cases hr : B.readable (o + i)
      · simp
      · exact absurd (readable_iff.mp hr) h2
    · simp [show ¬ i < l by omega]
  · refine ⟨_, apiGetRange_out m _ hu (by omega), Store.hasBacking_ofBits _ _, fun _ i hi => ?_,
      fun h1 h2 => absurd ⟨h1, h2⟩ hin⟩
    rw [Store.bit_ofBits_lt hi]

/-- **C26** (checked, part). `checked_get_bits_range(o, l)` fails exactly when the offset is out of
range, the end is out of range, or the range contains an unreadable bit (in this order);
otherwise it returns the bits. Restrictions as above. -/
theorem C26_checked_get_range_partial (m : Mode) (hB : WF B) (s : Store)
    (hs : s.HasBacking B.backing) (o l : Nat) (hu : o < B.backing.size → o + l < 2 ^ 32)
    (hl : NonEmptyIfInt B l) :
    (B.backing.size ≤ o → apiCheckedGetRange m B s o l =
      .ok (.error "The offset is outside the bitfield range.")) ∧
    (o < B.backing.size → B.backing.size < o + l → apiCheckedGetRange m B s o l =
      .ok (.error "The length is outside the bitfield range.")) ∧
    (o < B.backing.size → o + l ≤ B.backing.size → (∃ i < l, ¬ B.ReadableBit (o + i)) →
      apiCheckedGetRange m B s o l =
        .ok (.error "Attempted to read from non-readable bit(s).")) ∧
    (o < B.backing.size → o + l ≤ B.backing.size → (∀ i < l, B.ReadableBit (o + i)) →
      ∃ r, apiCheckedGetRange m B s o l = .ok (.ok r) ∧ r.HasBacking B.backing ∧
        ∀ i < B.backing.size, r.bit i = (decide (i < l) && s.bit (o + i))) := by
  obtain ⟨g, rfl⟩ := Store.cases_ofBits hs
  refine ⟨fun h => ?_, fun h1 h2 => ?_, fun h1 h2 h3 => ?_, fun h1 h2 h3 => ?_⟩
  · rw [apiCheckedGetRange_out m _ hu (.inl h), if_pos h]; rfl
  · rw [apiCheckedGetRange_out m _ hu (.inr h2), if_neg (by omega)]; rfl
  · rw [apiCheckedGetRange_ok m hB g h1 h2 hl, if_neg]
    · rfl
    · intro hall
      obtain ⟨i, hi, hr⟩ := h3
      exact hr (readable_iff.mp (rangeAll_iff.mp hall (o + i) (by omega) (by omega)))
  · rw [apiCheckedGetRange_ok m hB g h1 h2 hl, if_pos]
    · refine ⟨_, rfl, Store.hasBacking_ofBits _ _, fun i hi => ?_⟩
      rw [Store.bit_ofBits_lt hi]
      by_cases hil : i < l
      · rw [Store.bit_ofBits_lt (by omega)]
      · simp [hil]
    · rw [rangeAll_iff]
      intro i hi1 hi2
      have := readable_iff.mpr (h3 (i - o) (by omega))
      rwa [show o + (i - o) = i by omega] at this

example (m : Mode) (v : BitVec 16) : apiCheckedGetRange m Ex.I (.int 16 v) 4 6 =
    .ok (.error "Attempted to read from non-readable bit(s).") := by
  refine (C26_checked_get_range_partial m Ex.wfI (.int 16 v) rfl 4 6 (by decide)
    (fun _ => by decide)).2.2.1 (by decide) (by decide) ⟨4, by decide, ?_⟩
  rw [← readable_iff]; decide

/-- **C27** (part). `set_bits_range(o, l, x)` with a range inside the storage writes the low `l` bits
of `x` to the writable bits of the range and changes nothing else; otherwise it changes nothing. Restrictions as in
C26. -/
theorem C27_set_range_partial (m : Mode) (hB : WF B) (s x : Store) (hs : s.HasBacking B.backing)
    (hx : x.HasBacking B.backing) (o l : Nat) (hu : o < B.backing.size → o + l < 2 ^ 32)
    (hl : NonEmptyIfInt B l) :
    ∃ s', apiSetRange m B s o l x = .ok s' ∧ s'.HasBacking B.backing ∧
      (¬ (o < B.backing.size ∧ o + l ≤ B.backing.size) → s' = s) ∧
      (o < B.backing.size → o + l ≤ B.backing.size → ∀ i < B.backing.size,
        (o ≤ i → i < o + l → B.WritableBit i → s'.bit i = x.bit (i - o)) ∧
        (¬ (o ≤ i ∧ i < o + l ∧ B.WritableBit i) → s'.bit i = s.bit i)) := by
  rw [← Store.ofBits_bit hs, ← Store.ofBits_bit hx]
  by_cases hin : o < B.backing.size ∧ o + l ≤ B.backing.size
  · refine ⟨_, apiSetRange_ok m hB x.bit s.bit hin.1 hin.2 hl, Store.hasBacking_ofBits _ _,
      fun h => absurd hin h, fun _ _ i hi => ?_⟩
    rw [Store.bit_ofBits_lt hi, Store.bit_ofBits_lt hi]
    unfold rangeWrite
    refine ⟨fun h1 h2 h3 => ?_, fun h => ?_⟩
    · rw [Store.bit_ofBits_lt (by omega)]
      simp [inRange, h1, h2, writable_iff.mpr h3]
    · rw [if_neg]
      intro hh
      rw [Bool.and_eq_true] at hh
      have := inRange_iff.mp hh.1
      exact h ⟨this.1, this.2, writable_iff.mp hh.2⟩
  · refine ⟨_, apiSetRange_out m _ _ hu (by omega), Store.hasBacking_ofBits _ _, fun _ => rfl,
      fun h1 h2 => absurd ⟨h1, h2⟩ hin⟩

/-- **C27** (checked, part). `checked_set_bits_range(o, l, x)` fails exactly when the offset is out of
range, the end is out of range, or the range contains a bit that is not writable, and then changes
nothing; otherwise it writes the low `l` bits of `x`. The documented error for an `x` with more
than `l` bits does not exist, see `finding_checked_range_truncates`. -/
theorem C27_checked_set_range_partial (m : Mode) (hB : WF B) (s x : Store)
    (hs : s.HasBacking B.backing) (hx : x.HasBacking B.backing) (o l : Nat)
    (hu : o < B.backing.size → o + l < 2 ^ 32) (hl : NonEmptyIfInt B l) :
    (B.backing.size ≤ o → apiCheckedSetRange m B s o l x =
      .ok (.error "The offset is outside the bitfield range.", s)) ∧
    (o < B.backing.size → B.backing.size < o + l → apiCheckedSetRange m B s o l x =
      .ok (.error "The length is outside the bitfield range.", s)) ∧
    (o < B.backing.size → o + l ≤ B.backing.size → (∃ i < l, ¬ B.WritableBit (o + i)) →
      apiCheckedSetRange m B s o l x =
        .ok (.error "Attempted to write to non-writable bit(s).", s)) ∧
    (o < B.backing.size → o + l ≤ B.backing.size → (∀ i < l, B.WritableBit (o + i)) →
      ∃ s', apiCheckedSetRange m B s o l x = .ok (.ok (), s') ∧ s'.HasBacking B.backing ∧
        ∀ i < B.backing.size, s'.bit i = if o ≤ i ∧ i < o + l then x.bit (i - o) else s.bit i) := by
  rw [← Store.ofBits_bit hs, ← Store.ofBits_bit hx]
  refine ⟨fun h => ?_, fun h1 h2 => ?_, fun h1 h2 h3 => ?_, fun h1 h2 h3 => ?_⟩
  · rw [apiCheckedSetRange_out m _ _ hu (.inl h), if_pos h]; rfl
  · rw [apiCheckedSetRange_out m _ _ hu (.inr h2), if_neg (by omega)]; rfl
  · rw [apiCheckedSetRange_ok m hB x.bit s.bit h1 h2 hl, if_neg]
    · rfl
    · intro hall
      obtain ⟨i, hi, hr⟩ := h3
      exact hr (writable_iff.mp (rangeAll_iff.mp hall (o + i) (by omega) (by omega)))
  · have hall : rangeAll o l B.writable = true := by
      rw [rangeAll_iff]
      intro i hi1 hi2
      have := writable_iff.mpr (h3 (i - o) (by omega))
      rwa [show o + (i - o) = i by omega] at this
    rw [apiCheckedSetRange_ok m hB x.bit s.bit h1 h2 hl, if_pos hall]
    refine ⟨_, rfl, Store.hasBacking_ofBits _ _, fun i hi => ?_⟩
    rw [Store.bit_ofBits_lt hi, Store.bit_ofBits_lt hi]
    unfold rangeWrite
    by_cases hr : o ≤ i ∧ i < o + l
    · rw [if_pos hr, Store.bit_ofBits_lt (by omega)]
      rw [inRange_iff.mpr hr, rangeAll_iff.mp hall i hr.1 hr.2]
      rfl
    · rw [if_neg hr, if_neg]
      intro hh
      rw [Bool.and_eq_true] at hh
      exact hr (inRange_iff.mp hh.1)

example (m : Mode) (v x : BitVec 16) : apiCheckedSetRange m Ex.I (.int 16 v) 6 2 (.int 16 x) =
    .ok (.error "Attempted to write to non-writable bit(s).", .int 16 v) := by
  refine (C27_checked_set_range_partial m Ex.wfI (.int 16 v) (.int 16 x) rfl rfl 6 2 (by decide)
    (fun _ => by decide)).2.2.1 (by decide) (by decide) ⟨1, by decide, ?_⟩
  rw [← writable_iff]; decide

example (m : Mode) (v x : BitVec 16) :
    ∃ s', apiCheckedSetRange m Ex.I (.int 16 v) 1 4 (.int 16 x) = .ok (.ok (), s') ∧
      s'.HasBacking (.int 16) ∧ ∀ i < 16, s'.bit i =
        if 1 ≤ i ∧ i < 1 + 4 then x.getLsbD (i - 1) else v.getLsbD i := by
  refine (C27_checked_set_range_partial m Ex.wfI (.int 16 v) (.int 16 x) rfl rfl 1 4 (by decide)
    (fun _ => by decide)).2.2.2 (by decide) (by decide) ?_
  have : ∀ i < 4, Ex.I.writable (1 + i) = true := by decide
  exact fun i hi => writable_iff.mp (this i hi)

theorem natOf_pad {n w : Nat} (h : n ≤ w) (x : Bits) :
    natOf w (fun i => decide (i < n) && x i) = natOf n x := by
  apply Nat.eq_of_testBit_eq
  intro i
  rw [testBit_natOf, testBit_natOf]
  by_cases h1 : i < n
  · simp [h1, show i < w by omega]
  · simp [h1]

/-- **C37** (reading). The constants `X_OFFSET`, `X_BITS` describe where the getter reads: they are
inside the storage, and for a readable unsigned field `get_bits_range(X_OFFSET, X_BITS)` is the number
`x()` returns. -/
theorem C37_constants_read (m : Mode) (hB : WF B) (hS : Supported B) (hf : f ∈ B.fields)
    (ha : f.access = .ro ∨ f.access = .rw) {t : IntTy} (hty : f.ty = .int t) (hb : t ≠ .bool)
    (hu : t.unsigned = true) (s : Store) (hs : s.HasBacking B.backing) :
    f.offset + f.bits ≤ B.backing.size ∧
    ∃ r n, apiGetRange m B s f.offset f.bits = .ok r ∧ getX m f s = .ok (.int (n : Nat)) ∧
      natOf B.backing.size r.bit = n := by
  obtain ⟨g, rfl⟩ := Store.cases_ofBits hs
  have hfok := hB.field f hf
  have hfit := hfok.fits
  have hp := hfok.pos
  refine ⟨hfit, _, natOf f.bits fun i => g (f.offset + i),
    apiGetRange_ok m hB g (by omega) hfit (fun _ => hp), ?_, ?_⟩
  · rw [getX_eq m hB.backing hfok (hS.field f hf)]
    unfold decode
    rw [hty]
    cases t <;> first | exact absurd rfl hb | exact absurd hu (by decide) | rfl
  · rw [← natOf_pad (show f.bits ≤ B.backing.size by omega)]
    apply natOf_congr
    intro i hi
    rw [Store.bit_ofBits_lt hi]
    unfold rangeRead
    by_cases h1 : i < f.bits
    · have hr : B.readable (f.offset + i) = true :=
        readable_iff.mpr ⟨f, ⟨hf, by omega, by omega⟩, ha⟩
      simp [h1, hr]
    · simp [h1]

/-- **C37** (writing). For a writable unsigned field `set_bits_range(X_OFFSET, X_BITS, x)` is
`set_x(n)` for the number `n` that `x` holds. -/
theorem C37_constants_write (m : Mode) (hB : WF B) (hS : Supported B) (hf : f ∈ B.fields)
    (hr : f.reserved = false) (ha : f.access = .wo ∨ f.access = .rw) {t : IntTy}
    (hty : f.ty = .int t) (hb : t ≠ .bool) (hu : t.unsigned = true) (s x : Store)
    (hs : s.HasBacking B.backing) (hx : x.HasBacking B.backing) (n : Nat)
    (hn : natOf B.backing.size x.bit = n) (hlt : n < 2 ^ t.bitSize) :
    apiSetRange m B s f.offset f.bits x = setX m f s (.int n) := by
  obtain ⟨g, rfl⟩ := Store.cases_ofBits hs
  have hfok := hB.field f hf
  have hfit := hfok.fits
  have hp := hfok.pos
  have hlt' : (n : Int) < 2 ^ t.bitSize := by
    have e : (2 : Int) ^ t.bitSize = ((2 ^ t.bitSize : Nat) : Int) := by push_cast; rfl
    rw [e]; exact_mod_cast hlt
  have hv : HasType f.ty (.int (n : Int)) := by
    rw [hty]
    have : 0 ≤ (n : Int) ∧ (n : Int) < 2 ^ t.bitSize := ⟨by omega, hlt'⟩
    cases t <;> first | exact absurd rfl hb | exact absurd hu (by decide) | exact this
  rw [setX_noncustom m hB.backing hfok (hS.field f hf) (by rw [hty]; intro c h; cases h) hv,
    ← Store.ofBits_bit hx, apiSetRange_ok m hB x.bit g (by omega) hfit (fun _ => hp)]
  refine congrArg Except.ok (Store.ofBits_congr fun i hi => ?_)
  unfold rangeWrite
  cases hc : f.covers i
  · rw [overwrite_not_covers hc, if_neg]
    intro hh
    rw [Bool.and_eq_true] at hh
    rw [covers_iff.mpr (inRange_iff.mp hh.1)] at hc
    cases hc
  · have := covers_iff.mp hc
    rw [overwrite_covers hc, inRange_iff.mpr this,
      writable_iff.mpr ⟨f, ⟨hf, this⟩, hr, ha⟩]
    show x.bit (i - f.offset) = intBit (n : Int) (i - f.offset)
    rw [intBit_natCast, ← hn, testBit_natOf, decide_eq_true (by omega), Bool.true_and]

example (m : Mode) (v : BitVec 16) : Ex.a.offset + Ex.a.bits ≤ 16 ∧
    ∃ r n, apiGetRange m Ex.I (.int 16 v) 0 4 = .ok r ∧
      getX m Ex.a (.int 16 v) = .ok (.int (n : Nat)) ∧ natOf 16 r.bit = n :=
  C37_constants_read (B := Ex.I) m Ex.wfI Ex.supportedI (f := Ex.a) (by simp [Ex.I]) (.inr rfl) rfl
    (by decide) rfl (.int 16 v) rfl

example (m : Mode) (v : BitVec 16) :
    apiSetRange m Ex.I (.int 16 v) 0 4 (.int 16 9#16) = setX m Ex.a (.int 16 v) (.int 9) :=
  C37_constants_write (B := Ex.I) m Ex.wfI Ex.supportedI (f := Ex.a) (by simp [Ex.I]) rfl (.inr rfl)
    rfl (by decide) rfl (.int 16 v) (.int 16 9#16) rfl rfl 9 (by decide) (by decide)

end Bf
