import Verif.Lemmas.Decode
import Verif.Lemmas.BitOps
import Verif.Lemmas.Endian
import Verif.Machine

namespace Bf

/-! ## Each call refines its specification -/

theorem storeAll_eq (fs : List Field) (X : Field → R Bits) (g : Bits) :
    overwriteAllM fs X g = storeAll fs X g := rfl

theorem defaultPattern_eq (f : Field) : defaultPattern f = f.defaultBits := by
  unfold defaultPattern Field.defaultBits
  cases f.default <;> rfl

theorem endianBits_eq {b : Backing} (h : b.OK) (e : Endian) (g : Bits) :
    revIf (convReverses b e) b.bytes g = endianBits b e g := by
  cases b with
  | int w => cases e <;> rfl
  | arr n =>
    cases e with
    | little => rfl
    | big =>
      simp only [revIf, convReverses, endianBits, if_true, Backing.bytes, Backing.size]
      have : 8 * n / 8 = n := by omega
      rw [this]; rfl

theorem writeEndianBits_eq (b : Backing) (e : Endian) (g : Bits) :
    revIf (writeReverses e) b.bytes g = writeEndianBits b e g := by
  cases e <;> rfl

theorem decodeZ_eq {b : Backing} {f : Field} (hf : FieldOK b f) (x : Bits) :
    decodeRaw f x = decodeZ f x := by
  unfold decodeRaw decodeZ
  cases hty : f.ty with
  | int t =>
    have hle := hf.int t hty
    by_cases hb : t = .bool
    · subst hb; rfl
    · have e : (Except.ok (Val.int (t.cast (natOf f.bits x))) : R Val) =
          .ok (.int (if t.unsigned then (natOf f.bits x : Int)
            else intOf t.bitSize fun i => decide (i < f.bits) && x i)) := by
        refine congrArg (fun k => Except.ok (Val.int k)) ?_
        by_cases hu : t.unsigned
        · rw [if_pos hu]
          exact t.cast_nat hu (Nat.lt_of_lt_of_le (natOf_lt _ _) (Nat.pow_le_pow_right (by decide) hle))
        · rw [if_neg hu, intOf_eq_toInt t.bitSize_pos]
          simp only [IntTy.cast, hu, Bool.false_eq_true, if_false]
          congr 1
          apply BitVec.eq_of_toNat_eq
          rw [← natOf_eq_toNat_ofBits x hle, BitVec.toNat_ofInt]
          have : natOf f.bits x < 2 ^ t.bitSize :=
            Nat.lt_of_lt_of_le (natOf_lt _ _) (Nat.pow_le_pow_right (by decide) hle)
          rw [← Int.natCast_emod, Nat.mod_eq_of_lt this, Int.toNat_natCast]
      cases t <;> first | exact absurd rfl hb | exact e
  | array len => rfl
  | custom c => rfl

theorem codeTooBig_eq {b : Backing} {f : Field} {v : Val} (hv : HasType f.ty v)
    (hc : CheckExact b f v) : codeTooBig b f v = !decide (Fits f v) := by
  unfold codeTooBig
  unfold CheckExact at hc
  rw [Bool.eq_iff_iff]
  simp only [Bool.not_eq_true', decide_eq_false_iff_not]
  unfold Fits
  cases hty : f.ty with
  | int t =>
    rw [hty] at hv hc
    by_cases hb : t = .bool
    · subst hb; simp
    · obtain ⟨n, rfl⟩ := HasType.int_cases hb hv
      have hv' : if t.unsigned then 0 ≤ n ∧ n < 2 ^ t.bitSize
          else -(2 ^ (t.bitSize - 1) : Int) ≤ n ∧ n < 2 ^ (t.bitSize - 1) := by
        cases t <;> first | exact absurd rfl hb | exact hv
      have key : ((if t.unsigned then
          match (generalizing := false) b with
          | .int w => decide (2 ^ f.bits ≤ n % 2 ^ w)
          | .arr _ => decide (2 ^ f.bits ≤ n)
        else decide (f.bits < t.bitSize) &&
          (decide (2 ^ (f.bits - 1) ≤ n) || decide (n < -2 ^ (f.bits - 1)))) = true) ↔
          ¬ (if t.unsigned then 0 ≤ n ∧ n < 2 ^ f.bits
            else -(2 ^ (f.bits - 1) : Int) ≤ n ∧ n < 2 ^ (f.bits - 1)) := by
        by_cases hu : t.unsigned
        · rw [if_pos hu] at hv'
          rw [if_pos hu, if_pos hu]
          cases b with
          | int w =>
            have hw := hc hu w rfl
            have : n % 2 ^ w = n := by
              apply Int.emod_eq_of_lt hv'.1
              exact Int.lt_of_lt_of_le hv'.2 (pow_le_pow_int hw)
            simp only [this, decide_eq_true_eq]
            omega
          | arr _ =>
            simp only [decide_eq_true_eq]
            omega
        · rw [if_neg hu] at hv'
          rw [if_neg hu, if_neg hu]
          simp only [Bool.and_eq_true, Bool.or_eq_true, decide_eq_true_eq]
          by_cases hlt : f.bits < t.bitSize
          · simp only [hlt, true_and]; omega
          · have := pow_le_pow_int (a := t.bitSize - 1) (b := f.bits - 1) (by omega)
            simp only [hlt, false_and, false_iff]
            omega
      cases t <;> first | exact absurd rfl hb | exact key
  | array len =>
    rw [hty] at hv hc
    cases v with
    | arr bs =>
      have hl : bs.length = len := hv
      simp only [Bool.false_eq_true, false_iff, Classical.not_not]
      intro i hi hb
      have hc' : f.bits = 8 * len := hc
      omega
    | _ => exact absurd hv id
  | custom c =>
    rw [hty] at hv hc
    cases v with
    | custom code =>
      cases b with
      | int w =>
        have h : 0 ≤ c.intoBits code ∧ c.intoBits code < 2 ^ w := hc
        have : c.intoBits code % 2 ^ w = c.intoBits code := Int.emod_eq_of_lt h.1 h.2
        simp only [this, decide_eq_true_eq]
        omega
      | arr n =>
        have h : 0 ≤ c.intoBits code ∧ c.intoBits code < 2 ^ 128 := hc
        have : c.intoBits code % 2 ^ 128 = c.intoBits code := Int.emod_eq_of_lt h.1 h.2
        simp only [this, decide_eq_true_eq]
        omega
    | _ => exact absurd hv id

/-! ### Slices -/

theorem copyToSlice_eq {len : Nat} {bits sl : List (BitVec 8)} (h1 : len ≤ bits.length)
    (h2 : len ≤ sl.length) : copyToSlice len bits sl = .ok (bits.take len ++ sl.drop len) := by
  unfold copyToSlice
  have key := forUpTo_eq (fun i => bits.take i ++ sl.drop i) (n := len)
    (body := fun i slice => do
      let b ← getB bits i
      setB slice i b) (by
      intro i hi
      have hb : bits[i]? = some bits[i] := by simp
      simp only [getB, hb, R_bind_ok, setB]
      have hlen : i < (bits.take i ++ sl.drop i).length := by simp; omega
      rw [if_pos hlen]
      refine congrArg Except.ok ?_
      apply List.ext_getElem?
      intro k
      have hl : (bits.take i).length = i := by simp; omega
      have hl' : (bits.take (i + 1)).length = i + 1 := by simp; omega
      rw [List.getElem?_set, List.getElem?_append, List.getElem?_append, hl, hl']
      simp only [List.getElem?_take, List.getElem?_drop]
      by_cases e : i = k
      · subst e
        simp only [if_true]
        rw [if_pos hlen, if_pos (by omega), if_pos (by omega)]
        simp
      · rw [if_neg e]
        by_cases hk : k < i
        · simp only [hk, if_true, show k < i + 1 by omega]
        · rw [if_neg hk, if_neg (by omega)]
          congr 1
          omega)
  simpa using key

theorem copyFromSlice_eq {n len : Nat} {sl : List (BitVec 8)} (h1 : len ≤ n)
    (h2 : len ≤ sl.length) :
    copyFromSlice n len sl = .ok (sl.take len ++ List.replicate (n - len) 0#8) := by
  have := copyToSlice_eq (len := len) (bits := sl) (sl := List.replicate n 0#8) h2 (by simpa using h1)
  rw [List.drop_replicate] at this
  exact this

theorem apiIntoSlice_ok {B : Bitfield} {n : Nat} (hb : B.backing = .arr n) (hOK : B.backing.OK)
    (e : Endian) (g : Bits) (sl : List (BitVec 8)) :
    apiIntoSlice B e (Store.ofBits B.backing g) sl =
      .ok (fillSlice n (bytesOf n (endianBits B.backing e g)) sl) := by
  have hconv := intoConv_bits hOK e g
  rw [endianBits_eq hOK] at hconv
  unfold apiIntoSlice
  rw [hb] at hconv ⊢
  rw [Store.ofBits_arr] at hconv ⊢
  have hcase : (match e with
      | .little => (.ok (bytesOf n g) : R _)
      | .big => xorReverse n (bytesOf n g)) = .ok (bytesOf n (endianBits (.arr n) e g)) := by
    cases e with
    | little => rfl
    | big => rw [xorReverse_eq (length_bytesOf n g), reverse_bytesOf]; rfl
  cases e with
  | little =>
    simp only at hcase ⊢
    simp only [R_bind_ok]
    rw [copyToSlice_eq (by rw [length_bytesOf]; split <;> omega) (by split <;> omega)]
    simp only [fillSlice]
    refine congrArg Except.ok ?_
    by_cases h : sl.length < n
    · rw [if_pos h, Nat.min_eq_right (by omega), List.drop_eq_nil_of_le (by omega : sl.length ≤ n),
        List.drop_eq_nil_of_le (Nat.le_refl _)]
      rfl
    · rw [if_neg h, Nat.min_eq_left (by omega)]
      rfl
  | big =>
    simp only at hcase ⊢
    rw [hcase]
    simp only [R_bind_ok]
    rw [copyToSlice_eq (by rw [length_bytesOf]; split <;> omega) (by split <;> omega)]
    simp only [fillSlice]
    refine congrArg Except.ok ?_
    by_cases h : sl.length < n
    · rw [if_pos h, Nat.min_eq_right (by omega), List.drop_eq_nil_of_le (by omega : sl.length ≤ n),
        List.drop_eq_nil_of_le (Nat.le_refl _)]
    · rw [if_neg h, Nat.min_eq_left (by omega)]

theorem apiCheckedIntoSlice_ok {B : Bitfield} {n : Nat} (hb : B.backing = .arr n)
    (e : Endian) (g : Bits) (sl : List (BitVec 8)) :
    apiCheckedIntoSlice B e (Store.ofBits B.backing g) sl =
      if sl.length < n then .ok (.error errSliceHold, sl)
      else .ok (.ok (), fillSlice n (bytesOf n (endianBits B.backing e g)) sl) := by
  unfold apiCheckedIntoSlice
  rw [hb, Store.ofBits_arr]
  simp only
  by_cases h : sl.length < n
  · rw [if_pos h, if_pos h]
  · rw [if_neg h, if_neg h]
    have hfill : ∀ new : List (BitVec 8), new.take n ++ sl.drop n = fillSlice n new sl := by
      intro new
      simp only [fillSlice]
      rw [Nat.min_eq_left (by omega)]
    cases e with
    | little =>
      simp only [R_bind_ok]
      rw [copyToSlice_eq (by rw [length_bytesOf]; omega) (by omega), hfill]
      rfl
    | big =>
      simp only [xorReverse_eq (length_bytesOf n g), reverse_bytesOf, R_bind_ok]
      rw [copyToSlice_eq (by rw [length_bytesOf]; omega) (by omega), hfill]
      rfl

end Bf
