import Verif.Lemmas.Loops
import Verif.Model.Api

namespace Bf

theorem hasSetter_eq (f : Field) : f.hasSetter = f.isWritable := by
  cases h : f.access <;> cases h' : f.reserved <;>
    simp [Field.hasSetter, Field.isWritable, h, h']

theorem hasReadAccess_eq (f : Field) : f.hasReadAccess = f.isReadable := by
  cases h : f.access <;> simp [Field.hasReadAccess, Field.isReadable, h]

/-! ## overwrite -/

theorem overwrite_eq_put (f : Field) (new old : Bits) :
    overwrite f new old = put f.offset f.bits new old := by
  funext i
  simp only [overwrite, put, Field.covers, Bool.and_eq_true, decide_eq_true_eq]

theorem overwrite_congr {f : Field} {x y : Bits} (h : ∀ i < f.bits, x i = y i) (g : Bits) :
    overwrite f x g = overwrite f y g := by
  funext i
  simp only [overwrite, Field.covers, Bool.and_eq_true, decide_eq_true_eq]
  split
  · exact h _ (by omega)
  · rfl

theorem Backing.OK.size_lt {b : Backing} (h : b.OK) : b.size < 2 ^ 32 := by
  cases b with
  | int w => simp only [Backing.OK] at h; simp only [Backing.size]; omega
  | arr n => exact h.2

theorem Backing.OK.int_le {w : Nat} (h : (Backing.int w).OK) : 8 ≤ w ∧ w ≤ 128 ∧ w % 8 = 0 := by
  simp only [Backing.OK] at h; omega

theorem IntTy.bitSize_le (t : IntTy) : t.bitSize ≤ 128 := by cases t <;> decide
theorem IntTy.bitSize_pos (t : IntTy) : 1 ≤ t.bitSize := by cases t <;> decide

/-! ## numbers -/

theorem intBit_zero (i : Nat) : intBit 0 i = false := by
  simp [intBit]

theorem intBit_toNat {w : Nat} (v : BitVec w) (i : Nat) : intBit (v.toNat : Int) i = v.getLsbD i := by
  rw [intBit_natCast, BitVec.testBit_toNat]

theorem intBit_toInt {w : Nat} (v : BitVec w) {i : Nat} (h : i < w) :
    intBit v.toInt i = v.getLsbD i := by
  have := getLsbD_ofInt w v.toInt i
  rw [BitVec.ofInt_toInt] at this
  rw [this]; simp [h]

theorem intBit_cast (t : IntTy) (n : Int) {i : Nat} (h : i < t.bitSize) :
    intBit (t.cast n) i = intBit n i := by
  unfold IntTy.cast
  split
  · rw [intBit_toNat, getLsbD_ofInt]; simp [h]
  · rw [intBit_toInt _ h, getLsbD_ofInt]; simp [h]

theorem intBit_natOf {n : Nat} (x : Bits) (i : Nat) :
    intBit (natOf n x : Int) i = (decide (i < n) && x i) := by
  rw [intBit_natCast, testBit_natOf]

theorem natOf_intBit (n : Nat) (k : Int) : (natOf n (intBit k) : Int) = k % 2 ^ n := by
  have : natOf n (intBit k) = (BitVec.ofInt n k).toNat := by
    rw [toNat_eq_natOf]
    apply natOf_congr
    intro i hi
    rw [getLsbD_ofInt]; simp [hi]
  rw [this, BitVec.toNat_ofInt, Int.toNat_of_nonneg (Int.emod_nonneg _ (by simp; exact Int.pow_ne_zero (by decide)))]
  push_cast; rfl

theorem natOf_eq_toNat_ofBits {w n : Nat} (x : Bits) (h : n ≤ w) :
    natOf n x = (ofBits w fun i => decide (i < n) && x i).toNat := by
  apply Nat.eq_of_testBit_eq
  intro i
  rw [testBit_natOf, BitVec.testBit_toNat, getLsbD_ofBits]
  by_cases hi : i < n
  · simp [hi, show i < w by omega]
  · simp [hi]

theorem natOf_eq_of_toNat {w n : Nat} {v : BitVec w} {x : Bits} (h : n ≤ w)
    (e : ∀ i < w, v.getLsbD i = (decide (i < n) && x i)) : v.toNat = natOf n x := by
  rw [natOf_eq_toNat_ofBits x h, ← eq_ofBits e]

/-! ## extraction -/

/-- The value of the `value` variable after extraction. -/
def rawVal (b : Backing) (f : Field) (x : Bits) : Val :=
  match b, f.ty with
  | .arr _, .array len => .arr (bytesOf len fun i => decide (i < f.bits) && x i)
  | _, _ => .int (natOf f.bits x : Int)

theorem extract_eq (m : Mode) {b : Backing} {f : Field} (hb : b.OK) (hf : FieldOK b f)
    (hs : FieldSupported b f) (inv : Bool) (g : Bits) :
    extract m f inv (Store.ofBits b g) =
      .ok (rawVal b f fun i => g (f.offset + i) ^^ inv) := by
  cases b with
  | int w =>
    have hfit : f.offset + f.bits ≤ w := hf.fits
    have hp := hf.pos
    have er : rawVal (.int w) f (fun i => g (f.offset + i) ^^ inv) =
        .int (natOf f.bits fun i => g (f.offset + i) ^^ inv) := by
      simp only [rawVal]
    rw [er, Store.ofBits_int]
    simp only [extract]
    rw [intMask_eq m hp (by omega), shr_ok m _ (by omega)]
    simp only [R_bind_ok, R_pure]
    refine congrArg (fun (k : Nat) => Except.ok (Val.int (k : Int))) ?_
    apply natOf_eq_of_toNat (by omega)
    intro i hi
    cases inv
    · simp only [Bool.false_eq_true, if_false, BitVec.getLsbD_and, BitVec.getLsbD_ushiftRight,
        getLsbD_ofBits, hi, decide_true, Bool.true_and, Bool.bne_false]
      by_cases h : i < f.bits
      · simp [h, show f.offset + i < w by omega]
      · simp [h]
    · simp only [if_true, BitVec.getLsbD_and, BitVec.getLsbD_not, BitVec.getLsbD_ushiftRight,
        getLsbD_ofBits, hi, decide_true, Bool.true_and]
      by_cases h : i < f.bits
      · simp [h, show f.offset + i < w by omega]
      · simp [h]
  | arr n =>
    have hfit : f.offset + f.bits ≤ 8 * n := hf.fits
    have hn : 8 * n < 2 ^ 32 := hb.2
    rw [Store.ofBits_arr]
    by_cases hty : ∃ len, f.ty = .array len
    · obtain ⟨len, hty⟩ := hty
      simp only [extract, hty, rawVal]
      rw [readArr_eq m inv g hfit hn (hs.array len hty).1]
      rfl
    · have hb128 : f.bits ≤ 128 := by
        cases h : f.ty with
        | int t => exact Nat.le_trans (hf.int t h) t.bitSize_le
        | array len => exact absurd ⟨len, h⟩ hty
        | custom c => exact hs.custom c h
      have er : rawVal (.arr n) f (fun i => g (f.offset + i) ^^ inv) =
          .int (natOf f.bits fun i => g (f.offset + i) ^^ inv) := by
        cases h : f.ty with
        | array len => exact absurd ⟨len, h⟩ hty
        | _ => simp only [rawVal, h]
      rw [er]
      have ex : extract m f inv (.arr (bytesOf n g)) = (do
          let val ← readU128 m (bytesOf n g) f.offset f.bits
          if inv then
            let mask ← mask128 m f.bits
            return .int (((~~~val) &&& mask).toNat : Int)
          else return .int (val.toNat : Int)) := by
        cases h : f.ty with
        | array len => exact absurd ⟨len, h⟩ hty
        | _ => simp only [extract, h]
      rw [ex, readU128_eq m g hfit hn hb128]
      simp only [R_bind_ok]
      cases inv
      · simp only [Bool.false_eq_true, if_false, R_pure]
        refine congrArg (fun (k : Nat) => Except.ok (Val.int (k : Int))) ?_
        apply natOf_eq_of_toNat hb128
        intro i hi
        simp only [getLsbD_ofBits, hi, decide_true, Bool.true_and, Bool.bne_false]
      · simp only [if_true, mask128_eq m hb128, R_bind_ok, R_pure]
        refine congrArg (fun (k : Nat) => Except.ok (Val.int (k : Int))) ?_
        apply natOf_eq_of_toNat hb128
        intro i hi
        simp only [BitVec.getLsbD_and, BitVec.getLsbD_not, getLsbD_ofBits, hi, decide_true,
          Bool.true_and]
        by_cases h : i < f.bits <;> simp [h]

/-! ## direct assignment -/

theorem ofBits_encode_arr {len : Nat} {a : List (BitVec 8)} (h : a.length = len) (ty : DataType) :
    a = bytesOf len (encode ty (.arr a)) := bit_list_eq_bytesOf h

theorem directSet_eq (m : Mode) {b : Backing} {f : Field} (hb : b.OK) (hf : FieldOK b f)
    (hs : FieldSupported b f) {v : Val} (hv : DirectOK b f v) (g : Bits) :
    directSet m f (Store.ofBits b g) v =
      .ok (Store.ofBits b (overwrite f (encode f.ty v) g)) := by
  have hp := hf.pos
  rw [overwrite_eq_put]
  cases b with
  | int w =>
    have hfit : f.offset + f.bits ≤ w := hf.fits
    rw [Store.ofBits_int, Store.ofBits_int]
    cases hty : f.ty with
    | int t =>
      by_cases ht : t = .bool
      · subst ht
        have hbits : f.bits = 1 := by
          have := hf.int _ hty; simp only [IntTy.bitSize] at this; omega
        cases v with
        | bool x =>
          simp only [directSet, hty]
          rw [intSetBit_eq m g x (by omega)]
          simp only [R_bind_ok, R_pure]
          refine congrArg (fun k => Except.ok (Store.int w k)) ?_
          apply ofBits_congr
          intro i hi
          simp only [put, encode, hbits]
          by_cases h : i = f.offset
          · rw [if_pos h, if_pos (by omega)]; simp [h]
          · rw [if_neg h, if_neg (by omega)]
        | _ => simp [DirectOK, hty] at hv
      · cases v with
        | int n =>
          have hv' : 0 ≤ n ∧ n < 2 ^ w := by
            cases t <;> first | exact absurd rfl ht | simpa [DirectOK, hty] using hv
          have e : directSet m f (.int w (ofBits w g)) (.int n) = (do
              let mask ← intMask m w f.bits
              return .int w (← intSetBits m (ofBits w g) mask (BitVec.ofInt w n) f.offset)) := by
            cases t <;> first | exact absurd rfl ht | simp only [directSet, hty, hv', and_self, if_true]
          rw [e, intMask_eq m hp (by omega)]
          simp only [R_bind_ok]
          rw [intSetBits_eq m g _ hp hfit]
          simp only [R_bind_ok, R_pure]
          refine congrArg (fun k => Except.ok (Store.int w k)) ?_
          apply ofBits_congr
          intro i hi
          simp only [put, encode, getLsbD_ofInt]
          split
          · rw [decide_eq_true (by omega), Bool.true_and]
          · rfl
        | _ => cases t <;> simp_all [DirectOK]
    | custom c =>
      cases v with
      | custom code =>
        simp only [directSet, hty]
        rw [intMask_eq m hp (by omega)]
        simp only [R_bind_ok]
        rw [intSetBits_eq m g _ hp hfit]
        simp only [R_bind_ok, R_pure]
        refine congrArg (fun k => Except.ok (Store.int w k)) ?_
        apply ofBits_congr
        intro i hi
        simp only [put, encode, getLsbD_ofInt]
        split
        · rw [decide_eq_true (by omega), Bool.true_and]
        · rfl
      | _ => simp [DirectOK, hty] at hv
    | array len =>
      cases v with
      | int n =>
        have hv' : 0 ≤ n ∧ n < 2 ^ w := by simpa [DirectOK, hty] using hv
        simp only [directSet, hty, hv', and_self, if_true]
        rw [intMask_eq m hp (by omega)]
        simp only [R_bind_ok]
        rw [intSetBits_eq m g _ hp hfit]
        simp only [R_bind_ok, R_pure]
        refine congrArg (fun k => Except.ok (Store.int w k)) ?_
        apply ofBits_congr
        intro i hi
        simp only [put, encode, getLsbD_ofInt]
        split
        · rw [decide_eq_true (by omega), Bool.true_and]
        · rfl
      | _ => simp [DirectOK, hty] at hv
  | arr n =>
    have hfit : f.offset + f.bits ≤ 8 * n := hf.fits
    have hn : 8 * n < 2 ^ 32 := hb.2
    rw [Store.ofBits_arr, Store.ofBits_arr]
    have fin : ∀ (y : BitVec 128) (v : Val), f.bits ≤ 128 →
        (∀ i < f.bits, y.getLsbD i = encode f.ty v i) →
        (do return Store.arr (← writeU128 m (bytesOf n g) f.offset f.bits y) : R Store) =
        .ok (.arr (bytesOf n (put f.offset f.bits (encode f.ty v) g))) := by
      intro y v h128 he
      rw [writeU128_eq m g y hfit hn h128]
      simp only [R_bind_ok, R_pure]
      refine congrArg (fun k => Except.ok (Store.arr k)) ?_
      apply bytesOf_congr
      intro i hi
      simp only [put]
      split
      · exact he _ (by omega)
      · rfl
    cases hty : f.ty with
    | int t =>
      have h128 : f.bits ≤ 128 := Nat.le_trans (hf.int t hty) t.bitSize_le
      by_cases ht : t = .bool
      · subst ht
        have hbits : f.bits = 1 := by
          have := hf.int _ hty; simp only [IntTy.bitSize] at this; omega
        cases v with
        | bool x =>
          simp only [directSet, hty]
          rw [fin _ (.bool x) h128, hty]
          intro i hi
          have : i = 0 := by omega
          subst this
          cases x <;> simp [encode]
        | _ => simp [DirectOK, hty] at hv
      · cases v with
        | int k =>
          have e : directSet m f (.arr (bytesOf n g)) (.int k) = (do
              return .arr (← writeU128 m (bytesOf n g) f.offset f.bits (BitVec.ofInt 128 k))) := by
            cases t <;> first | exact absurd rfl ht | simp only [directSet, hty]
          rw [e, fin _ (.int k) h128, hty]
          intro i hi
          simp only [getLsbD_ofInt, encode]
          rw [decide_eq_true (by omega), Bool.true_and]
        | _ => cases t <;> simp_all [DirectOK]
    | custom c =>
      have h128 := hs.custom c hty
      cases v with
      | custom code =>
        simp only [directSet, hty]
        rw [fin _ (.custom code) h128, hty]
        intro i hi
        simp only [getLsbD_ofInt, encode, hty]
        rw [decide_eq_true (by omega), Bool.true_and]
      | _ => simp [DirectOK, hty] at hv
    | array len =>
      cases v with
      | arr a =>
        have hlen : a.length = len := by simpa [DirectOK, hty] using hv
        simp only [directSet, hty]
        have h1 := writeArr_eq m g (encode f.ty (.arr a)) hfit hn (hs.array len hty).1
        rw [← ofBits_encode_arr hlen] at h1
        rw [h1, hty]
        rfl
      | _ => simp [DirectOK, hty] at hv

end Bf
