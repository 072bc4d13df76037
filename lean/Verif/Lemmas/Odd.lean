import Verif.Lemmas.SaneCall

/-!
# Fields of shapes the generated code does not handle
-/

namespace Bf

theorem forUpTo_stop {σ : Type} {I : σ → Prop} {body : Nat → σ → R σ} {q : Panic} {k n : Nat} {s : σ} (hk : k < n)
    (hs : I s) (h : ∀ j < k, ∀ s, I s → ∃ s', body j s = .ok s' ∧ I s') (hq : ∀ s, I s → body k s = .error q) :
    forUpTo n body s = .error q := by
  have h1 : ∀ j ≤ k, ∃ s', forUpTo j body s = .ok s' ∧ I s' := by
    intro j hj
    induction j with
    | zero => exact ⟨s, rfl, hs⟩
    | succ j ih =>
      obtain ⟨s1, e1, i1⟩ := ih (by omega)
      obtain ⟨s2, e2, i2⟩ := h j (by omega) s1 i1
      exact ⟨s2, by simp only [forUpTo, e1, R_bind_ok, e2], i2⟩
  induction n with
  | zero => omega
  | succ n ih =>
    simp only [forUpTo]
    by_cases e : k = n
    · subst e
      obtain ⟨s1, e1, i1⟩ := h1 k (Nat.le_refl _)
      simp only [e1, R_bind_ok, hq s1 i1]
    · rw [ih (by omega)]
      rfl

theorem setB_ok {bs : List (BitVec 8)} {i : Nat} (h : i < bs.length) (b : BitVec 8) :
    setB bs i b = .ok (bs.set i b) := if_pos h

/-! ## Byte arrays of more than 16 bytes in an integer -/

theorem unpack_checked {len : Nat} (v : BitVec 128) (h : 16 < len) : unpack .checked len v = .error .shift := by
  unfold unpack
  refine forUpTo_stop (I := fun a : List (BitVec 8) => a.length = len) h (by simp) ?_ ?_
  · intro j hj s hs
    rw [shr_ok .checked v (by omega)]
    simp only [R_bind_ok]
    rw [setB_ok (by omega)]
    exact ⟨_, rfl, by simp [hs]⟩
  · intro s hs
    simp [shr, bind, Except.bind]

theorem unpack_wrapping {len : Nat} (v : BitVec 128) :
    unpack .wrapping len v = .ok (bytesOf len fun j => v.getLsbD (j % 128)) := by
  unfold unpack
  have h0 : List.replicate len 0#8 =
      bytesOf len (fun j => decide (j < 8 * 0) && v.getLsbD (j % 128)) := by
    rw [← bytesOf_zero]; simp
  rw [h0]
  have key := forUpTo_eq (n := len)
    (F := fun k => bytesOf len fun j => decide (j < 8 * k) && v.getLsbD (j % 128))
    (body := fun i arr => do
      let sh ← shr .wrapping v (i * 8)
      setB arr i ((sh &&& 0xFF#128).setWidth 8)) ?_
  · rw [key]
    refine congrArg Except.ok ?_
    apply bytesOf_congr
    intro j hj
    simp [hj]
  · intro i hi
    have e0 : shr .wrapping v (i * 8) = .ok (v >>> (i * 8 % 128)) := by
      unfold shr
      split
      · rw [Nat.mod_eq_of_lt (by assumption)]
      · rfl
    rw [e0]
    simp only [R_bind_ok]
    have e : (v >>> (i * 8 % 128) &&& 255#128).setWidth 8 = ofBits 8 fun j => v.getLsbD ((8 * i + j) % 128) := by
      apply eq_ofBits
      intro j hj
      have e1 : (255#128).getLsbD j = true := by
        have : (255#128) = BitVec.ofNat 128 (2 ^ 8 - 1) := by decide
        rw [this, BitVec.getLsbD_ofNat, Nat.testBit_two_pow_sub_one]
        simp only [hj, decide_true, Bool.and_true]
        simp; omega
      simp only [BitVec.getLsbD_setWidth, BitVec.getLsbD_and, BitVec.getLsbD_ushiftRight, e1,
        hj, decide_true, Bool.true_and, Bool.and_true]
      congr 1
      omega
    rw [e, setB_bytesOf _ _ (by omega)]
    refine congrArg Except.ok ?_
    apply bytesOf_congr
    intro j hj
    by_cases h1 : j / 8 = i
    · rw [if_pos h1, decide_eq_true (by omega), Bool.true_and]
      congr 2
      omega
    · rw [if_neg h1]
      congr 2
      apply propext
      omega

section IntBacked

variable {w len : Nat} {f : Field}

theorem extract_int (m : Mode) (hb : (Backing.int w).OK) (hf : FieldOK (.int w) f) (inv : Bool) (g : Bits) :
    extract m f inv (Store.ofBits (.int w) g) =
      .ok (.int (natOf f.bits fun i => g (f.offset + i) ^^ inv)) := by
  have hw := hb.int_le
  have hfit : f.offset + f.bits ≤ w := hf.fits
  have h := extract_eq m (b := .int w) (f := { f with ty := .int .u128 }) hb
    ⟨hf.pos, hf.fits, fun t h => by cases h; show f.bits ≤ 128; omega⟩
    ⟨(fun _ h => by cases h), (fun _ h => by cases h)⟩ inv g
  exact h

theorem getX_array_int (m : Mode) (hb : (Backing.int w).OK) (hf : FieldOK (.int w) f) (ht : f.ty = .array len)
    (g : Bits) :
    getX m f (Store.ofBits (.int w) g) =
      (unpack m len (ofBits 128 fun i => decide (i < f.bits) && g (f.offset + i))).map .arr := by
  unfold getX
  rw [extract_int m hb hf]
  simp only [R_bind_ok, signExtendVal, ht, valueToField, Bool.xor_false]
  have e : BitVec.ofInt 128 (natOf f.bits fun i => g (f.offset + i) : Nat) =
      ofBits 128 fun i => decide (i < f.bits) && g (f.offset + i) := by
    apply eq_ofBits
    intro i hi
    rw [getLsbD_ofInt, intBit_natOf]
    simp [hi]
  rw [e]
  cases unpack m len (ofBits 128 fun i => decide (i < f.bits) && g (f.offset + i)) <;> rfl

theorem setX_array_int (m : Mode) (hb : (Backing.int w).OK) (hf : FieldOK (.int w) f) (ht : f.ty = .array len)
    {a : List (BitVec 8)} (ha : a.length = len) (g : Bits) :
    setX m f (Store.ofBits (.int w) g) (.arr a) =
      .ok (Store.ofBits (.int w) (overwrite f
        (fun i => decide (i < 8 * min (f.bits / 8) len) && encode f.ty (.arr a) i) g)) := by
  have hfit : f.offset + f.bits ≤ w := hf.fits
  have hp := hf.pos
  have h1 : packBytes m w a (min (f.bits / 8) len) =
      .ok (ofBits w fun j => decide (j < 8 * min (f.bits / 8) len) && encode f.ty (.arr a) j) := by
    have := packBytes_eq m (w := w) (len := len) (k := min (f.bits / 8) len) (encode f.ty (.arr a)) (by omega) (by omega)
    rwa [← ofBits_encode_arr ha] at this
  unfold setX setImpl extractCast
  simp only [Store.ofBits, Bool.false_and, Bool.false_eq_true, if_false, ht, intMask_eq m hp (show f.bits ≤ w by omega), R_bind_ok]
  rw [← ht, h1]
  simp only [R_bind_ok, R_pure, valueVar, ht]
  have hlt : ((ofBits w fun j => decide (j < 8 * min (f.bits / 8) len) && encode f.ty (.arr a) j) &&&
      ofBits w fun i => decide (i < f.bits)).toNat < 2 ^ w := BitVec.isLt _
  rw [← ht]
  unfold directSet
  simp only [ht]
  rw [if_pos ⟨by omega, by exact_mod_cast hlt⟩, intMask_eq m hp (by omega)]
  simp only [R_bind_ok]
  rw [intSetBits_eq m g _ hp hfit]
  simp only [R_bind_ok, R_pure, overwrite_eq_put, Store.ofBits]
  refine congrArg (fun x => Except.ok (Store.int w (ofBits w x))) ?_
  rw [← overwrite_eq_put, ← overwrite_eq_put]
  apply overwrite_congr
  intro i hi
  rw [getLsbD_ofInt, intBit_toNat, BitVec.getLsbD_and, getLsbD_ofBits, getLsbD_ofBits]
  have : i < w := by omega
  simp [hi, this]

end IntBacked

/-! ## Fields wider than their byte array type -/

theorem readArr_wide (m : Mode) (inv : Bool) {n off bits len : Nat} (g : Bits) (h : off + bits ≤ 8 * n)
    (hn : 8 * n < 2 ^ 32) (hb : 8 * len < bits) :
    readArr m inv (bytesOf n g) off bits len = .error .index := by
  unfold readArr
  refine forUpTo_stop (I := fun a : List (BitVec 8) => a.length = len) hb (by simp) ?_ ?_
  · intro j hj s hs
    rw [addU32_ok m (by omega)]
    simp only [R_bind_ok]
    rw [getB_bytesOf g (by omega)]
    simp only [R_bind_ok]
    have : ∃ b, getB s (j / 8) = .ok b := by
      unfold getB
      rw [List.getElem?_eq_getElem (by omega)]
      exact ⟨_, rfl⟩
    obtain ⟨b, e⟩ := this
    rw [e]
    simp only [R_bind_ok]
    rw [setB_ok (by omega)]
    exact ⟨_, rfl, by simp [hs]⟩
  · intro s hs
    rw [addU32_ok m (by omega)]
    simp only [R_bind_ok]
    rw [getB_bytesOf g (by omega)]
    simp only [R_bind_ok]
    have : getB s (8 * len / 8) = .error .index := by
      unfold getB
      rw [List.getElem?_eq_none (by omega)]
    rw [this]
    rfl

theorem writeArr_wide (m : Mode) {n off bits : Nat} (g : Bits) {a : List (BitVec 8)} (h : off + bits ≤ 8 * n)
    (hn : 8 * n < 2 ^ 32) (hb : 8 * a.length < bits) :
    writeArr m (bytesOf n g) off bits a = .error .index := by
  unfold writeArr
  refine forUpTo_stop (I := fun s : List (BitVec 8) => ∃ g, s = bytesOf n g) hb ⟨g, rfl⟩ ?_ ?_
  · rintro j hj s ⟨g, rfl⟩
    rw [addU32_ok m (by omega)]
    simp only [R_bind_ok]
    have : ∃ b, getB a (j / 8) = .ok b := by
      unfold getB
      rw [List.getElem?_eq_getElem (by omega)]
      exact ⟨_, rfl⟩
    obtain ⟨b, e⟩ := this
    rw [e]
    simp only [R_bind_ok]
    rw [setBit_bytesOf g (by omega)]
    exact ⟨_, rfl, _, rfl⟩
  · rintro s ⟨g, rfl⟩
    rw [addU32_ok m (by omega)]
    simp only [R_bind_ok]
    have : getB a (8 * a.length / 8) = .error .index := by
      unfold getB
      rw [List.getElem?_eq_none (by omega)]
    rw [this]
    rfl

/-! ## Fields of user types of more than 128 bits -/

theorem shl_wrapping {w : Nat} (x : BitVec w) (s : Nat) : shl .wrapping x s = .ok (x <<< (s % w)) := by
  unfold shl
  split
  · rw [Nat.mod_eq_of_lt (by assumption)]
  · rfl

theorem shr_wrapping {w : Nat} (x : BitVec w) (s : Nat) : shr .wrapping x s = .ok (x >>> (s % w)) := by
  unfold shr
  split
  · rw [Nat.mod_eq_of_lt (by assumption)]
  · rfl

theorem readU128_checked {n off bits : Nat} (g : Bits) (h : off + bits ≤ 8 * n)
    (hn : 8 * n < 2 ^ 32) (hb : 128 < bits) : readU128 .checked (bytesOf n g) off bits = .error .shift := by
  unfold readU128
  refine forUpTo_stop (I := fun _ => True) hb trivial ?_ ?_
  · intro j hj s _
    rw [addU32_ok .checked (by omega)]
    simp only [R_bind_ok]
    rw [getB_bytesOf g (by omega)]
    simp only [R_bind_ok]
    rw [shl_ok .checked _ (by omega)]
    exact ⟨_, rfl, trivial⟩
  · intro s _
    rw [addU32_ok .checked (by omega)]
    simp only [R_bind_ok]
    rw [getB_bytesOf g (by omega)]
    simp [shl, bind, Except.bind]

theorem readU128_wrapping {n off bits : Nat} (g : Bits) (h : off + bits ≤ 8 * n) (hn : 8 * n < 2 ^ 32) :
    readU128 .wrapping (bytesOf n g) off bits = .ok (ofBits 128 (folded bits fun k => g (off + k))) := by
  have h0 : (0#128) = ofBits 128 (folded 0 fun k => g (off + k)) := by
    apply eq_ofBits; intro i hi; simp [folded]
  unfold readU128
  rw [h0]
  refine forUpTo_eq (F := fun k => ofBits 128 (folded k fun k => g (off + k))) ?_
  intro i hi
  rw [addU32_ok .wrapping (by omega)]
  simp only [R_bind_ok]
  rw [getB_bytesOf g (by omega)]
  simp only [R_bind_ok]
  rw [byteBit_ofBits _ (by omega), shl_wrapping]
  simp only [R_bind_ok, R_pure]
  refine congrArg Except.ok ?_
  apply eq_ofBits
  intro j hj
  have e : 8 * ((off + i) / 8) + (off + i) % 8 = off + i := by omega
  simp only [BitVec.getLsbD_or, getLsbD_ofBits, BitVec.getLsbD_shiftLeft,
    BitVec.getLsbD_setWidth, e, hj, decide_true, Bool.true_and, folded, List.range_succ, List.any_append,
    List.any_cons, List.any_nil, Bool.or_false]
  congr 1
  by_cases h1 : i % 128 = j
  · subst h1; simp
  · by_cases h2 : j < i % 128
    · simp [h1, h2]
    · have h3 : ¬ j - i % 128 = 0 := by omega
      simp [h1, h2, h3]

theorem mask128_checked {bits : Nat} (hb : 128 < bits) : mask128 .checked bits = .error .shift := by
  unfold mask128
  rw [if_neg (by omega)]
  have : shl .checked 1#128 bits = .error .shift := by
    unfold shl
    rw [if_neg (by omega)]
  rw [this]
  rfl

theorem mask128_wrapping {bits : Nat} (hb : 128 < bits) :
    mask128 .wrapping bits = .ok (ofBits 128 fun i => decide (i < bits % 128)) := by
  have h := mask128_eq .wrapping (b := bits % 128) (by omega)
  unfold mask128 at h ⊢
  rw [if_neg (by omega)] at h ⊢
  rw [shl_wrapping] at h ⊢
  rw [Nat.mod_mod] at h
  exact h

theorem writeU128_checked {n off bits : Nat} (g : Bits) (v : BitVec 128)
    (h : off + bits ≤ 8 * n) (hn : 8 * n < 2 ^ 32) (hb : 128 < bits) :
    writeU128 .checked (bytesOf n g) off bits v = .error .shift := by
  unfold writeU128
  refine forUpTo_stop (I := fun s : List (BitVec 8) => ∃ g, s = bytesOf n g) hb ⟨g, rfl⟩ ?_ ?_
  · rintro j hj s ⟨g, rfl⟩
    rw [addU32_ok .checked (by omega), shr_ok .checked _ (by omega)]
    simp only [R_bind_ok]
    rw [setBit_bytesOf g (by omega)]
    exact ⟨_, rfl, _, rfl⟩
  · rintro s ⟨g, rfl⟩
    rw [addU32_ok .checked (by omega)]
    simp [shr, bind, Except.bind]

theorem writeU128_wrapping {n off bits : Nat} (g : Bits) (v : BitVec 128)
    (h : off + bits ≤ 8 * n) (hn : 8 * n < 2 ^ 32) :
    writeU128 .wrapping (bytesOf n g) off bits v =
      .ok (bytesOf n (put off bits (fun i => v.getLsbD (i % 128)) g)) := by
  unfold writeU128
  have h0 : bytesOf n g = bytesOf n (put off 0 (fun i => v.getLsbD (i % 128)) g) := by rw [put_zero]
  rw [h0]
  refine forUpTo_eq (F := fun k => bytesOf n (put off k (fun i => v.getLsbD (i % 128)) g)) ?_
  intro i hi
  rw [addU32_ok .wrapping (by omega), shr_wrapping]
  simp only [R_bind_ok]
  have e : ((v >>> (i % 128) &&& 1#128) == 1#128) = v.getLsbD (i % 128) := by
    have : (v >>> (i % 128) &&& 1#128) = ofBits 128 (fun j => decide (j = 0) && v.getLsbD (i % 128)) := by
      apply eq_ofBits
      intro j hj
      simp only [BitVec.getLsbD_and, BitVec.getLsbD_ushiftRight, BitVec.getLsbD_one]
      by_cases h : j = 0
      · subst h; simp
      · simp [h]
    rw [this]
    exact ofBits_single_eq_one' (by omega) _
  rw [e, put_succ]
  exact setBit_bytesOf (n := n) (put off i (fun i => v.getLsbD (i % 128)) g) (d := off + i) (by omega) (v.getLsbD (i % 128))

section ArrayBacked

variable {n len : Nat} {f : Field} {c : Codec}

theorem ofBits_arr (n : Nat) (g : Bits) : Store.ofBits (.arr n) g = .arr (bytesOf n g) := rfl

theorem getX_array_wide (m : Mode) (hb : (Backing.arr n).OK) (hf : FieldOK (.arr n) f) (ht : f.ty = .array len)
    (hw : 8 * len < f.bits) (g : Bits) : getX m f (Store.ofBits (.arr n) g) = .error .index := by
  unfold getX extract
  simp only [ofBits_arr, ht]
  rw [readArr_wide m false g hf.fits hb.2 hw]
  rfl

theorem setX_array_wide (m : Mode) (hb : (Backing.arr n).OK) (hf : FieldOK (.arr n) f) (ht : f.ty = .array len)
    {a : List (BitVec 8)} (ha : a.length = len) (hw : 8 * len < f.bits) (g : Bits) :
    setX m f (Store.ofBits (.arr n) g) (.arr a) = .error .index := by
  unfold setX setImpl extractCast
  simp only [ofBits_arr, Bool.false_and, Bool.false_eq_true, if_false, ht, R_bind_ok, valueVar, directSet]
  rw [writeArr_wide m g hf.fits hb.2 (by omega)]
  rfl

theorem getX_custom_checked (hb : (Backing.arr n).OK) (hf : FieldOK (.arr n) f) (ht : f.ty = .custom c)
    (hw : 128 < f.bits) (g : Bits) : getX .checked f (Store.ofBits (.arr n) g) = .error .shift := by
  unfold getX extract
  simp only [ofBits_arr, ht]
  rw [readU128_checked g hf.fits hb.2 hw]
  rfl

theorem getX_custom_wrapping (hb : (Backing.arr n).OK) (hf : FieldOK (.arr n) f) (ht : f.ty = .custom c) (g : Bits) :
    getX .wrapping f (Store.ofBits (.arr n) g) =
      (c.fromBits (natOf 128 (folded f.bits fun k => g (f.offset + k)))).map .custom := by
  unfold getX extract
  simp only [ofBits_arr, ht]
  rw [readU128_wrapping g hf.fits hb.2]
  simp only [R_bind_ok, Bool.false_eq_true, if_false, R_pure, signExtendVal, ht, valueToField, Int.toNat_natCast]
  rw [← natOf_eq_of_toNat (n := 128) (v := ofBits 128 (folded f.bits fun k => g (f.offset + k))) (Nat.le_refl _)
    (fun i hi => by rw [getLsbD_ofBits])]
  cases c.fromBits _ <;> rfl

theorem setX_custom_checked (ht : f.ty = .custom c) (hw : 128 < f.bits) (g : Bits) (code : Nat) :
    setX .checked f (Store.ofBits (.arr n) g) (.custom code) = .error .shift := by
  unfold setX setImpl extractCast
  simp only [ofBits_arr, Bool.false_and, Bool.false_eq_true, if_false, ht]
  rw [mask128_checked hw]
  rfl

theorem setX_custom_wrapping (hb : (Backing.arr n).OK) (hf : FieldOK (.arr n) f) (ht : f.ty = .custom c)
    (hw : 128 < f.bits) (g : Bits) (code : Nat) :
    setX .wrapping f (Store.ofBits (.arr n) g) (.custom code) =
      (c.fromBits (natOf (f.bits % 128) (intBit (c.intoBits code)))).map fun code' =>
        Store.ofBits (.arr n) (overwrite f (fun i => intBit (c.intoBits code') (i % 128)) g) := by
  unfold setX setImpl extractCast
  simp only [ofBits_arr, Bool.false_and, Bool.false_eq_true, if_false, ht]
  rw [mask128_wrapping hw]
  simp only [R_bind_ok, R_pure, valueVar, ht, Int.toNat_natCast]
  have e : (BitVec.ofInt 128 (c.intoBits code) &&& ofBits 128 fun i => decide (i < f.bits % 128)).toNat =
      natOf (f.bits % 128) (intBit (c.intoBits code)) := by
    refine natOf_eq_of_toNat (by omega) fun i hi => ?_
    rw [BitVec.getLsbD_and, getLsbD_ofBits, getLsbD_ofInt]
    simp only [hi, decide_true, Bool.true_and]
    exact Bool.and_comm _ _
  rw [e]
  cases c.fromBits (natOf (f.bits % 128) (intBit (c.intoBits code))) with
  | error q => rfl
  | ok code' =>
    simp only [R_bind_ok, directSet, ht]
    rw [writeU128_wrapping g _ hf.fits hb.2]
    simp only [R_bind_ok, R_pure, Except.map, overwrite_eq_put]
    refine congrArg (fun x => Except.ok (Store.arr (bytesOf n (put f.offset f.bits x g)))) ?_
    funext i
    rw [getLsbD_ofInt]
    simp [Nat.mod_lt]

end ArrayBacked

/-! ## Storing into a field whose code does not run -/

/-- As `StructSpec.Breaks`, of a parsed field. -/
def Breaks (m : Mode) (b : Backing) (f : Field) : Prop :=
  match b, f.ty with
  | .int _, .array len => 16 < len ∧ f.hasSetter = true ∧ m = .checked
  | .arr _, .array len => 8 * len < f.bits
  | .arr _, .custom _ => 128 < f.bits ∧ m = .checked
  | _, _ => False

theorem breaks_assign {m : Mode} {b : Backing} {f : Field} (hb : b.OK) (hf : FieldOK b f) (h : Breaks m b f) {s : Store}
    (hs : s.HasBacking b) {v : Val} (hv : AssignOK b f v) :
    Sane (fun _ => False) (if f.hasSetter then setterCall m f s v else directSet m f s v) := by
  obtain ⟨g, rfl⟩ := Store.cases_ofBits hs
  unfold AssignOK at hv
  rw [← hasSetter_eq] at hv
  cases b with
  | int w =>
    cases ht : f.ty with
    | int t => simp [Breaks, ht] at h
    | custom c => simp [Breaks, ht] at h
    | array len =>
      simp only [Breaks, ht] at h
      obtain ⟨h1, h2, rfl⟩ := h
      rw [if_pos h2] at hv ⊢
      simp only [SetterOK, ht] at hv
      cases v with
      | int n =>
        simp only [setterCall, ht, Store.ofBits, unpack_checked _ h1]
        exact fun e => by cases e
      | bool _ => exact hv.elim
      | arr _ => exact hv.elim
      | custom _ => exact hv.elim
  | arr n =>
    cases ht : f.ty with
    | int t => simp [Breaks, ht] at h
    | custom c =>
      simp only [Breaks, ht] at h
      obtain ⟨h1, rfl⟩ := h
      have : ∃ code, v = .custom code := by
        split at hv
        · simp only [SetterOK, ht] at hv
          cases v <;> first | exact ⟨_, rfl⟩ | exact hv.elim
        · simp only [DirectOK, ht] at hv
          cases v <;> first | exact ⟨_, rfl⟩ | exact hv.elim
      obtain ⟨code, rfl⟩ := this
      split
      · simp only [setterCall, ht]
        rw [setX_custom_checked ht h1]
        exact fun e => by cases e
      · simp only [directSet, ht, ofBits_arr]
        rw [writeU128_checked g _ hf.fits hb.2 h1]
        exact fun e => by cases e
    | array len =>
      simp only [Breaks, ht] at h
      have : ∃ a, v = .arr a ∧ a.length = len := by
        split at hv
        · simp only [SetterOK, ht] at hv
          cases v <;> first | exact ⟨_, rfl, hv⟩ | exact hv.elim
        · simp only [DirectOK, ht] at hv
          cases v <;> first | exact ⟨_, rfl, hv⟩ | exact hv.elim
      obtain ⟨a, rfl, ha⟩ := this
      split
      · have e : setterCall m f (Store.ofBits (.arr n) g) (.arr a) = setX m f (Store.ofBits (.arr n) g) (.arr a) := by
          simp only [setterCall, ht, Store.ofBits]
        rw [e, setX_array_wide m hb hf ht ha h]
        exact fun e => by cases e
      · simp only [directSet, ht, ofBits_arr]
        rw [writeArr_wide m g hf.fits hb.2 (by omega)]
        exact fun e => by cases e

theorem forFields_breaks {b : Backing} {fs : List Field} {body : Field → Store → R Store} {s : Store} {f : Field}
    (hs : s.HasBacking b) (h : ∀ f ∈ fs, ∀ s : Store, s.HasBacking b → Sane (Keeps b f.outside s) (body f s))
    (hf : f ∈ fs) (hb : ∀ s : Store, s.HasBacking b → Sane (fun _ => False) (body f s)) :
    Sane (fun _ => False) (forFields fs body s) := by
  induction fs generalizing s with
  | nil => cases hf
  | cons g fs ih =>
    simp only [forFields, List.foldlM_cons]
    rcases List.mem_cons.mp hf with rfl | hf
    · exact (hb s hs).bind fun _ h => h.elim
    · exact (h g List.mem_cons_self s hs).bind fun s1 h1 => ih h1.1 (fun g hg => h g (List.mem_cons_of_mem _ hg)) hf

section

variable {B : Bitfield} {m : Mode} {f : Field}

theorem breaks_setDefaults (hT : Tame B) (hf : f ∈ B.fields) (h : Breaks m B.backing f) (hd : f.hasDefault = true)
    {s : Store} (hs : s.HasBacking B.backing) : Sane (fun _ => False) (setDefaults m B s) := by
  refine forFields_breaks hs (fun f hf s hs => ?_) (List.mem_filter.mpr ⟨hf, hd⟩) fun s hs => ?_
  · have := (List.mem_filter.mp hf).1
    exact sane_setDefault m hT.backing (hT.field f this) (hT.converts this) (hT.default f this) hs
  · unfold setDefault
    cases e : f.default with
    | none => simp [Sane]
    | some v => exact breaks_assign hT.backing (hT.field f hf) h hs (hT.default f hf v e)

theorem breaks_newBody (hT : Tame B) (hf : f ∈ B.fields) (h : Breaks m B.backing f) (d : Bool) {s : Store}
    (hs : s.HasBacking B.backing) : Sane (fun _ => False) (newBody m B d s) := by
  unfold newBody
  by_cases hd : d = true ∧ f.hasDefault = true
  · obtain ⟨rfl, hd⟩ := hd
    exact (sane_setZeros m hT true hs).bind fun s1 h1 => breaks_setDefaults hT hf h hd h1
  · refine Sane.bind (P := fun _ => False) (forFields_breaks (f := f) hs (fun f hf s hs => ?_) ?_ fun s hs => ?_) fun _ h => h.elim
    · have := (List.mem_filter.mp hf).1
      exact sane_setZero m hT.backing (hT.field f this) (hT.converts this) hs
    · refine List.mem_filter.mpr ⟨hf, ?_⟩
      cases d <;> cases e : f.hasDefault <;> simp_all
    · unfold setZero
      exact (sane_zeroVal hT.backing (hT.converts hf) hs).bind fun v hv =>
        breaks_assign hT.backing (hT.field f hf) h hs (assignOK_of_direct hv)

theorem breaks_source (hT : Tame B) (hf : f ∈ B.fields) (h : Breaks m B.backing f) {x s : Store}
    (hx : x.HasBacking B.backing) (hs : s.HasBacking B.backing) :
    Sane (fun _ => False) (setAllFromSource m B .none x s) := by
  refine forFields_breaks hs (fun f hf s hs => ?_) (List.mem_filter.mpr ⟨hf, rfl⟩) fun s hs => ?_
  · have := (List.mem_filter.mp hf).1
    exact sane_setFromSource m hT.backing (hT.field f this) (hT.converts this) hx hs
  · exact (sane_extract m false hx hT.backing (hT.field f hf)).bind fun _ h' => (sane_valueVar (hT.converts hf) h').bind
      fun _ h' => breaks_assign hT.backing (hT.field f hf) h hs (assignOK_of_direct h')

/-- No bitfield. -/
def Unmade : Except String Store → Prop
  | .ok _ => False
  | .error _ => True

theorem unmade {r : R Store} (h : Sane (fun _ => False) r) : Sane Unmade (r.map Except.ok) := by
  cases r with
  | ok s => exact h
  | error q => exact h

theorem breaks_fromSlice (hT : Tame B) (hf : f ∈ B.fields) (h : Breaks m B.backing f) (e : Endian) (d : Bool)
    (sl : List (BitVec 8)) {n : Nat} (hn : B.backing = .arr n) : Sane (fun _ => False) (apiFromSlice m B e d sl) := by
  have key : ∀ bs : List (BitVec 8), bs.length = n → Sane (fun _ => False)
      (setAllFromSource m B .none (.arr bs) (initStore B) >>= fun s => if d = true then setDefaults m B s else pure s) :=
    fun bs hbs => (breaks_source hT hf h (x := .arr bs) (by rw [hn]; exact hbs) (hasBacking_init B)).bind fun _ h => h.elim
  unfold apiFromSlice
  simp only [hn]
  refine (sane_copyFromSlice n _ sl).bind fun bs hbs => ?_
  cases e
  · exact key bs hbs
  · exact (sane_xorReverse n bs).bind fun bs' h => key bs' (h.trans hbs)

theorem breaks_checkedFromSlice (hT : Tame B) (hf : f ∈ B.fields) (h : Breaks m B.backing f) (e : Endian) (d : Bool)
    (sl : List (BitVec 8)) {n : Nat} (hn : B.backing = .arr n) : Sane Unmade (apiCheckedFromSlice m B e d sl) := by
  have key : ∀ bs : List (BitVec 8), bs.length = n → Sane Unmade
      (setAllFromSource m B .none (.arr bs) (initStore B) >>= fun s =>
        if d = true then setDefaults m B s >>= fun s => pure (Except.ok s) else pure (Except.ok s)) :=
    fun bs hbs => (breaks_source hT hf h (x := .arr bs) (by rw [hn]; exact hbs) (hasBacking_init B)).bind fun _ h => h.elim
  unfold apiCheckedFromSlice
  simp only [hn]
  split
  · exact Sane.ok trivial
  · refine (sane_copyFromSlice n _ sl).bind fun bs hbs => ?_
    cases e
    · exact key bs hbs
    · exact (sane_xorReverse n bs).bind fun bs' h => key bs' (h.trans hbs)

theorem breaks_origin (hT : Tame B) (hf : f ∈ B.fields) (h : Breaks m B.backing f) {o : Origin} (ho : o.Typed B)
    (hd : o ≠ .default false) : Sane Unmade (o.run m B) := by
  have new : ∀ d, Sane (fun _ => False) (newBody m B d (initStore B)) :=
    fun d => breaks_newBody hT hf h d (hasBacking_init B)
  have src : ∀ {x : Store}, x.HasBacking B.backing → Sane (fun _ => False) (setAllFromSource m B .none x (initStore B)) :=
    fun hx => breaks_source hT hf h hx (hasBacking_init B)
  cases o with
  | new => exact unmade (new _)
  | newWithoutDefaults => exact unmade (new _)
  | default g =>
    cases g
    · exact absurd rfl hd
    · exact unmade (new _)
  | builder g d cs =>
    refine Sane.bind (P := fun _ => False) ?_ fun s hs => hs.elim
    cases g <;> cases d <;> exact new _
  | «from» e d x =>
    cases e <;> cases d <;> refine unmade ?_ <;>
      first
      | exact (sane_fromConv ho _).bind fun _ h => src h
      | exact (sane_fromConv ho _).bind fun _ h => (src h).bind fun _ h => h.elim
  | fromTrait x => exact unmade ((sane_traitConv ho _).bind fun _ h => src h)
  | fromSlice e d sl => exact unmade (breaks_fromSlice hT hf h _ d sl ho.choose_spec)
  | checkedFromSlice e d sl => exact breaks_checkedFromSlice hT hf h _ d sl ho.choose_spec

end

/-! ## Storing into the other fields -/

/-- The user's conversion of the field accepts all bits. -/
def Accepting (f : Field) : Prop := ∀ c, f.ty = .custom c → ∀ n, ∃ code, c.fromBits n = .ok code

theorem unpack_returns {m : Mode} {len : Nat} (v : BitVec 128) (h : len ≤ 16 ∨ m = .wrapping) :
    ∃ a, unpack m len v = .ok a ∧ a.length = len := by
  rcases h with h | rfl
  · exact ⟨_, unpack_eq m v h, by simp [bytesOf]⟩
  · exact ⟨_, unpack_wrapping v, by simp [bytesOf]⟩

theorem settle_returns {f : Field} {v : Val} (hA : Accepting f) : ∃ v', settle f v = .ok v' := by
  unfold settle
  cases ht : f.ty with
  | int t => cases v <;> exact ⟨_, rfl⟩
  | array len => cases v <;> exact ⟨_, rfl⟩
  | custom c =>
    cases v with
    | custom code =>
      obtain ⟨code', e⟩ := hA c ht (natOf f.bits (intBit (c.intoBits code)))
      exact ⟨.custom code', by simp only [e]; rfl⟩
    | int _ => exact ⟨_, rfl⟩
    | bool _ => exact ⟨_, rfl⟩
    | arr _ => exact ⟨_, rfl⟩

theorem setterCall_supported {m : Mode} {b : Backing} {f : Field} (hb : b.OK) (hf : FieldOK b f) (hA : Accepting f)
    (hS : FieldSupported b f) (g : Bits) {v : Val} (hv : AssignOK b f v) :
    ∃ s', (if f.hasSetter then setterCall m f (Store.ofBits b g) v else directSet m f (Store.ofBits b g) v) = .ok s' ∧
      s'.HasBacking b := by
  rw [assign_eq m hb hf hS hv g]
  have : ∃ v', assigned f v = .ok v' := by
    unfold assigned
    split
    · exact settle_returns hA
    · exact ⟨_, rfl⟩
  obtain ⟨v', e⟩ := this
  rw [e]
  exact ⟨_, rfl, Store.hasBacking_ofBits _ _⟩

theorem assign_returns {m : Mode} {b : Backing} {f : Field} (hb : b.OK) (hf : FieldOK b f) (hA : Accepting f)
    (h : ¬ Breaks m b f) {s : Store} (hs : s.HasBacking b) {v : Val} (hv : AssignOK b f v) :
    ∃ s', (if f.hasSetter then setterCall m f s v else directSet m f s v) = .ok s' ∧ s'.HasBacking b := by
  obtain ⟨g, rfl⟩ := Store.cases_ofBits hs
  have sup := fun hS => setterCall_supported (m := m) hb hf hA hS g hv
  unfold AssignOK at hv
  rw [← hasSetter_eq] at hv
  cases b with
  | int w =>
    have hw := hb.int_le
    have hfit : f.offset + f.bits ≤ w := hf.fits
    cases ht : f.ty with
    | int t => exact sup ⟨fun _ e => (by rw [ht] at e; cases e), fun _ e => by rw [ht] at e; cases e⟩
    | custom c => exact sup ⟨fun _ e => (by rw [ht] at e; cases e), fun _ _ => by omega⟩
    | array len =>
      split
      · rw [if_pos ‹_›] at hv
        simp only [SetterOK, ht] at hv
        cases v with
        | int n =>
          have hl : len ≤ 16 ∨ m = .wrapping := by
            simp only [Breaks, ht, ‹f.hasSetter = true›, true_and] at h
            cases m
            · exact .inl (by simp at h; omega)
            · exact .inr rfl
          obtain ⟨a, e1, e2⟩ := unpack_returns (BitVec.ofInt 128 n) hl
          have e3 : setterCall m f (Store.ofBits (.int w) g) (.int n) = setX m f (Store.ofBits (.int w) g) (.arr a) := by
            simp only [setterCall, ht, Store.ofBits, e1, R_bind_ok]
          exact ⟨_, e3.trans (setX_array_int m hb hf ht e2 g), Store.hasBacking_ofBits _ _⟩
        | bool _ => exact hv.elim
        | arr _ => exact hv.elim
        | custom _ => exact hv.elim
      · rw [if_neg ‹_›] at hv
        simp only [DirectOK, ht] at hv
        cases v with
        | int n =>
          have e := directSet_eq m (b := .int w) (f := { f with ty := .int .u128 }) hb
            ⟨hf.pos, hf.fits, fun t h => by cases h; show f.bits ≤ 128; omega⟩
            ⟨(fun _ h => by cases h), (fun _ h => by cases h)⟩ (v := .int n) hv g
          have e' : directSet m f (Store.ofBits (.int w) g) (.int n) =
              directSet m { f with ty := .int .u128 } (Store.ofBits (.int w) g) (.int n) := by
            simp only [directSet, ht, Store.ofBits]
          exact ⟨_, e'.trans e, Store.hasBacking_ofBits _ _⟩
        | bool _ => exact hv.elim
        | arr _ => exact hv.elim
        | custom _ => exact hv.elim
  | arr n =>
    cases ht : f.ty with
    | int t => exact sup ⟨fun _ e => (by rw [ht] at e; cases e), fun _ e => by rw [ht] at e; cases e⟩
    | array len =>
      simp only [Breaks, ht] at h
      refine sup ⟨fun l e => ?_, fun _ e => by rw [ht] at e; cases e⟩
      rw [ht] at e; cases e
      exact ⟨by omega, fun w e => by cases e⟩
    | custom c =>
      by_cases hbig : f.bits ≤ 128
      · exact sup ⟨fun _ e => (by rw [ht] at e; cases e), fun _ _ => hbig⟩
      · simp only [Breaks, ht] at h
        obtain rfl : m = .wrapping := by
          cases m
          · exact absurd ⟨by omega, rfl⟩ h
          · rfl
        have : ∃ code, v = .custom code := by
          split at hv
          · simp only [SetterOK, ht] at hv
            cases v <;> first | exact ⟨_, rfl⟩ | exact hv.elim
          · simp only [DirectOK, ht] at hv
            cases v <;> first | exact ⟨_, rfl⟩ | exact hv.elim
        obtain ⟨code, rfl⟩ := this
        split
        · simp only [setterCall, ht]
          rw [setX_custom_wrapping hb hf ht (by omega)]
          obtain ⟨code', e⟩ := hA c ht (natOf (f.bits % 128) (intBit (c.intoBits code)))
          rw [e]
          exact ⟨_, rfl, Store.hasBacking_ofBits _ _⟩
        · simp only [directSet, ht, ofBits_arr]
          rw [writeU128_wrapping g _ hf.fits hb.2]
          exact ⟨_, rfl, by simp [Store.HasBacking, bytesOf]⟩

theorem extract_returns {m : Mode} {b : Backing} {f : Field} (hb : b.OK) (hf : FieldOK b f) (h : ¬ Breaks m b f)
    {s : Store} (hs : s.HasBacking b) : ∃ v, extract m f false s = .ok v := by
  obtain ⟨g, rfl⟩ := Store.cases_ofBits hs
  cases b with
  | int w => exact ⟨_, extract_int m hb hf false g⟩
  | arr n =>
    cases ht : f.ty with
    | int t => exact ⟨_, extract_eq m hb hf ⟨fun _ e => (by rw [ht] at e; cases e), fun _ e => by rw [ht] at e; cases e⟩ _ g⟩
    | array len =>
      simp only [Breaks, ht] at h
      refine ⟨_, extract_eq m hb hf ⟨fun l e => ?_, fun _ e => by rw [ht] at e; cases e⟩ _ g⟩
      rw [ht] at e; cases e
      exact ⟨by omega, fun w e => by cases e⟩
    | custom c =>
      by_cases hbig : f.bits ≤ 128
      · exact ⟨_, extract_eq m hb hf ⟨fun _ e => (by rw [ht] at e; cases e), fun _ _ => hbig⟩ _ g⟩
      · simp only [Breaks, ht] at h
        obtain rfl : m = .wrapping := by
          cases m
          · exact absurd ⟨by omega, rfl⟩ h
          · rfl
        unfold extract
        simp only [ofBits_arr, ht]
        rw [readU128_wrapping g hf.fits hb.2]
        exact ⟨_, rfl⟩

theorem forFields_returns {b : Backing} {fs : List Field} {body : Field → Store → R Store} {s : Store}
    (hs : s.HasBacking b) (h : ∀ f ∈ fs, ∀ s : Store, s.HasBacking b → ∃ s', body f s = .ok s' ∧ s'.HasBacking b) :
    ∃ s', forFields fs body s = .ok s' ∧ s'.HasBacking b := by
  induction fs generalizing s with
  | nil => exact ⟨s, rfl, hs⟩
  | cons g fs ih =>
    obtain ⟨s1, e1, h1⟩ := h g List.mem_cons_self s hs
    obtain ⟨s2, e2, h2⟩ := ih h1 fun f hf => h f (List.mem_cons_of_mem _ hf)
    refine ⟨s2, ?_, h2⟩
    simp only [forFields, List.foldlM_cons, e1, R_bind_ok]
    exact e2

section

variable {B : Bitfield} {m : Mode}

/-- No field's code breaks and all conversions accept all bits. -/
structure Sound (m : Mode) (B : Bitfield) : Prop where
  tame : Tame B
  accepts : ∀ f ∈ B.fields, Accepting f
  runs : ∀ f ∈ B.fields, ¬ Breaks m B.backing f

theorem sound_defaults (h : Sound m B) {P : Field → Bool} (hP : ∀ f, P f = true → f.hasDefault = true) {s : Store}
    (hs : s.HasBacking B.backing) :
    ∃ s', forFields (B.fields.filter P) (setDefault m) s = .ok s' ∧ s'.HasBacking B.backing := by
  refine forFields_returns hs fun f hf s hs => ?_
  obtain ⟨hf, hd⟩ := List.mem_filter.mp hf
  have hd := hP f hd
  unfold setDefault
  cases e : f.default with
  | none => simp [Field.hasDefault, e] at hd
  | some v =>
    exact assign_returns h.tame.backing (h.tame.field f hf) (h.accepts f hf) (h.runs f hf) hs (h.tame.default f hf v e)

theorem sound_newBody (h : Sound m B) (d : Bool) {s : Store} (hs : s.HasBacking B.backing) :
    ∃ s', newBody m B d s = .ok s' ∧ s'.HasBacking B.backing := by
  obtain ⟨s1, e1, h1⟩ : ∃ s', setZeros m B d s = .ok s' ∧ s'.HasBacking B.backing := by
    refine forFields_returns hs fun f hf s hs => ?_
    obtain ⟨hf, -⟩ := List.mem_filter.mp hf
    have hz := sane_zeroVal h.tame.backing (h.tame.converts hf) hs
    have : ∃ v, zeroVal f s = .ok v := by
      unfold zeroVal
      cases ht : f.ty with
      | int t => cases t <;> exact ⟨_, rfl⟩
      | custom c => obtain ⟨code, e⟩ := h.accepts f hf c ht 0; simp [e]
      | array len => cases s <;> exact ⟨_, rfl⟩
    obtain ⟨v, e⟩ := this
    unfold setZero
    simp only [e, R_bind_ok]
    exact assign_returns h.tame.backing (h.tame.field f hf) (h.accepts f hf) (h.runs f hf) hs
      (assignOK_of_direct (hz.of_ok e))
  unfold newBody
  simp only [e1, R_bind_ok]
  cases d
  · exact sound_defaults h (fun f hf => by simp_all) h1
  · exact sound_defaults h (fun f hf => hf) h1

theorem sound_source (h : Sound m B) {x s : Store} (hx : x.HasBacking B.backing) (hs : s.HasBacking B.backing) :
    ∃ s', setAllFromSource m B .none x s = .ok s' ∧ s'.HasBacking B.backing := by
  refine forFields_returns hs fun f hf s hs => ?_
  obtain ⟨hf, -⟩ := List.mem_filter.mp hf
  obtain ⟨v, e⟩ := extract_returns h.tame.backing (h.tame.field f hf) (h.runs f hf) hx
  have h1 := (sane_extract m false hx h.tame.backing (h.tame.field f hf)).of_ok e
  have h2 := sane_valueVar (h.tame.converts hf) h1
  have : ∃ v', valueVar f v = .ok v' := by
    cases e' : valueVar f v with
    | ok v' => exact ⟨v', rfl⟩
    | error q =>
      rw [e'] at h2
      exfalso
      unfold valueVar at e'
      split at e'
      · rename_i c n hty
        obtain ⟨code, e2⟩ := h.accepts f hf c hty n.toNat
        rw [e2] at e'
        cases e'
      all_goals first | (cases e'; exact h2 rfl) | cases e'
  obtain ⟨v', e2⟩ := this
  unfold setFromSource
  simp only [e, e2, R_bind_ok]
  exact assign_returns h.tame.backing (h.tame.field f hf) (h.accepts f hf) (h.runs f hf) hs
    (assignOK_of_direct (h2.of_ok e2))

end

end Bf
