import Verif.Lemmas.Setter

namespace Bf

/-! ## Setter calls made by other generated functions -/

theorem IntTy.cast_range (t : IntTy) (ht : t ≠ .bool) (n : Int) : HasType (.int t) (.int (t.cast n)) := by
  have hp := t.bitSize_pos
  have h : if t.unsigned then (0 : Int) ≤ t.cast n ∧ t.cast n < 2 ^ t.bitSize
    else -(2 ^ (t.bitSize - 1) : Int) ≤ t.cast n ∧ t.cast n < 2 ^ (t.bitSize - 1) := by
    unfold IntTy.cast
    split
    · have := (BitVec.ofInt t.bitSize n).isLt
      have e : (2 : Int) ^ t.bitSize = ((2 ^ t.bitSize : Nat) : Int) := by push_cast; rfl
      rw [e]; omega
    · have h1 := BitVec.two_mul_toInt_lt (x := BitVec.ofInt t.bitSize n)
      have h2 := BitVec.le_two_mul_toInt (x := BitVec.ofInt t.bitSize n)
      have e : (2 : Int) ^ t.bitSize = 2 * 2 ^ (t.bitSize - 1) := by
        conv => lhs; rw [show t.bitSize = (t.bitSize - 1) + 1 by omega]
        rw [Int.pow_succ]; omega
      rw [e] at h1 h2
      omega
  cases t <;> first | exact absurd rfl ht | exact h

/-- The codes a setter call can store. -/
theorem setterCall_eq (m : Mode) {b : Backing} {f : Field} (hb : b.OK) (hf : FieldOK b f)
    (hs : FieldSupported b f) {v : Val} (hv : SetterOK b f v) (g : Bits) :
    setterCall m f (Store.ofBits b g) v =
      (settle f v).map (fun v' => Store.ofBits b (overwrite f (encode f.ty v') g)) := by
  cases hty : f.ty with
  | int t =>
    by_cases ht : t = .bool
    · subst ht
      cases v with
      | bool x =>
        simp only [setterCall, hty]
        rw [setX_eq m hb hf hs (by rw [hty]; trivial) g, hty]
      | _ => simp only [SetterOK, hty] at hv
    · obtain ⟨n, rfl⟩ : ∃ n, v = .int n := by
        cases v <;> cases t <;> first | exact absurd rfl ht | exact ⟨_, rfl⟩ | (simp only [SetterOK, hty] at hv)
      have e : setterCall m f (Store.ofBits b g) (.int n) =
          setX m f (Store.ofBits b g) (.int (t.cast n)) := by
        cases t <;> first | exact absurd rfl ht | simp only [setterCall, hty]
      rw [e, setX_eq m hb hf hs (by rw [hty]; exact t.cast_range ht n) g]
      have hsz := hf.int t hty
      have e1 : ∀ k, settle f (.int k) = .ok (.int k) := by intro k; cases t <;> simp only [settle, hty]
      rw [e1, e1]
      simp only [Except.map, encode]
      rw [overwrite_congr (x := intBit (t.cast n)) (y := intBit n)]
      intro i hi
      exact intBit_cast t n (by omega)
  | custom c =>
    cases v with
    | custom code =>
      simp only [setterCall, hty]
      rw [setX_eq m hb hf hs (by rw [hty]; trivial) g, hty]
    | _ => simp only [SetterOK, hty] at hv
  | array len =>
    cases b with
    | int w =>
      cases v with
      | int n =>
        obtain ⟨h1, h2⟩ := hs.array len hty
        obtain ⟨h3, h4⟩ := h2 w rfl
        have e : setterCall m f (Store.ofBits (.int w) g) (.int n) = (do
            let a ← unpack m len (BitVec.ofInt 128 n)
            setX m f (Store.ofBits (.int w) g) (.arr a)) := by
          simp only [setterCall, hty, Store.ofBits_int]
        rw [e, unpack_eq m _ h4]
        simp only [R_bind_ok]
        rw [setX_eq m hb hf hs (by rw [hty]; simp [HasType]) g]
        simp only [settle, hty, Except.map, encode]
        rw [overwrite_congr]
        intro i hi
        rw [bytesOf_bit, getLsbD_ofInt, decide_eq_true (by omega), decide_eq_true (by omega)]
        simp
      | _ => simp only [SetterOK, hty] at hv
    | arr n =>
      cases v with
      | arr a =>
        simp only [SetterOK, hty] at hv
        have e : setterCall m f (Store.ofBits (.arr n) g) (.arr a) =
            setX m f (Store.ofBits (.arr n) g) (.arr a) := by
          simp only [setterCall, hty, Store.ofBits_arr]
        rw [e, setX_eq m hb hf hs (by rw [hty]; exact hv) g, hty]
      | _ => simp only [SetterOK, hty] at hv

/-- The value an assignment stores. -/
def assigned (f : Field) (v : Val) : R Val := if f.hasSetter then settle f v else .ok v

theorem assign_eq (m : Mode) {b : Backing} {f : Field} (hb : b.OK) (hf : FieldOK b f)
    (hs : FieldSupported b f) {v : Val} (hv : AssignOK b f v) (g : Bits) :
    (if f.hasSetter then setterCall m f (Store.ofBits b g) v
      else directSet m f (Store.ofBits b g) v) =
      (assigned f v).map (fun v' => Store.ofBits b (overwrite f (encode f.ty v') g)) := by
  unfold AssignOK at hv
  rw [← hasSetter_eq] at hv
  unfold assigned
  by_cases h : f.hasSetter = true
  · simp only [h, if_true] at hv ⊢
    exact setterCall_eq m hb hf hs hv g
  · simp only [h, Bool.false_eq_true, if_false] at hv ⊢
    exact directSet_eq m hb hf hs hv g

theorem directOK_setterOK {b : Backing} {f : Field} {v : Val} (h : DirectOK b f v) : SetterOK b f v := by
  unfold DirectOK at h
  unfold SetterOK
  split at h <;> cases b <;> simp_all

theorem directOK_assignOK {b : Backing} {f : Field} {v : Val} (h : DirectOK b f v) : AssignOK b f v := by
  unfold AssignOK
  split
  · exact directOK_setterOK h
  · exact h

/-! ## Copying a field from a source -/

theorem pow_le_pow_int {a b : Nat} (h : a ≤ b) : (2 : Int) ^ a ≤ 2 ^ b := by
  have := Nat.pow_le_pow_right (n := 2) (by decide) h
  have e : ∀ k : Nat, (2 : Int) ^ k = ((2 ^ k : Nat) : Int) := by intro k; push_cast; rfl
  rw [e, e]; omega

theorem natOf_lt_int (n : Nat) (g : Bits) : (natOf n g : Int) < 2 ^ n := by
  have := natOf_lt n g
  have e : (2 : Int) ^ n = ((2 ^ n : Nat) : Int) := by push_cast; rfl
  rw [e]; omega

theorem natOf_one_ne_zero (x : Bits) : ((natOf 1 x : Int) != 0) = x 0 := by
  simp only [natOf]
  cases x 0 <;> rfl

/-- The bits stored in field `f` when it is copied from a source whose bits there are
`x`: `x` itself, except that a custom field goes through the user's functions. -/
def intake (f : Field) (x : Bits) : R Bits :=
  match f.ty with
  | .custom c => do
    let code ← c.fromBits (natOf f.bits x)
    let v ← assigned f (.custom code)
    return encode f.ty v
  | _ => .ok x

theorem setFromSource_eq (m : Mode) {b : Backing} {f : Field} (hb : b.OK) (hf : FieldOK b f)
    (hs : FieldSupported b f) (src g : Bits) :
    setFromSource m f (Store.ofBits b src) (Store.ofBits b g) =
      (intake f (fun i => src (f.offset + i))).map
        (fun y => Store.ofBits b (overwrite f y g)) := by
  simp only [setFromSource]
  rw [extract_eq m hb hf hs]
  simp only [R_bind_ok, Bool.bne_false]
  generalize hx : (fun i => src (f.offset + i)) = x
  have hx2 : (fun i => src (f.offset + i) ^^ false) = x := by rw [← hx]; funext i; simp
  try rw [hx2]
  have hp := hf.pos
  cases hty : f.ty with
  | int t =>
    by_cases ht : t = .bool
    · subst ht
      have hbits : f.bits = 1 := by
        have := hf.int _ hty; simp only [IntTy.bitSize] at this; omega
      have er : rawVal b f x = .int (natOf f.bits x : Int) := by
        cases b <;> simp only [rawVal, hty]
      rw [er]
      simp only [valueVar, hty, R_bind_ok, intake, Except.map]
      rw [assign_eq m hb hf hs (directOK_assignOK (by simp only [DirectOK, hty])) g]
      have : assigned f (.bool ((natOf f.bits x : Int) != 0)) = .ok (.bool ((natOf f.bits x : Int) != 0)) := by
        simp only [assigned, settle, hty, ite_self]
      rw [this]
      simp only [Except.map, encode]
      refine congrArg (fun k => Except.ok (Store.ofBits b k)) ?_
      apply overwrite_congr
      intro i hi
      have : i = 0 := by omega
      subst this
      rw [hbits, natOf_one_ne_zero]; simp
    · have er : rawVal b f x = .int (natOf f.bits x : Int) := by
        cases b <;> simp only [rawVal, hty]
      rw [er]
      have ev : valueVar f (.int (natOf f.bits x : Int)) = .ok (.int (natOf f.bits x : Int)) := by
        cases t <;> first | exact absurd rfl ht | simp only [valueVar, hty]
      rw [ev]
      simp only [R_bind_ok, intake, hty, Except.map]
      have hd : DirectOK b f (.int (natOf f.bits x : Int)) := by
        have h1 : (natOf f.bits x : Int) < 2 ^ f.bits := natOf_lt_int _ _
        cases b with
        | int w =>
          have hfit : f.offset + f.bits ≤ w := hf.fits
          have h2 : (2 : Int) ^ f.bits ≤ 2 ^ w := pow_le_pow_int (by omega)
          have : (0 : Int) ≤ natOf f.bits x ∧ (natOf f.bits x : Int) < 2 ^ w := by omega
          cases t <;> first | exact absurd rfl ht | (simp only [DirectOK, hty]; exact this)
        | arr n =>
          cases t <;> first | exact absurd rfl ht | simp only [DirectOK, hty]
      rw [assign_eq m hb hf hs (directOK_assignOK hd) g]
      have : assigned f (.int (natOf f.bits x : Int)) = .ok (.int (natOf f.bits x : Int)) := by
        cases t <;> simp only [assigned, settle, hty, ite_self]
      rw [this]
      simp only [Except.map, encode]
      refine congrArg (fun k => Except.ok (Store.ofBits b k)) ?_
      apply overwrite_congr
      intro i hi
      rw [intBit_natOf]; simp [hi]
  | custom c =>
    have er : rawVal b f x = .int (natOf f.bits x : Int) := by
      cases b <;> simp only [rawVal, hty]
    rw [er]
    simp only [valueVar, hty, intake, Int.toNat_natCast]
    cases c.fromBits (natOf f.bits x) with
    | error p => rfl
    | ok code =>
      simp only [R_bind_ok, R_pure]
      rw [assign_eq m hb hf hs (directOK_assignOK (by simp only [DirectOK, hty])) g, hty]
      cases assigned f (.custom code) <;> rfl
  | array len =>
    obtain ⟨h1, h2⟩ := hs.array len hty
    cases b with
    | int w =>
      have er : rawVal (.int w) f x = .int (natOf f.bits x : Int) := by
        simp only [rawVal]
      rw [er]
      simp only [valueVar, hty, R_bind_ok, intake, Except.map]
      have h1 : (natOf f.bits x : Int) < 2 ^ f.bits := natOf_lt_int _ _
      have hfit : f.offset + f.bits ≤ w := hf.fits
      have h2 : (2 : Int) ^ f.bits ≤ 2 ^ w := pow_le_pow_int (by omega)
      rw [assign_eq m hb hf hs (directOK_assignOK (by simp only [DirectOK, hty]; omega)) g]
      have : assigned f (.int (natOf f.bits x : Int)) = .ok (.int (natOf f.bits x : Int)) := by
        simp only [assigned, settle, hty, ite_self]
      rw [this]
      simp only [Except.map, encode]
      refine congrArg (fun k => Except.ok (Store.ofBits (.int w) k)) ?_
      apply overwrite_congr
      intro i hi
      rw [intBit_natOf]; simp [hi]
    | arr n =>
      simp only [rawVal, hty, valueVar, R_bind_ok, intake, Except.map]
      rw [assign_eq m hb hf hs (directOK_assignOK (by simp [DirectOK, hty])) g]
      have : ∀ a, assigned f (.arr a) = .ok (.arr a) := by
        intro a; simp only [assigned, settle, hty, ite_self]
      rw [this]
      simp only [Except.map, encode]
      refine congrArg (fun k => Except.ok (Store.ofBits (.arr n) k)) ?_
      apply overwrite_congr
      intro i hi
      rw [bytesOf_bit, decide_eq_true (by omega), decide_eq_true hi]; simp

/-! ## Zero and default -/

/-- The bits stored in field `f` by the zeroing code. -/
def zeroBits (f : Field) : R Bits :=
  match f.ty with
  | .custom c => do
    let code ← c.fromBits 0
    let v ← assigned f (.custom code)
    return encode f.ty v
  | _ => .ok fun _ => false

theorem encode_zeroArr (ty : DataType) (len i : Nat) :
    encode ty (.arr (List.replicate len 0#8)) i = false := by
  rw [← bytesOf_zero]
  simp only [encode]
  rw [bytesOf_bit]; simp

theorem setZero_eq (m : Mode) {b : Backing} {f : Field} (hb : b.OK) (hf : FieldOK b f)
    (hs : FieldSupported b f) (g : Bits) :
    setZero m f (Store.ofBits b g) =
      (zeroBits f).map (fun y => Store.ofBits b (overwrite f y g)) := by
  simp only [setZero]
  have fin : ∀ v, zeroVal f (Store.ofBits b g) = .ok v → DirectOK b f v →
      assigned f v = .ok v → (∀ i, encode f.ty v i = false) →
      (∃ y, zeroBits f = .ok y ∧ ∀ i, y i = false) →
      (do let v ← zeroVal f (Store.ofBits b g)
          if f.hasSetter then setterCall m f (Store.ofBits b g) v
            else directSet m f (Store.ofBits b g) v) =
      (zeroBits f).map (fun y => Store.ofBits b (overwrite f y g)) := by
    intro v h1 h2 h3 h4 ⟨y, h5, h6⟩
    rw [h1, h5]
    simp only [R_bind_ok, Except.map]
    rw [assign_eq m hb hf hs (directOK_assignOK h2) g, h3]
    simp only [Except.map]
    refine congrArg (fun k => Except.ok (Store.ofBits b k)) ?_
    apply overwrite_congr
    intro i _
    rw [h4, h6]
  cases hty : f.ty with
  | int t =>
    by_cases ht : t = .bool
    · subst ht
      refine fin (.bool false) (by simp only [zeroVal, hty]) (by simp only [DirectOK, hty])
        (by simp only [assigned, settle, hty, ite_self]) (by simp [encode]) ⟨_, by simp only [zeroBits, hty], fun _ => rfl⟩
    · have hpos : (0 : Int) ≤ 0 ∧ ∀ w : Nat, (0 : Int) < 2 ^ w := ⟨Int.le_refl _, fun w => Int.pow_pos (by decide)⟩
      refine fin (.int 0) ?_ ?_ ?_ (by intro i; simp only [encode]; exact intBit_zero i) ⟨_, by simp only [zeroBits, hty], fun _ => rfl⟩
      · cases t <;> first | exact absurd rfl ht | simp only [zeroVal, hty]
      · cases b with
        | int w =>
          cases t <;> first | exact absurd rfl ht | (simp only [DirectOK, hty]; exact ⟨hpos.1, hpos.2 w⟩)
        | arr n => cases t <;> first | exact absurd rfl ht | simp only [DirectOK, hty]
      · cases t <;> simp only [assigned, settle, hty, ite_self]
  | custom c =>
    simp only [zeroVal, zeroBits, hty]
    cases c.fromBits 0 with
    | error p => rfl
    | ok code =>
      simp only [R_bind_ok, R_pure]
      rw [assign_eq m hb hf hs (directOK_assignOK (by simp only [DirectOK, hty])) g, hty]
      cases assigned f (.custom code) <;> rfl
  | array len =>
    cases b with
    | int w =>
      refine fin (.int 0) ?_ ?_ ?_ (by intro i; simp only [encode]; exact intBit_zero i) ⟨_, by simp only [zeroBits, hty], fun _ => rfl⟩
      · simp only [zeroVal, hty, Store.ofBits_int]
      · simp only [DirectOK, hty]; exact ⟨Int.le_refl _, Int.pow_pos (by decide)⟩
      · simp only [assigned, settle, hty, ite_self]
    | arr n =>
      refine fin (.arr (List.replicate len 0#8)) ?_ ?_ ?_ (encode_zeroArr _ _) ⟨_, by simp only [zeroBits, hty], fun _ => rfl⟩
      · simp only [zeroVal, hty, Store.ofBits_arr]
      · simp [DirectOK, hty]
      · simp only [assigned, settle, hty, ite_self]

theorem setDefault_eq (m : Mode) {b : Backing} {f : Field} (hb : b.OK) (hf : FieldOK b f)
    (hs : FieldSupported b f) {v : Val} (hd : f.default = some v) (hv : AssignOK b f v) (g : Bits) :
    setDefault m f (Store.ofBits b g) =
      (assigned f v).map (fun v' => Store.ofBits b (overwrite f (encode f.ty v') g)) := by
  simp only [setDefault, hd]
  exact assign_eq m hb hf hs hv g

/-! ## Getters -/

theorem intOf_eq_toInt {n : Nat} (hn : 1 ≤ n) (x : Bits) : intOf n x = (ofBits n x).toInt := by
  rw [BitVec.toInt_eq_msb_cond, BitVec.msb_eq_getLsbD_last, getLsbD_ofBits,
    decide_eq_true (by omega), Bool.true_and, toNat_eq_natOf]
  have : natOf n (ofBits n x).getLsbD = natOf n x := by
    apply natOf_congr
    intro i hi
    rw [getLsbD_ofBits, decide_eq_true hi, Bool.true_and]
  rw [this, intOf]
  split
  · push_cast; rfl
  · simp

theorem signExtend_loop {w n : Nat} (hn : 1 ≤ n) (h : n ≤ w) (x : Bits) :
    (((BitVec.ofInt w (natOf n x)) <<< (w - n)).sshiftRight (w - n)) =
      (ofBits n x).signExtend w := by
  apply BitVec.eq_of_getLsbD_eq
  intro i hi
  rw [BitVec.getLsbD_signExtend, BitVec.getLsbD_sshiftRight]
  simp only [hi, decide_true, Bool.true_and, show ¬ w ≤ i by omega, decide_false, Bool.not_false]
  rw [BitVec.msb_eq_getLsbD_last, BitVec.msb_eq_getLsbD_last]
  simp only [BitVec.getLsbD_shiftLeft, getLsbD_ofInt, getLsbD_ofBits, intBit_natOf]
  by_cases hin : i < n
  · have e1 : w - n + i < w := by omega
    simp only [e1, hin, if_true, decide_true, Bool.true_and]
    have e2 : ¬ (w - n + i < w - n) := by omega
    have e3 : w - n + i - (w - n) = i := by omega
    simp only [e2, decide_false, Bool.not_false, Bool.true_and, e3, hi, hin, decide_true]
  · have e1 : ¬ w - n + i < w := by omega
    simp only [e1, hin, if_false]
    have e2 : ¬ (w - 1 < w - n) := by omega
    have e3 : w - 1 - (w - n) = n - 1 := by omega
    have e4 : n - 1 < n := by omega
    have e5 : w - 1 < w := by omega
    have e6 : n - 1 < w := by omega
    simp only [e2, e3, e4, e5, e6, decide_false, decide_true, Bool.not_false, Bool.true_and]

theorem IntTy.cast_toInt (t : IntTy) (h : t.unsigned = false) (v : BitVec t.bitSize) :
    t.cast v.toInt = v.toInt := by
  unfold IntTy.cast
  rw [if_neg (by simp [h]), BitVec.ofInt_toInt]

theorem IntTy.cast_nat (t : IntTy) (h : t.unsigned = true) {n : Nat} (hn : n < 2 ^ t.bitSize) :
    t.cast n = n := by
  unfold IntTy.cast
  rw [if_pos h, BitVec.toNat_ofInt]
  have e : ((2 ^ t.bitSize : Nat) : Int) = 2 ^ t.bitSize := by push_cast; rfl
  rw [← Int.natCast_emod, Nat.mod_eq_of_lt hn, Int.toNat_natCast]

/-- `x_inverted`'s conversion: like `decode`, but a signed field is not sign-extended. -/
def decodeRaw (f : Field) (x : Bits) : R Val :=
  match f.ty with
  | .int .bool => .ok (.bool (x 0))
  | .int t => .ok (.int (t.cast (natOf f.bits x)))
  | .array len => .ok (.arr (bytesOf len fun i => decide (i < f.bits) && x i))
  | .custom c => (c.fromBits (natOf f.bits x)).map .custom

theorem valueToField_eq (m : Mode) {b : Backing} {f : Field} (hf : FieldOK b f)
    (hs : FieldSupported b f) (x : Bits) :
    valueToField m f (rawVal b f x) = decodeRaw f x := by
  have hp := hf.pos
  cases hty : f.ty with
  | int t =>
    have er : rawVal b f x = .int (natOf f.bits x : Int) := by
      cases b <;> simp only [rawVal, hty]
    rw [er]
    by_cases ht : t = .bool
    · subst ht
      have hbits : f.bits = 1 := by
        have := hf.int _ hty; simp only [IntTy.bitSize] at this; omega
      simp only [valueToField, decodeRaw, hty]
      rw [hbits, natOf_one_ne_zero]
    · cases t <;> first | exact absurd rfl ht | simp only [valueToField, decodeRaw, hty]
  | custom c =>
    have er : rawVal b f x = .int (natOf f.bits x : Int) := by
      cases b <;> simp only [rawVal, hty]
    rw [er]
    simp only [valueToField, decodeRaw, hty, Int.toNat_natCast]
    cases c.fromBits (natOf f.bits x) <;> rfl
  | array len =>
    obtain ⟨h1, h2⟩ := hs.array len hty
    cases b with
    | int w =>
      have er : rawVal (.int w) f x = .int (natOf f.bits x : Int) := by
        simp only [rawVal]
      rw [er]
      simp only [valueToField, decodeRaw, hty]
      rw [unpack_eq m _ (h2 w rfl).2]
      simp only [R_bind_ok, R_pure]
      refine congrArg (fun k => Except.ok (Val.arr k)) ?_
      apply bytesOf_congr
      intro i hi
      have := (h2 w rfl).2
      rw [getLsbD_ofInt, decide_eq_true (by omega), intBit_natOf, Bool.true_and]
    | arr n =>
      simp only [rawVal, valueToField, decodeRaw, hty]

theorem getX_eq (m : Mode) {b : Backing} {f : Field} (hb : b.OK) (hf : FieldOK b f)
    (hs : FieldSupported b f) (g : Bits) :
    getX m f (Store.ofBits b g) = decode f (fun i => g (f.offset + i)) := by
  have hp := hf.pos
  simp only [getX]
  rw [extract_eq m hb hf hs]
  generalize hx : (fun i => g (f.offset + i)) = x
  have hx2 : (fun i => g (f.offset + i) ^^ false) = x := by rw [← hx]; funext i; simp
  rw [hx2]
  simp only [R_bind_ok]
  cases hty : f.ty with
  | int t =>
    have hsz := hf.int t hty
    have hr := valueToField_eq m hf hs x
    have er : rawVal b f x = .int (natOf f.bits x : Int) := by
      cases b <;> simp only [rawVal, hty]
    rw [er] at hr ⊢
    by_cases hu : t.unsigned = true
    · simp only [signExtendVal, hty, hu, if_true, R_bind_ok]
      rw [hr]
      have hc : t.cast (natOf f.bits x) = (natOf f.bits x : Int) := by
        apply t.cast_nat hu
        exact Nat.lt_of_lt_of_le (natOf_lt _ _) (Nat.pow_le_pow_right (by decide) hsz)
      cases t <;> first | (cases hu; done) | (simp only [decodeRaw, decode, hty, hc, hu, if_true])
    · have hu' : t.unsigned = false := by simpa using hu
      have ht : t ≠ .bool := by intro h; subst h; cases hu'
      simp only [signExtendVal, hty, hu', Bool.false_eq_true, if_false]
      rw [subU32_ok m hsz]
      simp only [R_bind_ok]
      rw [shl_ok m _ (by omega)]
      simp only [R_bind_ok]
      rw [sshr_ok m _ (by omega)]
      simp only [R_bind_ok, R_pure]
      rw [signExtend_loop hp hsz, BitVec.toInt_signExtend_of_le hsz, ← intOf_eq_toInt hp]
      have hc : t.cast (intOf f.bits x) = intOf f.bits x := by
        rw [intOf_eq_toInt hp, ← BitVec.toInt_signExtend_of_le hsz, t.cast_toInt hu']
      cases t <;> first | exact absurd rfl ht | (simp only [valueToField, decode, hty, hc, hu', Bool.false_eq_true, if_false])
  | custom c =>
    have : signExtendVal m f (rawVal b f x) = .ok (rawVal b f x) := by
      simp only [signExtendVal, hty]
    rw [this]
    simp only [R_bind_ok]
    rw [valueToField_eq m hf hs x]
    simp only [decodeRaw, decode, hty]
  | array len =>
    have : signExtendVal m f (rawVal b f x) = .ok (rawVal b f x) := by
      simp only [signExtendVal, hty]
    rw [this]
    simp only [R_bind_ok]
    rw [valueToField_eq m hf hs x]
    simp only [decodeRaw, decode, hty]

theorem invertedX_eq (m : Mode) {b : Backing} {f : Field} (hb : b.OK) (hf : FieldOK b f)
    (hs : FieldSupported b f) (g : Bits) :
    invertedX m f (Store.ofBits b g) = decodeRaw f (fun i => !g (f.offset + i)) := by
  simp only [invertedX]
  rw [extract_eq m hb hf hs]
  have hx2 : (fun i => g (f.offset + i) ^^ true) = (fun i => !g (f.offset + i)) := by funext i; simp
  rw [hx2]
  simp only [R_bind_ok]
  exact valueToField_eq m hf hs _

theorem decodeRaw_hasType {f : Field} {x : Bits} {v : Val}
    (h : decodeRaw f x = .ok v) : HasType f.ty v := by
  cases hty : f.ty with
  | int t =>
    by_cases ht : t = .bool
    · subst ht
      simp only [decodeRaw, hty, Except.ok.injEq] at h
      subst h; trivial
    · have : v = .int (t.cast (natOf f.bits x)) := by
        cases t <;> first | exact absurd rfl ht | (simp only [decodeRaw, hty, Except.ok.injEq] at h; exact h.symm)
      rw [this]
      exact t.cast_range ht _
  | custom c =>
    simp only [decodeRaw, hty] at h
    cases hc : c.fromBits (natOf f.bits x) with
    | error p => rw [hc] at h; cases h
    | ok code => rw [hc] at h; cases h; trivial
  | array len =>
    simp only [decodeRaw, hty, Except.ok.injEq] at h
    subst h
    simp [HasType]

/-- Bits stored when a value made of the bits `x` goes through the setter. -/
def reencode (f : Field) (x : Bits) : R Bits :=
  match f.ty with
  | .custom c => do
    let code ← c.fromBits (natOf f.bits x)
    let v ← settle f (.custom code)
    return encode f.ty v
  | _ => .ok x

theorem invertX_eq (m : Mode) {b : Backing} {f : Field} (hb : b.OK) (hf : FieldOK b f)
    (hs : FieldSupported b f) (g : Bits) :
    invertX m f (Store.ofBits b g) =
      (reencode f (fun i => !g (f.offset + i))).map
        (fun y => Store.ofBits b (overwrite f y g)) := by
  have h1 := invertedX_eq m hb hf hs g
  simp only [invertedX] at h1
  have e : invertX m f (Store.ofBits b g) = (do
      let v ← decodeRaw f (fun i => !g (f.offset + i))
      setX m f (Store.ofBits b g) v) := by
    rw [← h1]
    simp only [invertX]
    cases extract m f true (Store.ofBits b g) <;> rfl
  rw [e]
  generalize (fun i => !g (f.offset + i)) = x
  cases hd : decodeRaw f x with
  | error p =>
    cases hty : f.ty with
    | int t => cases t <;> simp [decodeRaw, hty] at hd
    | array len => simp [decodeRaw, hty] at hd
    | custom c =>
      simp only [decodeRaw, reencode, hty] at hd ⊢
      cases hc : c.fromBits (natOf f.bits x) with
      | error q => rw [hc] at hd; cases hd; rfl
      | ok code => rw [hc] at hd; cases hd
  | ok v =>
    have hT := decodeRaw_hasType hd
    simp only [R_bind_ok]
    rw [setX_eq m hb hf hs hT g]
    cases hty : f.ty with
    | int t =>
      by_cases ht : t = .bool
      · subst ht
        have hbits : f.bits = 1 := by
          have h1 := hf.int _ hty; have h2 := hf.pos; simp only [IntTy.bitSize] at h1; omega
        simp only [decodeRaw, hty, Except.ok.injEq] at hd
        subst hd
        simp only [settle, reencode, hty, Except.map]
        refine congrArg (fun k => Except.ok (Store.ofBits b k)) ?_
        apply overwrite_congr
        intro i hi
        have : i = 0 := by omega
        subst this
        simp [encode]
      · have : v = .int (t.cast (natOf f.bits x)) := by
          cases t <;> first | exact absurd rfl ht | (simp only [decodeRaw, hty, Except.ok.injEq] at hd; exact hd.symm)
        subst this
        have e1 : settle f (.int (t.cast (natOf f.bits x))) = .ok (.int (t.cast (natOf f.bits x))) := by
          cases t <;> simp only [settle, hty]
        rw [e1]
        simp only [reencode, hty, Except.map, encode]
        refine congrArg (fun k => Except.ok (Store.ofBits b k)) ?_
        apply overwrite_congr
        intro i hi
        have := hf.int t hty
        rw [intBit_cast t _ (by omega), intBit_natOf]; simp [hi]
    | custom c =>
      simp only [decodeRaw, reencode, hty] at hd ⊢
      cases hc : c.fromBits (natOf f.bits x) with
      | error q => rw [hc] at hd; cases hd
      | ok code =>
        rw [hc] at hd; cases hd
        simp only [R_bind_ok]
        cases settle f (.custom code) <;> rfl
    | array len =>
      simp only [decodeRaw, hty, Except.ok.injEq] at hd
      subst hd
      simp only [settle, reencode, hty, Except.map, encode]
      refine congrArg (fun k => Except.ok (Store.ofBits b k)) ?_
      apply overwrite_congr
      intro i hi
      have := (hs.array len hty).1
      rw [bytesOf_bit, decide_eq_true (by omega), decide_eq_true hi]; simp

end Bf
