import Verif.Lemmas.Field

namespace Bf

/-! ## Setters -/

theorem HasType.int_cases {t : IntTy} (ht : t ≠ .bool) {v : Val} (hv : HasType (.int t) v) :
    ∃ n, v = .int n := by
  cases v <;> cases t <;> first | exact absurd rfl ht | exact ⟨_, rfl⟩ | exact absurd hv id

/-- What `checked_set_x` tests, for a well-typed argument: the generated comparison. -/
def codeTooBig (b : Backing) (f : Field) (v : Val) : Bool :=
  match f.ty, v with
  | .int .bool, _ => false
  | .int t, .int n =>
    if t.unsigned then
      match b with
      | .int w => decide (2 ^ f.bits ≤ n % 2 ^ w)
      | .arr _ => decide (2 ^ f.bits ≤ n)
    else decide (f.bits < t.bitSize) &&
      (decide (2 ^ (f.bits - 1) ≤ n) || decide (n < -2 ^ (f.bits - 1)))
  | .custom c, .custom code =>
    match b with
    | .int w => decide (2 ^ f.bits ≤ c.intoBits code % 2 ^ w)
    | .arr _ => decide (2 ^ f.bits ≤ c.intoBits code % 2 ^ 128)
  | _, _ => false

theorem toNat_mask {w bits : Nat} (h : bits ≤ w) :
    (ofBits w fun i => decide (i < bits)).toNat = 2 ^ bits - 1 := by
  apply Nat.eq_of_testBit_eq
  intro i
  rw [BitVec.testBit_toNat, getLsbD_ofBits, Nat.testBit_two_pow_sub_one]
  by_cases hi : i < bits
  · simp [hi]; omega
  · simp [hi]

theorem mask_lt_iff {w bits : Nat} (h : bits ≤ w) (n : Int) :
    ((ofBits w fun i => decide (i < bits)) < BitVec.ofInt w n) ↔ (2 ^ bits ≤ n % 2 ^ w) := by
  rw [BitVec.lt_def, toNat_mask h, BitVec.toNat_ofInt]
  have h0 : 0 ≤ n % 2 ^ w := Int.emod_nonneg _ (Int.pow_ne_zero (by decide))
  have h1 : 0 < 2 ^ bits := Nat.two_pow_pos bits
  have e : ((2 ^ w : Nat) : Int) = 2 ^ w := by push_cast; rfl
  rw [e]
  have e2 : (2 : Int) ^ bits = ((2 ^ bits : Nat) : Int) := by push_cast; rfl
  rw [e2]
  omega

/-- The `value` computed from the setter's argument, as bits. -/
theorem extractCast_eq (m : Mode) {b : Backing} {f : Field} (hb : b.OK) (hf : FieldOK b f)
    (hs : FieldSupported b f) {v : Val} (hv : HasType f.ty v) (g : Bits) :
    ∃ gt x, extractCast m f (Store.ofBits b g) v = .ok (gt, x) ∧
      (f.ty.unsigned = true → f.ty.isBool = false → f.ty.isArray = false →
        gt = codeTooBig b f v) ∧
      valueVar f x = (settle f v).bind (fun v' =>
        match f.ty, v' with
        | .int .bool, v' => .ok v'
        | .custom _, v' => .ok v'
        | _, _ => .ok x) ∧
      (∀ t, f.ty = .int t → t ≠ .bool → DirectOK b f x ∧ ∀ i < f.bits, encode f.ty x i = encode f.ty v i) ∧
      (∀ len, f.ty = .array len → DirectOK b f x ∧ ∀ i < f.bits, encode f.ty x i = encode f.ty v i) := by
  have hp := hf.pos
  cases b with
  | int w =>
    have hfit : f.offset + f.bits ≤ w := hf.fits
    have hmask := intMask_eq m (w := w) hp (by omega)
    cases hty : f.ty with
    | int t =>
      by_cases ht : t = .bool
      · subst ht
        have hbits : f.bits = 1 := by
          have := hf.int _ hty; simp only [IntTy.bitSize] at this; omega
        rw [hty] at hv
        cases v with
        | bool x =>
          refine ⟨decide ((ofBits w fun i => decide (i < f.bits)) < BitVec.ofInt w (if x then 1 else 0)),
            .int (((BitVec.ofInt w (if x then 1 else 0)) &&& ofBits w fun i => decide (i < f.bits)).toNat : Int),
            ?_, ?_, ?_, ?_, ?_⟩
          · rw [Store.ofBits_int]
            simp only [extractCast, hty, hmask, R_bind_ok, R_pure]
          · simp [DataType.isBool]
          · simp only [valueVar, hty, settle]
            refine congrArg (fun k => Except.ok (Val.bool k)) ?_
            have hw : 0 < w := by omega
            have e : ((BitVec.ofInt w (if x then 1 else 0)) &&& ofBits w fun i => decide (i < f.bits)).toNat
                = natOf 1 (fun _ => x) := by
              apply natOf_eq_of_toNat (by omega)
              intro i hi
              simp only [BitVec.getLsbD_and, getLsbD_ofInt, getLsbD_ofBits, hi, hbits,
                decide_true, Bool.true_and]
              by_cases h0 : i < 1
              · have : i = 0 := by omega
                subst this
                cases x <;> simp [intBit]
              · simp [h0]
            rw [e]
            cases x <;> simp [natOf]
          · intro t h1 h2; cases h1; exact absurd rfl h2
          · intro len h; cases h
        | _ => exact absurd hv id
      · rw [hty] at hv
        obtain ⟨n, rfl⟩ := HasType.int_cases ht hv
        refine ⟨decide ((ofBits w fun i => decide (i < f.bits)) < BitVec.ofInt w n),
          .int (((BitVec.ofInt w n) &&& ofBits w fun i => decide (i < f.bits)).toNat : Int),
          ?_, ?_, ?_, ?_, ?_⟩
        · rw [Store.ofBits_int]
          cases t <;> first | exact absurd rfl ht | simp only [extractCast, hty, hmask, R_bind_ok, R_pure]
        · intro hu _ _
          have : codeTooBig (.int w) f (.int n) = decide (2 ^ f.bits ≤ n % 2 ^ w) := by
            cases t <;> first | exact absurd rfl ht | simp_all [codeTooBig, DataType.unsigned, IntTy.unsigned]
          rw [this]
          exact decide_eq_decide.mpr (mask_lt_iff (by omega) n)
        · cases t <;> first | exact absurd rfl ht | (simp only [valueVar, hty, settle]; rfl)
        · intro t' h1 _
          cases h1
          have hlt := (BitVec.ofInt w n &&& ofBits w fun i => decide (i < f.bits)).isLt
          constructor
          · have hg : (0 : Int) ≤ ((BitVec.ofInt w n &&& ofBits w fun i => decide (i < f.bits)).toNat : Int) ∧
                ((BitVec.ofInt w n &&& ofBits w fun i => decide (i < f.bits)).toNat : Int) < 2 ^ w := by
              have e : (2 : Int) ^ w = ((2 ^ w : Nat) : Int) := by push_cast; rfl
              rw [e]
              omega
            cases t <;> first | exact absurd rfl ht | (simp only [DirectOK, hty]; exact hg)
          · intro i hi
            simp only [encode, intBit_toNat, BitVec.getLsbD_and, getLsbD_ofInt, getLsbD_ofBits, hi,
              decide_true, Bool.and_true]
            rw [decide_eq_true (by omega)]; simp
        · intro len h; cases h
    | custom c =>
      rw [hty] at hv
      cases v with
      | custom code =>
        refine ⟨decide ((ofBits w fun i => decide (i < f.bits)) < BitVec.ofInt w (c.intoBits code)),
          .int (((BitVec.ofInt w (c.intoBits code)) &&& ofBits w fun i => decide (i < f.bits)).toNat : Int),
          ?_, ?_, ?_, ?_, ?_⟩
        · rw [Store.ofBits_int]
          simp only [extractCast, hty, hmask, R_bind_ok, R_pure]
        · intro hu _ _
          simp only [codeTooBig, hty]
          exact decide_eq_decide.mpr (mask_lt_iff (by omega) _)
        · simp only [valueVar, hty, settle]
          have e : ((BitVec.ofInt w (c.intoBits code)) &&& ofBits w fun i => decide (i < f.bits)).toNat
              = natOf f.bits (intBit (c.intoBits code)) := by
            apply natOf_eq_of_toNat (by omega)
            intro i hi
            simp only [BitVec.getLsbD_and, getLsbD_ofInt, getLsbD_ofBits, hi,
                decide_true, Bool.true_and]
            exact Bool.and_comm _ _
          rw [e]
          simp only [Int.toNat_natCast]
          cases c.fromBits (natOf f.bits (intBit (c.intoBits code))) <;> rfl
        · intro t h; cases h
        · intro len h; cases h
      | _ => exact absurd hv id
    | array len =>
      rw [hty] at hv
      cases v with
      | arr a =>
        have hlen : a.length = len := hv
        obtain ⟨h1, h2⟩ := hs.array len hty
        obtain ⟨h3, h4⟩ := h2 w rfl
        have hpack : packBytes m w a (min (f.bits / 8) len) =
            .ok (ofBits w fun j => decide (j < f.bits) && encode f.ty (.arr a) j) := by
          have hk : min (f.bits / 8) len = f.bits / 8 := by omega
          rw [hk]
          have := packBytes_eq m (w := w) (len := len) (k := f.bits / 8) (encode f.ty (.arr a))
            (by omega) (by omega)
          rw [← ofBits_encode_arr hlen] at this
          rw [this]
          have : 8 * (f.bits / 8) = f.bits := by omega
          rw [this]
        refine ⟨decide ((ofBits w fun i => decide (i < f.bits)) < ofBits w fun j => decide (j < f.bits) && encode f.ty (.arr a) j),
          .int (((ofBits w fun j => decide (j < f.bits) && encode f.ty (.arr a) j) &&& ofBits w fun i => decide (i < f.bits)).toNat : Int),
          ?_, ?_, ?_, ?_, ?_⟩
        · rw [Store.ofBits_int]
          simp only [extractCast, hty, hmask, R_bind_ok, R_pure]
          rw [hty] at hpack
          rw [hpack]
          rfl
        · simp [DataType.isArray]
        · simp only [valueVar, hty, settle]
          rfl
        · intro t h; cases h
        · intro len' h
          have hlt := ((ofBits w fun j => decide (j < f.bits) && encode f.ty (.arr a) j) &&& ofBits w fun i => decide (i < f.bits)).isLt
          constructor
          · simp only [DirectOK, hty]
            have e : (2 : Int) ^ w = ((2 ^ w : Nat) : Int) := by push_cast; rfl
            rw [e]
            rw [hty] at hlt
            omega
          · intro i hi
            simp only [encode, intBit_toNat, BitVec.getLsbD_and, getLsbD_ofBits, hi,
              decide_true, Bool.true_and, Bool.and_true]
            rw [decide_eq_true (by omega)]; simp
      | _ => exact absurd hv id
  | arr n =>
    cases hty : f.ty with
    | int t =>
      by_cases ht : t = .bool
      · subst ht
        rw [hty] at hv
        cases v with
        | bool x =>
          refine ⟨false, .int (if x then 1 else 0), ?_, ?_, ?_, ?_, ?_⟩
          · rw [Store.ofBits_arr]
            simp only [extractCast, hty]
          · simp [DataType.isBool]
          · simp only [valueVar, hty, settle]
            cases x <;> rfl
          · intro t h1 h2; cases h1; exact absurd rfl h2
          · intro len h; cases h
        | _ => exact absurd hv id
      · have htb := hf.int t hty
        have h128 : f.bits ≤ 128 := Nat.le_trans htb t.bitSize_le
        rw [hty] at hv
        obtain ⟨k, rfl⟩ := HasType.int_cases ht hv
        have emask : (ofBits 128 fun i => decide (i < f.bits)).setWidth t.bitSize =
            ofBits t.bitSize fun i => decide (i < f.bits) := by
          apply eq_ofBits
          intro i hi
          have := t.bitSize_le
          simp only [BitVec.getLsbD_setWidth, getLsbD_ofBits, hi, decide_true, Bool.true_and]
          rw [decide_eq_true (by omega), Bool.true_and]
        refine ⟨decide ((ofBits t.bitSize fun i => decide (i < f.bits)) < BitVec.ofInt t.bitSize k),
          .int (if t.unsigned then
            (((BitVec.ofInt t.bitSize k) &&& ofBits t.bitSize fun i => decide (i < f.bits)).toNat : Int)
            else ((BitVec.ofInt t.bitSize k) &&& ofBits t.bitSize fun i => decide (i < f.bits)).toInt),
          ?_, ?_, ?_, ?_, ?_⟩
        · rw [Store.ofBits_arr]
          have e : extractCast m f (.arr (bytesOf n g)) (.int k) = (do
              let mask ← mask128 m f.bits
              let mask := mask.setWidth t.bitSize
              let bits := BitVec.ofInt t.bitSize k
              let val := bits &&& mask
              return (mask < bits, .int (if t.unsigned then (val.toNat : Int) else val.toInt))) := by
            cases t <;> first | exact absurd rfl ht | simp only [extractCast, hty]
          rw [e, mask128_eq m h128]
          simp only [R_bind_ok, R_pure, emask]
        · intro hu _ _
          have hu' : t.unsigned = true := hu
          have : codeTooBig (.arr n) f (.int k) = decide (2 ^ f.bits ≤ k) := by
            cases t <;> first | exact absurd rfl ht | simp_all [codeTooBig, IntTy.unsigned]
          rw [this]
          refine decide_eq_decide.mpr ?_
          rw [mask_lt_iff htb]
          have : 0 ≤ k ∧ k < 2 ^ t.bitSize := by
            cases t <;> first | exact absurd rfl ht | simpa [HasType, hu'] using hv
          rw [Int.emod_eq_of_lt this.1 this.2]
        · cases t <;> first | exact absurd rfl ht | (simp only [valueVar, hty, settle]; rfl)
        · intro t' h1 _
          cases h1
          constructor
          · cases t <;> first | exact absurd rfl ht | simp only [DirectOK, hty]
          · intro i hi
            simp only [encode]
            split
            · simp only [intBit_toNat, BitVec.getLsbD_and, getLsbD_ofInt, getLsbD_ofBits, hi,
                decide_true, Bool.and_true]
              rw [decide_eq_true (by omega)]; simp
            · rw [intBit_toInt _ (by omega)]
              simp only [BitVec.getLsbD_and, getLsbD_ofInt, getLsbD_ofBits, hi,
                decide_true, Bool.and_true]
              rw [decide_eq_true (by omega)]; simp
        · intro len h; cases h
    | custom c =>
      have h128 := hs.custom c hty
      rw [hty] at hv
      cases v with
      | custom code =>
        refine ⟨decide ((ofBits 128 fun i => decide (i < f.bits)) < BitVec.ofInt 128 (c.intoBits code)),
          .int (((BitVec.ofInt 128 (c.intoBits code)) &&& ofBits 128 fun i => decide (i < f.bits)).toNat : Int),
          ?_, ?_, ?_, ?_, ?_⟩
        · rw [Store.ofBits_arr]
          simp only [extractCast, hty, mask128_eq m h128, R_bind_ok, R_pure]
        · intro hu _ _
          simp only [codeTooBig, hty]
          exact decide_eq_decide.mpr (mask_lt_iff h128 _)
        · simp only [valueVar, hty, settle]
          have e : ((BitVec.ofInt 128 (c.intoBits code)) &&& ofBits 128 fun i => decide (i < f.bits)).toNat
              = natOf f.bits (intBit (c.intoBits code)) := by
            apply natOf_eq_of_toNat h128
            intro i hi
            simp only [BitVec.getLsbD_and, getLsbD_ofInt, getLsbD_ofBits, hi,
                decide_true, Bool.true_and]
            exact Bool.and_comm _ _
          rw [e]
          simp only [Int.toNat_natCast]
          cases c.fromBits (natOf f.bits (intBit (c.intoBits code))) <;> rfl
        · intro t h; cases h
        · intro len h; cases h
      | _ => exact absurd hv id
    | array len =>
      rw [hty] at hv
      cases v with
      | arr a =>
        refine ⟨false, .arr a, ?_, ?_, ?_, ?_, ?_⟩
        · rw [Store.ofBits_arr]
          simp only [extractCast, hty]
        · simp [DataType.isArray]
        · simp only [valueVar, hty, settle]
          rfl
        · intro t h; cases h
        · intro len' h
          cases h
          have hlen : a.length = len := hv
          constructor
          · simp only [DirectOK, hty, hlen]
          · intro i _; rfl
      | _ => exact absurd hv id

/-- The whole setter body without checks: stores exactly the bits of the settled value. -/
theorem store_value (m : Mode) {b : Backing} {f : Field} (hb : b.OK) (hf : FieldOK b f)
    (hs : FieldSupported b f) {v : Val} (hv : HasType f.ty v) (g : Bits) :
    ∃ gt x, extractCast m f (Store.ofBits b g) v = .ok (gt, x) ∧
      (f.ty.unsigned = true → f.ty.isBool = false → f.ty.isArray = false →
        gt = codeTooBig b f v) ∧
      (valueVar f x >>= fun y => directSet m f (Store.ofBits b g) y) =
        (settle f v).map (fun v' => Store.ofBits b (overwrite f (encode f.ty v') g)) := by
  obtain ⟨gt, x, h1, h2, h3, h4, h5⟩ := extractCast_eq m hb hf hs hv g
  refine ⟨gt, x, h1, h2, ?_⟩
  rw [h3]
  cases hty : f.ty with
  | int t =>
    by_cases ht : t = .bool
    · subst ht
      rw [hty] at hv
      have : settle f v = .ok v := by simp only [settle, hty]
      rw [this]
      simp only [Except.bind, R_bind_ok, Except.map]
      rw [directSet_eq m hb hf hs _ g]
      · rw [hty]
      · cases v with
        | bool x => simp only [DirectOK, hty]
        | _ => exact absurd hv id
    · have : settle f v = .ok v := by cases t <;> simp only [settle, hty]
      rw [this]
      obtain ⟨d1, d2⟩ := h4 t hty ht
      have e : (match DataType.int t, v with
        | .int .bool, v' => (Except.ok v' : R Val)
        | .custom _, v' => .ok v'
        | _, _ => .ok x) = .ok x := by cases t <;> first | exact absurd rfl ht | rfl
      simp only [Except.bind, Except.map, e, R_bind_ok]
      rw [directSet_eq m hb hf hs d1 g]
      rw [overwrite_congr d2, hty]
  | custom c =>
    rw [hty] at hv
    cases v with
    | custom code =>
      simp only [settle, hty]
      cases c.fromBits (natOf f.bits (intBit (c.intoBits code))) with
      | error p => rfl
      | ok code' =>
        simp only [Except.map, Except.bind, R_bind_ok]
        rw [directSet_eq m hb hf hs _ g]
        · rw [hty]
        · simp only [DirectOK, hty]
    | _ => exact absurd hv id
  | array len =>
    have : settle f v = .ok v := by simp only [settle, hty]
    rw [this]
    obtain ⟨d1, d2⟩ := h5 len hty
    simp only [Except.bind, Except.map, R_bind_ok]
    rw [directSet_eq m hb hf hs d1 g, overwrite_congr d2, hty]

/-- `set_x` -/
theorem setX_eq (m : Mode) {b : Backing} {f : Field} (hb : b.OK) (hf : FieldOK b f)
    (hs : FieldSupported b f) {v : Val} (hv : HasType f.ty v) (g : Bits) :
    setX m f (Store.ofBits b g) v =
      (settle f v).map (fun v' => Store.ofBits b (overwrite f (encode f.ty v') g)) := by
  obtain ⟨gt, x, h1, _, h3⟩ := store_value m hb hf hs hv g
  rw [← h3]
  simp only [setX, setImpl, Bool.false_and, Bool.false_eq_true, if_false, h1, R_bind_ok]
  cases valueVar f x with
  | error p => rfl
  | ok y =>
    simp only [R_bind_ok]
    cases directSet m f (Store.ofBits b g) y <;> rfl

theorem signedTooBig_eq {b : Backing} {f : Field} {v : Val} (hu : f.ty.unsigned = false)
    (hv : HasType f.ty v) : signedTooBig f v = codeTooBig b f v := by
  cases hty : f.ty with
  | int t =>
    rw [hty] at hv hu
    have hu' : t.unsigned = false := hu
    have ht : t ≠ .bool := by intro h; subst h; cases hu'
    obtain ⟨n, rfl⟩ := HasType.int_cases ht hv
    have : codeTooBig b f (.int n) = (decide (f.bits < t.bitSize) &&
      (decide (2 ^ (f.bits - 1) ≤ n) || decide (n < -2 ^ (f.bits - 1)))) := by
      cases t <;> first | exact absurd rfl ht | simp_all [codeTooBig, IntTy.unsigned]
    rw [this]
    simp only [signedTooBig, hty]
    by_cases h : f.bits < t.bitSize
    · rw [if_neg (by omega)]
      simp only [h, decide_true, Bool.true_and]
      congr 1
      refine decide_eq_decide.mpr ?_
      omega
    · rw [if_pos (by omega)]
      simp [h]
  | array len => rw [hty] at hu; cases hu
  | custom c => rw [hty] at hu; cases hu

/-- `checked_set_x` -/
theorem checkedSet_eq (m : Mode) {b : Backing} {f : Field} (hb : b.OK) (hf : FieldOK b f)
    (hs : FieldSupported b f) {v : Val} (hv : HasType f.ty v) (g : Bits) :
    setImpl m true f (Store.ofBits b g) v =
      if codeTooBig b f v then .ok (.error errTooBig, Store.ofBits b g)
      else (settle f v).map
        (fun v' => (.ok (), Store.ofBits b (overwrite f (encode f.ty v') g))) := by
  obtain ⟨gt, x, h1, h2, h3⟩ := store_value m hb hf hs hv g
  have fin : (do
      let x_1 ← valueVar f x
      let s' ← directSet m f (Store.ofBits b g) x_1
      pure (Except.ok (), s') : R (Except String Unit × Store)) =
      (settle f v).map
        (fun v' => (.ok (), Store.ofBits b (overwrite f (encode f.ty v') g))) := by
    have e : (settle f v).map
        (fun v' => ((.ok () : Except String Unit), Store.ofBits b (overwrite f (encode f.ty v') g))) =
        ((settle f v).map (fun v' => Store.ofBits b (overwrite f (encode f.ty v') g))).map
          (fun s => ((.ok () : Except String Unit), s)) := by
      cases settle f v <;> rfl
    rw [e, ← h3]
    cases valueVar f x with
    | error p => rfl
    | ok y =>
      simp only [R_bind_ok]
      cases directSet m f (Store.ofBits b g) y <;> rfl
  by_cases hu : f.ty.unsigned = true
  · simp only [setImpl, hu, Bool.true_and, Bool.not_true, Bool.false_and, Bool.false_eq_true,
      if_false, h1, R_bind_ok]
    by_cases hbool : f.ty.isBool = true
    · have : codeTooBig b f v = false := by
        cases hty : f.ty with
        | int t =>
          have : t = .bool := by
            rw [hty] at hbool; cases t <;> first | rfl | cases hbool
          subst this
          simp only [codeTooBig, hty]
        | _ => rw [hty] at hbool; cases hbool
      simp only [hbool, this, Bool.not_true, Bool.false_and, Bool.false_eq_true, if_false]
      exact fin
    · by_cases harr : f.ty.isArray = true
      · have : codeTooBig b f v = false := by
          cases hty : f.ty with
          | array len => simp only [codeTooBig, hty]
          | _ => rw [hty] at harr; cases harr
        simp only [harr, this, Bool.not_true, Bool.and_false, Bool.false_and,
          Bool.false_eq_true, if_false]
        exact fin
      · have hb' : f.ty.isBool = false := by simpa using hbool
        have ha' : f.ty.isArray = false := by simpa using harr
        rw [h2 hu hb' ha']
        simp only [hb', ha', Bool.not_false, Bool.true_and]
        split
        · rfl
        · exact fin
  · have hu' : f.ty.unsigned = false := by simpa using hu
    simp only [setImpl, hu', Bool.true_and, Bool.not_false, signedTooBig_eq (b := b) hu' hv]
    split
    · rfl
    · simp only [h1, R_bind_ok, Bool.false_and, Bool.false_eq_true, if_false]
      exact fin

end Bf
