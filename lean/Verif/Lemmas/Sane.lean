import Verif.Lemmas.Ranges
import Verif.Lemmas.Decode
import Verif.SpecCode

/-!
# What holds of the generated code for every accepted layout

The lemmas of `Lemmas/Field.lean` and others compute results exactly and need the layout to be supported. Here the
results are only constrained: `Sane P r` says that `r` is a result with `P` or a panic at run time (not a program that
does not compile).
-/

namespace Bf

/-- A result with `P`, or a panic. -/
def Sane {α : Type} (P : α → Prop) : R α → Prop
  | .ok a => P a
  | .error q => q ≠ .rejected

namespace Sane

variable {α β : Type} {P Q : α → Prop} {r : R α}

theorem ok {a : α} (h : P a) : Sane P (.ok a) := h
theorem pure {a : α} (h : P a) : Sane P (Pure.pure a : R α) := h

theorem bind {P : α → Prop} {Q : β → Prop} {r : R α} {k : α → R β} (h : Sane P r) (hk : ∀ a, P a → Sane Q (k a)) :
    Sane Q (r >>= k) := by
  cases r with
  | ok a => exact hk a h
  | error q => exact h

theorem mono (h : Sane P r) (hk : ∀ a, P a → Q a) : Sane Q r := by
  cases r with
  | ok a => exact hk a h
  | error q => exact h

theorem of_ok {a : α} (h : Sane P r) (e : r = .ok a) : P a := by rw [e] at h; exact h
theorem of_err {q : Panic} (h : Sane P r) (e : r = .error q) : q ≠ .rejected := by rw [e] at h; exact h

end Sane

/-! ## Primitives -/

section

variable {m : Mode} {w : Nat}

theorem sane_shl (x : BitVec w) (k : Nat) : Sane (fun _ => True) (shl m x k) := by
  unfold shl; split
  · trivial
  · cases m <;> simp [Sane]

theorem sane_shr (x : BitVec w) (k : Nat) : Sane (fun _ => True) (shr m x k) := by
  unfold shr; split
  · trivial
  · cases m <;> simp [Sane]

theorem sane_sshr (x : BitVec w) (k : Nat) : Sane (fun _ => True) (sshr m x k) := by
  unfold sshr; split
  · trivial
  · cases m <;> simp [Sane]

theorem sane_addU32 (a b : Nat) : Sane (fun _ => True) (addU32 m a b) := by
  unfold addU32; split
  · trivial
  · cases m <;> simp [Sane]

theorem sane_subU32 (a b : Nat) : Sane (fun _ => True) (subU32 m a b) := by
  unfold subU32; split
  · trivial
  · cases m <;> simp [Sane]

theorem sane_getB (bs : List (BitVec 8)) (i : Nat) : Sane (fun _ => True) (getB bs i) := by
  unfold getB; split <;> simp [Sane]

theorem sane_setB (bs : List (BitVec 8)) (i : Nat) (b : BitVec 8) :
    Sane (fun bs' => bs' = bs.set i b) (setB bs i b) := by
  unfold setB; split <;> simp [Sane]

theorem sane_bitAt (bs : List (BitVec 8)) (i : Nat) : Sane (fun _ => True) (bitAt bs i) :=
  (sane_getB bs (i / 8)).bind fun _ _ => trivial

theorem sane_forUpTo {σ : Type} {n : Nat} {body : Nat → σ → R σ} {P : σ → Prop} {s : σ} (h0 : P s)
    (h : ∀ i < n, ∀ s, P s → Sane P (body i s)) : Sane P (forUpTo n body s) := by
  induction n with
  | zero => exact h0
  | succ n ih => exact (ih fun i hi => h i (by omega)).bind fun s hs => h n (by omega) s hs

end

/-- The stored value has the storage type, and the bits that satisfy `keep` are those of `s`. -/
def Keeps (b : Backing) (keep : Nat → Prop) (s s' : Store) : Prop :=
  s'.HasBacking b ∧ ∀ i, keep i → s'.bit i = s.bit i

theorem Keeps.refl {b : Backing} {keep : Nat → Prop} {s : Store} (h : s.HasBacking b) : Keeps b keep s s :=
  ⟨h, fun _ _ => rfl⟩

theorem Keeps.trans {b : Backing} {keep : Nat → Prop} {s s' s'' : Store} (h : Keeps b keep s s')
    (h' : Keeps b keep s' s'') : Keeps b keep s s'' :=
  ⟨h'.1, fun i hi => (h'.2 i hi).trans (h.2 i hi)⟩

theorem Keeps.mono {b : Backing} {k k' : Nat → Prop} {s s' : Store} (h : Keeps b k s s') (hk : ∀ i, k' i → k i) :
    Keeps b k' s s' := ⟨h.1, fun i hi => h.2 i (hk i hi)⟩

/-! ## Storing -/

/-- Setting one bit of a byte leaves the other bits of the array alone. -/
theorem bit_set_putBit (bs : List (BitVec 8)) (d : Nat) (x : Bool) {b : BitVec 8} (hb : bs[d / 8]? = some b)
    {i : Nat} (h : i ≠ d) :
    (Store.arr (bs.set (d / 8) (putBit b (d % 8) x))).bit i = (Store.arr bs).bit i := by
  simp only [Store.bit, List.getD, List.getElem?_set]
  by_cases he : d / 8 = i / 8
  · have hlt : i / 8 < bs.length := by
      rw [← he]; exact (List.getElem?_eq_some_iff.mp hb).1
    rw [if_pos he, if_pos (by omega)]
    rw [he] at hb
    rw [hb]
    simp only [Option.getD_some]
    have hne : i % 8 ≠ d % 8 := by omega
    have h8 : i % 8 < 8 := by omega
    have h8' : d % 8 < 8 := by omega
    unfold putBit
    cases x
    · simp only [Bool.false_eq_true, if_false, BitVec.getLsbD_and, BitVec.getLsbD_not, BitVec.getLsbD_shiftLeft,
        BitVec.getLsbD_one]
      by_cases h1 : i % 8 < d % 8
      · simp [h1, h8]
      · have : i % 8 - d % 8 ≠ 0 := by omega
        simp [h1, h8, this]
    · simp only [if_true, BitVec.getLsbD_or, BitVec.getLsbD_shiftLeft, BitVec.getLsbD_one]
      by_cases h1 : i % 8 < d % 8
      · simp [h1]
      · have : i % 8 - d % 8 ≠ 0 := by omega
        simp [h1, this]
  · rw [if_neg he]

/-- One step of the loops that store bits. -/
theorem kept_put {n d : Nat} {bs : List (BitVec 8)} {keep : Nat → Prop} (hs : bs.length = n) (hd : ¬ keep d) (x : Bool)
    {s : Store} (h : Keeps (.arr n) keep s (.arr bs)) :
    Sane (fun bs' => Keeps (.arr n) keep s (.arr bs')) (do
      let b ← getB bs (d / 8)
      setB bs (d / 8) (putBit b (d % 8) x)) := by
  cases hb : bs[d / 8]? with
  | none => simp only [getB, hb]; simp [Sane]
  | some b =>
    have e : getB bs (d / 8) = .ok b := by simp only [getB, hb]
    rw [e]
    simp only [R_bind_ok]
    refine (sane_setB _ _ _).mono ?_
    rintro _ rfl
    refine h.trans ⟨?_, fun i hi => ?_⟩
    · show (bs.set _ _).length = n
      rw [List.length_set, hs]
    · exact bit_set_putBit bs d x hb (fun e => hd (e ▸ hi))

theorem kept_writeU128 (m : Mode) {n off bits : Nat} {bs : List (BitVec 8)} (hs : bs.length = n)
    (h : off + bits ≤ 8 * n) (hn : 8 * n < 2 ^ 32) (v : BitVec 128) :
    Sane (fun bs' => Keeps (.arr n) (fun i => ¬ (off ≤ i ∧ i < off + bits)) (.arr bs) (.arr bs'))
      (writeU128 m bs off bits v) := by
  refine sane_forUpTo (Keeps.refl hs) fun i hi bs' h' => ?_
  rw [addU32_ok m (by omega)]
  simp only [R_bind_ok]
  refine (sane_shr _ _).bind fun sh _ => ?_
  exact kept_put h'.1 (by omega) _ h'

theorem kept_writeArr (m : Mode) {n off bits : Nat} {bs src : List (BitVec 8)} (hs : bs.length = n)
    (h : off + bits ≤ 8 * n) (hn : 8 * n < 2 ^ 32) :
    Sane (fun bs' => Keeps (.arr n) (fun i => ¬ (off ≤ i ∧ i < off + bits)) (.arr bs) (.arr bs'))
      (writeArr m bs off bits src) := by
  refine sane_forUpTo (Keeps.refl hs) fun i hi bs' h' => ?_
  rw [addU32_ok m (by omega)]
  simp only [R_bind_ok]
  refine (sane_getB _ _).bind fun sh _ => ?_
  exact kept_put h'.1 (by omega) _ h'

theorem sane_mask128 (m : Mode) (b : Nat) : Sane (fun _ => True) (mask128 m b) := by
  unfold mask128; split
  · trivial
  · exact (sane_shl _ _).bind fun _ _ => trivial

theorem sane_readU128 (m : Mode) (bs : List (BitVec 8)) (o b : Nat) : Sane (fun _ => True) (readU128 m bs o b) :=
  sane_forUpTo trivial fun _ _ _ _ => (sane_addU32 _ _).bind fun _ _ => (sane_getB _ _).bind fun _ _ =>
    (sane_shl _ _).bind fun _ _ => trivial

theorem sane_readArr (m : Mode) (inv : Bool) (bs : List (BitVec 8)) (o b len : Nat) :
    Sane (fun a => a.length = len) (readArr m inv bs o b len) :=
  sane_forUpTo (by simp) fun _ _ _ h => (sane_addU32 _ _).bind fun _ _ => (sane_getB _ _).bind fun _ _ =>
    (sane_getB _ _).bind fun _ _ => (sane_setB _ _ _).mono (by rintro _ rfl; simp [h])

theorem sane_unpack (m : Mode) (len : Nat) (v : BitVec 128) : Sane (fun a => a.length = len) (unpack m len v) :=
  sane_forUpTo (by simp) fun _ _ _ h => (sane_shr _ _).bind fun _ _ => (sane_setB _ _ _).mono (by rintro _ rfl; simp [h])

theorem sane_packBytes (m : Mode) (w : Nat) (a : List (BitVec 8)) (k : Nat) :
    Sane (fun _ => True) (packBytes m w a k) :=
  sane_forUpTo trivial fun _ _ _ _ => (sane_getB _ _).bind fun _ _ => (sane_shl _ _).bind fun _ _ => trivial

/-! ## Fields -/

variable {b : Backing} {f : Field} {m : Mode}

/-- What the `value` variable can be. -/
def Extracted (b : Backing) (f : Field) (v : Val) : Prop :=
  match b, f.ty, v with
  | .arr _, .array len, .arr a => a.length = len
  | .arr _, .array _, _ => False
  | .int w, _, .int n => 0 ≤ n ∧ n < 2 ^ w
  | .arr _, _, .int _ => True
  | _, _, _ => False

/-- The value of a `BitVec` is in range. -/
theorem toNat_range {w : Nat} (x : BitVec w) : 0 ≤ (x.toNat : Int) ∧ (x.toNat : Int) < 2 ^ w := by
  refine ⟨by omega, ?_⟩
  have := x.isLt
  exact_mod_cast this

theorem sane_extract (m : Mode) (inv : Bool) {s : Store} (hs : s.HasBacking b) (hb : b.OK) (hf : FieldOK b f) :
    Sane (Extracted b f) (extract m f inv s) := by
  cases s with
  | int w v =>
    cases b with
    | arr n => exact hs.elim
    | int w' =>
      obtain rfl : w = w' := hs
      have : f.offset + f.bits ≤ w := hf.fits
      have hp := hf.pos
      simp only [extract]
      rw [intMask_eq m hf.pos (by omega), shr_ok m _ (by omega)]
      simp only [R_bind_ok, R_pure]
      refine Sane.ok ?_
      simp only [Extracted]
      exact toNat_range _
  | arr bs =>
    cases b with
    | int w => exact hs.elim
    | arr n =>
      cases hty : f.ty with
      | array len =>
        simp only [extract, hty]
        refine (sane_readArr m inv bs _ _ len).bind fun a ha => ?_
        show Extracted _ _ _
        simp only [Extracted, hty, ha]
      | _ =>
        simp only [extract, hty]
        refine (sane_readU128 m bs _ _).bind fun a ha => ?_
        cases inv
        · show Extracted _ _ _
          simp only [Extracted, hty]
        · refine (sane_mask128 m _).bind fun k hk => ?_
          show Extracted _ _ _
          simp only [Extracted, hty]

theorem sane_extractCast (m : Mode) {s : Store} (hs : s.HasBacking b) (hf : FieldOK b f) {v : Val}
    (hv : HasType f.ty v) : Sane (fun r => Extracted b f r.2) (extractCast m f s v) := by
  cases s with
  | int w x =>
    cases b with
    | arr n => exact hs.elim
    | int w' =>
      obtain rfl : w = w' := hs
      have : f.offset + f.bits ≤ w := hf.fits
      simp only [extractCast]
      rw [intMask_eq m hf.pos (by omega)]
      simp only [R_bind_ok]
      have fin : ∀ (x : BitVec w), Extracted (.int w) f (.int (x.toNat : Int)) := fun x => by
        simp only [Extracted]
        exact toNat_range _
      cases hty : f.ty with
      | int t =>
        rw [hty] at hv
        cases t <;> cases v <;> simp only [HasType] at hv <;> exact fin _
      | custom c =>
        rw [hty] at hv
        cases v <;> simp only [HasType] at hv
        exact fin _
      | array len =>
        rw [hty] at hv
        cases v <;> simp only [HasType] at hv
        exact (sane_packBytes _ _ _ _).bind fun _ _ => fin _
  | arr bs =>
    cases b with
    | int w => exact hs.elim
    | arr n =>
      cases hty : f.ty with
      | int t =>
        rw [hty] at hv
        by_cases ht : t = .bool
        · subst ht
          cases v <;> simp only [HasType] at hv
          simp only [extractCast, hty]
          show Extracted _ _ _
          simp only [Extracted, hty]
        · cases v with
          | int n =>
            have e : extractCast m f (.arr bs) (.int n) = (do
                let mask ← mask128 m f.bits
                let mask := mask.setWidth t.bitSize
                let bits := BitVec.ofInt t.bitSize n
                let val := bits &&& mask
                return (mask < bits, .int (if t.unsigned then (val.toNat : Int) else val.toInt))) := by
              cases t <;> first | exact absurd rfl ht | simp only [extractCast, hty]
            rw [e]
            refine (sane_mask128 m _).bind fun k hk => ?_
            show Extracted _ _ _
            simp only [Extracted, hty]
          | _ => cases t <;> simp_all [HasType]
      | custom c =>
        rw [hty] at hv
        cases v <;> simp only [HasType] at hv
        simp only [extractCast, hty]
        refine (sane_mask128 m _).bind fun k hk => ?_
        show Extracted _ _ _
        simp only [Extracted, hty]
      | array len =>
        rw [hty] at hv
        cases v <;> simp only [HasType] at hv
        simp only [extractCast, hty]
        show Extracted _ _ _
        simp only [Extracted, hty, hv]

/-- `from_bits` of the field's type, if it is a user's, is a function that compiles. -/
def FieldConverts (f : Field) : Prop := ∀ cd, f.ty = .custom cd → ∀ n, cd.fromBits n ≠ .error .rejected

theorem sane_fromBits {cd : Codec} (h : ∀ n, cd.fromBits n ≠ .error .rejected) (n : Nat) :
    Sane (fun _ => True) (cd.fromBits n) := by
  cases e : cd.fromBits n with
  | ok a => trivial
  | error q => intro hq; exact h n (by rw [e, hq])

theorem sane_valueVar (hT : FieldConverts f) {v : Val} (hv : Extracted b f v) :
    Sane (DirectOK b f) (valueVar f v) := by
  unfold Extracted at hv
  cases hty : f.ty with
  | int t =>
    cases b with
    | int w =>
      cases v <;> simp only [hty] at hv
      cases t <;> simp only [valueVar, hty, Sane, DirectOK, hv, and_self]
    | arr n =>
      cases v <;> simp only [hty] at hv
      cases t <;> simp only [valueVar, hty, Sane, DirectOK]
  | custom c =>
    have : ∃ n, v = .int n := by
      cases b <;> cases v <;> simp_all
    obtain ⟨n, rfl⟩ := this
    simp only [valueVar, hty]
    refine (sane_fromBits (hT c hty) _).bind fun code _ => ?_
    show DirectOK _ _ _
    simp only [DirectOK, hty]
  | array len =>
    cases b with
    | int w =>
      cases v <;> simp only [hty] at hv
      simp only [valueVar, hty, Sane, DirectOK, hv, and_self]
    | arr n =>
      cases v <;> simp only [hty] at hv
      simp only [valueVar, hty, Sane, DirectOK, hv]

/-- The bits outside the field. -/
abbrev Field.outside (f : Field) (i : Nat) : Prop := f.covers i = false

theorem outside_of {i : Nat} (h : f.outside i) : ¬ (f.offset ≤ i ∧ i < f.offset + f.bits) := by
  simpa [Field.outside, Field.covers] using h

theorem kept_put_bits {w : Nat} {g new : Bits} {v : BitVec w} (h : v = ofBits w g) :
    Keeps (.int w) f.outside (.int w v) (.int w (ofBits w (put f.offset f.bits new g))) := by
  refine ⟨rfl, fun i hi => ?_⟩
  subst h
  have := outside_of hi
  simp only [Store.bit, getLsbD_ofBits, put, this, if_false]

theorem sane_directSet (m : Mode) (hb : b.OK) (hf : FieldOK b f) {s : Store} (hs : s.HasBacking b) {v : Val}
    (hv : DirectOK b f v) : Sane (Keeps b f.outside s) (directSet m f s v) := by
  cases s with
  | int w x =>
    cases b with
    | arr n => exact hs.elim
    | int w' =>
      obtain rfl : w = w' := hs
      have hfit : f.offset + f.bits ≤ w := hf.fits
      have hp := hf.pos
      have hx : x = ofBits w x.getLsbD := by
        apply BitVec.eq_of_getLsbD_eq; intro i hi; rw [getLsbD_ofBits, decide_eq_true hi, Bool.true_and]
      have fin : ∀ n : BitVec w, Sane (Keeps (.int w) f.outside (.int w x)) (do
          let mask ← intMask m w f.bits
          return .int w (← intSetBits m x mask n f.offset)) := by
        intro n
        rw [intMask_eq m hp (by omega)]
        simp only [R_bind_ok]
        rw [hx, intSetBits_eq m _ _ hp hfit]
        exact kept_put_bits rfl
      unfold DirectOK at hv
      cases hty : f.ty with
      | int t =>
        by_cases ht : t = .bool
        · subst ht
          cases v <;> simp only [hty] at hv
          simp only [directSet, hty]
          rw [hx, intSetBit_eq m _ _ (by omega)]
          refine ⟨rfl, fun i hi => ?_⟩
          have := outside_of hi
          simp only [Store.bit, getLsbD_ofBits, show i ≠ f.offset by omega, if_false]
        · cases v with
          | int n =>
            have hv' : 0 ≤ n ∧ n < 2 ^ w := by
              cases t <;> first | exact absurd rfl ht | simpa [hty] using hv
            have e : directSet m f (.int w x) (.int n) = (do
                let mask ← intMask m w f.bits
                return .int w (← intSetBits m x mask (BitVec.ofInt w n) f.offset)) := by
              cases t <;> first | exact absurd rfl ht | simp only [directSet, hty, hv', and_self, if_true]
            rw [e]
            exact fin _
          | _ => clear hx fin; cases t <;> simp_all
      | custom c =>
        cases v <;> simp only [hty] at hv
        simp only [directSet, hty]
        exact fin _
      | array len =>
        cases v <;> simp only [hty] at hv
        simp only [directSet, hty]
        rw [if_pos hv]
        exact fin _
  | arr bs =>
    cases b with
    | int w => exact hs.elim
    | arr n =>
      have hfit : f.offset + f.bits ≤ 8 * n := hf.fits
      have hn : 8 * n < 2 ^ 32 := hb.2
      have lift : ∀ {bs' : List (BitVec 8)},
          Keeps (.arr n) (fun i => ¬ (f.offset ≤ i ∧ i < f.offset + f.bits)) (.arr bs) (.arr bs') →
          Keeps (.arr n) f.outside (.arr bs) (.arr bs') := fun h => h.mono fun i hi => outside_of hi
      have fin : ∀ x : BitVec 128, Sane (Keeps (.arr n) f.outside (.arr bs))
          (do return Store.arr (← writeU128 m bs f.offset f.bits x) : R Store) := fun x =>
        (kept_writeU128 m hs hfit hn x).bind fun _ h => lift h
      unfold DirectOK at hv
      cases hty : f.ty with
      | int t =>
        by_cases ht : t = .bool
        · subst ht
          cases v <;> simp only [hty] at hv
          simp only [directSet, hty]
          exact fin _
        · cases v with
          | int k =>
            have e : directSet m f (.arr bs) (.int k) = (do
                return .arr (← writeU128 m bs f.offset f.bits (BitVec.ofInt 128 k))) := by
              cases t <;> first | exact absurd rfl ht | simp only [directSet, hty]
            rw [e]
            exact fin _
          | _ => cases t <;> simp_all
      | custom c =>
        cases v <;> simp only [hty] at hv
        simp only [directSet, hty]
        exact fin _
      | array len =>
        cases v <;> simp only [hty] at hv
        simp only [directSet, hty]
        exact (kept_writeArr m hs hfit hn).bind fun _ h => lift h

theorem sane_setImpl (m : Mode) (check : Bool) (hb : b.OK) (hf : FieldOK b f) (hT : FieldConverts f) {s : Store}
    (hs : s.HasBacking b) {v : Val} (hv : HasType f.ty v) :
    Sane (fun r => Keeps b f.outside s r.2) (setImpl m check f s v) := by
  unfold setImpl
  split
  · exact Keeps.refl hs
  · refine (sane_extractCast m hs hf hv).bind fun r hr => ?_
    obtain ⟨gt, value⟩ := r
    dsimp only
    split
    · exact Keeps.refl hs
    · refine (sane_valueVar hT hr).bind fun x hx => ?_
      exact (sane_directSet m hb hf hs hx).bind fun s' h => h

theorem sane_setX (m : Mode) (hb : b.OK) (hf : FieldOK b f) (hT : FieldConverts f) {s : Store} (hs : s.HasBacking b)
    {v : Val} (hv : HasType f.ty v) : Sane (Keeps b f.outside s) (setX m f s v) :=
  (sane_setImpl m false hb hf hT hs hv).bind fun _ h => h

theorem hasType_cast {t : IntTy} (ht : t ≠ .bool) (n : Int) : HasType (.int t) (.int (t.cast n)) := by
  unfold IntTy.cast
  cases t <;> first | exact absurd rfl ht | skip
  all_goals
    simp only [HasType, IntTy.unsigned, IntTy.bitSize, if_true, Bool.false_eq_true, if_false]
    first
    | exact toNat_range _
    | exact ⟨BitVec.le_toInt _, BitVec.toInt_lt⟩

theorem sane_setterCall (m : Mode) (hb : b.OK) (hf : FieldOK b f) (hT : FieldConverts f) {s : Store}
    (hs : s.HasBacking b) {v : Val} (hv : SetterOK b f v) : Sane (Keeps b f.outside s) (setterCall m f s v) := by
  have key : ∀ {v}, HasType f.ty v → Sane (Keeps b f.outside s) (setX m f s v) := fun h => sane_setX m hb hf hT hs h
  unfold SetterOK at hv
  cases hty : f.ty with
  | int t =>
    by_cases ht : t = .bool
    · subst ht
      cases v <;> simp only [hty] at hv
      simp only [setterCall, hty]
      exact key (by simp [HasType, hty])
    · cases v with
      | int n =>
        have e : setterCall m f s (.int n) = setX m f s (.int (t.cast n)) := by
          cases t <;> first | exact absurd rfl ht | simp only [setterCall, hty]
        rw [e]
        exact key (by rw [hty]; exact hasType_cast ht n)
      | _ => cases t <;> simp_all
  | custom c =>
    cases v <;> simp only [hty] at hv
    simp only [setterCall, hty]
    exact key (by simp [HasType, hty])
  | array len =>
    cases b with
    | int w =>
      cases v <;> simp only [hty] at hv
      cases s with
      | arr bs => exact hs.elim
      | int w' x =>
        simp only [setterCall, hty]
        exact (sane_unpack m len _).bind fun a ha => key (by rw [hty]; exact ha)
    | arr n =>
      cases v <;> simp only [hty] at hv
      cases s with
      | int w x => exact hs.elim
      | arr bs =>
        simp only [setterCall, hty]
        exact key (by rw [hty]; exact hv)

theorem setterOK_of_direct {v : Val} (h : DirectOK b f v) : SetterOK b f v := by
  unfold DirectOK at h
  unfold SetterOK
  cases hty : f.ty with
  | int t => cases t <;> cases v <;> simp_all
  | custom c => cases v <;> simp_all
  | array len => cases b <;> cases v <;> simp_all

theorem sane_assign (m : Mode) (hb : b.OK) (hf : FieldOK b f) (hT : FieldConverts f) {s : Store}
    (hs : s.HasBacking b) {v : Val} (hv : AssignOK b f v) :
    Sane (Keeps b f.outside s) (if f.hasSetter then setterCall m f s v else directSet m f s v) := by
  unfold AssignOK at hv
  rw [hasSetter_eq]
  split
  · rw [if_pos ‹_›] at hv; exact sane_setterCall m hb hf hT hs hv
  · rw [if_neg ‹_›] at hv; exact sane_directSet m hb hf hs hv

theorem assignOK_of_direct {v : Val} (h : DirectOK b f v) : AssignOK b f v := by
  unfold AssignOK; split
  · exact setterOK_of_direct h
  · exact h

theorem sane_setFromSource (m : Mode) (hb : b.OK) (hf : FieldOK b f) (hT : FieldConverts f) {s src : Store}
    (hsrc : src.HasBacking b) (hs : s.HasBacking b) :
    Sane (Keeps b f.outside s) (setFromSource m f src s) :=
  (sane_extract m false hsrc hb hf).bind fun _ h => (sane_valueVar hT h).bind fun _ h =>
    sane_assign m hb hf hT hs (assignOK_of_direct h)

theorem sane_zeroVal (hb : b.OK) (hT : FieldConverts f) {s : Store} (hs : s.HasBacking b) :
    Sane (DirectOK b f) (zeroVal f s) := by
  unfold zeroVal
  cases hty : f.ty with
  | int t =>
    cases t <;> cases b <;> simp [Sane, DirectOK, hty, Int.pow_pos]
  | custom c =>
    refine (sane_fromBits (hT c hty) _).bind fun code _ => ?_
    show DirectOK _ _ _
    simp only [DirectOK, hty]
  | array len =>
    cases s <;> cases b <;> simp_all [Sane, DirectOK, Store.HasBacking, Int.pow_pos]

theorem sane_setZero (m : Mode) (hb : b.OK) (hf : FieldOK b f) (hT : FieldConverts f) {s : Store}
    (hs : s.HasBacking b) : Sane (Keeps b f.outside s) (setZero m f s) :=
  (sane_zeroVal hb hT hs).bind fun _ h => sane_assign m hb hf hT hs (assignOK_of_direct h)

theorem sane_setDefault (m : Mode) (hb : b.OK) (hf : FieldOK b f) (hT : FieldConverts f)
    (hd : ∀ v, f.default = some v → AssignOK b f v) {s : Store} (hs : s.HasBacking b) :
    Sane (Keeps b f.outside s) (setDefault m f s) := by
  unfold setDefault
  cases h : f.default with
  | none => simp [Sane]
  | some v => exact sane_assign m hb hf hT hs (hd v h)

theorem sane_signExtendVal (m : Mode) {v : Val} (hv : Extracted b f v) :
    Sane (fun v' => (∃ n, v' = .int n) ∨ Extracted b f v') (signExtendVal m f v) := by
  unfold signExtendVal
  split
  · split
    · exact .inl ⟨_, rfl⟩
    · exact (sane_subU32 _ _).bind fun _ _ => (sane_shl _ _).bind fun _ _ => (sane_sshr _ _).bind fun _ _ => .inl ⟨_, rfl⟩
  · exact .inr hv

theorem sane_valueToField (m : Mode) (hT : FieldConverts f) {v : Val}
    (hv : (∃ n, v = .int n) ∨ Extracted b f v) : Sane (HasType f.ty) (valueToField m f v) := by
  have hv : (∃ n, v = .int n) ∨ ∃ len a, f.ty = .array len ∧ v = .arr a ∧ a.length = len := by
    rcases hv with hv | hv
    · exact .inl hv
    · unfold Extracted at hv
      cases b <;> cases hty : f.ty <;> cases v <;> simp_all
  rcases hv with ⟨n, rfl⟩ | ⟨len, a, hty, rfl, ha⟩
  · cases hty : f.ty with
    | int t =>
      by_cases ht : t = .bool
      · subst ht; simp [valueToField, hty, Sane, HasType]
      · have e : valueToField m f (.int n) = .ok (.int (t.cast n)) := by
          cases t <;> first | exact absurd rfl ht | simp only [valueToField, hty]
        rw [e]
        exact hasType_cast ht n
    | custom c =>
      simp only [valueToField, hty]
      exact (sane_fromBits (hT c hty) _).bind fun _ _ => trivial
    | array len =>
      simp only [valueToField, hty]
      exact (sane_unpack m len _).bind fun _ h => h
  · simp only [valueToField, hty]
    exact ha

theorem sane_getX (m : Mode) (hb : b.OK) (hf : FieldOK b f) (hT : FieldConverts f) {s : Store} (hs : s.HasBacking b) :
    Sane (HasType f.ty) (getX m f s) :=
  (sane_extract m false hs hb hf).bind fun _ h => (sane_signExtendVal m h).bind fun _ h => sane_valueToField m hT h

theorem sane_invertedX (m : Mode) (hb : b.OK) (hf : FieldOK b f) (hT : FieldConverts f) {s : Store}
    (hs : s.HasBacking b) : Sane (HasType f.ty) (invertedX m f s) :=
  (sane_extract m true hs hb hf).bind fun _ h => sane_valueToField m hT (.inr h)

theorem sane_invertX (m : Mode) (hb : b.OK) (hf : FieldOK b f) (hT : FieldConverts f) {s : Store}
    (hs : s.HasBacking b) : Sane (Keeps b f.outside s) (invertX m f s) :=
  (sane_extract m true hs hb hf).bind fun _ h => (sane_valueToField m hT (.inr h)).bind fun _ h =>
    sane_setX m hb hf hT hs h

end Bf
