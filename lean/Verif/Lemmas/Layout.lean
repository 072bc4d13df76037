import Verif.Model.Parser
import Verif.Spec

/-!
# Lemmas about the parser: widths, offsets, checks
-/

namespace Bf

/-! ## `Except` -/

theorem bind_ok {ε α β : Type} {x : Except ε α} {f : α → Except ε β} {b : β} :
    (x >>= f) = .ok b ↔ ∃ a, x = .ok a ∧ f a = .ok b := by
  cases x with
  | error e => exact ⟨fun h => (by cases h), fun ⟨_, h, _⟩ => (by cases h)⟩
  | ok a => exact ⟨fun h => ⟨a, rfl, h⟩, fun ⟨_, h, h'⟩ => by cases h; exact h'⟩

theorem pure_ok {ε α : Type} {a b : α} : (pure a : Except ε α) = .ok b ↔ a = b :=
  ⟨fun h => by cases h; rfl, fun h => by rw [h]; rfl⟩

theorem liftR_ok {α : Type} {x : R α} {a : α} : liftR x = .ok a ↔ x = .ok a := by
  cases x <;> simp [liftR]

/-! ## Sums of widths -/

/-- The sum of the widths of the fields. -/
def widths (fs : List PField) : Nat := (fs.map fun p => p.field.bits).sum

@[simp] theorem widths_nil : widths [] = 0 := rfl

@[simp] theorem widths_cons (p : PField) (fs : List PField) :
    widths (p :: fs) = p.field.bits + widths fs := by simp [widths]

@[simp] theorem widths_append (fs gs : List PField) :
    widths (fs ++ gs) = widths fs + widths gs := by simp [widths]

theorem addU32_of_lt {m : Mode} {a b : Nat} (h : a + b < 2 ^ 32) : addU32 m a b = .ok (a + b) := by
  simp only [addU32]; rw [if_pos h]

theorem addU32_checked {a b s : Nat} (h : addU32 .checked a b = .ok s) :
    a + b < 2 ^ 32 ∧ s = a + b := by
  simp only [addU32] at h
  split at h
  · cases h; exact ⟨by assumption, rfl⟩
  · cases h

theorem mulU32_of_lt {m : Mode} {a b : Nat} (h : a * b < 2 ^ 32) : mulU32 m a b = .ok (a * b) := by
  simp only [mulU32]; rw [if_pos h]

theorem mulU32_checked {a b s : Nat} (h : mulU32 .checked a b = .ok s) :
    a * b < 2 ^ 32 ∧ s = a * b := by
  simp only [mulU32] at h
  split at h
  · cases h; exact ⟨by assumption, rfl⟩
  · cases h

theorem sumBits_aux {m : Mode} (fs : List PField) :
    ∀ acc, acc + widths fs < 2 ^ 32 →
      fs.foldlM (fun acc p => addU32 m acc p.field.bits) acc = .ok (acc + widths fs) := by
  induction fs with
  | nil => intro acc _; rfl
  | cons p fs ih =>
    intro acc h
    rw [widths_cons] at h
    rw [List.foldlM_cons, addU32_of_lt (by omega)]
    show fs.foldlM _ (acc + p.field.bits) = _
    rw [ih _ (by omega), widths_cons]
    exact congrArg Except.ok (by omega)

theorem sumBits_of_lt {m : Mode} {fs : List PField} (h : widths fs < 2 ^ 32) :
    sumBits m fs = .ok (widths fs) := by
  simp only [sumBits]
  rw [sumBits_aux fs 0 (by omega)]
  exact congrArg Except.ok (by omega)

theorem sumBits_checked_aux (fs : List PField) :
    ∀ acc s, acc < 2 ^ 32 →
      fs.foldlM (fun acc p => addU32 .checked acc p.field.bits) acc = .ok s →
      acc + widths fs < 2 ^ 32 := by
  induction fs with
  | nil => intro acc s h _; simpa using h
  | cons p fs ih =>
    intro acc s _ h
    rw [List.foldlM_cons] at h
    obtain ⟨a, ha, h⟩ := bind_ok.mp h
    obtain ⟨h1, rfl⟩ := addU32_checked ha
    have := ih _ _ h1 h
    rw [widths_cons]
    omega

theorem sumBits_checked {fs : List PField} {s : Nat} (h : sumBits .checked fs = .ok s) :
    widths fs < 2 ^ 32 := by
  have := sumBits_checked_aux fs 0 s (by decide) h
  omega

/-! ## Sizes -/

theorem IntTy.bitSize_le (t : IntTy) : t.bitSize ≤ 128 := by cases t <;> decide

theorem IntTy.bitSize_pos (t : IntTy) : 1 ≤ t.bitSize := by cases t <;> decide

/-- The size of a type in bits, if the macro knows it. -/
def sizeOf? : DataType → Option Nat
  | .int t => some t.bitSize
  | .array n => some (8 * n)
  | .custom _ => none

theorem bitSize_of_lt {m : Mode} {t : DataType} {s : Nat} (h : sizeOf? t = some s)
    (hs : s < 2 ^ 32) : t.bitSize m = .ok s := by
  cases t with
  | int t => cases h; rfl
  | array n =>
    cases h
    simp only [DataType.bitSize]
    rw [mulU32_of_lt (by omega)]
    exact congrArg Except.ok (by omega)
  | custom c => cases h

theorem bitSize_checked {t : DataType} {s : Nat} (h : t.bitSize .checked = .ok s) :
    sizeOf? t = some s ∧ s < 2 ^ 32 := by
  cases t with
  | int t =>
    cases h
    exact ⟨rfl, Nat.lt_of_le_of_lt t.bitSize_le (by decide)⟩
  | array n =>
    obtain ⟨h1, rfl⟩ := mulU32_checked h
    exact ⟨congrArg some (Nat.mul_comm _ _), h1⟩
  | custom c => cases h

theorem backing_size {t : DataType} {s : Nat} (h : sizeOf? t = some s) : t.backing.size = s := by
  cases t with
  | int t => cases h; rfl
  | array n => cases h; rfl
  | custom c => cases h

/-! ## Field widths -/

/-- The declared width: the explicit one, else the size of the type. -/
def widthOf (a : Option BitsAttr) (t : DataType) : Option Nat :=
  (a.bind BitsAttr.bits).or (sizeOf? t)

theorem getFieldBits_of_lt {m : Mode} {a : Option BitsAttr} {t : DataType} {w : Nat}
    (h : widthOf a t = some w) (hw : w < 2 ^ 32) : getFieldBits m a t = .ok w := by
  simp only [getFieldBits]
  simp only [widthOf] at h
  cases hb : a.bind BitsAttr.bits with
  | some n => rw [hb] at h; cases h; rfl
  | none =>
    rw [hb] at h
    simp only [Option.none_or] at h
    cases t with
    | custom c => cases h
    | int t => exact liftR_ok.mpr (bitSize_of_lt h hw)
    | array n => exact liftR_ok.mpr (bitSize_of_lt h hw)

theorem getFieldBits_checked {a : Option BitsAttr} {t : DataType} {w : Nat}
    (h : getFieldBits .checked a t = .ok w) : widthOf a t = some w := by
  simp only [getFieldBits] at h
  simp only [widthOf]
  cases hb : a.bind BitsAttr.bits with
  | some n => rw [hb] at h; cases h; rfl
  | none =>
    rw [hb] at h
    simp only [Option.none_or]
    cases t with
    | custom c => cases h
    | int t => exact (bitSize_checked (liftR_ok.mp h)).1
    | array n => exact (bitSize_checked (liftR_ok.mp h)).1

theorem checkBits_ok {a : Option BitsAttr} {w : Nat} : checkBits a w = .ok () ↔ 1 ≤ w := by
  simp only [checkBits]
  by_cases h : w = 0
  · rw [if_pos h]
    cases a.bind BitsAttr.bits <;> simp [h]
  · rw [if_neg h]
    simp only [true_iff]
    omega

theorem checkCanHold_ok {m : Mode} {a : Option BitsAttr} {w : Nat} {t : IntTy}
    (hw : widthOf a (.int t) = some w) : checkCanHold m a w (.int t) = .ok () ↔ w ≤ t.bitSize := by
  cases a with
  | none =>
    simp only [widthOf, Option.bind_none, Option.none_or, sizeOf?] at hw
    cases hw
    simp [checkCanHold]
  | some a =>
    simp only [checkCanHold, DataType.bitSize, liftR]
    show (if t.bitSize < w then _ else Except.ok ()) = _ ↔ _
    by_cases h : t.bitSize < w
    · rw [if_pos h]
      cases a.bits <;> simp <;> omega
    · rw [if_neg h]
      simp only [true_iff]
      omega

/-! ## Literal defaults -/

/-- A literal default fits an integer field of type `t` and `w` bits. -/
def LiteralFits (t : IntTy) (w : Nat) : ConstExpr → Prop
  | .literal n false => n < 2 ^ w
  | .literal n true => t.unsigned = false ∧ n ≤ 2 ^ (w - 1)
  | .path => True

theorem minMax_of_lt {m : Mode} {w : Nat} (h : w < 128) :
    minMaxForBits m w = .ok (-(1#128 <<< (w - 1)), 1#128 <<< w - 1#128) := by
  simp only [minMaxForBits]
  rw [if_neg (by omega)]
  have e1 : shl m 1#128 w = .ok (1#128 <<< w) := by simp only [shl]; rw [if_pos h]
  have e2 : shl m 1#128 (w - 1) = .ok (1#128 <<< (w - 1)) := by
    simp only [shl]; rw [if_pos (by omega)]
  rw [e1, e2]
  rfl

theorem toNat_one_shl {w : Nat} (h : w < 128) : (1#128 <<< w).toNat = 2 ^ w := by
  rw [BitVec.toNat_shiftLeft, Nat.shiftLeft_eq]
  have : 2 ^ w < 2 ^ 128 := Nat.pow_lt_pow_right (by decide) h
  show 1 * 2 ^ w % 2 ^ 128 = 2 ^ w
  rw [Nat.one_mul, Nat.mod_eq_of_lt this]

theorem toNat_max {w : Nat} (h : w < 128) : (1#128 <<< w - 1#128).toNat = 2 ^ w - 1 := by
  have hp : 0 < 2 ^ w := Nat.two_pow_pos w
  have hl : 2 ^ w < 2 ^ 128 := Nat.pow_lt_pow_right (by decide) h
  rw [BitVec.toNat_sub, toNat_one_shl h]
  show (2 ^ 128 - 1 + 2 ^ w) % 2 ^ 128 = _
  have e : 2 ^ 128 - 1 + 2 ^ w = (2 ^ w - 1) + 2 ^ 128 := by omega
  rw [e, Nat.add_mod_right, Nat.mod_eq_of_lt (by omega)]

theorem toInt_neg_ofNat {n : Nat} (h : n ≤ 2 ^ 127) : (-(BitVec.ofNat 128 n)).toInt = -(n : Int) := by
  rw [BitVec.toInt_neg, BitVec.toInt_eq_toNat_bmod, BitVec.toNat_ofNat,
    Nat.mod_eq_of_lt (by omega)]
  have e1 : (n : Int).bmod (2 ^ 128) = if n = 2 ^ 127 then -(2 ^ 127 : Int) else n := by
    rw [Int.bmod_def]
    have : (n : Int) % ((2 ^ 128 : Nat) : Int) = n :=
      Int.emod_eq_of_lt (by omega) (by omega)
    rw [this]
    split <;> split <;> omega
  rw [e1, Int.bmod_def]
  split
  · subst n; decide
  · split <;> omega

theorem toInt_min {w : Nat} (h1 : 1 ≤ w) (h : w ≤ 128) :
    (-(1#128 <<< (w - 1))).toInt = -((2 ^ (w - 1) : Nat) : Int) := by
  have e : (1#128 <<< (w - 1)) = BitVec.ofNat 128 (2 ^ (w - 1)) := by
    apply BitVec.eq_of_toNat_eq
    rw [toNat_one_shl (by omega), BitVec.toNat_ofNat, Nat.mod_eq_of_lt]
    exact Nat.pow_lt_pow_right (by decide) (by omega)
  rw [e, toInt_neg_ofNat]
  exact Nat.pow_le_pow_right (by decide) (by omega)

theorem minMax_toNat {m : Mode} {w : Nat} (h1 : 1 ≤ w) (h : w ≤ 128) :
    ∃ lo hi, minMaxForBits m w = .ok (lo, hi) ∧ hi.toNat = 2 ^ w - 1 ∧
      lo.toInt = -((2 ^ (w - 1) : Nat) : Int) := by
  by_cases hw : w = 128
  · subst hw
    exact ⟨BitVec.intMin 128, maxOf 128, by simp [minMaxForBits], by decide, by decide⟩
  · exact ⟨_, _, minMax_of_lt (by omega), toNat_max (by omega), toInt_min h1 (by omega)⟩

theorem checkDefault_ok {m : Mode} {a : Option BitsAttr} {w : Nat} {t : IntTy} (h1 : 1 ≤ w)
    (h : w ≤ 128)
    (hn : ∀ n neg v, a.bind (fun a => a.args.default) = some (.literal n neg, v) →
      n < 2 ^ 128 ∧ (neg = true → n < 2 ^ 127)) :
    checkDefault m a w (.int t) = .ok () ↔
      ∀ e v, a.bind (fun a => a.args.default) = some (e, v) → LiteralFits t w e := by
  cases hd : a.bind (fun a => a.args.default) with
  | none => simp [checkDefault, hd]
  | some ev =>
    obtain ⟨e, v⟩ := ev
    cases e with
    | path => simp [checkDefault, hd, LiteralFits]
    | literal n neg =>
      obtain ⟨h128, h127⟩ := hn n neg v hd
      obtain ⟨lo, hi, hmm, hhi, hlo⟩ := minMax_toNat (m := m) h1 h
      have hp : 0 < 2 ^ w := Nat.two_pow_pos w
      simp only [checkDefault, hd, hmm]
      cases neg with
      | false =>
        simp only [Bool.and_false, Bool.false_eq_true, if_false]
        have key : hi < BitVec.ofNat 128 n ↔ 2 ^ w ≤ n := by
          rw [BitVec.lt_def, hhi, BitVec.toNat_ofNat, Nat.mod_eq_of_lt h128]
          omega
        by_cases hc : hi < BitVec.ofNat 128 n
        · rw [if_pos hc]
          have := key.mp hc
          simp [LiteralFits]
          omega
        · rw [if_neg hc]
          have : ¬ 2 ^ w ≤ n := fun h => hc (key.mpr h)
          simp [LiteralFits]
          omega
      | true =>
        have h127 := h127 rfl
        simp only [Bool.and_true, if_true, DataType.unsigned]
        cases hu : t.unsigned with
        | true => simp [LiteralFits, hu]
        | false =>
          simp only [Bool.false_eq_true, if_false]
          have hmin : ¬ BitVec.ofNat 128 n = BitVec.intMin 128 := by
            intro e
            have e := congrArg BitVec.toNat e
            rw [BitVec.toNat_ofNat, Nat.mod_eq_of_lt h128] at e
            have : (BitVec.intMin 128).toNat = 2 ^ 127 := by decide
            omega
          rw [if_neg hmin]
          have key : (-(BitVec.ofNat 128 n)).slt lo = true ↔ 2 ^ (w - 1) < n := by
            rw [BitVec.slt_iff_toInt_lt, hlo, toInt_neg_ofNat (by omega)]
            omega
          by_cases hc : (-(BitVec.ofNat 128 n)).slt lo = true
          · rw [if_pos hc]
            have := key.mp hc
            simp [LiteralFits, hu]
            omega
          · rw [if_neg hc]
            have : ¬ 2 ^ (w - 1) < n := fun h => hc (key.mpr h)
            simp [LiteralFits, hu]
            omega

/-! ## One field -/

/-- The tests on integer fields. -/
def intChecks (m : Mode) (a : Option BitsAttr) (w : Nat) : DataType → Prop
  | .int t => checkDefault m a w (.int t) = .ok () ∧ checkCanHold m a w (.int t) = .ok ()
  | _ => True

/-- The field that a declaration with attribute `a` and type `t` becomes. -/
def mkField (sv : Vis) (d : FieldDecl) (a : Option BitsAttr) (t : DataType) (w offset : Nat)
    (access : Access) : PField where
  field := ⟨d.name, t, w, offset, access, isReservedName d.name,
    (a.bind fun a => a.args.default).map (·.2)⟩
  vis := fieldVis sv d.vis
  ignored := false

theorem parseField_ok {m : Mode} {A : BitfieldAttr} {sv : Vis} {d : FieldDecl}
    {prev : List PField} {p : PField} :
    parseField m A sv d prev = .ok p ↔
      ∃ a, getBitsAttribute d = .ok a ∧
        if isIgnored a then parseIgnored d = .ok p
        else ∃ t w offset access, d.ty.dataType = .ok t ∧ getFieldBits m a t = .ok w ∧ 1 ≤ w ∧
          intChecks m a w t ∧ fieldOffset m A w prev = .ok offset ∧
          fieldAccess a (isReservedName d.name) = .ok access ∧
          p = mkField sv d a t w offset access := by
  simp only [parseField]
  rw [bind_ok]
  refine exists_congr fun a => and_congr_right fun _ => ?_
  by_cases hi : isIgnored a = true
  · rw [if_pos hi, if_pos hi]
  · rw [if_neg hi, if_neg hi, bind_ok]
    have hdt : ∀ t, fieldDataType d = .ok t ↔ d.ty.dataType = .ok t := by
      intro t
      simp only [fieldDataType]
      cases d.ty.dataType <;> simp
    constructor
    · rintro ⟨t, ht, h⟩
      obtain ⟨w, hw, h⟩ := bind_ok.mp h
      obtain ⟨_, h1, h⟩ := bind_ok.mp h
      refine ⟨t, w, ?_⟩
      have fin : ∀ {h : (do
            let offset ← fieldOffset m A w prev
            let access ← fieldAccess a (isReservedName d.name)
            return ({
              field := ⟨d.name, t, w, offset, access, isReservedName d.name,
                (a.bind fun a => a.args.default).map (·.2)⟩
              vis := fieldVis sv d.vis
              ignored := false } : PField)) = Except.ok p}, intChecks m a w t →
          ∃ offset access, d.ty.dataType = .ok t ∧ getFieldBits m a t = .ok w ∧ 1 ≤ w ∧
            intChecks m a w t ∧ fieldOffset m A w prev = .ok offset ∧
            fieldAccess a (isReservedName d.name) = .ok access ∧
            p = mkField sv d a t w offset access := by
        intro h hc
        obtain ⟨o, ho, h⟩ := bind_ok.mp h
        obtain ⟨c, hc', h⟩ := bind_ok.mp h
        exact ⟨o, c, (hdt t).mp ht, hw, checkBits_ok.mp h1, hc, ho, hc', (pure_ok.mp h).symm⟩
      cases t with
      | int t =>
        obtain ⟨_, h2, h⟩ := bind_ok.mp h
        obtain ⟨_, h3, h⟩ := bind_ok.mp h
        exact fin (h := h) ⟨h2, h3⟩
      | array n => exact fin (h := h) trivial
      | custom c => exact fin (h := h) trivial
    · rintro ⟨t, w, o, c, ht, hw, h1, hc, ho, hc', rfl⟩
      refine ⟨t, (hdt t).mpr ht, bind_ok.mpr ⟨w, hw, bind_ok.mpr ⟨(), checkBits_ok.mpr h1, ?_⟩⟩⟩
      cases t with
      | int t =>
        exact bind_ok.mpr ⟨(), hc.1, bind_ok.mpr ⟨(), hc.2, bind_ok.mpr ⟨o, ho,
          bind_ok.mpr ⟨c, hc', rfl⟩⟩⟩⟩
      | array n => exact bind_ok.mpr ⟨(), rfl, bind_ok.mpr ⟨o, ho, bind_ok.mpr ⟨c, hc', rfl⟩⟩⟩
      | custom c' => exact bind_ok.mpr ⟨(), rfl, bind_ok.mpr ⟨o, ho, bind_ok.mpr ⟨c, hc', rfl⟩⟩⟩

end Bf
