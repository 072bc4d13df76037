import Verif.Lemmas.Ranges
import Verif.MachineFull

/-!
# The generated code refines `fullCall` on all arguments rustc accepts
-/

namespace Bf

variable {B : Bitfield}

theorem refused_iff {b : Backing} {f : Field} {v : Val} (hf : FieldOK b f) (hv : HasType f.ty v) :
    Refused b f v ↔ codeTooBig b f v = true := by
  unfold Refused codeTooBig
  cases hty : f.ty with
  | int t =>
    rw [hty] at hv
    by_cases hb : t = .bool
    · subst hb; simp
    · obtain ⟨n, rfl⟩ := HasType.int_cases hb hv
      have hv' : if t.unsigned then 0 ≤ n ∧ n < 2 ^ t.bitSize
          else -(2 ^ (t.bitSize - 1) : Int) ≤ n ∧ n < 2 ^ (t.bitSize - 1) := by
        cases t <;> first | exact absurd rfl hb | exact hv
      have hle := hf.int t hty
      have key : (if t.unsigned then
          match (generalizing := false) b with
          | .int w => 2 ^ f.bits ≤ n % 2 ^ w
          | .arr _ => 2 ^ f.bits ≤ n
        else n < -2 ^ (f.bits - 1) ∨ 2 ^ (f.bits - 1) ≤ n) ↔ ((if t.unsigned then
          match (generalizing := false) b with
          | .int w => decide (2 ^ f.bits ≤ n % 2 ^ w)
          | .arr _ => decide (2 ^ f.bits ≤ n)
        else decide (f.bits < t.bitSize) &&
          (decide (2 ^ (f.bits - 1) ≤ n) || decide (n < -2 ^ (f.bits - 1)))) = true) := by
        by_cases hu : t.unsigned
        · rw [if_pos hu, if_pos hu]
          cases b <;> simp only [decide_eq_true_eq]
        · rw [if_neg hu] at hv'
          rw [if_neg hu, if_neg hu]
          simp only [Bool.and_eq_true, Bool.or_eq_true, decide_eq_true_eq]
          by_cases hlt : f.bits < t.bitSize
          · simp only [hlt, true_and]; omega
          · have : f.bits = t.bitSize := by omega
            rw [this]
            simp only [Nat.lt_irrefl, false_and, iff_false]
            omega
      cases t <;> first | exact absurd rfl hb | exact key
  | array len => simp
  | custom c =>
    cases v with
    | custom code => cases b <;> simp only [decide_eq_true_eq]
    | int n => simp
    | bool x => simp
    | arr bs => simp

theorem oddRange_iff {b : Backing} {o l : Nat} : oddRange b o l = true ↔ RangeOdd b o l := by
  unfold oddRange RangeOdd
  cases b <;> simp

theorem not_oddRange {b : Backing} {o l : Nat} (h : ¬ oddRange b o l = true) : RangeOK b o l :=
  (rangeOK_or_odd b o l).resolve_right fun e => h (oddRange_iff.mpr e)

theorem rangeOK_not_odd {b : Backing} {o l : Nat} (h : RangeOK b o l) : ¬ RangeOdd b o l := by
  rintro ⟨h1, h2 | ⟨h2, w, h3⟩⟩
  · have := (h h1).1; omega
  · obtain ⟨n, hn⟩ := (h h1).2 h2
    rw [hn] at h3; cases h3

/-- The search for a protected bit when `offset + length` overflows: it is found before
the end of the array, or the search runs over the end. -/
theorem anyProtected_run {n o l : Nat} (ho : o < 8 * n) (hn : 8 * n < 2 ^ 32)
    (h : 2 ^ 32 ≤ o + l) (p : Bits) :
    anyProtected .wrapping (bytesOf n p) o l =
      if rangeForall o (8 * n - o) (fun i => !p i) then .error .index else .ok true := by
  have key : ∀ k, 8 * n - o + 1 ≤ k → anyProtected .wrapping (bytesOf n p) o k =
      if rangeForall o (8 * n - o) (fun i => !p i) then .error .index else .ok true := by
    intro k hk
    obtain ⟨d, rfl⟩ := Nat.exists_eq_add_of_le hk
    clear hk
    induction d with
    | zero =>
      rw [Nat.add_zero]
      have e := anyProtected_eq .wrapping (n := n) (offset := o) (length := 8 * n - o) p (by omega) hn
      unfold anyProtected at e ⊢
      rw [forUpTo, e]
      simp only [R_bind_ok]
      show (if (!rangeForall o (8 * n - o) fun i => !p i) = true then _ else _) = _
      cases rangeForall o (8 * n - o) fun i => !p i with
      | true =>
        simp only [Bool.not_true, Bool.false_eq_true, if_false, if_true]
        rw [addU32_top ho hn]
        simp only [R_bind_ok]
        exact bitAt_error (by rw [length_bytesOf]; omega)
      | false => rfl
    | succ d ih =>
      rw [← Nat.add_assoc]
      unfold anyProtected at ih ⊢
      rw [forUpTo, ih]
      cases rangeForall o (8 * n - o) fun i => !p i <;> rfl
  exact key l (by omega)

theorem rangeForall_congr {o l : Nat} {q q' : Nat → Bool}
    (h : ∀ i, o ≤ i → i < o + l → q i = q' i) : rangeForall o l q = rangeForall o l q' :=
  rangeAll_congr h

theorem odd_arr_checked_exact {n o l : Nat} (hB : WF B) (hb : B.backing = .arr n)
    (hn : 8 * n < 2 ^ 32) (ho : o < 8 * n) (hl : l < 2 ^ 32) (h : 2 ^ 32 ≤ o + l)
    (bs x : List (BitVec 8)) :
    (apiCheckedSetRange .wrapping B (.arr bs) o l (.arr x) =
      if rangeForall o ((Backing.arr n).size - o) B.writable then .error .index
      else .ok (.error errWrite, .arr bs)) ∧
    (apiCheckedGetRange .wrapping B (.arr bs) o l =
      if rangeForall o ((Backing.arr n).size - o) B.readable then .error .index else .ok (.error errRead)) := by
  obtain ⟨sum, h1, h2⟩ := odd_arr_sum ho hn hl h
  unfold apiCheckedSetRange apiCheckedGetRange
  have hno : ¬ o ≥ 8 * n := by omega
  simp only [hb, show (Backing.arr n).size = 8 * n from rfl, if_neg hno, h1, R_bind_ok, if_neg h2,
    protMaskBytes_eq, anyProtected_run ho hn h]
  have e1 : (rangeForall o (8 * n - o) fun i => !anyCovers (protectedFields B .readOnly) i) =
      rangeForall o (8 * n - o) B.writable := by
    apply rangeForall_congr
    intro i h1 h2
    rw [hB.prot_writable (by rw [hb]; simp only [Backing.size]; omega), Bool.not_not]
  have e2 : (rangeForall o (8 * n - o) fun i => !anyCovers (protectedFields B .writeOnly) i) =
      rangeForall o (8 * n - o) B.readable := by
    apply rangeForall_congr
    intro i h1 h2
    rw [hB.prot_readable (by rw [hb]; simp only [Backing.size]; omega), Bool.not_not]
  rw [e1, e2]
  constructor
  · cases rangeForall o (8 * n - o) B.writable <;> rfl
  · cases rangeForall o (8 * n - o) B.readable <;> rfl

/-- A range to the top is inside `RangeOK`. -/
theorem rangeOK_top {w o : Nat} (hb : B.backing = .int w) (hB : WF B) (ho : o < w) :
    RangeOK B.backing o (B.backing.size - o) := by
  have hOK := hB.backing
  rw [hb] at hOK ⊢
  have hw : w ≤ 128 := by simp only [Backing.OK] at hOK; omega
  intro _
  simp only [Backing.size]
  exact ⟨by omega, by omega⟩

theorem call_full (m : Mode) (hB : WF B) (hS : Supported B) {c : Call} (hc : c.Typed B) (g : Bits) :
    call m B c (Store.ofBits B.backing g) = lift B.backing (fullCall m B c g) := by
  have hOK := hB.backing
  have hs := Store.hasBacking_ofBits B.backing g
  have arr_odd : ∀ {o l : Nat} {n : Nat}, RangeOdd (.arr n) o l → 2 ^ 32 ≤ o + l := fun h =>
    h.2.resolve_right fun h => by obtain ⟨_, _, h⟩ := h; cases h
  cases c with
  | checkedSet f v =>
    obtain ⟨hf, hw, hv⟩ := hc
    simp only [fullCall]
    by_cases hr : Refused B.backing f v
    · rw [if_pos hr]
      simp only [call, checkedSet_eq m hOK (hB.field f hf) (hS.field f hf) hv,
        (refused_iff (hB.field f hf) hv).mp hr, if_true]
      rfl
    · rw [if_neg hr, ← call_refines m hB hS (.set f v) ⟨hf, hw, hv⟩]
      simp only [call, checkedSet_eq m hOK (hB.field f hf) (hS.field f hf) hv,
        setX_eq m hOK (hB.field f hf) (hS.field f hf) hv,
        if_neg (fun h => hr ((refused_iff (hB.field f hf) hv).mpr h))]
      cases settle f v <;> rfl
  | getRange o l =>
    simp only [fullCall]
    by_cases hr : oddRange B.backing o l = true
    · rw [if_pos hr]
      have h := oddRange_iff.mp hr
      cases m with
      | checked =>
        simp only [oddCall, call, (odd_checked hB h _ _ hs hs).2.2.1]
        rfl
      | wrapping =>
        simp only [oddCall]
        cases hb : B.backing with
        | int w =>
          have hw : w ≤ 128 := by rw [hb] at hOK; simp only [Backing.OK] at hOK; omega
          have ho : o < w := by have := h.1; rw [hb] at this; exact this
          have e := call_refines .wrapping hB hS (.getRange o (B.backing.size - o))
            (rangeOK_top hb hB ho) g
          rw [hb] at e
          rw [← e]
          simp only [call, Store.ofBits, Backing.size]
          rw [apiGetRange_odd_int hb hw ho hc.2 (h.2.imp id fun h => h.1)]
        | arr n =>
          rw [hb] at hOK h
          simp only [Backing.OK] at hOK
          simp only [call, Store.ofBits, (odd_arr_wrapping hb hOK.2 h.1 hc.2 (arr_odd h) _ []).2]
          rfl
    · rw [if_neg hr]
      exact call_refines m hB hS _ (show Call.Valid B (.getRange o l) from not_oddRange hr) g
  | checkedGetRange o l =>
    simp only [fullCall]
    by_cases hr : oddRange B.backing o l = true
    · rw [if_pos hr]
      have h := oddRange_iff.mp hr
      cases m with
      | checked =>
        simp only [oddCall, call, (odd_checked hB h _ _ hs hs).2.2.2]
        rfl
      | wrapping =>
        simp only [oddCall]
        cases hb : B.backing with
        | int w =>
          have hw : w ≤ 128 := by rw [hb] at hOK; simp only [Backing.OK] at hOK; omega
          have ho : o < w := by have := h.1; rw [hb] at this; exact this
          have e := call_refines .wrapping hB hS (.checkedGetRange o (B.backing.size - o))
            (rangeOK_top hb hB ho) g
          rw [hb] at e
          rw [← e]
          simp only [call, Store.ofBits, Backing.size]
          rw [apiCheckedGetRange_odd_int hb hw ho hc.2 (h.2.imp id fun h => h.1)]
        | arr n =>
          rw [hb] at hOK h
          simp only [Backing.OK] at hOK
          simp only [call, Store.ofBits,
            (odd_arr_checked_exact hB hb hOK.2 h.1 hc.2 (arr_odd h) _ []).2]
          by_cases hq : rangeForall o ((Backing.arr n).size - o) B.readable = true
          · rw [if_pos hq, if_pos hq]; rfl
          · rw [if_neg hq, if_neg hq]; rfl
    · rw [if_neg hr]
      exact call_refines m hB hS _ (show Call.Valid B (.checkedGetRange o l) from not_oddRange hr) g
  | setRange o l x =>
    have hx := hc.2.2
    simp only [fullCall]
    by_cases hr : oddRange B.backing o l = true
    · rw [if_pos hr]
      have h := oddRange_iff.mp hr
      cases m with
      | checked =>
        simp only [oddCall, call, (odd_checked hB h _ x hs hx).1]
        rfl
      | wrapping =>
        simp only [oddCall]
        cases hb : B.backing with
        | int w =>
          have hw : w ≤ 128 := by rw [hb] at hOK; simp only [Backing.OK] at hOK; omega
          have ho : o < w := by have := h.1; rw [hb] at this; exact this
          have e := call_refines .wrapping hB hS (.setRange o (B.backing.size - o) x)
            ⟨rangeOK_top hb hB ho, hx⟩ g
          rw [hb] at e hx
          rw [← e]
          cases x with
          | arr bs => cases hx
          | int w2 x =>
            cases hx
            simp only [call, Store.ofBits, Backing.size]
            rw [apiSetRange_odd_int hb hw ho hc.2.1 (h.2.imp id fun h => h.1)]
        | arr n =>
          rw [hb] at hOK h hx
          simp only [Backing.OK] at hOK
          cases x with
          | int w2 x => cases hx
          | arr x =>
            simp only [call, Store.ofBits, (odd_arr_wrapping hb hOK.2 h.1 hc.2.1 (arr_odd h) _ x).1]
            rfl
    · rw [if_neg hr]
      exact call_refines m hB hS _ (show Call.Valid B (.setRange o l x) from ⟨not_oddRange hr, hx⟩) g
  | checkedSetRange o l x =>
    have hx := hc.2.2
    simp only [fullCall]
    by_cases hr : oddRange B.backing o l = true
    · rw [if_pos hr]
      have h := oddRange_iff.mp hr
      cases m with
      | checked =>
        simp only [oddCall, call, (odd_checked hB h _ x hs hx).2.1]
        rfl
      | wrapping =>
        simp only [oddCall]
        cases hb : B.backing with
        | int w =>
          have hw : w ≤ 128 := by rw [hb] at hOK; simp only [Backing.OK] at hOK; omega
          have ho : o < w := by have := h.1; rw [hb] at this; exact this
          have e := call_refines .wrapping hB hS (.checkedSetRange o (B.backing.size - o) x)
            ⟨rangeOK_top hb hB ho, hx⟩ g
          rw [hb] at e hx
          rw [← e]
          cases x with
          | arr bs => cases hx
          | int w2 x =>
            cases hx
            simp only [call, Store.ofBits, Backing.size]
            rw [apiCheckedSetRange_odd_int hb hw ho hc.2.1 (h.2.imp id fun h => h.1)]
        | arr n =>
          rw [hb] at hOK h hx
          simp only [Backing.OK] at hOK
          cases x with
          | int w2 x => cases hx
          | arr x =>
            simp only [call, Store.ofBits,
              (odd_arr_checked_exact hB hb hOK.2 h.1 hc.2.1 (arr_odd h) _ x).1]
            by_cases hq : rangeForall o ((Backing.arr n).size - o) B.writable = true
            · rw [if_pos hq, if_pos hq]; rfl
            · rw [if_neg hq, if_neg hq]; rfl
    · rw [if_neg hr]
      exact call_refines m hB hS _ (show Call.Valid B (.checkedSetRange o l x) from ⟨not_oddRange hr, hx⟩) g
  | get f => exact call_refines m hB hS (.get f) hc g
  | inverted f => exact call_refines m hB hS (.inverted f) hc g
  | set f v => exact call_refines m hB hS (.set f v) hc g
  | clearField f => exact call_refines m hB hS (.clearField f) hc g
  | clearFieldToDefault f => exact call_refines m hB hS (.clearFieldToDefault f) hc g
  | invertField f => exact call_refines m hB hS (.invertField f) hc g
  | getBit o => exact call_refines m hB hS (.getBit o) trivial g
  | checkedGetBit o => exact call_refines m hB hS (.checkedGetBit o) trivial g
  | setBit o b => exact call_refines m hB hS (.setBit o b) trivial g
  | checkedSetBit o b => exact call_refines m hB hS (.checkedSetBit o b) trivial g
  | into e => exact call_refines m hB hS (.into e) trivial g
  | intoTrait => exact call_refines m hB hS (.intoTrait) trivial g
  | intoSlice e sl => exact call_refines m hB hS (.intoSlice e sl) hc g
  | checkedIntoSlice e sl => exact call_refines m hB hS (.checkedIntoSlice e sl) hc g
  | write e d x => exact call_refines m hB hS (.write e d x) hc g
  | writeDefaults => exact call_refines m hB hS (.writeDefaults) trivial g
  | clear d => exact call_refines m hB hS (.clear d) trivial g
  | invert => exact call_refines m hB hS (.invert) trivial g
  | debug => exact call_refines m hB hS (.debug) trivial g

theorem history_full (m : Mode) (hB : WF B) (hS : Supported B) (cs : List Call)
    (hc : ∀ c ∈ cs, c.Typed B) (g : Bits) :
    history m B cs (Store.ofBits B.backing g) =
      (fullHistory m B cs g).map fun p => (p.1, Store.ofBits B.backing p.2) := by
  induction cs generalizing g with
  | nil => rfl
  | cons c cs ih =>
    simp only [history, fullHistory]
    rw [call_full m hB hS (hc c (by simp))]
    cases fullCall m B c g with
    | error p => rfl
    | ok p =>
      obtain ⟨o, g'⟩ := p
      simp only [lift, Except.map, R_bind_ok]
      rw [ih (fun c hc' => hc c (List.mem_cons_of_mem _ hc')) g']
      cases fullHistory m B cs g' <;> rfl

end Bf
