import Verif.Lemmas.Exact
import Verif.Props.Findings

/-!
# What the generated code does on every argument rustc accepts (C12, C26, C27, C34, C36)

The theorems with suffix `_partial` leave out the arguments on which the code does not do what
its documentation says. The theorems here leave out none: they say exactly what happens, with the
abstract machine of `MachineFull.lean`.
-/

namespace Bf

variable {B : Bitfield} {f : Field}

/-- **C36** (all arguments). Every history of calls rustc accepts behaves as the machine of
`MachineFull.lean` on the sequence of bits: same results, same final bits, same panics. No
argument is excluded. -/
theorem C36_every_history (m : Mode) (hB : WF B) (hS : Supported B) (cs : List Call)
    (hc : ∀ c ∈ cs, c.Typed B) (s : Store) (hs : s.HasBacking B.backing) :
    history m B cs s = (fullHistory m B cs s.bit).map fun p => (p.1, Store.ofBits B.backing p.2) := by
  rw [← history_full m hB hS cs hc, Store.ofBits_bit hs]

/-- A history with a range of length 0, a range whose end overflows and a checked setter. -/
example (v : BitVec 16) :
    ∀ m, history m Ex.I [.checkedSet Ex.a (.int 200), .getRange 2 0, .getRange 3 4294967295] (.int 16 v) =
      (fullHistory m Ex.I [.checkedSet Ex.a (.int 200), .getRange 2 0, .getRange 3 4294967295]
        (Store.int 16 v).bit).map fun p => (p.1, Store.ofBits (.int 16) p.2) :=
  fun m => C36_every_history m Ex.wfI Ex.supportedI _
    (by simp [Call.Typed, Ex.I, HasType, Ex.a, Field.isWritable, IntTy.unsigned, IntTy.bitSize])
    (.int 16 v) rfl

/-- Apart from checked setters and odd ranges the two machines agree: `MachineFull.lean` adds
nothing else. -/
theorem C36_machines_agree (m : Mode) {c : Call} (hc : c.Valid B) (g : Bits)
    (hF : ∀ f ∈ B.fields, FieldOK B.backing f) : fullCall m B c g = specCall B c g := by
  cases c with
  | checkedSet f v =>
    obtain ⟨hf, _, hv, hx⟩ := hc
    simp only [fullCall, specCall]
    have h1 := refused_iff (hF f hf) hv
    have h2 := codeTooBig_eq hv hx
    by_cases hfit : Fits f v
    · rw [if_pos hfit, if_neg]
      rw [h1, h2]; simp [hfit]
    · rw [if_neg hfit, if_pos]
      rw [h1, h2]; simp [hfit]
  | getRange o l =>
    simp only [fullCall]
    rw [if_neg fun h => rangeOK_not_odd hc (oddRange_iff.mp h)]
  | checkedGetRange o l =>
    simp only [fullCall]
    rw [if_neg fun h => rangeOK_not_odd hc (oddRange_iff.mp h)]
  | setRange o l x =>
    simp only [fullCall]
    rw [if_neg fun h => rangeOK_not_odd hc.1 (oddRange_iff.mp h)]
  | checkedSetRange o l x =>
    simp only [fullCall]
    rw [if_neg fun h => rangeOK_not_odd hc.1 (oddRange_iff.mp h)]
  | _ => rfl

/-! ## C12 -/

/-- **C12** (all arguments). `checked_set_x(v)` fails, and changes nothing, exactly if `v` is
`Refused`, and is `set_x(v)` otherwise. -/
theorem C12_exact (m : Mode) (hB : WF B) (hS : Supported B) (hf : f ∈ B.fields)
    {v : Val} (hv : HasType f.ty v) (s : Store) (hs : s.HasBacking B.backing) :
    (Refused B.backing f v → setImpl m true f s v =
      .ok (.error "Value is too big to fit within the field bits.", s)) ∧
    (¬ Refused B.backing f v →
      setImpl m true f s v = (setX m f s v).map fun s' => (.ok (), s')) := by
  obtain ⟨g, rfl⟩ := Store.cases_ofBits hs
  have hfok := hB.field f hf
  have hfs := hS.field f hf
  rw [checkedSet_bits m hB.backing hfok hfs hv, setX_bits m hB.backing hfok hfs hv]
  constructor
  · intro h
    rw [if_pos ((refused_iff hfok hv).mp h)]; rfl
  · intro h
    rw [if_neg fun e => h ((refused_iff hfok hv).mpr e)]
    cases roundTrip f (encode f.ty v) <;> rfl

/-- **C12** (one direction, all integer and bool fields). A value that fits is never
refused. -/
theorem C12_fits_accepted (hf : FieldOK B.backing f) {t : IntTy} (hty : f.ty = .int t)
    {v : Val} (hv : HasType f.ty v) (hfit : Fits f v) : ¬ Refused B.backing f v := by
  rw [hty] at hv
  have hpos := hf.pos
  have hlt : ∀ w, B.backing = .int w → f.bits ≤ w := by
    intro w hw
    have := hf.fits
    rw [hw] at this
    simp only [Backing.size] at this
    omega
  unfold Refused
  unfold Fits at hfit
  rw [hty] at hfit ⊢
  by_cases hb : t = .bool
  · subst hb; simp
  · obtain ⟨n, rfl⟩ := HasType.int_cases hb hv
    have hfit' : if t.unsigned then 0 ≤ n ∧ n < 2 ^ f.bits
        else -(2 ^ (f.bits - 1) : Int) ≤ n ∧ n < 2 ^ (f.bits - 1) := by
      cases t <;> first | exact absurd rfl hb | exact hfit
    have key : ¬ (if t.unsigned then
          match B.backing with
          | .int w => 2 ^ f.bits ≤ n % 2 ^ w
          | .arr _ => 2 ^ f.bits ≤ n
        else n < -2 ^ (f.bits - 1) ∨ 2 ^ (f.bits - 1) ≤ n) := by
      by_cases hu : t.unsigned
      · rw [if_pos hu] at hfit' ⊢
        cases hbk : B.backing with
        | int w =>
          have := pow_le_pow_int (hlt w hbk)
          have e : n % 2 ^ w = n := Int.emod_eq_of_lt hfit'.1 (by omega)
          simp only [e]; omega
        | arr _ => simp only; omega
      · rw [if_neg hu] at hfit' ⊢
        omega
    cases t <;> first | exact absurd rfl hb | exact key

example (m : Mode) (s : Store) (hs : s.HasBacking (.int 16)) :
    setImpl m true Ex.a s (.int 16) =
      .ok (.error "Value is too big to fit within the field bits.", s) :=
  (C12_exact (B := Ex.I) m Ex.wfI Ex.supportedI (by simp [Ex.I]) (v := .int 16)
    (by simp [HasType, Ex.a, IntTy.unsigned, IntTy.bitSize]) s hs).1 (by decide)

/-! ## Ranges -/

/-- The four range functions with offset `o` and length `l`. -/
def Call.IsRange (B : Bitfield) (o l : Nat) (c : Call) : Prop :=
  c = .getRange o l ∨ c = .checkedGetRange o l ∨
    (∃ x : Store, x.HasBacking B.backing ∧ c = .setRange o l x) ∨
    (∃ x : Store, x.HasBacking B.backing ∧ c = .checkedSetRange o l x)

theorem specCall_range_ok {o l : Nat} {c : Call} (hc : c.IsRange B o l) (g : Bits) :
    ∃ r, specCall B c g = .ok r := by
  rcases hc with rfl | rfl | ⟨x, _, rfl⟩ | ⟨x, _, rfl⟩
  · exact ⟨_, rfl⟩
  · simp only [specCall]
    split
    · exact ⟨_, rfl⟩
    · split
      · exact ⟨_, rfl⟩
      · split <;> exact ⟨_, rfl⟩
  · exact ⟨_, rfl⟩
  · simp only [specCall]
    split
    · exact ⟨_, rfl⟩
    · split
      · exact ⟨_, rfl⟩
      · split <;> exact ⟨_, rfl⟩

theorem rangeForall_top {b : Backing} {o : Nat} (h : o < b.size) {q : Nat → Bool} :
    rangeForall o (b.size - o) q = true ↔ ∀ i, o ≤ i → i < b.size → q i = true := by
  rw [rangeForall_iff]
  constructor
  · intro e i h1 h2
    have := e (i - o) (by omega)
    rwa [show o + (i - o) = i by omega] at this
  · intro e k hk
    exact e _ (by omega) (by omega)

/-- **C34** (ranges, all arguments). Which range calls panic: exactly those whose offset is
inside the bitfield while their end overflows `u32` or their length is 0 on an
integer-backed bitfield, if overflow checks are on or the bitfield is array-backed. (The
checked variants of an array-backed bitfield without overflow checks may find a protected bit before
they run over the end.) -/
theorem C34_range_panics_iff (m : Mode) (hB : WF B) (hS : Supported B) {o l : Nat}
    (ho : o < 2 ^ 32) (hl : l < 2 ^ 32) {c : Call} (hc : c.IsRange B o l) (s : Store)
    (hs : s.HasBacking B.backing) :
    (∃ p, call m B c s = .error p) ↔
      o < B.backing.size ∧ (2 ^ 32 ≤ o + l ∨ l = 0 ∧ ∃ w, B.backing = .int w) ∧
        (m = .checked ∨ (∃ n, B.backing = .arr n) ∧
          (c = .checkedGetRange o l → ∀ i, o ≤ i → i < B.backing.size → B.readable i = true) ∧
          ((∃ x, c = .checkedSetRange o l x) →
            ∀ i, o ≤ i → i < B.backing.size → B.writable i = true)) := by
  obtain ⟨g, rfl⟩ := Store.cases_ofBits hs
  have ht : c.Typed B := by
    rcases hc with rfl | rfl | ⟨x, hx, rfl⟩ | ⟨x, hx, rfl⟩
    · exact ⟨ho, hl⟩
    · exact ⟨ho, hl⟩
    · exact ⟨ho, hl, hx⟩
    · exact ⟨ho, hl, hx⟩
  rw [call_full m hB hS ht]
  have e0 : (∃ p, lift B.backing (fullCall m B c g) = .error p) ↔
      ∃ p, fullCall m B c g = .error p := by
    constructor
    · rintro ⟨p, h⟩; exact ⟨p, Rmap_err h⟩
    · rintro ⟨p, h⟩; exact ⟨p, by rw [h]; rfl⟩
  rw [e0]
  have okno : ∀ {r : R (Out × Bits)}, (∃ x, r = .ok x) → ¬ ∃ p, r = .error p := by
    rintro r ⟨x, rfl⟩ ⟨p, h⟩; cases h
  have step : ∀ (top : Call) (arr : R (Out × Bits)), top.IsRange B o (B.backing.size - o) →
      fullCall m B c g =
        (if oddRange B.backing o l then oddCall m B o l top arr g else specCall B c g) →
      ((∃ p, fullCall m B c g = .error p) ↔ RangeOdd B.backing o l ∧
        (m = .checked ∨ (∃ n, B.backing = .arr n) ∧ ∃ p, arr = .error p)) := by
    intro top arr htop e
    rw [e]
    by_cases hr : oddRange B.backing o l = true
    · rw [if_pos hr]
      have hodd := oddRange_iff.mp hr
      cases m with
      | checked => exact iff_of_true ⟨_, rfl⟩ ⟨hodd, .inl rfl⟩
      | wrapping =>
        cases hb : B.backing with
        | int w =>
          simp only [oddCall, hb]
          refine iff_of_false (okno (specCall_range_ok htop g)) ?_
          rintro ⟨_, h | ⟨⟨n, h⟩, _⟩⟩ <;> cases h
        | arr n =>
          simp only [oddCall, hb]
          rw [hb] at hodd
          constructor
          · rintro ⟨p, h⟩; exact ⟨hodd, .inr ⟨⟨n, rfl⟩, p, h⟩⟩
          · rintro ⟨_, h | ⟨_, h⟩⟩
            · cases h
            · exact h
    · rw [if_neg hr]
      exact iff_of_false (okno (specCall_range_ok hc g)) fun h => hr (oddRange_iff.mpr h.1)
  have perr : ∀ {q : Prop} [Decidable q] {p : Panic} {x : Out × Bits},
      (∃ p', (if q then .error p else .ok x : R (Out × Bits)) = .error p') ↔ q := by
    intro q _ p x
    by_cases h : q
    · rw [if_pos h]; exact iff_of_true ⟨_, rfl⟩ h
    · rw [if_neg h]; exact iff_of_false (fun ⟨_, e⟩ => by cases e) h
  rcases hc with rfl | rfl | ⟨x, hx, rfl⟩ | ⟨x, hx, rfl⟩
  · rw [step _ _ (.inl rfl) rfl]
    simp [RangeOdd, and_assoc]
  · rw [step _ _ (.inr (.inl rfl)) rfl, perr]
    unfold RangeOdd
    constructor
    · rintro ⟨⟨h1, h2⟩, h3⟩
      exact ⟨h1, h2, h3.imp id fun h => ⟨h.1, fun _ => (rangeForall_top h1).mp h.2,
        fun ⟨_, e⟩ => by cases e⟩⟩
    · rintro ⟨h1, h2, h3⟩
      exact ⟨⟨h1, h2⟩, h3.imp id fun h => ⟨h.1, (rangeForall_top h1).mpr (h.2.1 rfl)⟩⟩
  · rw [step _ _ (.inr (.inr (.inl ⟨x, hx, rfl⟩))) rfl]
    simp [RangeOdd, and_assoc]
  · rw [step _ _ (.inr (.inr (.inr ⟨x, hx, rfl⟩))) rfl, perr]
    unfold RangeOdd
    constructor
    · rintro ⟨⟨h1, h2⟩, h3⟩
      exact ⟨h1, h2, h3.imp id fun h => ⟨h.1, (fun e => by cases e),
        fun _ => (rangeForall_top h1).mp h.2⟩⟩
    · rintro ⟨h1, h2, h3⟩
      exact ⟨⟨h1, h2⟩, h3.imp id fun h => ⟨h.1, (rangeForall_top h1).mpr (h.2.2 ⟨x, rfl⟩)⟩⟩

/-- A range of an array-backed bitfield beginning at bit 3 whose end overflows panics without
overflow checks too. -/
example (s : Store) (hs : s.HasBacking Ex.A.backing) (m : Mode) :
    ∃ p, call m Ex.A (.getRange 3 4294967295) s = .error p :=
  (C34_range_panics_iff m Ex.wfA Ex.supportedA (by decide) (by decide) (.inl rfl) s hs).mpr
    ⟨by decide, .inl (by decide), .inr ⟨⟨_, rfl⟩, (fun h => by cases h), fun ⟨_, h⟩ => by cases h⟩⟩

/-- **C34** (all calls). Every panic of a generated method is either a panic of the user's own
`from_bits` or the panic of one of the ranges of `C34_range_panics_iff`. -/
theorem C34_panic_sources (m : Mode) (hB : WF B) (hS : Supported B) {c : Call} (hc : c.Typed B)
    (s : Store) (hs : s.HasBacking B.backing) {p : Panic} (h : call m B c s = .error p) :
    (∃ f ∈ B.fields, ∃ cd, f.ty = .custom cd ∧ ∃ n < 2 ^ f.bits, cd.fromBits n = .error p) ∨
    ∃ o l, c.IsRange B o l ∧ o < B.backing.size ∧
      (2 ^ 32 ≤ o + l ∨ l = 0 ∧ ∃ w, B.backing = .int w) := by
  by_cases ho : c.OddRange B
  · right
    cases c with
    | getRange o l => exact ⟨o, l, .inl rfl, ho⟩
    | checkedGetRange o l => exact ⟨o, l, .inr (.inl rfl), ho⟩
    | setRange o l x => exact ⟨o, l, .inr (.inr (.inl ⟨x, hc.2.2, rfl⟩)), ho⟩
    | checkedSetRange o l x => exact ⟨o, l, .inr (.inr (.inr ⟨x, hc.2.2, rfl⟩)), ho⟩
    | _ => cases ho
  · exact .inl (C34_no_panic_partial m hB hS hc ho s hs h)

/-- **C26** (the remaining arguments, no overflow checks). On an integer-backed bitfield a range
read of length 0, or whose end overflows, is the read from the offset to the top. -/
theorem C26_odd_release (hB : WF B) {w o l : Nat} (hb : B.backing = .int w) (ho : o < w)
    (hl : l < 2 ^ 32) (h : 2 ^ 32 ≤ o + l ∨ l = 0) (v : BitVec w) :
    apiGetRange .wrapping B (.int w v) o l = apiGetRange .wrapping B (.int w v) o (w - o) ∧
    apiCheckedGetRange .wrapping B (.int w v) o l =
      apiCheckedGetRange .wrapping B (.int w v) o (w - o) := by
  have hw : w ≤ 128 := by have := hB.backing; rw [hb] at this; simp only [Backing.OK] at this; omega
  exact ⟨apiGetRange_odd_int hb hw ho hl h v, apiCheckedGetRange_odd_int hb hw ho hl h v⟩

/-- **C27** (the remaining arguments, no overflow checks). On an integer-backed bitfield a range
write of length 0, or whose end overflows, is the write from the offset to the top. -/
theorem C27_odd_release (hB : WF B) {w o l : Nat} (hb : B.backing = .int w) (ho : o < w)
    (hl : l < 2 ^ 32) (h : 2 ^ 32 ≤ o + l ∨ l = 0) (v x : BitVec w) :
    apiSetRange .wrapping B (.int w v) o l (.int w x) =
      apiSetRange .wrapping B (.int w v) o (w - o) (.int w x) ∧
    apiCheckedSetRange .wrapping B (.int w v) o l (.int w x) =
      apiCheckedSetRange .wrapping B (.int w v) o (w - o) (.int w x) := by
  have hw : w ≤ 128 := by have := hB.backing; rw [hb] at this; simp only [Backing.OK] at this; omega
  exact ⟨apiSetRange_odd_int hb hw ho hl h v x, apiCheckedSetRange_odd_int hb hw ho hl h v x⟩

example (v x : BitVec 16) : apiSetRange .wrapping Ex.I (.int 16 v) 2 0 (.int 16 x) =
    apiSetRange .wrapping Ex.I (.int 16 v) 2 14 (.int 16 x) :=
  (C27_odd_release Ex.wfI rfl (by decide) (by decide) (.inr rfl) v x).1

end Bf
