import Verif.Props.Hidden

/-!
# No panics, no dependence on overflow checks (C34); refinement of histories (C36); `Debug` (C44)
-/

namespace Bf

variable {B : Bitfield} {f : Field}

/-- A range call whose arguments the generated code does not handle: the offset is inside the
bitfield and `offset + length` overflows `u32`, or the length is 0 on an integer-backed
bitfield. See `Props/Findings.lean`. -/
def Call.OddRange (B : Bitfield) : Call → Prop
  | .getRange o l | .checkedGetRange o l | .setRange o l _ | .checkedSetRange o l _ =>
    RangeOdd B.backing o l
  | _ => False

/-- A well-typed call that is not an odd range is in the domain of the refinement, or is a
checked setter. -/
theorem typed_valid {c : Call} (hc : c.Typed B) (ho : ¬ c.OddRange B) :
    c.Valid B ∨ ∃ f v, c = .checkedSet f v := by
  cases c with
  | checkedSet f v => exact .inr ⟨f, v, rfl⟩
  | getRange o l => exact .inl ((rangeOK_or_odd B.backing o l).resolve_right ho)
  | checkedGetRange o l => exact .inl ((rangeOK_or_odd B.backing o l).resolve_right ho)
  | setRange o l x => exact .inl ⟨(rangeOK_or_odd B.backing o l).resolve_right ho, hc.2.2⟩
  | checkedSetRange o l x => exact .inl ⟨(rangeOK_or_odd B.backing o l).resolve_right ho, hc.2.2⟩
  | get f => exact .inl hc
  | inverted f => exact .inl hc
  | set f v => exact .inl hc
  | clearField f => exact .inl hc
  | clearFieldToDefault f => exact .inl hc
  | invertField f => exact .inl hc
  | getBit o => exact .inl trivial
  | checkedGetBit o => exact .inl trivial
  | setBit o b => exact .inl trivial
  | checkedSetBit o b => exact .inl trivial
  | into e => exact .inl trivial
  | intoTrait => exact .inl trivial
  | intoSlice e sl => exact .inl hc
  | checkedIntoSlice e sl => exact .inl hc
  | write e d x => exact .inl hc
  | writeDefaults => exact .inl trivial
  | clear d => exact .inl trivial
  | invert => exact .inl trivial
  | debug => exact .inl trivial

theorem settle_err (hf : f ∈ B.fields) {v : Val} {p : Panic} (h : settle f v = .error p) :
    UserPanic B p := by
  unfold settle at h
  split at h
  · rename_i c code hty
    exact ⟨f, hf, c, hty, _, natOf_lt _ _, Rmap_err h⟩
  · cases h

/-- **C34** (one call). The only panics that can escape from a method are those of the user's own
`from_bits` on a pattern of the field's width, in both overflow modes, for all arguments
rustc accepts except odd ranges. (Missing for the full claim: odd ranges, and the array and
custom fields excluded by `Supported`; both do panic, see `Props/Findings.lean`.) -/
theorem C34_no_panic_partial (m : Mode) (hB : WF B) (hS : Supported B) {c : Call} (hc : c.Typed B)
    (ho : ¬ c.OddRange B) (s : Store) (hs : s.HasBacking B.backing) {p : Panic}
    (h : call m B c s = .error p) :
    ∃ f ∈ B.fields, ∃ cd, f.ty = .custom cd ∧ ∃ n < 2 ^ f.bits, cd.fromBits n = .error p := by
  obtain ⟨g, rfl⟩ := Store.cases_ofBits hs
  rcases typed_valid hc ho with hv | ⟨f, v, rfl⟩
  · rw [call_refines m hB hS c hv] at h
    exact specCall_err hv (Rmap_err h)
  · obtain ⟨hf, hw, hty⟩ := hc
    simp only [call, checkedSet_eq m hB.backing (hB.field f hf) (hS.field f hf) hty] at h
    rcases Rbind_err h with h | ⟨_, _, h⟩
    · split at h
      · cases h
      · exact settle_err hf (Rmap_err h)
    · cases h

/-- **C34** (histories). If the user's `from_bits` functions never panic on patterns of their field's
width, no history panics. -/
theorem C34_history_partial (m : Mode) (hB : WF B) (hS : Supported B)
    (hT : ∀ f ∈ B.fields, ∀ cd, f.ty = .custom cd → cd.Total f.bits) (cs : List Call)
    (hc : ∀ c ∈ cs, c.Typed B) (ho : ∀ c ∈ cs, ¬ c.OddRange B) (s : Store)
    (hs : s.HasBacking B.backing) :
    ∃ os s', history m B cs s = .ok (os, s') ∧ s'.HasBacking B.backing ∧ os.length = cs.length := by
  induction cs generalizing s with
  | nil => exact ⟨[], s, rfl, hs, rfl⟩
  | cons c cs ih =>
    have htc := hc c List.mem_cons_self
    cases h : call m B c s with
    | error p =>
      obtain ⟨f, hf, cd, hty, n, hn, e⟩ :=
        C34_no_panic_partial m hB hS htc (ho c List.mem_cons_self) s hs h
      obtain ⟨code, e'⟩ := hT f hf cd hty n hn
      rw [e] at e'; cases e'
    | ok r =>
      obtain ⟨o, s1⟩ := r
      obtain ⟨os, s', h1, h2, h3⟩ := ih (fun c hc' => hc c (List.mem_cons_of_mem _ hc'))
        (fun c hc' => ho c (List.mem_cons_of_mem _ hc')) s1 (call_ok_backing m hB hS htc hs h)
      refine ⟨o :: os, s', ?_, h2, by simp [h3]⟩
      simp only [history, h, R_bind_ok, h1]
      rfl

/-- **C34** (overflow checks). A call does the same with overflow checks on or off. -/
theorem C34_mode_independent_partial (hB : WF B) (hS : Supported B) {c : Call} (hc : c.Typed B)
    (ho : ¬ c.OddRange B) (s : Store) (hs : s.HasBacking B.backing) :
    call .checked B c s = call .wrapping B c s := by
  obtain ⟨g, rfl⟩ := Store.cases_ofBits hs
  rcases typed_valid hc ho with hv | ⟨f, v, rfl⟩
  · rw [call_refines .checked hB hS c hv, call_refines .wrapping hB hS c hv]
  · obtain ⟨hf, hw, hty⟩ := hc
    simp only [call, checkedSet_eq _ hB.backing (hB.field f hf) (hS.field f hf) hty]

/-- **C34** (overflow checks, histories). -/
theorem C34_history_mode_independent_partial (hB : WF B) (hS : Supported B) (cs : List Call)
    (hc : ∀ c ∈ cs, c.Typed B) (ho : ∀ c ∈ cs, ¬ c.OddRange B) (s : Store)
    (hs : s.HasBacking B.backing) : history .checked B cs s = history .wrapping B cs s := by
  induction cs generalizing s with
  | nil => rfl
  | cons c cs ih =>
    have htc := hc c List.mem_cons_self
    simp only [history]
    rw [← C34_mode_independent_partial hB hS htc (ho c List.mem_cons_self) s hs]
    cases h : call .checked B c s with
    | error p => rfl
    | ok r =>
      obtain ⟨o, s1⟩ := r
      simp only [R_bind_ok]
      rw [ih (fun c hc' => hc c (List.mem_cons_of_mem _ hc'))
        (fun c hc' => ho c (List.mem_cons_of_mem _ hc')) s1 (call_ok_backing .checked hB hS htc hs h)]

theorem setImpl_any (m : Mode) (hB : WF B) (hS : Supported B) (hf : f ∈ B.fields) {v : Val}
    (hv : HasType f.ty v) (check : Bool) (g : Bits) :
    setImpl m check f (Store.ofBits B.backing g) v =
      if check && codeTooBig B.backing f v then .ok (.error errTooBig, Store.ofBits B.backing g)
      else (settle f v).map
        (fun v' => (.ok (), Store.ofBits B.backing (overwrite f (encode f.ty v') g))) := by
  cases check with
  | true =>
    simp only [Bool.true_and]
    exact checkedSet_eq m hB.backing (hB.field f hf) (hS.field f hf) hv g
  | false =>
    have h := setX_eq m hB.backing (hB.field f hf) (hS.field f hf) hv g
    simp only [setX, setImpl, Bool.false_and, Bool.false_eq_true, if_false] at h ⊢
    cases h1 : extractCast m f (Store.ofBits B.backing g) v with
    | error p => rw [h1] at h; cases hst : settle f v <;> rw [hst] at h <;> cases h; rfl
    | ok r =>
      rw [h1] at h
      simp only [R_bind_ok] at h ⊢
      cases h2 : valueVar f r.2 with
      | error p => rw [h2] at h; cases hst : settle f v <;> rw [hst] at h <;> cases h; rfl
      | ok x =>
        rw [h2] at h
        simp only [R_bind_ok] at h ⊢
        cases h3 : directSet m f (Store.ofBits B.backing g) x with
        | error p => rw [h3] at h; cases hst : settle f v <;> rw [hst] at h <;> cases h; rfl
        | ok s' => rw [h3] at h; cases hst : settle f v <;> rw [hst] at h <;> cases h; rfl

theorem builderRun_safe (hB : WF B) (hS : Supported B) (cs : List BuilderCall)
    (hc : ∀ c ∈ cs, c.f ∈ B.fields ∧ c.f.reserved = false ∧ HasType c.f.ty c.v) (g : Bits) :
    builderRun .checked cs (Store.ofBits B.backing g) =
      builderRun .wrapping cs (Store.ofBits B.backing g) ∧
    ∀ p, builderRun .checked cs (Store.ofBits B.backing g) = .error p → UserPanic B p := by
  induction cs generalizing g with
  | nil => exact ⟨rfl, fun p h => by cases h⟩
  | cons c cs ih =>
    obtain ⟨hf, _, hv⟩ := hc c List.mem_cons_self
    have ih := ih (fun c hc' => hc c (List.mem_cons_of_mem _ hc'))
    simp only [builderRun, C16_with _ c.check c.f hv, setImpl_any _ hB hS hf hv]
    by_cases ht : (c.check && codeTooBig B.backing c.f c.v) = true
    · simp only [ht, if_true]
      exact ⟨rfl, fun p h => by cases h⟩
    · simp only [if_neg ht]
      cases hst : settle c.f c.v with
      | error p => exact ⟨rfl, fun q h => by cases h; exact settle_err hf hst⟩
      | ok v' => exact ih _

theorem newBody_safe (hB : WF B) (hS : Supported B) (d : Bool) :
    newBody .checked B d (initStore B) = newBody .wrapping B d (initStore B) ∧
    (∀ p, newBody .checked B d (initStore B) = .error p → UserPanic B p) ∧
    ∀ s, newBody .checked B d (initStore B) = .ok s → s.HasBacking B.backing := by
  rw [initStore_eq, newBody_bits .checked hB hS, newBody_bits .wrapping hB hS]
  refine ⟨rfl, fun p h => specCall_err (c := .clear d) trivial (Rmap_err (Rmap_err h)), fun s h => ?_⟩
  obtain ⟨g, _, rfl⟩ := Rmap_ok h
  exact Store.hasBacking_ofBits _ _

/-- **C34** (constructors and conversions). Constructors, `default()`, builders and every `from_*` have
the same result with overflow checks on or off and let only panics of the user's own
`from_bits` escape. -/
theorem C34_origin_partial (hB : WF B) (hS : Supported B) (og : Origin) (hog : og.Typed B) :
    og.run .checked B = og.run .wrapping B ∧
    ∀ p, og.run .checked B = .error p →
      ∃ f ∈ B.fields, ∃ cd, f.ty = .custom cd ∧ ∃ n < 2 ^ f.bits, cd.fromBits n = .error p := by
  have fromE : ∀ (e : Endian) (g : Bits),
      apiFromE .checked B e (Store.ofBits B.backing g) =
        apiFromE .wrapping B e (Store.ofBits B.backing g) ∧
      apiFromEDefaults .checked B e (Store.ofBits B.backing g) =
        apiFromEDefaults .wrapping B e (Store.ofBits B.backing g) ∧
      (∀ p, apiFromE .checked B e (Store.ofBits B.backing g) = .error p → UserPanic B p) ∧
      ∀ p, apiFromEDefaults .checked B e (Store.ofBits B.backing g) = .error p → UserPanic B p := by
    intro e g
    have e1 : ∀ m, apiFromE m B e (Store.ofBits B.backing g) =
        (storeAll (B.fields.filter fun _ => true) (fun f => absorb f fun i =>
          revIf (convReverses B.backing e) B.backing.bytes g (f.offset + i)) fun _ => false).map
          (Store.ofBits B.backing) := by
      intro m
      unfold apiFromE
      rw [fromConv_bits hB.backing, initStore_eq]
      simp only [R_bind_ok]
      rw [setAllFromSource_bits m hB hS]
      rfl
    have e2 : ∀ m, apiFromEDefaults m B e (Store.ofBits B.backing g) =
        ((storeAll (B.fields.filter fun _ => true) (fun f => absorb f fun i =>
          revIf (convReverses B.backing e) B.backing.bytes g (f.offset + i)) fun _ => false) >>=
          defaultsAll B).map (Store.ofBits B.backing) := by
      intro m
      have := e1 m
      unfold apiFromE at this
      unfold apiFromEDefaults
      rw [fromConv_bits hB.backing] at this ⊢
      simp only [R_bind_ok] at this ⊢
      rw [this]
      cases storeAll (B.fields.filter fun _ => true) (fun f => absorb f fun i =>
          revIf (convReverses B.backing e) B.backing.bytes g (f.offset + i)) fun _ => false with
      | error p => rfl
      | ok g1 => exact setDefaults_bits m hB hS g1
    have p1 : ∀ p, storeAll (B.fields.filter fun _ => true) (fun f => absorb f fun i =>
        revIf (convReverses B.backing e) B.backing.bytes g (f.offset + i)) (fun _ => false) =
        .error p → UserPanic B p := by
      intro p h
      obtain ⟨f, hf, h⟩ := storeAll_err h
      exact absorb_err (List.mem_filter.mp hf).1 h
    rw [e1, e1, e2, e2]
    refine ⟨rfl, rfl, fun p h => p1 p (Rmap_err h), fun p h => ?_⟩
    rcases Rbind_err (Rmap_err h) with h | ⟨g1, _, h⟩
    · exact p1 p h
    · exact defaultsAll_err h
  cases hfr : og.isFresh with
  | false =>
    have hrun : ∀ m, og.run m B = og.run m B := fun _ => rfl
    cases og with
    | new => cases hfr
    | newWithoutDefaults => cases hfr
    | default g => cases hfr
    | builder g d cs => cases hfr
    | «from» e d x =>
      obtain ⟨g, rfl⟩ := Store.cases_ofBits (show x.HasBacking B.backing from hog)
      obtain ⟨h1, h2, h3, h4⟩ := fromE (e.getD B.fromEndian) g
      cases e <;> cases d
      all_goals
        simp only [Origin.run, apiFrom, apiFromDefaults]
        first
        | (refine ⟨congrArg _ h1, fun p h => h3 p (Rmap_err h)⟩)
        | (refine ⟨congrArg _ h2, fun p h => h4 p (Rmap_err h)⟩)
    | fromTrait x =>
      simp only [Origin.run, (C18_from_traits _ B x hog).1]
      obtain ⟨g, rfl⟩ := Store.cases_ofBits (show x.HasBacking B.backing from hog)
      obtain ⟨h1, h2, h3, h4⟩ := fromE B.fromEndian g
      exact ⟨congrArg _ h1, fun p h => h3 p (Rmap_err h)⟩
    | fromSlice e d sl =>
      obtain ⟨n, hn⟩ := hog
      have hb : (Store.arr (padTo n sl)).HasBacking B.backing := by rw [hn]; exact length_padTo n sl
      obtain ⟨g, hg⟩ := Store.cases_ofBits hb
      obtain ⟨h1, h2, h3, h4⟩ := fromE (e.getD B.fromEndian) g
      rw [← hg] at h1 h2 h3 h4
      cases d
      · simp only [Origin.run, (C20_from_slice _ hn _ sl).1]
        exact ⟨congrArg _ h1, fun p h => h3 p (Rmap_err h)⟩
      · simp only [Origin.run, (C20_from_slice _ hn _ sl).2]
        exact ⟨congrArg _ h2, fun p h => h4 p (Rmap_err h)⟩
    | checkedFromSlice e d sl =>
      obtain ⟨n, hn⟩ := hog
      by_cases hl : sl.length < n
      · simp only [Origin.run, (C20_checked_from_slice _ hn _ d sl).1 hl]
        exact ⟨trivial, fun p h => by cases h⟩
      · have hb : (Store.arr (padTo n sl)).HasBacking B.backing := by rw [hn]; exact length_padTo n sl
        obtain ⟨g, hg⟩ := Store.cases_ofBits hb
        obtain ⟨h1, h2, h3, h4⟩ := fromE (e.getD B.fromEndian) g
        rw [← hg] at h1 h2 h3 h4
        simp only [Origin.run, (C20_checked_from_slice _ hn _ d sl).2 (by omega)]
        cases d
        · simp only [(C20_from_slice _ hn _ sl).1]
          exact ⟨congrArg _ h1, fun p h => h3 p (Rmap_err h)⟩
        · simp only [(C20_from_slice _ hn _ sl).2]
          exact ⟨congrArg _ h2, fun p h => h4 p (Rmap_err h)⟩
  | true =>
    cases og with
    | new =>
      obtain ⟨h1, h2, _⟩ := newBody_safe hB hS true
      exact ⟨congrArg (Except.map Except.ok) h1, fun p h => h2 p (Rmap_err h)⟩
    | newWithoutDefaults =>
      obtain ⟨h1, h2, _⟩ := newBody_safe hB hS false
      exact ⟨congrArg (Except.map Except.ok) h1, fun p h => h2 p (Rmap_err h)⟩
    | default genNew =>
      cases genNew with
      | true =>
        obtain ⟨h1, h2, _⟩ := newBody_safe hB hS true
        exact ⟨congrArg (Except.map Except.ok) h1, fun p h => h2 p (Rmap_err h)⟩
      | false =>
        simp only [Origin.run, apiDefault, Bool.false_eq_true, if_false]
        rw [initStore_eq, setDefaults_bits .checked hB hS, setDefaults_bits .wrapping hB hS]
        exact ⟨rfl, fun p h => defaultsAll_err (Rmap_err (Rmap_err h))⟩
    | builder genNew d cs =>
      have e : ∀ m, builderNew m B genNew d = newBody m B d (initStore B) := by
        intro m; unfold builderNew; cases genNew <;> cases d <;> rfl
      obtain ⟨h1, h2, h3⟩ := newBody_safe hB hS d
      simp only [Origin.run, e, ← h1]
      cases h : newBody .checked B d (initStore B) with
      | error p => exact ⟨rfl, fun q hq => by cases hq; exact h2 p h⟩
      | ok s =>
        obtain ⟨g, rfl⟩ := Store.cases_ofBits (h3 s h)
        exact builderRun_safe hB hS cs hog g
    | «from» _ _ _ => cases hfr
    | fromTrait _ => cases hfr
    | fromSlice _ _ _ => cases hfr
    | checkedFromSlice _ _ _ => cases hfr

example (m : Mode) (v : BitVec 16) :
    ∃ os s', history m Ex.I [.set Ex.a (.int 200), .checkedSet Ex.a (.int 200), .setRange 2 99 (.int 16 v),
      .invert, .getBit 4294967295] (.int 16 v) = .ok (os, s') := by
  have key := C34_history_partial m Ex.wfI Ex.supportedI
    (fun f hf cd hcd n hn => (Ex.lawfulI f hf cd hcd n hn).imp fun _ h => h.1)
    [.set Ex.a (.int 200), .checkedSet Ex.a (.int 200), .setRange 2 99 (.int 16 v),
      .invert, .getBit 4294967295]
    (by simp [Call.Typed, Ex.I, HasType, Ex.a, Field.isWritable, IntTy.unsigned, IntTy.bitSize,
      Store.HasBacking])
    (by simp [Call.OddRange, RangeOdd, Ex.I, Backing.size]) (.int 16 v) rfl
  obtain ⟨os, s', h, _⟩ := key
  exact ⟨os, s', h⟩

/-! ## C36 -/

/-- **C36** (general). Every history behaves as the abstract machine of `Machine.lean` on the sequence of
bits: same results, same final bits, same panics. (Missing for the full claim: odd ranges and
the checked-setter arguments excluded by `CheckExact`, where the code does something else.) -/
theorem C36_refines_partial (m : Mode) (hB : WF B) (hS : Supported B) (cs : List Call)
    (hc : ∀ c ∈ cs, c.Valid B) (s : Store) (hs : s.HasBacking B.backing) :
    history m B cs s = (specHistory B cs s.bit).map fun p => (p.1, Store.ofBits B.backing p.2) := by
  rw [← history_refines m hB hS cs hc, Store.ofBits_bit hs]

theorem effect_congr {c : Call} {g g' : Bits} {i : Nat} (h : g i = g' i) :
    effect B c g i = effect B c g' i := by
  cases c
  case write e d x => cases d <;> simp only [effect, h]
  case clear d => cases d <;> simp only [effect]
  case checkedSet f v => simp only [effect]; split <;> simp only [overwrite, h]
  all_goals simp only [effect, overwrite, h]

theorem effects_congr (cs : List Call) {g g' : Bits} {i : Nat} (h : g i = g' i) :
    cs.foldl (fun g c => effect B c g) g i = cs.foldl (fun g c => effect B c g) g' i := by
  induction cs generalizing g g' with
  | nil => exact h
  | cons c cs ih => exact ih (effect_congr h)

/-- **C36** (effects). With lawful custom types (in particular without custom fields) no history
panics, and its final bits are those of applying the one-line effect of each call in turn. -/
theorem C36_effects_partial (m : Mode) (hB : WF B) (hS : Supported B) (hL : Lawful B)
    (cs : List Call) (hc : ∀ c ∈ cs, c.Valid B) (s : Store) (hs : s.HasBacking B.backing) :
    ∃ os s', history m B cs s = .ok (os, s') ∧ s'.HasBacking B.backing ∧
      (∃ g, specHistory B cs s.bit = .ok (os, g)) ∧
      ∀ i < B.backing.size, s'.bit i = cs.foldl (fun g c => effect B c g) s.bit i := by
  have key : ∀ (cs : List Call), (∀ c ∈ cs, c.Valid B) → ∀ g : Bits,
      ∃ os g', specHistory B cs g = .ok (os, g') ∧
        ∀ i < B.backing.size, g' i = cs.foldl (fun g c => effect B c g) g i := by
    intro cs
    induction cs with
    | nil => exact fun _ g => ⟨[], g, rfl, fun _ _ => rfl⟩
    | cons c cs ih =>
      intro hc g
      have hcv := hc c List.mem_cons_self
      cases h : specCall B c g with
      | error p =>
        obtain ⟨f, hf, cd, hty, n, hn, e⟩ := specCall_err hcv h
        obtain ⟨code, e', _⟩ := hL f hf cd hty n hn
        rw [e] at e'; cases e'
      | ok r =>
        obtain ⟨o, g1⟩ := r
        obtain ⟨os, g', h1, h2⟩ := ih (fun c hc' => hc c (List.mem_cons_of_mem _ hc')) g1
        refine ⟨o :: os, g', ?_, fun i hi => ?_⟩
        · simp only [specHistory, h, R_bind_ok, h1]; rfl
        · rw [h2 i hi, List.foldl_cons]
          exact effects_congr cs (specCall_effect hB hL hcv h hi)
  obtain ⟨os, g', h1, h2⟩ := key cs hc s.bit
  refine ⟨os, Store.ofBits B.backing g', ?_, Store.hasBacking_ofBits _ _, ⟨g', h1⟩, fun i hi => ?_⟩
  · rw [C36_refines_partial m hB hS cs hc s hs, h1]; rfl
  · rw [Store.bit_ofBits_lt hi, h2 i hi]

example (m : Mode) (v : BitVec 16) :
    ∃ os s', history m Ex.I [.invert, .setBit 4 true, .clear false] (.int 16 v) = .ok (os, s') ∧
      s'.bit 4 = false ∧ s'.bit 11 = true := by
  obtain ⟨os, s', h, _, _, he⟩ := C36_effects_partial m Ex.wfI Ex.supportedI Ex.lawfulI
    [.invert, .setBit 4 true, .clear false] (by simp [Call.Valid]) (.int 16 v) rfl
  refine ⟨os, s', h, ?_, ?_⟩
  · rw [he 4 (by decide)]; rfl
  · rw [he 11 (by decide)]; rfl

/-! ## C44 -/

/-- **C44.** The `Debug` output: every field once, in declaration order, under its name, as the number
formed by its stored bits; byte-array fields of array-backed bitfields as their bytes. -/
theorem C44_debug (m : Mode) (hB : WF B) (hS : Supported B) (s : Store)
    (hs : s.HasBacking B.backing) :
    ∃ out, apiDebug m B s = .ok out ∧ out.length = B.fields.length ∧
      ∀ (k : Nat) (f : Field), B.fields[k]? = some f →
        (∀ n len, B.backing = .arr n → f.ty = .array len →
          out[k]? = some (f.name, .arr (bytesOf len fun i => decide (i < f.bits) && s.bit (f.offset + i)))) ∧
        ((∀ len, f.ty ≠ .array len) ∨ (∃ w, B.backing = .int w) →
          out[k]? = some (f.name, .int (natOf f.bits fun i => s.bit (f.offset + i)))) := by
  obtain ⟨g, rfl⟩ := Store.cases_ofBits hs
  refine ⟨_, apiDebug_ok m hB hS g, by simp, fun k f hk => ?_⟩
  have hf : f ∈ B.fields := List.mem_of_getElem? hk
  have e : ∀ i < f.bits, (Store.ofBits B.backing g).bit (f.offset + i) = g (f.offset + i) :=
    fun i hi => Store.bit_ofBits_lt (hB.add_lt hf hi)
  have e1 : (fun i => decide (i < f.bits) && (Store.ofBits B.backing g).bit (f.offset + i)) =
      fun i => decide (i < f.bits) && f.bitsOf g i := by
    funext i
    by_cases hi : i < f.bits
    · rw [e i hi]; rfl
    · simp [hi]
  have e2 : natOf f.bits (fun i => (Store.ofBits B.backing g).bit (f.offset + i)) =
      natOf f.bits (f.bitsOf g) := natOf_congr e
  rw [List.getElem?_map, hk, e1, e2]
  refine ⟨fun n len h1 h2 => ?_, fun h => ?_⟩
  · simp only [Option.map_some, debugVal, h1, h2]
  · simp only [Option.map_some, debugVal]
    rcases h with h | ⟨w, h⟩
    · split
      · rename_i len _ hty; exact absurd hty (h len)
      · rfl
    · rw [h]

example (m : Mode) (v : BitVec 16) : ∃ out, apiDebug m Ex.I (.int 16 v) = .ok out ∧
    out.length = 6 ∧ out[1]? = some ("b", .int (natOf 3 fun i => v.getLsbD (4 + i))) := by
  obtain ⟨out, h1, h2, h3⟩ := C44_debug m Ex.wfI Ex.supportedI (.int 16 v) rfl
  exact ⟨out, h1, h2, (h3 1 Ex.b rfl).2 (.inr ⟨16, rfl⟩)⟩

end Bf
