import Verif.Lemmas.Refine

namespace Bf

/-! ## Out-of-range arguments -/

theorem apiSetRange_out (m : Mode) {B : Bitfield} {o l : Nat} (s x : Store)
    (h : o < B.backing.size → o + l < 2 ^ 32) (hout : B.backing.size ≤ o ∨ B.backing.size < o + l) :
    apiSetRange m B s o l x = .ok s := by
  unfold apiSetRange
  by_cases ho : o ≥ B.backing.size
  · rw [if_pos ho]
  · rw [if_neg ho, addU32_ok m (h (by omega))]
    simp only [R_bind_ok]
    rw [if_pos (by omega)]
    rfl

theorem apiCheckedSetRange_out (m : Mode) {B : Bitfield} {o l : Nat} (s x : Store)
    (h : o < B.backing.size → o + l < 2 ^ 32) (hout : B.backing.size ≤ o ∨ B.backing.size < o + l) :
    apiCheckedSetRange m B s o l x =
      .ok (.error (if B.backing.size ≤ o then errOffset else errLength), s) := by
  unfold apiCheckedSetRange
  by_cases ho : o ≥ B.backing.size
  · rw [if_pos ho, if_pos ho]
  · rw [if_neg ho, addU32_ok m (h (by omega))]
    simp only [R_bind_ok]
    rw [if_pos (by omega), if_neg (by omega)]
    rfl

theorem apiGetRange_out (m : Mode) {B : Bitfield} {o l : Nat} (s : Store)
    (h : o < B.backing.size → o + l < 2 ^ 32) (hout : B.backing.size ≤ o ∨ B.backing.size < o + l) :
    apiGetRange m B s o l = .ok (Store.ofBits B.backing fun _ => false) := by
  unfold apiGetRange zeroStore
  rw [initStore_eq]
  by_cases ho : o ≥ B.backing.size
  · rw [if_pos ho]
  · rw [if_neg ho, addU32_ok m (h (by omega))]
    simp only [R_bind_ok]
    rw [if_pos (by omega)]
    rfl

theorem apiCheckedGetRange_out (m : Mode) {B : Bitfield} {o l : Nat} (s : Store)
    (h : o < B.backing.size → o + l < 2 ^ 32) (hout : B.backing.size ≤ o ∨ B.backing.size < o + l) :
    apiCheckedGetRange m B s o l =
      .ok (.error (if B.backing.size ≤ o then errOffset else errLength)) := by
  unfold apiCheckedGetRange
  by_cases ho : o ≥ B.backing.size
  · rw [if_pos ho, if_pos ho]
  · rw [if_neg ho, addU32_ok m (h (by omega))]
    simp only [R_bind_ok]
    rw [if_pos (by omega), if_neg (by omega)]
    rfl

theorem WF.writable_lt {B : Bitfield} (h : WF B) {i : Nat} (hw : B.writable i = true) :
    i < B.backing.size := by
  unfold Bitfield.writable at hw
  rw [List.any_eq_true] at hw
  obtain ⟨f, hf, hc⟩ := hw
  rw [Bool.and_eq_true] at hc
  exact h.covers_lt hf hc.1

theorem WF.readable_lt {B : Bitfield} (h : WF B) {i : Nat} (hw : B.readable i = true) :
    i < B.backing.size := by
  unfold Bitfield.readable at hw
  rw [List.any_eq_true] at hw
  obtain ⟨f, hf, hc⟩ := hw
  rw [Bool.and_eq_true] at hc
  exact h.covers_lt hf hc.1

/-! ## The refinement theorem for one call -/

/-- Carrying an abstract outcome over to stores. -/
def lift (b : Backing) (r : R (Out × Bits)) : R (Out × Store) :=
  r.map fun p => (p.1, Store.ofBits b p.2)

@[simp] theorem lift_ok (b : Backing) (o : Out) (g : Bits) :
    lift b (.ok (o, g)) = .ok (o, Store.ofBits b g) := rfl

theorem bind_unit_map {α : Type} (r : R α) (F : α → Store) :
    (do return (Out.unit, ← r.map F) : R (Out × Store)) = r.map fun y => (Out.unit, F y) := by
  cases r <;> rfl

theorem lift_map {α : Type} (b : Backing) (r : R α) (F : α → Out × Bits) :
    lift b (r.map F) = r.map fun y => ((F y).1, Store.ofBits b (F y).2) := by
  cases r <;> rfl

theorem mapM_ok {α β : Type} (l : List α) (F : α → R β) (G : α → β)
    (h : ∀ a ∈ l, F a = .ok (G a)) : l.mapM F = .ok (l.map G) := by
  induction l with
  | nil => rfl
  | cons a l ih =>
    rw [List.mapM_cons, h a (by simp), ih (fun x hx => h x (by simp [hx]))]
    rfl

theorem apiDebug_ok (m : Mode) {B : Bitfield} (h : WF B) (hs : Supported B) (g : Bits) :
    apiDebug m B (Store.ofBits B.backing g) =
      .ok (B.fields.map fun f => (f.name, debugVal B.backing f (f.bitsOf g))) := by
  unfold apiDebug
  apply mapM_ok
  intro f hf
  rw [extract_eq m h.backing (h.field f hf) (hs.field f hf)]
  simp only [R_bind_ok, Bool.xor_false]
  rfl

theorem apiWriteE_ok (m : Mode) {B : Bitfield} (h : WF B) (hs : Supported B) (e : Endian)
    (x g : Bits) :
    apiWriteE m B e (Store.ofBits B.backing x) (Store.ofBits B.backing g) =
      (storeAll (B.fields.filter Field.isWritable)
        (fun f => absorb f (f.bitsOf (writeEndianBits B.backing e x))) g).map
        (Store.ofBits B.backing) := by
  unfold apiWriteE
  rw [writeConv_bits h.backing]
  simp only [R_bind_ok]
  rw [setAllFromSource_bits m h hs, writeEndianBits_eq]
  rfl

theorem setDefaults_bits (m : Mode) {B : Bitfield} (h : WF B) (hs : Supported B) (g : Bits) :
    setDefaults m B (Store.ofBits B.backing g) =
      (defaultsAll B g).map (Store.ofBits B.backing) := by
  unfold setDefaults defaultsAll
  rw [setDefaultsOf_bits m h hs _ (fun _ hq => hq), storeAll_eq]
  have : (defaultPattern : Field → R Bits) = Field.defaultBits := funext defaultPattern_eq
  rw [this]
  rfl

theorem newBody_bits (m : Mode) {B : Bitfield} (h : WF B) (hs : Supported B) (d : Bool) (g : Bits) :
    newBody m B d (Store.ofBits B.backing g) =
      ((specCall B (.clear d) g).map Prod.snd).map (Store.ofBits B.backing) := by
  have hp : (defaultPattern : Field → R Bits) = Field.defaultBits := funext defaultPattern_eq
  unfold newBody
  rw [setZeros_bits m h hs]
  cases d with
  | true =>
    have hfil : (B.fields.filter fun f => !(true && f.hasDefault)) =
        B.fields.filter fun f => f.default.isNone := by
      apply List.filter_congr
      intro f _
      simp only [Bool.true_and, Field.hasDefault]
      cases f.default <;> rfl
    rw [hfil, storeAll_eq]
    simp only [specCall, if_true]
    cases storeAll (B.fields.filter fun f => f.default.isNone) (fun f => absorb f fun _ => false) g with
    | error p => rfl
    | ok g' =>
      simp only [Except.map, R_bind_ok, R_pure]
      rw [setDefaults_bits m h hs]
      cases defaultsAll B g' <;> rfl
  | false =>
    have hfil : (B.fields.filter fun f => !(false && f.hasDefault)) = B.fields := by
      rw [List.filter_eq_self]
      intro f _; rfl
    rw [hfil, storeAll_eq]
    simp only [specCall, Bool.false_eq_true, if_false]
    cases storeAll B.fields (fun f => absorb f fun _ => false) g with
    | error p => rfl
    | ok g' =>
      simp only [Except.map, R_bind_ok, R_pure]
      rw [setDefaultsOf_bits m h hs _ (fun f hq => (Bool.and_eq_true _ _ ▸ hq).2), storeAll_eq, hp]
      have : (B.fields.filter fun f => f.reserved && f.hasDefault) =
        (B.fields.filter fun f => f.reserved && f.default.isSome) := rfl
      rw [this]
      cases storeAll (B.fields.filter fun f => f.reserved && f.default.isSome) Field.defaultBits g' <;>
        rfl

theorem absorb_writable {f : Field} (h : f.isWritable = true) (x : Bits) :
    absorb f x = (roundTrip f x >>= roundTrip f) := by
  unfold absorb; rw [if_pos h]

theorem call_refines (m : Mode) {B : Bitfield} (h : WF B) (hs : Supported B) (c : Call)
    (hc : c.Valid B) (g : Bits) :
    call m B c (Store.ofBits B.backing g) = lift B.backing (specCall B c g) := by
  have hb := h.backing
  cases c with
  | get f =>
    obtain ⟨hf, _, _⟩ := hc
    simp only [call, specCall]
    rw [getX_eq m hb (h.field f hf) (hs.field f hf), lift_map]
    change (do return (Out.val (← decode f (f.bitsOf g)), _)) = _
    cases decode f (f.bitsOf g) <;> rfl
  | inverted f =>
    obtain ⟨hf, _, _⟩ := hc
    simp only [call, specCall]
    rw [invertedX_eq m hb (h.field f hf) (hs.field f hf), lift_map,
      decodeZ_eq (h.field f hf)]
    change (do return (Out.val (← decodeZ f fun i => !f.bitsOf g i), _)) = _
    cases decodeZ f fun i => !f.bitsOf g i <;> rfl
  | set f v =>
    obtain ⟨hf, _, hv⟩ := hc
    simp only [call, specCall]
    rw [setX_bits m hb (h.field f hf) (hs.field f hf) hv, bind_unit_map, lift_map]
  | checkedSet f v =>
    obtain ⟨hf, _, hv, hx⟩ := hc
    simp only [call, specCall]
    rw [checkedSet_bits m hb (h.field f hf) (hs.field f hf) hv, codeTooBig_eq hv hx]
    by_cases hfit : Fits f v
    · rw [if_pos hfit]
      simp only [hfit, decide_true, Bool.not_true, Bool.false_eq_true, if_false]
      cases roundTrip f (encode f.ty v) <;> rfl
    · rw [if_neg hfit]
      simp only [hfit, decide_false, Bool.not_false, if_true]
      rfl
  | clearField f =>
    obtain ⟨hf, _⟩ := hc
    simp only [call, specCall]
    rw [setZero_bits m hb (h.field f hf) (hs.field f hf), bind_unit_map, lift_map]
  | clearFieldToDefault f =>
    obtain ⟨hf, hw, hd⟩ := hc
    simp only [call, specCall]
    cases hdef : f.default with
    | none => rw [hdef] at hd; exact absurd hd (by decide)
    | some v =>
      rw [setDefault_bits m hb (h.field f hf) (hs.field f hf) hdef (hs.default f hf v hdef),
        bind_unit_map, lift_map]
      unfold Field.defaultBits
      rw [hdef]
      rfl
  | invertField f =>
    obtain ⟨hf, hw⟩ := hc
    simp only [call, specCall]
    rw [invertX_bits m hb (h.field f hf) (hs.field f hf), bind_unit_map, lift_map,
      absorb_writable hw]
    rfl
  | getBit o =>
    simp only [call, specCall, apiGetBit]
    by_cases ho : o ≥ B.backing.size
    · rw [if_pos ho]
      simp only [R_bind_ok, R_pure, lift_ok, decide_eq_false (Nat.not_lt.mpr ho), Bool.false_and]
    · rw [if_neg ho, guard_readable h (by omega)]
      simp only [decide_eq_true (Nat.lt_of_not_le ho), Bool.true_and]
      cases hr : B.readable o
      · rfl
      · simp only [Bool.not_true, Bool.false_eq_true, if_false]
        rw [readStoreBit_eq m g (by omega)]
        rfl
  | checkedGetBit o =>
    simp only [call, specCall, apiCheckedGetBit]
    by_cases ho : o ≥ B.backing.size
    · rw [if_pos ho, if_pos ho]; rfl
    · rw [if_neg ho, if_neg ho, guard_readable h (by omega)]
      cases hr : B.readable o
      · rfl
      · simp only [Bool.not_true, Bool.false_eq_true, if_false, if_true]
        rw [readStoreBit_eq m g (by omega)]
        rfl
  | setBit o b =>
    simp only [call, specCall, apiSetBit]
    by_cases ho : o ≥ B.backing.size
    · rw [if_pos ho]
      have : B.writable o = false := by
        cases hw : B.writable o
        · rfl
        · exact absurd (h.writable_lt hw) (by omega)
      simp only [this, Bool.false_eq_true, and_false, if_false]
      rfl
    · rw [if_neg ho, guard_writable h (by omega)]
      cases hr : B.writable o
      · simp only [Bool.not_false, if_true, Bool.false_eq_true, and_false, if_false]; rfl
      · simp only [Bool.not_true, Bool.false_eq_true, if_false, and_true]
        rw [putStoreBit_eq m g (by omega)]
        rfl
  | checkedSetBit o b =>
    simp only [call, specCall, apiCheckedSetBit]
    by_cases ho : o ≥ B.backing.size
    · rw [if_pos ho, if_pos ho]; rfl
    · rw [if_neg ho, if_neg ho, guard_writable h (by omega)]
      cases hr : B.writable o
      · rfl
      · simp only [Bool.not_true, Bool.false_eq_true, if_false, if_true]
        rw [putStoreBit_eq m g (by omega)]
        rfl
  | getRange o l =>
    simp only [call, specCall]
    by_cases hout : B.backing.size ≤ o ∨ B.backing.size < o + l
    · rw [apiGetRange_out m _ (fun ho => (hc ho).1) hout]
      simp only [R_bind_ok, R_pure, lift_ok]
      refine congrArg (fun k => Except.ok (Out.store k, _)) ?_
      apply Store.ofBits_congr
      intro i hi
      symm
      rcases hout with ho | ho
      · have : (decide (o + l ≤ B.backing.size) && decide (i < l)) = false := by
          simp only [Bool.and_eq_false_iff, decide_eq_false_iff_not]; omega
        rw [this]; rfl
      · have : decide (o + l ≤ B.backing.size) = false := decide_eq_false (by omega)
        rw [this]; rfl
    · rw [apiGetRange_ok m h g (by omega) (by omega)]
      · simp only [R_bind_ok, R_pure, lift_ok]
        refine congrArg (fun k => Except.ok (Out.store k, _)) ?_
        apply Store.ofBits_congr
        intro i hi
        simp only [rangeRead, decide_eq_true (by omega : o + l ≤ B.backing.size), Bool.true_and,
          Bool.and_assoc]
      · rintro ⟨w, hw⟩
        have := (hc (by omega)).2
        by_cases hl : l = 0
        · obtain ⟨n, hn⟩ := this hl
          rw [hw] at hn; cases hn
        · omega
  | checkedGetRange o l =>
    simp only [call, specCall]
    by_cases hout : B.backing.size ≤ o ∨ B.backing.size < o + l
    · rw [apiCheckedGetRange_out m _ (fun ho => (hc ho).1) hout]
      by_cases ho : B.backing.size ≤ o
      · rw [if_pos ho, if_pos ho]; rfl
      · rw [if_neg ho, if_neg ho, if_pos (by omega)]; rfl
    · rw [apiCheckedGetRange_ok m h g (by omega) (by omega)]
      · rw [if_neg (show ¬ B.backing.size ≤ o by omega),
          if_neg (show ¬ B.backing.size < o + l by omega)]
        have : rangeForall o l B.readable = rangeAll o l B.readable := rfl
        rw [this]
        cases rangeAll o l B.readable <;> rfl
      · rintro ⟨w, hw⟩
        have := (hc (by omega)).2
        by_cases hl : l = 0
        · obtain ⟨n, hn⟩ := this hl
          rw [hw] at hn; cases hn
        · omega
  | setRange o l x =>
    obtain ⟨hc, hx⟩ := hc
    simp only [call, specCall]
    by_cases hout : B.backing.size ≤ o ∨ B.backing.size < o + l
    · rw [apiSetRange_out m _ _ (fun ho => (hc ho).1) hout]
      simp only [R_bind_ok, R_pure, lift_ok]
      refine congrArg (fun k => Except.ok (Out.unit, k)) ?_
      apply Store.ofBits_congr
      intro i hi
      rw [if_neg]
      intro ⟨h1, h2, h3, _⟩
      omega
    · have hxx := Store.ofBits_bit hx
      rw [← hxx, apiSetRange_ok m h x.bit g (by omega) (by omega), hxx]
      · simp only [R_bind_ok, R_pure, lift_ok]
        refine congrArg (fun k => Except.ok (Out.unit, k)) ?_
        apply Store.ofBits_congr
        intro i hi
        simp only [rangeWrite]
        by_cases hin : inRange o l i = true ∧ B.writable i = true
        · have := inRange_iff.mp hin.1
          rw [if_pos (by rw [hin.1, hin.2]; rfl), if_pos ⟨by omega, this.1, this.2, hin.2⟩]
        · rw [if_neg (by rw [Bool.and_eq_true]; exact hin), if_neg]
          intro ⟨_, h2, h3, h4⟩
          exact hin ⟨inRange_iff.mpr ⟨h2, h3⟩, h4⟩
      · rintro ⟨w, hw⟩
        have := (hc (by omega)).2
        by_cases hl : l = 0
        · obtain ⟨n, hn⟩ := this hl
          rw [hw] at hn; cases hn
        · omega
  | checkedSetRange o l x =>
    obtain ⟨hc, hx⟩ := hc
    simp only [call, specCall]
    by_cases hout : B.backing.size ≤ o ∨ B.backing.size < o + l
    · rw [apiCheckedSetRange_out m _ _ (fun ho => (hc ho).1) hout]
      by_cases ho : B.backing.size ≤ o
      · rw [if_pos ho, if_pos ho]; rfl
      · rw [if_neg ho, if_neg ho, if_pos (by omega)]; rfl
    · have hxx := Store.ofBits_bit hx
      rw [← hxx, apiCheckedSetRange_ok m h x.bit g (by omega) (by omega), hxx]
      · rw [if_neg (show ¬ B.backing.size ≤ o by omega),
          if_neg (show ¬ B.backing.size < o + l by omega)]
        have : rangeForall o l B.writable = rangeAll o l B.writable := rfl
        rw [this]
        cases hall : rangeAll o l B.writable
        · rfl
        · simp only [if_true, R_bind_ok, R_pure, lift_ok, outRes]
          refine congrArg (fun k => Except.ok (Out.unit, k)) ?_
          apply Store.ofBits_congr
          intro i hi
          simp only [rangeWrite]
          by_cases hin : o ≤ i ∧ i < o + l
          · rw [if_pos hin, if_pos]
            rw [inRange_iff.mpr hin, rangeAll_iff.mp hall i hin.1 hin.2]; rfl
          · rw [if_neg hin, if_neg]
            rw [Bool.and_eq_true, inRange_iff]
            exact fun hh => hin hh.1
      · rintro ⟨w, hw⟩
        have := (hc (by omega)).2
        by_cases hl : l = 0
        · obtain ⟨n, hn⟩ := this hl
          rw [hw] at hn; cases hn
        · omega
  | into e =>
    cases e with
    | none =>
      simp only [call, specCall, apiInto, apiIntoE, intoConv_bits hb, endianBits_eq hb]
      rfl
    | some e =>
      simp only [call, specCall, apiIntoE, intoConv_bits hb, endianBits_eq hb]
      rfl
  | intoTrait =>
    simp only [call, specCall, apiTraitInto]
    rw [traitConv_eq _ (Store.hasBacking_ofBits _ _), fromConv_bits hb, endianBits_eq hb]
    rfl
  | intoSlice e sl =>
    obtain ⟨n, hn⟩ := hc
    have hsz : B.backing.size / 8 = n := by rw [hn]; simp only [Backing.size]; omega
    simp only [call, specCall]
    rw [apiIntoSlice_ok hn hb, hsz]
    rfl
  | checkedIntoSlice e sl =>
    obtain ⟨n, hn⟩ := hc
    have hsz : B.backing.size / 8 = n := by rw [hn]; simp only [Backing.size]; omega
    simp only [call, specCall]
    rw [apiCheckedIntoSlice_ok hn, hsz]
    by_cases hl : sl.length < n
    · rw [if_pos hl, if_pos hl]; rfl
    · rw [if_neg hl, if_neg hl]; rfl
  | write e d x =>
    have hx : x.HasBacking B.backing := hc
    have hxx := Store.ofBits_bit hx
    have key : ∀ e', (do return (Out.unit, ← if d then apiWriteEDefaults m B e' x (Store.ofBits B.backing g)
        else apiWriteE m B e' x (Store.ofBits B.backing g)) : R (Out × Store)) =
        lift B.backing (do
          let g ← storeAll (B.fields.filter Field.isWritable)
            (fun f => absorb f (f.bitsOf (writeEndianBits B.backing e' x.bit))) g
          let g ← if d then defaultsAll B g else .ok g
          return (.unit, g)) := by
      intro e'
      have hE : apiWriteEDefaults m B e' x (Store.ofBits B.backing g) =
        (apiWriteE m B e' x (Store.ofBits B.backing g) >>= setDefaults m B) := by
        unfold apiWriteEDefaults apiWriteE
        cases writeConv B e' x <;> rfl
      rw [hE]
      have hW := apiWriteE_ok m h hs e' x.bit g
      rw [hxx] at hW
      rw [hW]
      cases storeAll (B.fields.filter Field.isWritable)
            (fun f => absorb f (f.bitsOf (writeEndianBits B.backing e' x.bit))) g with
      | error p => cases d <;> rfl
      | ok g' =>
        cases d with
        | false => rfl
        | true =>
          simp only [if_true, Except.map, R_bind_ok]
          rw [setDefaults_bits m h hs]
          cases defaultsAll B g' <;> rfl
    cases e with
    | none =>
      cases d with
      | false => exact key B.writeEndian
      | true => exact key B.writeEndian
    | some e' =>
      cases d with
      | false => exact key e'
      | true => exact key e'
  | writeDefaults =>
    simp only [call, specCall, apiWriteDefaults]
    rw [setDefaults_bits m h hs, bind_unit_map]
    cases defaultsAll B g <;> rfl
  | clear d =>
    have key : (do return (Out.unit, ← newBody m B d (Store.ofBits B.backing g)) : R (Out × Store)) =
        lift B.backing (specCall B (.clear d) g) := by
      rw [newBody_bits m h hs]
      cases hsp : specCall B (.clear d) g with
      | error p => rfl
      | ok p =>
        have : p.1 = .unit := by
          cases d <;> simp only [specCall] at hsp
          · cases h1 : storeAll B.fields (fun f => absorb f fun _ => false) g with
            | error _ => rw [h1] at hsp; cases hsp
            | ok g' =>
              rw [h1] at hsp
              simp only [R_bind_ok] at hsp
              cases h2 : storeAll (B.fields.filter fun f => f.reserved && f.default.isSome)
                  Field.defaultBits g' with
              | error _ => rw [h2] at hsp; cases hsp
              | ok g'' => rw [h2] at hsp; cases hsp; rfl
          · cases h1 : storeAll (B.fields.filter fun f => f.default.isNone)
                (fun f => absorb f fun _ => false) g with
            | error _ => rw [h1] at hsp; cases hsp
            | ok g' =>
              rw [h1] at hsp
              simp only [R_bind_ok] at hsp
              cases h2 : defaultsAll B g' with
              | error _ => rw [h2] at hsp; cases hsp
              | ok g'' => rw [h2] at hsp; cases hsp; rfl
        obtain ⟨o, g'⟩ := p
        cases this
        rfl
    cases d with
    | false => exact key
    | true => exact key
  | invert =>
    simp only [call, specCall]
    rw [apiInvert_source m h, setAllFromSource_bits m h hs, bind_unit_map]
    have hfil : (B.fields.filter fun f => match Protection.none with
        | .readOnly => f.isWritable
        | .writeOnly => f.isReadable
        | .none => true) = B.fields := by
      rw [List.filter_eq_self]; intro f _; rfl
    rw [hfil, storeAll_eq]
    change (storeAll B.fields (fun f => absorb f (f.bitsOf fun i => if B.writable i = true then !g i else g i)) g).map _ = _
    cases storeAll B.fields (fun f => absorb f (f.bitsOf fun i => if B.writable i = true then !g i else g i)) g <;> rfl
  | debug =>
    simp only [call, specCall]
    rw [apiDebug_ok m h hs]
    rfl

theorem history_refines (m : Mode) {B : Bitfield} (h : WF B) (hs : Supported B) (cs : List Call)
    (hc : ∀ c ∈ cs, c.Valid B) (g : Bits) :
    history m B cs (Store.ofBits B.backing g) =
      (specHistory B cs g).map fun p => (p.1, Store.ofBits B.backing p.2) := by
  induction cs generalizing g with
  | nil => rfl
  | cons c cs ih =>
    simp only [history, specHistory]
    rw [call_refines m h hs c (hc c (by simp))]
    cases hsp : specCall B c g with
    | error p => rfl
    | ok p =>
      obtain ⟨o, g'⟩ := p
      simp only [lift_ok, R_bind_ok]
      rw [ih (fun c hc' => hc c (by simp [hc']))]
      cases specHistory B cs g' <;> rfl

end Bf
