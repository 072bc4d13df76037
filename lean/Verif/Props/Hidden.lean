import Verif.Props.History

/-!
# Unreadable bits cannot be observed (C33)
-/

namespace Bf

variable {B : Bitfield} {f : Field}

/-- Two values agree on every bit of every field with read access (`rw` or `ro`). They may
differ in write-only and no-access fields. -/
def SameReadable (B : Bitfield) (g1 g2 : Bits) : Prop :=
  ∀ f ∈ B.fields, f.access = .rw ∨ f.access = .ro →
    ∀ i < f.bits, g1 (f.offset + i) = g2 (f.offset + i)

theorem isReadable_iff : f.isReadable = true ↔ f.access = .rw ∨ f.access = .ro := by
  unfold Field.isReadable
  cases f.access <;> decide

theorem SameReadable.bit {g1 g2 : Bits} (h : SameReadable B g1 g2) {i : Nat}
    (hr : B.readable i = true) : g1 i = g2 i := by
  obtain ⟨f, hf, hc⟩ := List.any_eq_true.mp hr
  rw [Bool.and_eq_true] at hc
  obtain ⟨h1, h2⟩ := covers_iff.mp hc.1
  have := h f hf (isReadable_iff.mp hc.2) (i - f.offset) (by omega)
  rwa [show f.offset + (i - f.offset) = i by omega] at this

theorem SameReadable.of_bit (hB : WF B) {g1 g2 : Bits}
    (h : ∀ i < B.backing.size, B.readable i = true → g1 i = g2 i) : SameReadable B g1 g2 := by
  intro f hf ha i hi
  exact h _ (hB.add_lt hf hi) (by rw [hB.readable_eq hf (covers_add hi)]; exact isReadable_iff.mpr ha)

theorem decodeZ_congr {b : Backing} (hf : FieldOK b f) {x y : Bits}
    (h : ∀ i < f.bits, x i = y i) : decodeZ f x = decodeZ f y := by
  have hp := hf.pos
  have e : (fun i => decide (i < f.bits) && x i) = fun i => decide (i < f.bits) && y i := by
    funext i
    by_cases hi : i < f.bits
    · rw [h i hi]
    · simp [hi]
  unfold decodeZ
  rw [h 0 hp, natOf_congr h, e]

theorem roundTrip_agree {x y x' y' : Bits} (h : ∀ i < f.bits, x i = y i)
    (hx : roundTrip f x = .ok x') (hy : roundTrip f y = .ok y') : ∀ i < f.bits, x' i = y' i := by
  unfold roundTrip at hx hy
  cases hty : f.ty with
  | custom c =>
    rw [hty] at hx hy
    simp only [natOf_congr h] at hx hy
    rw [hx] at hy
    cases hy
    exact fun _ _ => rfl
  | int t => rw [hty] at hx hy; cases hx; cases hy; exact h
  | array n => rw [hty] at hx hy; cases hx; cases hy; exact h

theorem absorb_agree {x y x' y' : Bits} (h : ∀ i < f.bits, x i = y i)
    (hx : absorb f x = .ok x') (hy : absorb f y = .ok y') : ∀ i < f.bits, x' i = y' i := by
  unfold absorb at hx hy
  split at hx
  · rename_i hw
    rw [if_pos hw] at hy
    obtain ⟨x1, h1, h2⟩ := Rbind_ok hx
    obtain ⟨y1, h3, h4⟩ := Rbind_ok hy
    exact roundTrip_agree (roundTrip_agree h h1 h3) h2 h4
  · rename_i hw
    rw [if_neg hw] at hy
    exact roundTrip_agree h hx hy

theorem overwrite_same {y1 y2 g1 g2 : Bits} {i : Nat}
    (hy : f.covers i = true → y1 (i - f.offset) = y2 (i - f.offset)) (hg : g1 i = g2 i) :
    overwrite f y1 g1 i = overwrite f y2 g2 i := by
  unfold overwrite
  split
  · rename_i h; exact hy h
  · exact hg

theorem defaultsAll_same (hB : WF B) {g1 g2 a1 a2 : Bits} (h1 : defaultsAll B g1 = .ok a1)
    (h2 : defaultsAll B g2 = .ok a2) (hf : f ∈ B.fields) {i : Nat} (hc : f.covers i = true)
    (h : g1 i = g2 i) : a1 i = a2 i := by
  obtain ⟨p1, q1⟩ := storeAll_filter hB h1 hf hc
  obtain ⟨p2, q2⟩ := storeAll_filter hB h2 hf hc
  cases hd : f.default.isSome with
  | false => rw [p1 hd, p2 hd, h]
  | true =>
    obtain ⟨y1, e1, r1⟩ := q1 hd
    obtain ⟨y2, e2, r2⟩ := q2 hd
    rw [e1] at e2; cases e2
    rw [r1, r2]

/-- One call of the abstract machine from two states that agree on readable bits. -/
theorem specCall_hidden (hB : WF B) {c : Call} (hc : c.Valid B) (hr : c.Reveals = false)
    {g1 g2 g1' g2' : Bits} {o1 o2 : Out} (hg : SameReadable B g1 g2)
    (h1 : specCall B c g1 = .ok (o1, g1')) (h2 : specCall B c g2 = .ok (o2, g2')) :
    o1 = o2 ∧ SameReadable B g1' g2' := by
  have hfb : ∀ f ∈ B.fields, f.isReadable = true → ∀ i < f.bits, f.bitsOf g1 i = f.bitsOf g2 i :=
    fun f hf ha i hi => hg f hf (isReadable_iff.mp ha) i hi
  cases c with
  | get f =>
    simp only [specCall] at h1 h2
    rw [decode_congr (hB.field f hc.1) (hfb f hc.1 hc.2.2)] at h1
    obtain ⟨v1, e1, r1⟩ := Rmap_ok h1; cases r1
    obtain ⟨v2, e2, r2⟩ := Rmap_ok h2; cases r2
    rw [e1] at e2; cases e2
    exact ⟨rfl, hg⟩
  | inverted f =>
    simp only [specCall] at h1 h2
    rw [decodeZ_congr (hB.field f hc.1) (y := fun i => !f.bitsOf g2 i)
      (fun i hi => by rw [hfb f hc.1 hc.2.2 i hi])] at h1
    obtain ⟨v1, e1, r1⟩ := Rmap_ok h1; cases r1
    obtain ⟨v2, e2, r2⟩ := Rmap_ok h2; cases r2
    rw [e1] at e2; cases e2
    exact ⟨rfl, hg⟩
  | set f v =>
    obtain ⟨v1, e1, r1⟩ := Rmap_ok h1; cases r1
    obtain ⟨v2, e2, r2⟩ := Rmap_ok h2; cases r2
    rw [e1] at e2; cases e2
    exact ⟨rfl, .of_bit hB fun i _ hi => overwrite_same (fun _ => rfl) (hg.bit hi)⟩
  | checkedSet f v =>
    simp only [specCall] at h1 h2
    split at h1
    · rename_i hfit
      rw [if_pos hfit] at h2
      obtain ⟨v1, e1, r1⟩ := Rmap_ok h1; cases r1
      obtain ⟨v2, e2, r2⟩ := Rmap_ok h2; cases r2
      rw [e1] at e2; cases e2
      exact ⟨rfl, .of_bit hB fun i _ hi => overwrite_same (fun _ => rfl) (hg.bit hi)⟩
    · rename_i hfit
      rw [if_neg hfit] at h2
      cases h1; cases h2
      exact ⟨rfl, hg⟩
  | clearField f =>
    obtain ⟨v1, e1, r1⟩ := Rmap_ok h1; cases r1
    obtain ⟨v2, e2, r2⟩ := Rmap_ok h2; cases r2
    rw [e1] at e2; cases e2
    exact ⟨rfl, .of_bit hB fun i _ hi => overwrite_same (fun _ => rfl) (hg.bit hi)⟩
  | clearFieldToDefault f =>
    obtain ⟨v1, e1, r1⟩ := Rmap_ok h1; cases r1
    obtain ⟨v2, e2, r2⟩ := Rmap_ok h2; cases r2
    rw [e1] at e2; cases e2
    exact ⟨rfl, .of_bit hB fun i _ hi => overwrite_same (fun _ => rfl) (hg.bit hi)⟩
  | invertField f =>
    obtain ⟨v1, e1, r1⟩ := Rmap_ok h1; cases r1
    obtain ⟨v2, e2, r2⟩ := Rmap_ok h2; cases r2
    refine ⟨rfl, .of_bit hB fun i _ hi => overwrite_same (fun hcov => ?_) (hg.bit hi)⟩
    rw [hB.readable_eq hc.1 hcov] at hi
    exact absorb_agree (fun k hk => by rw [hfb f hc.1 hi k hk]) e1 e2 _ (covers_sub_lt hcov)
  | getBit o =>
    cases h1; cases h2
    refine ⟨?_, hg⟩
    cases hro : B.readable o with
    | false => simp
    | true => rw [hg.bit hro]
  | checkedGetBit o =>
    simp only [specCall] at h1 h2
    split at h1
    · rename_i h; rw [if_pos h] at h2; cases h1; cases h2; exact ⟨rfl, hg⟩
    · rename_i h
      rw [if_neg h] at h2
      split at h1
      · rename_i h; rw [if_pos h] at h2; cases h1; cases h2
        exact ⟨by rw [hg.bit h], hg⟩
      · rename_i h; rw [if_neg h] at h2; cases h1; cases h2; exact ⟨rfl, hg⟩
  | setBit o b =>
    cases h1; cases h2
    refine ⟨rfl, .of_bit hB fun i _ hi => ?_⟩
    simp only [hg.bit hi]
  | checkedSetBit o b =>
    simp only [specCall] at h1 h2
    split at h1
    · rename_i h; rw [if_pos h] at h2; cases h1; cases h2; exact ⟨rfl, hg⟩
    · rename_i h
      rw [if_neg h] at h2
      split at h1
      · rename_i h; rw [if_pos h] at h2; cases h1; cases h2
        exact ⟨rfl, .of_bit hB fun i _ hi => by simp only [hg.bit hi]⟩
      · rename_i h; rw [if_neg h] at h2; cases h1; cases h2; exact ⟨rfl, hg⟩
  | getRange o l =>
    cases h1; cases h2
    refine ⟨congrArg Out.store (Store.ofBits_congr fun i hi => ?_), hg⟩
    cases hro : B.readable (o + i) with
    | false => simp
    | true => rw [hg.bit hro]
  | checkedGetRange o l =>
    simp only [specCall] at h1 h2
    split at h1
    · rename_i h; rw [if_pos h] at h2; cases h1; cases h2; exact ⟨rfl, hg⟩
    · rename_i h
      rw [if_neg h] at h2
      split at h1
      · rename_i h; rw [if_pos h] at h2; cases h1; cases h2; exact ⟨rfl, hg⟩
      · rename_i h
        rw [if_neg h] at h2
        split at h1
        · rename_i h; rw [if_pos h] at h2; cases h1; cases h2
          refine ⟨congrArg Out.store (Store.ofBits_congr fun i hi => ?_), hg⟩
          by_cases hl : i < l
          · rw [hg.bit (rangeForall_iff.mp h i hl)]
          · simp [hl]
        · rename_i h; rw [if_neg h] at h2; cases h1; cases h2; exact ⟨rfl, hg⟩
  | setRange o l x =>
    cases h1; cases h2
    refine ⟨rfl, .of_bit hB fun i _ hi => ?_⟩
    simp only [hg.bit hi]
  | checkedSetRange o l x =>
    simp only [specCall] at h1 h2
    split at h1
    · rename_i h; rw [if_pos h] at h2; cases h1; cases h2; exact ⟨rfl, hg⟩
    · rename_i h
      rw [if_neg h] at h2
      split at h1
      · rename_i h; rw [if_pos h] at h2; cases h1; cases h2; exact ⟨rfl, hg⟩
      · rename_i h
        rw [if_neg h] at h2
        split at h1
        · rename_i h; rw [if_pos h] at h2; cases h1; cases h2
          exact ⟨rfl, .of_bit hB fun i _ hi => by simp only [hg.bit hi]⟩
        · rename_i h; rw [if_neg h] at h2; cases h1; cases h2; exact ⟨rfl, hg⟩
  | into e => cases hr
  | intoTrait => cases hr
  | intoSlice e sl => cases hr
  | checkedIntoSlice e sl => cases hr
  | write e d x =>
    have key : ∀ {a1 a2 : Bits},
        storeAll (B.fields.filter Field.isWritable) (fun f => absorb f (f.bitsOf
          (writeEndianBits B.backing (e.getD B.writeEndian) x.bit))) g1 = .ok a1 →
        storeAll (B.fields.filter Field.isWritable) (fun f => absorb f (f.bitsOf
          (writeEndianBits B.backing (e.getD B.writeEndian) x.bit))) g2 = .ok a2 →
        ∀ {f i}, f ∈ B.fields → f.covers i = true → B.readable i = true → a1 i = a2 i := by
      intro a1 a2 s1 s2 f i hf hcov hi
      obtain ⟨p1, q1⟩ := storeAll_filter hB s1 hf hcov
      obtain ⟨p2, q2⟩ := storeAll_filter hB s2 hf hcov
      cases hw : f.isWritable with
      | false => rw [p1 hw, p2 hw, hg.bit hi]
      | true =>
        obtain ⟨y1, e1, r1⟩ := q1 hw
        obtain ⟨y2, e2, r2⟩ := q2 hw
        rw [e1] at e2; cases e2
        rw [r1, r2]
    simp only [specCall] at h1 h2
    obtain ⟨a1, s1, t1⟩ := Rbind_ok h1
    obtain ⟨a2, s2, t2⟩ := Rbind_ok h2
    cases d with
    | false =>
      cases t1; cases t2
      refine ⟨rfl, .of_bit hB fun i hlt hi => ?_⟩
      obtain ⟨f, hf, hcov⟩ := hB.owner hlt
      exact key s1 s2 hf hcov hi
    | true =>
      simp only [if_true] at t1 t2
      obtain ⟨b1, u1, w1⟩ := Rbind_ok t1
      obtain ⟨b2, u2, w2⟩ := Rbind_ok t2
      cases w1; cases w2
      refine ⟨rfl, .of_bit hB fun i hlt hi => ?_⟩
      obtain ⟨f, hf, hcov⟩ := hB.owner hlt
      exact defaultsAll_same hB u1 u2 hf hcov (key s1 s2 hf hcov hi)
  | writeDefaults =>
    simp only [specCall] at h1 h2
    obtain ⟨a1, s1, t1⟩ := Rbind_ok h1
    obtain ⟨a2, s2, t2⟩ := Rbind_ok h2
    cases t1; cases t2
    refine ⟨rfl, .of_bit hB fun i hlt hi => ?_⟩
    obtain ⟨f, hf, hcov⟩ := hB.owner hlt
    exact defaultsAll_same hB s1 s2 hf hcov (hg.bit hi)
  | clear d =>
    cases d with
    | false =>
      simp only [specCall] at h1 h2
      obtain ⟨a1, s1, t1⟩ := Rbind_ok h1
      obtain ⟨a2, s2, t2⟩ := Rbind_ok h2
      obtain ⟨b1, u1, w1⟩ := Rbind_ok t1
      obtain ⟨b2, u2, w2⟩ := Rbind_ok t2
      cases w1; cases w2
      refine ⟨rfl, .of_bit hB fun i hlt hi => ?_⟩
      obtain ⟨f, hf, hcov⟩ := hB.owner hlt
      have key : a1 i = a2 i := by
        obtain ⟨y1, e1, r1⟩ := storeAll_all hB s1 hf hcov
        obtain ⟨y2, e2, r2⟩ := storeAll_all hB s2 hf hcov
        rw [e1] at e2; cases e2
        rw [r1, r2]
      obtain ⟨p1, q1⟩ := storeAll_filter hB u1 hf hcov
      obtain ⟨p2, q2⟩ := storeAll_filter hB u2 hf hcov
      cases hw : (f.reserved && f.default.isSome) with
      | false => rw [p1 hw, p2 hw, key]
      | true =>
        obtain ⟨y1, e1, r1⟩ := q1 hw
        obtain ⟨y2, e2, r2⟩ := q2 hw
        rw [e1] at e2; cases e2
        rw [r1, r2]
    | true =>
      simp only [specCall] at h1 h2
      obtain ⟨a1, s1, t1⟩ := Rbind_ok h1
      obtain ⟨a2, s2, t2⟩ := Rbind_ok h2
      obtain ⟨b1, u1, w1⟩ := Rbind_ok t1
      obtain ⟨b2, u2, w2⟩ := Rbind_ok t2
      cases w1; cases w2
      refine ⟨rfl, .of_bit hB fun i hlt hi => ?_⟩
      obtain ⟨f, hf, hcov⟩ := hB.owner hlt
      refine defaultsAll_same hB u1 u2 hf hcov ?_
      obtain ⟨p1, q1⟩ := storeAll_filter hB s1 hf hcov
      obtain ⟨p2, q2⟩ := storeAll_filter hB s2 hf hcov
      cases hw : f.default.isNone with
      | false => rw [p1 hw, p2 hw, hg.bit hi]
      | true =>
        obtain ⟨y1, e1, r1⟩ := q1 hw
        obtain ⟨y2, e2, r2⟩ := q2 hw
        rw [e1] at e2; cases e2
        rw [r1, r2]
  | invert =>
    simp only [specCall] at h1 h2
    obtain ⟨a1, s1, t1⟩ := Rbind_ok h1
    obtain ⟨a2, s2, t2⟩ := Rbind_ok h2
    cases t1; cases t2
    refine ⟨rfl, .of_bit hB fun i hlt hi => ?_⟩
    obtain ⟨f, hf, hcov⟩ := hB.owner hlt
    obtain ⟨y1, e1, r1⟩ := storeAll_all hB s1 hf hcov
    obtain ⟨y2, e2, r2⟩ := storeAll_all hB s2 hf hcov
    rw [r1, r2]
    rw [hB.readable_eq hf hcov] at hi
    refine absorb_agree (fun k hk => ?_) e1 e2 _ (covers_sub_lt hcov)
    have := hfb f hf hi k hk
    simp only [Field.bitsOf] at this ⊢
    rw [this]
  | debug => cases hr

/-- One call from two states that agree on readable bits. -/
theorem call_hidden (m : Mode) (hB : WF B) (hS : Supported B) {c : Call} (hc : c.Typed B)
    (hr : c.Reveals = false) {s1 s2 s1' s2' : Store} (hs1 : s1.HasBacking B.backing)
    (hs2 : s2.HasBacking B.backing) {o1 o2 : Out} (hg : SameReadable B s1.bit s2.bit)
    (h1 : call m B c s1 = .ok (o1, s1')) (h2 : call m B c s2 = .ok (o2, s2')) :
    o1 = o2 ∧ SameReadable B s1'.bit s2'.bit := by
  have valid : ∀ c : Call, c.Valid B → c.Reveals = false → call m B c s1 = .ok (o1, s1') →
      call m B c s2 = .ok (o2, s2') → o1 = o2 ∧ SameReadable B s1'.bit s2'.bit := by
    intro c hv hr h1 h2
    rw [← Store.ofBits_bit hs1, call_refines m hB hS c hv] at h1
    rw [← Store.ofBits_bit hs2, call_refines m hB hS c hv] at h2
    obtain ⟨⟨p1, g1⟩, e1, r1⟩ := Rmap_ok h1; cases r1
    obtain ⟨⟨p2, g2⟩, e2, r2⟩ := Rmap_ok h2; cases r2
    obtain ⟨ho, hg'⟩ := specCall_hidden hB hv hr hg e1 e2
    refine ⟨ho, .of_bit hB fun i hi hri => ?_⟩
    rw [Store.bit_ofBits_lt hi, Store.bit_ofBits_lt hi]
    exact hg'.bit hri
  rcases typed_cases m hB hS hc with hv | ⟨p, e⟩ | ⟨msg, e⟩ | ⟨c', hv, _, hr', _, hi, e⟩
  · exact valid c hv hr h1 h2
  · rw [e s1 hs1] at h1; cases h1
  · rw [e s1 hs1] at h1; rw [e s2 hs2] at h2
    cases h1; cases h2
    exact ⟨rfl, hg⟩
  · rw [e s1 hs1] at h1; rw [e s2 hs2] at h2
    exact valid c' hv (hr'.trans hr) h1 h2

/-- **C33** (one read). Getters, `x_inverted`, `get_bit`, `checked_get_bit` and the range reads give the
same result, or the same panic, on two values that differ only in unreadable bits. All
arguments rustc accepts are allowed, in both overflow modes. -/
theorem C33_reads (m : Mode) (hB : WF B) (hS : Supported B) {c : Call} (hc : c.Typed B)
    (hr : c.IsRead = true) {s1 s2 : Store} (hs1 : s1.HasBacking B.backing)
    (hs2 : s2.HasBacking B.backing) (hg : SameReadable B s1.bit s2.bit) :
    (call m B c s1).map Prod.fst = (call m B c s2).map Prod.fst := by
  have fields : ∀ f ∈ B.fields, f.isReadable = true → ∀ i < f.bits,
      f.bitsOf s1.bit i = f.bitsOf s2.bit i :=
    fun f hf ha i hi => hg f hf (isReadable_iff.mp ha) i hi
  have hrev : c.Reveals = false := by cases c <;> first | rfl | cases hr
  -- the calls that always return
  have returns : ∀ c : Call, c.Valid B → c.Reveals = false →
      (∀ g, ∃ r, specCall B c g = .ok r) →
      (call m B c s1).map Prod.fst = (call m B c s2).map Prod.fst := by
    intro c hv hrev hok
    obtain ⟨⟨o1, g1⟩, e1⟩ := hok s1.bit
    obtain ⟨⟨o2, g2⟩, e2⟩ := hok s2.bit
    have c1 := call_refines m hB hS c hv s1.bit
    have c2 := call_refines m hB hS c hv s2.bit
    rw [Store.ofBits_bit hs1, e1] at c1
    rw [Store.ofBits_bit hs2, e2] at c2
    rw [c1, c2]
    exact congrArg Except.ok (specCall_hidden hB hv hrev hg e1 e2).1
  have main : ∀ c : Call, c.Valid B → c.IsRead = true →
      (call m B c s1).map Prod.fst = (call m B c s2).map Prod.fst := by
    intro c hv hr
    have hrev : c.Reveals = false := by cases c <;> first | rfl | cases hr
    cases c <;> first | cases hr | skip
    case get f =>
      have c1 := call_refines m hB hS _ hv s1.bit
      have c2 := call_refines m hB hS _ hv s2.bit
      rw [Store.ofBits_bit hs1] at c1
      rw [Store.ofBits_bit hs2] at c2
      rw [c1, c2]
      simp only [specCall]
      rw [decode_congr (hB.field f hv.1) (fields f hv.1 hv.2.2)]
      cases decode f (f.bitsOf s2.bit) <;> rfl
    case inverted f =>
      have c1 := call_refines m hB hS _ hv s1.bit
      have c2 := call_refines m hB hS _ hv s2.bit
      rw [Store.ofBits_bit hs1] at c1
      rw [Store.ofBits_bit hs2] at c2
      rw [c1, c2]
      simp only [specCall]
      rw [decodeZ_congr (hB.field f hv.1) (y := fun i => !f.bitsOf s2.bit i)
        (fun i hi => by rw [fields f hv.1 hv.2.2 i hi])]
      cases decodeZ f (fun i => !f.bitsOf s2.bit i) <;> rfl
    all_goals
      refine returns _ hv hrev fun g => ?_
      simp only [specCall]
    · exact ⟨_, rfl⟩
    · split
      · exact ⟨_, rfl⟩
      · split <;> exact ⟨_, rfl⟩
    · exact ⟨_, rfl⟩
    · split
      · exact ⟨_, rfl⟩
      · split
        · exact ⟨_, rfl⟩
        · split <;> exact ⟨_, rfl⟩
  rcases typed_cases m hB hS hc with hv | ⟨p, e⟩ | ⟨msg, e⟩ | ⟨c', hv, _, hr', _, hi, e⟩
  · exact main c hv hr
  · rw [e s1 hs1, e s2 hs2]
  · rw [e s1 hs1, e s2 hs2]; rfl
  · rw [e s1 hs1, e s2 hs2]
    exact main c' hv (hi.trans hr)

example (v : BitVec 16) :
    (call .wrapping Ex.I (.getRange 3 4294967295) (.int 16 v)).map Prod.fst =
      (call .wrapping Ex.I (.getRange 3 4294967295) (.int 16 (v ^^^ 0xF300#16))).map Prod.fst := by
  refine C33_reads (B := Ex.I) .wrapping Ex.wfI Ex.supportedI (by simp [Call.Typed]) rfl rfl rfl ?_
  refine .of_bit Ex.wfI fun i hi hr => ?_
  have h : ∀ i < 16, Ex.I.readable i = true → (0xF300#16).getLsbD i = false := by decide
  simp only [Store.bit, BitVec.getLsbD_xor, h i hi hr, Bool.xor_false]

/-- **C33** (histories). Run the same calls, with any arguments rustc accepts, on two values that
differ only in write-only and no-access fields. If neither run panics, every call but
`into_*`, `From` and `Debug` returns the same in both, and the final values again differ
only there: no sequence of calls moves hidden bits into view. -/
theorem C33_histories (m : Mode) (hB : WF B) (hS : Supported B) (cs : List Call)
    (ht : ∀ c ∈ cs, c.Typed B) (hr : ∀ c ∈ cs, c.Reveals = false) {s1 s2 s1' s2' : Store}
    (hs1 : s1.HasBacking B.backing) (hs2 : s2.HasBacking B.backing)
    (hg : SameReadable B s1.bit s2.bit) {os1 os2 : List Out}
    (h1 : history m B cs s1 = .ok (os1, s1')) (h2 : history m B cs s2 = .ok (os2, s2')) :
    os1 = os2 ∧ SameReadable B s1'.bit s2'.bit := by
  induction cs generalizing s1 s2 os1 os2 with
  | nil => cases h1; cases h2; exact ⟨rfl, hg⟩
  | cons c cs ih =>
    obtain ⟨o1, t1, q1, a1, b1, rfl⟩ := history_cons_ok h1
    obtain ⟨o2, t2, q2, a2, b2, rfl⟩ := history_cons_ok h2
    have htc := ht c List.mem_cons_self
    obtain ⟨e, hg'⟩ := call_hidden m hB hS htc (hr c List.mem_cons_self) hs1 hs2 hg a1 a2
    obtain ⟨e', hg''⟩ := ih (fun c hc => ht c (List.mem_cons_of_mem _ hc))
      (fun c hc => hr c (List.mem_cons_of_mem _ hc)) (call_ok_backing m hB hS htc hs1 a1)
      (call_ok_backing m hB hS htc hs2 a2) hg' b1 b2
    exact ⟨by rw [e, e'], hg''⟩

example (v : BitVec 16) {s1' s2' : Store} {os1 os2 : List Out}
    (h1 : history .wrapping Ex.I Ex.calls (.int 16 v) = .ok (os1, s1'))
    (h2 : history .wrapping Ex.I Ex.calls (.int 16 (v ^^^ 0xF300#16)) = .ok (os2, s2')) :
    os1 = os2 := by
  refine (C33_histories (B := Ex.I) (s1 := .int 16 v) (s2 := .int 16 (v ^^^ 0xF300#16)) .wrapping Ex.wfI Ex.supportedI
    Ex.calls Ex.calls_typed ?_ rfl rfl
    ?_ h1 h2).1
  · simp only [Ex.calls, List.forall_mem_cons, List.not_mem_nil, false_imp_iff, implies_true,
      and_true]
    decide
  · refine .of_bit Ex.wfI fun i hi hr => ?_
    have h : ∀ i < 16, Ex.I.readable i = true → (0xF300#16).getLsbD i = false := by decide
    simp only [Store.bit, BitVec.getLsbD_xor, h i hi hr, Bool.xor_false]

end Bf
