import Verif.Lemmas.Calls

namespace Bf

/-! ## Storing into several fields -/

theorem Rmap_ok {α β : Type} {r : R α} {F : α → β} {y : β} (h : r.map F = .ok y) :
    ∃ x, r = .ok x ∧ F x = y := by
  cases r with
  | error p => cases h
  | ok x => exact ⟨x, rfl, by cases h; rfl⟩

theorem Rbind_ok {α β : Type} {r : R α} {F : α → R β} {y : β} (h : (r >>= F) = .ok y) :
    ∃ x, r = .ok x ∧ F x = .ok y := by
  cases r with
  | error p => cases h
  | ok x => exact ⟨x, rfl, h⟩

theorem Rmap_err {α β : Type} {r : R α} {F : α → β} {p : Panic} (h : r.map F = .error p) :
    r = .error p := by
  cases r with
  | error q => cases h; rfl
  | ok x => cases h

theorem Rbind_err {α β : Type} {r : R α} {F : α → R β} {p : Panic} (h : (r >>= F) = .error p) :
    r = .error p ∨ ∃ x, r = .ok x ∧ F x = .error p := by
  cases r with
  | error q => cases h; exact .inl rfl
  | ok x => exact .inr ⟨x, rfl, h⟩

theorem storeAll_ok {fs : List Field} {X : Field → R Bits} {g g' : Bits}
    (hd : fs.Pairwise Field.Disjoint) (h : storeAll fs X g = .ok g') :
    (∀ i, (∀ f ∈ fs, f.covers i = false) → g' i = g i) ∧
    (∀ f ∈ fs, ∃ y, X f = .ok y ∧ ∀ i, f.covers i = true → g' i = y (i - f.offset)) := by
  induction fs generalizing g with
  | nil => cases h; exact ⟨fun _ _ => rfl, fun f hf => absurd hf (by simp)⟩
  | cons a fs ih =>
    unfold storeAll at h
    rw [List.foldlM_cons] at h
    obtain ⟨g1, h1, h2⟩ := Rbind_ok h
    obtain ⟨y, hy, rfl⟩ := Rmap_ok h1
    rw [List.pairwise_cons] at hd
    obtain ⟨ih1, ih2⟩ := ih hd.2 h2
    constructor
    · intro i hi
      rw [ih1 i (fun f hf => hi f (by simp [hf])), overwrite_not_covers (hi a (by simp))]
    · intro f hf
      rcases List.mem_cons.mp hf with rfl | hf
      · refine ⟨y, hy, fun i hi => ?_⟩
        rw [ih1 i, overwrite_covers hi]
        intro f' hf'
        cases hc : f'.covers i
        · rfl
        · exact absurd ⟨hi, hc⟩ (hd.1 f' hf' i)
      · exact ih2 f hf

theorem storeAll_err {fs : List Field} {X : Field → R Bits} {g : Bits} {p : Panic}
    (h : storeAll fs X g = .error p) : ∃ f ∈ fs, X f = .error p := overwriteAllM_error h

/-- The same for the fields of a bitfield selected by `q`. -/
theorem storeAll_filter {B : Bitfield} (hB : WF B) {q : Field → Bool} {X : Field → R Bits}
    {g g' : Bits} (h : storeAll (B.fields.filter q) X g = .ok g') {f : Field} (hf : f ∈ B.fields)
    {i : Nat} (hc : f.covers i = true) :
    (q f = false → g' i = g i) ∧ (q f = true → ∃ y, X f = .ok y ∧ g' i = y (i - f.offset)) := by
  obtain ⟨h1, h2⟩ := storeAll_ok (hB.disjoint_filter q) h
  constructor
  · intro hq
    apply h1
    intro f' hf'
    cases hc' : f'.covers i
    · rfl
    · have := hB.owner_unique hf (mem_of_filter hf') hc hc'
      subst this
      rw [(List.mem_filter.mp hf').2] at hq
      cases hq
  · intro hq
    obtain ⟨y, hy, hh⟩ := h2 f (List.mem_filter.mpr ⟨hf, hq⟩)
    exact ⟨y, hy, hh i hc⟩

theorem storeAll_all {B : Bitfield} (hB : WF B) {X : Field → R Bits}
    {g g' : Bits} (h : storeAll B.fields X g = .ok g') {f : Field} (hf : f ∈ B.fields)
    {i : Nat} (hc : f.covers i = true) : ∃ y, X f = .ok y ∧ g' i = y (i - f.offset) := by
  have e : B.fields = B.fields.filter fun _ => true := by
    rw [List.filter_eq_self.mpr]; intro _ _; rfl
  rw [e] at h
  exact (storeAll_filter hB h hf hc).2 rfl

/-! ## What the pieces do under `Preserves` -/

theorem absorb_bits {f : Field} {x y : Bits} (hp : Preserves f x) (h : absorb f x = .ok y) :
    ∀ i < f.bits, y i = x i := by
  obtain ⟨y', h', he⟩ := absorb_ok hp
  rw [h] at h'; cases h'
  exact he

theorem roundTrip_bits {f : Field} {x y : Bits} (hp : Preserves f x) (h : roundTrip f x = .ok y) :
    ∀ i < f.bits, y i = x i := by
  obtain ⟨y', h', he⟩ := roundTrip_ok hp
  rw [h] at h'; cases h'
  exact he

theorem defaultBits_some {f : Field} {y : Bits} (h : f.defaultBits = .ok y)
    (hp : f.isWritable = true → ∀ v, f.default = some v → Preserves f (encode f.ty v)) :
    ∃ v, f.default = some v ∧ ∀ i < f.bits, y i = encode f.ty v i := by
  unfold Field.defaultBits at h
  cases hd : f.default with
  | none => rw [hd] at h; cases h
  | some v =>
    rw [hd] at h
    refine ⟨v, rfl, ?_⟩
    simp only at h
    split at h
    · rename_i hw
      exact roundTrip_bits (hp hw v hd) h
    · cases h; exact fun _ _ => rfl

theorem covers_sub_lt {f : Field} {i : Nat} (h : f.covers i = true) : i - f.offset < f.bits := by
  have := covers_iff.mp h; omega

theorem covers_add {f : Field} {i : Nat} (h : i < f.bits) : f.covers (f.offset + i) = true :=
  covers_iff.mpr ⟨by omega, by omega⟩

theorem WF.add_lt {B : Bitfield} (hB : WF B) {f : Field} (hf : f ∈ B.fields) {i : Nat}
    (h : i < f.bits) : f.offset + i < B.backing.size := hB.covers_lt hf (covers_add h)

theorem bitsOf_sub {f : Field} {i : Nat} (h : f.covers i = true) (g : Bits) :
    f.bitsOf g (i - f.offset) = g i := by
  have := covers_iff.mp h
  simp only [Field.bitsOf]
  congr 1
  omega

theorem defaultsAll_ok {B : Bitfield} (hB : WF B) {g g' : Bits} (h : defaultsAll B g = .ok g')
    {f : Field} (hf : f ∈ B.fields) {i : Nat} (hc : f.covers i = true)
    (hp : f.isWritable = true → ∀ v, f.default = some v → Preserves f (encode f.ty v)) :
    g' i = (B.defaultBit i).getD (g i) := by
  rw [hB.defaultBit_eq hf hc]
  obtain ⟨h1, h2⟩ := storeAll_filter hB h hf hc
  cases hd : f.default with
  | none => exact h1 (by rw [hd]; rfl)
  | some v =>
    obtain ⟨y, hy, he⟩ := h2 (by rw [hd]; rfl)
    obtain ⟨v', hv', hb⟩ := defaultBits_some hy hp
    rw [hd] at hv'; cases hv'
    rw [he, hb _ (covers_sub_lt hc)]
    rfl

theorem Lawful.preserves {B : Bitfield} (h : Lawful B) {f : Field} (hf : f ∈ B.fields) (x : Bits) :
    Preserves f x := (h f hf).preserves x

theorem Lawful.defaults {B : Bitfield} (h : Lawful B) : DefaultsPreserved B :=
  fun _ hf _ _ => h.preserves hf _

theorem Lawful.zero {B : Bitfield} (h : Lawful B) : ZeroPreserved B :=
  fun _ hf _ => h.preserves hf _

theorem WF.owner {B : Bitfield} (h : WF B) {i : Nat} (hi : i < B.backing.size) :
    ∃ f ∈ B.fields, f.covers i = true := h.cover i hi

theorem rangeForall_iff {o l : Nat} {q : Nat → Bool} :
    rangeForall o l q = true ↔ ∀ k < l, q (o + k) = true := by
  simp [rangeForall]

/-- On a lawful bitfield a successful call has the effect `effect`. -/
theorem specCall_effect {B : Bitfield} (hB : WF B) (hL : Lawful B) {c : Call} (hc : c.Valid B)
    {g g' : Bits} {o : Out} (h : specCall B c g = .ok (o, g')) {i : Nat} (hi : i < B.backing.size) :
    g' i = effect B c g i := by
  obtain ⟨f₀, hf₀, hc₀⟩ := hB.owner hi
  have hL₀ : ∀ x, Preserves f₀ x := fun x => hL.preserves hf₀ x
  have one : ∀ {f : Field} {x y : Bits}, (∀ k < f.bits, y k = x k) →
      overwrite f y g i = overwrite f x g i := by
    intro f x y hy
    rw [overwrite_congr hy]
  cases c with
  | get f =>
    simp only [specCall] at h
    obtain ⟨v, _, hv⟩ := Rmap_ok h
    cases hv; rfl
  | inverted f =>
    simp only [specCall] at h
    obtain ⟨v, _, hv⟩ := Rmap_ok h
    cases hv; rfl
  | set f v =>
    simp only [specCall] at h
    obtain ⟨y, hy, he⟩ := Rmap_ok h
    cases he
    exact one (roundTrip_bits (hL.preserves hc.1 _) hy)
  | checkedSet f v =>
    simp only [specCall] at h
    simp only [effect]
    by_cases hfit : Fits f v
    · rw [if_pos hfit] at h ⊢
      obtain ⟨y, hy, he⟩ := Rmap_ok h
      cases he
      exact one (roundTrip_bits (hL.preserves hc.1 _) hy)
    · rw [if_neg hfit] at h ⊢
      cases h; rfl
  | clearField f =>
    simp only [specCall] at h
    obtain ⟨y, hy, he⟩ := Rmap_ok h
    cases he
    exact one (absorb_bits (hL.preserves hc.1 _) hy)
  | clearFieldToDefault f =>
    simp only [specCall] at h
    obtain ⟨y, hy, he⟩ := Rmap_ok h
    cases he
    obtain ⟨v, hv, hb⟩ := defaultBits_some hy (fun _ v hv => hL.preserves hc.1 _)
    simp only [effect]
    by_cases hcov : f.covers i = true
    · rw [overwrite_covers hcov, if_pos hcov, hv, hb _ (covers_sub_lt hcov)]
      rfl
    · rw [if_neg hcov, overwrite_not_covers (by simpa using hcov)]
  | invertField f =>
    simp only [specCall] at h
    obtain ⟨y, hy, he⟩ := Rmap_ok h
    cases he
    simp only [effect]
    by_cases hcov : f.covers i = true
    · rw [overwrite_covers hcov, if_pos hcov,
        absorb_bits (hL.preserves hc.1 _) hy _ (covers_sub_lt hcov), bitsOf_sub hcov]
    · rw [if_neg hcov, overwrite_not_covers (by simpa using hcov)]
  | setBit o' b =>
    simp only [specCall] at h
    cases h
    simp only [effect]
    by_cases e : i = o'
    · subst e; rfl
    · simp [e]
  | checkedSetBit o' b =>
    simp only [specCall] at h
    simp only [effect]
    split at h
    · cases h
      rw [if_neg]; intro hh; omega
    · split at h
      · cases h
        rename_i hw
        by_cases e : i = o'
        · subst e; simp [hw]
        · simp [e]
      · cases h
        rename_i hw
        rw [if_neg]
        rintro ⟨rfl, hh⟩
        exact hw hh
  | setRange o' l x =>
    simp only [specCall] at h
    cases h; rfl
  | checkedSetRange o' l x =>
    simp only [specCall] at h
    simp only [effect]
    split at h
    · cases h
      rw [if_neg]; intro hh; omega
    · split at h
      · cases h
        rw [if_neg]; intro hh; omega
      · split at h
        · rename_i hr
          cases h
          simp only
          by_cases hin : o' ≤ i ∧ i < o' + l
          · rw [if_pos hin, if_pos ⟨by omega, hin.1, hin.2, rangeForall_iff.mp hr⟩]
          · rw [if_neg hin, if_neg]; intro hh; omega
        · rename_i hr
          cases h
          rw [if_neg]
          intro hh
          exact hr (rangeForall_iff.mpr hh.2.2.2)
  | write e d x =>
    simp only [specCall] at h
    obtain ⟨g1, h1, h2⟩ := Rbind_ok h
    have hg1 : g1 i = if B.writable i then writeEndianBits B.backing (e.getD B.writeEndian) x.bit i
        else g i := by
      obtain ⟨a1, a2⟩ := storeAll_filter hB h1 hf₀ hc₀
      rw [hB.writable_eq hf₀ hc₀]
      cases hw : f₀.isWritable
      · exact a1 hw
      · obtain ⟨y, hy, he⟩ := a2 hw
        rw [he, absorb_bits (hL₀ _) hy _ (covers_sub_lt hc₀), bitsOf_sub hc₀]
        rfl
    cases d with
    | false => cases h2; exact hg1
    | true =>
      obtain ⟨g2, h3, h4⟩ := Rbind_ok h2
      cases h4
      have := defaultsAll_ok hB h3 hf₀ hc₀ (fun _ _ _ => hL₀ _)
      rw [this, hg1]
      rfl
  | writeDefaults =>
    simp only [specCall] at h
    obtain ⟨g1, h1, h2⟩ := Rbind_ok h
    cases h2
    exact defaultsAll_ok hB h1 hf₀ hc₀ (fun _ _ _ => hL₀ _)
  | clear d =>
    cases d with
    | true =>
      simp only [specCall] at h
      obtain ⟨g1, h1, h2⟩ := Rbind_ok h
      obtain ⟨g2, h3, h4⟩ := Rbind_ok h2
      cases h4
      rw [defaultsAll_ok hB h3 hf₀ hc₀ (fun _ _ _ => hL₀ _)]
      simp only [effect]
      rw [hB.defaultBit_eq hf₀ hc₀]
      cases hd : f₀.default with
      | some v => rfl
      | none =>
        obtain ⟨y, hy, he⟩ := (storeAll_filter hB h1 hf₀ hc₀).2 (by rw [hd]; rfl)
        show g1 i = false
        rw [he, absorb_bits (hL₀ _) hy _ (covers_sub_lt hc₀)]
    | false =>
      simp only [specCall] at h
      obtain ⟨g1, h1, h2⟩ := Rbind_ok h
      obtain ⟨g2, h3, h4⟩ := Rbind_ok h2
      cases h4
      simp only [effect]
      rw [hB.reservedDefaultBit_eq hf₀ hc₀]
      have hz : g1 i = false := by
        obtain ⟨y, hy, he⟩ := storeAll_all hB h1 hf₀ hc₀
        rw [he, absorb_bits (hL₀ _) hy _ (covers_sub_lt hc₀)]
      obtain ⟨a1, a2⟩ := storeAll_filter hB h3 hf₀ hc₀
      cases hr : f₀.reserved with
      | false => rw [a1 (by rw [hr]; rfl), hz]; rfl
      | true =>
        cases hd : f₀.default with
        | none => rw [a1 (by rw [hr, hd]; rfl), hz]; rfl
        | some v =>
          obtain ⟨y, hy, he⟩ := a2 (by rw [hr, hd]; rfl)
          obtain ⟨v', hv', hb⟩ := defaultBits_some hy (fun _ _ _ => hL₀ _)
          rw [hd] at hv'; cases hv'
          rw [he, hb _ (covers_sub_lt hc₀)]
          rfl
  | invert =>
    simp only [specCall] at h
    obtain ⟨g1, h1, h2⟩ := Rbind_ok h
    cases h2
    obtain ⟨y, hy, he⟩ := storeAll_all hB h1 hf₀ hc₀
    rw [he, absorb_bits (hL₀ _) hy _ (covers_sub_lt hc₀), bitsOf_sub hc₀]
    rfl
  | getBit o' => simp only [specCall] at h; cases h; rfl
  | checkedGetBit o' =>
    simp only [specCall] at h
    split at h
    · cases h; rfl
    · split at h <;> (cases h; rfl)
  | getRange o' l => simp only [specCall] at h; cases h; rfl
  | checkedGetRange o' l =>
    simp only [specCall] at h
    split at h
    · cases h; rfl
    · split at h
      · cases h; rfl
      · split at h <;> (cases h; rfl)
  | into e => simp only [specCall] at h; cases h; rfl
  | intoTrait => simp only [specCall] at h; cases h; rfl
  | intoSlice e sl => simp only [specCall] at h; cases h; rfl
  | checkedIntoSlice e sl =>
    simp only [specCall] at h
    split at h <;> (cases h; rfl)
  | debug => simp only [specCall] at h; cases h; rfl

/-! ## Where panics come from -/

/-- A panic of the user's `from_bits` on a pattern of some field's width. -/
def UserPanic (B : Bitfield) (p : Panic) : Prop :=
  ∃ f ∈ B.fields, ∃ cd, f.ty = .custom cd ∧ ∃ n < 2 ^ f.bits, cd.fromBits n = .error p

theorem roundTrip_err {B : Bitfield} {f : Field} (hf : f ∈ B.fields) {x : Bits} {p : Panic}
    (h : roundTrip f x = .error p) : UserPanic B p := by
  unfold roundTrip at h
  cases hty : f.ty with
  | custom cd =>
    rw [hty] at h
    exact ⟨f, hf, cd, hty, _, natOf_lt _ _, Rmap_err h⟩
  | _ => rw [hty] at h; cases h

theorem absorb_err {B : Bitfield} {f : Field} (hf : f ∈ B.fields) {x : Bits} {p : Panic}
    (h : absorb f x = .error p) : UserPanic B p := by
  unfold absorb at h
  split at h
  · rcases Rbind_err h with h | ⟨y, _, h⟩ <;> exact roundTrip_err hf h
  · exact roundTrip_err hf h

theorem decode_err {B : Bitfield} {f : Field} (hf : f ∈ B.fields) {x : Bits} {p : Panic}
    (h : decode f x = .error p) : UserPanic B p := by
  unfold decode at h
  cases hty : f.ty with
  | custom cd =>
    rw [hty] at h
    exact ⟨f, hf, cd, hty, _, natOf_lt _ _, Rmap_err h⟩
  | int t => rw [hty] at h; cases t <;> cases h
  | array len => rw [hty] at h; cases h

theorem decodeZ_err {B : Bitfield} {f : Field} (hf : f ∈ B.fields) {x : Bits} {p : Panic}
    (h : decodeZ f x = .error p) : UserPanic B p := by
  unfold decodeZ at h
  cases hty : f.ty with
  | custom cd =>
    rw [hty] at h
    exact ⟨f, hf, cd, hty, _, natOf_lt _ _, Rmap_err h⟩
  | int t => rw [hty] at h; cases t <;> cases h
  | array len => rw [hty] at h; cases h

theorem defaultBits_err {B : Bitfield} {f : Field} (hf : f ∈ B.fields) {p : Panic}
    (hd : f.default.isSome = true) (h : f.defaultBits = .error p) : UserPanic B p := by
  unfold Field.defaultBits at h
  cases hdef : f.default with
  | none => rw [hdef] at hd; cases hd
  | some v =>
    rw [hdef] at h
    simp only at h
    split at h
    · exact roundTrip_err hf h
    · cases h

theorem defaultsAll_err {B : Bitfield} {g : Bits} {p : Panic} (h : defaultsAll B g = .error p) :
    UserPanic B p := by
  obtain ⟨f, hf, he⟩ := storeAll_err h
  exact defaultBits_err (mem_of_filter hf) (List.mem_filter.mp hf).2 he

theorem specCall_err {B : Bitfield} {c : Call} (hc : c.Valid B) {g : Bits} {p : Panic}
    (h : specCall B c g = .error p) : UserPanic B p := by
  cases c with
  | get f => exact decode_err hc.1 (Rmap_err h)
  | inverted f => exact decodeZ_err hc.1 (Rmap_err h)
  | set f v => exact roundTrip_err hc.1 (Rmap_err h)
  | checkedSet f v =>
    simp only [specCall] at h
    split at h
    · exact roundTrip_err hc.1 (Rmap_err h)
    · cases h
  | clearField f => exact absorb_err hc.1 (Rmap_err h)
  | clearFieldToDefault f => exact defaultBits_err hc.1 hc.2.2 (Rmap_err h)
  | invertField f => exact absorb_err hc.1 (Rmap_err h)
  | checkedGetBit o =>
    simp only [specCall] at h
    split at h
    · cases h
    · split at h <;> cases h
  | checkedSetBit o b =>
    simp only [specCall] at h
    split at h
    · cases h
    · split at h <;> cases h
  | checkedGetRange o l =>
    simp only [specCall] at h
    split at h
    · cases h
    · split at h
      · cases h
      · split at h <;> cases h
  | checkedSetRange o l x =>
    simp only [specCall] at h
    split at h
    · cases h
    · split at h
      · cases h
      · split at h <;> cases h
  | checkedIntoSlice e sl =>
    simp only [specCall] at h
    split at h <;> cases h
  | write e d x =>
    simp only [specCall] at h
    rcases Rbind_err h with h | ⟨g1, _, h⟩
    · obtain ⟨f, hf, he⟩ := storeAll_err h
      exact absorb_err (mem_of_filter hf) he
    · cases d with
      | false => cases h
      | true =>
        rcases Rbind_err h with h | ⟨g2, _, h⟩
        · exact defaultsAll_err h
        · cases h
  | writeDefaults =>
    rcases Rbind_err h with h | ⟨g2, _, h⟩
    · exact defaultsAll_err h
    · cases h
  | clear d =>
    cases d with
    | true =>
      rcases Rbind_err h with h | ⟨g1, _, h⟩
      · obtain ⟨f, hf, he⟩ := storeAll_err h
        exact absorb_err (mem_of_filter hf) he
      · rcases Rbind_err h with h | ⟨g2, _, h⟩
        · exact defaultsAll_err h
        · cases h
    | false =>
      rcases Rbind_err h with h | ⟨g1, _, h⟩
      · obtain ⟨f, hf, he⟩ := storeAll_err h
        exact absorb_err hf he
      · rcases Rbind_err h with h | ⟨g2, _, h⟩
        · obtain ⟨f, hf, he⟩ := storeAll_err h
          have := (List.mem_filter.mp hf).2
          rw [Bool.and_eq_true] at this
          exact defaultBits_err (mem_of_filter hf) this.2 he
        · cases h
  | invert =>
    rcases Rbind_err h with h | ⟨g1, _, h⟩
    · obtain ⟨f, hf, he⟩ := storeAll_err h
      exact absorb_err hf he
    · cases h
  | _ => cases h

end Bf
