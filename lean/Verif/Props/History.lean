import Verif.Lemmas.Ranges
import Verif.Props.Construct
import Verif.Props.Convert

/-!
# Histories of calls (C31 - C33, C36, C38)

`history m B cs s` runs the calls `cs` one after the other on a bitfield value `s` and gives the
list of results and the final value.
-/

namespace Bf

variable {B : Bitfield} {f : Field}

theorem WF.not_covers {B : Bitfield} (hB : WF B) {f f' : Field} (hf : f ∈ B.fields)
    (hf' : f' ∈ B.fields) (hne : f' ≠ f) {i : Nat} (hc : f.covers i = true) :
    f'.covers i = false := by
  cases h : f'.covers i with
  | false => rfl
  | true => exact absurd (hB.owner_unique hf' hf h hc) hne

/-- One call of the abstract machine leaves protected bits alone. -/
theorem specCall_protected (hB : WF B) {c : Call} (hc : c.Valid B) (hr : c.Resets = false)
    {g g' : Bits} {o : Out} (h : specCall B c g = .ok (o, g')) (hf : f ∈ B.fields)
    (hw : f.isWritable = false)
    (hL : c.isInvert = true → Preserves f fun i => g (f.offset + i))
    {i : Nat} (hi : f.covers i = true) : g' i = g i := by
  have hne : ∀ f', f'.isWritable = true → f' ≠ f := by
    intro f' h1 h2; rw [h2, hw] at h1; cases h1
  have hwi : B.writable i = false := by rw [hB.writable_eq hf hi, hw]
  cases c with
  | get f' => obtain ⟨_, _, e⟩ := Rmap_ok h; cases e; rfl
  | inverted f' => obtain ⟨_, _, e⟩ := Rmap_ok h; cases e; rfl
  | set f' v =>
    obtain ⟨_, _, e⟩ := Rmap_ok h; cases e
    rw [overwrite_not_covers (hB.not_covers hf hc.1 (hne f' hc.2.1) hi)]
  | checkedSet f' v =>
    simp only [specCall] at h
    split at h
    · obtain ⟨_, _, e⟩ := Rmap_ok h; cases e
      rw [overwrite_not_covers (hB.not_covers hf hc.1 (hne f' hc.2.1) hi)]
    · cases h; rfl
  | clearField f' =>
    obtain ⟨_, _, e⟩ := Rmap_ok h; cases e
    rw [overwrite_not_covers (hB.not_covers hf hc.1 (hne f' hc.2) hi)]
  | clearFieldToDefault f' =>
    obtain ⟨_, _, e⟩ := Rmap_ok h; cases e
    rw [overwrite_not_covers (hB.not_covers hf hc.1 (hne f' hc.2.1) hi)]
  | invertField f' =>
    obtain ⟨_, _, e⟩ := Rmap_ok h; cases e
    rw [overwrite_not_covers (hB.not_covers hf hc.1 (hne f' hc.2) hi)]
  | getBit k => cases h; rfl
  | checkedGetBit k =>
    simp only [specCall] at h
    split at h
    · cases h; rfl
    · split at h <;> cases h <;> rfl
  | setBit k b =>
    cases h
    refine if_neg ?_
    rintro ⟨rfl, h⟩
    rw [hwi] at h; cases h
  | checkedSetBit k b =>
    simp only [specCall] at h
    split at h
    · cases h; rfl
    · split at h
      · rename_i hk
        cases h
        refine if_neg ?_
        rintro rfl
        rw [hwi] at hk; cases hk
      · cases h; rfl
  | getRange k l => cases h; rfl
  | checkedGetRange k l =>
    simp only [specCall] at h
    split at h
    · cases h; rfl
    · split at h
      · cases h; rfl
      · split at h <;> cases h <;> rfl
  | setRange k l x =>
    cases h
    refine if_neg ?_
    rintro ⟨_, _, _, h⟩
    rw [hwi] at h; cases h
  | checkedSetRange k l x =>
    simp only [specCall] at h
    split at h
    · cases h; rfl
    · split at h
      · cases h; rfl
      · split at h
        · rename_i hk
          cases h
          refine if_neg ?_
          rintro ⟨h1, h2⟩
          have := rangeForall_iff.mp hk (i - k) (by omega)
          rw [show k + (i - k) = i by omega, hwi] at this
          cases this
        · cases h; rfl
  | into e => cases h; rfl
  | intoTrait => cases h; rfl
  | intoSlice e sl => cases h; rfl
  | checkedIntoSlice e sl =>
    simp only [specCall] at h
    split at h <;> cases h <;> rfl
  | write e d x =>
    cases d with
    | true => cases hr
    | false =>
      simp only [specCall, Bool.false_eq_true, if_false] at h
      obtain ⟨g1, h1, h2⟩ := Rbind_ok h
      cases h2
      exact (storeAll_filter hB h1 hf hi).1 hw
  | writeDefaults => cases hr
  | clear d => cases hr
  | invert =>
    simp only [specCall] at h
    obtain ⟨g1, h1, h2⟩ := Rbind_ok h
    cases h2
    obtain ⟨y, h3, h4⟩ := storeAll_all hB h1 hf hi
    rw [h4]
    have e : ∀ i < f.bits, f.bitsOf (fun i => if B.writable i then !g i else g i) i =
        g (f.offset + i) := by
      intro k hk
      have hwk : B.writable (f.offset + k) = false := by rw [hB.writable_eq hf (covers_add hk), hw]
      simp only [Field.bitsOf, hwk]
      rfl
    rw [absorb_bits (Preserves.congr (fun k hk => (e k hk).symm) (hL rfl)) h3 _ (covers_sub_lt hi),
      e _ (covers_sub_lt hi)]
    have := (covers_iff.mp hi).1
    rw [show f.offset + (i - f.offset) = i by omega]
  | debug => cases h; rfl

theorem call_ok_backing (m : Mode) (hB : WF B) (hS : Supported B) {c : Call} (hc : c.Typed B)
    {s s' : Store} (hs : s.HasBacking B.backing) {o : Out} (h : call m B c s = .ok (o, s')) :
    s'.HasBacking B.backing := by
  rcases typed_cases m hB hS hc with hv | ⟨p, e⟩ | ⟨msg, e⟩ | ⟨c', hv, _, _, _, _, e⟩
  · obtain ⟨g, rfl⟩ := Store.cases_ofBits hs
    rw [call_refines m hB hS c hv] at h
    obtain ⟨_, _, h⟩ := Rmap_ok h
    cases h; exact Store.hasBacking_ofBits _ _
  · rw [e s hs] at h; cases h
  · rw [e s hs] at h; cases h; exact hs
  · rw [e s hs] at h
    obtain ⟨g, rfl⟩ := Store.cases_ofBits hs
    rw [call_refines m hB hS c' hv] at h
    obtain ⟨_, _, h⟩ := Rmap_ok h
    cases h; exact Store.hasBacking_ofBits _ _

/-- One call leaves protected bits alone, whatever its arguments. -/
theorem call_protected (m : Mode) (hB : WF B) (hS : Supported B) {c : Call} (hc : c.Typed B)
    (hr : c.Resets = false) {s s' : Store} (hs : s.HasBacking B.backing) {o : Out}
    (h : call m B c s = .ok (o, s')) (hf : f ∈ B.fields) (hw : f.isWritable = false)
    (hL : c.isInvert = true → Preserves f fun i => s.bit (f.offset + i))
    {i : Nat} (hi : f.covers i = true) : s'.bit i = s.bit i := by
  have hlt := hB.covers_lt hf hi
  have key : ∀ c : Call, c.Valid B → c.Resets = false →
      (c.isInvert = true → Preserves f fun i => s.bit (f.offset + i)) →
      call m B c s = .ok (o, s') → s'.bit i = s.bit i := by
    intro c hv hr hL h
    rw [← Store.ofBits_bit hs, call_refines m hB hS c hv] at h
    obtain ⟨⟨o1, g1⟩, h1, h2⟩ := Rmap_ok h
    cases h2
    rw [Store.bit_ofBits_lt hlt]
    exact specCall_protected hB hv hr h1 hf hw hL hi
  rcases typed_cases m hB hS hc with hv | ⟨p, e⟩ | ⟨msg, e⟩ | ⟨c', hv, e1, _, e2, _, e⟩
  · exact key c hv hr hL h
  · rw [e s hs] at h; cases h
  · rw [e s hs] at h; cases h; rfl
  · rw [e s hs] at h
    exact key c' hv (by rw [e1, hr]) (by rw [e2]; exact hL) h

theorem history_cons_ok {m : Mode} {c : Call} {cs : List Call} {s s' : Store} {os : List Out}
    (h : history m B (c :: cs) s = .ok (os, s')) :
    ∃ o s1 os', call m B c s = .ok (o, s1) ∧ history m B cs s1 = .ok (os', s') ∧ os = o :: os' := by
  simp only [history] at h
  obtain ⟨⟨o, s1⟩, h1, h2⟩ := Rbind_ok h
  obtain ⟨⟨os', s2⟩, h3, h4⟩ := Rbind_ok h2
  cases h4
  exact ⟨o, s1, os', h1, h3, rfl⟩

/-- The calls of C31: everything except `clear_bits()`, `clear_bits_with_defaults()`,
`write_defaults()` and `write_*_with_defaults()`. -/
def Call.Ordinary (c : Call) : Prop :=
  (∀ d, c ≠ .clear d) ∧ c ≠ .writeDefaults ∧ ∀ e x, c ≠ .write e true x

theorem Call.Ordinary.resets {c : Call} (h : c.Ordinary) : c.Resets = false := by
  cases c with
  | clear d => exact absurd rfl (h.1 d)
  | writeDefaults => exact absurd rfl h.2.1
  | write e d x =>
    cases d
    · rfl
    · exact absurd rfl (h.2.2 e x)
  | _ => rfl

/-- **C31.** After any sequence of ordinary calls with any arguments rustc accepts, in either overflow
mode, every bit of a read-only, no-access or reserved field is what it was. (`invert_bits` sends the bits of *every* field through the field's type: if it is used, the
types of custom protected fields must preserve patterns.) -/
theorem C31_protected (m : Mode) (hB : WF B) (hS : Supported B) (cs : List Call)
    (ht : ∀ c ∈ cs, c.Typed B) (ho : ∀ c ∈ cs, c.Ordinary) (s : Store)
    (hs : s.HasBacking B.backing) {os : List Out} {s' : Store}
    (h : history m B cs s = .ok (os, s')) (hf : f ∈ B.fields)
    (hp : f.access = .ro ∨ f.access = .na ∨ f.reserved = true)
    (hL : Call.invert ∈ cs → FieldLawful f) :
    s'.HasBacking B.backing ∧ ∀ i < f.bits, s'.bit (f.offset + i) = s.bit (f.offset + i) := by
  have hw : f.isWritable = false := by
    unfold Field.isWritable
    rcases hp with h | h | h <;> rw [h]
    · cases f.reserved <;> rfl
    · cases f.reserved <;> rfl
    · rfl
  induction cs generalizing s os with
  | nil => cases h; exact ⟨hs, fun _ _ => rfl⟩
  | cons c cs ih =>
    obtain ⟨o, s1, os', h1, h2, _⟩ := history_cons_ok h
    have htc := ht c List.mem_cons_self
    have hs1 := call_ok_backing m hB hS htc hs h1
    obtain ⟨h3, h4⟩ := ih (fun c hc => ht c (List.mem_cons_of_mem _ hc))
      (fun c hc => ho c (List.mem_cons_of_mem _ hc)) s1 hs1 h2
      (fun hi => hL (List.mem_cons_of_mem _ hi))
    refine ⟨h3, fun i hi => ?_⟩
    rw [h4 i hi]
    refine call_protected m hB hS htc (ho c List.mem_cons_self).resets hs h1 hf hw ?_ (covers_add hi)
    intro hinv
    cases c <;> first | cases hinv | skip
    exact (hL List.mem_cons_self).preserves _

/-- A history with accepted and rejected writes, `invert_bits`, a range write with overflowing
`offset + length`, and reads. -/
def Ex.calls : List Call :=
  [.set Ex.a (.int 3), .checkedSet Ex.a (.int 200), .setBit 7 true, .setRange 2 9 (.int 16 0xFFFF#16),
   .invert, .setRange 3 4294967295 (.int 16 0xFFFF#16), .write none false (.int 16 0x1234#16),
   .get Ex.b]

theorem Ex.calls_typed : ∀ c ∈ Ex.calls, c.Typed Ex.I := by
  simp only [Ex.calls, List.forall_mem_cons, List.not_mem_nil, false_imp_iff, implies_true, and_true]
  refine ⟨⟨by simp [Ex.I], rfl, ?_⟩, ⟨by simp [Ex.I], rfl, ?_⟩, ?_, ⟨?_, ?_, rfl⟩, trivial,
    ⟨?_, ?_, rfl⟩, rfl, by simp [Ex.I], rfl, rfl⟩ <;> simp [HasType, Ex.a, IntTy.unsigned, IntTy.bitSize, Call.Typed]

theorem Ex.calls_ordinary : ∀ c ∈ Ex.calls, c.Ordinary := by
  simp only [Ex.calls, List.forall_mem_cons, List.not_mem_nil, false_imp_iff, implies_true, and_true]
  refine ⟨?_, ?_, ?_, ?_, ?_, ?_, ?_, ?_⟩ <;>
    exact ⟨fun _ => by simp, by simp, fun _ _ => by simp⟩

example (v : BitVec 16) {os : List Out} {s' : Store}
    (h : history .wrapping Ex.I Ex.calls (.int 16 v) = .ok (os, s')) :
    s'.HasBacking (.int 16) ∧ ∀ i < 4, s'.bit (12 + i) = v.getLsbD (12 + i) :=
  C31_protected (B := Ex.I) (f := Ex.e) .wrapping Ex.wfI Ex.supportedI Ex.calls Ex.calls_typed
    Ex.calls_ordinary (.int 16 v) rfl h (by simp [Ex.I]) (.inr (.inl rfl))
    fun _ => Ex.lawfulI Ex.e (by simp [Ex.I])

/-! ## Reserved fields -/

/-- `clear_bits` and the constructors give a reserved field its default, or zero. -/
theorem specClear_keeps (hB : WF B) {d : Bool} {g g' : Bits} {o : Out}
    (h : specCall B (.clear d) g = .ok (o, g')) (hf : f ∈ B.fields) (hr : f.reserved = true) {x : Bits}
    (hx : ∀ v, f.default = some v → x = encode f.ty v)
    (hz : f.default = none → x = fun _ => false) (hp : Preserves f x) :
    ∀ i < f.bits, g' (f.offset + i) = x i := by
  have hw : f.isWritable = false := by unfold Field.isWritable; rw [hr]; rfl
  intro i hi
  have habs : f.default = none → ∀ y, absorb f (fun _ => false) = .ok y → y i = x i := by
    intro hd y hy
    rw [hz hd] at hp ⊢
    exact absorb_bits hp hy i hi
  cases d with
  | false =>
    simp only [specCall] at h
    obtain ⟨g1, h1, h2⟩ := Rbind_ok h
    obtain ⟨g2, h3, h4⟩ := Rbind_ok h2
    cases h4
    obtain ⟨hk1, hk2⟩ := storeAll_filter hB h3 hf (covers_add hi)
    cases hd : f.default with
    | none =>
      rw [hk1 (by simp [hd])]
      obtain ⟨y, hy, e⟩ := storeAll_all hB h1 hf (covers_add hi)
      rw [e, Nat.add_sub_cancel_left]
      exact habs hd y hy
    | some v =>
      obtain ⟨y, hy, e⟩ := hk2 (by simp [hd, hr])
      obtain ⟨v', hv', e'⟩ := defaultBits_some hy (fun h => by rw [hw] at h; cases h)
      rw [e, Nat.add_sub_cancel_left, e' i hi, hx v' hv']
  | true =>
    simp only [specCall] at h
    obtain ⟨g1, h1, h2⟩ := Rbind_ok h
    obtain ⟨g2, h3, h4⟩ := Rbind_ok h2
    cases h4
    rw [defaultsAll_ok hB h3 hf (covers_add hi) (fun h => by rw [hw] at h; cases h),
      hB.defaultBit_eq hf (covers_add hi), Nat.add_sub_cancel_left]
    cases hd : f.default with
    | none =>
      obtain ⟨y, hy, e⟩ := (storeAll_filter hB h1 hf (covers_add hi)).2 (by simp [hd])
      show g1 (f.offset + i) = x i
      rw [e, Nat.add_sub_cancel_left]
      exact habs hd y hy
    | some v => rw [hx v hd]; rfl

/-- A field without setter that holds a pattern its type preserves, and its default if it
has one and zero otherwise, does so after any call, reset calls included. -/
theorem specCall_keeps (hB : WF B) {c : Call} (hc : c.Valid B) {g g' : Bits} {o : Out}
    (h : specCall B c g = .ok (o, g')) (hf : f ∈ B.fields) (hr : f.reserved = true) {x : Bits}
    (hx : ∀ v, f.default = some v → x = encode f.ty v)
    (hz : f.default = none → x = fun _ => false) (hp : Preserves f x)
    (hg : ∀ i < f.bits, g (f.offset + i) = x i) : ∀ i < f.bits, g' (f.offset + i) = x i := by
  have hw : f.isWritable = false := by unfold Field.isWritable; rw [hr]; rfl
  intro i hi
  cases hres : c.Resets with
  | false =>
    rw [specCall_protected hB hc hres h hf hw
      (fun _ => Preserves.congr (fun k hk => (hg k hk).symm) hp) (covers_add hi), hg i hi]
  | true =>
    have hdef : ∀ {a b : Bits}, defaultsAll B a = .ok b →
        (f.default = none → a (f.offset + i) = x i) → b (f.offset + i) = x i := by
      intro a b hab ha
      rw [defaultsAll_ok hB hab hf (covers_add hi) (fun h => by rw [hw] at h; cases h),
        hB.defaultBit_eq hf (covers_add hi), Nat.add_sub_cancel_left]
      cases hd : f.default with
      | none => exact ha hd
      | some v => rw [hx v hd]; rfl
    cases c with
    | write e d x' =>
      cases d with
      | false => cases hres
      | true =>
        simp only [specCall, if_true] at h
        obtain ⟨g1, h1, h2⟩ := Rbind_ok h
        obtain ⟨g2, h3, h4⟩ := Rbind_ok h2
        cases h4
        refine hdef h3 fun _ => ?_
        rw [(storeAll_filter hB h1 hf (covers_add hi)).1 hw, hg i hi]
    | writeDefaults =>
      simp only [specCall] at h
      obtain ⟨g1, h1, h2⟩ := Rbind_ok h
      cases h2
      exact hdef h1 fun _ => hg i hi
    | clear d => exact specClear_keeps hB h hf hr hx hz hp i hi
    | _ => cases hres

theorem call_keeps (m : Mode) (hB : WF B) (hS : Supported B) {c : Call} (hc : c.Typed B)
    {s s' : Store} (hs : s.HasBacking B.backing) {o : Out} (h : call m B c s = .ok (o, s'))
    (hf : f ∈ B.fields) (hr : f.reserved = true) {x : Bits}
    (hx : ∀ v, f.default = some v → x = encode f.ty v)
    (hz : f.default = none → x = fun _ => false) (hp : Preserves f x)
    (hg : ∀ i < f.bits, s.bit (f.offset + i) = x i) : ∀ i < f.bits, s'.bit (f.offset + i) = x i := by
  have key : ∀ c : Call, c.Valid B → call m B c s = .ok (o, s') →
      ∀ i < f.bits, s'.bit (f.offset + i) = x i := by
    intro c hv h
    rw [← Store.ofBits_bit hs, call_refines m hB hS c hv] at h
    obtain ⟨⟨o1, g1⟩, h1, h2⟩ := Rmap_ok h
    cases h2
    intro i hi
    rw [Store.bit_ofBits_lt (hB.add_lt hf hi)]
    exact specCall_keeps hB hv h1 hf hr hx hz hp hg i hi
  rcases typed_cases m hB hS hc with hv | ⟨p, e⟩ | ⟨msg, e⟩ | ⟨c', hv, e1, _, e2, _, e⟩
  · exact key c hv h
  · rw [e s hs] at h; cases h
  · rw [e s hs] at h; cases h; exact hg
  · rw [e s hs] at h
    exact key c' hv h

theorem history_keeps (m : Mode) (hB : WF B) (hS : Supported B) (cs : List Call)
    (ht : ∀ c ∈ cs, c.Typed B) (s : Store) (hs : s.HasBacking B.backing) {os : List Out} {s' : Store}
    (h : history m B cs s = .ok (os, s'))
    (hf : f ∈ B.fields) (hr : f.reserved = true) {x : Bits}
    (hx : ∀ v, f.default = some v → x = encode f.ty v)
    (hz : f.default = none → x = fun _ => false) (hp : Preserves f x)
    (hg : ∀ i < f.bits, s.bit (f.offset + i) = x i) : ∀ i < f.bits, s'.bit (f.offset + i) = x i := by
  induction cs generalizing s os with
  | nil => cases h; exact hg
  | cons c cs ih =>
    obtain ⟨o, s1, os', h1, h2, _⟩ := history_cons_ok h
    have htc := ht c List.mem_cons_self
    exact ih (fun c hc => ht c (List.mem_cons_of_mem _ hc)) s1 (call_ok_backing m hB hS htc hs h1) h2
      (call_keeps m hB hS htc hs h1 hf hr hx hz hp hg)

/-- A builder chain does not touch reserved fields: they have no `with_` methods. -/
theorem builderRun_reserved (m : Mode) (hB : WF B) (hS : Supported B) (cs : List BuilderCall)
    (hc : ∀ c ∈ cs, c.f ∈ B.fields ∧ c.f.reserved = false ∧ HasType c.f.ty c.v) (s : Store)
    (hs : s.HasBacking B.backing) {s' : Store} (h : builderRun m cs s = .ok (.ok s'))
    (hf : f ∈ B.fields) (hr : f.reserved = true) :
    s'.HasBacking B.backing ∧ ∀ i < f.bits, s'.bit (f.offset + i) = s.bit (f.offset + i) := by
  induction cs generalizing s with
  | nil => cases h; exact ⟨hs, fun _ _ => rfl⟩
  | cons c cs ih =>
    obtain ⟨hcf, hcr, hcv⟩ := hc c List.mem_cons_self
    have hne : c.f ≠ f := fun e => by rw [e, hr] at hcr; cases hcr
    have hfok := hB.field c.f hcf
    simp only [builderRun] at h
    rw [C16_with m c.check c.f hcv] at h
    obtain ⟨⟨r, s1⟩, h1, h2⟩ := Rbind_ok h
    have hs1 : r = .ok () → s1.HasBacking B.backing ∧
        ∀ i < f.bits, s1.bit (f.offset + i) = s.bit (f.offset + i) := by
      intro hr
      obtain ⟨g, rfl⟩ := Store.cases_ofBits hs
      have hov : ∀ v', s1 = Store.ofBits B.backing (overwrite c.f (encode c.f.ty v') g) →
          s1.HasBacking B.backing ∧
          ∀ i < f.bits, s1.bit (f.offset + i) = (Store.ofBits B.backing g).bit (f.offset + i) := by
        rintro v' rfl
        refine ⟨Store.hasBacking_ofBits _ _, fun i hi => ?_⟩
        rw [Store.bit_ofBits_lt (hB.add_lt hf hi), Store.bit_ofBits_lt (hB.add_lt hf hi),
          overwrite_not_covers (hB.not_covers hf hcf hne (covers_add hi))]
      cases hck : c.check with
      | true =>
        rw [hck, checkedSet_eq m hB.backing hfok (hS.field c.f hcf) hcv] at h1
        split at h1
        · cases h1; cases hr
        · obtain ⟨v', _, e⟩ := Rmap_ok h1
          cases e
          exact hov v' rfl
      | false =>
        have e := setX_eq m hB.backing hfok (hS.field c.f hcf) hcv g
        unfold setX at e
        rw [hck] at h1
        rw [h1] at e
        obtain ⟨v', _, e⟩ := Rmap_ok e.symm
        exact hov v' e.symm
    cases r with
    | error e => cases h2
    | ok u =>
      obtain ⟨h3, h4⟩ := hs1 rfl
      obtain ⟨h5, h6⟩ := ih (fun c hc' => hc c (List.mem_cons_of_mem _ hc')) s1 h3 h2
      exact ⟨h5, fun i hi => by rw [h6 i hi, h4 i hi]⟩

theorem length_padTo (n : Nat) (sl : List (BitVec 8)) : (padTo n sl).length = n := by
  unfold padTo; simp only [List.length_append, List.length_take, List.length_replicate]; omega

/-- All conversions from raw bits go through `from_{le,be}_bits{,_with_defaults}`. -/
theorem origin_from (m : Mode) {og : Origin} (ht : og.Typed B) (hf : og.isFresh = false) :
    (∃ msg, og.run m B = .ok (.error msg)) ∨
    ∃ e x, x.HasBacking B.backing ∧ og.run m B =
      (if og.isRaw then apiFromE m B e x else apiFromEDefaults m B e x).map .ok := by
  have slice : ∀ (n : Nat) (e : Endian) (d : Bool) (sl : List (BitVec 8)), B.backing = .arr n →
      (Store.arr (padTo n sl)).HasBacking B.backing ∧ apiFromSlice m B e d sl =
        (if !d then apiFromE m B e (.arr (padTo n sl)) else apiFromEDefaults m B e (.arr (padTo n sl))) := by
    intro n e d sl hn
    refine ⟨by rw [hn]; exact length_padTo n sl, ?_⟩
    cases d with
    | false => exact (C20_from_slice m hn e sl).1
    | true => exact (C20_from_slice m hn e sl).2
  cases og with
  | new => cases hf
  | newWithoutDefaults => cases hf
  | default g => cases hf
  | builder g d cs => cases hf
  | «from» e d x =>
    refine .inr ⟨e.getD B.fromEndian, x, ht, ?_⟩
    cases e <;> cases d <;> rfl
  | fromTrait x =>
    refine .inr ⟨B.fromEndian, x, ht, ?_⟩
    simp only [Origin.run, (C18_from_traits m B x ht).1, Origin.isRaw, if_true]
    rfl
  | fromSlice e d sl =>
    obtain ⟨n, hn⟩ := ht
    obtain ⟨h1, h2⟩ := slice n (e.getD B.fromEndian) d sl hn
    exact .inr ⟨_, _, h1, congrArg (Except.map Except.ok) h2⟩
  | checkedFromSlice e d sl =>
    obtain ⟨n, hn⟩ := ht
    obtain ⟨h1, h2⟩ := slice n (e.getD B.fromEndian) d sl hn
    obtain ⟨h3, h4⟩ := C20_checked_from_slice m hn (e.getD B.fromEndian) d sl
    by_cases hl : sl.length < n
    · exact .inl ⟨_, h3 hl⟩
    · refine .inr ⟨e.getD B.fromEndian, _, h1, ?_⟩
      show apiCheckedFromSlice m B _ d sl = _
      rw [h4 (by omega), h2]
      rfl

theorem newBody_reserved (m : Mode) (hB : WF B) (hS : Supported B) {d : Bool} {s0 : Store}
    (h : newBody m B d (initStore B) = .ok s0) (hf : f ∈ B.fields) (hr : f.reserved = true) {x : Bits}
    (hx : ∀ v, f.default = some v → x = encode f.ty v)
    (hz : f.default = none → x = fun _ => false) (hp : Preserves f x) :
    s0.HasBacking B.backing ∧ ∀ i < f.bits, s0.bit (f.offset + i) = x i := by
  rw [initStore_eq, newBody_bits m hB hS] at h
  obtain ⟨g, h1, rfl⟩ := Rmap_ok h
  obtain ⟨⟨o, g'⟩, h2, rfl⟩ := Rmap_ok h1
  refine ⟨Store.hasBacking_ofBits _ _, fun i hi => ?_⟩
  rw [Store.bit_ofBits_lt (hB.add_lt hf hi)]
  exact specClear_keeps hB h2 hf hr hx hz hp i hi

theorem setDefaults_reserved (m : Mode) (hB : WF B) (hS : Supported B) {g : Bits} {s0 : Store}
    (h : setDefaults m B (Store.ofBits B.backing g) = .ok s0) (hf : f ∈ B.fields)
    (hr : f.reserved = true) {x : Bits} (hx : ∀ v, f.default = some v → x = encode f.ty v)
    (hz : f.default = none → ∀ i < f.bits, g (f.offset + i) = x i) :
    s0.HasBacking B.backing ∧ ∀ i < f.bits, s0.bit (f.offset + i) = x i := by
  have hw : f.isWritable = false := by unfold Field.isWritable; rw [hr]; rfl
  rw [setDefaults_bits m hB hS] at h
  obtain ⟨g', h1, rfl⟩ := Rmap_ok h
  refine ⟨Store.hasBacking_ofBits _ _, fun i hi => ?_⟩
  rw [Store.bit_ofBits_lt (hB.add_lt hf hi),
    defaultsAll_ok hB h1 hf (covers_add hi) (fun h => by rw [hw] at h; cases h),
    hB.defaultBit_eq hf (covers_add hi), Nat.add_sub_cancel_left]
  cases hd : f.default with
  | none => exact hz hd i hi
  | some v => rw [hx v hd]; rfl

theorem origin_reserved (m : Mode) (hB : WF B) (hS : Supported B) (og : Origin) (hog : og.Typed B)
    {s0 : Store} (h : og.run m B = .ok (.ok s0)) (hf : f ∈ B.fields) (hr : f.reserved = true)
    {x : Bits} (hx : ∀ v, f.default = some v → x = encode f.ty v)
    (hz : f.default = none → x = fun _ => false) (hp : Preserves f x)
    (hraw : og.isRaw = false)
    (hne : f.default = none → og.isFresh = true) :
    s0.HasBacking B.backing ∧ ∀ i < f.bits, s0.bit (f.offset + i) = x i := by
  cases hfr : og.isFresh with
  | false =>
    rcases origin_from m hog hfr with ⟨msg, h0⟩ | ⟨e, x, hx0, h0⟩
    · rw [h0] at h; cases h
    · rw [h0, hraw] at h
      obtain ⟨s, h1, h2⟩ := Rmap_ok h
      cases h2
      obtain ⟨g, rfl⟩ := Store.cases_ofBits hx0
      simp only [Bool.false_eq_true, if_false] at h1
      unfold apiFromEDefaults at h1
      rw [fromConv_bits hB.backing, initStore_eq] at h1
      simp only [R_bind_ok] at h1
      rw [setAllFromSource_bits m hB hS] at h1
      obtain ⟨s1, h3, h4⟩ := Rbind_ok h1
      obtain ⟨g1, _, rfl⟩ := Rmap_ok h3
      refine setDefaults_reserved m hB hS h4 hf hr hx fun hd => ?_
      rw [hne hd] at hfr; cases hfr
  | true =>
    cases og with
    | new =>
      obtain ⟨s, h1, h2⟩ := Rmap_ok h
      cases h2
      exact newBody_reserved m hB hS h1 hf hr hx hz hp
    | newWithoutDefaults =>
      obtain ⟨s, h1, h2⟩ := Rmap_ok h
      cases h2
      exact newBody_reserved m hB hS h1 hf hr hx hz hp
    | default genNew =>
      obtain ⟨s, h1, h2⟩ := Rmap_ok h
      cases h2
      cases genNew with
      | true => exact newBody_reserved m hB hS h1 hf hr hx hz hp
      | false =>
        simp only [apiDefault, Bool.false_eq_true, if_false] at h1
        rw [initStore_eq] at h1
        exact setDefaults_reserved m hB hS h1 hf hr hx fun hd i _ => by rw [hz hd]
    | builder genNew d cs =>
      obtain ⟨s, h1, h2⟩ := Rbind_ok h
      have h1' : newBody m B d (initStore B) = .ok s := by
        rw [← h1]; unfold builderNew; cases genNew <;> cases d <;> rfl
      obtain ⟨h3, h4⟩ := newBody_reserved m hB hS h1' hf hr hx hz hp
      obtain ⟨h5, h6⟩ := builderRun_reserved m hB hS cs hog s h3 h2 hf hr
      exact ⟨h5, fun i hi => by rw [h6 i hi, h4 i hi]⟩
    | «from» _ _ _ => cases hfr
    | fromTrait _ => cases hfr
    | fromSlice _ _ _ => cases hfr
    | checkedFromSlice _ _ _ => cases hfr

/-- **C32** (default). However a bitfield value was obtained (`new()`, `new_without_defaults()`,
`default()`, a builder, any `from_*_with_defaults`; not from raw bits without defaults),
and whatever calls followed, a reserved field with a default holds that default. The user's
conversions must preserve it if the field's type is custom. -/
theorem C32_reserved_default (m : Mode) (hB : WF B) (hS : Supported B) (og : Origin)
    (hog : og.Typed B) (hraw : og.isRaw = false) (cs : List Call) (ht : ∀ c ∈ cs, c.Typed B)
    {s0 s' : Store} {os : List Out} (h0 : og.run m B = .ok (.ok s0)) (h : history m B cs s0 = .ok (os, s'))
    (hf : f ∈ B.fields) (hr : f.reserved = true) {v : Val} (hd : f.default = some v)
    (hp : Preserves f (encode f.ty v)) : ∀ i < f.bits, s'.bit (f.offset + i) = encode f.ty v i := by
  have hx : ∀ v', f.default = some v' → encode f.ty v = encode f.ty v' := by
    intro v' e; rw [hd] at e; cases e; rfl
  have hz : f.default = none → encode f.ty v = fun _ => false := by intro e; rw [hd] at e; cases e
  obtain ⟨h1, h2⟩ := origin_reserved m hB hS og hog h0 hf hr hx hz hp hraw
    (fun e => by rw [hd] at e; cases e)
  exact history_keeps m hB hS cs ht s0 h1 h hf hr hx hz hp h2

/-- **C32** (zero). A reserved field without a default is zero for the whole life of a bitfield obtained
from a constructor or a builder. -/
theorem C32_reserved_zero (m : Mode) (hB : WF B) (hS : Supported B) (og : Origin)
    (hog : og.Typed B) (hfresh : og.isFresh = true) (cs : List Call)
    (ht : ∀ c ∈ cs, c.Typed B) {s0 s' : Store} {os : List Out}
    (h0 : og.run m B = .ok (.ok s0)) (h : history m B cs s0 = .ok (os, s'))
    (hf : f ∈ B.fields) (hr : f.reserved = true) (hd : f.default = none)
    (hp : Preserves f fun _ => false) : ∀ i < f.bits, s'.bit (f.offset + i) = false := by
  have hx : ∀ v', f.default = some v' → (fun _ => false) = encode f.ty v' := by
    intro v' e; rw [hd] at e; cases e
  obtain ⟨h1, h2⟩ := origin_reserved m hB hS og hog h0 hf hr hx (fun _ => rfl) hp
    (by cases og <;> first | rfl | cases hfresh) (fun _ => hfresh)
  exact history_keeps m hB hS cs ht s0 h1 h hf hr hx (fun _ => rfl) hp h2

example {s0 s' : Store} {os : List Out}
    (h0 : (Origin.builder false true [⟨false, Ex.e, .int 3⟩]).run .checked Ex.I = .ok (.ok s0))
    (h : history .checked Ex.I (.clear false :: .writeDefaults :: .invert :: Ex.calls.take 5) s0 =
      .ok (os, s')) :
    ∀ i < 2, s'.bit (10 + i) = intBit 2 i := by
  refine C32_reserved_default (B := Ex.I) (f := Ex.r) (v := .int 2) .checked Ex.wfI Ex.supportedI _
    ?_ rfl _ ?_ h0 h (by simp [Ex.I]) rfl rfl (preserves_of_noncustom (by intro c h; cases h) _)
  · intro c hc
    rw [List.mem_singleton] at hc
    subst hc
    exact ⟨by simp [Ex.I], rfl, by simp [HasType, Ex.e, IntTy.unsigned, IntTy.bitSize]⟩
  · intro c hc
    rcases List.mem_cons.mp hc with rfl | hc
    · trivial
    · rcases List.mem_cons.mp hc with rfl | hc
      · trivial
      · rcases List.mem_cons.mp hc with rfl | hc
        · trivial
        · exact Ex.calls_typed c (List.mem_of_mem_take hc)

end Bf
