import Verif.Props.Fields
import Verif.Props.History
import Verif.Props.Declared

/-!
# The fields are the state (C74)

`history m B cs s` makes the calls `cs` on a bitfield that holds `s`.
-/

namespace Bf

variable {B : Bitfield} {f : Field}

/-- The bit belongs to a field that has a setter. -/
def Settable (B : Bitfield) (i : Nat) : Prop := ∃ f ∈ B.fields, f.isWritable = true ∧ f.offset ≤ i ∧ i < f.offset + f.bits

/-- The bit belongs to a field that has a getter. -/
def Gettable (B : Bitfield) (i : Nat) : Prop :=
  ∃ f ∈ B.fields, f.reserved = false ∧ f.isReadable = true ∧ f.offset ≤ i ∧ i < f.offset + f.bits

/-- A value to which the setter of `f` can be called so that the field holds the bits it has in `t`. -/
theorem setter_value (m : Mode) (hB : WF B) (hS : Supported B) (hf : f ∈ B.fields) (hL : FieldLawful f) (t : Bits) :
    ∃ v, HasType f.ty v ∧ ∀ g, setX m f (Store.ofBits B.backing g) v =
      .ok (Store.ofBits B.backing (overwrite f (fun i => t (f.offset + i)) g)) := by
  have hfok := hB.field f hf
  have hfs := hS.field f hf
  have key : ∀ y g, (∀ i < f.bits, y i = t (f.offset + i)) →
      Store.ofBits B.backing (overwrite f y g) = Store.ofBits B.backing (overwrite f (fun i => t (f.offset + i)) g) := by
    intro y g h
    refine congrArg _ (funext fun i => ?_)
    cases hc : f.covers i
    · rw [overwrite_not_covers hc, overwrite_not_covers hc]
    · rw [overwrite_covers hc, overwrite_covers hc, h]
      have := covers_iff.mp hc
      omega
  by_cases hc : ∃ c, f.ty = .custom c
  · obtain ⟨c, hc⟩ := hc
    obtain ⟨code, h1, h2⟩ := hL c hc _ (natOf_lt f.bits fun i => t (f.offset + i))
    have hl : ∀ i < f.bits, intBit (c.intoBits code) i = t (f.offset + i) := by
      intro i hi
      have := congrArg (fun n => intBit n i) h2
      simp only [intBit_emod _ hi, intBit_natCast, testBit_natOf, hi, decide_true, Bool.true_and] at this
      exact this
    have hn : natOf f.bits (intBit (c.intoBits code)) = natOf f.bits fun i => t (f.offset + i) := natOf_congr hl
    have hv : HasType f.ty (.custom code) := by rw [hc]; trivial
    refine ⟨.custom code, hv, fun g => ?_⟩
    rw [setX_bits m hB.backing hfok hfs hv]
    simp only [roundTrip, encode, hc, hn, h1]
    exact congrArg Except.ok (key _ g hl)
  · have hc' : ∀ c, f.ty ≠ .custom c := fun c h => hc ⟨c, h⟩
    have hex : ∃ v, decode f (fun i => t (f.offset + i)) = .ok v := by
      unfold decode
      cases hty : f.ty with
      | custom c => exact absurd hty (hc' c)
      | array len => exact ⟨_, rfl⟩
      | int t => cases t <;> exact ⟨_, rfl⟩
    obtain ⟨v, hv⟩ := hex
    obtain ⟨ht, he⟩ := decode_encode hfok hfs hc' hv
    refine ⟨v, ht, fun g => ?_⟩
    rw [setX_noncustom m hB.backing hfok hfs hc' ht]
    exact congrArg Except.ok (key _ g he)

/-- Setting the fields of a list. -/
theorem setters_run (m : Mode) (hB : WF B) (hS : Supported B) (t : Bits) (fs : List Field)
    (hfs : ∀ f ∈ fs, f ∈ B.fields ∧ f.isWritable = true ∧ FieldLawful f) (g : Bits) :
    ∃ cs os g', (∀ c ∈ cs, ∃ f ∈ fs, ∃ v, c = .set f v ∧ HasType f.ty v) ∧ cs.length = fs.length ∧
      history m B cs (Store.ofBits B.backing g) = .ok (os, Store.ofBits B.backing g') ∧
      ∀ i, g' i = t i ∨ (g' i = g i ∧ ∀ f ∈ fs, f.covers i = false) := by
  induction fs generalizing g with
  | nil => exact ⟨[], [], g, by simp, rfl, rfl, fun i => .inr ⟨rfl, by simp⟩⟩
  | cons f fs ih =>
    obtain ⟨hf, _, hL⟩ := hfs f (.head _)
    obtain ⟨v, h1, h2⟩ := setter_value m hB hS hf hL t
    obtain ⟨cs, os, g', h3, h6, h4, h5⟩ := ih (fun f h => hfs f (.tail _ h)) (overwrite f (fun i => t (f.offset + i)) g)
    refine ⟨.set f v :: cs, .unit :: os, g', fun c hc => ?_, by simp [h6], ?_, fun i => ?_⟩
    · rcases List.mem_cons.mp hc with rfl | hc
      · exact ⟨f, .head _, v, rfl, h1⟩
      · obtain ⟨f', h, h'⟩ := h3 c hc
        exact ⟨f', .tail _ h, h'⟩
    · show (do let x ← call m B (.set f v) _; let y ← history m B cs x.2; pure (x.1 :: y.1, y.2)) = _
      have : call m B (.set f v) (Store.ofBits B.backing g) =
          .ok (.unit, Store.ofBits B.backing (overwrite f (fun i => t (f.offset + i)) g)) := by
        simp only [call, h2]
        rfl
      simp only [this, R_bind_ok, h4]
      rfl
    · rcases h5 i with h | ⟨h, h'⟩
      · exact .inl h
      · cases hc : f.covers i
        · rw [overwrite_not_covers hc] at h
          exact .inr ⟨h, fun f' hf' => by
            rcases List.mem_cons.mp hf' with rfl | hf'
            · exact hc
            · exact h' f' hf'⟩
        · rw [overwrite_covers hc] at h
          have := covers_iff.mp hc
          rw [show f.offset + (i - f.offset) = i by omega] at h
          exact .inl h

/-- **C74** (setters reach). From any state, calling each setter at most once leads to any other state that has the same
bits outside of the fields with setters. -/
theorem C74_setters_reach (m : Mode) (hB : WF B) (hS : Supported B) (hL : ∀ f ∈ B.fields, f.isWritable = true → FieldLawful f)
    {s t : Store} (hs : s.HasBacking B.backing) (ht : t.HasBacking B.backing)
    (h : ∀ i < B.backing.size, ¬ Settable B i → s.bit i = t.bit i) :
    ∃ cs os, (∀ c ∈ cs, ∃ f v, c = .set f v ∧ f ∈ B.fields ∧ f.isWritable = true ∧ HasType f.ty v) ∧
      cs.length ≤ B.fields.length ∧ history m B cs s = .ok (os, t) := by
  obtain ⟨cs, os, g', h1, h4, h2, h3⟩ := setters_run m hB hS t.bit (B.fields.filter Field.isWritable)
    (fun f hf => ⟨(List.mem_filter.mp hf).1, (List.mem_filter.mp hf).2, hL f (List.mem_filter.mp hf).1 (List.mem_filter.mp hf).2⟩) s.bit
  refine ⟨cs, os, fun c hc => ?_, h4 ▸ List.length_filter_le _ _, ?_⟩
  · obtain ⟨f, hf, v, e, hv⟩ := h1 c hc
    exact ⟨f, v, e, (List.mem_filter.mp hf).1, (List.mem_filter.mp hf).2, hv⟩
  · rw [Store.ofBits_bit hs] at h2
    rw [h2, ← Store.ofBits_bit ht]
    refine congrArg (fun x => Except.ok (os, x)) (Store.ofBits_congr fun i hi => ?_)
    rcases h3 i with e | ⟨e, hn⟩
    · exact e
    · rw [e]
      refine h i hi ?_
      rintro ⟨f, hf, hw, h5, h6⟩
      have := hn f (List.mem_filter.mpr ⟨hf, hw⟩)
      rw [covers_iff.mpr ⟨h5, h6⟩] at this
      cases this

/-- **C74** (nothing else does). The states that the calls other than `clear_bits*`, `write_defaults` and
`write_*_with_defaults` lead to are exactly the states that differ only in fields with setters. -/
theorem C74_reachable_iff (m : Mode) (hB : WF B) (hS : Supported B) (hL : Lawful B)
    {s t : Store} (hs : s.HasBacking B.backing) (ht : t.HasBacking B.backing) :
    (∃ cs os, (∀ c ∈ cs, c.Typed B ∧ c.Ordinary) ∧ history m B cs s = .ok (os, t)) ↔
      ∀ i < B.backing.size, ¬ Settable B i → s.bit i = t.bit i := by
  constructor
  · rintro ⟨cs, os, h1, h2⟩ i hi hn
    obtain ⟨f, hf, hc⟩ := hB.cover i hi
    have hw : f.isWritable = false := by
      cases e : f.isWritable
      · rfl
      · exact absurd ⟨f, hf, e, covers_iff.mp hc⟩ hn
    have hp : f.access = .ro ∨ f.access = .na ∨ f.reserved = true := by
      revert hw
      unfold Field.isWritable
      cases f.reserved <;> cases f.access <;> simp
    have h3 := (C31_protected m hB hS cs (fun c hc => (h1 c hc).1) (fun c hc => (h1 c hc).2) s hs h2 hf hp fun _ => hL f hf).2
      (i - f.offset) (by have := covers_iff.mp hc; omega)
    rw [show f.offset + (i - f.offset) = i by have := covers_iff.mp hc; omega] at h3
    exact h3.symm
  · intro h
    obtain ⟨cs, os, h1, -, h2⟩ := C74_setters_reach m hB hS (fun f hf _ => hL f hf) hs ht h
    refine ⟨cs, os, fun c hc => ?_, h2⟩
    obtain ⟨f, v, rfl, h3, h4, h5⟩ := h1 c hc
    exact ⟨⟨h3, h4, h5⟩, nofun, nofun, nofun⟩

/-- **C74** (getters tell apart). If all getters give the same on two states and the bits without getters are the same, the
states are the same. -/
theorem C74_getters_separate (m : Mode) (hB : WF B) (hS : Supported B)
    (hL : ∀ f ∈ B.fields, f.reserved = false → f.isReadable = true → FieldLawful f)
    {s t : Store} (hs : s.HasBacking B.backing) (ht : t.HasBacking B.backing)
    (hg : ∀ f ∈ B.fields, f.reserved = false → f.isReadable = true → getX m f s = getX m f t)
    (h : ∀ i < B.backing.size, ¬ Gettable B i → s.bit i = t.bit i) : s = t := by
  rw [← Store.ofBits_bit hs, ← Store.ofBits_bit ht]
  refine Store.ofBits_congr fun i hi => ?_
  obtain ⟨f, hf, hc⟩ := hB.cover i hi
  obtain ⟨h1, h2⟩ := covers_iff.mp hc
  by_cases hr : f.reserved = false ∧ f.isReadable = true
  · have e := hg f hf hr.1 hr.2
    by_cases hcu : ∃ c, f.ty = .custom c
    · obtain ⟨c, hcu⟩ := hcu
      rw [← Store.ofBits_bit hs, ← Store.ofBits_bit ht, getX_eq m hB.backing (hB.field f hf) (hS.field f hf),
        getX_eq m hB.backing (hB.field f hf) (hS.field f hf)] at e
      obtain ⟨c1, a1, a2⟩ := hL f hf hr.1 hr.2 c hcu _ (natOf_lt f.bits fun i => s.bit (f.offset + i))
      obtain ⟨c2, b1, b2⟩ := hL f hf hr.1 hr.2 c hcu _ (natOf_lt f.bits fun i => t.bit (f.offset + i))
      simp only [decode, hcu, a1, b1, Except.map, Except.ok.injEq, Val.custom.injEq] at e
      subst e
      have := natOf_inj (Int.ofNat.inj (a2.symm.trans b2)) (i - f.offset) (by omega)
      rwa [show f.offset + (i - f.offset) = i by omega] at this
    · exact C45_injective m hB hS hf (fun c h => hcu ⟨c, h⟩) hs ht e i h1 h2
  · refine h i hi ?_
    rintro ⟨f', hf', h3, h4, h5, h6⟩
    have : f = f' := hB.owner_unique hf hf' hc (covers_iff.mpr ⟨h5, h6⟩)
    subst this
    exact hr ⟨h3, h4⟩

/-- **C74** (fields are independent). Whatever values are chosen, one for each field, each of which the getter of its field
returns in some state: there is a state in which all getters return them. -/
theorem C74_independent (m : Mode) (hB : WF B) (hS : Supported B) (V : Field → Val)
    (hV : ∀ f ∈ B.fields, ∃ s, s.HasBacking B.backing ∧ getX m f s = .ok (V f)) :
    ∃ s, s.HasBacking B.backing ∧ ∀ f ∈ B.fields, getX m f s = .ok (V f) := by
  have hV' : ∀ f, ∃ x : Bits, f ∈ B.fields → decode f x = .ok (V f) := by
    intro f
    by_cases hf : f ∈ B.fields
    · obtain ⟨s, hs, h⟩ := hV f hf
      rw [← Store.ofBits_bit hs, getX_eq m hB.backing (hB.field f hf) (hS.field f hf)] at h
      exact ⟨_, fun _ => h⟩
    · exact ⟨fun _ => false, fun h => absurd h hf⟩
  obtain ⟨X, hX⟩ := Classical.axiomOfChoice hV'
  refine ⟨Store.ofBits B.backing (overwriteAll B.fields X fun _ => false), Store.hasBacking_ofBits _ _, fun f hf => ?_⟩
  rw [getX_eq m hB.backing (hB.field f hf) (hS.field f hf), ← hX f hf]
  refine decode_congr (hB.field f hf) fun i hi => ?_
  rw [overwriteAll_some hB.disjoint hf (covers_iff.mpr ⟨by omega, by omega⟩)]
  congr 1
  omega

/-- **C74** (declared structs). In terms of the declaration: the states that differ only in fields the user may write are
exactly the ones that calls to setters lead to, and two states with the same results of all getters differ at most in
fields the user may not read. -/
theorem C74_declared {mc m : Mode} {cfg : String → Bool} {s : StructSpec} {as : List BitfieldArgSpec} {p : Parsed}
    (hr : s.Readable) (ha : s.rest = bitfieldTokens as) (hl : s.Legal) (hu : s.Usable) (hL : s.Lawful)
    (h : parseBitfield mc cfg s.attr s.decl = .ok p) {x y : Store}
    (hx : x.HasBacking p.bitfield.backing) (hy : y.HasBacking p.bitfield.backing) :
    ((∃ cs os, (∀ c ∈ cs, ∃ g v, c = .set g v ∧ g ∈ p.bitfield.fields ∧ g.isWritable = true ∧ HasType g.ty v) ∧
        history m p.bitfield cs x = .ok (os, y)) ↔
      ∀ f o, s.At (orderValue cfg as) f o → ¬ f.CanWrite → ∀ i < f.width, x.bit (o + i) = y.bit (o + i)) ∧
    ((∀ f ∈ s.fields, f.CanRead → ∀ g ∈ p.bitfield.fields, g.name = f.name → getX m g x = getX m g y) →
      (∀ f o, s.At (orderValue cfg as) f o → ¬ f.CanRead → ∀ i < f.width, x.bit (o + i) = y.bit (o + i)) → x = y) := by
  obtain ⟨h1, h2, h3⟩ := C52_wf hr ha hl hu h
  have R := StructSpec.runs hr ha hl hu h
  constructor
  · constructor
    · rintro ⟨cs, os, h4, h5⟩ f o hf hw i hi
      refine (C74_reachable_iff m h1 h2 (h3 hL) hx hy).mp ⟨cs, os, fun c hc => ?_, h5⟩ (o + i) ?_ ?_
      · obtain ⟨g, v, rfl, a, b, c⟩ := h4 c hc
        exact ⟨⟨a, b, c⟩, nofun, nofun, nofun⟩
      · have hg := (R.fields _).mpr ⟨f, o, hf, rfl⟩
        have := (h1.field _ hg).fits
        simp only [FieldSpec.parsed] at this
        omega
      · rintro ⟨g, hg, hgw, h6, h7⟩
        have e : f.parsed o = g := h1.owner_unique ((R.fields _).mpr ⟨f, o, hf, rfl⟩) hg
          (covers_iff.mpr ⟨by show o ≤ o + i; omega, by show o + i < o + f.width; omega⟩) (covers_iff.mpr ⟨h6, h7⟩)
        rw [← e] at hgw
        exact hw ((isWritable_parsed hf.1).mp hgw)
    · intro hb
      obtain ⟨cs, os, h4, -, h5⟩ := C74_setters_reach m h1 h2 (fun f hf _ => h3 hL f hf) hx hy fun i hi hn => by
        obtain ⟨g, hg, hc⟩ := h1.cover i hi
        obtain ⟨f, o, hf, rfl⟩ := (R.fields g).mp hg
        obtain ⟨h6, h7⟩ := covers_iff.mp hc
        have h6' : o ≤ i := h6
        have h7' : i < o + f.width := h7
        have := hb f o hf (fun hw => hn ⟨_, hg, (isWritable_parsed hf.1).mpr hw, h6, h7⟩) (i - o) (by omega)
        rwa [show o + (i - o) = i by omega] at this
      refine ⟨cs, os, fun c hc => ?_, h5⟩
      obtain ⟨f, v, e, a, b, d⟩ := h4 c hc
      exact ⟨f, v, e, a, b, d⟩
  · intro hg hb
    have hrd : ∀ f o, s.At (orderValue cfg as) f o →
        ((f.parsed o).reserved = false ∧ (f.parsed o).isReadable = true ↔ f.CanRead) := by
      intro f o hf
      simp only [Field.isReadable, FieldSpec.parsed, FieldSpec.CanRead, FieldSpec.Named, hf.1, and_true,
        FieldSpec.effective]
      cases f.reserved with
      | true => simp
      | false =>
        cases f.access? with
        | none => simp
        | some a => cases a <;> simp
    refine C74_getters_separate m h1 h2 (fun f hf _ _ => h3 hL f hf) hx hy (fun g hgm h4 h5 => ?_) fun i hi hn => ?_
    · obtain ⟨f, o, hf, rfl⟩ := (R.fields g).mp hgm
      exact hg f (At.mem hf) ((hrd f o hf).mp ⟨h4, h5⟩) _ hgm rfl
    · obtain ⟨g, hgm, hc⟩ := h1.cover i hi
      obtain ⟨f, o, hf, rfl⟩ := (R.fields g).mp hgm
      obtain ⟨h6, h7⟩ := covers_iff.mp hc
      have h6' : o ≤ i := h6
      have h7' : i < o + f.width := h7
      have := hb f o hf (fun hw => hn ⟨_, hgm, ((hrd f o hf).mpr hw).1, ((hrd f o hf).mpr hw).2, h6, h7⟩) (i - o) (by omega)
      rwa [show o + (i - o) = i by omega] at this

/-! ## Examples -/

/-- In `Ex.I` every value with the same bits 7 and 10 to 15 (the fields `c`, `_r` and `e`) is reached. -/
example (m : Mode) (v w : BitVec 16) (h7 : v.getLsbD 7 = w.getLsbD 7)
    (h : ∀ i < 16, 10 ≤ i → v.getLsbD i = w.getLsbD i) :
    ∃ cs os, (∀ c ∈ cs, c.Typed Ex.I ∧ c.Ordinary) ∧ history m Ex.I cs (.int 16 v) = .ok (os, .int 16 w) := by
  refine (C74_reachable_iff m Ex.wfI Ex.supportedI Ex.lawfulI (s := .int 16 v) (t := .int 16 w) rfl rfl).mpr fun i hi hn => ?_
  show v.getLsbD i = w.getLsbD i
  have hi' : i < 16 := hi
  by_cases h1 : i < 4
  · exact absurd ⟨Ex.a, by simp [Ex.I], rfl, Nat.zero_le _, h1⟩ hn
  by_cases h2 : i < 7
  · exact absurd ⟨Ex.b, by simp [Ex.I], rfl, by show 4 ≤ i; omega, h2⟩ hn
  by_cases h3 : i = 7
  · exact h3 ▸ h7
  by_cases h4 : i < 10
  · exact absurd ⟨Ex.d, by simp [Ex.I], rfl, by show 8 ≤ i; omega, h4⟩ hn
  exact h i hi' (by omega)

/-- A value with another bit 7 is not reached. -/
example (m : Mode) : ¬ ∃ cs os, (∀ c ∈ cs, c.Typed Ex.I ∧ c.Ordinary) ∧
    history m Ex.I cs (.int 16 0#16) = .ok (os, .int 16 0x80#16) := by
  rw [C74_reachable_iff m Ex.wfI Ex.supportedI Ex.lawfulI (s := .int 16 0#16) (t := .int 16 0x80#16) rfl rfl]
  intro h
  have := h 7 (by decide) (by
    rintro ⟨f, hf, hw, h1, h2⟩
    simp only [Ex.I, List.mem_cons, List.not_mem_nil, or_false] at hf
    rcases hf with rfl | rfl | rfl | rfl | rfl | rfl <;> first | (exact absurd hw (by decide)) | (exact absurd h1 (by decide)) | exact absurd h2 (by decide))
  exact absurd this (by decide)

/-- In `Ex.A` there is a state whose getters return 300, [0x11], -5, true and the user type's value 2. -/
example (m : Mode) : ∃ s, s.HasBacking Ex.A.backing ∧ getX m Ex.p s = .ok (.int 300) ∧ getX m Ex.q s = .ok (.arr [0x11#8]) ∧
    getX m Ex.s s = .ok (.int (-5)) := by
  obtain ⟨s, hs, h⟩ := C74_independent m Ex.wfA Ex.supportedA
    (fun f => if f.name = "p" then .int 300 else if f.name = "q" then .arr [0x11#8] else if f.name = "s" then .int (-5)
      else if f.name = "t" then .bool true else .custom 2) (by
      intro f hf
      simp only [Ex.A, List.mem_cons, List.not_mem_nil, or_false] at hf
      rcases hf with rfl | rfl | rfl | rfl | rfl
      · exact ⟨.arr [0x2C#8, 0x01#8, 0#8], rfl, by cases m <;> decide +kernel⟩
      · exact ⟨.arr [0#8, 0x22#8, 0#8], rfl, by cases m <;> decide +kernel⟩
      · exact ⟨.arr [0#8, 0#8, 0x16#8], rfl, by cases m <;> decide +kernel⟩
      · exact ⟨.arr [0#8, 0#8, 0x20#8], rfl, by cases m <;> decide +kernel⟩
      · exact ⟨.arr [0#8, 0#8, 0x80#8], rfl, by cases m <;> decide +kernel⟩)
  exact ⟨s, hs, h Ex.p (by simp [Ex.A]), h Ex.q (by simp [Ex.A]), h Ex.s (by simp [Ex.A])⟩

/-- Two different states of `Ex.A` with the same write-only and reserved bits differ in a getter. -/
example (m : Mode) {s t : Store} (hs : s.HasBacking Ex.A.backing) (ht : t.HasBacking Ex.A.backing)
    (h : ∀ i < 24, 21 ≤ i → s.bit i = t.bit i) (hp : getX m Ex.p s = getX m Ex.p t) (hq : getX m Ex.q s = getX m Ex.q t)
    (hr : getX m Ex.s s = getX m Ex.s t) : s = t := by
  refine C74_getters_separate m Ex.wfA Ex.supportedA (fun f hf _ _ => Ex.lawfulA f hf) hs ht (fun f hf h1 h2 => ?_)
    fun i hi hn => ?_
  · simp only [Ex.A, List.mem_cons, List.not_mem_nil, or_false] at hf
    rcases hf with rfl | rfl | rfl | rfl | rfl
    · exact hp
    · exact hq
    · exact hr
    · exact absurd h2 (by decide)
    · exact absurd h1 (by decide)
  · by_cases h1 : i < 9
    · exact absurd ⟨Ex.p, by simp [Ex.A], rfl, rfl, Nat.zero_le _, h1⟩ hn
    by_cases h2 : i < 17
    · exact absurd ⟨Ex.q, by simp [Ex.A], rfl, rfl, by show 9 ≤ i; omega, h2⟩ hn
    by_cases h3 : i < 21
    · exact absurd ⟨Ex.s, by simp [Ex.A], rfl, rfl, by show 17 ≤ i; omega, h3⟩ hn
    exact h i hi (by omega)

/-- A declared struct. -/
example (m : Mode) (p : Parsed) (h : parseBitfield .checked (fun _ => false) ExR.R.attr ExR.R.decl = .ok p) {x y : Store}
    (hx : x.HasBacking p.bitfield.backing) (hy : y.HasBacking p.bitfield.backing)
    (hb : ∀ f o, ExR.R.At (orderValue (fun _ => false) ExR.as) f o → ¬ f.CanWrite → ∀ i < f.width, x.bit (o + i) = y.bit (o + i)) :
    ∃ cs os, (∀ c ∈ cs, ∃ g v, c = .set g v ∧ g ∈ p.bitfield.fields ∧ g.isWritable = true ∧ HasType g.ty v) ∧
      history m p.bitfield cs x = .ok (os, y) :=
  (C74_declared ExR.readable rfl ExR.legal ExR.usable ExR.lawful h hx hy).1.mpr hb

end Bf
