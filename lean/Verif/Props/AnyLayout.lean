import Verif.Props.Codegen

/-!
# C65: what holds for every accepted layout

The macro accepts layouts whose generated code does not do what the declaration says (`StructSpec.Usable`, findings of
C08 and C34). The theorems below hold for these layouts too.
-/

namespace Bf

open Rust Quote

variable {m rt : Mode} {cfg : String → Bool} {s : StructSpec} {p : Parsed} {as : List BitfieldArgSpec}
  {f : FieldSpec} {o : Nat} {fuel : Nat}

theorem liftE_inv {α : Type} {x : R α} {a : α} (h : liftE x = .ok a) : x = .ok a := by
  cases x with
  | ok b => exact congrArg _ (Except.ok.inj h)
  | error e => cases e <;> cases h

theorem ebind_inv {α β : Type} {x : E α} {k : α → E β} {b : β} (h : (x >>= k) = .ok b) : ∃ a, x = .ok a ∧ k a = .ok b := by
  cases x with
  | ok a => exact ⟨a, rfl, h⟩
  | error e => cases h

/-! ## C65 -/

/-- **C65** (one call). A call of an emitted function that returns has changed only bits it is meant to change. -/
theorem C65_call (hr : s.Readable) (ha : s.rest = bitfieldTokens as) (hl : s.Legal) (hu : s.Compiles)
    (h : parseBitfield m cfg s.attr s.decl = .ok p) (hT : UserConversions p.bitfield) (hf : 2 ^ 64 ≤ fuel) {c : Call}
    (hc : c.Typed p.bitfield) (hg : Generates p (c.tag p.bob)) {st st' : Store}
    (hst : st.HasBacking p.bitfield.backing) {out : Out}
    (hx : (program p).call p.bitfield rt fuel c st = .ok (out, st')) :
    st'.HasBacking p.bitfield.backing ∧
    ∀ i < p.bitfield.backing.size, ¬ c.Touches p.bitfield i → st'.bit i = st.bit i := by
  have C := StructSpec.compiled hr ha hl hu h
  rw [C54_call hr ha hl hu h hf hc hg st hst] at hx
  have hk := (sane_call rt C.wf (C.tame hT) hc hst).of_ok (liftE_inv hx)
  exact ⟨hk.1, fun i hi hn => hk.2 i ⟨hi, hn⟩⟩

/-- **C65** (sequences of calls). A bit that none of the calls is meant to change keeps its value. -/
theorem C65_history (hr : s.Readable) (ha : s.rest = bitfieldTokens as) (hl : s.Legal) (hu : s.Compiles)
    (h : parseBitfield m cfg s.attr s.decl = .ok p) (hT : UserConversions p.bitfield) (hf : 2 ^ 64 ≤ fuel)
    {cs : List Call} (hc : ∀ c ∈ cs, c.Typed p.bitfield) (hg : ∀ c ∈ cs, Generates p (c.tag p.bob)) {st st' : Store}
    (hst : st.HasBacking p.bitfield.backing) {outs : List Out}
    (hx : (program p).history p.bitfield rt fuel cs st = .ok (outs, st')) :
    st'.HasBacking p.bitfield.backing ∧
    ∀ i < p.bitfield.backing.size, (∀ c ∈ cs, ¬ c.Touches p.bitfield i) → st'.bit i = st.bit i := by
  induction cs generalizing st outs with
  | nil => cases hx; exact ⟨hst, fun _ _ _ => rfl⟩
  | cons c cs ih =>
    simp only [Program.history] at hx
    obtain ⟨⟨o1, s1⟩, h1, hx⟩ := ebind_inv hx
    obtain ⟨⟨o2, s2⟩, h2, hx⟩ := ebind_inv hx
    cases hx
    obtain ⟨b1, k1⟩ := C65_call hr ha hl hu h hT hf (hc c List.mem_cons_self) (hg c List.mem_cons_self) hst h1
    obtain ⟨b2, k2⟩ := ih (fun c hm => hc c (List.mem_cons_of_mem _ hm)) (fun c hm => hg c (List.mem_cons_of_mem _ hm)) b1 h2
    exact ⟨b2, fun i hi hn => (k2 i hi fun c hm => hn c (List.mem_cons_of_mem _ hm)).trans
      (k1 i hi (hn c List.mem_cons_self))⟩

/-- **C65** (setters of declared fields). Whatever the shape of the field, its emitted setter changes no bit outside the
bits declared for the field. -/
theorem C65_setter (hr : s.Readable) (ha : s.rest = bitfieldTokens as) (hl : s.Legal) (hu : s.Compiles)
    (h : parseBitfield m cfg s.attr s.decl = .ok p) (hT : UserConversions p.bitfield) (hfuel : 2 ^ 64 ≤ fuel)
    (hf : s.At (orderValue cfg as) f o) (hw : f.CanWrite) {v : Val} (hv : f.ty.Contains v) {st : Store}
    (hst : st.HasBacking p.bitfield.backing) :
    ∃ g ∈ p.bitfield.fields, g.name = f.name ∧
      ∀ out st', (program p).call p.bitfield rt fuel (.set g v) st = .ok (out, st') →
        ∀ i < p.bitfield.backing.size, i < o ∨ o + f.width ≤ i → st'.bit i = st.bit i := by
  have C := StructSpec.compiled hr ha hl hu h
  have hg : f.parsed o ∈ p.bitfield.fields := (C.fields _).mpr ⟨f, o, hf, rfl⟩
  refine ⟨f.parsed o, hg, rfl, fun out st' hx i hi ho => ?_⟩
  have hW' := (isWritable_parsed (o := o) hf.1).mpr hw
  have hgen : Generates p (.acc .set f.name) := (C05_setters hr h _).1.mpr ⟨f, At.mem hf, rfl, hw⟩
  refine (C65_call hr ha hl hu h hT hfuel (c := .set (f.parsed o) v) ⟨hg, hW', hasType_data hv⟩ hgen hst hx).2 i hi ?_
  show ¬ (f.parsed o).covers i = true
  simp only [Field.covers, Bool.and_eq_true, decide_eq_true_eq]
  intro ⟨h1, h2⟩
  have h1 : o ≤ i := h1
  have h2 : i < o + f.width := h2
  omega

/-- **C65** (bits and ranges). Functions on single bits, ranges of bits and the whole value do, on every layout, exactly
what the abstract machine of `MachineFull.lean` does. -/
theorem C65_bits (hr : s.Readable) (ha : s.rest = bitfieldTokens as) (hl : s.Legal) (hu : s.Compiles)
    (h : parseBitfield m cfg s.attr s.decl = .ok p) (hf : 2 ^ 64 ≤ fuel) {c : Call} (hb : c.OnBits = true)
    (hc : c.Typed p.bitfield) (hg : Generates p (c.tag p.bob)) (st : Store)
    (hst : st.HasBacking p.bitfield.backing) :
    (program p).call p.bitfield rt fuel c st =
      liftE ((fullCall rt p.bitfield c st.bit).map fun r => (r.1, Store.ofBits p.bitfield.backing r.2)) := by
  have C := StructSpec.compiled hr ha hl hu h
  rw [C54_call hr ha hl hu h hf hc hg st hst]
  have e := call_bits (m := rt) C.wf hb hc st.bit
  rw [Store.ofBits_bit hst] at e
  rw [e]
  rfl

/-- **C65** (making a bitfield). Whatever the layout, constructors, conversions and builders that return a bitfield
return one of the declared storage type, whatever was stored before. -/
theorem C65_make (hr : s.Readable) (ha : s.rest = bitfieldTokens as) (hl : s.Legal) (hu : s.Compiles)
    (h : parseBitfield m cfg s.attr s.decl = .ok p) (hT : UserConversions p.bitfield) (hf : 2 ^ 64 ≤ fuel)
    {og : Origin} (ho : og.Typed p.bitfield) (hw : og.Fits (genOf p)) (hg : Generates p (og.tag p.bob)) {st st' : Store}
    (hst : st.HasBacking p.bitfield.backing)
    (hx : (program p).make p.bitfield rt fuel og st = .ok (.ok st')) :
    st'.HasBacking p.bitfield.backing := by
  have C := StructSpec.compiled hr ha hl hu h
  rw [C54_make_partial hr ha hl hu h hf ho hw hg st hst] at hx
  exact (sane_origin rt (C.tame hT) ho).of_ok (liftE_inv hx)

/-! ## The hypotheses hold for a layout the generated code does not handle

```
#[bitfield(u32)]
pub struct A {
    #[bits(12)] a: [u8; 2],
    b: u8,
    #[bits(12, default = 5)] c: u16,
}
```
-/

namespace ExA

def A : StructSpec where
  storage := .int .u32
  rest := bitfieldTokens []
  vis := .pub
  fields := [
    ⟨"a", .priv, .bytes 2, some ⟨some 12, []⟩⟩,
    ⟨"b", .priv, .int .u8, none⟩,
    ⟨"c", .priv, .int .u16, some ⟨some 12, [.default (.int ⟨false, 0, .dec, ['5'], []⟩) (.int 5)]⟩⟩]

theorem readable : A.Readable where
  storage := trivial
  ty := by
    intro f hf
    simp only [A, List.mem_cons, List.not_mem_nil, or_false] at hf
    rcases hf with rfl | rfl | rfl <;> first | trivial | (show _ < _; decide) | (show _ ∉ _; decide)
  default := by
    intro f hf d v hd
    simp only [A, List.mem_cons, List.not_mem_nil, or_false] at hf
    rcases hf with rfl | rfl | rfl <;> simp [FieldSpec.args] at hd <;> obtain ⟨rfl, rfl⟩ := hd
    exact ⟨⟨by decide, by decide, by decide, by decide⟩, by decide, by decide, by decide⟩

theorem legal : A.Legal :=
  ((C03_acceptance_partial (m := .checked) (cfg := fun _ => false) readable (.inl rfl)).mp ⟨_, rfl⟩).1

theorem compiles : A.Compiles where
  storage := by intro h; cases h
  bytes := by
    intro f hf _ len h
    simp only [A, List.mem_cons, List.not_mem_nil, or_false] at hf
    rcases hf with rfl | rfl | rfl <;> cases h
    intro _ _; decide
  default := by
    intro f hf _ d v h
    simp only [A, List.mem_cons, List.not_mem_nil, or_false] at hf
    rcases hf with rfl | rfl | rfl <;> cases h
    have hw : FieldSpec.CanWrite ⟨"c", .priv, .int .u16,
        some ⟨some 12, [.default (.int ⟨false, 0, .dec, ['5'], []⟩) (.int 5)]⟩⟩ := ⟨⟨by decide, rfl⟩, .inr rfl⟩
    exact ⟨⟨none, .inl ⟨hw, rfl⟩, by decide, fun h => absurd hw h, by decide⟩, .inl hw⟩

/-- The generated code does not handle the layout. -/
theorem not_usable : ¬ A.Usable := by
  intro h
  have := (h.bytes A.fields[0] (List.getElem_mem _) rfl 2 rfl).2 _ rfl
  revert this
  decide

theorem conversions (h : parseBitfield m (fun _ => false) A.attr A.decl = .ok p) : UserConversions p.bitfield := by
  intro g hg cd hty n
  obtain ⟨f, o, hf, rfl⟩ := ((StructSpec.compiled readable rfl legal compiles h).fields g).mp hg
  have hm := At.mem hf
  simp only [A, List.mem_cons, List.not_mem_nil, or_false] at hm
  rcases hm with rfl | rfl | rfl <;> cases hty

end ExA

/-- The setter of the field of an unsupported shape does not change bits 12 to 31, whatever is stored. -/
example (rt : Mode) (st : Store) : ∀ p, parseBitfield .checked (fun _ => false) ExA.A.attr ExA.A.decl = .ok p →
    st.HasBacking p.bitfield.backing →
    ∃ g ∈ p.bitfield.fields, g.name = "a" ∧
      ∀ out st', (program p).call p.bitfield rt (2 ^ 64) (.set g (.arr [0xAB#8, 0xCD#8])) st = .ok (out, st') →
        ∀ i < p.bitfield.backing.size, i < 0 ∨ 0 + 12 ≤ i → st'.bit i = st.bit i := fun _ hp hst =>
  C65_setter (f := ExA.A.fields[0]) (o := 0) ExA.readable rfl ExA.legal ExA.compiles hp (ExA.conversions hp) (Nat.le_refl _)
    ⟨rfl, [], _, 32, rfl, rfl, rfl⟩ ⟨⟨by decide, rfl⟩, .inr rfl⟩ (v := .arr [0xAB#8, 0xCD#8]) rfl hst

/-- After `set_bit(14, true)`, `set_b(x)` and `get_bit(3)`, bits 0 to 11 and 20 to 31 are as before. -/
example (rt : Mode) (st st' : Store) (x : Int) (hx : 0 ≤ x ∧ x < 256) (outs : List Out) : ∀ p,
    parseBitfield .checked (fun _ => false) ExA.A.attr ExA.A.decl = .ok p → st.HasBacking p.bitfield.backing →
    ∀ g ∈ p.bitfield.fields, g.name = "b" →
    (program p).history p.bitfield rt (2 ^ 64) [.setBit 14 true, .set g (.int x), .getBit 3] st = .ok (outs, st') →
    ∀ i < 32, i < 12 ∨ 20 ≤ i → st'.bit i = st.bit i := by
  intro p hp hst g hg hn hh i hi ho
  have hb : p.bitfield.backing.size = 32 := by cases hp; rfl
  obtain ⟨f, o, hf, rfl⟩ := ((StructSpec.compiled ExA.readable rfl ExA.legal ExA.compiles hp).fields g).mp hg
  have h1 := C65_history ExA.readable rfl ExA.legal ExA.compiles hp (ExA.conversions hp) (Nat.le_refl _) ?_ ?_ hst hh
  · refine h1.2 i (by omega) ?_
    cases hp
    have hg : f.parsed o ∈ [_, _, _] := hg
    simp only [List.mem_cons, List.not_mem_nil, or_false, forall_eq_or_imp, forall_eq] at hg ⊢
    rcases hg with e | e | e
    · rw [e] at hn; exact absurd hn (by decide)
    · refine ⟨fun h => ?_, fun h => ?_, fun h => h⟩
      · have := h.1; omega
      · rw [e] at h
        simp [Call.Touches, Field.covers, IntTy.bitSize] at h
        omega
    · rw [e] at hn; exact absurd hn (by decide)
  · cases hp
    have hg' : f.parsed o ∈ [_, _, _] := hg
    simp only [List.mem_cons, List.not_mem_nil, or_false] at hg'
    simp only [List.mem_cons, List.not_mem_nil, or_false, forall_eq_or_imp, forall_eq]
    rcases hg' with e | e | e
    · rw [e] at hn; exact absurd hn (by decide)
    · refine ⟨by simp [Call.Typed], ⟨hg, ?_, ?_⟩, by simp [Call.Typed]⟩
      · rw [e]; rfl
      · rw [e]; simpa [HasType, IntTy.unsigned, IntTy.bitSize] using hx
    · rw [e] at hn; exact absurd hn (by decide)
  · have hn' : (f.parsed o).name = "b" := hn
    simp only [List.mem_cons, List.not_mem_nil, or_false, forall_eq_or_imp, forall_eq, Call.tag, hn']
    cases hp
    exact ⟨⟨.pub, by decide⟩, ⟨.pub, by decide⟩, ⟨.pub, by decide⟩⟩

/-- `get_bit(3)` returns bit 3, which belongs to the unsupported field; `new()` returns a `u32`. -/
example (rt : Mode) (st st' : Store) : ∀ p, parseBitfield .checked (fun _ => false) ExA.A.attr ExA.A.decl = .ok p →
    st.HasBacking p.bitfield.backing →
    (program p).call p.bitfield rt (2 ^ 64) (.getBit 3) st = .ok (.flag (st.bit 3), st) ∧
    ((program p).make p.bitfield rt (2 ^ 64) .new st = .ok (.ok st') → st'.HasBacking p.bitfield.backing) := by
  intro p hp hst
  refine ⟨?_, fun hx => C65_make (og := .new) ExA.readable rfl ExA.legal ExA.compiles hp (ExA.conversions hp) (Nat.le_refl _) trivial
    trivial (by cases hp; exact ⟨.pub, by decide⟩) hst hx⟩
  rw [C65_bits ExA.readable rfl ExA.legal ExA.compiles hp (Nat.le_refl _) (c := .getBit 3) rfl (by simp [Call.Typed])
    (by cases hp; exact ⟨.pub, by decide⟩) st hst]
  have e := Store.ofBits_bit hst
  cases hp
  show liftE (Except.ok (_, Store.ofBits _ _)) = _
  rw [e]
  rfl

end Bf
