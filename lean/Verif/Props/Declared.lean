import Verif.Lemmas.Run
import Verif.Props.Construct
import Verif.Props.Surface
import Verif.Props.Findings

/-!
# From the declaration to the running program (C52, C53)

The theorems about run-time behaviour (C06 - C37) speak of bitfields as parsed and assume that they
are well formed and supported. Here these assumptions are derived from the declaration, and the
behaviour of accessors and `new()` is stated in terms of it: `s.At order f o` says that the bits of
the declared field `f` of `s` are those from `o` on.
-/

namespace Bf

/-! ## An example

```
#[bitfield(u32, order = msb)]
pub struct R {
    #[bits(5, default = -3)] a: i8,
    #[bits(ignore = true)] x: u32,
    #[bits(4, access = ro, default = Kind::C)] k: Kind,
    #[bits(default = true)] flag: bool,
    #[bits(6)] b: u16,
    #[bits(default = 0xAB, access = na)] n: u8,
    #[bits(8, default = 7)] _r: u8,
}
```
-/

namespace ExR

def as : List BitfieldArgSpec := [.order .msb]

def R : StructSpec where
  storage := .int .u32
  rest := bitfieldTokens as
  vis := .pub
  fields := [
    ⟨"a", .priv, .int .i8, some ⟨some 5, [.default (.int ⟨true, 0, .dec, ['3'], []⟩) (.int (-3))]⟩⟩,
    ⟨"x", .priv, .int .u32, some ⟨none, [.ignore true]⟩⟩,
    ⟨"k", .priv, .custom "Kind" ExS.kind, some ⟨some 4, [.access .ro,
      .default (.expr ['K', 'i', 'n', 'd', ':', ':', 'C']) (.custom 2)]⟩⟩,
    ⟨"flag", .priv, .int .bool, some ⟨none, [.default (.bool true) (.bool true)]⟩⟩,
    ⟨"b", .priv, .int .u16, some ⟨some 6, []⟩⟩,
    ⟨"n", .priv, .int .u8,
      some ⟨none, [.default (.int ⟨false, 0, .hex, ['A', 'B'], []⟩) (.int 0xAB), .access .na]⟩⟩,
    ⟨"_r", .priv, .int .u8, some ⟨some 8, [.default (.int ⟨false, 0, .dec, ['7'], []⟩) (.int 7)]⟩⟩]

theorem readable : R.Readable where
  storage := trivial
  ty := by
    intro f hf
    simp only [R, List.mem_cons, List.not_mem_nil, or_false] at hf
    rcases hf with rfl | rfl | rfl | rfl | rfl | rfl | rfl <;>
      first | trivial | (show _ ∉ _; decide)
  default := by
    intro f hf d v hd
    simp only [R, List.mem_cons, List.not_mem_nil, or_false] at hf
    rcases hf with rfl | rfl | rfl | rfl | rfl | rfl | rfl <;> simp [FieldSpec.args] at hd <;>
      obtain ⟨rfl, rfl⟩ := hd
    · exact ⟨⟨by decide, by decide, by decide, by decide⟩, by decide, by decide, by decide⟩
    · exact ⟨⟨_, _, rfl, by decide⟩, by decide, by decide, by decide, by decide⟩
    · trivial
    · exact ⟨⟨by decide, by decide, by decide, by decide⟩, by decide, by decide, by decide⟩
    · exact ⟨⟨by decide, by decide, by decide, by decide⟩, by decide, by decide, by decide⟩

theorem accepted (m : Mode) : ∃ p, parseBitfield m (fun _ => false) R.attr R.decl = .ok p := by
  cases m <;> exact ⟨_, rfl⟩

theorem small : R.Small := ⟨by decide, by intro n h; cases h; decide⟩

theorem legal : R.Legal :=
  ((C03_acceptance_partial (m := .checked) readable (.inl rfl)).mp (accepted _)).1

theorem usable : R.Usable where
  storage := by intro h; cases h
  bytes := by
    intro f hf _ len h
    simp only [R, List.mem_cons, List.not_mem_nil, or_false] at hf
    rcases hf with rfl | rfl | rfl | rfl | rfl | rfl | rfl <;> cases h
  custom := by
    intro f hf _ name c h
    simp only [R, List.mem_cons, List.not_mem_nil, or_false] at hf
    rcases hf with rfl | rfl | rfl | rfl | rfl | rfl | rfl <;> cases h
    decide
  default := by
    intro f hf _ d v h
    simp only [R, List.mem_cons, List.not_mem_nil, or_false] at hf
    rcases hf with rfl | rfl | rfl | rfl | rfl | rfl | rfl <;> cases h
    · have hw : FieldSpec.CanWrite ⟨"a", .priv, .int .i8,
          some ⟨some 5, [.default (.int ⟨true, 0, .dec, ['3'], []⟩) (.int (-3))]⟩⟩ :=
        ⟨⟨by decide, rfl⟩, .inr rfl⟩
      exact ⟨⟨none, .inl ⟨hw, rfl⟩, by decide, fun h => absurd hw h, by decide⟩, .inl hw⟩
    · exact ⟨trivial, trivial⟩
    · exact ⟨rfl, trivial⟩
    · refine ⟨⟨some .u32, .inr ⟨?_, rfl⟩, by decide, ?_, by decide⟩,
        .inr ⟨by decide, by decide⟩⟩
      · rintro ⟨_, h⟩
        revert h; decide
      rintro _ u h
      cases h
      decide
    · refine ⟨⟨some .u32, .inr ⟨?_, rfl⟩, by decide, ?_, by decide⟩,
        .inr ⟨by decide, by decide⟩⟩
      · rintro ⟨⟨h, _⟩, _⟩
        revert h; decide
      rintro _ u h
      cases h
      decide

theorem lawful : R.Lawful := by
  intro f hf _ name c h
  simp only [R, List.mem_cons, List.not_mem_nil, or_false] at hf
  rcases hf with rfl | rfl | rfl | rfl | rfl | rfl | rfl <;> cases h
  exact Ex.idCodec_lawful _

end ExR

variable {m : Mode} {cfg : String → Bool} {s : StructSpec} {p : Parsed} {as : List BitfieldArgSpec}

/-! ## C52 -/

/-- **C52** (the macro accepts it). A legal struct is accepted, in either mode. -/
theorem C52_accepted (m : Mode) (cfg : String → Bool) (hr : s.Readable)
    (ha : s.rest = bitfieldTokens as) (hl : s.Legal) :
    ∃ p, parseBitfield m cfg s.attr s.decl = .ok p := by
  obtain ⟨r, h⟩ := C39_accepted cfg as
  exact StructSpec.accepted hr hl (by rw [ha]; exact h)

/-- **C52** (the theorems about run-time behaviour apply). If a legal and usable struct is accepted,
the parsed bitfield satisfies what those theorems assume. -/
theorem C52_wf (hr : s.Readable) (ha : s.rest = bitfieldTokens as) (hl : s.Legal) (hu : s.Usable)
    (h : parseBitfield m cfg s.attr s.decl = .ok p) :
    WF p.bitfield ∧ Supported p.bitfield ∧ (s.Lawful → Lawful p.bitfield) :=
  ⟨(StructSpec.runs hr ha hl hu h).wf, (StructSpec.runs hr ha hl hu h).supported,
    (StructSpec.runs hr ha hl hu h).lawful⟩

theorem At.unique {order : Order} {f f' : FieldSpec} {o o' : Nat} (hl : s.Legal)
    (h : s.At order f o) (h' : s.At order f' o') (hn : f'.name = f.name) (hr : f.reserved = false) :
    f' = f ∧ o' = o := by
  obtain ⟨hi, pre, post, size, he, hs, rfl⟩ := h
  obtain ⟨hi', pre', post', size', he', hs', rfl⟩ := h'
  rw [hs] at hs'
  cases hs'
  have hr' : f'.reserved = false := by simpa [FieldSpec.reserved, hn] using hr
  have hN := List.pairwise_iff_getElem.mp hl.names
  have g1 : s.fields[pre.length]? = some f := by rw [he]; simp
  have g2 : s.fields[pre'.length]? = some f' := by rw [he']; simp
  obtain ⟨l1, e1⟩ := List.getElem?_eq_some_iff.mp g1
  obtain ⟨l2, e2⟩ := List.getElem?_eq_some_iff.mp g2
  have hlen : pre'.length = pre.length := by
    rcases Nat.lt_trichotomy pre.length pre'.length with hlt | heq | hlt
    · exfalso
      refine hN _ _ l1 l2 hlt ?_ ?_
      · rw [e1]; exact .inl hr
      · rw [e1, e2, hn]
    · exact heq.symm
    · exfalso
      refine hN _ _ l2 l1 hlt ?_ ?_
      · rw [e2]; exact .inl hr'
      · rw [e1, e2, hn]
  rw [he] at he'
  obtain ⟨h1, h2⟩ := List.append_inj he' hlen.symm
  cases h2
  rw [h1]
  exact ⟨rfl, rfl⟩

/-- **C52** (accessors). Every declared field has a counterpart in the parsed bitfield (the only
one of its name, unless reserved). Its getter returns the value of the declared type formed by
exactly the bits of the declared position; its setter, given a value of the type, replaces exactly
these bits by those of the value (for a user's type: a value that `from_bits` gets back from its
bits). -/
theorem C52_accessors (hr : s.Readable) (ha : s.rest = bitfieldTokens as) (hl : s.Legal)
    (hu : s.Usable) (h : parseBitfield m cfg s.attr s.decl = .ok p) {f : FieldSpec} {o : Nat}
    (hf : s.At (orderValue cfg as) f o) :
    ∃ g ∈ p.bitfield.fields, g.name = f.name ∧
      (f.reserved = false → ∀ g' ∈ p.bitfield.fields, g'.name = f.name → g' = g) ∧
      ∀ (rt : Mode) (st : Store), st.HasBacking p.bitfield.backing →
        getX rt g st = f.ty.read f.width (fun i => st.bit (o + i)) ∧
        ∀ v, f.ty.Contains v →
          (∀ name c code, f.ty = .custom name c → v = .custom code →
            c.fromBits (c.intoBits code % 2 ^ f.width).toNat = .ok code) →
          ∃ st', setX rt g st v = .ok st' ∧ st'.HasBacking p.bitfield.backing ∧
            ∀ i < p.bitfield.backing.size, st'.bit i =
              if o ≤ i ∧ i < o + f.width then f.ty.write v (i - o) else st.bit i := by
  have R := StructSpec.runs hr ha hl hu h
  have hg : f.parsed o ∈ p.bitfield.fields := (R.fields _).mpr ⟨f, o, hf, rfl⟩
  refine ⟨f.parsed o, hg, rfl, ?_, ?_⟩
  · intro hres g' hg' hn
    obtain ⟨f', o', hf', rfl⟩ := (R.fields _).mp hg'
    obtain ⟨rfl, rfl⟩ := At.unique hl hf hf' hn hres
    rfl
  · intro rt st hst
    have hB := R.wf
    have hfok := hB.field _ hg
    have hsup := R.supported.field _ hg
    refine ⟨?_, ?_⟩
    · rw [← Store.ofBits_bit hst, getX_eq rt hB.backing hfok hsup, decode_parsed,
        Store.ofBits_bit hst]
      rfl
    · intro v hv hc
      have hcover : ∀ i, (f.parsed o).covers i = decide (o ≤ i ∧ i < o + f.width) := by
        intro i
        simp only [Field.covers, FieldSpec.parsed, Bool.decide_and]
        rfl
      have hset : setX rt (f.parsed o) st v =
          .ok (Store.ofBits p.bitfield.backing (overwrite (f.parsed o) (f.ty.write v) st.bit)) := by
        have hty : HasType (f.parsed o).ty v := hasType_data hv
        conv => lhs; rw [← Store.ofBits_bit hst]
        rw [setX_bits rt hB.backing hfok hsup hty]
        have e : encode (f.parsed o).ty v = f.ty.write v := encode_data _ _
        rw [e]
        cases h2 : f.ty with
        | int t =>
          have : ∀ c, (f.parsed o).ty ≠ .custom c := by
            intro c h3
            have h3 : f.ty.data = .custom c := h3
            rw [h2] at h3; cases h3
          rw [roundTrip_noncustom this]; rfl
        | bytes n =>
          have : ∀ c, (f.parsed o).ty ≠ .custom c := by
            intro c h3
            have h3 : f.ty.data = .custom c := h3
            rw [h2] at h3; cases h3
          rw [roundTrip_noncustom this]; rfl
        | custom name c =>
          rw [h2] at hv
          cases v with
          | custom code =>
            have hn := hc name c code h2 rfl
            have hd : (f.parsed o).ty = .custom c := by show f.ty.data = _; rw [h2]; rfl
            have e2 : natOf f.width (intBit (c.intoBits code)) =
                (c.intoBits code % 2 ^ f.width).toNat := by
              have := natOf_intBit f.width (c.intoBits code)
              omega
            unfold roundTrip
            rw [hd]
            show Except.map _ (Except.map _ (c.fromBits (natOf f.width _))) = _
            simp only [TypeSpec.write]
            rw [e2, hn]
            rfl
          | _ => exact hv.elim
      refine ⟨_, hset, Store.hasBacking_ofBits _ _, ?_⟩
      intro i hi
      rw [Store.bit_ofBits_lt hi]
      simp only [overwrite, hcover, decide_eq_true_eq]
      rfl

/-- **C52** (construction). `new()` of a legal and usable struct succeeds, and every declared field
holds its declared default, or zeros without one — provided the user types among them preserve these
initial patterns. -/
theorem C52_new (hr : s.Readable) (ha : s.rest = bitfieldTokens as) (hl : s.Legal)
    (hu : s.Usable) (h : parseBitfield m cfg s.attr s.decl = .ok p)
    (hc : ∀ f ∈ s.fields, f.ignored = false → ∀ name c, f.ty = .custom name c →
      c.Stable f.width (natOf f.width f.initial)) (rt : Mode) :
    ∃ st, apiNew rt p.bitfield = .ok st ∧ st.HasBacking p.bitfield.backing ∧
      ∀ f o, s.At (orderValue cfg as) f o → ∀ i < f.width, st.bit (o + i) = f.initial i := by
  have R := StructSpec.runs hr ha hl hu h
  have hpre : ∀ f o, s.At (orderValue cfg as) f o → Preserves (f.parsed o) f.initial := by
    intro f o hf c hty
    have hty : f.ty.data = .custom c := hty
    cases h2 : f.ty with
    | int t => rw [h2] at hty; cases hty
    | bytes n => rw [h2] at hty; cases hty
    | custom name c' =>
      rw [h2] at hty
      cases hty
      exact hc f (At.mem hf) hf.1 name _ h2
  have hinit : ∀ f o v, (FieldSpec.parsed f o).default = some v → f.initial = f.ty.write v := by
    intro f o v hv
    have hv : f.default?.map (·.2) = some v := hv
    unfold FieldSpec.initial
    cases hd : f.default? with
    | none => rw [hd] at hv; cases hv
    | some dv => rw [hd] at hv; cases hv; rfl
  have hzero : ∀ f o, (FieldSpec.parsed f o).default = none → f.initial = fun _ => false := by
    intro f o hv
    have hv : f.default?.map (·.2) = none := hv
    unfold FieldSpec.initial
    cases hd : f.default? with
    | none => rfl
    | some dv => rw [hd] at hv; cases hv
  obtain ⟨st, h1, h2, h3⟩ := C13_new rt R.wf R.supported
    (by
      intro g hg v hv
      obtain ⟨f, o, hf, rfl⟩ := (R.fields _).mp hg
      have := hpre f o hf
      rw [hinit f o v hv, ← encode_data] at this
      exact this)
    (by
      intro g hg hv
      obtain ⟨f, o, hf, rfl⟩ := (R.fields _).mp hg
      have := hpre f o hf
      rw [hzero f o hv] at this
      exact this)
  refine ⟨st, h1, h2, ?_⟩
  intro f o hf i hi
  have := h3 _ ((R.fields _).mpr ⟨f, o, hf, rfl⟩) i hi
  rw [show o + i = (f.parsed o).offset + i from rfl, this]
  cases hd : (f.parsed o).default with
  | none => rw [hzero f o hd]
  | some v =>
    rw [hinit f o v hd, ← encode_data]
    rfl

example : ∃ p, parseBitfield .wrapping (fun _ => false) ExR.R.attr ExR.R.decl = .ok p :=
  C52_accepted _ _ ExR.readable rfl ExR.legal

/-- The most significant field `a` has bits 27 to 31, `k` bits 23 to 26, `b` bits 16 to 21. -/
example : ExR.R.At (orderValue (fun _ => false) ExR.as) ExR.R.fields[0] 27 :=
  ⟨rfl, [], _, 32, rfl, rfl, rfl⟩
example : ExR.R.At (orderValue (fun _ => false) ExR.as) ExR.R.fields[2] 23 :=
  ⟨rfl, [_, _], _, 32, rfl, rfl, rfl⟩
example : ExR.R.At (orderValue (fun _ => false) ExR.as) ExR.R.fields[4] 16 :=
  ⟨rfl, [_, _, _, _], _, 32, rfl, rfl, rfl⟩

/-- The getter of `k` returns `from_bits` of bits 23 to 26. -/
example (rt : Mode) (st : Store) : ∀ p, parseBitfield .checked (fun _ => false) ExR.R.attr ExR.R.decl = .ok p →
    st.HasBacking p.bitfield.backing → ∃ g ∈ p.bitfield.fields, g.name = "k" ∧
    getX rt g st = .ok (.custom (natOf 4 fun i => st.bit (23 + i))) := by
  intro p hp hst
  obtain ⟨g, h1, h2, _, h3⟩ := C52_accessors (f := ExR.R.fields[2]) ExR.readable rfl ExR.legal
    ExR.usable hp ⟨rfl, [_, _], _, 32, rfl, rfl, rfl⟩
  exact ⟨g, h1, h2, (h3 rt st hst).1⟩

theorem StructSpec.Lawful.initial (h : s.Lawful) : ∀ f ∈ s.fields, f.ignored = false →
    ∀ name c, f.ty = .custom name c → c.Stable f.width (natOf f.width f.initial) :=
  fun f hf hi name c hc => h f hf hi name c hc _ (natOf_lt _ _)

example (rt : Mode) : ∀ p, parseBitfield .checked (fun _ => false) ExR.R.attr ExR.R.decl = .ok p →
    ∃ st, apiNew rt p.bitfield = .ok st ∧ ∀ i < 5, st.bit (27 + i) = intBit (-3) i := by
  intro p hp
  obtain ⟨st, h1, _, h3⟩ := C52_new ExR.readable rfl ExR.legal ExR.usable hp ExR.lawful.initial rt
  exact ⟨st, h1, h3 ExR.R.fields[0] 27 ⟨rfl, [], _, 32, rfl, rfl, rfl⟩⟩

/-! ## C53 -/

/-- **C53**. After `new()` the getter of a field with a literal default returns the declared literal:
for integer fields the number, for `bool` fields the truth value; without a default it returns 0 or
`false`. Missing from the full property: on a signed field of `n` bits a literal `d` with
`2^(n-1) ≤ d < 2^n` is accepted, but the getter returns `d - 2^n` (`finding_signed_default`), and
rustc gives the type `i32` to a literal without suffix in the default of a writable integer field:
on a field of more than 32 bits a literal outside `i32` is changed (`finding_large_default`). -/
theorem C53_default_read_partial (hr : s.Readable) (ha : s.rest = bitfieldTokens as) (hl : s.Legal)
    (hu : s.Usable) (h : parseBitfield m cfg s.attr s.decl = .ok p)
    (hc : ∀ f ∈ s.fields, f.ignored = false → ∀ name c, f.ty = .custom name c →
      c.Stable f.width (natOf f.width f.initial)) (rt : Mode) :
    ∃ st, apiNew rt p.bitfield = .ok st ∧ ∀ f o, s.At (orderValue cfg as) f o →
      ∃ g ∈ p.bitfield.fields, g.name = f.name ∧
        (∀ t, f.ty = .int t → t ≠ .bool →
          (∀ l v, f.default? = some (.int l, v) →
            (t.unsigned = false → l.value < 2 ^ (f.width - 1)) →
            (∀ context, s.storage.Asks f.ty f.CanWrite context →
              f.width ≤ (l.type context).bitSize ∨ (l.type context).reduce l.value = l.value) →
            getX rt g st = .ok (.int l.value)) ∧
          (f.default? = none → getX rt g st = .ok (.int 0))) ∧
        (f.ty = .int .bool →
          (∀ b v, f.default? = some (.bool b, v) → getX rt g st = .ok (.bool b)) ∧
          (f.default? = none → getX rt g st = .ok (.bool false))) := by
  have R := StructSpec.runs hr ha hl hu h
  obtain ⟨st, h1, h2, h3⟩ := C52_new hr ha hl hu h hc rt
  refine ⟨st, h1, ?_⟩
  intro f o hf
  have hL := hl.field f (At.mem hf)
  obtain ⟨g, hg, hn, _, hx⟩ := C52_accessors hr ha hl hu h hf
  have hget := (hx rt st h2).1
  have hbits := h3 f o hf
  obtain ⟨w, hw, hw1⟩ := hL.width hf.1
  have hpos : 1 ≤ f.width := by
    have : f.width = w := by simp [FieldSpec.width, hf.1, hw]
    omega
  refine ⟨g, hg, hn, ?_, ?_⟩
  · intro t ht hb
    have hread : ∀ n : Int, (∀ i < f.width, st.bit (o + i) = intBit n i) →
        (t.unsigned = true → 0 ≤ n ∧ n < 2 ^ f.width) →
        (t.unsigned = false → -(2 ^ (f.width - 1) : Int) ≤ n ∧ n < 2 ^ (f.width - 1)) →
        getX rt g st = .ok (.int n) := by
      intro n hbit h1 h2
      rw [hget, ht]
      have e1 : natOf f.width (fun i => st.bit (o + i)) = natOf f.width (intBit n) := natOf_congr hbit
      have e2 : intOf f.width (fun i => st.bit (o + i)) = intOf f.width (intBit n) :=
        intOf_congr hpos hbit
      have e3 : TypeSpec.read (.int t) f.width (fun i => st.bit (o + i)) =
          .ok (.int (if t.unsigned then (natOf f.width (intBit n) : Int)
            else intOf f.width (intBit n))) := by
        unfold TypeSpec.read
        rw [e1, e2]
        cases t <;> first | exact absurd rfl hb | rfl
      rw [e3]
      cases hun : t.unsigned with
      | true =>
        obtain ⟨a1, a2⟩ := h1 hun
        rw [if_pos rfl, natOf_intBit, Int.emod_eq_of_lt a1 a2]
      | false =>
        obtain ⟨a1, a2⟩ := h2 hun
        rw [if_neg (by simp)]
        rw [intOf_intBit hpos, BitVec.toInt_ofInt, Int.bmod_eq_of_le_mul_two]
        · have : (2 : Int) ^ f.width = 2 * 2 ^ (f.width - 1) := by
            conv => lhs; rw [show f.width = (f.width - 1) + 1 by omega, Int.pow_succ]
            omega
          push_cast
          omega
        · have : (2 : Int) ^ f.width = 2 * 2 ^ (f.width - 1) := by
            conv => lhs; rw [show f.width = (f.width - 1) + 1 by omega, Int.pow_succ]
            omega
          push_cast
          omega
    refine ⟨?_, ?_⟩
    · intro l v hd hsig hlit
      obtain ⟨context, hctx, _, _, hv⟩ := (hu.default f (At.mem hf) hf.1 _ _ hd).1
      have hfit := hL.default hf.1 t ht _ _ hd
      simp only [DefaultSpec.Fits] at hfit
      refine hread l.value ?_ ?_ ?_
      · intro i hi
        rw [hbits i hi]
        simp only [FieldSpec.initial, hd, hv]
        show intBit _ i = _
        rcases hlit context hctx with h5 | h5
        · exact IntTy.intBit_reduce _ _ (by omega)
        · rw [h5]
      · intro hun
        unfold IntLit.value
        cases hneg : l.neg with
        | true => rw [hneg, if_pos rfl, hun] at hfit; cases hfit.1
        | false =>
          rw [hneg, if_neg (by simp)] at hfit
          rw [if_neg (by simp)]
          exact ⟨by omega, by exact_mod_cast hfit⟩
      · intro hun
        refine ⟨?_, hsig hun⟩
        unfold IntLit.value
        have hp : (0 : Int) < 2 ^ (f.width - 1) := Int.pow_pos (by decide)
        cases hneg : l.neg with
        | true =>
          rw [hneg, if_pos rfl] at hfit
          rw [if_pos rfl]
          have : (l.magnitude : Int) ≤ 2 ^ (f.width - 1) := by exact_mod_cast hfit.2
          omega
        | false => rw [if_neg (by simp)]; omega
    · intro hd
      refine hread 0 ?_ ?_ ?_
      · intro i hi
        rw [hbits i hi]
        simp [FieldSpec.initial, hd, intBit]
      · intro _; exact ⟨by omega, Int.pow_pos (by decide)⟩
      · intro _
        have hp : (0 : Int) < 2 ^ (f.width - 1) := Int.pow_pos (by decide)
        omega
  · intro ht
    have hread : getX rt g st = .ok (.bool (st.bit (o + 0))) := by
      rw [hget, ht]
      rfl
    rw [hread, hbits 0 hpos]
    refine ⟨?_, ?_⟩
    · intro b v hd
      have hden := (hu.default f (At.mem hf) hf.1 _ _ hd).1
      have hv : v = .bool b := hden
      simp only [FieldSpec.initial, hd, hv]
      rfl
    · intro hd
      simp [FieldSpec.initial, hd]

/-- In the example the getters of `a`, `flag`, `b` return -3, `true`, 0. -/
example (rt : Mode) : ∀ p, parseBitfield .checked (fun _ => false) ExR.R.attr ExR.R.decl = .ok p →
    ∃ st, apiNew rt p.bitfield = .ok st ∧
      (∃ g ∈ p.bitfield.fields, g.name = "a" ∧ getX rt g st = .ok (.int (-3))) ∧
      (∃ g ∈ p.bitfield.fields, g.name = "flag" ∧ getX rt g st = .ok (.bool true)) ∧
      (∃ g ∈ p.bitfield.fields, g.name = "b" ∧ getX rt g st = .ok (.int 0)) := by
  intro p hp
  obtain ⟨st, h1, h2⟩ := C53_default_read_partial ExR.readable rfl ExR.legal ExR.usable hp
    ExR.lawful.initial rt
  refine ⟨st, h1, ?_, ?_, ?_⟩
  · obtain ⟨g, hg, hn, h3, _⟩ := h2 ExR.R.fields[0] 27 ⟨rfl, [], _, 32, rfl, rfl, rfl⟩
    refine ⟨g, hg, hn, (h3 .i8 rfl (by decide)).1 ⟨true, 0, .dec, ['3'], []⟩ _ rfl (fun _ => by decide) ?_⟩
    rintro context (⟨_, rfl⟩ | ⟨h, _⟩)
    · exact .inl (by decide)
    · exact absurd ⟨⟨by decide, rfl⟩, .inr rfl⟩ h
  · obtain ⟨g, hg, hn, _, h3⟩ := h2 ExR.R.fields[3] 22 ⟨rfl, [_, _, _], _, 32, rfl, rfl, rfl⟩
    exact ⟨g, hg, hn, (h3 rfl).1 true _ rfl⟩
  · obtain ⟨g, hg, hn, h3, _⟩ := h2 ExR.R.fields[4] 16 ⟨rfl, [_, _, _, _], _, 32, rfl, rfl, rfl⟩
    exact ⟨g, hg, hn, (h3 .u16 rfl (by decide)).2 rfl⟩

namespace Finding

/-- `#[bitfield(u8)] struct D { #[bits(4, default = 9)] a: i8, #[bits(4)] b: u8 }` -/
def signedDefault : StructSpec where
  storage := .int .u8
  rest := []
  vis := .pub
  fields := [
    ⟨"a", .pub, .int .i8, some ⟨some 4, [.default (.int ⟨false, 0, .dec, ['9'], []⟩) (.int 9)]⟩⟩,
    ⟨"b", .pub, .int .u8, some ⟨some 4, []⟩⟩]

/-- C53: a positive default of a signed field is only compared with the largest unsigned number of
the field's width. The default 9 of the 4-bit field `a: i8` is accepted, and `new().a()` is -7. -/
theorem finding_signed_default : ∀ m rt, ∃ p a b st,
    parseBitfield m (fun _ => false) signedDefault.attr signedDefault.decl = .ok p ∧
    p.bitfield.fields = [a, b] ∧ a.name = "a" ∧ apiNew rt p.bitfield = .ok st ∧
    getX rt a st = .ok (.int (-7)) := by
  intro m rt
  cases m <;> cases rt <;>
    exact ⟨_, ⟨"a", .int .i8, 4, 0, .rw, false, some (.int 9)⟩,
      ⟨"b", .int .u8, 4, 4, .rw, false, none⟩, .int 8 9#8, rfl, rfl, rfl, by decide, by decide⟩

/-- `#[bitfield(u64)] struct L { #[bits(default = 0x1_0000_0005)] a: u64 }`. Of the default
expression `0x1_0000_0005 as _` rustc makes an `i32`, of the value 5. -/
def largeDefault : StructSpec where
  storage := .int .u64
  rest := []
  vis := .pub
  fields := [
    ⟨"a", .pub, .int .u64, some ⟨none,
      [.default (.int ⟨false, 0, .hex, ['1', '_', '0', '0', '0', '0', '_', '0', '0', '0', '5'], []⟩)
        (.int 5)]⟩⟩]

/-- C53: the default of a writable integer field is passed to its setter as `default as _`, where a
literal without suffix has the type `i32`. The default 0x1_0000_0005 of the field `a: u64` is
accepted, and `new().a()` is 5. -/
theorem finding_large_default :
    (∀ f ∈ largeDefault.fields, ∀ d v, f.default? = some (d, v) →
      d.Denotes largeDefault.storage f.ty f.CanWrite v ∧ ∃ l, d = .int l ∧ l.value = 0x100000005) ∧
    ∀ m rt, ∃ p a st,
      parseBitfield m (fun _ => false) largeDefault.attr largeDefault.decl = .ok p ∧
      p.bitfield.fields = [a] ∧ a.name = "a" ∧ apiNew rt p.bitfield = .ok st ∧
      getX rt a st = .ok (.int 5) := by
  refine ⟨?_, ?_⟩
  · intro f hf d v hd
    simp only [largeDefault, List.mem_cons, List.not_mem_nil, or_false] at hf
    subst hf
    cases hd
    have hw : FieldSpec.CanWrite largeDefault.fields[0] := ⟨⟨by decide, rfl⟩, .inr rfl⟩
    exact ⟨⟨none, .inl ⟨hw, rfl⟩, by decide, fun h => absurd hw h, by decide⟩, _, rfl, by decide⟩
  · intro m rt
    cases m <;> cases rt <;>
      exact ⟨_, ⟨"a", .int .u64, 64, 0, .rw, false, some (.int 5)⟩, .int 64 5#64, rfl, rfl, rfl,
        by decide, by decide⟩

end Finding

end Bf
