import Verif.Props.Codegen
import Verif.Props.Convert
import Verif.Props.Surface

/-!
# Changing a struct (C75)

Two versions of a struct: `pre` and `post` are the members that both have, `mid` and `mid'` the ones that were replaced.
Both versions are accepted, so that `mid` and `mid'` have the same number of bits.
-/

namespace Bf

open Rust Quote

variable {m rt : Mode} {cfg : String → Bool} {s s' : StructSpec} {p p' : Parsed} {as : List BitfieldArgSpec}
  {fuel : Nat} {pre mid mid' post : List FieldSpec}

/-- The call is one of the functions of the field `x`. -/
def Call.OnField (x : String) : Call → Prop
  | .get f | .inverted f | .set f _ | .checkedSet f _ | .clearField f | .clearFieldToDefault f | .invertField f => f.name = x
  | _ => False

/-- `s` and `s'` are versions of a struct that share the members `pre` and `post`. -/
structure Versions (s s' : StructSpec) (pre post : List FieldSpec) : Prop where
  storage : s'.storage = s.storage
  old : ∃ mid, s.fields = pre ++ mid ++ post
  new : ∃ mid, s'.fields = pre ++ mid ++ post

/-- **C75** (places). A member that both versions have has the same bits in both, in either order of fields. -/
theorem C75_place (hl : s.Legal) (hl' : s'.Legal) (hv : Versions s s' pre post) (order : Order) {f : FieldSpec}
    (hf : f ∈ pre ++ post) (hi : f.ignored = false) : ∃ o, s.At order f o ∧ s'.At order f o := by
  obtain ⟨mid, h1⟩ := hv.old
  obtain ⟨mid', h2⟩ := hv.new
  have e1 := hl.total
  have e2 := hl'.total
  rw [hv.storage, ← e1] at e2
  have e := Option.some.inj e2
  rw [h1, h2] at e
  simp only [List.map_append, List.sum_append] at e
  rcases List.mem_append.mp hf with h | h
  · obtain ⟨a, b, rfl⟩ := List.append_of_mem h
    exact ⟨_, ⟨hi, a, b ++ mid ++ post, _, by rw [h1]; simp, e1.symm, rfl⟩,
      ⟨hi, a, b ++ mid' ++ post, _, by rw [h2]; simp, by rw [hv.storage]; exact e1.symm, rfl⟩⟩
  · obtain ⟨a, b, rfl⟩ := List.append_of_mem h
    refine ⟨_, ⟨hi, pre ++ mid ++ a, b, _, by rw [h1]; simp, e1.symm, rfl⟩,
      ⟨hi, pre ++ mid' ++ a, b, _, by rw [h2]; simp, by rw [hv.storage]; exact e1.symm, ?_⟩⟩
    simp only [List.map_append, List.sum_append]
    congr 1
    omega

theorem Versions.backing (hv : Versions s s' pre post) (hr : s.Readable) (hl : s.Legal)
    (h : parseBitfield m cfg s.attr s.decl = .ok p) (hr' : s'.Readable) (hl' : s'.Legal)
    (h' : parseBitfield m cfg s'.attr s'.decl = .ok p') : p'.bitfield.backing = p.bitfield.backing := by
  obtain ⟨-, _, -, e, -⟩ := StructSpec.parsed hr (.inr hl.small) h
  obtain ⟨-, _, -, e', -⟩ := StructSpec.parsed hr' (.inr hl'.small) h'
  show p'.ty.backing = p.ty.backing
  rw [e, e', hv.storage]

/-- The parsed field of a common member is the same in both versions. -/
theorem Versions.field (hv : Versions s s' pre post) (hr : s.Readable) (ha : s.rest = bitfieldTokens as) (hl : s.Legal)
    (h : parseBitfield m cfg s.attr s.decl = .ok p) (hr' : s'.Readable) (ha' : s'.rest = bitfieldTokens as)
    (hl' : s'.Legal) (h' : parseBitfield m cfg s'.attr s'.decl = .ok p') {f : FieldSpec} (hf : f ∈ pre ++ post)
    (hn : f.Named) {g : Field} (hg : g ∈ p.bitfield.fields) (he : g.name = f.name) : g ∈ p'.bitfield.fields := by
  obtain ⟨o, h1, h2⟩ := C75_place hl hl' hv (orderValue cfg as) hf hn.2
  obtain ⟨f1, o1, h3, rfl⟩ := (StructSpec.layout hr ha hl h g).mp hg
  obtain ⟨rfl, rfl⟩ := At.unique hl h1 h3 he hn.1
  exact (StructSpec.layout hr' ha' hl' h' _).mpr ⟨_, _, h2, rfl⟩

/-- **C75** (interface). The functions of a common field that exist in one version exist in the other, for the same bits
and the same arguments. -/
theorem C75_interface (hv : Versions s s' pre post) (hr : s.Readable) (ha : s.rest = bitfieldTokens as) (hl : s.Legal)
    (h : parseBitfield m cfg s.attr s.decl = .ok p) (hr' : s'.Readable) (ha' : s'.rest = bitfieldTokens as)
    (hl' : s'.Legal) (h' : parseBitfield m cfg s'.attr s'.decl = .ok p') {f : FieldSpec} (hf : f ∈ pre ++ post)
    (hn : f.Named) {c : Call} (hc : c.OnField f.name) (ht : c.Typed p.bitfield) (hg : Generates p (c.tag p.bob)) :
    c.Typed p'.bitfield ∧ Generates p' (c.tag p'.bob) := by
  have hm : ∀ {g : Field}, g ∈ p.bitfield.fields → g.name = f.name → g ∈ p'.bitfield.fields :=
    fun hg he => hv.field hr ha hl h hr' ha' hl' h' hf hn hg he
  have hargs : p'.args = p.args := by
    have e1 := (StructSpec.kept hr h).args
    have e2 := (StructSpec.kept hr' h').args
    rw [ha] at e1
    rw [ha', e1] at e2
    exact (Except.ok.inj e2).symm
  have hgrp : ∀ g, p.HasGroup g → p'.HasGroup g := by
    intro g
    rw [hasGroup_iff, hasGroup_iff, hargs]
    exact id
  have hold : f ∈ s.fields := by
    obtain ⟨mid, e⟩ := hv.old
    rw [e]
    simp only [List.mem_append] at hf ⊢
    rcases hf with hf | hf <;> simp [hf]
  have hnew : f ∈ s'.fields := by
    obtain ⟨mid, e⟩ := hv.new
    rw [e]
    simp only [List.mem_append] at hf ⊢
    rcases hf with hf | hf <;> simp [hf]
  have hgen : ∀ a, Generates p (.acc a f.name) → Generates p' (.acc a f.name) := by
    intro a
    rw [C05_accessors hr h, C05_accessors hr' h']
    rintro ⟨h1, f1, h2, h3, h4⟩
    refine ⟨fun g hg => hgrp g (h1 g hg), f, hnew, rfl, ?_⟩
    have hn1 : f1.ignored = false := by
      cases a
      case bitsConst => rcases h4 with h4 | h4 <;> exact h4.1.2
      case offsetConst => rcases h4 with h4 | h4 <;> exact h4.1.2
      case clearToDefault => exact h4.1.1.2
      case builderWith => exact h4.2
      case builderCheckedWith => exact h4.2
      all_goals exact h4.1.2
    obtain ⟨a1, b1, e1⟩ := List.append_of_mem h2
    obtain ⟨o, h5, -⟩ := C75_place hl hl' hv (orderValue cfg as) hf hn.2
    obtain ⟨rfl, -⟩ := At.unique hl h5 ⟨hn1, a1, b1, _, e1, hl.total.symm, rfl⟩ h3 hn.1
    exact h4
  cases c <;> simp only [Call.OnField] at hc <;> simp only [Call.Typed] at ht ⊢ <;> simp only [Call.tag] at hg ⊢ <;>
    exact ⟨⟨hm ht.1 hc, ht.2⟩, hc ▸ hgen _ (hc ▸ hg)⟩

/-- **C75** (calls). Code that uses only common fields behaves the same with both versions: it returns the same values and
leaves the same bits. -/
theorem C75_calls (hv : Versions s s' pre post) (hr : s.Readable) (ha : s.rest = bitfieldTokens as) (hl : s.Legal)
    (hu : s.Compiles) (h : parseBitfield m cfg s.attr s.decl = .ok p) (hT : UserConversions p.bitfield)
    (hr' : s'.Readable) (ha' : s'.rest = bitfieldTokens as) (hl' : s'.Legal) (hu' : s'.Compiles)
    (h' : parseBitfield m cfg s'.attr s'.decl = .ok p') (hT' : UserConversions p'.bitfield) (hfuel : 2 ^ 64 ≤ fuel)
    (cs : List Call)
    (hc : ∀ c ∈ cs, c.Typed p.bitfield ∧ Generates p (c.tag p.bob) ∧ ∃ f ∈ pre ++ post, f.Named ∧ c.OnField f.name)
    (st : Store) (hst : st.HasBacking p.bitfield.backing) :
    (program p').history p'.bitfield rt fuel cs st = (program p).history p.bitfield rt fuel cs st := by
  have hb : p'.bitfield.backing = p.bitfield.backing := by
    exact hv.backing hr hl h hr' hl' h'
  have hi : ∀ c ∈ cs, c.Typed p'.bitfield ∧ Generates p' (c.tag p'.bob) := by
    intro c hm
    obtain ⟨h1, h2, f, h3, h4, h5⟩ := hc c hm
    exact C75_interface hv hr ha hl h hr' ha' hl' h' h3 h4 h5 h1 h2
  rw [C54_calls hr ha hl hu h hT hfuel cs (fun c hm => (hc c hm).1) (fun c hm => (hc c hm).2.1) st hst,
    C54_calls hr' ha' hl' hu' h' hT' hfuel cs (fun c hm => (hi c hm).1) (fun c hm => (hi c hm).2) st (by rw [hb]; exact hst)]
  congr 1
  clear hst hi
  induction cs generalizing st with
  | nil => rfl
  | cons c cs ih =>
    obtain ⟨-, -, f, -, -, h5⟩ := hc c (.head _)
    have e : call rt p'.bitfield c st = call rt p.bitfield c st := by
      cases c <;> simp only [Call.OnField] at h5 <;> rfl
    simp only [history, e]
    congr 1
    funext x
    rw [ih (fun c hm => hc c (.tail _ hm))]

/-- **C75** (stored data). What one version wrote with `into_le_bits` or `into_be_bits` the other version reads with
`from_le_bits` or `from_be_bits` as the same bits. With `C75_calls` its common fields have the values they had. -/
theorem C75_data (hv : Versions s s' pre post) (hr : s.Readable) (ha : s.rest = bitfieldTokens as) (hl : s.Legal)
    (hu : s.Usable) (h : parseBitfield m cfg s.attr s.decl = .ok p)
    (hr' : s'.Readable) (ha' : s'.rest = bitfieldTokens as) (hl' : s'.Legal) (hu' : s'.Usable) (hL' : s'.Lawful)
    (h' : parseBitfield m cfg s'.attr s'.decl = .ok p') (hfuel : 2 ^ 64 ≤ fuel)
    (hg : GroupOn cfg as .fromIntoBits = true) (e : Endian) (st : Store) (hst : st.HasBacking p.bitfield.backing) :
    ∃ b, (program p).call p.bitfield rt fuel (.into (some e)) st = .ok (.store b, st) ∧
      ∀ st0, st0.HasBacking p'.bitfield.backing →
        (program p').make p'.bitfield rt fuel (.from (some e) false b) st0 = .ok (.ok st) := by
  have hb := hv.backing hr hl h hr' hl' h'
  obtain ⟨h1, -, -⟩ := C52_wf hr ha hl hu h
  obtain ⟨h1', h2', h3'⟩ := C52_wf hr' ha' hl' hu' h'
  have g1 : Generates p ((Call.into (some e)).tag p.bob) := by
    refine (C39_group hr ha h (g := .fromIntoBits) (by decide) _ ?_).mpr hg
    unfold Parsed.bob
    rw [(StructSpec.kept hr h).int]
    cases s.intBacked <;> cases e <;> decide
  have g2 : ∀ x, Generates p' ((Origin.from (some e) false x).tag p'.bob) := by
    intro x
    refine (C39_group hr' ha' h' (g := .fromIntoBits) (by decide) _ ?_).mpr hg
    simp only [Origin.tag]
    unfold Parsed.bob
    rw [(StructSpec.kept hr' h').int]
    cases s'.intBacked <;> cases e <;> decide
  obtain ⟨g, rfl⟩ := Store.cases_ofBits hst
  refine ⟨Store.ofBits p.bitfield.backing (endianBits p.bitfield.backing e g), ?_, fun st0 hst0 => ?_⟩
  · rw [C54_call hr ha hl hu.compiles h hfuel (c := .into (some e)) trivial g1 _ hst]
    simp only [call, apiIntoE_bits h1]
    rfl
  · have ht : (Store.ofBits p.bitfield.backing (endianBits p.bitfield.backing e g)).HasBacking p'.bitfield.backing := by
      rw [hb]; exact Store.hasBacking_ofBits _ _
    rw [C54_make_partial hr' ha' hl' hu'.compiles h' hfuel (og := .from (some e) false _) ht trivial (g2 _) st0 hst0]
    simp only [Origin.run]
    rw [← hb, apiFromE_bits _ h1' h2' e _ ((h3' hL').all _), ofBits_endian_endian h1']
    rfl

/-- **C75** (`new()`). The common fields of a new bitfield hold the same bits in both versions. -/
theorem C75_new (hv : Versions s s' pre post) (hr : s.Readable) (ha : s.rest = bitfieldTokens as) (hl : s.Legal)
    (hu : s.Usable) (hL : s.Lawful) (h : parseBitfield m cfg s.attr s.decl = .ok p)
    (hr' : s'.Readable) (ha' : s'.rest = bitfieldTokens as) (hl' : s'.Legal) (hu' : s'.Usable) (hL' : s'.Lawful)
    (h' : parseBitfield m cfg s'.attr s'.decl = .ok p') (hfuel : 2 ^ 64 ≤ fuel) (hg : GroupOn cfg as .new = true)
    (st0 : Store) (hst : st0.HasBacking p.bitfield.backing) :
    ∃ st st', (program p).make p.bitfield rt fuel .new st0 = .ok (.ok st) ∧
      (program p').make p'.bitfield rt fuel .new st0 = .ok (.ok st') ∧
      ∀ f ∈ pre ++ post, f.ignored = false → ∃ o, s.At (orderValue cfg as) f o ∧ s'.At (orderValue cfg as) f o ∧
        ∀ i < f.width, st'.bit (o + i) = st.bit (o + i) := by
  obtain ⟨st, h1, -, h2⟩ := C54_new (rt := rt) hr ha hl hu h hfuel hg hL.initial st0 hst
  obtain ⟨st', h1', -, h2'⟩ := C54_new (rt := rt) hr' ha' hl' hu' h' hfuel hg hL'.initial st0
    (by rw [hv.backing hr hl h hr' hl' h']; exact hst)
  refine ⟨st, st', h1, h1', fun f hf hi => ?_⟩
  obtain ⟨o, a, b⟩ := C75_place hl hl' hv (orderValue cfg as) hf hi
  exact ⟨o, a, b, fun i hi => by rw [h2 f o a i hi, h2' f o b i hi]⟩

/-! ## Larger storage -/

/-- `s'` is `s` with members added at the side of the most significant bits: after the others if the first field is the
least significant one, before them if it is the most significant one. The storage may be larger, also of another kind. -/
def Grown (order : Order) (s s' : StructSpec) : Prop :=
  ∃ extra, s'.fields = match order with | .lsb => s.fields ++ extra | .msb => extra ++ s.fields

/-- **C75** (places in a larger storage). Fields keep their bits. -/
theorem C75_grown_place (hl : s.Legal) (hl' : s'.Legal) {order : Order} (hv : Grown order s s') {f : FieldSpec} {o : Nat}
    (hf : s.At order f o) : s'.At order f o := by
  obtain ⟨hi, a, b, size, h1, h2, rfl⟩ := hf
  obtain ⟨extra, he⟩ := hv
  have e1 := hl.total
  rw [h2, h1] at e1
  have e1 := Option.some.inj e1
  have e2 := hl'.total.symm
  cases order with
  | lsb => exact ⟨hi, a, b ++ extra, _, by simp [he, h1], e2, rfl⟩
  | msb =>
    refine ⟨hi, extra ++ a, b, _, by simp [he, h1], e2, ?_⟩
    simp only [specOffset, he, h1, List.map_append, List.sum_append, List.map_cons, List.sum_cons] at e1 ⊢
    omega

theorem read_congr (t : TypeSpec) {w : Nat} (hw : 1 ≤ w) {x y : Bits} (h : ∀ i < w, x i = y i) : t.read w x = t.read w y := by
  have hn : natOf w x = natOf w y := natOf_congr h
  have h0 : x 0 = y 0 := h 0 (by omega)
  have hi : intOf w x = intOf w y := by
    unfold intOf
    rw [hn, h (w - 1) (by omega)]
  have hb : (fun i => decide (i < w) && x i) = fun i => decide (i < w) && y i := by
    funext i
    by_cases hi : i < w
    · simp [hi, h i hi]
    · simp [hi]
  cases t with
  | int it => cases it <;> simp only [TypeSpec.read, hn, h0, hi]
  | bytes len => simp only [TypeSpec.read, hb]
  | custom name c => simp only [TypeSpec.read, hn]

theorem storage_size_parsed (hr : s.Readable) (ha : s.rest = bitfieldTokens as) (hl : s.Legal) (hu : s.Usable)
    (h : parseBitfield m cfg s.attr s.decl = .ok p) : s.storage.size = some p.bitfield.backing.size := by
  rw [(StructSpec.runs hr ha hl hu h).backing]
  have := hl.storage
  cases e : s.storage with
  | int t => rfl
  | bytes n => rfl
  | custom name c => rw [e] at this; exact this.elim

/-- **C75** (accessors in a larger storage). If the two bitfields hold the same bits as far as the smaller one reaches,
getters return the same, and setters leave the same bits there and the others unchanged. -/
theorem C75_grown (hr : s.Readable) (ha : s.rest = bitfieldTokens as) (hl : s.Legal)
    (hu : s.Usable) (h : parseBitfield m cfg s.attr s.decl = .ok p)
    (hr' : s'.Readable) (ha' : s'.rest = bitfieldTokens as) (hl' : s'.Legal) (hu' : s'.Usable)
    (h' : parseBitfield m cfg s'.attr s'.decl = .ok p') (hfuel : 2 ^ 64 ≤ fuel) (hv : Grown (orderValue cfg as) s s')
    {f : FieldSpec} (hf : f ∈ s.fields) (hi : f.ignored = false) :
    ∃ g g', g.name = f.name ∧ g'.name = f.name ∧ ∀ st st' : Store, st.HasBacking p.bitfield.backing →
      st'.HasBacking p'.bitfield.backing → (∀ i < p.bitfield.backing.size, st'.bit i = st.bit i) →
      (f.CanRead → ((program p').call p'.bitfield rt fuel (.get g') st').map Prod.fst =
        ((program p).call p.bitfield rt fuel (.get g) st).map Prod.fst) ∧
      (f.CanWrite → ∀ v, f.ty.Contains v →
        (∀ name c code, f.ty = .custom name c → v = .custom code →
          c.fromBits (c.intoBits code % 2 ^ f.width).toNat = .ok code) →
        ∃ t t', (program p).call p.bitfield rt fuel (.set g v) st = .ok (.unit, t) ∧
          (program p').call p'.bitfield rt fuel (.set g' v) st' = .ok (.unit, t') ∧
          (∀ i < p.bitfield.backing.size, t'.bit i = t.bit i) ∧
          ∀ i < p'.bitfield.backing.size, p.bitfield.backing.size ≤ i → t'.bit i = st'.bit i) := by
  obtain ⟨a, b, e⟩ := List.append_of_mem hf
  have hA : s.At (orderValue cfg as) f _ := ⟨hi, a, b, _, e, hl.total.symm, rfl⟩
  generalize specOffset _ _ _ _ = o at hA
  have hA' := C75_grown_place hl hl' hv hA
  obtain ⟨g, hn, hx⟩ := C54_accessors (rt := rt) hr ha hl hu h hfuel hA
  obtain ⟨g', hn', hx'⟩ := C54_accessors (rt := rt) hr' ha' hl' hu' h' hfuel hA'
  have hfit := ((C52_wf hr ha hl hu h).1.field _ ((StructSpec.layout hr ha hl h _).mpr ⟨f, o, hA, rfl⟩)).fits
  have hfit' := ((C52_wf hr' ha' hl' hu' h').1.field _ ((StructSpec.layout hr' ha' hl' h' _).mpr ⟨f, o, hA', rfl⟩)).fits
  simp only [FieldSpec.parsed] at hfit hfit'
  have hsz : p.bitfield.backing.size ≤ p'.bitfield.backing.size := by
    have e1 := hl.total
    have e2 := hl'.total
    rw [storage_size_parsed hr ha hl hu h] at e1
    rw [storage_size_parsed hr' ha' hl' hu' h'] at e2
    have e1 := Option.some.inj e1
    have e2 := Option.some.inj e2
    obtain ⟨extra, he⟩ := hv
    rw [he] at e2
    cases ho : orderValue cfg as <;> simp only [ho, List.map_append, List.sum_append] at e2 <;> omega
  refine ⟨g, g', hn, hn', fun st st' hst hst' hbit => ⟨fun hR => ?_, fun hW v hv hc => ?_⟩⟩
  · rw [(hx st hst).1 hR, (hx' st' hst').1 hR]
    have : (f.ty.read f.width fun i => st'.bit (o + i)) = f.ty.read f.width fun i => st.bit (o + i) := by
      have hpos := ((C52_wf hr ha hl hu h).1.field _ ((StructSpec.layout hr ha hl h _).mpr ⟨f, o, hA, rfl⟩)).pos
      exact read_congr _ (w := f.width) hpos fun i hi => hbit _ (by omega)
    rw [this]
    cases f.ty.read f.width fun i => st.bit (o + i) <;> rfl
  · obtain ⟨t, h1, -, h2⟩ := (hx st hst).2 hW v hv hc
    obtain ⟨t', h1', -, h2'⟩ := (hx' st' hst').2 hW v hv hc
    refine ⟨t, t', h1, h1', fun i hi => ?_, fun i hi hge => ?_⟩
    · rw [h2 i hi, h2' i (by omega), hbit i hi]
    · rw [h2' i hi, if_neg (by omega)]

/-! ## Examples -/

namespace ExV

/-- `ExR.R` with the field `b` of 6 bits replaced by `b1` and a reserved rest. -/
def R : StructSpec where
  storage := .int .u32
  rest := bitfieldTokens ExR.as
  vis := .pub
  fields := [
    ⟨"a", .priv, .int .i8, some ⟨some 5, [.default (.int ⟨true, 0, .dec, ['3'], []⟩) (.int (-3))]⟩⟩,
    ⟨"x", .priv, .int .u32, some ⟨none, [.ignore true]⟩⟩,
    ⟨"k", .priv, .custom "Kind" ExS.kind, some ⟨some 4, [.access .ro,
      .default (.expr ['K', 'i', 'n', 'd', ':', ':', 'C']) (.custom 2)]⟩⟩,
    ⟨"flag", .priv, .int .bool, some ⟨none, [.default (.bool true) (.bool true)]⟩⟩,
    ⟨"b1", .priv, .int .u8, some ⟨some 2, []⟩⟩,
    ⟨"_b2", .priv, .int .u8, some ⟨some 4, []⟩⟩,
    ⟨"n", .priv, .int .u8,
      some ⟨none, [.default (.int ⟨false, 0, .hex, ['A', 'B'], []⟩) (.int 0xAB), .access .na]⟩⟩,
    ⟨"_r", .priv, .int .u8, some ⟨some 8, [.default (.int ⟨false, 0, .dec, ['7'], []⟩) (.int 7)]⟩⟩]

theorem readable : R.Readable where
  storage := trivial
  ty := by
    intro f hf
    simp only [R, List.mem_cons, List.not_mem_nil, or_false] at hf
    rcases hf with rfl | rfl | rfl | rfl | rfl | rfl | rfl | rfl <;>
      first | trivial | (show _ ∉ _; decide)
  default := by
    intro f hf d v hd
    simp only [R, List.mem_cons, List.not_mem_nil, or_false] at hf
    rcases hf with rfl | rfl | rfl | rfl | rfl | rfl | rfl | rfl <;> simp [FieldSpec.args] at hd <;>
      obtain ⟨rfl, rfl⟩ := hd
    · exact ⟨⟨by decide, by decide, by decide, by decide⟩, by decide, by decide, by decide⟩
    · exact ⟨⟨_, _, rfl, by decide⟩, by decide, by decide, by decide, by decide⟩
    · trivial
    · exact ⟨⟨by decide, by decide, by decide, by decide⟩, by decide, by decide, by decide⟩
    · exact ⟨⟨by decide, by decide, by decide, by decide⟩, by decide, by decide, by decide⟩

theorem accepted (m : Mode) : ∃ p, parseBitfield m (fun _ => false) R.attr R.decl = .ok p := by
  cases m <;> exact ⟨_, rfl⟩

theorem small : R.Small := ⟨by decide, by intro n h; cases h; decide⟩

theorem legal : R.Legal :=
  ((C03_acceptance_partial (m := .checked) readable (.inl rfl)).mp (accepted _)).1

theorem usable : R.Usable where
  storage := by intro h; cases h
  bytes := by
    intro f hf _ len h
    simp only [R, List.mem_cons, List.not_mem_nil, or_false] at hf
    rcases hf with rfl | rfl | rfl | rfl | rfl | rfl | rfl | rfl <;> cases h
  custom := by
    intro f hf _ name c h
    simp only [R, List.mem_cons, List.not_mem_nil, or_false] at hf
    rcases hf with rfl | rfl | rfl | rfl | rfl | rfl | rfl | rfl <;> cases h
    decide
  default := by
    intro f hf _ d v h
    simp only [R, List.mem_cons, List.not_mem_nil, or_false] at hf
    rcases hf with rfl | rfl | rfl | rfl | rfl | rfl | rfl | rfl <;> cases h
    · have hw : FieldSpec.CanWrite ⟨"a", .priv, .int .i8,
          some ⟨some 5, [.default (.int ⟨true, 0, .dec, ['3'], []⟩) (.int (-3))]⟩⟩ :=
        ⟨⟨by decide, rfl⟩, .inr rfl⟩
      exact ⟨⟨none, .inl ⟨hw, rfl⟩, by decide, fun h => absurd hw h, by decide⟩, .inl hw⟩
    · exact ⟨trivial, trivial⟩
    · exact ⟨rfl, trivial⟩
    · refine ⟨⟨some .u32, .inr ⟨?_, rfl⟩, by decide, ?_, by decide⟩,
        .inr ⟨by decide, by decide⟩⟩
      · rintro ⟨_, h⟩
        revert h; decide
      rintro _ u h
      cases h
      decide
    · refine ⟨⟨some .u32, .inr ⟨?_, rfl⟩, by decide, ?_, by decide⟩,
        .inr ⟨by decide, by decide⟩⟩
      · rintro ⟨⟨h, _⟩, _⟩
        revert h; decide
      rintro _ u h
      cases h
      decide

theorem lawful : R.Lawful := by
  intro f hf _ name c h
  simp only [R, List.mem_cons, List.not_mem_nil, or_false] at hf
  rcases hf with rfl | rfl | rfl | rfl | rfl | rfl | rfl | rfl <;> cases h
  exact Ex.idCodec_lawful _

theorem conversions (h : parseBitfield m (fun _ => false) R.attr R.decl = .ok p) : UserConversions p.bitfield := by
  intro g hg cd hty n
  obtain ⟨f, o, hf, rfl⟩ := ((StructSpec.runs readable rfl legal usable h).fields g).mp hg
  have hm := At.mem hf
  simp only [R, List.mem_cons, List.not_mem_nil, or_false] at hm
  rcases hm with rfl | rfl | rfl | rfl | rfl | rfl | rfl | rfl <;> cases hty
  nofun

theorem versions : Versions ExR.R R (ExR.R.fields.take 4) (ExR.R.fields.drop 5) := ⟨rfl, ⟨[_], rfl⟩, ⟨[_, _], rfl⟩⟩

end ExV

namespace ExG

/-- `ExR.R` in an `u64`, with 32 bits in front. -/
def R : StructSpec where
  storage := .int .u64
  rest := bitfieldTokens ExR.as
  vis := .pub
  fields := [
    ⟨"id", .priv, .int .u32, none⟩,
    ⟨"a", .priv, .int .i8, some ⟨some 5, [.default (.int ⟨true, 0, .dec, ['3'], []⟩) (.int (-3))]⟩⟩,
    ⟨"x", .priv, .int .u32, some ⟨none, [.ignore true]⟩⟩,
    ⟨"k", .priv, .custom "Kind" ExS.kind, some ⟨some 4, [.access .ro,
      .default (.expr ['K', 'i', 'n', 'd', ':', ':', 'C']) (.custom 2)]⟩⟩,
    ⟨"flag", .priv, .int .bool, some ⟨none, [.default (.bool true) (.bool true)]⟩⟩,
    ⟨"b", .priv, .int .u16, some ⟨some 6, []⟩⟩,
    ⟨"n", .priv, .int .u8,
      some ⟨none, [.default (.int ⟨false, 0, .hex, ['A', 'B'], []⟩) (.int 0xAB), .access .na]⟩⟩,
    ⟨"_r", .priv, .int .u8, some ⟨some 8, [.default (.int ⟨false, 0, .dec, ['7'], []⟩) (.int 7)]⟩⟩]

theorem readable : R.Readable where
  storage := trivial
  ty := by
    intro f hf
    simp only [R, List.mem_cons, List.not_mem_nil, or_false] at hf
    rcases hf with rfl | rfl | rfl | rfl | rfl | rfl | rfl | rfl <;>
      first | trivial | (show _ ∉ _; decide)
  default := by
    intro f hf d v hd
    simp only [R, List.mem_cons, List.not_mem_nil, or_false] at hf
    rcases hf with rfl | rfl | rfl | rfl | rfl | rfl | rfl | rfl <;> simp [FieldSpec.args] at hd <;>
      obtain ⟨rfl, rfl⟩ := hd
    · exact ⟨⟨by decide, by decide, by decide, by decide⟩, by decide, by decide, by decide⟩
    · exact ⟨⟨_, _, rfl, by decide⟩, by decide, by decide, by decide, by decide⟩
    · trivial
    · exact ⟨⟨by decide, by decide, by decide, by decide⟩, by decide, by decide, by decide⟩
    · exact ⟨⟨by decide, by decide, by decide, by decide⟩, by decide, by decide, by decide⟩

theorem accepted (m : Mode) : ∃ p, parseBitfield m (fun _ => false) R.attr R.decl = .ok p := by
  cases m <;> exact ⟨_, rfl⟩

theorem small : R.Small := ⟨by decide, by intro n h; cases h; decide⟩

theorem legal : R.Legal :=
  ((C03_acceptance_partial (m := .checked) readable (.inl rfl)).mp (accepted _)).1

theorem usable : R.Usable where
  storage := by intro h; cases h
  bytes := by
    intro f hf _ len h
    simp only [R, List.mem_cons, List.not_mem_nil, or_false] at hf
    rcases hf with rfl | rfl | rfl | rfl | rfl | rfl | rfl | rfl <;> cases h
  custom := by
    intro f hf _ name c h
    simp only [R, List.mem_cons, List.not_mem_nil, or_false] at hf
    rcases hf with rfl | rfl | rfl | rfl | rfl | rfl | rfl | rfl <;> cases h
    decide
  default := by
    intro f hf _ d v h
    simp only [R, List.mem_cons, List.not_mem_nil, or_false] at hf
    rcases hf with rfl | rfl | rfl | rfl | rfl | rfl | rfl | rfl <;> cases h
    · have hw : FieldSpec.CanWrite ⟨"a", .priv, .int .i8,
          some ⟨some 5, [.default (.int ⟨true, 0, .dec, ['3'], []⟩) (.int (-3))]⟩⟩ :=
        ⟨⟨by decide, rfl⟩, .inr rfl⟩
      exact ⟨⟨none, .inl ⟨hw, rfl⟩, by decide, fun h => absurd hw h, by decide⟩, .inl hw⟩
    · exact ⟨trivial, trivial⟩
    · exact ⟨rfl, trivial⟩
    · refine ⟨⟨some .u64, .inr ⟨?_, rfl⟩, by decide, ?_, by decide⟩,
        .inr ⟨by decide, by decide⟩⟩
      · rintro ⟨_, h⟩
        revert h; decide
      rintro _ u h
      cases h
      decide
    · refine ⟨⟨some .u64, .inr ⟨?_, rfl⟩, by decide, ?_, by decide⟩,
        .inr ⟨by decide, by decide⟩⟩
      · rintro ⟨⟨h, _⟩, _⟩
        revert h; decide
      rintro _ u h
      cases h
      decide

theorem lawful : R.Lawful := by
  intro f hf _ name c h
  simp only [R, List.mem_cons, List.not_mem_nil, or_false] at hf
  rcases hf with rfl | rfl | rfl | rfl | rfl | rfl | rfl | rfl <;> cases h
  exact Ex.idCodec_lawful _

theorem grown : Grown .msb ExR.R R := ⟨[_], rfl⟩

end ExG

/-- The field `k` of an `u32` and of an `u64` with the same lower 32 bits. -/
example (rt : Mode) {p p' : Parsed} (h : parseBitfield .checked (fun _ => false) ExR.R.attr ExR.R.decl = .ok p)
    (h' : parseBitfield .checked (fun _ => false) ExG.R.attr ExG.R.decl = .ok p') :
    ∃ g g', g.name = "k" ∧ g'.name = "k" ∧ ∀ st st' : Store, st.HasBacking p.bitfield.backing →
      st'.HasBacking p'.bitfield.backing → (∀ i < p.bitfield.backing.size, st'.bit i = st.bit i) →
      ((program p').call p'.bitfield rt (2 ^ 64) (.get g') st').map Prod.fst =
        ((program p).call p.bitfield rt (2 ^ 64) (.get g) st).map Prod.fst := by
  obtain ⟨g, g', h1, h2, h3⟩ := C75_grown (rt := rt) ExR.readable rfl ExR.legal ExR.usable h ExG.readable rfl ExG.legal ExG.usable
    h' (Nat.le_refl _) ExG.grown (f := ExR.R.fields[2]) (.tail _ (.tail _ (.head _))) rfl
  exact ⟨g, g', h1, h2, fun st st' a b c => (h3 st st' a b c).1 ⟨⟨by decide, rfl⟩, .inl rfl⟩⟩

/-- The field `n` after the replaced one keeps its place (order `msb`). -/
example : ExR.R.At .msb ExR.R.fields[5] 8 ∧ ExV.R.At .msb ExR.R.fields[5] 8 :=
  ⟨⟨rfl, [_, _, _, _, _], _, 32, rfl, rfl, rfl⟩, ⟨rfl, [_, _, _, _, _, _], _, 32, rfl, rfl, rfl⟩⟩

example : ∃ o, ExR.R.At .msb ExR.R.fields[5] o ∧ ExV.R.At .msb ExR.R.fields[5] o :=
  C75_place ExR.legal ExV.legal ExV.versions .msb (List.mem_append.mpr (.inr (.head _))) rfl

/-- Setting `a` and `flag` and reading `k` is the same with both versions. -/
example (rt : Mode) {p p' : Parsed} (h : parseBitfield .checked (fun _ => false) ExR.R.attr ExR.R.decl = .ok p)
    (h' : parseBitfield .checked (fun _ => false) ExV.R.attr ExV.R.decl = .ok p') (st : Store)
    (hst : st.HasBacking p.bitfield.backing) :
    ∃ a ∈ p.bitfield.fields, a.name = "a" ∧ ∃ k ∈ p.bitfield.fields, k.name = "k" ∧
      (program p').history p'.bitfield rt (2 ^ 64) [.set a (.int 7), .get k, .set a (.int (-7))] st =
        (program p).history p.bitfield rt (2 ^ 64) [.set a (.int 7), .get k, .set a (.int (-7))] st := by
  have R := StructSpec.runs ExR.readable rfl ExR.legal ExR.usable h
  have ha : (ExR.R.fields[0]).parsed 27 ∈ p.bitfield.fields := (R.fields _).mpr ⟨_, _, ⟨rfl, [], _, 32, rfl, rfl, rfl⟩, rfl⟩
  have hk : (ExR.R.fields[2]).parsed 23 ∈ p.bitfield.fields := (R.fields _).mpr ⟨_, _, ⟨rfl, [_, _], _, 32, rfl, rfl, rfl⟩, rfl⟩
  have hs : ∀ n, -7 ≤ n ∧ n ≤ 7 → (Call.set ((ExR.R.fields[0]).parsed 27) (.int n)).Typed p.bitfield :=
    fun n hn => ⟨ha, rfl, by show _ ≤ _ ∧ _ < _; simp [IntTy.bitSize]; omega⟩
  have gs : Generates p (.acc .set "a") := (C05_setters ExR.readable h "a").1.mpr ⟨_, .head _, rfl, ⟨by decide, rfl⟩, .inr rfl⟩
  have gk : Generates p (.acc .get "k") := (C05_getters ExR.readable h "k").mpr ⟨_, .tail _ (.tail _ (.head _)), rfl, ⟨by decide, rfl⟩, .inl rfl⟩
  refine ⟨_, ha, rfl, _, hk, rfl, ?_⟩
  refine C75_calls ExV.versions ExR.readable rfl ExR.legal ExR.usable.compiles h (ExR.conversions h) ExV.readable rfl ExV.legal
    ExV.usable.compiles h' (ExV.conversions h') (Nat.le_refl _) _ (fun c hc => ?_) st hst
  simp only [List.mem_cons, List.not_mem_nil, or_false] at hc
  rcases hc with rfl | rfl | rfl
  · exact ⟨hs 7 (by decide), gs, _, .head _, ⟨by decide, rfl⟩, rfl⟩
  · exact ⟨⟨hk, rfl, rfl⟩, gk, _, .tail _ (.tail _ (.head _)), ⟨by decide, rfl⟩, rfl⟩
  · exact ⟨hs (-7) (by decide), gs, _, .head _, ⟨by decide, rfl⟩, rfl⟩

/-- Data written by the old version. -/
example (rt : Mode) {p p' : Parsed} (h : parseBitfield .checked (fun _ => false) ExR.R.attr ExR.R.decl = .ok p)
    (h' : parseBitfield .checked (fun _ => false) ExV.R.attr ExV.R.decl = .ok p') (st : Store)
    (hst : st.HasBacking p.bitfield.backing) (hst' : st.HasBacking p'.bitfield.backing) :
    ∃ b, (program p).call p.bitfield rt (2 ^ 64) (.into (some .big)) st = .ok (.store b, st) ∧
      (program p').make p'.bitfield rt (2 ^ 64) (.from (some .big) false b) st = .ok (.ok st) := by
  obtain ⟨b, h1, h2⟩ := C75_data ExV.versions ExR.readable rfl ExR.legal ExR.usable h ExV.readable rfl ExV.legal ExV.usable
    ExV.lawful h' (rt := rt) (Nat.le_refl _) (by decide) .big st hst
  exact ⟨b, h1, h2 st hst'⟩

/-- `new()`. -/
example (rt : Mode) {p p' : Parsed} (h : parseBitfield .checked (fun _ => false) ExR.R.attr ExR.R.decl = .ok p)
    (h' : parseBitfield .checked (fun _ => false) ExV.R.attr ExV.R.decl = .ok p') (st : Store)
    (hst : st.HasBacking p.bitfield.backing) :
    ∃ x y, (program p).make p.bitfield rt (2 ^ 64) .new st = .ok (.ok x) ∧
      (program p').make p'.bitfield rt (2 ^ 64) .new st = .ok (.ok y) := by
  obtain ⟨x, y, h1, h2, -⟩ := C75_new ExV.versions ExR.readable rfl ExR.legal ExR.usable ExR.lawful h ExV.readable rfl
    ExV.legal ExV.usable ExV.lawful h' (rt := rt) (Nat.le_refl _) (by decide) st hst
  exact ⟨x, y, h1, h2⟩

end Bf
