import Verif.SpecNested
import Verif.Props.Nested
import Verif.Props.Codegen

/-!
# Generated types as field types, from the declarations to the generated code (C42)
-/

namespace Bf

open Rust Quote

variable {m rt : Mode} {cfg : String → Bool} {fuel : Nat} {s : StructSpec} {as : List BitfieldArgSpec} {p : Parsed}
  {t : IntTy}

theorem backing_of (hr : s.Readable) (hl : s.Legal) (h : parseBitfield m cfg s.attr s.decl = .ok p) (ht : s.storage = .int t) :
    p.bitfield.backing = .int t.bitSize := by
  obtain ⟨_, size, hs, hty, hp⟩ := StructSpec.parsed hr (.inr hl.small) h
  have := congrArg DataType.backing hty
  rw [ht] at this
  exact this

theorem emitted_into (hr : s.Readable) (ha : s.rest = bitfieldTokens as)
    (h : parseBitfield m cfg s.attr s.decl = .ok p) (ht : s.storage = .int t)
    (hg : GroupOn cfg as .fromIntoBits = true) : Generates p (.fn ("into_" ++ p.bob)) := by
  have hint : s.intBacked = true := by simp [StructSpec.intBacked, ht]
  have hbob : p.bob = "bits" := by
    unfold Parsed.bob
    rw [(StructSpec.kept hr h).int, hint]
    rfl
  rw [hbob]
  exact (C39_group hr ha h (g := .fromIntoBits) (by decide) _ (by rw [hint]; simp [Group.tags])).mpr hg

/-- The generated `from_bits` and `into_bits` compute the conversions that C42 speaks of. -/
theorem emittedCodec_eq (hr : s.Readable) (ha : s.rest = bitfieldTokens as) (hl : s.Legal) (hu : s.Compiles)
    (h : parseBitfield m cfg s.attr s.decl = .ok p) (ht : s.storage = .int t)
    (hg : GroupOn cfg as .fromIntoBits = true) (hf : 2 ^ 64 ≤ fuel) :
    emittedCodec rt fuel p t.bitSize = nestedCodec rt p.bitfield t.bitSize := by
  have hb := backing_of hr hl h ht
  have hint : s.intBacked = true := by simp [StructSpec.intBacked, ht]
  have hbob : p.bob = "bits" := by
    unfold Parsed.bob
    rw [(StructSpec.kept hr h).int, hint]
    rfl
  have g1 : Generates p (.fn "from_bits") := (C39_group hr ha h (g := .fromIntoBits) (by decide) _ (by
    rw [hint]; simp [Group.tags])).mpr hg
  have g2 : Generates p (.fn "into_bits") := (C39_group hr ha h (g := .fromIntoBits) (by decide) _ (by
    rw [hint]; simp [Group.tags])).mpr hg
  have hst : ∀ v : BitVec t.bitSize, (Store.int t.bitSize v).HasBacking p.bitfield.backing := fun v => by
    rw [hb]; exact rfl
  have e1 : (emittedCodec rt fuel p t.bitSize).fromBits = (nestedCodec rt p.bitfield t.bitSize).fromBits := by
    funext n
    have := C54_make_partial (rt := rt) hr ha hl hu h hf (og := .from none false (.int t.bitSize (BitVec.ofNat _ n)))
      (hst _) trivial (by rw [hbob]; exact g1) (.int t.bitSize 0#t.bitSize) (hst _)
    simp only [emittedCodec, nestedCodec, this, Origin.run]
    cases hx : apiFrom rt p.bitfield (.int t.bitSize (BitVec.ofNat t.bitSize n)) with
    | ok st => rfl
    | error q => cases q <;> rfl
  have e2 : (emittedCodec rt fuel p t.bitSize).intoBits = (nestedCodec rt p.bitfield t.bitSize).intoBits := by
    funext n
    have := C54_call (rt := rt) hr ha hl hu h hf (c := .into none) trivial (by rw [hbob]; exact g2)
      (.int t.bitSize (BitVec.ofNat _ n)) (hst _)
    simp only [emittedCodec, nestedCodec, this, call]
    cases hx : apiInto p.bitfield (.int t.bitSize (BitVec.ofNat t.bitSize n)) with
    | ok st => rfl
    | error q => cases q <;> rfl
  cases hA : emittedCodec rt fuel p t.bitSize
  cases hB : nestedCodec rt p.bitfield t.bitSize
  rw [hA, hB] at e1 e2
  cases e1; cases e2; rfl

/-- **C42** (any depth). Types that the macros make, one inside the other to any depth, satisfy the law that the generated
code expects of the types of fields: converting a pattern to a value and back gives the pattern. The conversions of the
structs among them are the generated functions. -/
theorem C42_any_depth (hf : 2 ^ 64 ≤ fuel) {c : Codec} {bits : Nat} (h : MacroType m cfg rt fuel c bits) :
    c.Lawful bits := by
  induction h with
  | enum hr hc h he hb hall => exact C42_flag_lawful hr hc h he hb hall
  | struct hr ha hl hu h ht hg he hb _ ih =>
    rw [emittedCodec_eq hr ha hl hu.compiles h ht hg hf]
    obtain ⟨h1, h2, h3⟩ := C52_wf hr ha hl hu h
    obtain ⟨e1, e2, -⟩ := C48_endian hr ha h
    exact C42_nested_lawful rt h1 h2 (h3 ih) (by rw [e1, e2, he]) (backing_of hr hl h ht) hb

/-- **C42** (declared structs). A struct whose fields of user types all have types that the macros made is one to which the
theorems about declared structs apply without further assumptions on user code. -/
theorem C42_declared (hf : 2 ^ 64 ≤ fuel)
    (hc : ∀ f ∈ s.fields, f.ignored = false → ∀ name c, f.ty = .custom name c → MacroType m cfg rt fuel c f.width) :
    s.Lawful :=
  fun f hx hi name c hty => C42_any_depth hf (hc f hx hi name c hty)

/-- **C42** (set, then get, with generated code only). Let field `f` of struct `s` have the struct `u` as its type, and let
`v` be a value of `u`. Let `b` be what the generated `v.into_bits()` returns. If `b` fits in the field, the generated
`set_f(v)` stores exactly these bits and changes no others, and the generated `f()` then returns `v`. -/
theorem C42_generated (hf : 2 ^ 64 ≤ fuel)
    -- the outer struct
    (hr : s.Readable) (ha : s.rest = bitfieldTokens as) (hl : s.Legal) (hu : s.Usable)
    (h : parseBitfield m cfg s.attr s.decl = .ok p) {f : FieldSpec} {o : Nat} (hat : s.At (orderValue cfg as) f o)
    (hR : f.CanRead) (hW : f.CanWrite)
    -- the inner struct
    {u : StructSpec} {bs : List BitfieldArgSpec} {q : Parsed} (hr' : u.Readable) (ha' : u.rest = bitfieldTokens bs)
    (hl' : u.Legal) (hu' : u.Usable) (h' : parseBitfield m cfg u.attr u.decl = .ok q) (ht : u.storage = .int t)
    (hg : GroupOn cfg bs .fromIntoBits = true)
    (he : (statedEndian bs .from).getD (EndianKey.from.byDefault cfg) =
      (statedEndian bs .into).getD (EndianKey.into.byDefault cfg))
    (hi : ∀ g ∈ u.fields, g.ignored = false → ∀ name c, g.ty = .custom name c → MacroType m cfg rt fuel c g.width)
    {name : String} (hty : f.ty = .custom name (emittedCodec rt fuel q t.bitSize))
    (st : Store) (hst : st.HasBacking p.bitfield.backing) (v : BitVec t.bitSize) :
    ∃ b : BitVec t.bitSize,
      (program q).call q.bitfield rt fuel (.into none) (.int t.bitSize v) =
        .ok (.store (.int t.bitSize b), .int t.bitSize v) ∧
      (b.toNat < 2 ^ f.width → ∃ g st', g.name = f.name ∧
        (program p).call p.bitfield rt fuel (.set g (.custom v.toNat)) st = .ok (.unit, st') ∧
        (∀ i < p.bitfield.backing.size, st'.bit i =
          if o ≤ i ∧ i < o + f.width then b.getLsbD (i - o) else st.bit i) ∧
        (program p).call p.bitfield rt fuel (.get g) st' = .ok (.val (.custom v.toNat), st')) := by
  have hL := C42_declared (s := u) hf hi
  obtain ⟨w1, w2, w3⟩ := C52_wf hr' ha' hl' hu' h'
  obtain ⟨e1, e2, -⟩ := C48_endian hr' ha' h'
  have hb := backing_of hr' hl' h' ht
  have hec := emittedCodec_eq (rt := rt) hr' ha' hl' hu'.compiles h' ht hg hf
  have hsv := hasBacking_int hb v
  obtain ⟨-, hrt, -, -⟩ := C17_configured rt w1 w2 (w3 hL) (by rw [e1, e2, he]) _ hsv
  have h1 := apiIntoE_bits w1 q.bitfield.intoEndian (Store.int t.bitSize v).bit
  rw [Store.ofBits_bit hsv, hb] at h1
  obtain ⟨b, hb'⟩ := cases_int (Store.hasBacking_ofBits (.int t.bitSize)
    (endianBits (.int t.bitSize) q.bitfield.intoEndian (Store.int t.bitSize v).bit))
  rw [hb'] at h1
  have h1 : apiInto q.bitfield (.int t.bitSize v) = .ok (.int t.bitSize b) := h1
  refine ⟨b, ?_, fun hfit => ?_⟩
  · have hgen := emitted_into hr' ha' h' ht hg
    rw [C54_call hr' ha' hl' hu'.compiles h' hf (c := .into none) trivial hgen _ hsv]
    simp only [call, h1]
    rfl
  · rw [h1] at hrt
    have h2 : apiFrom rt q.bitfield (.int t.bitSize b) = .ok (.int t.bitSize v) := hrt
    have hinto := nested_into (N := q.bitfield) h1 rt
    obtain ⟨g, hn, hx⟩ := C54_accessors (rt := rt) hr ha hl hu h hf hat
    obtain ⟨st', a1, a2, a3⟩ := (hx st hst).2 hW (.custom v.toNat) (by rw [hty]; exact trivial) (by
      intro name' c code hc hv
      rw [hty] at hc
      cases hc
      cases hv
      rw [hec, hinto, toNat_mod_cast hfit, Int.toNat_natCast]
      exact nested_from h2)
    have a3' : ∀ i < p.bitfield.backing.size, st'.bit i =
        if o ≤ i ∧ i < o + f.width then b.getLsbD (i - o) else st.bit i := by
      intro i hi
      rw [a3 i hi, hty]
      simp only [TypeSpec.write]
      rw [hec, hinto, intBit_toNat]
    refine ⟨g, st', hn, a1, a3', ?_⟩
    rw [(hx st' a2).1 hR, hty]
    simp only [TypeSpec.read]
    have R := StructSpec.runs hr ha hl hu h
    have hfok := R.wf.field _ ((R.fields _).mpr ⟨f, o, hat, rfl⟩)
    have hn : natOf f.width (fun i => st'.bit (o + i)) = b.toNat := by
      have e : natOf f.width (fun i => st'.bit (o + i)) = natOf f.width (intBit b.toNat) := by
        refine natOf_congr fun i hi => ?_
        have hle : o + f.width ≤ p.bitfield.backing.size := hfok.fits
        rw [a3' _ (by omega), if_pos (by omega), Nat.add_sub_cancel_left, intBit_toNat]
      have := natOf_intBit f.width b.toNat
      rw [toNat_mod_cast hfit] at this
      rw [e]
      exact Int.ofNat_inj.mp this
    rw [hn, hec, nested_from h2]
    rfl

/-! ## An enum in a struct in a struct -/

-- `#[bitfield(u8)] struct In { #[bits(2)] mode: Mode, #[bits(6)] a: u8 }`, with the enum of `ExMode`, and
-- `#[bitfield(u16)] struct Out { #[bits(8)] x: In, y: u8 }`
namespace ExIn

def In : StructSpec where
  storage := .int .u8
  rest := bitfieldTokens []
  vis := .pub
  fields := [⟨"mode", .priv, .custom "Mode" (ExMode.c.codec 8), some ⟨some 2, []⟩⟩, ⟨"a", .priv, .int .u8, some ⟨some 6, []⟩⟩]

def x (c : Codec) : FieldSpec := ⟨"x", .priv, .custom "In" c, some ⟨some 8, []⟩⟩

def Out (c : Codec) : StructSpec where
  storage := .int .u16
  rest := bitfieldTokens []
  vis := .pub
  fields := [x c, ⟨"y", .priv, .int .u8, none⟩]

theorem readable : In.Readable where
  storage := trivial
  ty := by
    intro f hf
    simp only [In, List.mem_cons, List.not_mem_nil, or_false] at hf
    rcases hf with rfl | rfl
    · show _ ∉ _; decide
    · trivial
  default := by
    intro f hf d v hd
    simp only [In, List.mem_cons, List.not_mem_nil, or_false] at hf
    rcases hf with rfl | rfl <;> simp [FieldSpec.args] at hd

theorem readable' (c : Codec) : (Out c).Readable where
  storage := trivial
  ty := by
    intro f hf
    simp only [Out, List.mem_cons, List.not_mem_nil, or_false] at hf
    rcases hf with rfl | rfl
    · show _ ∉ _; decide
    · trivial
  default := by
    intro f hf d v hd
    simp only [Out, List.mem_cons, List.not_mem_nil, or_false] at hf
    rcases hf with rfl | rfl <;> simp [x, FieldSpec.args] at hd

theorem legal : In.Legal :=
  ((C03_acceptance_partial (m := .checked) (cfg := fun _ => false) readable (.inl rfl)).mp ⟨_, rfl⟩).1

theorem legal' (c : Codec) : (Out c).Legal where
  storage := rfl
  field := by
    intro f hf
    simp only [Out, List.mem_cons, List.not_mem_nil, or_false] at hf
    rcases hf with rfl | rfl
    · refine ⟨?_, ?_, fun _ => ⟨8, rfl, by decide⟩, fun _ t h => (by cases h), fun _ t h => (by cases h), fun _ _ => rfl⟩
      · show _ ∉ _; decide
      · intro n h; cases h; decide
    · refine ⟨trivial, fun n h => (by cases h), fun _ => ⟨8, rfl, by decide⟩, ?_, fun _ t _ d v h => (by cases h), fun _ _ => rfl⟩
      intro _ t h; cases h; decide
  names := by simp [Out, x]
  total := rfl

theorem usable : In.Usable where
  storage := by intro h; cases h
  bytes := by
    intro f hf _ len h
    simp only [In, List.mem_cons, List.not_mem_nil, or_false] at hf
    rcases hf with rfl | rfl <;> cases h
  custom := by
    intro f hf _ name c h
    simp only [In, List.mem_cons, List.not_mem_nil, or_false] at hf
    rcases hf with rfl | rfl <;> cases h
    decide
  default := by
    intro f hf _ d v h
    simp only [In, List.mem_cons, List.not_mem_nil, or_false] at hf
    rcases hf with rfl | rfl <;> cases h

theorem usable' (c : Codec) : (Out c).Usable where
  storage := by intro h; cases h
  bytes := by
    intro f hf _ len h
    simp only [Out, List.mem_cons, List.not_mem_nil, or_false] at hf
    rcases hf with rfl | rfl <;> cases h
  custom := by
    intro f hf _ name c h
    simp only [Out, List.mem_cons, List.not_mem_nil, or_false] at hf
    rcases hf with rfl | rfl <;> cases h
    show 8 ≤ 128
    decide
  default := by
    intro f hf _ d v h
    simp only [Out, List.mem_cons, List.not_mem_nil, or_false] at hf
    rcases hf with rfl | rfl <;> cases h

theorem inner : ∀ f ∈ In.fields, f.ignored = false → ∀ name c, f.ty = .custom name c →
    MacroType m (fun _ => false) rt fuel c f.width := by
  intro f hf _ name c h
  simp only [In, List.mem_cons, List.not_mem_nil, or_false] at hf
  rcases hf with rfl | rfl <;> cases h
  refine .enum (bits := 2) ExMode.readable ExMode.compiles ExMode.accepted rfl (by decide) ?_
  intro n hn
  have hn : n < 4 := hn
  rcases (by omega : n = 0 ∨ n = 1 ∨ n = 2 ∨ n = 3) with rfl | rfl | rfl | rfl
  · exact ⟨_, List.getElem_mem (n := 0) (by decide), _, rfl⟩
  · exact ⟨_, List.getElem_mem (n := 1) (by decide), _, rfl⟩
  · exact ⟨_, List.getElem_mem (n := 2) (by decide), _, rfl⟩
  · exact ⟨_, List.getElem_mem (n := 3) (by decide), _, rfl⟩

theorem named (c : Codec) : (x c).reserved = false := by
  show FieldSpec.reserved ⟨"x", .priv, .custom "In" c, some ⟨some 8, []⟩⟩ = false
  simp [FieldSpec.reserved]

/-- `In` is a type for fields of up to 8 bits. -/
theorem made {q : Parsed} (h : parseBitfield .checked (fun _ => false) In.attr In.decl = .ok q) {bits : Nat}
    (hb : bits ≤ 8) : MacroType .checked (fun _ => false) rt fuel (emittedCodec rt fuel q 8) bits :=
  .struct (t := .u8) (as := []) readable rfl legal usable h rfl (by decide) rfl hb inner

end ExIn

example (rt : Mode) : ∃ q, parseBitfield .checked (fun _ => false) ExIn.In.attr ExIn.In.decl = .ok q ∧
    (emittedCodec rt (2 ^ 64) q 8).Lawful 8 ∧ (ExIn.Out (emittedCodec rt (2 ^ 64) q 8)).Lawful := by
  obtain ⟨q, hq⟩ : ∃ q, parseBitfield .checked (fun _ => false) ExIn.In.attr ExIn.In.decl = .ok q := ⟨_, rfl⟩
  refine ⟨q, hq, C42_any_depth (Nat.le_refl _) (ExIn.made hq (Nat.le_refl 8)), ?_⟩
  refine C42_declared (rt := rt) (m := .checked) (cfg := fun _ => false) (Nat.le_refl (2 ^ 64)) ?_
  intro f hf _ name c h
  simp only [ExIn.Out, List.mem_cons, List.not_mem_nil, or_false] at hf
  rcases hf with rfl | rfl <;> cases h
  exact ExIn.made hq (Nat.le_refl 8)

/-- Every value of `In`, set in an `Out` and read again -/
example (rt : Mode) (v : BitVec 8) (w : BitVec 16) : ∃ q p g st',
    parseBitfield .checked (fun _ => false) ExIn.In.attr ExIn.In.decl = .ok q ∧
    parseBitfield .checked (fun _ => false) (ExIn.Out (emittedCodec rt (2 ^ 64) q 8)).attr
      (ExIn.Out (emittedCodec rt (2 ^ 64) q 8)).decl = .ok p ∧ g.name = "x" ∧
    (program p).call p.bitfield rt (2 ^ 64) (.set g (.custom v.toNat)) (.int 16 w) = .ok (.unit, st') ∧
    (program p).call p.bitfield rt (2 ^ 64) (.get g) st' = .ok (.val (.custom v.toNat), st') := by
  obtain ⟨q, hq⟩ : ∃ q, parseBitfield .checked (fun _ => false) ExIn.In.attr ExIn.In.decl = .ok q := ⟨_, rfl⟩
  obtain ⟨p, hp⟩ : ∃ p, parseBitfield .checked (fun _ => false) (ExIn.Out (emittedCodec rt (2 ^ 64) q 8)).attr
      (ExIn.Out (emittedCodec rt (2 ^ 64) q 8)).decl = .ok p := C52_accepted (as := []) _ _ (ExIn.readable' _) rfl (ExIn.legal' _)
  have hb := backing_of (t := .u16) (ExIn.readable' _) (ExIn.legal' _) hp rfl
  obtain ⟨b, -, hx⟩ := C42_generated (s := ExIn.Out (emittedCodec rt (2 ^ 64) q 8)) (u := ExIn.In) (t := .u8) (o := 0)
    (f := ExIn.x (emittedCodec rt (2 ^ 64) q 8)) (Nat.le_refl (2 ^ 64)) (ExIn.readable' _) (as := []) rfl
    (ExIn.legal' _) (ExIn.usable' _) hp ⟨rfl, [], _, 16, rfl, rfl, rfl⟩ ⟨⟨ExIn.named _, rfl⟩, .inr rfl⟩
    ⟨⟨ExIn.named _, rfl⟩, .inr rfl⟩ ExIn.readable (bs := []) rfl ExIn.legal ExIn.usable hq rfl (by decide) rfl
    (ExIn.inner (rt := rt)) rfl (.int 16 w) (by rw [hb]; exact rfl) v
  obtain ⟨g, st', h1, h2, -, h3⟩ := hx b.isLt
  exact ⟨q, p, g, st', hq, hp, h1, h2, h3⟩

end Bf
