import Verif.Lemmas.Bitflag
import Verif.Props.Findings

/-!
# Bitflag enums (C40, C41, C51)
-/

namespace Bf

/-! ## An example

```
#[bitflag(u16, into_endian = little, copy = false)]
enum Mode { #[default] Off = 0, On = 0x10, #[base] Other = 7, Last = LAST }
```
-/

namespace ExFlag

def hex10 : IntLit := ⟨false, 0, .hex, ['1', '0'], []⟩
def dec (c : Char) : IntLit := ⟨false, 0, .dec, [c], []⟩

def s : EnumSpec where
  ty := .int .u16
  args := [.into .little, .copy false]
  vis := .pub
  variants := [
    ⟨"Off", ["default"], some (.int (dec '0'), 0)⟩,
    ⟨"On", [], some (.int hex10, 16)⟩,
    ⟨"Other", ["doc", "base"], some (.int (dec '7'), 7)⟩,
    ⟨"Last", [], some (.expr "LAST".toList, 300)⟩]

def c : FlagCode where
  repr := .int .u16
  copy := false
  vis := .pub
  variants := [("Off", ["default"], 0), ("On", [], 16), ("Other", ["doc"], 7), ("Last", [], 300)]
  cases := ⟨[(0, "Off"), (16, "On"), (300, "Last")], "Other"⟩
  fromEndian := .big
  intoEndian := .little

theorem readable : s.Readable where
  ty := trivial
  value := by
    have hd : ∀ ch ∈ ['0', '7'], (dec ch).Valid ∧ (dec ch).magnitude < 2 ^ 128 ∧
        ¬ (dec ch).FloatLike ∧ ((dec ch).neg = true → (dec ch).magnitude < 2 ^ 127) := by
      intro ch hch
      simp only [List.mem_cons, List.not_mem_nil, or_false] at hch
      rcases hch with rfl | rfl
      · exact ⟨⟨by decide, by decide, by decide, by decide⟩, by decide, by decide, by decide⟩
      · exact ⟨⟨by decide, by decide, by decide, by decide⟩, by decide, by decide, by decide⟩
    intro v hv d n h
    simp only [s, List.mem_cons, List.not_mem_nil, or_false] at hv
    rcases hv with rfl | rfl | rfl | rfl <;> cases h
    · exact hd '0' (by decide)
    · exact ⟨⟨by decide, by decide, by decide, by decide⟩, by decide, by decide, by decide⟩
    · exact hd '7' (by decide)
    · exact ⟨⟨'L', ['A', 'S', 'T'], rfl, rfl⟩, by decide, by decide, by decide, by decide⟩

theorem accepted : expandBitflag (fun _ => false) s.attr s.decl = .ok c := by rfl

theorem compiles : s.Compiles 16 where
  ty := ⟨.u16, rfl, by decide, rfl⟩
  name := by
    intro i j v u hi hj e
    rcases i with _ | _ | _ | _ | i <;> rcases j with _ | _ | _ | _ | j <;>
      first
        | rfl
        | (simp [s] at hi; done)
        | (simp [s] at hj; done)
        | (simp [s] at hi hj; subst hi; subst hj; simp at e)
  value := by
    intro i j v u d d' n hi hj e1 e2
    rcases i with _ | _ | _ | _ | i <;> rcases j with _ | _ | _ | _ | j <;>
      first
        | rfl
        | (simp [s] at hi; done)
        | (simp [s] at hj; done)
        | (simp [s] at hi hj; subst hi; subst hj; simp at e1 e2; omega)
  fits := by
    intro v hv d n h
    simp only [s, List.mem_cons, List.not_mem_nil, or_false] at hv
    rcases hv with rfl | rfl | rfl | rfl <;> cases h <;> decide

end ExFlag

/-! ## C40 -/

variable {cfg : String → Bool} {s : EnumSpec} {c : FlagCode} {w : Nat}

theorem code_of (hr : s.Readable) (h : expandBitflag cfg s.attr s.decl = .ok c) : s.Code cfg c := by
  rcases expandBitflag_spec hr cfg with ⟨c', h1, h2⟩ | ⟨⟨msg, h1⟩, -⟩
  · rw [h] at h1; cases h1; exact h2
  · rw [h] at h1; cases h1

/-- **C40** (values). `from_bits` maps the value of each variant to the variant. -/
theorem C40_from_bits (hr : s.Readable) (hc : s.Compiles w)
    (h : expandBitflag cfg s.attr s.decl = .ok c) (bits : BitVec w) {v : VariantSpec}
    (hv : v ∈ s.variants) {d : DefaultSpec} {n : Nat} (hn : v.value = some (d, n))
    (hb : numberIn (s.fromEndian cfg) bits = n) : flagFromBits c bits = v.name := by
  have k := code_of hr h
  rw [flagFromBits, k.fromE, bitsConv_eq_ofNat hc.mod hb]
  exact k.run_variant hc hv hn

/-- **C40** (other patterns). Every other pattern is mapped to the variant marked `#[base]`, or, if there
is none, to the first one marked `#[default]`. -/
theorem C40_fallback (hr : s.Readable) (hc : s.Compiles w)
    (h : expandBitflag cfg s.attr s.decl = .ok c) (bits : BitVec w)
    (hb : ∀ v ∈ s.variants, ∀ d n, v.value = some (d, n) → numberIn (s.fromEndian cfg) bits ≠ n) :
    (∃ v ∈ s.variants, v.IsBase ∧ flagFromBits c bits = v.name) ∨
    ((∀ v ∈ s.variants, ¬ v.IsBase) ∧ ∃ l v r, s.variants = l ++ v :: r ∧ v.IsDefault ∧
      (∀ u ∈ l, ¬ u.IsDefault) ∧ flagFromBits c bits = v.name) := by
  have k := code_of hr h
  have hrun : flagFromBits c bits = c.cases.wildcard := by
    rw [flagFromBits, k.fromE]
    refine k.run_other hc fun v hv d n hn e => hb v hv d n hn ?_
    rw [← bitsConv_toNat _ hc.mod, e]
  obtain ⟨x, hx, hw⟩ := k.wildcard
  rw [hrun, hw]
  cases hbase : (s.variants.map VariantSpec.flag).find? FlagVariant.base with
  | some y =>
    rw [hbase] at hx
    cases hx
    obtain ⟨u, hu, rfl⟩ := List.mem_map.mp (List.mem_of_find?_eq_some hbase)
    exact .inl ⟨u, hu, u.flag_base.mp (List.find?_some hbase), rfl⟩
  | none =>
    rw [hbase, Option.none_or] at hx
    refine .inr ⟨fun v hv hvb => List.find?_eq_none.mp hbase _ (List.mem_map_of_mem hv)
      (v.flag_base.mpr hvb), ?_⟩
    rw [List.find?_map] at hx
    obtain ⟨u, hu, rfl⟩ := Option.map_eq_some_iff.mp hx
    obtain ⟨h1, l, r, h2, h3⟩ := List.find?_eq_some_iff_append.mp hu
    refine ⟨l, u, r, h2, u.flag_default.mp h1, fun y hy hyd => ?_, rfl⟩
    have := h3 y hy
    simp [y.flag_default.mpr hyd] at this

/-- **C40** (`into_bits`). The bits of a variant stand for its value. -/
theorem C40_into_bits (hr : s.Readable) (hc : s.Compiles w)
    (h : expandBitflag cfg s.attr s.decl = .ok c) {v : VariantSpec} (hv : v ∈ s.variants)
    {d : DefaultSpec} {n : Nat} (hn : v.value = some (d, n)) :
    numberIn (s.intoEndian cfg) (flagIntoBits c w v.name) = n := by
  rw [(code_of hr h).into hc hv hn, ← bitsConv_toNat _ hc.mod, bitsConv_bitsConv _ hc.mod,
    BitVec.toNat_ofNat, Nat.mod_eq_of_lt (hc.fits v hv d n hn)]

/-- **C40** (variant to bits to variant). With equal byte orders, `from_bits(v.into_bits()) == v`. -/
theorem C40_round_trip (hr : s.Readable) (hc : s.Compiles w)
    (h : expandBitflag cfg s.attr s.decl = .ok c) (he : s.fromEndian cfg = s.intoEndian cfg)
    {v : VariantSpec} (hv : v ∈ s.variants) :
    flagFromBits c (flagIntoBits c w v.name) = v.name := by
  obtain ⟨⟨d, n⟩, hn⟩ := Option.isSome_iff_exists.mp ((code_of hr h).value v hv)
  exact C40_from_bits hr hc h _ hv hn (he ▸ C40_into_bits hr hc h hv hn)

/-- **C40** (bits to variant to bits). With equal byte orders, `from_bits(b).into_bits() == b` if `b` is
the value of a variant. -/
theorem C40_bits_round_trip (hr : s.Readable) (hc : s.Compiles w)
    (h : expandBitflag cfg s.attr s.decl = .ok c) (he : s.fromEndian cfg = s.intoEndian cfg)
    (bits : BitVec w) {v : VariantSpec} (hv : v ∈ s.variants) {d : DefaultSpec} {n : Nat}
    (hn : v.value = some (d, n)) (hb : numberIn (s.fromEndian cfg) bits = n) :
    flagIntoBits c w (flagFromBits c bits) = bits := by
  rw [C40_from_bits hr hc h bits hv hn hb, (code_of hr h).into hc hv hn, ← he,
    ← bitsConv_eq_ofNat hc.mod hb, bitsConv_bitsConv _ hc.mod]

-- 7 is the value of the base variant; 8 is no value.
example : flagFromBits ExFlag.c (300#16) = "Last" ∧ flagFromBits ExFlag.c (7#16) = "Other" ∧
    flagFromBits ExFlag.c (8#16) = "Other" ∧ flagIntoBits ExFlag.c 16 "Last" = 0x2c01#16 := by decide
example : flagFromBits ExFlag.c (16#16) = "On" :=
  C40_from_bits ExFlag.readable ExFlag.compiles ExFlag.accepted _
    (v := ⟨"On", [], some (.int ExFlag.hex10, 16)⟩) (by simp [ExFlag.s]) rfl (by decide)
example : ∀ v ∈ ExFlag.s.variants, ∀ d n, v.value = some (d, n) →
    numberIn (ExFlag.s.fromEndian fun _ => false) (8#16) ≠ n := by
  intro v hv d n h
  simp only [ExFlag.s, List.mem_cons, List.not_mem_nil, or_false] at hv
  rcases hv with rfl | rfl | rfl | rfl <;> cases h <;> decide

/-- The byte orders can differ; then a variant does not survive the round trip. -/
theorem finding_bitflag_endian :
    flagFromBits ExFlag.c (flagIntoBits ExFlag.c 16 "On") ≠ "On" := by decide

/-! ## C41 -/

/-- **C41** (legal enums are accepted). -/
theorem C41_accepts (hr : s.Readable) (hl : s.Legal) :
    ∃ c, expandBitflag cfg s.attr s.decl = .ok c := by
  rcases expandBitflag_spec hr cfg with ⟨c', h1, -⟩ | ⟨-, h⟩
  · exact ⟨c', h1⟩
  · refine absurd ⟨?_, fun v hv => ?_, base_unique.mpr hl.base, hl.fallback⟩ h
    · obtain ⟨t, ht, hm⟩ := hl.ty
      refine ⟨.int t, ?_, ?_⟩
      · rw [ht]; exact dataType_syntax.mpr rfl
      · revert hm; cases t <;> decide
    · obtain ⟨d, n, h⟩ := hl.value v hv
      rw [h]; rfl

/-- **C41** (illegal enums are rejected), except for the types `bool` and byte arrays (see
`finding_bitflag_type`). -/
theorem C41_rejects_partial (hr : s.Readable) (hb : s.ty ≠ .int .bool) (ha : ∀ n, s.ty ≠ .bytes n)
    (h : expandBitflag cfg s.attr s.decl = .ok c) : s.Legal := by
  have k := code_of hr h
  refine ⟨?_, fun v hv => ?_, base_unique.mp k.base, k.fallback⟩
  · have h1 := dataType_syntax.mp k.repr
    have h2 := k.ty
    cases hty : s.ty with
    | int t =>
      rw [hty] at h1 hb
      refine ⟨t, rfl, ?_⟩
      have h1 : c.repr = .int t := h1
      rw [h1] at h2
      revert hb h2
      cases t <;> simp [flagType, DataType.unsigned, IntTy.unsigned]
    | bytes n => exact absurd hty (ha n)
    | custom name cd =>
      have hp := hr.ty
      rw [hty] at h1 hp
      have hp : name ∉ _ := hp
      obtain ⟨h3, h4⟩ := h1
      simp only [List.mem_cons, List.not_mem_nil, or_false, not_or] at hp h3
      simp only [SynType.dataType, hp, h3, or_self, if_false] at h4
      rw [← Except.ok.inj h4] at h2
      cases h2
  · obtain ⟨⟨d, n⟩, hn⟩ := Option.isSome_iff_exists.mp (k.value v hv)
    exact ⟨d, n, hn⟩

/-- **C41** (no panic). The macro never panics on such an enum: what it does not accept it rejects with
an error message. -/
theorem C41_error (hr : s.Readable) {e : Reject} (h : expandBitflag cfg s.attr s.decl = .error e) :
    ∃ msg, e = .error msg := by
  rcases expandBitflag_spec hr cfg with ⟨c', h1, -⟩ | ⟨⟨msg, h1⟩, -⟩
  · rw [h] at h1; cases h1
  · rw [h] at h1; cases h1; exact ⟨msg, rfl⟩

theorem parseBitflag_checked {attr : AttrInput} {d : EnumDecl} {F : Bitflag}
    (h : parseBitflag cfg attr d = .ok F) : checkBase F.variants = .ok () := by
  simp only [parseBitflag, bind, Except.bind, pure, Except.pure] at h
  split at h
  · cases h
  · split at h
    · cases h
    · rename_i vs _
      cases hc : checkBase vs with
      | error e => rw [hc] at h; cases h
      | ok u => rw [hc] at h; cases h; exact hc

/-- **C41** (generation). Whatever the tokens of the attribute and the enum, if the parser accepts them
the generator does not panic for want of a `#[base]` or `#[default]` variant. -/
theorem C41_generates {attr : AttrInput} {d : EnumDecl} {F : Bitflag}
    (h : parseBitflag cfg attr d = .ok F) : ∃ c, generateBitflag F = .ok c := by
  obtain ⟨w, -, hm⟩ := matchCases_ok (parseBitflag_checked h)
  simp only [generateBitflag, hm]
  exact ⟨_, rfl⟩

example : ExFlag.s.Legal :=
  C41_rejects_partial ExFlag.readable (fun h => by cases h) (fun n h => by cases h) ExFlag.accepted
-- Without `#[base]` and `#[default]`, with two `#[base]`, or without a value, an enum is rejected.
example : (expandBitflag (fun _ => false) ExFlag.s.attr ⟨.pub, [⟨"A", [], some (['1'], 1)⟩]⟩).toOption.isNone ∧
    (expandBitflag (fun _ => false) ExFlag.s.attr ⟨.pub, [⟨"A", ["base"], some (['1'], 1)⟩,
      ⟨"B", ["base"], some (['2'], 2)⟩]⟩).toOption.isNone ∧
    (expandBitflag (fun _ => false) ExFlag.s.attr ⟨.pub, [⟨"A", ["base"], none⟩]⟩).toOption.isNone :=
  ⟨rfl, rfl, rfl⟩

/-- `bool` and byte arrays are accepted as the type of an enum although they are not integer types.
(The generated `repr` does not compile.) -/
theorem finding_bitflag_type :
    (∃ c, expandBitflag (fun _ => false) ({ ExFlag.s with ty := .int .bool } : EnumSpec).attr
      ExFlag.s.decl = .ok c) ∧
    (∃ c, expandBitflag (fun _ => false) ({ ExFlag.s with ty := .bytes 2 } : EnumSpec).attr
      ExFlag.s.decl = .ok c) ∧
    ¬ ({ ExFlag.s with ty := .int .bool } : EnumSpec).Legal ∧
    ¬ ({ ExFlag.s with ty := .bytes 2 } : EnumSpec).Legal := by
  refine ⟨⟨_, rfl⟩, ⟨_, rfl⟩, fun h => ?_, fun h => ?_⟩
  · obtain ⟨t, ht, hm⟩ := h.ty
    cases ht
    revert hm; decide
  · obtain ⟨t, ht, hm⟩ := h.ty
    cases ht

/-! ## C51 -/

/-- **C51** (the generated enum). The enum keeps its visibility, its variants in their order with their
values, and their attributes except `#[base]`. It is represented by its type, and is `Copy` and `Clone`
exactly if `copy` says so (the last such argument, else the Cargo features). -/
theorem C51_enum (hr : s.Readable) (h : expandBitflag cfg s.attr s.decl = .ok c) :
    c.vis = s.vis ∧ c.copy = s.copies cfg ∧ (∀ t, s.ty = .int t → c.repr = .int t) ∧
    c.variants.length = s.variants.length ∧
    ∀ (i : Nat) v d n, s.variants[i]? = some v → v.value = some (d, n) →
      c.variants[i]? = some (v.name, v.attrs.filter (fun a => decide (a ≠ "base")), n) := by
  have k := code_of hr h
  refine ⟨k.vis, k.copy, fun t ht => ?_, by rw [k.variants, List.length_map], ?_⟩
  · have h1 := dataType_syntax.mp k.repr
    rw [ht] at h1
    exact h1
  · intro i v d n hi hn
    rw [k.variants, List.getElem?_map, hi]
    simp only [Option.map_some, VariantSpec.flag, hn, Option.getD_some]
    congr 3
    apply List.filter_congr
    intro a _
    by_cases ha : a = "base" <;> simp [ha]

example : ExFlag.c.variants[2]? = some ("Other", ["doc"], 7) ∧
    ExFlag.s.copies (fun _ => false) = false := ⟨rfl, rfl⟩

end Bf
