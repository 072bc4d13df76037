import Verif.Props.Bitflag
import Verif.Props.Convert
import Verif.Props.Fields

/-!
# Types of the macros as field types (C42)
-/

namespace Bf

variable {B N : Bitfield} {f : Field} {w : Nat}

/-! ## Bitfields in bitfields -/

theorem toNat_mod_cast {bits n : Nat} (h : n < 2 ^ bits) : (n : Int) % 2 ^ bits = n := by
  have e : (2 : Int) ^ bits = ((2 ^ bits : Nat) : Int) := by push_cast; rfl
  rw [e, ← Int.natCast_emod, Nat.mod_eq_of_lt h]

theorem hasBacking_int (hw : N.backing = .int w) (v : BitVec w) :
    (Store.int w v).HasBacking N.backing := by rw [hw]; exact rfl

theorem cases_int {t : Store} (h : t.HasBacking (.int w)) : ∃ v : BitVec w, t = .int w v := by
  cases t with
  | int w' v => cases h; exact ⟨v, rfl⟩
  | arr bs => exact absurd h id

theorem nested_into {v b : BitVec w} (h : apiInto N (.int w v) = .ok (.int w b)) :
    ∀ m, (nestedCodec m N w).intoBits v.toNat = (b.toNat : Int) := by
  intro m
  simp only [nestedCodec, BitVec.ofNat_toNat, BitVec.setWidth_eq, h]
  rfl

theorem nested_from {m : Mode} {v b : BitVec w} (h : apiFrom m N (.int w b) = .ok (.int w v)) :
    (nestedCodec m N w).fromBits b.toNat = .ok v.toNat := by
  simp only [nestedCodec, BitVec.ofNat_toNat, BitVec.setWidth_eq, h]
  rfl

/-- **C42** (codec law). An integer-backed bitfield `N` whose byte orders agree, used as the type of a
field no wider than `N`, satisfies the law the generated code expects of field types: every pattern
is preserved by `from_bits` followed by `into_bits`. So bitfields can be nested to any depth. -/
theorem C42_nested_lawful (m : Mode) (hN : WF N) (hS : Supported N) (hL : Lawful N)
    (he : N.fromEndian = N.intoEndian) (hw : N.backing = .int w) {bits : Nat} (hb : bits ≤ w) :
    (nestedCodec m N w).Lawful bits := by
  intro n hn
  have hlt : n < 2 ^ w := Nat.lt_of_lt_of_le hn (Nat.pow_le_pow_right (by decide) hb)
  have h0 := hasBacking_int hw (BitVec.ofNat w n)
  have hrt := (C17_configured m hN hS hL he _ h0).1
  obtain ⟨g, hg⟩ := Store.cases_ofBits h0
  have h1 := apiFromE_bits m hN hS N.fromEndian g (hL.all _)
  rw [← hg] at h1
  have h1 : apiFrom m N (.int w (BitVec.ofNat w n)) = _ := h1
  rw [hw] at h1
  obtain ⟨v, hv⟩ := cases_int (Store.hasBacking_ofBits (.int w)
    (endianBits (.int w) N.fromEndian g))
  rw [hv] at h1
  rw [h1] at hrt
  have h2 : apiInto N (.int w v) = .ok (.int w (BitVec.ofNat w n)) := hrt
  have hnat : (BitVec.ofNat w n).toNat = n := by
    rw [BitVec.toNat_ofNat, Nat.mod_eq_of_lt hlt]
  refine ⟨v.toNat, ?_, ?_⟩
  · have := nested_from h1
    rwa [hnat] at this
  · rw [nested_into h2, hnat]
    exact toNat_mod_cast hn

/-- **C42** (set, then get, a nested bitfield). Let field `f` of `B` have the bitfield `N` as its type, and
let `v` be a value of `N`. If `v.into_bits()` fits in the field, then `set_f(v)` stores exactly these
bits and `f()` returns `v`. -/
theorem C42_nested_round_trip (m : Mode) (hB : WF B) (hBS : Supported B) (hf : f ∈ B.fields)
    (hN : WF N) (hS : Supported N) (he : N.fromEndian = N.intoEndian) (hw : N.backing = .int w)
    (hty : f.ty = .custom (nestedCodec m N w)) (s : Store) (hs : s.HasBacking B.backing)
    (v : BitVec w) (hp : AllPreserved N (Store.int w v).bit) :
    ∃ b : BitVec w, apiInto N (.int w v) = .ok (.int w b) ∧
      (b.toNat < 2 ^ f.bits →
        ∃ s', setX m f s (.custom v.toNat) = .ok s' ∧ s'.HasBacking B.backing ∧
          (∀ i < f.bits, s'.bit (f.offset + i) = b.getLsbD i) ∧
          getX m f s' = .ok (.custom v.toNat)) := by
  have h0 := hasBacking_int hw v
  have hrt := C17_into_from m hN hS N.intoEndian _ h0 hp
  have h1 := apiIntoE_bits hN N.intoEndian (Store.int w v).bit
  rw [Store.ofBits_bit h0, hw] at h1
  obtain ⟨b, hb⟩ := cases_int (Store.hasBacking_ofBits (.int w)
    (endianBits (.int w) N.intoEndian (Store.int w v).bit))
  rw [hb] at h1
  refine ⟨b, h1, fun hfit => ?_⟩
  rw [h1] at hrt
  have h2 : apiFrom m N (.int w b) = .ok (.int w v) := by
    unfold apiFrom
    rw [he]
    exact hrt
  have hi := nested_into (N := N) h1 m
  obtain ⟨s', a1, a2, a3, a4⟩ := C09_custom_round_trip m hB hBS hf hty s hs v.toNat (by
    rw [hi, toNat_mod_cast hfit, Int.toNat_natCast]
    exact nested_from h2)
  refine ⟨s', a1, a2, fun i hlt => ?_, a4⟩
  rw [a3 i hlt, hi, intBit_toNat]

-- `Ex.I`, a `u16`, in the field `x` of a `u32`.
namespace ExNested

def x (m : Mode) : Field := ⟨"x", .custom (nestedCodec m Ex.I 16), 16, 4, .rw, false, none⟩
def lo : Field := ⟨"lo", .int .u8, 4, 0, .rw, false, none⟩
def hi : Field := ⟨"hi", .int .u16, 12, 20, .rw, false, none⟩
def W (m : Mode) : Bitfield := ⟨.int 32, [lo, x m, hi], .big, .big, .big, false⟩

theorem wf (m : Mode) : WF (W m) where
  backing := by simp [W, Backing.OK]
  field := by
    intro f hf
    simp only [W, List.mem_cons, List.not_mem_nil, or_false] at hf
    rcases hf with rfl | rfl | rfl
    · exact ⟨by decide, by simp [W, lo, Backing.size], by intro t ht; cases ht; decide⟩
    · exact ⟨by simp [x], by simp [W, x, Backing.size], by intro t ht; cases ht⟩
    · exact ⟨by decide, by simp [W, hi, Backing.size], by intro t ht; cases ht; decide⟩
  disjoint := by
    simp only [W, List.pairwise_cons, List.mem_cons, List.not_mem_nil, or_false, forall_eq_or_imp,
      forall_eq, List.Pairwise.nil, and_true, false_imp_iff, implies_true]
    exact ⟨⟨Ex.disjoint_of_le (by simp [lo, x]), Ex.disjoint_of_le (by decide)⟩,
      Ex.disjoint_of_le (by simp [hi, x])⟩
  cover := by
    intro i hi'
    have hi' : i < 32 := hi'
    by_cases h1 : i < 4
    · exact ⟨lo, by simp [W], by simp [Field.covers, lo, h1]⟩
    · by_cases h2 : i < 20
      · exact ⟨x m, by simp [W], covers_iff.mpr (by simp only [x]; omega)⟩
      · exact ⟨hi, by simp [W], covers_iff.mpr (by simp only [hi]; omega)⟩

theorem supported (m : Mode) : Supported (W m) where
  field := by
    intro f hf
    simp only [W, List.mem_cons, List.not_mem_nil, or_false] at hf
    rcases hf with rfl | rfl | rfl
    · exact ⟨fun n h => (by cases h), fun n h => (by cases h)⟩
    · exact ⟨fun n h => (by cases h), fun c h => (by simp [x])⟩
    · exact ⟨fun n h => (by cases h), fun n h => (by cases h)⟩
  default := by
    intro f hf v hv
    simp only [W, List.mem_cons, List.not_mem_nil, or_false] at hf
    rcases hf with rfl | rfl | rfl <;> cases hv

end ExNested

example (m : Mode) : (nestedCodec m Ex.I 16).Lawful 12 :=
  C42_nested_lawful m Ex.wfI Ex.supportedI Ex.lawfulI rfl rfl (by decide)

example (m : Mode) (s : Store) (hs : s.HasBacking (.int 32)) (v : BitVec 16) :
    ∃ s', setX m (ExNested.x m) s (.custom v.toNat) = .ok s' ∧
      getX m (ExNested.x m) s' = .ok (.custom v.toNat) := by
  obtain ⟨b, -, h⟩ := C42_nested_round_trip m (ExNested.wf m) (ExNested.supported m)
    (f := ExNested.x m) (by simp [ExNested.W]) Ex.wfI Ex.supportedI rfl rfl rfl s hs v
    (Ex.lawfulI.all _)
  obtain ⟨s', h1, -, -, h2⟩ := h b.isLt
  exact ⟨s', h1, h2⟩

/-! ## Bitflag enums in bitfields -/

/-- **C42** (reading). A getter of a bitflag type does not panic, whatever the bits of the field are. -/
theorem C42_flag_total (c : FlagCode) (bits : Nat) : (c.codec w).Total bits :=
  fun n _ => ⟨c.index (flagFromBits c (BitVec.ofNat w n)), rfl⟩

section
variable {cfg : String → Bool} {S : EnumSpec} {c : FlagCode}

theorem index_name (k : S.Code cfg c) (hc : S.Compiles w) {i : Nat} {v : VariantSpec}
    (hv : S.variants[i]? = some v) : c.index v.name = i := by
  obtain ⟨hlt, hi⟩ := List.getElem?_eq_some_iff.mp hv
  have hlen : c.variants.length = S.variants.length := by rw [k.variants, List.length_map]
  rw [FlagCode.index, List.findIdx_eq (by omega)]
  have hget : ∀ j (h : j < c.variants.length), (c.variants[j]).1 = (S.variants[j]'(by omega)).name := by
    intro j h
    simp only [k.variants, List.getElem_map]
  refine ⟨?_, fun j hj => ?_⟩
  · rw [hget, hi]; simp
  · rw [hget]
    have hne : (S.variants[j]'(by omega)).name ≠ v.name := by
      intro e
      have := hc.name j i _ v (List.getElem?_eq_getElem (by omega)) hv e
      omega
    simpa using hne

theorem codec_into (k : S.Code cfg c) {i : Nat} {v : VariantSpec}
    (hv : S.variants[i]? = some v) :
    (c.codec w).intoBits i = ((flagIntoBits c w v.name).toNat : Int) := by
  have : c.variants[i]? = some (v.name, v.flag.attrs, v.flag.value) := by
    rw [k.variants, List.getElem?_map, hv]; rfl
  simp only [FlagCode.codec, this]

/-- **C42** (set, then get, a bitflag). Let field `f` of `B` have a bitflag enum as its type, with equal
byte orders, and let `v` be its variant number `i`. If `v.into_bits()` fits in the field, then
`set_f(v)` stores exactly these bits and `f()` returns `v`. -/
theorem C42_flag_round_trip (m : Mode) (hB : WF B) (hBS : Supported B) (hf : f ∈ B.fields)
    (hr : S.Readable) (hc : S.Compiles w) (h : expandBitflag cfg S.attr S.decl = .ok c)
    (he : S.fromEndian cfg = S.intoEndian cfg) (hty : f.ty = .custom (c.codec w)) (s : Store)
    (hs : s.HasBacking B.backing) {i : Nat} {v : VariantSpec} (hv : S.variants[i]? = some v)
    (hfit : (flagIntoBits c w v.name).toNat < 2 ^ f.bits) :
    ∃ s', setX m f s (.custom i) = .ok s' ∧ s'.HasBacking B.backing ∧
      (∀ j < f.bits, s'.bit (f.offset + j) = (flagIntoBits c w v.name).getLsbD j) ∧
      getX m f s' = .ok (.custom i) := by
  have k := code_of hr h
  have hi := codec_into (w := w) k hv
  obtain ⟨s', a1, a2, a3, a4⟩ := C09_custom_round_trip m hB hBS hf hty s hs i (by
    rw [hi, toNat_mod_cast hfit, Int.toNat_natCast]
    show Except.ok (c.index (flagFromBits c (BitVec.ofNat w (flagIntoBits c w v.name).toNat))) = _
    rw [BitVec.ofNat_toNat, BitVec.setWidth_eq,
      C40_round_trip hr hc h he (List.mem_of_getElem? hv), index_name k hc hv])
  exact ⟨s', a1, a2, fun j hj => by rw [a3 j hj, hi, intBit_toNat], a4⟩

/-- **C42** (codec law of a bitflag). If every pattern of the field is the value of a variant, the enum
satisfies the law the generated code expects of field types. -/
theorem C42_flag_lawful (hr : S.Readable) (hc : S.Compiles w)
    (h : expandBitflag cfg S.attr S.decl = .ok c) (he : S.fromEndian cfg = S.intoEndian cfg)
    {bits : Nat} (hb : bits ≤ w)
    (hall : ∀ n < 2 ^ bits, ∃ v ∈ S.variants, ∃ d,
      v.value = some (d, numberIn (S.fromEndian cfg) (BitVec.ofNat w n))) :
    (c.codec w).Lawful bits := by
  have k := code_of hr h
  intro n hn
  have hlt : n < 2 ^ w := Nat.lt_of_lt_of_le hn (Nat.pow_le_pow_right (by decide) hb)
  obtain ⟨v, hv, d, hd⟩ := hall n hn
  obtain ⟨i, hi⟩ := List.getElem?_of_mem hv
  refine ⟨i, ?_, ?_⟩
  · show Except.ok (c.index (flagFromBits c (BitVec.ofNat w n))) = _
    rw [C40_from_bits hr hc h _ hv hd rfl, index_name k hc hi]
  · have := C40_bits_round_trip hr hc h he (BitVec.ofNat w n) hv hd rfl
    rw [C40_from_bits hr hc h _ hv hd rfl] at this
    rw [codec_into k hi, this, BitVec.toNat_ofNat, Nat.mod_eq_of_lt hlt]
    exact toNat_mod_cast hn

end

-- A two-bit `#[bitflag(u8)] enum { #[base] A = 0, B = 1, C = 2, D = 3 }` as a field of a `u8`.
namespace ExMode

def S : EnumSpec where
  ty := .int .u8
  args := []
  vis := .pub
  variants := [
    ⟨"A", ["base"], some (.int (ExFlag.dec '0'), 0)⟩, ⟨"B", [], some (.int (ExFlag.dec '1'), 1)⟩,
    ⟨"C", [], some (.int (ExFlag.dec '2'), 2)⟩, ⟨"D", [], some (.int (ExFlag.dec '3'), 3)⟩]

def c : FlagCode where
  repr := .int .u8
  copy := true
  vis := .pub
  variants := [("A", [], 0), ("B", [], 1), ("C", [], 2), ("D", [], 3)]
  cases := ⟨[(1, "B"), (2, "C"), (3, "D")], "A"⟩
  fromEndian := .big
  intoEndian := .big

theorem accepted : expandBitflag (fun _ => false) S.attr S.decl = .ok c := by rfl

theorem readable : S.Readable where
  ty := trivial
  value := by
    have hd : ∀ ch ∈ ['0', '1', '2', '3'], (ExFlag.dec ch).Valid ∧
        (ExFlag.dec ch).magnitude < 2 ^ 128 ∧ ¬ (ExFlag.dec ch).FloatLike ∧
        ((ExFlag.dec ch).neg = true → (ExFlag.dec ch).magnitude < 2 ^ 127) := by
      intro ch hch
      simp only [List.mem_cons, List.not_mem_nil, or_false] at hch
      rcases hch with rfl | rfl | rfl | rfl <;>
        exact ⟨⟨by decide, by decide, by decide, by decide⟩, by decide, by decide, by decide⟩
    intro v hv d n h
    simp only [S, List.mem_cons, List.not_mem_nil, or_false] at hv
    rcases hv with rfl | rfl | rfl | rfl <;> cases h <;> exact hd _ (by decide)

theorem compiles : S.Compiles 8 where
  ty := ⟨.u8, rfl, by decide, rfl⟩
  name := by
    intro i j v u hi hj e
    rcases i with _ | _ | _ | _ | i <;> rcases j with _ | _ | _ | _ | j <;>
      first
        | rfl
        | (simp [S] at hi; done)
        | (simp [S] at hj; done)
        | (simp [S] at hi hj; subst hi; subst hj; simp at e)
  value := by
    intro i j v u d d' n hi hj e1 e2
    rcases i with _ | _ | _ | _ | i <;> rcases j with _ | _ | _ | _ | j <;>
      first
        | rfl
        | (simp [S] at hi; done)
        | (simp [S] at hj; done)
        | (simp [S] at hi hj; subst hi; subst hj; simp at e1 e2; omega)
  fits := by
    intro v hv d n h
    simp only [S, List.mem_cons, List.not_mem_nil, or_false] at hv
    rcases hv with rfl | rfl | rfl | rfl <;> cases h <;> decide

theorem lawful : (c.codec 8).Lawful 2 := by
  refine C42_flag_lawful readable compiles accepted rfl (by decide) ?_
  intro n hn
  have hn : n < 4 := hn
  rcases (by omega : n = 0 ∨ n = 1 ∨ n = 2 ∨ n = 3) with rfl | rfl | rfl | rfl
  · exact ⟨_, by simp [S]; exact .inl rfl, _, rfl⟩
  · exact ⟨_, by simp [S]; exact .inr (.inl rfl), _, rfl⟩
  · exact ⟨_, by simp [S]; exact .inr (.inr (.inl rfl)), _, rfl⟩
  · exact ⟨_, by simp [S]; exact .inr (.inr (.inr rfl)), _, rfl⟩

end ExMode

end Bf
