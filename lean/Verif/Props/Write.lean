import Verif.Props.Convert

/-!
# Write operations (C21 - C23)

`apiWriteE m B e b s` is `s.write_le_bits(b)`/`s.write_be_bits(b)` (`_bytes` on array-backed
bitfields), `apiWrite m B b s` is `s.write_bits(b)`.
-/

namespace Bf

variable {B : Bitfield} {f : Field}

/-- **C21.** `write_{le,be}_bits(b)` sets every field with a setter to its bits of `b` (in the byte
order of the call) and leaves every bit of the other fields unchanged. The codec law is needed for
the fields written only. -/
theorem C21_write_bits (m : Mode) (hB : WF B) (hS : Supported B)
    (hL : ∀ f ∈ B.fields, f.isWritable = true → FieldLawful f) (e : Endian) (b s : Store)
    (hb : b.HasBacking B.backing) (hs : s.HasBacking B.backing) :
    ∃ s', apiWriteE m B e b s = .ok s' ∧ s'.HasBacking B.backing ∧
      ∀ f ∈ B.fields, ∀ i < f.bits, s'.bit (f.offset + i) =
        if f.isWritable then writeEndianBits B.backing e b.bit (f.offset + i)
        else s.bit (f.offset + i) := by
  rw [← Store.ofBits_bit hb, ← Store.ofBits_bit hs]
  refine ⟨Store.ofBits B.backing fun i =>
    if B.writable i then writeEndianBits B.backing e b.bit i else s.bit i, ?_,
    Store.hasBacking_ofBits _ _, ?_⟩
  · unfold apiWriteE
    rw [writeConv_bits hB.backing, writeEndianBits_eq]
    simp only [R_bind_ok]
    exact setAll_readOnly m hB hS _ _ fun f hf hw => (hL f hf hw).preserves _
  · intro f hf i hi
    rw [Store.bit_ofBits_lt (hB.add_lt hf hi), hB.writable_eq hf (covers_add hi),
      Store.ofBits_bit hb, Store.ofBits_bit hs]

/-- **C21** (configured endianness). `write_bits` is the variant of the configured
`write_endian`. -/
theorem C21_configured (m : Mode) (B : Bitfield) (b s : Store) :
    (B.writeEndian = .little → apiWrite m B b s = apiWriteE m B .little b s) ∧
    (B.writeEndian = .big → apiWrite m B b s = apiWriteE m B .big b s) := by
  unfold apiWrite
  exact ⟨fun h => by rw [h], fun h => by rw [h]⟩

/-- **C21** (byte order of the argument). `write_be_bits(b)` takes the bits of `b` as they are;
`write_le_bits(b)` those of `b` with its bytes reversed. -/
theorem C21_le_is_reversed_be (m : Mode) {B : Bitfield} (s : Store) :
    (∀ w (v : BitVec w), B.backing = .int w →
      apiWriteE m B .little (.int w v) s = apiWriteE m B .big (.int w (swapBytes v)) s) ∧
    (∀ n (a : List (BitVec 8)), B.backing = .arr n → a.length = n →
      apiWriteE m B .little (.arr a) s = apiWriteE m B .big (.arr a.reverse) s) := by
  constructor
  · intro w v hb; unfold apiWriteE writeConv; rw [hb]
  · intro n a hb ha; unfold apiWriteE writeConv; rw [hb]; simp only; rw [xorReverse_eq ha]; rfl

example (m : Mode) (v : BitVec 16) (s : Store) (hs : s.HasBacking (.int 16)) :
    ∃ s', apiWriteE m Ex.I .big (.int 16 v) s = .ok s' ∧ s'.HasBacking (.int 16) ∧
      ∀ f ∈ Ex.I.fields, ∀ i < f.bits, s'.bit (f.offset + i) =
        if f.isWritable then v.getLsbD (f.offset + i) else s.bit (f.offset + i) :=
  C21_write_bits m Ex.wfI Ex.supportedI (fun f hf _ => Ex.lawfulI f hf) .big (.int 16 v) s rfl hs

/-- **C22** (`write_defaults`). Every field with a default (of any access) is put at its default, no
other bit changes. -/
theorem C22_write_defaults (m : Mode) (hB : WF B) (hS : Supported B) (hD : DefaultsPreserved B)
    (s : Store) (hs : s.HasBacking B.backing) :
    ∃ s', apiWriteDefaults m B s = .ok s' ∧ s'.HasBacking B.backing ∧
      ∀ f ∈ B.fields, ∀ i < f.bits, s'.bit (f.offset + i) =
        match f.default with
        | some v => encode f.ty v i
        | none => s.bit (f.offset + i) := by
  rw [← Store.ofBits_bit hs]
  refine ⟨_, setDefaults_ok m hB hS hD s.bit, Store.hasBacking_ofBits _ _, ?_⟩
  intro f hf i hi
  rw [Store.bit_ofBits_lt (hB.add_lt hf hi), hB.defaultBit_eq hf (covers_add hi),
    Nat.add_sub_cancel_left, Store.ofBits_bit hs]
  cases f.default <;> rfl

/-- **C22** (`write_bits_with_defaults`). It is `write_bits` followed by `write_defaults`, in every
byte order and for every codec. -/
theorem C22_write_with_defaults (m : Mode) (B : Bitfield) (e : Endian) (b s : Store) :
    apiWriteEDefaults m B e b s = (do
      let s' ← apiWriteE m B e b s
      apiWriteDefaults m B s') ∧
    apiWriteDefaultsBits m B b s = (do
      let s' ← apiWrite m B b s
      apiWriteDefaults m B s') := by
  have h : ∀ e, apiWriteEDefaults m B e b s = (do
      let s' ← apiWriteE m B e b s
      apiWriteDefaults m B s') := by
    intro e
    unfold apiWriteEDefaults apiWriteE apiWriteDefaults
    cases writeConv B e b <;> rfl
  exact ⟨h e, h B.writeEndian⟩

example (m : Mode) (s : Store) (hs : s.HasBacking (.arr 3)) :
    ∃ s', apiWriteDefaults m Ex.A s = .ok s' ∧ s'.HasBacking (.arr 3) ∧
      ∀ f ∈ Ex.A.fields, ∀ i < f.bits, s'.bit (f.offset + i) =
        match f.default with
        | some v => encode f.ty v i
        | none => s.bit (f.offset + i) :=
  C22_write_defaults m Ex.wfA Ex.supportedA Ex.lawfulA.defaults s hs

theorem apiWriteE_bits (m : Mode) (hB : WF B) (hS : Supported B) (hL : Lawful B)
    (hw : ∀ f ∈ B.fields, f.isWritable = true) (e : Endian) (x g : Bits) :
    apiWriteE m B e (Store.ofBits B.backing x) (Store.ofBits B.backing g) =
      .ok (Store.ofBits B.backing (writeEndianBits B.backing e x)) := by
  unfold apiWriteE
  rw [writeConv_bits hB.backing, writeEndianBits_eq]
  simp only [R_bind_ok]
  rw [setAll_readOnly m hB hS _ _ fun f hf _ => (hL f hf).preserves _]
  refine congrArg Except.ok (Store.ofBits_congr fun i hi => ?_)
  obtain ⟨f, hf, hc⟩ := hB.cover i hi
  rw [hB.writable_eq hf hc, hw f hf, if_pos rfl]

/-- **C23** (part: integer-backed bitfields). If all fields are writable, `write_le_bits(b)` gives
`from_le_bits(b)` and `write_be_bits(b)` gives `from_be_bits(b)`, from any state. The full
property also covers array-backed bitfields; there it is false, see `C23_array_opposite` and
`finding_write_bytes_endian` in `Props/Findings.lean`. -/
theorem C23_write_eq_from_partial (m : Mode) (hB : WF B) (hS : Supported B) (hL : Lawful B)
    (hw : ∀ f ∈ B.fields, f.isWritable = true) {w : Nat} (hi : B.backing = .int w) (e : Endian)
    (b s : Store) (hb : b.HasBacking B.backing) (hs : s.HasBacking B.backing) :
    apiWriteE m B e b s = apiFromE m B e b := by
  obtain ⟨x, rfl⟩ := Store.cases_ofBits hb
  obtain ⟨g, rfl⟩ := Store.cases_ofBits hs
  rw [apiWriteE_bits m hB hS hL hw, apiFromE_bits m hB hS e x (hL.all _)]
  rw [hi]
  cases e <;> rfl

/-- **C23** (what happens on array-backed bitfields). `write_le_bytes(b)` gives `from_be_bytes(b)`
and `write_be_bytes(b)` gives `from_le_bytes(b)`. -/
theorem C23_array_opposite (m : Mode) (hB : WF B) (hS : Supported B) (hL : Lawful B)
    (hw : ∀ f ∈ B.fields, f.isWritable = true) {n : Nat} (hi : B.backing = .arr n)
    (b s : Store) (hb : b.HasBacking B.backing) (hs : s.HasBacking B.backing) :
    apiWriteE m B .little b s = apiFromE m B .big b ∧
    apiWriteE m B .big b s = apiFromE m B .little b := by
  obtain ⟨x, rfl⟩ := Store.cases_ofBits hb
  obtain ⟨g, rfl⟩ := Store.cases_ofBits hs
  have e8 : (8 * n) / 8 = n := by omega
  constructor <;>
    rw [apiWriteE_bits m hB hS hL hw, apiFromE_bits m hB hS _ x (hL.all _), hi]
  · show Except.ok (Store.ofBits (.arr n) (reverseBytes (8 * n / 8) x)) = _
    rw [e8]
    rfl
  · rfl

namespace Ex

/-- `#[bits(8)] lo: u8`, `#[bits(8)] hi: u8` of a `u16`: all fields writable. -/
def lo : Field := ⟨"lo", .int .u8, 8, 0, .rw, false, none⟩
def hi : Field := ⟨"hi", .int .u8, 8, 8, .rw, false, none⟩
def W : Bitfield := ⟨.int 16, [lo, hi], .big, .big, .big, false⟩
def V : Bitfield := ⟨.arr 2, [lo, hi], .big, .big, .big, false⟩

theorem wf_lohi {b : Backing} (h : b.OK) (hs : b.size = 16) {e₁ e₂ e₃ : Endian} {h₁ : Bool} :
    WF ⟨b, [lo, hi], e₁, e₂, e₃, h₁⟩ where
  backing := h
  field := by
    intro f hf
    simp only [List.mem_cons, List.not_mem_nil, or_false] at hf
    rcases hf with rfl | rfl <;>
      exact ⟨by decide, by simp [hs, lo, hi], by intro t ht; cases ht; decide⟩
  disjoint := by
    simp only [List.pairwise_cons, List.mem_cons, List.not_mem_nil, or_false,
      forall_eq, List.Pairwise.nil, and_true, false_imp_iff, implies_true]
    exact disjoint_of_le (by decide)
  cover := by
    intro i h
    simp only [hs] at h
    by_cases h8 : i < 8
    · exact ⟨lo, by simp, by simp [Field.covers, lo, h8]⟩
    · exact ⟨hi, by simp, covers_iff.mpr ⟨by show 8 ≤ i; omega, by show i < 8 + 8; omega⟩⟩

theorem supported_lohi {b : Backing} {e₁ e₂ e₃ : Endian} {h₁ : Bool} : Supported ⟨b, [lo, hi], e₁, e₂, e₃, h₁⟩ where
  field := by
    intro f hf
    simp only [List.mem_cons, List.not_mem_nil, or_false] at hf
    rcases hf with rfl | rfl <;> exact ⟨(by intro _ h; cases h), (by intro _ h; cases h)⟩
  default := by
    intro f hf v hv
    simp only [List.mem_cons, List.not_mem_nil, or_false] at hf
    rcases hf with rfl | rfl <;> cases hv

theorem lawful_lohi {b : Backing} {e₁ e₂ e₃ : Endian} {h₁ : Bool} : Lawful ⟨b, [lo, hi], e₁, e₂, e₃, h₁⟩ := by
  intro f hf
  simp only [List.mem_cons, List.not_mem_nil, or_false] at hf
  rcases hf with rfl | rfl <;> intro c hc <;> cases hc

theorem writable_lohi : ∀ f ∈ [lo, hi], f.isWritable = true := by decide

end Ex

example (m : Mode) (v u : BitVec 16) :
    apiWriteE m Ex.W .little (.int 16 v) (.int 16 u) = apiFromE m Ex.W .little (.int 16 v) :=
  C23_write_eq_from_partial (B := Ex.W) m (Ex.wf_lohi (by simp [Backing.OK]) rfl)
    Ex.supported_lohi Ex.lawful_lohi Ex.writable_lohi rfl .little _ _ rfl rfl

example (m : Mode) (x y u v : BitVec 8) :
    apiWriteE m Ex.V .little (.arr [x, y]) (.arr [u, v]) = apiFromE m Ex.V .big (.arr [x, y]) :=
  (C23_array_opposite (B := Ex.V) m (Ex.wf_lohi (by simp [Backing.OK]) rfl)
    Ex.supported_lohi Ex.lawful_lohi Ex.writable_lohi rfl (.arr [x, y]) (.arr [u, v]) rfl rfl).1

end Bf
