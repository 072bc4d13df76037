import Verif.Lemmas.Effect
import Verif.Props.Example

/-!
# Conversions (C17 - C20)

`apiFromE m B e` is `from_le_bits`/`from_be_bits` (`_bytes` on array-backed bitfields),
`apiFrom m B` is `from_bits`/`from_bytes`; likewise `apiIntoE`, `apiInto`.
-/

namespace Bf

variable {B : Bitfield} {f : Field}

theorem apiFromE_bits (m : Mode) (hB : WF B) (hS : Supported B) (e : Endian) (g : Bits)
    (hp : AllPreserved B (endianBits B.backing e g)) :
    apiFromE m B e (Store.ofBits B.backing g) =
      .ok (Store.ofBits B.backing (endianBits B.backing e g)) := by
  unfold apiFromE
  rw [fromConv_bits hB.backing, endianBits_eq hB.backing, initStore_eq]
  simp only [R_bind_ok]
  exact setAll_none m hB hS _ _ hp

theorem apiIntoE_bits (hB : WF B) (e : Endian) (g : Bits) :
    apiIntoE B e (Store.ofBits B.backing g) =
      .ok (Store.ofBits B.backing (endianBits B.backing e g)) := by
  unfold apiIntoE
  rw [intoConv_bits hB.backing, endianBits_eq hB.backing]

theorem ofBits_endian_endian (hB : WF B) (e : Endian) (g : Bits) :
    Store.ofBits B.backing (endianBits B.backing e (endianBits B.backing e g)) =
      Store.ofBits B.backing g := by
  rw [← endianBits_eq hB.backing, ← endianBits_eq hB.backing, ofBits_revIf_revIf hB.backing]

theorem Lawful.all (h : Lawful B) (g : Bits) : AllPreserved B g := fun _ hf => h.preserves hf _

/-- **C17** (bits to bits, explicit endianness). `T::from_le_bits(b).into_le_bits() == b`, and the same
for `be`, for every `b` of the backing type. -/
theorem C17_from_into (m : Mode) (hB : WF B) (hS : Supported B) (hL : Lawful B) (e : Endian)
    (b : Store) (hb : b.HasBacking B.backing) :
    (do let t ← apiFromE m B e b
        apiIntoE B e t) = .ok b := by
  obtain ⟨g, rfl⟩ := Store.cases_ofBits hb
  rw [apiFromE_bits m hB hS e g (hL.all _)]
  simp only [R_bind_ok]
  rw [apiIntoE_bits hB, ofBits_endian_endian hB]

/-- **C17** (bitfield to bitfield, explicit endianness). `T::from_le_bits(t.into_le_bits()) == t`, and
the same for `be`. The codec law is needed only for the patterns `t` actually holds. -/
theorem C17_into_from (m : Mode) (hB : WF B) (hS : Supported B) (e : Endian)
    (t : Store) (ht : t.HasBacking B.backing) (hp : AllPreserved B t.bit) :
    (do let b ← apiIntoE B e t
        apiFromE m B e b) = .ok t := by
  rw [← Store.ofBits_bit ht, apiIntoE_bits hB]
  simp only [R_bind_ok]
  rw [apiFromE_bits m hB hS, ofBits_endian_endian hB]
  intro f hf
  refine (hp f hf).congr fun i hi => ?_
  have hlt : f.offset + i < B.backing.size := by
    have := (hB.field f hf).fits; omega
  have := Store.ofBits_inj (ofBits_endian_endian hB e t.bit) _ hlt
  exact this.symm

/-- **C17** (configured endianness). With equal `from_endian` and `into_endian`,
`T::from_bits(b).into_bits() == b` and `T::from_bits(t.into_bits()) == t`; the same for the `From`
implementations. -/
theorem C17_configured (m : Mode) (hB : WF B) (hS : Supported B) (hL : Lawful B)
    (he : B.fromEndian = B.intoEndian) (b : Store) (hb : b.HasBacking B.backing) :
    (do let t ← apiFrom m B b
        apiInto B t) = .ok b ∧
    (do let t ← apiInto B b
        apiFrom m B t) = .ok b ∧
    (do let t ← apiTraitFrom m B b
        apiTraitInto B t) = .ok b ∧
    (do let t ← apiTraitInto B b
        apiTraitFrom m B t) = .ok b := by
  have h1 := C17_from_into m hB hS hL B.intoEndian b hb
  have h2 := C17_into_from m hB hS B.intoEndian b hb (hL.all _)
  obtain ⟨g, rfl⟩ := Store.cases_ofBits hb
  have hfrom := apiFromE_bits m hB hS B.intoEndian g (hL.all _)
  have hinto := apiIntoE_bits hB B.intoEndian g
  have ht1 : ∀ {s : Store}, s.HasBacking B.backing →
      apiTraitFrom m B s = apiFromE m B B.intoEndian s := by
    intro s hs
    unfold apiTraitFrom apiFromE
    rw [he, traitConv_eq _ hs]
  have ht2 : ∀ {s : Store}, s.HasBacking B.backing →
      apiTraitInto B s = apiIntoE B B.intoEndian s := by
    intro s hs
    unfold apiTraitInto apiIntoE
    rw [intoConv_eq_fromConv, traitConv_eq _ hs]
  refine ⟨?_, ?_, ?_, ?_⟩
  · unfold apiFrom apiInto; rw [he]; exact h1
  · unfold apiFrom apiInto; rw [he]; exact h2
  · rw [ht1 hb, hfrom]
    rw [hfrom] at h1
    simp only [R_bind_ok] at h1 ⊢
    rw [ht2 (Store.hasBacking_ofBits _ _)]
    exact h1
  · rw [ht2 hb, hinto]
    rw [hinto] at h2
    simp only [R_bind_ok] at h2 ⊢
    rw [ht1 (Store.hasBacking_ofBits _ _)]
    exact h2

example (m : Mode) (v : BitVec 16) :
    (do let t ← apiFrom m Ex.I (.int 16 v)
        apiInto Ex.I t) = .ok (.int 16 v) :=
  (C17_configured m Ex.wfI Ex.supportedI Ex.lawfulI rfl (.int 16 v) rfl).1

example (m : Mode) (x y z : BitVec 8) :
    (do let t ← apiFromE m Ex.A .big (.arr [x, y, z])
        apiIntoE Ex.A .big t) = .ok (.arr [x, y, z]) :=
  C17_from_into m Ex.wfA Ex.supportedA Ex.lawfulA .big (.arr [x, y, z]) rfl

/-! ## Endianness -/

theorem reverse_eq_iff {n : Nat} {bs : List (BitVec 8)} (h : bs.length = n) :
    xorReverse n bs.reverse = .ok bs := by
  rw [xorReverse_eq (by simpa using h), List.reverse_reverse]

/-- The byte swap of an integer really is one: byte `k` of the result is byte `n - 1 - k` of the
argument. -/
theorem swapBytes_spec {w : Nat} (h8 : w % 8 = 0) (v : BitVec w) {k j : Nat} (hk : k < w / 8)
    (hj : j < 8) :
    (swapBytes v).getLsbD (8 * k + j) = v.getLsbD (8 * (w / 8 - 1 - k) + j) := by
  conv => lhs; rw [← ofBits_getLsbD v]
  rw [swapBytes_ofBits h8, getLsbD_ofBits, decide_eq_true (by omega), Bool.true_and]
  unfold revBytes
  congr 1
  omega

theorem swapBytes_swapBytes {w : Nat} (h8 : w % 8 = 0) (v : BitVec w) :
    swapBytes (swapBytes v) = v := by
  apply BitVec.eq_of_getLsbD_eq
  intro i hi
  have e : i = 8 * (i / 8) + i % 8 := by omega
  rw [e, swapBytes_spec h8 _ (by omega) (by omega), swapBytes_spec h8 _ (by omega) (by omega)]
  congr 1
  omega

/-- **C18** (integer-backed). `from_le_bits(b) == from_be_bits(b.swap_bytes())`, the same with
defaults, and `into_le_bits() == into_be_bits().swap_bytes()`, for every codec. -/
theorem C18_int_swap (m : Mode) {w : Nat} (hb : B.backing = .int w) (hw : w % 8 = 0) (v : BitVec w) :
    apiFromE m B .little (.int w v) = apiFromE m B .big (.int w (swapBytes v)) ∧
    apiFromE m B .big (.int w v) = apiFromE m B .little (.int w (swapBytes v)) ∧
    apiFromEDefaults m B .little (.int w v) = apiFromEDefaults m B .big (.int w (swapBytes v)) ∧
    apiIntoE B .big (.int w v) = .ok (.int w v) ∧
    apiIntoE B .little (.int w v) = .ok (.int w (swapBytes v)) := by
  refine ⟨?_, ?_, ?_, ?_, ?_⟩
  · unfold apiFromE fromConv; rw [hb]
  · unfold apiFromE fromConv; rw [hb]; simp only; rw [swapBytes_swapBytes hw]
  · unfold apiFromEDefaults fromConv; rw [hb]
  · unfold apiIntoE intoConv; rw [hb]
  · unfold apiIntoE intoConv; rw [hb]

/-- **C18** (array-backed). `from_le_bytes(a)` is `from_be_bytes` of the reversed array, the same with
defaults, and `into_be_bytes()` is `into_le_bytes()` reversed. -/
theorem C18_array_reverse (m : Mode) {n : Nat} (hb : B.backing = .arr n) {a : List (BitVec 8)}
    (ha : a.length = n) :
    apiFromE m B .little (.arr a) = apiFromE m B .big (.arr a.reverse) ∧
    apiFromE m B .big (.arr a) = apiFromE m B .little (.arr a.reverse) ∧
    apiFromEDefaults m B .little (.arr a) = apiFromEDefaults m B .big (.arr a.reverse) ∧
    apiIntoE B .little (.arr a) = .ok (.arr a) ∧
    apiIntoE B .big (.arr a) = .ok (.arr a.reverse) := by
  refine ⟨?_, ?_, ?_, ?_, ?_⟩
  · unfold apiFromE fromConv; rw [hb]; simp only; rw [reverse_eq_iff ha]; rfl
  · unfold apiFromE fromConv; rw [hb]; simp only; rw [xorReverse_eq ha]; rfl
  · unfold apiFromEDefaults fromConv; rw [hb]; simp only; rw [reverse_eq_iff ha]; rfl
  · unfold apiIntoE intoConv; rw [hb]
  · unfold apiIntoE intoConv; rw [hb]; simp only; rw [xorReverse_eq ha]; rfl

/-- **C18** (which is which). `from_be_bits(v)` of an integer-backed bitfield stores `v` itself, and
`from_le_bytes(a)` of an array-backed one stores `a` itself: byte 0 holds bits 0 to 7. -/
theorem C18_anchor (m : Mode) (hB : WF B) (hS : Supported B) (hL : Lawful B) (s : Store)
    (hs : s.HasBacking B.backing) :
    (∀ w, B.backing = .int w → apiFromE m B .big s = .ok s) ∧
    (∀ n, B.backing = .arr n → apiFromE m B .little s = .ok s) := by
  obtain ⟨g, rfl⟩ := Store.cases_ofBits hs
  constructor
  · intro w hb
    rw [apiFromE_bits m hB hS _ _ (hL.all _), show endianBits B.backing .big g = g by rw [hb]; rfl]
  · intro n hb
    rw [apiFromE_bits m hB hS _ _ (hL.all _), show endianBits B.backing .little g = g by rw [hb]; rfl]

/-- **C18** (configured endianness). The functions without endianness in their name are the ones
of the configured endianness. -/
theorem C18_configured (m : Mode) (B : Bitfield) (s : Store) :
    (B.fromEndian = .little → apiFrom m B s = apiFromE m B .little s ∧
      apiFromDefaults m B s = apiFromEDefaults m B .little s) ∧
    (B.fromEndian = .big → apiFrom m B s = apiFromE m B .big s ∧
      apiFromDefaults m B s = apiFromEDefaults m B .big s) ∧
    (B.intoEndian = .little → apiInto B s = apiIntoE B .little s) ∧
    (B.intoEndian = .big → apiInto B s = apiIntoE B .big s) := by
  unfold apiFrom apiFromDefaults apiInto
  refine ⟨fun h => ?_, fun h => ?_, fun h => ?_, fun h => ?_⟩ <;> rw [h]
  · exact ⟨rfl, rfl⟩
  · exact ⟨rfl, rfl⟩

/-- **C18** (`From`). The two `From` implementations agree with `from_bits` and `into_bits`. -/
theorem C18_from_traits (m : Mode) (B : Bitfield) (s : Store) (hs : s.HasBacking B.backing) :
    apiTraitFrom m B s = apiFrom m B s ∧ apiTraitInto B s = apiInto B s := by
  constructor
  · unfold apiTraitFrom apiFrom apiFromE
    rw [traitConv_eq _ hs]
  · unfold apiTraitInto apiInto apiIntoE
    rw [intoConv_eq_fromConv, traitConv_eq _ hs]

example : apiIntoE Ex.I .little (.int 16 0x1234#16) = .ok (.int 16 0x3412#16) :=
  (C18_int_swap (B := Ex.I) .checked rfl rfl 0x1234#16).2.2.2.2.trans (by rw [show swapBytes 0x1234#16 = 0x3412#16 by decide])

example (m : Mode) : apiFromE m Ex.A .big (.arr [1#8, 2#8, 3#8]) = .ok (.arr [3#8, 2#8, 1#8]) :=
  (C18_array_reverse (B := Ex.A) m rfl rfl).2.1.trans
    ((C18_anchor m Ex.wfA Ex.supportedA Ex.lawfulA (.arr [3#8, 2#8, 1#8]) rfl).2 3 rfl)

/-! ## Conversions with defaults -/

/-- **C19.** In `from_{le,be}_bits_with_defaults(b)` every field with a default holds it and every
other field holds its bits of `b` (in the given byte order). -/
theorem C19_from_with_defaults (m : Mode) (hB : WF B) (hS : Supported B) (hL : Lawful B)
    (e : Endian) (b : Store) (hb : b.HasBacking B.backing) :
    ∃ s, apiFromEDefaults m B e b = .ok s ∧ s.HasBacking B.backing ∧
      ∀ f ∈ B.fields, ∀ i < f.bits, s.bit (f.offset + i) =
        match f.default with
        | some v => encode f.ty v i
        | none => endianBits B.backing e b.bit (f.offset + i) := by
  obtain ⟨g, hg, rfl⟩ : ∃ g, g = b.bit ∧ b = Store.ofBits B.backing g :=
    ⟨_, rfl, (Store.ofBits_bit hb).symm⟩
  refine ⟨_, ?_, Store.hasBacking_ofBits B.backing fun i =>
    (B.defaultBit i).getD (endianBits B.backing e g i), ?_⟩
  · have h := apiFromE_bits m hB hS e g (hL.all _)
    unfold apiFromE at h
    unfold apiFromEDefaults
    rw [← setDefaults_ok m hB hS hL.defaults]
    cases hc : fromConv B e (Store.ofBits B.backing g) with
    | error p => rw [hc] at h; cases h
    | ok x =>
      rw [hc] at h
      simp only [R_bind_ok] at h ⊢
      rw [h]
      rfl
  · intro f hf i hi
    rw [Store.bit_ofBits_lt (hB.add_lt hf hi), hB.defaultBit_eq hf (covers_add hi),
      Nat.add_sub_cancel_left, ← hg]
    cases f.default <;> rfl

example (m : Mode) (v : BitVec 16) :
    ∃ s, apiFromEDefaults m Ex.I .big (.int 16 v) = .ok s ∧ s.HasBacking (.int 16) ∧
      ∀ f ∈ Ex.I.fields, ∀ i < f.bits, s.bit (f.offset + i) =
        match f.default with
        | some v => encode f.ty v i
        | none => v.getLsbD (f.offset + i) :=
  C19_from_with_defaults m Ex.wfI Ex.supportedI Ex.lawfulI .big (.int 16 v) rfl

/-! ## Slices -/

/-- The slice cut to `n` bytes, or padded with zeros to `n` bytes. -/
def padTo (n : Nat) (sl : List (BitVec 8)) : List (BitVec 8) :=
  sl.take n ++ List.replicate (n - sl.length) 0#8

/-- **C20** (reading). `from_slice(sl)` of a slice of any length is `from_bytes` of the slice cut or
zero-padded to the size of the bitfield; the same for the `le`/`be` and `_with_defaults` variants. -/
theorem C20_from_slice (m : Mode) {n : Nat} (hb : B.backing = .arr n) (e : Endian)
    (sl : List (BitVec 8)) :
    apiFromSlice m B e false sl = apiFromE m B e (.arr (padTo n sl)) ∧
    apiFromSlice m B e true sl = apiFromEDefaults m B e (.arr (padTo n sl)) := by
  have hcopy : copyFromSlice n (if sl.length < n then sl.length else n) sl = .ok (padTo n sl) := by
    rw [copyFromSlice_eq (by split <;> omega) (by split <;> omega)]
    unfold padTo
    split
    · rename_i h
      rw [List.take_of_length_le (Nat.le_refl _), List.take_of_length_le (by omega)]
    · rename_i h
      rw [show n - sl.length = 0 by omega, Nat.sub_self]
  unfold apiFromSlice apiFromE apiFromEDefaults fromConv
  rw [hb]
  simp only [hcopy, R_bind_ok, Bool.false_eq_true, if_false, if_true]
  have hp : ∀ r : R Store, (r >>= fun s => pure s) = r := by intro r; cases r <;> rfl
  cases e with
  | little =>
    simp only [R_bind_ok]
    exact ⟨hp _, trivial⟩
  | big =>
    simp only
    cases xorReverse n (padTo n sl) with
    | error p => exact ⟨rfl, rfl⟩
    | ok x =>
      refine ⟨?_, rfl⟩
      show (setAllFromSource m B .none (.arr x) (initStore B) >>= fun s => pure s) =
        setAllFromSource m B .none (.arr x) (initStore B)
      exact hp _

/-- **C20** (checked reading). `checked_from_slice(sl)` fails exactly when the slice is too short and
otherwise is `from_slice(sl)`. -/
theorem C20_checked_from_slice (m : Mode) {n : Nat} (hb : B.backing = .arr n) (e : Endian)
    (d : Bool) (sl : List (BitVec 8)) :
    (sl.length < n → apiCheckedFromSlice m B e d sl =
      .ok (.error "Slice is too small to fill the bitfield.")) ∧
    (n ≤ sl.length → apiCheckedFromSlice m B e d sl =
      (apiFromSlice m B e d sl).map fun s => .ok s) := by
  unfold apiCheckedFromSlice apiFromSlice
  rw [hb]
  constructor
  · intro h; simp only [if_pos h]; rfl
  · intro h
    simp only [if_neg (show ¬ sl.length < n by omega)]
    cases copyFromSlice n n sl with
    | error p => rfl
    | ok x =>
      simp only [R_bind_ok]
      have key : ∀ y, (do
            let s ← setAllFromSource m B .none (.arr y) (initStore B)
            if d = true then do
                let s ← setDefaults m B s
                pure (Except.ok s)
              else pure (Except.ok s) : R (Except String Store)) =
          Except.map (fun s => Except.ok s) (do
            let s ← setAllFromSource m B .none (.arr y) (initStore B)
            if d = true then setDefaults m B s else pure s) := by
        intro y
        cases setAllFromSource m B .none (.arr y) (initStore B) with
        | error p => rfl
        | ok z =>
          simp only [R_bind_ok]
          cases d with
          | false => rfl
          | true =>
            simp only [if_true]
            cases setDefaults m B z <;> rfl
      cases e with
      | little => exact key x
      | big =>
        simp only
        cases xorReverse n x with
        | error p => rfl
        | ok y => exact key y

/-- **C20** (writing out). `into_slice(sl)` overwrites exactly the first `min(len, n)` bytes of the
slice with those of `into_bytes()` and leaves the others. -/
theorem C20_into_slice (hB : WF B) {n : Nat} (hb : B.backing = .arr n) (e : Endian)
    (s : Store) (hs : s.HasBacking B.backing) (sl : List (BitVec 8)) :
    ∃ a sl', apiIntoE B e s = .ok (.arr a) ∧ a.length = n ∧ apiIntoSlice B e s sl = .ok sl' ∧
      sl'.length = sl.length ∧
      ∀ k < sl.length, sl'[k]? = if k < n then a[k]? else sl[k]? := by
  obtain ⟨g, rfl⟩ := Store.cases_ofBits hs
  refine ⟨bytesOf n (endianBits B.backing e g), _, ?_, length_bytesOf _ _,
    apiIntoSlice_ok hb hB.backing e g sl, ?_, ?_⟩
  · rw [apiIntoE_bits hB]
    rw [hb]
    rfl
  · unfold fillSlice
    simp only [List.length_append, List.length_take, length_bytesOf, List.length_drop]
    omega
  · intro k hk
    unfold fillSlice
    rw [List.getElem?_append]
    simp only [List.length_take, length_bytesOf]
    split
    · rename_i h
      rw [if_pos (by omega), List.getElem?_take, if_pos (by omega)]
    · rename_i h
      rw [if_neg (by omega), List.getElem?_drop]
      congr 1
      omega

/-- **C20** (checked writing out). `checked_into_slice(sl)` fails exactly when the slice is too
short, leaving it untouched, and otherwise is `into_slice(sl)`. -/
theorem C20_checked_into_slice (hB : WF B) {n : Nat} (hb : B.backing = .arr n) (e : Endian)
    (s : Store) (hs : s.HasBacking B.backing) (sl : List (BitVec 8)) :
    (sl.length < n → apiCheckedIntoSlice B e s sl =
      .ok (.error "Slice is too small to hold the bitfield.", sl)) ∧
    (n ≤ sl.length → apiCheckedIntoSlice B e s sl =
      (apiIntoSlice B e s sl).map fun sl' => (.ok (), sl')) := by
  obtain ⟨g, rfl⟩ := Store.cases_ofBits hs
  rw [apiCheckedIntoSlice_ok hb e g sl, apiIntoSlice_ok hb hB.backing e g sl]
  constructor
  · intro h; rw [if_pos h]; rfl
  · intro h; rw [if_neg (by omega)]; rfl

example (m : Mode) : apiFromSlice m Ex.A .little false [7#8, 9#8] =
    apiFromE m Ex.A .little (.arr [7#8, 9#8, 0#8]) :=
  (C20_from_slice (B := Ex.A) m rfl .little [7#8, 9#8]).1

example (s : Store) (hs : s.HasBacking (.arr 3)) :
    apiCheckedIntoSlice Ex.A .big s [7#8, 9#8] =
      .ok (.error "Slice is too small to hold the bitfield.", [7#8, 9#8]) :=
  (C20_checked_into_slice Ex.wfA rfl .big s hs [7#8, 9#8]).1 (by decide)

end Bf
