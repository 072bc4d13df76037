import Verif.Props.BitAccess

/-!
# Clear and invert operations (C28 - C30)
-/

namespace Bf

variable {B : Bitfield} {f : Field}

/-- Two runs of `storeAll` from different bits. -/
theorem storeAll_indep (fs : List Field) (X : Field → R Bits) (g g' : Bits) :
    (∃ p, storeAll fs X g = .error p ∧ storeAll fs X g' = .error p) ∨
    (∃ a b, storeAll fs X g = .ok a ∧ storeAll fs X g' = .ok b ∧
      ∀ i, ((∃ f ∈ fs, f.covers i = true) ∨ g i = g' i) → a i = b i) := by
  induction fs generalizing g g' with
  | nil =>
    refine .inr ⟨g, g', rfl, rfl, ?_⟩
    rintro i (⟨f, hf, _⟩ | h)
    · cases hf
    · exact h
  | cons f fs ih =>
    have e : ∀ g, storeAll (f :: fs) X g =
        ((X f).map fun y => overwrite f y g) >>= storeAll fs X := fun g => by
      unfold storeAll; rw [List.foldlM_cons]
    rw [e, e]
    cases hX : X f with
    | error p => exact .inl ⟨p, rfl, rfl⟩
    | ok y =>
      rcases ih (overwrite f y g) (overwrite f y g') with h | ⟨a, b, h1, h2, h3⟩
      · exact .inl h
      · refine .inr ⟨a, b, h1, h2, fun i hi => h3 i ?_⟩
        cases hc : f.covers i
        · rw [overwrite_not_covers hc, overwrite_not_covers hc]
          rcases hi with ⟨f', hf', hc'⟩ | hi
          · rcases List.mem_cons.mp hf' with rfl | hf'
            · rw [hc] at hc'; cases hc'
            · exact .inl ⟨f', hf', hc'⟩
          · exact .inr hi
        · rw [overwrite_covers hc, overwrite_covers hc]
          exact .inr rfl

/-- What `clear_bits` leaves does not depend on what was there. -/
theorem specClear_indep (hB : WF B) (d : Bool) (g g' : Bits) :
    ((specCall B (.clear d) g).map Prod.snd).map (Store.ofBits B.backing) =
      ((specCall B (.clear d) g').map Prod.snd).map (Store.ofBits B.backing) := by
  cases d
  · simp only [specCall]
    rcases storeAll_indep B.fields (fun f => absorb f fun _ => false) g g' with
      ⟨p, h1, h2⟩ | ⟨a, b, h1, h2, h3⟩
    · rw [h1, h2]
    · rw [h1, h2]
      simp only [R_bind_ok]
      rcases storeAll_indep (B.fields.filter fun f => f.reserved && f.default.isSome)
        Field.defaultBits a b with ⟨p, h4, h5⟩ | ⟨a', b', h4, h5, h6⟩
      · rw [h4, h5]
      · rw [h4, h5]
        exact congrArg Except.ok (Store.ofBits_congr fun i hi =>
          h6 i (.inr (h3 i (.inl (hB.cover i hi)))))
  · simp only [specCall]
    rcases storeAll_indep (B.fields.filter fun f => f.default.isNone)
      (fun f => absorb f fun _ => false) g g' with ⟨p, h1, h2⟩ | ⟨a, b, h1, h2, h3⟩
    · rw [h1, h2]
    · rw [h1, h2]
      simp only [R_bind_ok, defaultsAll]
      rcases storeAll_indep (B.fields.filter fun f => f.default.isSome)
        Field.defaultBits a b with ⟨p, h4, h5⟩ | ⟨a', b', h4, h5, h6⟩
      · rw [h4, h5]
      · rw [h4, h5]
        refine congrArg Except.ok (Store.ofBits_congr fun i hi => h6 i ?_)
        obtain ⟨f, hf, hc⟩ := hB.cover i hi
        cases hd : f.default with
        | none => exact .inr (h3 i (.inl ⟨f, List.mem_filter.mpr ⟨hf, by rw [hd]; rfl⟩, hc⟩))
        | some v => exact .inl ⟨f, List.mem_filter.mpr ⟨hf, by rw [hd]; rfl⟩, hc⟩

/-- **C28.** From any state `clear_bits()` gives exactly what `new_without_defaults()` gives, and
`clear_bits_with_defaults()` exactly what `new()` gives (including a panic of the user's
`from_bits`, should there be one). -/
theorem C28_clear (m : Mode) (hB : WF B) (hS : Supported B) (s : Store)
    (hs : s.HasBacking B.backing) :
    apiClear m B s = apiNewWithoutDefaults m B ∧ apiClearDefaults m B s = apiNew m B := by
  obtain ⟨g, rfl⟩ := Store.cases_ofBits hs
  unfold apiClear apiClearDefaults apiNew apiNewWithoutDefaults
  rw [initStore_eq, newBody_bits m hB hS, newBody_bits m hB hS, newBody_bits m hB hS,
    newBody_bits m hB hS]
  exact ⟨specClear_indep hB false _ _, specClear_indep hB true _ _⟩

example (m : Mode) (v : BitVec 16) : apiClear m Ex.I (.int 16 v) = apiNewWithoutDefaults m Ex.I ∧
    apiClearDefaults m Ex.I (.int 16 v) = apiNew m Ex.I :=
  C28_clear m Ex.wfI Ex.supportedI (.int 16 v) rfl

/-- **C28** (one field). `clear_x()` zeroes the bits of `x` and no other bit. -/
theorem C28_clear_field (m : Mode) (hB : WF B) (hS : Supported B) (hf : f ∈ B.fields)
    (hz : Preserves f fun _ => false) (s : Store) (hs : s.HasBacking B.backing) :
    ∃ s', setZero m f s = .ok s' ∧ s'.HasBacking B.backing ∧ ∀ i < B.backing.size,
      s'.bit i = if f.offset ≤ i ∧ i < f.offset + f.bits then false else s.bit i := by
  obtain ⟨g, rfl⟩ := Store.cases_ofBits hs
  obtain ⟨y, h1, h2⟩ := absorb_ok hz
  rw [setZero_bits m hB.backing (hB.field f hf) (hS.field f hf), h1]
  refine ⟨_, rfl, Store.hasBacking_ofBits _ _, fun i hi => ?_⟩
  rw [Store.bit_ofBits_lt hi, Store.bit_ofBits_lt hi]
  cases hc : f.covers i
  · rw [overwrite_not_covers hc, if_neg (fun h => by rw [covers_iff.mpr h] at hc; cases hc)]
  · rw [overwrite_covers hc, if_pos (covers_iff.mp hc), h2 _ (covers_sub_lt hc)]

/-- **C28** (one field). `clear_x_to_default()` sets the bits of `x` to those of its declared
default and changes no other bit. -/
theorem C28_clear_field_to_default (m : Mode) (hB : WF B) (hS : Supported B) (hf : f ∈ B.fields)
    {v : Val} (hd : f.default = some v) (hp : Preserves f (encode f.ty v)) (s : Store)
    (hs : s.HasBacking B.backing) :
    ∃ s', setDefault m f s = .ok s' ∧ s'.HasBacking B.backing ∧ ∀ i < B.backing.size,
      s'.bit i = if f.offset ≤ i ∧ i < f.offset + f.bits then encode f.ty v (i - f.offset)
        else s.bit i := by
  obtain ⟨g, rfl⟩ := Store.cases_ofBits hs
  obtain ⟨y, h1, h2⟩ := defaultStored_ok hp
  rw [setDefault_bits m hB.backing (hB.field f hf) (hS.field f hf) hd (hS.default f hf v hd), h1]
  refine ⟨_, rfl, Store.hasBacking_ofBits _ _, fun i hi => ?_⟩
  rw [Store.bit_ofBits_lt hi, Store.bit_ofBits_lt hi]
  cases hc : f.covers i
  · rw [overwrite_not_covers hc, if_neg (fun h => by rw [covers_iff.mpr h] at hc; cases hc)]
  · rw [overwrite_covers hc, if_pos (covers_iff.mp hc), h2 _ (covers_sub_lt hc)]

example (m : Mode) (v : BitVec 16) : ∃ s', setZero m Ex.d (.int 16 v) = .ok s' ∧
    s'.HasBacking (.int 16) ∧ ∀ i < 16,
      s'.bit i = if 8 ≤ i ∧ i < 8 + 2 then false else v.getLsbD i :=
  C28_clear_field (f := Ex.d) (B := Ex.I) m Ex.wfI Ex.supportedI (by simp [Ex.I])
    ((Ex.lawfulI Ex.d (by simp [Ex.I])).preserves _) (.int 16 v) rfl

example (m : Mode) (v : BitVec 16) : ∃ s', setDefault m Ex.a (.int 16 v) = .ok s' ∧
    s'.HasBacking (.int 16) ∧ ∀ i < 16,
      s'.bit i = if 0 ≤ i ∧ i < 0 + 4 then intBit 5 (i - 0) else v.getLsbD i :=
  C28_clear_field_to_default (f := Ex.a) (B := Ex.I) m Ex.wfI Ex.supportedI (by simp [Ex.I])
    (v := .int 5) rfl ((Ex.lawfulI Ex.a (by simp [Ex.I])).preserves _) (.int 16 v) rfl

/-- **C29.** `invert_bits()` flips every bit of a field with a setter and no other bit, and doing it
twice gives back the original. -/
theorem C29_invert (m : Mode) (hB : WF B) (hS : Supported B) (hL : Lawful B) (s : Store)
    (hs : s.HasBacking B.backing) :
    ∃ s', apiInvert m B s = .ok s' ∧ s'.HasBacking B.backing ∧
      (∀ i < B.backing.size, (B.WritableBit i → s'.bit i = !s.bit i) ∧
        (¬ B.WritableBit i → s'.bit i = s.bit i)) ∧
      apiInvert m B s' = .ok s := by
  obtain ⟨g, rfl⟩ := Store.cases_ofBits hs
  refine ⟨_, ?_, Store.hasBacking_ofBits B.backing fun i => if B.writable i then !g i else g i,
    fun i hi => ?_, ?_⟩
  · rw [apiInvert_source m hB]
    exact setAll_none m hB hS _ _ fun f hf => hL.preserves hf _
  · rw [Store.bit_ofBits_lt hi, Store.bit_ofBits_lt hi]
    refine ⟨fun h => by rw [if_pos (writable_iff.mpr h)], fun h => ?_⟩
    rw [if_neg (fun hw => h (writable_iff.mp hw))]
  · rw [apiInvert_source m hB, setAll_none m hB hS _ _ fun f hf => hL.preserves hf _]
    refine congrArg Except.ok (Store.ofBits_congr fun i hi => ?_)
    cases B.writable i <;> simp

/-- **C29** (one field). `invert_x()` flips the bits of `x` and no other bit, and doing it twice
gives back the original. -/
theorem C29_invert_field (m : Mode) (hB : WF B) (hS : Supported B) (hf : f ∈ B.fields)
    (hL : FieldLawful f) (s : Store) (hs : s.HasBacking B.backing) :
    ∃ s', invertX m f s = .ok s' ∧ s'.HasBacking B.backing ∧
      (∀ i < B.backing.size,
        s'.bit i = if f.offset ≤ i ∧ i < f.offset + f.bits then !s.bit i else s.bit i) ∧
      invertX m f s' = .ok s := by
  obtain ⟨g, rfl⟩ := Store.cases_ofBits hs
  obtain ⟨y, h1, h2⟩ := roundTrip2_ok (hL.preserves fun i => !g (f.offset + i))
  have hfok := hB.field f hf
  rw [invertX_bits m hB.backing hfok (hS.field f hf), h1]
  refine ⟨_, rfl, Store.hasBacking_ofBits _ _, fun i hi => ?_, ?_⟩
  · rw [Store.bit_ofBits_lt hi, Store.bit_ofBits_lt hi]
    cases hc : f.covers i
    · rw [overwrite_not_covers hc, if_neg (fun h => by rw [covers_iff.mpr h] at hc; cases hc)]
    · rw [overwrite_covers hc, if_pos (covers_iff.mp hc), h2 _ (covers_sub_lt hc)]
      have := (covers_iff.mp hc).1
      rw [show f.offset + (i - f.offset) = i by omega]
  · obtain ⟨z, h3, h4⟩ := roundTrip2_ok
      (hL.preserves fun i => !overwrite f y g (f.offset + i))
    rw [invertX_bits m hB.backing hfok (hS.field f hf), h3]
    refine congrArg Except.ok (Store.ofBits_congr fun i hi => ?_)
    cases hc : f.covers i
    · rw [overwrite_not_covers hc, overwrite_not_covers hc]
    · have := (covers_iff.mp hc).1
      rw [overwrite_covers hc, h4 _ (covers_sub_lt hc), overwrite_covers (covers_add (covers_sub_lt hc)),
        Nat.add_sub_cancel_left, h2 _ (covers_sub_lt hc),
        show f.offset + (i - f.offset) = i by omega, Bool.not_not]

example (m : Mode) (v : BitVec 16) : ∃ s', apiInvert m Ex.I (.int 16 v) = .ok s' ∧
    s'.HasBacking (.int 16) ∧
      (∀ i < 16, (Ex.I.WritableBit i → s'.bit i = !v.getLsbD i) ∧
        (¬ Ex.I.WritableBit i → s'.bit i = v.getLsbD i)) ∧
      apiInvert m Ex.I s' = .ok (.int 16 v) :=
  C29_invert m Ex.wfI Ex.supportedI Ex.lawfulI (.int 16 v) rfl

example (m : Mode) (x y z : BitVec 8) : ∃ s', invertX m Ex.q (.arr [x, y, z]) = .ok s' ∧
    s'.HasBacking (.arr 3) ∧
      (∀ i < 24, s'.bit i = if 9 ≤ i ∧ i < 9 + 8 then !(Store.arr [x, y, z]).bit i
        else (Store.arr [x, y, z]).bit i) ∧
      invertX m Ex.q s' = .ok (.arr [x, y, z]) :=
  C29_invert_field (f := Ex.q) (B := Ex.A) m Ex.wfA Ex.supportedA (by simp [Ex.A])
    (Ex.lawfulA Ex.q (by simp [Ex.A])) (.arr [x, y, z]) rfl

/-- The field is not a signed integer narrower than its type. -/
def NotNarrowSigned (f : Field) : Prop :=
  ∀ t, f.ty = .int t → t.unsigned = true ∨ t = .bool ∨ f.bits = t.bitSize

/-- **C30** (part). `x_inverted()` returns what `x()` returns after `invert_x()`, for fields that are
not signed integers narrower than their type. For those it is false: see
`finding_inverted_signed` in `Props/Findings.lean` and `C30_narrow_signed`. -/
theorem C30_inverted_partial (m : Mode) (hB : WF B) (hS : Supported B) (hf : f ∈ B.fields)
    (hL : FieldLawful f) (hn : NotNarrowSigned f) (s : Store) (hs : s.HasBacking B.backing) :
    ∃ s', invertX m f s = .ok s' ∧ invertedX m f s = getX m f s' := by
  obtain ⟨g, rfl⟩ := Store.cases_ofBits hs
  have hfok := hB.field f hf
  obtain ⟨y, h1, h2⟩ := roundTrip2_ok (hL.preserves fun i => !g (f.offset + i))
  rw [invertX_bits m hB.backing hfok (hS.field f hf), h1]
  refine ⟨_, rfl, ?_⟩
  rw [invertedX_eq m hB.backing hfok (hS.field f hf), decodeZ_eq hfok,
    getX_eq m hB.backing hfok (hS.field f hf),
    decode_congr hfok (y := fun i => !g (f.offset + i)) (fun i hi => by
      rw [overwrite_covers (covers_add hi), Nat.add_sub_cancel_left, h2 i hi])]
  unfold decode decodeZ
  cases hty : f.ty with
  | int t =>
    rcases hn t hty with hu | hu | hu
    · cases t <;> first | rfl | exact absurd hu (by decide)
    · subst hu; rfl
    · have hp := hfok.pos
      have e := intOf_congr (n := t.bitSize) (x := fun i => decide (i < f.bits) && !g (f.offset + i))
        (y := fun i => !g (f.offset + i)) (by omega) (fun i hi => by simp [hu, hi])
      cases t <;> simp only [e] <;> simp only [hu]
  | array len => rfl
  | custom c => rfl

example (m : Mode) (v : BitVec 16) :
    ∃ s', invertX m Ex.a (.int 16 v) = .ok s' ∧ invertedX m Ex.a (.int 16 v) = getX m Ex.a s' :=
  C30_inverted_partial (f := Ex.a) (B := Ex.I) m Ex.wfI Ex.supportedI (by simp [Ex.I])
    (Ex.lawfulI Ex.a (by simp [Ex.I])) (by intro t ht; cases ht; exact .inl rfl) (.int 16 v) rfl

theorem intOf_emod (n : Nat) (x : Bits) : intOf n x % 2 ^ n = (natOf n x : Int) := by
  unfold intOf
  have h1 := natOf_lt_int n x
  split
  · rw [show (natOf n x : Int) - 2 ^ n = natOf n x + 2 ^ n * (-1) by omega,
      Int.add_mul_emod_self_left, Int.emod_eq_of_lt (by omega) h1]
  · rw [Int.sub_zero, Int.emod_eq_of_lt (by omega) h1]

/-- **C30** (the case left out). For a signed field narrower than its type `x_inverted()` returns the
number in `0..2^X_BITS` that is congruent to what `x()` returns after `invert_x()`. -/
theorem C30_narrow_signed (m : Mode) (hB : WF B) (hS : Supported B) (hf : f ∈ B.fields)
    {t : IntTy} (hty : f.ty = .int t) (hb : t ≠ .bool) (hu : t.unsigned = false)
    (hn : f.bits < t.bitSize) (s : Store) (hs : s.HasBacking B.backing) :
    ∃ s' n k, invertX m f s = .ok s' ∧ getX m f s' = .ok (.int k) ∧
      invertedX m f s = .ok (.int n) ∧ 0 ≤ n ∧ n < 2 ^ f.bits ∧ n = k % 2 ^ f.bits := by
  obtain ⟨g, rfl⟩ := Store.cases_ofBits hs
  have hfok := hB.field f hf
  have hL : FieldLawful f := fun c hc => by rw [hty] at hc; cases hc
  obtain ⟨y, h1, h2⟩ := roundTrip2_ok (hL.preserves fun i => !g (f.offset + i))
  rw [invertX_bits m hB.backing hfok (hS.field f hf), h1]
  refine ⟨_, natOf f.bits fun i => !g (f.offset + i), intOf f.bits fun i => !g (f.offset + i), rfl,
    ?_, ?_, by omega, natOf_lt_int _ _, (intOf_emod _ _).symm⟩
  · rw [getX_eq m hB.backing hfok (hS.field f hf),
      decode_congr hfok (y := fun i => !g (f.offset + i)) (fun i hi => by
        rw [overwrite_covers (covers_add hi), Nat.add_sub_cancel_left, h2 i hi])]
    unfold decode
    rw [hty]
    cases t <;> first | exact absurd rfl hb | exact absurd hu (by decide) | rfl
  · rw [invertedX_eq m hB.backing hfok (hS.field f hf), decodeZ_eq hfok]
    unfold decodeZ
    rw [hty]
    have e : intOf t.bitSize (fun i => decide (i < f.bits) && !g (f.offset + i)) =
        (natOf f.bits fun i => !g (f.offset + i) : Int) := by
      unfold intOf
      rw [natOf_pad (by omega)]
      simp [show ¬ t.bitSize - 1 < f.bits by omega]
    cases t <;> first | exact absurd rfl hb | exact absurd hu (by decide) |
      exact congrArg (fun n => Except.ok (Val.int n)) e

example (m : Mode) (v : BitVec 16) : ∃ s' n k, invertX m Ex.b (.int 16 v) = .ok s' ∧
    getX m Ex.b s' = .ok (.int k) ∧ invertedX m Ex.b (.int 16 v) = .ok (.int n) ∧
    0 ≤ n ∧ n < 2 ^ 3 ∧ n = k % 2 ^ 3 :=
  C30_narrow_signed (f := Ex.b) (B := Ex.I) m Ex.wfI Ex.supportedI (by simp [Ex.I]) rfl (by decide)
    rfl (by decide) (.int 16 v) rfl

end Bf
