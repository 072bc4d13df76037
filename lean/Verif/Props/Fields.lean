import Verif.Lemmas.Effect
import Verif.Props.Example

/-!
# Getters and setters (C06 - C12, C45)

`setX m f s v` is `set_x(v)` on a bitfield holding `s`, `getX m f s` is `x()`, in the
overflow mode `m`. `WF B` is what the macro guarantees about an accepted declaration
(`Props/Layout.lean`), `Supported B` what the generated code needs beyond that.
-/

namespace Bf

variable {B : Bitfield} {f : Field}

/-- **C06.** After `set_x(n)` on an unsigned integer field, `x()` returns `n mod 2^bits`. -/
theorem C06_unsigned_round_trip (m : Mode) (hB : WF B) (hS : Supported B) (hf : f ∈ B.fields)
    {t : IntTy} (hty : f.ty = .int t) (hb : t ≠ .bool) (hu : t.unsigned = true)
    (s : Store) (hs : s.HasBacking B.backing) (n : Int) (h0 : 0 ≤ n) (h1 : n < 2 ^ t.bitSize) :
    ∃ s', setX m f s (.int n) = .ok s' ∧ s'.HasBacking B.backing ∧
      getX m f s' = .ok (.int (n % 2 ^ f.bits)) := by
  obtain ⟨g, rfl⟩ := Store.cases_ofBits hs
  have hv : HasType f.ty (.int n) := by
    rw [hty]; cases t <;> first | exact absurd rfl hb | exact absurd hu (by decide) | exact ⟨h0, h1⟩
  refine ⟨_, setX_noncustom m hB.backing (hB.field f hf) (hS.field f hf)
    (by rw [hty]; intro c h; cases h) hv g, Store.hasBacking_ofBits _ _, ?_⟩
  rw [getX_overwrite m hB.backing (hB.field f hf) (hS.field f hf)]
  unfold decode
  rw [hty]
  have e : (natOf f.bits (encode (.int t) (.int n)) : Int) = n % 2 ^ f.bits := natOf_intBit _ _
  cases t <;> first | exact absurd rfl hb | exact absurd hu (by decide) | (simp only [hu, if_true, e])

example (m : Mode) (s : Store) (hs : s.HasBacking (.int 16)) :
    ∃ s', setX m Ex.a s (.int 0xAB) = .ok s' ∧ s'.HasBacking (.int 16) ∧
      getX m Ex.a s' = .ok (.int 11) :=
  C06_unsigned_round_trip (B := Ex.I) m Ex.wfI Ex.supportedI (by simp [Ex.I]) rfl (by decide) rfl
    s hs 0xAB (by decide) (by decide)

example (m : Mode) (s : Store) (hs : s.HasBacking (.arr 3)) :
    ∃ s', setX m Ex.p s (.int 0x3FF) = .ok s' ∧ s'.HasBacking (.arr 3) ∧
      getX m Ex.p s' = .ok (.int 0x1FF) :=
  C06_unsigned_round_trip (B := Ex.A) m Ex.wfA Ex.supportedA (by simp [Ex.A]) rfl (by decide) rfl
    s hs 0x3FF (by decide) (by decide)

/-- **C07.** After `set_x(n)` on a signed field, `x()` returns the number in
`-2^(bits-1) .. 2^(bits-1)` that is congruent to `n` modulo `2^bits`; that number is
unique. -/
theorem C07_signed_round_trip (m : Mode) (hB : WF B) (hS : Supported B) (hf : f ∈ B.fields)
    {t : IntTy} (hty : f.ty = .int t) (hu : t.unsigned = false)
    (s : Store) (hs : s.HasBacking B.backing) (n : Int)
    (h0 : -(2 ^ (t.bitSize - 1) : Int) ≤ n) (h1 : n < 2 ^ (t.bitSize - 1)) :
    ∃ s' r, setX m f s (.int n) = .ok s' ∧ s'.HasBacking B.backing ∧
      getX m f s' = .ok (.int r) ∧
      (-(2 ^ (f.bits - 1) : Int) ≤ r ∧ r < 2 ^ (f.bits - 1)) ∧ (2 ^ f.bits : Int) ∣ (r - n) ∧
      ∀ r' : Int, (-(2 ^ (f.bits - 1) : Int) ≤ r' ∧ r' < 2 ^ (f.bits - 1)) →
        (2 ^ f.bits : Int) ∣ (r' - n) → r' = r := by
  obtain ⟨g, rfl⟩ := Store.cases_ofBits hs
  have hp := (hB.field f hf).pos
  have hv : HasType f.ty (.int n) := by
    rw [hty]; cases t <;> first | exact absurd hu (by decide) | exact ⟨h0, h1⟩
  refine ⟨_, intOf f.bits (intBit n), setX_noncustom m hB.backing (hB.field f hf) (hS.field f hf)
    (by rw [hty]; intro c h; cases h) hv g, Store.hasBacking_ofBits _ _, ?_, intOf_range hp _,
    two_pow_dvd_intOf_sub n, ?_⟩
  · rw [getX_overwrite m hB.backing (hB.field f hf) (hS.field f hf)]
    unfold decode
    rw [hty]
    cases t <;> first | exact absurd hu (by decide) | rfl
  · intro r' hr' hd
    apply unique_in_window hp hr' (intOf_range hp _)
    have := Int.dvd_sub hd (two_pow_dvd_intOf_sub (n := f.bits) n)
    have e : r' - n - (intOf f.bits (intBit n) - n) = r' - intOf f.bits (intBit n) := by omega
    rwa [e] at this

/-- **C07** (special case). A signed value that fits is read back unchanged. -/
theorem C07_signed_fits (m : Mode) (hB : WF B) (hS : Supported B) (hf : f ∈ B.fields)
    {t : IntTy} (hty : f.ty = .int t) (hu : t.unsigned = false)
    (s : Store) (hs : s.HasBacking B.backing) (n : Int)
    (h0 : -(2 ^ (f.bits - 1) : Int) ≤ n) (h1 : n < 2 ^ (f.bits - 1)) :
    ∃ s', setX m f s (.int n) = .ok s' ∧ getX m f s' = .ok (.int n) := by
  have hle := (hB.field f hf).int t hty
  have := pow_le_pow_int (a := f.bits - 1) (b := t.bitSize - 1) (by omega)
  obtain ⟨s', r, h2, _, h4, _, _, h7⟩ := C07_signed_round_trip m hB hS hf hty hu s hs n
    (by omega) (by omega)
  have e := h7 n ⟨h0, h1⟩ (by rw [Int.sub_self]; exact ⟨0, by simp⟩)
  subst e
  exact ⟨s', h2, h4⟩

example (m : Mode) (s : Store) (hs : s.HasBacking (.int 16)) :
    ∃ s', setX m Ex.b s (.int (-3)) = .ok s' ∧ getX m Ex.b s' = .ok (.int (-3)) :=
  C07_signed_fits (B := Ex.I) m Ex.wfI Ex.supportedI (by simp [Ex.I]) rfl rfl
    s hs (-3) (by decide) (by decide)

/-- **C08** (`bool`). After `set_x(b)` on a `bool` field, `x()` returns `b`. -/
theorem C08_bool_round_trip (m : Mode) (hB : WF B) (hS : Supported B) (hf : f ∈ B.fields)
    (hty : f.ty = .int .bool) (s : Store) (hs : s.HasBacking B.backing) (b : Bool) :
    ∃ s', setX m f s (.bool b) = .ok s' ∧ s'.HasBacking B.backing ∧
      getX m f s' = .ok (.bool b) := by
  obtain ⟨g, rfl⟩ := Store.cases_ofBits hs
  have hv : HasType f.ty (.bool b) := by rw [hty]; exact trivial
  refine ⟨_, setX_noncustom m hB.backing (hB.field f hf) (hS.field f hf)
    (by rw [hty]; intro c h; cases h) hv g, Store.hasBacking_ofBits _ _, ?_⟩
  rw [getX_overwrite m hB.backing (hB.field f hf) (hS.field f hf)]
  unfold decode
  rw [hty]
  simp [encode]

example (m : Mode) (s : Store) (hs : s.HasBacking (.arr 3)) :
    ∃ s', setX m Ex.t s (.bool true) = .ok s' ∧ s'.HasBacking (.arr 3) ∧
      getX m Ex.t s' = .ok (.bool true) :=
  C08_bool_round_trip (B := Ex.A) m Ex.wfA Ex.supportedA (by simp [Ex.A]) rfl s hs true

/-- **C08** (byte arrays). After `set_x(a)` on a `[u8; len]` field of `8 * len` bits, `x()`
returns `a`. -/
theorem C08_array_round_trip (m : Mode) (hB : WF B) (hS : Supported B) (hf : f ∈ B.fields)
    {len : Nat} (hty : f.ty = .array len) (hbits : f.bits = 8 * len)
    (s : Store) (hs : s.HasBacking B.backing) (a : List (BitVec 8)) (ha : a.length = len) :
    ∃ s', setX m f s (.arr a) = .ok s' ∧ s'.HasBacking B.backing ∧
      getX m f s' = .ok (.arr a) := by
  obtain ⟨g, rfl⟩ := Store.cases_ofBits hs
  have hv : HasType f.ty (.arr a) := by rw [hty]; exact ha
  refine ⟨_, setX_noncustom m hB.backing (hB.field f hf) (hS.field f hf)
    (by rw [hty]; intro c h; cases h) hv g, Store.hasBacking_ofBits _ _, ?_⟩
  rw [getX_overwrite m hB.backing (hB.field f hf) (hS.field f hf)]
  unfold decode
  rw [hty]
  simp only
  refine congrArg (fun k => Except.ok (Val.arr k)) ?_
  conv => rhs; rw [ofBits_encode_arr ha (.array len)]
  apply bytesOf_congr
  intro i hi
  rw [decide_eq_true (by omega), Bool.true_and]

example (m : Mode) (s : Store) (hs : s.HasBacking (.arr 3)) :
    ∃ s', setX m Ex.q s (.arr [0x5C#8]) = .ok s' ∧ s'.HasBacking (.arr 3) ∧
      getX m Ex.q s' = .ok (.arr [0x5C#8]) :=
  C08_array_round_trip (B := Ex.A) m Ex.wfA Ex.supportedA (by simp [Ex.A]) rfl rfl s hs _ rfl

/-- **C08** (byte arrays narrower than their type). The low `bits` bits of the array are
stored; `x()` returns them padded with zeros. -/
theorem C08_array_narrow (m : Mode) (hB : WF B) (hS : Supported B) (hf : f ∈ B.fields)
    {len : Nat} (hty : f.ty = .array len)
    (s : Store) (hs : s.HasBacking B.backing) (a : List (BitVec 8)) (ha : a.length = len) :
    ∃ s' a', setX m f s (.arr a) = .ok s' ∧ getX m f s' = .ok (.arr a') ∧ a'.length = len ∧
      ∀ i, (a'.getD (i / 8) 0#8).getLsbD (i % 8) =
        (decide (i < f.bits) && (a.getD (i / 8) 0#8).getLsbD (i % 8)) := by
  obtain ⟨g, rfl⟩ := Store.cases_ofBits hs
  have hv : HasType f.ty (.arr a) := by rw [hty]; exact ha
  have hw := ((hS.field f hf).array len hty).1
  refine ⟨_, bytesOf len fun i => decide (i < f.bits) && encode f.ty (.arr a) i,
    setX_noncustom m hB.backing (hB.field f hf) (hS.field f hf)
    (by rw [hty]; intro c h; cases h) hv g, ?_, length_bytesOf _ _, ?_⟩
  · rw [getX_overwrite m hB.backing (hB.field f hf) (hS.field f hf)]
    unfold decode
    rw [hty]
  · intro i
    rw [bytesOf_bit]
    by_cases hi : i < 8 * len
    · simp only [hi, decide_true, Bool.true_and]
      rfl
    · simp [hi, show ¬ i < f.bits by omega]

/-- **C09.** For a custom-typed field: if the user's conversions give `v` back from its bits
cut to the field's width, then `set_x(v)` stores `v.into_bits()` and `x()` returns `v`. -/
theorem C09_custom_round_trip (m : Mode) (hB : WF B) (hS : Supported B) (hf : f ∈ B.fields)
    {c : Codec} (hty : f.ty = .custom c) (s : Store) (hs : s.HasBacking B.backing) (v : Nat)
    (hv : c.fromBits (c.intoBits v % 2 ^ f.bits).toNat = .ok v) :
    ∃ s', setX m f s (.custom v) = .ok s' ∧ s'.HasBacking B.backing ∧
      (∀ i < f.bits, s'.bit (f.offset + i) = intBit (c.intoBits v) i) ∧
      getX m f s' = .ok (.custom v) := by
  obtain ⟨g, rfl⟩ := Store.cases_ofBits hs
  have htype : HasType f.ty (.custom v) := by rw [hty]; exact trivial
  have hn : natOf f.bits (intBit (c.intoBits v)) = (c.intoBits v % 2 ^ f.bits).toNat := by
    have := natOf_intBit f.bits (c.intoBits v)
    omega
  have hset : setX m f (Store.ofBits B.backing g) (.custom v) =
      .ok (Store.ofBits B.backing (overwrite f (intBit (c.intoBits v)) g)) := by
    rw [setX_bits m hB.backing (hB.field f hf) (hS.field f hf) htype]
    unfold roundTrip
    rw [hty]
    simp only [encode]
    rw [hn, hv]
    rfl
  refine ⟨_, hset, Store.hasBacking_ofBits _ _, ?_, ?_⟩
  · intro i hi
    have hfit := (hB.field f hf).fits
    rw [Store.bit_ofBits_lt (by omega), overwrite_covers (covers_iff.mpr ⟨by omega, by omega⟩)]
    congr 1
    omega
  · rw [getX_overwrite m hB.backing (hB.field f hf) (hS.field f hf)]
    unfold decode
    rw [hty]
    simp only
    rw [hn, hv]
    rfl

example (m : Mode) (s : Store) (hs : s.HasBacking (.int 16)) :
    ∃ s', setX m Ex.d s (.custom 2) = .ok s' ∧ s'.HasBacking (.int 16) ∧
      (∀ i < 2, s'.bit (8 + i) = intBit 2 i) ∧ getX m Ex.d s' = .ok (.custom 2) :=
  C09_custom_round_trip (B := Ex.I) (c := idCodec) m Ex.wfI Ex.supportedI (by simp [Ex.I]) rfl
    s hs 2 rfl

/-- **C09** (what happens in general). For any codec: `set_x(v)` stores
`from_bits(v.into_bits() mod 2^bits).into_bits()`, or panics if that `from_bits` does. -/
theorem C09_custom_general (m : Mode) (hB : WF B) (hS : Supported B) (hf : f ∈ B.fields)
    {c : Codec} (hty : f.ty = .custom c) (s : Store) (hs : s.HasBacking B.backing) (v : Nat) :
    setX m f s (.custom v) =
      (c.fromBits (c.intoBits v % 2 ^ f.bits).toNat).map fun v' =>
        Store.ofBits B.backing (overwrite f (intBit (c.intoBits v')) s.bit) := by
  have htype : HasType f.ty (.custom v) := by rw [hty]; exact trivial
  have hn : natOf f.bits (intBit (c.intoBits v)) = (c.intoBits v % 2 ^ f.bits).toNat := by
    have := natOf_intBit f.bits (c.intoBits v)
    omega
  conv => lhs; rw [← Store.ofBits_bit hs]
  rw [setX_bits m hB.backing (hB.field f hf) (hS.field f hf) htype]
  unfold roundTrip
  rw [hty]
  simp only [encode]
  rw [hn]
  cases c.fromBits (c.intoBits v % 2 ^ f.bits).toNat <;> rfl

/-- The field a field-level call is about. -/
def Call.target : Call → Option Field
  | .set f _ | .checkedSet f _ | .clearField f | .clearFieldToDefault f | .invertField f => some f
  | _ => none

/-- **C10.** `set_x`, `checked_set_x`, `clear_x`, `clear_x_to_default` and `invert_x` change no
bit outside the field, so every other field's getter returns what it returned before. -/
theorem C10_frame (m : Mode) (hB : WF B) (hS : Supported B) {c : Call} (hc : c.Valid B)
    (ht : c.target = some f) {s s' : Store} {o : Out} (hs : s.HasBacking B.backing)
    (h : call m B c s = .ok (o, s')) :
    s'.HasBacking B.backing ∧
    (∀ i, ¬ (f.offset ≤ i ∧ i < f.offset + f.bits) → s'.bit i = s.bit i) ∧
    ∀ f' ∈ B.fields, f' ≠ f → getX m f' s' = getX m f' s := by
  obtain ⟨g, rfl⟩ := Store.cases_ofBits hs
  rw [call_refines m hB hS c hc] at h
  obtain ⟨⟨o1, g1⟩, hsp, he⟩ := Rmap_ok h
  cases he
  have key : f ∈ B.fields ∧ ∃ y, g1 = overwrite f y g ∨ g1 = g := by
    cases c with
    | set f' v =>
      cases ht
      obtain ⟨y, _, he⟩ := Rmap_ok hsp
      cases he
      exact ⟨hc.1, y, .inl rfl⟩
    | checkedSet f' v =>
      cases ht
      simp only [specCall] at hsp
      split at hsp
      · obtain ⟨y, _, he⟩ := Rmap_ok hsp
        cases he
        exact ⟨hc.1, y, .inl rfl⟩
      · cases hsp
        exact ⟨hc.1, g, .inr rfl⟩
    | clearField f' =>
      cases ht
      obtain ⟨y, _, he⟩ := Rmap_ok hsp
      cases he
      exact ⟨hc.1, y, .inl rfl⟩
    | clearFieldToDefault f' =>
      cases ht
      obtain ⟨y, _, he⟩ := Rmap_ok hsp
      cases he
      exact ⟨hc.1, y, .inl rfl⟩
    | invertField f' =>
      cases ht
      obtain ⟨y, _, he⟩ := Rmap_ok hsp
      cases he
      exact ⟨hc.1, y, .inl rfl⟩
    | _ => cases ht
  obtain ⟨hf, y, hg⟩ := key
  refine ⟨Store.hasBacking_ofBits _ _, ?_, ?_⟩
  · intro i hi
    rw [Store.bit_ofBits, Store.bit_ofBits]
    rcases hg with rfl | rfl
    · simp only
      rw [overwrite_not_covers]
      cases hcv : f.covers i
      · rfl
      · exact absurd (covers_iff.mp hcv) hi
    · rfl
  · intro f' hf' hne
    rcases hg with rfl | rfl
    · exact getX_overwrite_ne m hB.backing (hB.field f' hf') (hS.field f' hf')
        (hB.disjoint_ne hf hf' (fun e => hne e.symm)) _ _
    · rfl

/-- **C10** (builder). `with_x` and `checked_with_x` change no bit outside the field, for every
non-reserved field (also read-only and no-access ones). -/
theorem C10_frame_builder (m : Mode) (hB : WF B) (hS : Supported B) (hf : f ∈ B.fields)
    (check : Bool) {v : Val} (hv : HasType f.ty v) {s s' : Store} {r : Except String Unit}
    (hs : s.HasBacking B.backing) (h : builderWith m check f s v = .ok (r, s')) :
    s'.HasBacking B.backing ∧
    (∀ i, ¬ (f.offset ≤ i ∧ i < f.offset + f.bits) → s'.bit i = s.bit i) ∧
    ∀ f' ∈ B.fields, f' ≠ f → getX m f' s' = getX m f' s := by
  obtain ⟨g, rfl⟩ := Store.cases_ofBits hs
  have hfok := hB.field f hf
  have hfs := hS.field f hf
  have himpl : ∀ v, HasType f.ty v → ∀ {r s'}, setImpl m check f (Store.ofBits B.backing g) v = .ok (r, s') →
      ∃ g1 y, s' = Store.ofBits B.backing g1 ∧ (g1 = overwrite f y g ∨ g1 = g) := by
    intro v hv r s' h
    cases check with
    | true =>
      rw [checkedSet_bits m hB.backing hfok hfs hv] at h
      split at h
      · cases h; exact ⟨g, g, rfl, .inr rfl⟩
      · obtain ⟨y, _, he⟩ := Rmap_ok h
        cases he; exact ⟨_, y, rfl, .inl rfl⟩
    | false =>
      have hx := setX_bits m hB.backing hfok hfs hv g
      unfold setX at hx
      rw [h] at hx
      simp only [R_bind_ok, R_pure] at hx
      obtain ⟨y, _, he⟩ := Rmap_ok hx.symm
      exact ⟨_, y, he.symm, .inl rfl⟩
  have key : ∃ g1 y, s' = Store.ofBits B.backing g1 ∧ (g1 = overwrite f y g ∨ g1 = g) := by
    unfold builderWith at h
    split at h
    · split at h
      · exact himpl _ hv h
      · rename_i t n hne hty
        refine himpl _ ?_ h
        rw [hty]
        exact IntTy.cast_range t (fun e => by subst e; exact hne rfl) n
      · exact himpl _ hv h
    · exact himpl _ hv h
  obtain ⟨g1, y, rfl, hg⟩ := key
  refine ⟨Store.hasBacking_ofBits _ _, ?_, ?_⟩
  · intro i hi
    rw [Store.bit_ofBits, Store.bit_ofBits]
    rcases hg with rfl | rfl
    · rw [overwrite_not_covers]
      cases hcv : f.covers i
      · rfl
      · exact absurd (covers_iff.mp hcv) hi
    · rfl
  · intro f' hf' hne
    rcases hg with rfl | rfl
    · exact getX_overwrite_ne m hB.backing (hB.field f' hf') (hS.field f' hf')
        (hB.disjoint_ne hf hf' (fun e => hne e.symm)) _ _
    · rfl

example (m : Mode) (s s' : Store) (o : Out) (hs : s.HasBacking (.int 16))
    (h : call m Ex.I (.invertField Ex.b) s = .ok (o, s')) : getX m Ex.a s' = getX m Ex.a s :=
  (C10_frame (B := Ex.I) m Ex.wfI Ex.supportedI (c := .invertField Ex.b)
    ⟨by simp [Ex.I], rfl⟩ rfl hs h).2.2 Ex.a (by simp [Ex.I]) (fun h => absurd (congrArg Field.name h) (by decide))

/-- **C11** (last write wins). If `set_x(v)` succeeds, `set_x(v); set_x(w)` is `set_x(w)`. -/
theorem C11_last_write_wins (m : Mode) (hB : WF B) (hS : Supported B) (hf : f ∈ B.fields)
    {v w : Val} (hv : HasType f.ty v) (hw : HasType f.ty w) {s s₁ : Store}
    (hs : s.HasBacking B.backing) (h : setX m f s v = .ok s₁) :
    setX m f s₁ w = setX m f s w := by
  obtain ⟨g, rfl⟩ := Store.cases_ofBits hs
  have hfok := hB.field f hf
  have hfs := hS.field f hf
  rw [setX_bits m hB.backing hfok hfs hv] at h
  obtain ⟨y, _, rfl⟩ := Rmap_ok h
  rw [setX_bits m hB.backing hfok hfs hw, setX_bits m hB.backing hfok hfs hw]
  refine congrArg (fun k => (roundTrip f (encode f.ty w)).map k) (funext fun z => ?_)
  refine congrArg (Store.ofBits B.backing) (funext fun i => ?_)
  cases hc : f.covers i
  · rw [overwrite_not_covers hc, overwrite_not_covers hc, overwrite_not_covers hc]
  · rw [overwrite_covers hc, overwrite_covers hc]

/-- **C11** (different fields commute). -/
theorem C11_commute (m : Mode) (hB : WF B) (hS : Supported B) {f₁ f₂ : Field}
    (hf₁ : f₁ ∈ B.fields) (hf₂ : f₂ ∈ B.fields) (hne : f₁ ≠ f₂) {v₁ v₂ : Val}
    (hv₁ : HasType f₁.ty v₁) (hv₂ : HasType f₂.ty v₂) {s s₁ s₂ : Store}
    (hs : s.HasBacking B.backing) (h₁ : setX m f₁ s v₁ = .ok s₁) (h₂ : setX m f₂ s v₂ = .ok s₂) :
    ∃ s₃, setX m f₂ s₁ v₂ = .ok s₃ ∧ setX m f₁ s₂ v₁ = .ok s₃ := by
  obtain ⟨g, rfl⟩ := Store.cases_ofBits hs
  rw [setX_bits m hB.backing (hB.field _ hf₁) (hS.field _ hf₁) hv₁] at h₁
  rw [setX_bits m hB.backing (hB.field _ hf₂) (hS.field _ hf₂) hv₂] at h₂
  obtain ⟨y₁, e₁, rfl⟩ := Rmap_ok h₁
  obtain ⟨y₂, e₂, rfl⟩ := Rmap_ok h₂
  refine ⟨Store.ofBits B.backing (overwrite f₂ y₂ (overwrite f₁ y₁ g)), ?_, ?_⟩
  · rw [setX_bits m hB.backing (hB.field _ hf₂) (hS.field _ hf₂) hv₂, e₂]; rfl
  · rw [setX_bits m hB.backing (hB.field _ hf₁) (hS.field _ hf₁) hv₁, e₁]
    refine congrArg (fun k => Except.ok (Store.ofBits B.backing k)) (funext fun i => ?_)
    have hd := hB.disjoint_ne hf₁ hf₂ hne i
    cases hc1 : f₁.covers i
    · rw [overwrite_not_covers hc1]
      cases hc2 : f₂.covers i
      · rw [overwrite_not_covers hc2, overwrite_not_covers hc2, overwrite_not_covers hc1]
      · rw [overwrite_covers hc2, overwrite_covers hc2]
    · have hc2 : f₂.covers i = false := by
        cases hc2 : f₂.covers i
        · rfl
        · exact absurd ⟨hc1, hc2⟩ hd
      rw [overwrite_covers hc1, overwrite_not_covers hc2, overwrite_covers hc1]

/-- What a getter of a non-custom field returns is a value of its type with the field's
bits. -/
theorem decode_encode {b : Backing} (hf : FieldOK b f) (hs : FieldSupported b f)
    (hc : ∀ c, f.ty ≠ .custom c) {x : Bits} {v : Val} (h : decode f x = .ok v) :
    HasType f.ty v ∧ ∀ i < f.bits, encode f.ty v i = x i := by
  have hp := hf.pos
  unfold decode at h
  cases hty : f.ty with
  | custom c => exact absurd hty (hc c)
  | array len =>
    rw [hty] at h
    cases h
    refine ⟨length_bytesOf _ _, fun i hi => ?_⟩
    have hle := (hs.array len hty).1
    show ((bytesOf len _).getD (i / 8) 0#8).getLsbD (i % 8) = x i
    rw [bytesOf_bit]
    simp [hi, show i < 8 * len by omega]
  | int t =>
    have hle := hf.int t hty
    rw [hty] at h
    by_cases hb : t = .bool
    · subst hb
      cases h
      refine ⟨trivial, fun i hi => ?_⟩
      have : f.bits ≤ 1 := hle
      have : i = 0 := by omega
      subst this
      simp [encode]
    · by_cases hu : t.unsigned = true
      · have hv : v = .int (natOf f.bits x : Int) := by
          cases t <;> first | exact absurd rfl hb | exact absurd hu (by decide) | (cases h; rfl)
        subst hv
        have hlt := natOf_lt_int f.bits x
        have hpow := pow_le_pow_int hle
        refine ⟨?_, fun i hi => ?_⟩
        · have : 0 ≤ (natOf f.bits x : Int) ∧ (natOf f.bits x : Int) < 2 ^ t.bitSize :=
            ⟨by omega, by omega⟩
          cases t <;> first | exact absurd rfl hb | exact absurd hu (by decide) | exact this
        · show intBit (natOf f.bits x : Int) i = x i
          rw [intBit_natOf]; simp [hi]
      · have hv : v = .int (intOf f.bits x) := by
          cases t <;> first | exact absurd rfl hu | (cases h; rfl)
        subst hv
        have hr := intOf_range hp x
        have hpow := pow_le_pow_int (a := f.bits - 1) (b := t.bitSize - 1) (by omega)
        refine ⟨?_, fun i hi => ?_⟩
        · have : -(2 ^ (t.bitSize - 1) : Int) ≤ intOf f.bits x ∧
              intOf f.bits x < 2 ^ (t.bitSize - 1) := ⟨by omega, by omega⟩
          cases t <;> first | exact absurd rfl hu | exact this
        · show intBit (intOf f.bits x) i = x i
          rw [intOf_eq_toInt hp, intBit_toInt _ hi, getLsbD_ofBits]
          simp [hi]

/-- **C11** (write-back). For integer, `bool` and array fields `set_x(x())` changes nothing. -/
theorem C11_write_back (m : Mode) (hB : WF B) (hS : Supported B) (hf : f ∈ B.fields)
    (hc : ∀ c, f.ty ≠ .custom c) (s : Store) (hs : s.HasBacking B.backing) :
    ∃ v, getX m f s = .ok v ∧ setX m f s v = .ok s := by
  obtain ⟨g, rfl⟩ := Store.cases_ofBits hs
  have hfok := hB.field f hf
  have hfs := hS.field f hf
  rw [getX_eq m hB.backing hfok hfs]
  have hex : ∃ v, decode f (fun i => g (f.offset + i)) = .ok v := by
    unfold decode
    cases hty : f.ty with
    | custom c => exact absurd hty (hc c)
    | array len => exact ⟨_, rfl⟩
    | int t => cases t <;> exact ⟨_, rfl⟩
  obtain ⟨v, hv⟩ := hex
  obtain ⟨ht, he⟩ := decode_encode hfok hfs hc hv
  refine ⟨v, hv, ?_⟩
  rw [setX_noncustom m hB.backing hfok hfs hc ht]
  refine congrArg (fun k => Except.ok (Store.ofBits B.backing k)) (funext fun i => ?_)
  cases hcv : f.covers i
  · rw [overwrite_not_covers hcv]
  · rw [overwrite_covers hcv, he _ (covers_sub_lt hcv)]
    have := covers_iff.mp hcv
    congr 1
    omega

example (m : Mode) (s : Store) (hs : s.HasBacking (.int 16)) :
    ∃ v, getX m Ex.b s = .ok v ∧ setX m Ex.b s v = .ok s :=
  C11_write_back (B := Ex.I) m Ex.wfI Ex.supportedI (by simp [Ex.I]) (fun c h => by cases h) s hs

example (m : Mode) (s s₁ s₂ : Store) (hs : s.HasBacking (.int 16))
    (h₁ : setX m Ex.a s (.int 3) = .ok s₁) (h₂ : setX m Ex.b s (.int (-1)) = .ok s₂) :
    ∃ s₃, setX m Ex.b s₁ (.int (-1)) = .ok s₃ ∧ setX m Ex.a s₂ (.int 3) = .ok s₃ :=
  C11_commute (B := Ex.I) m Ex.wfI Ex.supportedI (by simp [Ex.I]) (by simp [Ex.I])
    (fun h => absurd (congrArg Field.name h) (by decide)) (by simp [HasType, Ex.a, IntTy.unsigned, IntTy.bitSize])
    (by simp [HasType, Ex.b, IntTy.unsigned, IntTy.bitSize]) hs h₁ h₂

/-- **C12** (part). `checked_set_x(v)` on arguments where the generated comparison is exact
(`CheckExact`): it fails exactly when `v` does not fit, then nothing changes; otherwise it is
`set_x(v)`. The full property drops `hx`; it is false then, see `Props/Findings.lean`
(`finding_checked_set_wide_type`, `finding_checked_set_array`). -/
theorem C12_checked_set_partial (m : Mode) (hB : WF B) (hS : Supported B) (hf : f ∈ B.fields)
    {v : Val} (hv : HasType f.ty v) (hx : CheckExact B.backing f v) (s : Store)
    (hs : s.HasBacking B.backing) :
    (Fits f v → setImpl m true f s v = (setX m f s v).map fun s' => (.ok (), s')) ∧
    (¬ Fits f v → setImpl m true f s v =
      .ok (.error "Value is too big to fit within the field bits.", s)) := by
  obtain ⟨g, rfl⟩ := Store.cases_ofBits hs
  have hfok := hB.field f hf
  have hfs := hS.field f hf
  rw [checkedSet_bits m hB.backing hfok hfs hv, codeTooBig_eq hv hx,
    setX_bits m hB.backing hfok hfs hv]
  constructor
  · intro hfit
    simp only [hfit, decide_true, Bool.not_true, Bool.false_eq_true, if_false]
    cases roundTrip f (encode f.ty v) <;> rfl
  · intro hfit
    simp only [hfit, decide_false, Bool.not_false, if_true]
    rfl

/-- **C12** for the common cases, without `CheckExact`: `bool` and signed fields on any
bitfield, unsigned fields on array-backed bitfields, and unsigned fields whose type is not
wider than the backing integer. -/
theorem C12_checked_set_integer_partial (m : Mode) (hB : WF B) (hS : Supported B)
    (hf : f ∈ B.fields) {t : IntTy} (hty : f.ty = .int t)
    (hw : t.unsigned = false ∨ (∃ n, B.backing = .arr n) ∨ t.bitSize ≤ B.backing.size)
    {v : Val} (hv : HasType f.ty v) (s : Store) (hs : s.HasBacking B.backing) :
    (Fits f v → setImpl m true f s v = (setX m f s v).map fun s' => (.ok (), s')) ∧
    (¬ Fits f v → setImpl m true f s v =
      .ok (.error "Value is too big to fit within the field bits.", s)) := by
  apply C12_checked_set_partial m hB hS hf hv _ s hs
  unfold CheckExact
  rw [hty]
  simp only
  intro hu w hb
  rcases hw with h | ⟨n, h⟩ | h
  · rw [h] at hu; cases hu
  · rw [h] at hb; cases hb
  · rw [hb] at h; exact h

example (m : Mode) (s : Store) (hs : s.HasBacking (.int 16)) :
    setImpl m true Ex.a s (.int 16) =
      .ok (.error "Value is too big to fit within the field bits.", s) :=
  (C12_checked_set_integer_partial (B := Ex.I) m Ex.wfI Ex.supportedI (by simp [Ex.I]) rfl
    (.inr (.inr (by decide))) (v := .int 16) (by simp [HasType, Ex.a, IntTy.unsigned, IntTy.bitSize])
    s hs).2 (by decide)

example (m : Mode) (s : Store) (hs : s.HasBacking (.int 16)) :
    setImpl m true Ex.b s (.int (-4)) = (setX m Ex.b s (.int (-4))).map fun s' => (.ok (), s') :=
  (C12_checked_set_integer_partial (B := Ex.I) m Ex.wfI Ex.supportedI (by simp [Ex.I]) rfl
    (.inl rfl) (v := .int (-4)) (by simp [HasType, Ex.b, IntTy.unsigned, IntTy.bitSize])
    s hs).1 (by decide)

/-- **C12** (any field type, any argument): an `Err` never changes the bitfield. -/
theorem C12_err_changes_nothing (m : Mode) (hB : WF B) (hS : Supported B) (hf : f ∈ B.fields)
    {v : Val} (hv : HasType f.ty v) {s s' : Store} (hs : s.HasBacking B.backing) {msg : String}
    (h : setImpl m true f s v = .ok (.error msg, s')) : s' = s := by
  obtain ⟨g, rfl⟩ := Store.cases_ofBits hs
  rw [checkedSet_bits m hB.backing (hB.field f hf) (hS.field f hf) hv] at h
  split at h
  · cases h; rfl
  · obtain ⟨y, _, he⟩ := Rmap_ok h
    cases he

/-- **C45** (locality). `x()` depends only on the field's own bits. -/
theorem C45_local (m : Mode) (hB : WF B) (hS : Supported B) (hf : f ∈ B.fields)
    {s s' : Store} (hs : s.HasBacking B.backing) (hs' : s'.HasBacking B.backing)
    (h : ∀ i, f.offset ≤ i → i < f.offset + f.bits → s.bit i = s'.bit i) :
    getX m f s = getX m f s' := by
  conv => lhs; rw [← Store.ofBits_bit hs]
  conv => rhs; rw [← Store.ofBits_bit hs']
  rw [getX_eq m hB.backing (hB.field f hf) (hS.field f hf),
    getX_eq m hB.backing (hB.field f hf) (hS.field f hf)]
  exact decode_congr (hB.field f hf) fun i hi => h _ (by omega) (by omega)

/-- **C45** (range). For integer, `bool` and array fields `x()` returns a value of the field's
type that fits in the field's width. -/
theorem C45_range (m : Mode) (hB : WF B) (hS : Supported B) (hf : f ∈ B.fields)
    (hc : ∀ c, f.ty ≠ .custom c) (s : Store) (hs : s.HasBacking B.backing) :
    ∃ v, getX m f s = .ok v ∧ HasType f.ty v ∧ Fits f v := by
  have hfok := hB.field f hf
  have hfs := hS.field f hf
  have hp := hfok.pos
  obtain ⟨g, rfl⟩ := Store.cases_ofBits hs
  obtain ⟨v, hv, _⟩ := C11_write_back m hB hS hf hc _ hs
  refine ⟨v, hv, ?_⟩
  rw [getX_eq m hB.backing hfok hfs] at hv
  refine ⟨(decode_encode hfok hfs hc hv).1, ?_⟩
  unfold decode at hv
  unfold Fits
  cases hty : f.ty with
  | custom c => exact absurd hty (hc c)
  | array len =>
    rw [hty] at hv
    cases hv
    simp only
    intro i hi hb
    rw [bytesOf_bit]
    simp [show ¬ i < f.bits by omega]
  | int t =>
    rw [hty] at hv
    have h1 := intOf_range hp (fun i => g (f.offset + i))
    have h2 := natOf_lt_int f.bits (fun i => g (f.offset + i))
    have h3 : 0 ≤ (natOf f.bits (fun i => g (f.offset + i)) : Int) := by omega
    cases t <;> cases hv <;> first | exact trivial | exact ⟨h3, h2⟩ | exact h1

/-- **C45** (injectivity). Two states giving the same `x()` for an integer, `bool` or array field
have the same bits there. -/
theorem C45_injective (m : Mode) (hB : WF B) (hS : Supported B) (hf : f ∈ B.fields)
    (hc : ∀ c, f.ty ≠ .custom c) {s s' : Store} (hs : s.HasBacking B.backing)
    (hs' : s'.HasBacking B.backing) (h : getX m f s = getX m f s') :
    ∀ i, f.offset ≤ i → i < f.offset + f.bits → s.bit i = s'.bit i := by
  have hfok := hB.field f hf
  have hfs := hS.field f hf
  obtain ⟨v, hv, _⟩ := C11_write_back m hB hS hf hc _ hs
  have hv' := hv
  rw [h] at hv'
  rw [← Store.ofBits_bit hs, getX_eq m hB.backing hfok hfs] at hv
  rw [← Store.ofBits_bit hs', getX_eq m hB.backing hfok hfs] at hv'
  have e1 := (decode_encode hfok hfs hc hv).2
  have e2 := (decode_encode hfok hfs hc hv').2
  intro i h1 h2
  have a1 := e1 (i - f.offset) (by omega)
  have a2 := e2 (i - f.offset) (by omega)
  rw [a1] at a2
  have e : f.offset + (i - f.offset) = i := by omega
  rw [e] at a2
  exact a2

example (m : Mode) (s : Store) (hs : s.HasBacking (.arr 3)) :
    ∃ v, getX m Ex.s s = .ok v ∧ HasType (.int .i8) v ∧ Fits Ex.s v :=
  C45_range (B := Ex.A) m Ex.wfA Ex.supportedA (by simp [Ex.A]) (fun c h => by cases h) s hs

end Bf
