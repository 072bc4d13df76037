import Verif.Lemmas.Effect
import Verif.Props.Example

/-!
# Construction (C13 - C16)

`apiNew m B` is `new()`, and so on; `s.bit (f.offset + i)` is bit `i` of field `f`.
-/

namespace Bf

variable {B : Bitfield} {f : Field}

/-- **C13.** `new()` succeeds; every field with a default holds it (whatever its access), every
other field is zero. -/
theorem C13_new (m : Mode) (hB : WF B) (hS : Supported B) (hD : DefaultsPreserved B)
    (hZ : ZeroPreserved B) :
    ∃ s, apiNew m B = .ok s ∧ s.HasBacking B.backing ∧
      ∀ f ∈ B.fields, ∀ i < f.bits, s.bit (f.offset + i) =
        match f.default with
        | some v => encode f.ty v i
        | none => false := by
  refine ⟨_, ?_, Store.hasBacking_ofBits B.backing fun i => (B.defaultBit i).getD false, ?_⟩
  · unfold apiNew
    rw [initStore_eq]
    exact newBody_true m hB hS hD hZ _
  · intro f hf i hi
    rw [Store.bit_ofBits_lt (hB.add_lt hf hi), hB.defaultBit_eq hf (covers_add hi),
      Nat.add_sub_cancel_left]
    cases f.default <;> rfl

/-- **C13** (through a getter). After `new()` the getter of an unsigned field whose default is
a value in range returns that default; without a default it returns 0. -/
theorem C13_new_getter (m : Mode) (hB : WF B) (hS : Supported B) (hD : DefaultsPreserved B)
    (hZ : ZeroPreserved B) (hf : f ∈ B.fields) {t : IntTy} (hty : f.ty = .int t) (hb : t ≠ .bool)
    (hu : t.unsigned = true) :
    ∃ s, apiNew m B = .ok s ∧
      (∀ n : Int, f.default = some (.int n) → 0 ≤ n → n < 2 ^ f.bits → getX m f s = .ok (.int n)) ∧
      (f.default = none → getX m f s = .ok (.int 0)) := by
  obtain ⟨s, h1, h2, h3⟩ := C13_new m hB hS hD hZ
  have hfok := hB.field f hf
  refine ⟨s, h1, ?_, ?_⟩
  · intro n hd h0 hn
    rw [← Store.ofBits_bit h2, getX_eq m hB.backing hfok (hS.field f hf),
      decode_congr hfok (y := intBit n) (fun i hi => by rw [h3 f hf i hi, hd]; rfl)]
    unfold decode
    rw [hty]
    have e := natOf_intBit f.bits n
    rw [Int.emod_eq_of_lt h0 hn] at e
    cases t <;> first | exact absurd rfl hb | exact absurd hu (by decide) | (simp only [hu, if_true, e])
  · intro hd
    rw [← Store.ofBits_bit h2, getX_eq m hB.backing hfok (hS.field f hf),
      decode_congr hfok (y := fun _ => false) (fun i hi => by rw [h3 f hf i hi, hd])]
    unfold decode
    rw [hty]
    have e : (natOf f.bits (fun _ => false) : Int) = 0 := by rw [natOf_zero]; rfl
    cases t <;> first | exact absurd rfl hb | exact absurd hu (by decide) | (simp only [hu, if_true, e])

example (m : Mode) : ∃ s, apiNew m Ex.I = .ok s ∧ s.HasBacking (.int 16) ∧
    ∀ f ∈ Ex.I.fields, ∀ i < f.bits, s.bit (f.offset + i) =
      match f.default with
      | some v => encode f.ty v i
      | none => false :=
  C13_new m Ex.wfI Ex.supportedI Ex.lawfulI.defaults Ex.lawfulI.zero

example (m : Mode) : ∃ s, apiNew m Ex.A = .ok s ∧ s.HasBacking (.arr 3) ∧
    ∀ f ∈ Ex.A.fields, ∀ i < f.bits, s.bit (f.offset + i) =
      match f.default with
      | some v => encode f.ty v i
      | none => false :=
  C13_new m Ex.wfA Ex.supportedA Ex.lawfulA.defaults Ex.lawfulA.zero

/-- **C14.** `new_without_defaults()` succeeds; reserved fields with a default hold it, every
other field is zero. (`hZ` is automatic except for custom types.) -/
theorem C14_new_without_defaults (m : Mode) (hB : WF B) (hS : Supported B)
    (hD : DefaultsPreserved B) (hZ : ∀ f ∈ B.fields, Preserves f fun _ => false) :
    ∃ s, apiNewWithoutDefaults m B = .ok s ∧ s.HasBacking B.backing ∧
      ∀ f ∈ B.fields, ∀ i < f.bits, s.bit (f.offset + i) =
        match f.reserved, f.default with
        | true, some v => encode f.ty v i
        | _, _ => false := by
  refine ⟨_, ?_, Store.hasBacking_ofBits B.backing fun i => (B.reservedDefaultBit i).getD false, ?_⟩
  · unfold apiNewWithoutDefaults
    rw [initStore_eq]
    exact newBody_false m hB hS hD hZ _
  · intro f hf i hi
    rw [Store.bit_ofBits_lt (hB.add_lt hf hi), hB.reservedDefaultBit_eq hf (covers_add hi),
      Nat.add_sub_cancel_left]
    cases f.default <;> cases f.reserved <;> rfl

example (m : Mode) : ∃ s, apiNewWithoutDefaults m Ex.I = .ok s ∧ s.HasBacking (.int 16) ∧
    ∀ f ∈ Ex.I.fields, ∀ i < f.bits, s.bit (f.offset + i) =
      match f.reserved, f.default with
      | true, some v => encode f.ty v i
      | _, _ => false :=
  C14_new_without_defaults m Ex.wfI Ex.supportedI Ex.lawfulI.defaults
    fun _ hf => Ex.lawfulI.preserves hf _

/-- **C15** (part). `Default::default()` equals `new()` when `new` is generated, for every codec;
and also when it is not, if `from_bits(0).into_bits()` is 0 for custom fields without default.
The full property drops `hZ`; then it is false, see `finding_default_not_new` in
`Props/Findings.lean`. -/
theorem C15_default_eq_new_partial (m : Mode) (hB : WF B) (hS : Supported B) (genNew : Bool)
    (h : genNew = false → DefaultsPreserved B ∧ ZeroPreserved B) :
    apiDefault m B genNew = apiNew m B := by
  cases genNew with
  | true => rfl
  | false =>
    obtain ⟨hD, hZ⟩ := h rfl
    unfold apiDefault apiNew
    rw [initStore_eq]
    simp only [Bool.false_eq_true, if_false]
    rw [newBody_true m hB hS hD hZ, setDefaults_ok m hB hS hD]

/-- **C15** (bitfields without custom-typed fields): no hypothesis about user code is left. -/
theorem C15_default_eq_new_noncustom (m : Mode) (hB : WF B) (hS : Supported B) (genNew : Bool)
    (hc : ∀ f ∈ B.fields, ∀ c, f.ty ≠ .custom c) : apiDefault m B genNew = apiNew m B :=
  C15_default_eq_new_partial m hB hS genNew fun _ =>
    ⟨fun f hf _ _ => preserves_of_noncustom (hc f hf) _,
     fun f hf _ => preserves_of_noncustom (hc f hf) _⟩

example (m : Mode) : apiDefault m Ex.I false = apiNew m Ex.I :=
  C15_default_eq_new_partial m Ex.wfI Ex.supportedI false
    fun _ => ⟨Ex.lawfulI.defaults, Ex.lawfulI.zero⟩

/-! ## Builder -/

theorem IntTy.cast_of_hasType {t : IntTy} (ht : t ≠ .bool) {n : Int} (h : HasType (.int t) (.int n)) :
    t.cast n = n := by
  cases hu : t.unsigned with
  | true =>
    have hr : 0 ≤ n ∧ n < 2 ^ t.bitSize := by
      cases t <;> first | exact absurd rfl ht | exact absurd hu (by decide) | exact h
    obtain ⟨k, rfl⟩ := Int.eq_ofNat_of_zero_le hr.1
    apply IntTy.cast_nat t hu
    have e : ((2 ^ t.bitSize : Nat) : Int) = 2 ^ t.bitSize := by push_cast; rfl
    have := hr.2
    rw [← e] at this
    exact_mod_cast this
  | false =>
    have hr : -(2 ^ (t.bitSize - 1) : Int) ≤ n ∧ n < 2 ^ (t.bitSize - 1) := by
      cases t <;> first | exact absurd hu (by decide) | exact h
    have hp := t.bitSize_pos
    have h2 : -(2 ^ (t.bitSize - 1) : Int) ≤ t.cast n ∧ t.cast n < 2 ^ (t.bitSize - 1) := by
      have := IntTy.cast_range t ht n
      cases t <;> first | exact absurd hu (by decide) | exact this
    apply unique_in_window hp h2 hr
    unfold IntTy.cast
    rw [hu]
    simp only [Bool.false_eq_true, if_false]
    rw [← intOf_intBit hp]
    exact two_pow_dvd_intOf_sub n

/-- **C16** (one call). `with_x(v)`/`checked_with_x(v)` on a builder holding `s` has exactly the
result and effect of `set_x(v)`/`checked_set_x(v)` on a bitfield holding `s` - for every
field, also those that have no public setter. In particular `checked_with_x` fails exactly when
`checked_set_x` does. -/
theorem C16_with (m : Mode) (check : Bool) (f : Field) {v : Val} (hv : HasType f.ty v) (s : Store) :
    builderWith m check f s v = setImpl m check f s v := by
  unfold builderWith
  split
  · split
    · rfl
    · rename_i t n hne hty
      rw [hty] at hv
      rw [IntTy.cast_of_hasType (fun e => by subst e; exact hne rfl) hv]
    · rfl
  · rfl

/-- **C16** (start). A builder starts from `new()` or `new_without_defaults()`, whether or not
those functions are generated on the bitfield. -/
theorem C16_start (m : Mode) (B : Bitfield) (genNew : Bool) :
    builderNew m B genNew true = apiNew m B ∧
    builderNew m B genNew false = apiNewWithoutDefaults m B := by
  cases genNew <;> exact ⟨rfl, rfl⟩

/-- **C16** (whole chains). On a builder holding `s`, a chain of `with_x(v)` calls followed by
`build()` gives the bits of `s` with the fields overwritten in order. -/
theorem C16_builder_fold (m : Mode) (hB : WF B) (hS : Supported B) (cs : List BuilderCall)
    (hc : ∀ c ∈ cs, c.check = false ∧ c.f ∈ B.fields ∧ HasType c.f.ty c.v ∧
      Preserves c.f (encode c.f.ty c.v)) (s : Store) (hs : s.HasBacking B.backing) :
    builderRun m cs s = .ok (.ok (Store.ofBits B.backing
      (cs.foldl (fun g c => overwrite c.f (encode c.f.ty c.v) g) s.bit))) := by
  obtain ⟨g, rfl⟩ := Store.cases_ofBits hs
  have h0 : Store.ofBits B.backing (cs.foldl (fun g c => overwrite c.f (encode c.f.ty c.v) g)
      (Store.ofBits B.backing g).bit) =
      Store.ofBits B.backing (cs.foldl (fun g c => overwrite c.f (encode c.f.ty c.v) g) g) := by
    apply Store.ofBits_congr
    have : ∀ (cs : List BuilderCall) (g g' : Bits), (∀ i < B.backing.size, g i = g' i) →
        ∀ i < B.backing.size, cs.foldl (fun g c => overwrite c.f (encode c.f.ty c.v) g) g i =
          cs.foldl (fun g c => overwrite c.f (encode c.f.ty c.v) g) g' i := by
      intro cs
      induction cs with
      | nil => intro g g' h; exact h
      | cons a cs ih =>
        intro g g' h
        apply ih
        intro i hi
        simp only [overwrite]
        rw [h i hi]
    exact this cs _ _ fun i hi => Store.bit_ofBits_lt hi
  rw [h0]
  clear h0 hs
  induction cs generalizing g with
  | nil => rfl
  | cons c cs ih =>
    obtain ⟨h1, h2, h3, h4⟩ := hc c (by simp)
    have hset : setImpl m false c.f (Store.ofBits B.backing g) c.v =
        .ok (.ok (), Store.ofBits B.backing (overwrite c.f (encode c.f.ty c.v) g)) := by
      have hx := setX_bits m hB.backing (hB.field _ h2) (hS.field _ h2) h3 g
      obtain ⟨y, hy, he⟩ := roundTrip_ok h4
      rw [hy] at hx
      unfold setX at hx
      cases hr : setImpl m false c.f (Store.ofBits B.backing g) c.v with
      | error p => rw [hr] at hx; cases hx
      | ok q =>
        obtain ⟨r, s'⟩ := q
        rw [hr] at hx
        have e : s' = Store.ofBits B.backing (overwrite c.f y g) := by cases hx; rfl
        rw [e, overwrite_congr he]
        cases r with
        | ok u => rfl
        | error msg =>
          unfold setImpl at hr
          simp only [Bool.false_and, Bool.false_eq_true, if_false] at hr
          obtain ⟨p1, _, hr⟩ := Rbind_ok hr
          obtain ⟨p2, _, hr⟩ := Rbind_ok hr
          obtain ⟨p3, _, hr⟩ := Rbind_ok hr
          cases hr
    unfold builderRun
    rw [h1, C16_with m false c.f h3, hset]
    simp only [R_bind_ok, List.foldl_cons]
    exact ih (fun c hc' => hc c (by simp [hc'])) _

/-- **C16** (what ends up in each field). With the chain of the previous theorem: a field no
call mentions keeps the bits it had, and a field holds the value of the last call that
mentions it. -/
theorem C16_builder_fields (m : Mode) (hB : WF B) (hS : Supported B) (cs : List BuilderCall)
    (hc : ∀ c ∈ cs, c.check = false ∧ c.f ∈ B.fields ∧ HasType c.f.ty c.v ∧
      Preserves c.f (encode c.f.ty c.v)) (s : Store) (hs : s.HasBacking B.backing) :
    ∃ s', builderRun m cs s = .ok (.ok s') ∧ s'.HasBacking B.backing ∧
      (∀ f ∈ B.fields, (∀ c ∈ cs, c.f ≠ f) → ∀ i < f.bits,
        s'.bit (f.offset + i) = s.bit (f.offset + i)) ∧
      (∀ pre c post, cs = pre ++ c :: post → (∀ c' ∈ post, c'.f ≠ c.f) → ∀ i < c.f.bits,
        s'.bit (c.f.offset + i) = encode c.f.ty c.v i) := by
  refine ⟨_, C16_builder_fold m hB hS cs hc s hs, Store.hasBacking_ofBits _ _, ?_, ?_⟩
  · intro f hf hno i hi
    rw [Store.bit_ofBits_lt (hB.add_lt hf hi)]
    generalize s.bit = g
    have hc' : ∀ c ∈ cs, c.f ∈ B.fields := fun c h => (hc c h).2.1
    clear hc
    induction cs generalizing g with
    | nil => rfl
    | cons c cs ih =>
      rw [List.foldl_cons, ih (fun c h => hno c (by simp [h])) _ (fun c h => hc' c (by simp [h]))]
      apply overwrite_not_covers
      cases hcv : c.f.covers (f.offset + i)
      · rfl
      · exact absurd ⟨hcv, covers_add hi⟩
          (hB.disjoint_ne (hc' c (by simp)) hf (hno c (by simp)) (f.offset + i))
  · intro pre c post hcs hpost i hi
    have hf : c.f ∈ B.fields := (hc c (by simp [hcs])).2.1
    rw [Store.bit_ofBits_lt (hB.add_lt hf hi), hcs, List.foldl_append, List.foldl_cons]
    generalize pre.foldl _ _ = g
    have hp : ∀ c' ∈ post, c'.f ∈ B.fields := fun c' h => (hc c' (by simp [hcs, h])).2.1
    have : ∀ (l : List BuilderCall), (∀ c' ∈ l, c'.f ≠ c.f) → (∀ c' ∈ l, c'.f ∈ B.fields) →
        ∀ g : Bits, l.foldl (fun g c => overwrite c.f (encode c.f.ty c.v) g) g (c.f.offset + i) =
          g (c.f.offset + i) := by
      intro l h1 h2
      induction l with
      | nil => intro g; rfl
      | cons a l ih =>
        intro g
        rw [List.foldl_cons, ih (fun c h => h1 c (by simp [h])) (fun c h => h2 c (by simp [h]))]
        apply overwrite_not_covers
        cases hcv : a.f.covers (c.f.offset + i)
        · rfl
        · exact absurd ⟨hcv, covers_add hi⟩
            (hB.disjoint_ne (h2 a (by simp)) hf (h1 a (by simp)) _)
    rw [this post hpost hp, overwrite_covers (covers_add hi), Nat.add_sub_cancel_left]

/-- **C16** (chains with checked calls). If every value given to a `checked_with_x` fits, the
checks make no difference; if one does not fit, the chain ends with the documented error. Arguments
where the generated comparison is not exact are excluded as in C12. -/
theorem C16_checked_chain (m : Mode) (hB : WF B) (hS : Supported B) (cs : List BuilderCall)
    (hc : ∀ c ∈ cs, c.f ∈ B.fields ∧ HasType c.f.ty c.v ∧ Preserves c.f (encode c.f.ty c.v) ∧
      (c.check = true → CheckExact B.backing c.f c.v)) (s : Store) (hs : s.HasBacking B.backing) :
    ((∀ c ∈ cs, c.check = true → Fits c.f c.v) →
      builderRun m cs s = builderRun m (cs.map fun c => { c with check := false }) s) ∧
    ((∃ c ∈ cs, c.check = true ∧ ¬ Fits c.f c.v) →
      builderRun m cs s = .ok (.error "Value is too big to fit within the field bits.")) := by
  obtain ⟨g, rfl⟩ := Store.cases_ofBits hs
  clear hs
  induction cs generalizing g with
  | nil => exact ⟨fun _ => rfl, fun ⟨c, h, _⟩ => absurd h (by simp)⟩
  | cons c cs ih =>
    obtain ⟨h2, h3, h4, h5⟩ := hc c (by simp)
    have hfok := hB.field _ h2
    have hfs := hS.field _ h2
    obtain ⟨y, hy, he⟩ := roundTrip_ok h4
    have hset : setImpl m false c.f (Store.ofBits B.backing g) c.v =
        .ok (.ok (), Store.ofBits B.backing (overwrite c.f y g)) := by
      have hrun := C16_builder_fold m hB hS [⟨false, c.f, c.v⟩]
        (by intro c' hc'; simp only [List.mem_singleton] at hc'; subst hc'
            exact ⟨rfl, h2, h3, h4⟩) _ (Store.hasBacking_ofBits B.backing g)
      unfold builderRun at hrun
      rw [C16_with m false c.f h3] at hrun
      have hx := setX_bits m hB.backing hfok hfs h3 g
      rw [hy] at hx
      unfold setX at hx
      cases hr : setImpl m false c.f (Store.ofBits B.backing g) c.v with
      | error p => rw [hr] at hx; cases hx
      | ok q =>
        obtain ⟨r, s'⟩ := q
        rw [hr] at hx hrun
        have e : s' = Store.ofBits B.backing (overwrite c.f y g) := by cases hx; rfl
        cases r with
        | ok u => rw [e]
        | error msg => cases hrun
    have hchk := checkedSet_bits m hB.backing hfok hfs h3 g
    rw [hy] at hchk
    obtain ⟨ih1, ih2⟩ := ih (fun c h => hc c (by simp [h])) (overwrite c.f y g)
    constructor
    · intro hall
      have hstep : setImpl m c.check c.f (Store.ofBits B.backing g) c.v =
          .ok (.ok (), Store.ofBits B.backing (overwrite c.f y g)) := by
        cases hck : c.check with
        | false => exact hset
        | true =>
          rw [hchk, codeTooBig_eq h3 (h5 hck), decide_eq_true (hall c (by simp) hck)]
          rfl
      rw [List.map_cons]
      unfold builderRun
      simp only
      rw [C16_with m _ c.f h3, C16_with m _ c.f h3, hstep, hset]
      exact ih1 fun c h => hall c (by simp [h])
    · intro hex
      unfold builderRun
      rw [C16_with m _ c.f h3]
      by_cases hbad : c.check = true ∧ ¬ Fits c.f c.v
      · rw [hbad.1, hchk, codeTooBig_eq h3 (h5 hbad.1), decide_eq_false hbad.2]
        rfl
      · have hstep : setImpl m c.check c.f (Store.ofBits B.backing g) c.v =
            .ok (.ok (), Store.ofBits B.backing (overwrite c.f y g)) := by
          cases hck : c.check with
          | false => exact hset
          | true =>
            have hfit : Fits c.f c.v := by
              by_cases h : Fits c.f c.v
              · exact h
              · exact absurd ⟨hck, h⟩ hbad
            rw [hchk, codeTooBig_eq h3 (h5 hck), decide_eq_true hfit]
            rfl
        rw [hstep]
        apply ih2
        obtain ⟨c', hm, hh⟩ := hex
        rcases List.mem_cons.mp hm with rfl | hm
        · exact absurd hh hbad
        · exact ⟨c', hm, hh⟩

/-- The builder chain of the examples: a read-write, a read-only and a no-access field. -/
def Ex.chain : List BuilderCall :=
  [⟨false, Ex.a, .int 7⟩, ⟨false, Ex.c, .bool false⟩, ⟨false, Ex.e, .int 3⟩, ⟨false, Ex.a, .int 1⟩]

theorem Ex.chain_ok : ∀ c ∈ Ex.chain, c.check = false ∧ c.f ∈ Ex.I.fields ∧ HasType c.f.ty c.v ∧
    Preserves c.f (encode c.f.ty c.v) := by
  intro c hc
  simp only [Ex.chain, List.mem_cons, List.not_mem_nil, or_false] at hc
  rcases hc with rfl | rfl | rfl | rfl <;>
    refine ⟨rfl, by simp [Ex.I],
      by simp [HasType, Ex.a, Ex.c, Ex.e, IntTy.unsigned, IntTy.bitSize],
      preserves_of_noncustom (fun c h => by cases h) _⟩

example (m : Mode) (s : Store) (hs : s.HasBacking (.int 16)) :
    ∃ s', builderRun m Ex.chain s = .ok (.ok s') ∧ ∀ i < 4, s'.bit (0 + i) = intBit 1 i := by
  obtain ⟨s', h1, _, _, h4⟩ := C16_builder_fields m Ex.wfI Ex.supportedI Ex.chain Ex.chain_ok s hs
  exact ⟨s', h1, h4 [⟨false, Ex.a, .int 7⟩, ⟨false, Ex.c, .bool false⟩, ⟨false, Ex.e, .int 3⟩]
    ⟨false, Ex.a, .int 1⟩ [] rfl (by simp)⟩

example (m : Mode) (s : Store) (hs : s.HasBacking (.int 16)) :
    builderRun m [⟨true, Ex.a, .int 7⟩, ⟨true, Ex.e, .int 30⟩] s =
      .ok (.error "Value is too big to fit within the field bits.") := by
  refine (C16_checked_chain (B := Ex.I) m Ex.wfI Ex.supportedI _ ?_ s hs).2
    ⟨⟨true, Ex.e, .int 30⟩, by simp, rfl, by decide⟩
  intro c hc
  simp only [List.mem_cons, List.not_mem_nil, or_false] at hc
  rcases hc with rfl | rfl <;>
    refine ⟨by simp [Ex.I], by simp [HasType, Ex.a, Ex.e, IntTy.unsigned, IntTy.bitSize],
      preserves_of_noncustom (fun c h => by cases h) _, fun _ _ w hw => ?_⟩ <;>
    (cases hw; decide)

end Bf
