import Verif.Lemmas.Assign

namespace Bf

theorem mem_of_filter {α : Type} {p : α → Bool} {l : List α} {a : α} (h : a ∈ l.filter p) : a ∈ l :=
  (List.mem_filter.mp h).1

/-! ## Passing through the field's type -/

theorem roundTrip_congr {f : Field} {x y : Bits} (h : ∀ i < f.bits, x i = y i) :
    (roundTrip f x).map (fun z => overwrite f z) = (roundTrip f y).map (fun z => overwrite f z) := by
  cases hty : f.ty with
  | int t =>
    simp only [roundTrip, hty, Except.map]
    refine congrArg Except.ok ?_
    funext g; exact overwrite_congr h g
  | array t =>
    simp only [roundTrip, hty, Except.map]
    refine congrArg Except.ok ?_
    funext g; exact overwrite_congr h g
  | custom c =>
    simp only [roundTrip, hty, natOf_congr h]

theorem encode_settle (f : Field) {v : Val} (hv : HasType f.ty v ∨ ∃ b, SetterOK b f v) :
    (settle f v).map (encode f.ty) = roundTrip f (encode f.ty v) := by
  cases hty : f.ty with
  | int t => cases t <;> simp only [settle, roundTrip, hty, Except.map]
  | array t => simp only [settle, roundTrip, hty, Except.map]
  | custom c =>
    cases v with
    | custom code =>
      simp only [settle, roundTrip, hty, encode]
      cases c.fromBits (natOf f.bits (intBit (c.intoBits code))) <;> rfl
    | _ =>
      rcases hv with hv | ⟨b, hv⟩
      · rw [hty] at hv; exact absurd hv id
      · simp only [SetterOK, hty] at hv

theorem map_encode_store {b : Backing} {f : Field} {g : Bits} (r : R Val) :
    r.map (fun v' => Store.ofBits b (overwrite f (encode f.ty v') g)) =
      (r.map (encode f.ty)).map (fun y => Store.ofBits b (overwrite f y g)) := by
  cases r <;> rfl

/-- Stored bits of a setter call -/
theorem setX_bits (m : Mode) {b : Backing} {f : Field} (hb : b.OK) (hf : FieldOK b f)
    (hs : FieldSupported b f) {v : Val} (hv : HasType f.ty v) (g : Bits) :
    setX m f (Store.ofBits b g) v =
      (roundTrip f (encode f.ty v)).map (fun y => Store.ofBits b (overwrite f y g)) := by
  rw [setX_eq m hb hf hs hv, map_encode_store, encode_settle f (Or.inl hv)]

theorem checkedSet_bits (m : Mode) {b : Backing} {f : Field} (hb : b.OK) (hf : FieldOK b f)
    (hs : FieldSupported b f) {v : Val} (hv : HasType f.ty v) (g : Bits) :
    setImpl m true f (Store.ofBits b g) v =
      if codeTooBig b f v then .ok (.error errTooBig, Store.ofBits b g)
      else (roundTrip f (encode f.ty v)).map
        (fun y => (.ok (), Store.ofBits b (overwrite f y g))) := by
  rw [checkedSet_eq m hb hf hs hv, ← encode_settle f (Or.inl hv)]
  split
  · rfl
  · cases settle f v <;> rfl

/-- The bits of a default value as they are stored. -/
def defaultStored (f : Field) (v : Val) : R Bits :=
  if f.isWritable then roundTrip f (encode f.ty v) else .ok (encode f.ty v)

theorem encode_assigned (b : Backing) (f : Field) {v : Val} (hv : AssignOK b f v) :
    (assigned f v).map (encode f.ty) = defaultStored f v := by
  unfold assigned defaultStored
  unfold AssignOK at hv
  rw [hasSetter_eq]
  split
  · rename_i h
    rw [h] at hv
    exact encode_settle f (Or.inr ⟨b, hv⟩)
  · rfl

theorem setDefault_bits (m : Mode) {b : Backing} {f : Field} (hb : b.OK) (hf : FieldOK b f)
    (hs : FieldSupported b f) {v : Val} (hd : f.default = some v) (hv : AssignOK b f v) (g : Bits) :
    setDefault m f (Store.ofBits b g) =
      (defaultStored f v).map (fun y => Store.ofBits b (overwrite f y g)) := by
  rw [setDefault_eq m hb hf hs hd hv, map_encode_store, encode_assigned b f hv]

theorem intake_absorb (f : Field) (x : Bits) : intake f x = absorb f x := by
  cases hty : f.ty with
  | int t => simp only [intake, absorb, roundTrip, hty, R_bind_ok, ite_self]
  | array t => simp only [intake, absorb, roundTrip, hty, R_bind_ok, ite_self]
  | custom c =>
    simp only [intake, absorb, roundTrip, hty, assigned, settle, hasSetter_eq]
    cases c.fromBits (natOf f.bits x) with
    | error p => simp only [R_bind_err, Except.map, ite_self]
    | ok code =>
      simp only [R_bind_ok, Except.map]
      split
      · simp only [roundTrip, hty]
        cases c.fromBits (natOf f.bits (intBit (c.intoBits code))) <;> rfl
      · rfl

theorem natOf_zero (n : Nat) : natOf n (fun _ => false) = 0 := by
  induction n with
  | zero => rfl
  | succ n ih => simp [natOf, ih]

theorem zeroBits_absorb (f : Field) : zeroBits f = absorb f (fun _ => false) := by
  rw [← intake_absorb]
  cases hty : f.ty with
  | int t => simp only [intake, zeroBits, hty]
  | array t => simp only [intake, zeroBits, hty]
  | custom c => simp only [intake, zeroBits, hty, natOf_zero]

theorem setZero_bits (m : Mode) {b : Backing} {f : Field} (hb : b.OK) (hf : FieldOK b f)
    (hs : FieldSupported b f) (g : Bits) :
    setZero m f (Store.ofBits b g) =
      (absorb f fun _ => false).map (fun y => Store.ofBits b (overwrite f y g)) := by
  rw [setZero_eq m hb hf hs, zeroBits_absorb]

theorem setFromSource_bits (m : Mode) {b : Backing} {f : Field} (hb : b.OK) (hf : FieldOK b f)
    (hs : FieldSupported b f) (src g : Bits) :
    setFromSource m f (Store.ofBits b src) (Store.ofBits b g) =
      (absorb f (fun i => src (f.offset + i))).map
        (fun y => Store.ofBits b (overwrite f y g)) := by
  rw [setFromSource_eq m hb hf hs, intake_absorb]

theorem invertX_bits (m : Mode) {b : Backing} {f : Field} (hb : b.OK) (hf : FieldOK b f)
    (hs : FieldSupported b f) (g : Bits) :
    invertX m f (Store.ofBits b g) =
      (roundTrip f (fun i => !g (f.offset + i)) >>= roundTrip f).map
        (fun y => Store.ofBits b (overwrite f y g)) := by
  rw [invertX_eq m hb hf hs]
  congr 1
  cases hty : f.ty with
  | int t => simp only [reencode, roundTrip, hty, R_bind_ok]
  | array t => simp only [reencode, roundTrip, hty, R_bind_ok]
  | custom c =>
    simp only [reencode, roundTrip, hty, settle]
    cases c.fromBits (natOf f.bits fun i => !g (f.offset + i)) with
    | error p => rfl
    | ok code =>
      simp only [R_bind_ok, Except.map]
      simp only [roundTrip, hty]
      cases c.fromBits (natOf f.bits (intBit (c.intoBits code))) <;> rfl

/-! ## Preserved patterns -/

theorem FieldLawful.preserves {f : Field} (h : FieldLawful f) (x : Bits) : Preserves f x :=
  fun c hc => h c hc _ (natOf_lt _ _)

theorem Preserves.congr {f : Field} {x y : Bits} (h : ∀ i < f.bits, x i = y i)
    (hp : Preserves f x) : Preserves f y := by
  intro c hc
  rw [← natOf_congr h]
  exact hp c hc

theorem preserves_of_noncustom {f : Field} (h : ∀ c, f.ty ≠ .custom c) (x : Bits) : Preserves f x :=
  fun c hc => absurd hc (h c)

theorem roundTrip_ok {f : Field} {x : Bits} (h : Preserves f x) :
    ∃ y, roundTrip f x = .ok y ∧ ∀ i < f.bits, y i = x i := by
  cases hty : f.ty with
  | int t => exact ⟨x, by simp only [roundTrip, hty], fun _ _ => rfl⟩
  | array t => exact ⟨x, by simp only [roundTrip, hty], fun _ _ => rfl⟩
  | custom c =>
    obtain ⟨code, h1, h2⟩ := h c hty
    refine ⟨intBit (c.intoBits code), by simp only [roundTrip, hty, h1, Except.map], ?_⟩
    intro i hi
    rw [← intBit_emod _ hi, h2, intBit_natOf]
    simp [hi]

theorem roundTrip2_ok {f : Field} {x : Bits} (h : Preserves f x) :
    ∃ y, (roundTrip f x >>= roundTrip f) = .ok y ∧ ∀ i < f.bits, y i = x i := by
  obtain ⟨y, h1, h2⟩ := roundTrip_ok h
  obtain ⟨z, h3, h4⟩ := roundTrip_ok (Preserves.congr (fun i hi => (h2 i hi).symm) h)
  refine ⟨z, by rw [h1]; exact h3, ?_⟩
  intro i hi
  rw [h4 i hi, h2 i hi]

theorem absorb_ok {f : Field} {x : Bits} (h : Preserves f x) :
    ∃ y, absorb f x = .ok y ∧ ∀ i < f.bits, y i = x i := by
  unfold absorb
  split
  · exact roundTrip2_ok h
  · exact roundTrip_ok h

theorem defaultStored_ok {f : Field} {v : Val} (h : Preserves f (encode f.ty v)) :
    ∃ y, defaultStored f v = .ok y ∧ ∀ i < f.bits, y i = encode f.ty v i := by
  unfold defaultStored
  split
  · exact roundTrip_ok h
  · exact ⟨_, rfl, fun _ _ => rfl⟩

/-! ## One statement per field -/

/-- Overwrite the fields of a list, one after the other, with computed patterns. -/
def overwriteAllM (fs : List Field) (X : Field → R Bits) (g : Bits) : R Bits :=
  fs.foldlM (fun g f => (X f).map fun y => overwrite f y g) g

def overwriteAll (fs : List Field) (Y : Field → Bits) (g : Bits) : Bits :=
  fs.foldl (fun g f => overwrite f (Y f) g) g

theorem forFields_eq {b : Backing} {fs : List Field} {body : Field → Store → R Store}
    {X : Field → R Bits}
    (h : ∀ f ∈ fs, ∀ g, body f (Store.ofBits b g) =
      (X f).map (fun y => Store.ofBits b (overwrite f y g))) (g : Bits) :
    forFields fs body (Store.ofBits b g) = (overwriteAllM fs X g).map (Store.ofBits b) := by
  induction fs generalizing g with
  | nil => rfl
  | cons f fs ih =>
    have h1 := h f (by simp) g
    simp only [forFields, overwriteAllM, List.foldlM_cons] at ih ⊢
    rw [h1]
    cases X f with
    | error p => rfl
    | ok y =>
      simp only [Except.map, R_bind_ok]
      exact ih (fun f' hf' => h f' (by simp [hf'])) _

theorem overwriteAllM_ok {fs : List Field} {X : Field → R Bits} {Y : Field → Bits}
    (h : ∀ f ∈ fs, ∃ y, X f = .ok y ∧ ∀ i < f.bits, y i = Y f i) (g : Bits) :
    overwriteAllM fs X g = .ok (overwriteAll fs Y g) := by
  induction fs generalizing g with
  | nil => rfl
  | cons f fs ih =>
    obtain ⟨y, h1, h2⟩ := h f (by simp)
    simp only [overwriteAllM, overwriteAll, List.foldlM_cons, List.foldl_cons] at ih ⊢
    rw [h1]
    simp only [Except.map, R_bind_ok]
    rw [overwrite_congr h2]
    exact ih (fun f' hf' => h f' (by simp [hf'])) _

theorem overwrite_not_covers {f : Field} {i : Nat} (h : f.covers i = false) (y g : Bits) :
    overwrite f y g i = g i := by simp [overwrite, h]

theorem overwrite_covers {f : Field} {i : Nat} (h : f.covers i = true) (y g : Bits) :
    overwrite f y g i = y (i - f.offset) := by simp [overwrite, h]

theorem covers_iff {f : Field} {i : Nat} :
    f.covers i = true ↔ f.offset ≤ i ∧ i < f.offset + f.bits := by
  simp [Field.covers]

theorem overwriteAll_none {fs : List Field} {Y : Field → Bits} {g : Bits} {i : Nat}
    (h : ∀ f ∈ fs, f.covers i = false) : overwriteAll fs Y g i = g i := by
  induction fs generalizing g with
  | nil => rfl
  | cons f fs ih =>
    simp only [overwriteAll, List.foldl_cons] at ih ⊢
    rw [ih (fun f' hf' => h f' (by simp [hf']))]
    exact overwrite_not_covers (h f (by simp)) _ _

theorem overwriteAll_some {fs : List Field} {Y : Field → Bits} {g : Bits} {i : Nat} {f : Field}
    (hd : fs.Pairwise Field.Disjoint) (hf : f ∈ fs) (hc : f.covers i = true) :
    overwriteAll fs Y g i = Y f (i - f.offset) := by
  induction fs generalizing g with
  | nil => cases hf
  | cons f' fs ih =>
    rw [List.pairwise_cons] at hd
    rcases List.mem_cons.mp hf with rfl | hf'
    · have : overwriteAll (f :: fs) Y g i = overwriteAll fs Y (overwrite f (Y f) g) i := rfl
      rw [this, overwriteAll_none, overwrite_covers hc]
      intro f'' h''
      cases hx : f''.covers i with
      | false => rfl
      | true => exact absurd ⟨hc, hx⟩ (hd.1 f'' h'' i)
    · exact ih hd.2 hf'

/-- The error, if any, comes from the first field whose conversion fails. -/
theorem overwriteAllM_error {fs : List Field} {X : Field → R Bits} {g : Bits} {p : Panic}
    (h : overwriteAllM fs X g = .error p) : ∃ f ∈ fs, X f = .error p := by
  induction fs generalizing g with
  | nil => cases h
  | cons f fs ih =>
    simp only [overwriteAllM, List.foldlM_cons] at ih h
    cases hx : X f with
    | error q =>
      rw [hx] at h
      cases h
      exact ⟨f, by simp, hx⟩
    | ok y =>
      rw [hx] at h
      obtain ⟨f', h1, h2⟩ := ih h
      exact ⟨f', by simp [h1], h2⟩

/-! ## Layout facts -/

theorem WF.owner_unique {B : Bitfield} (h : WF B) {f f' : Field} (hf : f ∈ B.fields)
    (hf' : f' ∈ B.fields) {i : Nat} (hc : f.covers i = true) (hc' : f'.covers i = true) : f = f' := by
  have := h.disjoint
  generalize B.fields = fs at this hf hf'
  induction fs with
  | nil => cases hf
  | cons a fs ih =>
    rw [List.pairwise_cons] at this
    rcases List.mem_cons.mp hf with rfl | h1
    · rcases List.mem_cons.mp hf' with rfl | h2
      · rfl
      · exact absurd ⟨hc, hc'⟩ (this.1 f' h2 i)
    · rcases List.mem_cons.mp hf' with rfl | h2
      · exact absurd ⟨hc', hc⟩ (this.1 f h1 i)
      · exact ih this.2 h1 h2

theorem WF.writable_eq {B : Bitfield} (h : WF B) {f : Field} (hf : f ∈ B.fields) {i : Nat}
    (hc : f.covers i = true) : B.writable i = f.isWritable := by
  unfold Bitfield.writable
  cases hw : f.isWritable with
  | true => exact List.any_eq_true.mpr ⟨f, hf, by simp [hc, hw]⟩
  | false =>
    rw [List.any_eq_false]
    intro f' hf'
    cases hc' : f'.covers i with
    | false => simp
    | true =>
      have := h.owner_unique hf hf' hc hc'
      subst this
      simp [hw]

theorem WF.readable_eq {B : Bitfield} (h : WF B) {f : Field} (hf : f ∈ B.fields) {i : Nat}
    (hc : f.covers i = true) : B.readable i = f.isReadable := by
  unfold Bitfield.readable
  cases hw : f.isReadable with
  | true => exact List.any_eq_true.mpr ⟨f, hf, by simp [hc, hw]⟩
  | false =>
    rw [List.any_eq_false]
    intro f' hf'
    cases hc' : f'.covers i with
    | false => simp
    | true =>
      have := h.owner_unique hf hf' hc hc'
      subst this
      simp [hw]

theorem WF.find_eq {B : Bitfield} (h : WF B) {f : Field} (hf : f ∈ B.fields) {i : Nat}
    (hc : f.covers i = true) : B.fields.find? (fun f => f.covers i) = some f := by
  cases hx : B.fields.find? (fun f => f.covers i) with
  | none =>
    rw [List.find?_eq_none] at hx
    exact absurd hc (hx f hf)
  | some f' =>
    have h1 := List.find?_some hx
    have h2 := List.mem_of_find?_eq_some hx
    rw [h.owner_unique hf h2 hc h1]

theorem WF.defaultBit_eq {B : Bitfield} (h : WF B) {f : Field} (hf : f ∈ B.fields) {i : Nat}
    (hc : f.covers i = true) :
    B.defaultBit i = f.default.map fun v => encode f.ty v (i - f.offset) := by
  unfold Bitfield.defaultBit
  rw [h.find_eq hf hc]

theorem WF.reservedDefaultBit_eq {B : Bitfield} (h : WF B) {f : Field} (hf : f ∈ B.fields) {i : Nat}
    (hc : f.covers i = true) :
    B.reservedDefaultBit i =
      if f.reserved then f.default.map fun v => encode f.ty v (i - f.offset) else none := by
  unfold Bitfield.reservedDefaultBit
  rw [h.find_eq hf hc]

theorem WF.disjoint_filter {B : Bitfield} (h : WF B) (p : Field → Bool) :
    (B.fields.filter p).Pairwise Field.Disjoint :=
  h.disjoint.filter p

theorem WF.covers_lt {B : Bitfield} (h : WF B) {f : Field} (hf : f ∈ B.fields) {i : Nat}
    (hc : f.covers i = true) : i < B.backing.size := by
  have := (h.field f hf).fits
  have := covers_iff.mp hc
  omega

/-! ## Whole-bitfield operations -/

/-- Patterns the `setAllFromSource` loop handles, by protection. -/
theorem setAllFromSource_bits (m : Mode) {B : Bitfield} (h : WF B) (hs : Supported B)
    (p : Protection) (src g : Bits) :
    setAllFromSource m B p (Store.ofBits B.backing src) (Store.ofBits B.backing g) =
      (overwriteAllM (B.fields.filter fun f => match p with
        | .readOnly => f.isWritable
        | .writeOnly => f.isReadable
        | .none => true) (fun f => absorb f fun i => src (f.offset + i)) g).map
        (Store.ofBits B.backing) := by
  unfold setAllFromSource
  have key : ∀ q : Field → Bool, forFields (B.fields.filter q)
      (fun f s => setFromSource m f (Store.ofBits B.backing src) s) (Store.ofBits B.backing g) =
      (overwriteAllM (B.fields.filter q) (fun f => absorb f fun i => src (f.offset + i)) g).map
        (Store.ofBits B.backing) := by
    intro q
    apply forFields_eq
    intro f hf g
    have hm := mem_of_filter hf
    exact setFromSource_bits m h.backing (h.field f hm) (hs.field f hm) src g
  cases p
  · simp only [hasSetter_eq]; exact key _
  · simp only [hasReadAccess_eq]; exact key _
  · exact key _

/-- The bits of `src` in the fields selected by `q`, `g` elsewhere. -/
def copyWhere (B : Bitfield) (q : Field → Bool) (src g : Bits) : Bits :=
  fun i => if B.fields.any (fun f => f.covers i && q f) then src i else g i

theorem overwriteAll_filter {B : Bitfield} (h : WF B) (q : Field → Bool) (Y : Field → Bits)
    (g : Bits) {f : Field} (hf : f ∈ B.fields) {i : Nat} (hc : f.covers i = true) :
    overwriteAll (B.fields.filter q) Y g i = if q f then Y f (i - f.offset) else g i := by
  split
  · rename_i hq
    exact overwriteAll_some (h.disjoint_filter q) (List.mem_filter.mpr ⟨hf, hq⟩) hc
  · rename_i hq
    apply overwriteAll_none
    intro f' hf'
    obtain ⟨h1, h2⟩ := List.mem_filter.mp hf'
    cases hc' : f'.covers i with
    | false => rfl
    | true =>
      have := h.owner_unique hf h1 hc hc'
      subst this
      exact absurd h2 hq

theorem setAll_none (m : Mode) {B : Bitfield} (h : WF B) (hs : Supported B) (src g : Bits)
    (hp : ∀ f ∈ B.fields, Preserves f fun i => src (f.offset + i)) :
    setAllFromSource m B .none (Store.ofBits B.backing src) (Store.ofBits B.backing g) =
      .ok (Store.ofBits B.backing src) := by
  rw [setAllFromSource_bits m h hs]
  rw [overwriteAllM_ok (Y := fun f i => src (f.offset + i))
    (fun f hf => absorb_ok (hp f (mem_of_filter hf)))]
  simp only [Except.map]
  refine congrArg Except.ok (Store.ofBits_congr ?_)
  intro i hi
  obtain ⟨f, hf, hc⟩ := h.cover i hi
  rw [overwriteAll_filter h _ _ _ hf hc]
  have := covers_iff.mp hc
  simp only [if_true]
  congr 1
  omega

theorem setAll_readOnly (m : Mode) {B : Bitfield} (h : WF B) (hs : Supported B) (src g : Bits)
    (hp : ∀ f ∈ B.fields, f.isWritable = true → Preserves f fun i => src (f.offset + i)) :
    setAllFromSource m B .readOnly (Store.ofBits B.backing src) (Store.ofBits B.backing g) =
      .ok (Store.ofBits B.backing fun i => if B.writable i then src i else g i) := by
  rw [setAllFromSource_bits m h hs]
  rw [overwriteAllM_ok (Y := fun f i => src (f.offset + i))
    (fun f hf => absorb_ok (hp f (mem_of_filter hf) (List.mem_filter.mp hf).2))]
  simp only [Except.map]
  refine congrArg Except.ok (Store.ofBits_congr ?_)
  intro i hi
  obtain ⟨f, hf, hc⟩ := h.cover i hi
  rw [overwriteAll_filter h _ _ _ hf hc, h.writable_eq hf hc]
  have := covers_iff.mp hc
  split
  · congr 1; omega
  · rfl

/-- The pattern of the default of `f`. -/
def defaultPattern (f : Field) : R Bits :=
  match f.default with
  | some v => defaultStored f v
  | none => .error .unreachable

theorem setDefaultsOf_bits (m : Mode) {B : Bitfield} (h : WF B) (hs : Supported B)
    (q : Field → Bool) (hq : ∀ f, q f = true → f.hasDefault = true) (g : Bits) :
    forFields (B.fields.filter q) (setDefault m) (Store.ofBits B.backing g) =
      (overwriteAllM (B.fields.filter q) defaultPattern g).map (Store.ofBits B.backing) := by
  apply forFields_eq
  intro f hf g
  obtain ⟨hm, hqf⟩ := List.mem_filter.mp hf
  have hd := hq f hqf
  unfold Field.hasDefault at hd
  obtain ⟨v, hv⟩ := Option.isSome_iff_exists.mp hd
  rw [setDefault_bits m h.backing (h.field f hm) (hs.field f hm) hv (hs.default f hm v hv) g]
  simp only [defaultPattern, hv]

theorem setDefaultsOf_ok (m : Mode) {B : Bitfield} (h : WF B) (hs : Supported B)
    (hp : DefaultsPreserved B)
    (q : Field → Bool) (hq : ∀ f, q f = true → f.hasDefault = true) (g : Bits) :
    ∃ g', forFields (B.fields.filter q) (setDefault m) (Store.ofBits B.backing g) =
      .ok (Store.ofBits B.backing g') ∧
      ∀ f ∈ B.fields, ∀ i, f.covers i = true →
        g' i = if q f then (f.default.map fun v => encode f.ty v (i - f.offset)).getD (g i)
          else g i := by
  rw [setDefaultsOf_bits m h hs q hq]
  refine ⟨overwriteAll (B.fields.filter q)
    (fun f => match f.default with
      | some v => encode f.ty v
      | none => fun _ => false) g, ?_, ?_⟩
  · rw [overwriteAllM_ok]
    · rfl
    · intro f hf
      obtain ⟨hm, hqf⟩ := List.mem_filter.mp hf
      have hd := hq f hqf
      unfold Field.hasDefault at hd
      obtain ⟨v, hv⟩ := Option.isSome_iff_exists.mp hd
      simp only [defaultPattern, hv]
      exact defaultStored_ok (hp f hm v hv)
  · intro f hf i hc
    rw [overwriteAll_filter h _ _ _ hf hc]
    split
    · rename_i hqf
      have hd := hq f hqf
      unfold Field.hasDefault at hd
      obtain ⟨v, hv⟩ := Option.isSome_iff_exists.mp hd
      simp only [hv, Option.map_some, Option.getD_some]
    · rfl

theorem setDefaults_ok (m : Mode) {B : Bitfield} (h : WF B) (hs : Supported B)
    (hp : DefaultsPreserved B) (g : Bits) :
    setDefaults m B (Store.ofBits B.backing g) =
      .ok (Store.ofBits B.backing fun i => (B.defaultBit i).getD (g i)) := by
  obtain ⟨g', h1, h2⟩ := setDefaultsOf_ok m h hs hp Field.hasDefault (fun _ h => h) g
  unfold setDefaults
  rw [h1]
  refine congrArg Except.ok (Store.ofBits_congr ?_)
  intro i hi
  obtain ⟨f, hf, hc⟩ := h.cover i hi
  rw [h2 f hf i hc, h.defaultBit_eq hf hc]
  unfold Field.hasDefault
  cases f.default <;> simp

theorem setZeros_bits (m : Mode) {B : Bitfield} (h : WF B) (hs : Supported B) (skip : Bool)
    (g : Bits) :
    setZeros m B skip (Store.ofBits B.backing g) =
      (overwriteAllM (B.fields.filter fun f => !(skip && f.hasDefault))
        (fun f => absorb f fun _ => false) g).map (Store.ofBits B.backing) := by
  unfold setZeros
  apply forFields_eq
  intro f hf g
  have hm := mem_of_filter hf
  exact setZero_bits m h.backing (h.field f hm) (hs.field f hm) g

theorem initStore_eq (B : Bitfield) : initStore B = Store.ofBits B.backing (fun _ => false) := by
  unfold initStore
  cases B.backing with
  | int w =>
    rw [Store.ofBits_int]
    simp only
    refine congrArg _ ?_
    apply eq_ofBits
    intro i _; simp
  | arr n =>
    rw [Store.ofBits_arr, bytesOf_zero]

theorem newBody_true (m : Mode) {B : Bitfield} (h : WF B) (hs : Supported B)
    (hp : DefaultsPreserved B)
    (hz : ∀ f ∈ B.fields, f.default = none → Preserves f fun _ => false) (g : Bits) :
    newBody m B true (Store.ofBits B.backing g) =
      .ok (Store.ofBits B.backing fun i => (B.defaultBit i).getD false) := by
  unfold newBody
  rw [setZeros_bits m h hs]
  rw [overwriteAllM_ok (Y := fun _ _ => false)]
  · simp only [Except.map, R_bind_ok, if_true]
    rw [setDefaults_ok m h hs hp]
    refine congrArg Except.ok (Store.ofBits_congr ?_)
    intro i hi
    obtain ⟨f, hf, hc⟩ := h.cover i hi
    rw [overwriteAll_filter h _ _ _ hf hc, h.defaultBit_eq hf hc]
    unfold Field.hasDefault
    cases f.default <;> simp
  · intro f hf
    obtain ⟨hm, hq⟩ := List.mem_filter.mp hf
    apply absorb_ok
    apply hz f hm
    simpa [Field.hasDefault] using hq

theorem newBody_false (m : Mode) {B : Bitfield} (h : WF B) (hs : Supported B)
    (hp : DefaultsPreserved B)
    (hz : ∀ f ∈ B.fields, Preserves f fun _ => false) (g : Bits) :
    newBody m B false (Store.ofBits B.backing g) =
      .ok (Store.ofBits B.backing fun i => (B.reservedDefaultBit i).getD false) := by
  unfold newBody
  rw [setZeros_bits m h hs]
  rw [overwriteAllM_ok (Y := fun _ _ => false)]
  · simp only [Except.map, R_bind_ok, Bool.false_eq_true, if_false]
    obtain ⟨g', h1, h2⟩ := setDefaultsOf_ok m h hs hp (fun f => f.reserved && f.hasDefault)
      (fun f h => by simp at h; exact h.2)
      (overwriteAll (B.fields.filter fun f => !(false && f.hasDefault)) (fun _ _ => false) g)
    rw [h1]
    refine congrArg Except.ok (Store.ofBits_congr ?_)
    intro i hi
    obtain ⟨f, hf, hc⟩ := h.cover i hi
    rw [h2 f hf i hc, overwriteAll_filter h _ _ _ hf hc, h.reservedDefaultBit_eq hf hc]
    unfold Field.hasDefault
    cases f.default <;> cases f.reserved <;> simp
  · intro f hf
    exact absorb_ok (hz f (mem_of_filter hf))

end Bf
