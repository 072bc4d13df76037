import Verif.Lemmas.Sane
import Verif.Lemmas.Exact
import Verif.SpecAny

/-!
# Calls on every accepted layout
-/

namespace Bf

variable {B : Bitfield} {m : Mode}

/-! ## A bitfield with the same positions and accesses -/

/-- A field of the same place and access with a type that suits the place. -/
def Field.plain (b : Backing) (f : Field) : Field :=
  { f with
    ty := match b with
      | .int _ => .int .u128
      | .arr _ => .array (f.bits / 8 + 1)
    default := none }

/-- The bitfield with plain fields. -/
def Bitfield.plain (B : Bitfield) : Bitfield := { B with fields := B.fields.map (Field.plain B.backing) }

@[simp] theorem plain_backing : B.plain.backing = B.backing := rfl
@[simp] theorem plain_into : B.plain.intoEndian = B.intoEndian := rfl

theorem covers_plain (b : Backing) (f : Field) (i : Nat) : (f.plain b).covers i = f.covers i := rfl
theorem isWritable_plain (b : Backing) (f : Field) : (f.plain b).isWritable = f.isWritable := rfl
theorem isReadable_plain (b : Backing) (f : Field) : (f.plain b).isReadable = f.isReadable := rfl

theorem wf_plain (h : WF B) : WF B.plain where
  backing := h.backing
  field := by
    intro f hf
    obtain ⟨g, hg, rfl⟩ := List.mem_map.mp hf
    have := h.field g hg
    refine ⟨this.pos, this.fits, fun t ht => ?_⟩
    have hb := h.backing
    have hfit := this.fits
    cases hB : B.backing with
    | int w =>
      rw [hB] at hfit hb
      simp only [Field.plain, hB] at ht ⊢
      cases ht
      simp only [Backing.size] at hfit
      simp only [Backing.OK] at hb
      simp only [IntTy.bitSize]
      omega
    | arr n => simp only [Field.plain, hB] at ht; cases ht
  disjoint := by
    simp only [Bitfield.plain, List.pairwise_map]
    exact h.disjoint
  cover := by
    intro i hi
    obtain ⟨f, hf, hc⟩ := h.cover i hi
    exact ⟨_, List.mem_map.mpr ⟨f, hf, rfl⟩, hc⟩

theorem supported_plain (B : Bitfield) : Supported B.plain where
  field := by
    intro f hf
    obtain ⟨g, hg, rfl⟩ := List.mem_map.mp hf
    cases hB : B.backing with
    | int w =>
      refine ⟨fun len h => ?_, fun c h => ?_⟩ <;> simp only [Field.plain, hB] at h <;> cases h
    | arr n =>
      refine ⟨fun len h => ?_, fun c h => ?_⟩ <;> simp only [Field.plain, hB] at h
      · cases h
        exact ⟨by simp only [Field.plain]; omega, fun w hw => by simp [hB] at hw⟩
      · cases h
  default := by
    intro f hf v hv
    obtain ⟨g, hg, rfl⟩ := List.mem_map.mp hf
    cases hv

theorem writable_plain (B : Bitfield) : B.plain.writable = B.writable := by
  funext i
  simp only [Bitfield.writable, Bitfield.plain, List.any_map]
  rfl

theorem readable_plain (B : Bitfield) : B.plain.readable = B.readable := by
  funext i
  simp only [Bitfield.readable, Bitfield.plain, List.any_map]
  rfl

theorem protected_plain (B : Bitfield) (p : Protection) :
    protectedFields B.plain p = (protectedFields B p).map (Field.plain B.backing) := by
  simp only [protectedFields, Bitfield.plain, List.filter_map]
  rfl

theorem protMask128_map (k : Field → Field) (h1 : ∀ f, (k f).offset = f.offset) (h2 : ∀ f, (k f).bits = f.bits)
    (fs : List Field) : protMask128 (fs.map k) = protMask128 fs := by
  simp only [protMask128, List.foldl_map, h1, h2]

theorem protMaskBytes_map (k : Field → Field) (h1 : ∀ f, (k f).offset = f.offset) (h2 : ∀ f, (k f).bits = f.bits)
    (fs : List Field) (n : Nat) : protMaskBytes (fs.map k) n = protMaskBytes fs n := by
  simp only [protMaskBytes, List.foldl_map, h1, h2]

theorem mask128_plain (B : Bitfield) (p : Protection) :
    protMask128 (protectedFields B.plain p) = protMask128 (protectedFields B p) := by
  rw [protected_plain, protMask128_map (Field.plain B.backing) (fun _ => rfl) (fun _ => rfl)]

theorem maskBytes_plain (B : Bitfield) (p : Protection) (n : Nat) :
    protMaskBytes (protectedFields B.plain p) n = protMaskBytes (protectedFields B p) n := by
  rw [protected_plain, protMaskBytes_map (Field.plain B.backing) (fun _ => rfl) (fun _ => rfl)]

theorem guard_set_plain (B : Bitfield) (o : Nat) :
    fieldGuard (B.plain.fields.filter fun f => !f.hasSetter) o = fieldGuard (B.fields.filter fun f => !f.hasSetter) o := by
  simp only [fieldGuard, Bitfield.plain, List.filter_map, List.any_map]
  rfl

theorem guard_read_plain (B : Bitfield) (o : Nat) :
    fieldGuard (B.plain.fields.filter fun f => !f.hasReadAccess) o =
      fieldGuard (B.fields.filter fun f => !f.hasReadAccess) o := by
  simp only [fieldGuard, Bitfield.plain, List.filter_map, List.any_map]
  rfl

theorem call_plain (m : Mode) (B : Bitfield) {c : Call} (hc : c.OnBits = true) (s : Store) :
    call m B c s = call m B.plain c s := by
  cases c <;> simp only [Call.OnBits, Bool.false_eq_true] at hc
  case into e => cases e <;> rfl
  all_goals
    simp only [call, apiGetBit, apiCheckedGetBit, apiSetBit, apiCheckedSetBit, apiGetRange, apiCheckedGetRange,
      apiSetRange, apiCheckedSetRange, guard_set_plain, guard_read_plain, mask128_plain, maskBytes_plain, plain_backing,
      zeroStore, initStore]
    try rfl

theorem typed_plain {c : Call} (hc : c.OnBits = true) (h : c.Typed B) : c.Typed B.plain := by
  cases c <;> simp only [Call.OnBits, Bool.false_eq_true] at hc <;> exact h

theorem fullCall_plain (m : Mode) (B : Bitfield) {c : Call} (hc : c.OnBits = true) (g : Bits) :
    fullCall m B.plain c g = fullCall m B c g := by
  cases c <;> simp only [Call.OnBits, Bool.false_eq_true] at hc
  case into e => cases e <;> rfl
  all_goals
    simp only [fullCall, oddCall, specCall, writable_plain, readable_plain, plain_backing]
    try rfl

/-- Calls on bits do what the abstract machine says on every layout. -/
theorem call_bits (m : Mode) (hB : WF B) {c : Call} (hb : c.OnBits = true) (hc : c.Typed B) (g : Bits) :
    call m B c (Store.ofBits B.backing g) = lift B.backing (fullCall m B c g) := by
  rw [call_plain m B hb, ← fullCall_plain m B hb]
  exact call_full m (wf_plain hB) (supported_plain B) (typed_plain hb hc) g

/-! ## Sequences of fields -/

/-- The bits outside all the fields of a list. -/
abbrev Outside (fs : List Field) (i : Nat) : Prop := ∀ f ∈ fs, f.covers i = false

theorem sane_forFields {b : Backing} {fs : List Field} {body : Field → Store → R Store} {s : Store}
    (hs : s.HasBacking b) (h : ∀ f ∈ fs, ∀ s : Store, s.HasBacking b → Sane (Keeps b f.outside s) (body f s)) :
    Sane (Keeps b (Outside fs) s) (forFields fs body s) := by
  induction fs generalizing s with
  | nil => exact Keeps.refl hs
  | cons f fs ih =>
    simp only [forFields, List.foldlM_cons]
    refine (h f List.mem_cons_self s hs).bind fun s1 h1 => ?_
    refine (ih h1.1 fun g hg => h g (List.mem_cons_of_mem _ hg)).mono fun s2 h2 => ?_
    exact (h1.mono fun i hi => hi f List.mem_cons_self).trans (h2.mono fun i hi g hg => hi g (List.mem_cons_of_mem _ hg))

/-- What is needed of the bitfield: legal fields, defaults that compile, and user functions that compile. -/
structure Tame (B : Bitfield) : Prop where
  backing : B.backing.OK
  field : ∀ f ∈ B.fields, FieldOK B.backing f
  default : ∀ f ∈ B.fields, ∀ v, f.default = some v → AssignOK B.backing f v
  user : UserConversions B

theorem Tame.converts (h : Tame B) {f : Field} (hf : f ∈ B.fields) : FieldConverts f := fun cd hc n => h.user f hf cd hc n

theorem sane_setAllFromSource (m : Mode) (hT : Tame B) (p : Protection) {src s : Store}
    (hsrc : src.HasBacking B.backing) (hs : s.HasBacking B.backing) :
    Sane (Keeps B.backing (Outside (B.fields.filter fun f =>
      match p with
      | .readOnly => f.hasSetter
      | .writeOnly => f.hasReadAccess
      | .none => true)) s) (setAllFromSource m B p src s) := by
  refine sane_forFields hs fun f hf s hs => ?_
  have := (List.mem_filter.mp hf).1
  exact sane_setFromSource m hT.backing (hT.field f this) (hT.converts this) hsrc hs

theorem sane_defaultsOf (m : Mode) (hT : Tame B) (q : Field → Bool) {s : Store} (hs : s.HasBacking B.backing) :
    Sane (Keeps B.backing (Outside (B.fields.filter q)) s) (forFields (B.fields.filter q) (setDefault m) s) := by
  refine sane_forFields hs fun f hf s hs => ?_
  have := (List.mem_filter.mp hf).1
  exact sane_setDefault m hT.backing (hT.field f this) (hT.converts this) (hT.default f this) hs

theorem sane_setDefaults (m : Mode) (hT : Tame B) {s : Store} (hs : s.HasBacking B.backing) :
    Sane (Keeps B.backing (Outside (B.fields.filter Field.hasDefault)) s) (setDefaults m B s) :=
  sane_defaultsOf m hT _ hs

theorem sane_setZeros (m : Mode) (hT : Tame B) (d : Bool) {s : Store} (hs : s.HasBacking B.backing) :
    Sane (fun s' => s'.HasBacking B.backing) (setZeros m B d s) := by
  refine (sane_forFields hs fun f hf s hs => ?_).mono fun _ h => h.1
  have := (List.mem_filter.mp hf).1
  exact sane_setZero m hT.backing (hT.field f this) (hT.converts this) hs

theorem sane_newBody (m : Mode) (hT : Tame B) (d : Bool) {s : Store} (hs : s.HasBacking B.backing) :
    Sane (fun s' => s'.HasBacking B.backing) (newBody m B d s) := by
  refine (sane_setZeros m hT d hs).bind fun s1 h1 => ?_
  cases d
  · exact (sane_defaultsOf m hT _ h1).mono fun _ h => h.1
  · exact (sane_setDefaults m hT h1).mono fun _ h => h.1

theorem hasBacking_init (B : Bitfield) : (initStore B).HasBacking B.backing := by
  unfold initStore
  cases B.backing <;> simp [Store.HasBacking]

theorem sane_xorReverse (n : Nat) (bs : List (BitVec 8)) :
    Sane (fun bs' => bs'.length = bs.length) (xorReverse n bs) :=
  sane_forUpTo (P := fun bs' => bs'.length = bs.length) rfl fun _ _ _ h =>
    (sane_getB _ _).bind fun _ _ => (sane_getB _ _).bind fun _ _ => (sane_setB _ _ _).bind fun _ h1 =>
    (sane_getB _ _).bind fun _ _ => (sane_getB _ _).bind fun _ _ => (sane_setB _ _ _).bind fun _ h2 =>
    (sane_getB _ _).bind fun _ _ => (sane_getB _ _).bind fun _ _ => (sane_setB _ _ _).mono fun _ h3 => by
      rw [h3, List.length_set, h2, List.length_set, h1, List.length_set, h]

theorem sane_tempReverse (bs : List (BitVec 8)) :
    Sane (fun bs' => bs'.length = bs.length) (tempReverse bs) :=
  sane_forUpTo (P := fun bs' => bs'.length = bs.length) rfl fun _ _ _ h =>
    (sane_getB _ _).bind fun _ _ => (sane_getB _ _).bind fun _ _ => (sane_setB _ _ _).bind fun _ h1 =>
    (sane_setB _ _ _).mono fun _ h3 => by rw [h3, List.length_set, h1, List.length_set, h]

theorem sane_fromConv {x : Store} (hx : x.HasBacking B.backing) (e : Endian) :
    Sane (fun s => s.HasBacking B.backing) (fromConv B e x) := by
  cases hb : B.backing <;> rw [hb] at hx <;> cases x <;> simp only [Store.HasBacking] at hx <;> cases e <;>
    simp only [fromConv, hb]
  all_goals first | exact hx | exact (sane_xorReverse _ _).bind fun _ h => h.trans hx

theorem sane_writeConv {x : Store} (hx : x.HasBacking B.backing) (e : Endian) :
    Sane (fun s => s.HasBacking B.backing) (writeConv B e x) := by
  cases hb : B.backing <;> rw [hb] at hx <;> cases x <;> simp only [Store.HasBacking] at hx <;> cases e <;>
    simp only [writeConv, hb]
  all_goals first | exact hx | exact (sane_xorReverse _ _).bind fun _ h => h.trans hx

theorem sane_traitConv {x : Store} (hx : x.HasBacking B.backing) (e : Endian) :
    Sane (fun s => s.HasBacking B.backing) (traitConv B e x) := by
  cases hb : B.backing <;> rw [hb] at hx <;> cases x <;> simp only [Store.HasBacking] at hx <;> cases e <;>
    simp only [traitConv, hb]
  all_goals first | exact hx | exact (sane_tempReverse _).bind fun _ h => h.trans hx

/-! ## Calls -/

theorem outside_setters (B : Bitfield) {i : Nat} (h : ¬ B.writable i = true) :
    Outside (B.fields.filter fun f => f.hasSetter) i := by
  intro f hf
  obtain ⟨hf, hs⟩ := List.mem_filter.mp hf
  cases hc : f.covers i
  · rfl
  · exact absurd (List.any_eq_true.mpr ⟨f, hf, by rw [hc, ← hasSetter_eq, hs]; rfl⟩) h

theorem outside_defaults (B : Bitfield) {i : Nat}
    (h : ¬ B.Defaulted i) :
    Outside (B.fields.filter Field.hasDefault) i := by
  intro f hf
  obtain ⟨hf, hs⟩ := List.mem_filter.mp hf
  cases hc : f.covers i
  · rfl
  · exact absurd ⟨f, hf, hs, hc⟩ h

theorem sane_write (m : Mode) (hT : Tame B) (e : Endian) {x s : Store} (hx : x.HasBacking B.backing)
    (hs : s.HasBacking B.backing) :
    Sane (Keeps B.backing (fun i => ¬ B.writable i = true) s) (apiWriteE m B e x s) :=
  (sane_writeConv hx e).bind fun _ h => (sane_setAllFromSource m hT .readOnly h hs).mono fun _ h =>
    h.mono fun _ hi => outside_setters B hi

theorem sane_writeDefaults (m : Mode) (hT : Tame B) (e : Endian) {x s : Store} (hx : x.HasBacking B.backing)
    (hs : s.HasBacking B.backing) :
    Sane (Keeps B.backing (fun i => ¬ (B.writable i = true ∨ B.Defaulted i)) s) (apiWriteEDefaults m B e x s) :=
  (sane_writeConv hx e).bind fun _ h => (sane_setAllFromSource m hT .readOnly h hs).bind fun _ h =>
    (sane_setDefaults m hT h.1).mono fun _ h' =>
      (h.mono fun _ hi => outside_setters B fun hw => hi (.inl hw)).trans
        (h'.mono fun _ hi => outside_defaults B fun hd => hi (.inr hd))

theorem sane_mapM {α β : Type} (l : List α) {k : α → R β} (h : ∀ a ∈ l, Sane (fun _ => True) (k a)) :
    Sane (fun _ => True) (l.mapM k) := by
  induction l with
  | nil => trivial
  | cons a l ih =>
    rw [List.mapM_cons]
    exact (h a List.mem_cons_self).bind fun _ _ => (ih fun b hb => h b (List.mem_cons_of_mem _ hb)).bind fun _ _ => trivial

theorem specCall_touches {c : Call} (hb : c.OnBits = true) {g g' : Bits} {o : Out}
    (h : specCall B c g = .ok (o, g')) {i : Nat} (ht : ¬ c.Touches B i) : g' i = g i := by
  have all : ∀ {o l : Nat}, rangeForall o l B.writable = true → o ≤ i → i < o + l → B.writable i = true := by
    intro o l h h1 h2
    have := List.all_eq_true.mp h (i - o) (List.mem_range.mpr (by omega))
    rwa [show o + (i - o) = i by omega] at this
  cases c <;> simp only [Call.OnBits, Bool.false_eq_true] at hb
  case setBit o b =>
    simp only [specCall] at h
    cases h
    dsimp only
    split
    · exact absurd (by rename_i e; exact ⟨e.1, by rw [e.1]; exact e.2⟩) ht
    · rfl
  case checkedSetBit o b =>
    simp only [specCall] at h
    split at h
    · cases h; rfl
    · split at h
      · cases h
        dsimp only
        split
        · exact absurd (by rename_i hw e; exact ⟨e, by rw [e]; exact hw⟩) ht
        · rfl
      · cases h; rfl
  case setRange o l x =>
    simp only [specCall] at h
    cases h
    dsimp only
    split
    · rename_i e
      refine absurd ⟨e.2.1, e.2.2.2, fun _ _ => e.2.2.1⟩ ht
    · rfl
  case checkedSetRange o l x =>
    simp only [specCall] at h
    split at h
    · cases h; rfl
    · split at h
      · cases h; rfl
      · split at h
        · cases h
          dsimp only
          split
          · rename_i hw e
            exact absurd ⟨e.1, all hw e.1 e.2, fun _ _ => e.2⟩ ht
          · rfl
        · cases h; rfl
  all_goals
    simp only [specCall] at h
    first
    | (cases h; rfl)
    | (split at h
       · cases h; rfl
       · first | (cases h; rfl) | (split at h <;> first | (cases h; rfl) | (split at h <;> cases h <;> rfl)))

theorem specCall_bits_ok {c : Call} (hb : c.OnBits = true) (g : Bits) : ∃ r, specCall B c g = .ok r := by
  cases c <;> simp only [Call.OnBits, Bool.false_eq_true] at hb <;> simp only [specCall]
  all_goals
    first
    | exact ⟨_, rfl⟩
    | (split
       · exact ⟨_, rfl⟩
       · first | exact ⟨_, rfl⟩ | (split <;> first | exact ⟨_, rfl⟩ | (split <;> exact ⟨_, rfl⟩)))

theorem sane_fullCall (m : Mode) {c : Call} (hb : c.OnBits = true) (g : Bits) :
    Sane (fun r => ∀ i, ¬ c.Touches B i → r.2 i = g i) (fullCall m B c g) := by
  have base : ∀ c' : Call, c'.OnBits = true → (∀ i, c'.Touches B i → c.Touches B i) →
      Sane (fun r => ∀ i, ¬ c.Touches B i → r.2 i = g i) (specCall B c' g) := by
    intro c' hb' ht
    obtain ⟨r, hr⟩ := specCall_bits_ok (B := B) hb' g
    rw [hr]
    exact fun i hi => specCall_touches hb' hr fun h => hi (ht i h)
  have odd : ∀ {o l : Nat} {top : Call} {arr : R (Out × Bits)}, top.OnBits = true →
      (∀ i, top.Touches B i → c.Touches B i) → Sane (fun r => ∀ i, ¬ c.Touches B i → r.2 i = g i) arr →
      Sane (fun r => ∀ i, ¬ c.Touches B i → r.2 i = g i) (oddCall m B o l top arr g) := by
    intro o l top arr h1 h2 h3
    unfold oddCall
    split
    · split <;> simp [Sane]
    · exact base _ h1 h2
    · exact h3
  have outside : ∀ {o l : Nat}, oddRange B.backing o l = true → ∀ {i}, o ≤ i → B.writable i = true →
      o ≤ i ∧ B.writable i = true ∧ (o + l < 2 ^ 32 → 0 < l → i < o + l) := by
    intro o l h i h1 h2
    refine ⟨h1, h2, fun h3 h4 => ?_⟩
    unfold oddRange at h
    simp only [Bool.and_eq_true, Bool.or_eq_true, decide_eq_true_eq] at h
    omega
  cases c with
  | getRange o l =>
    simp only [fullCall]
    split
    · exact odd rfl (fun _ h => h) (by simp [Sane])
    · exact base _ rfl fun _ h => h
  | checkedGetRange o l =>
    simp only [fullCall]
    split
    · refine odd rfl (fun _ h => h) ?_
      split
      · simp [Sane]
      · exact fun _ _ => rfl
    · exact base _ rfl fun _ h => h
  | setRange o l x =>
    simp only [fullCall]
    split
    · exact odd rfl (fun _ h => outside ‹_› h.1 h.2.1) (by simp [Sane])
    · exact base _ rfl fun _ h => h
  | checkedSetRange o l x =>
    simp only [fullCall]
    split
    · refine odd rfl (fun _ h => outside ‹_› h.1 h.2.1) ?_
      split
      · simp [Sane]
      · exact fun _ _ => rfl
    · exact base _ rfl fun _ h => h
  | checkedSet f v => cases hb
  | _ => exact base _ hb fun _ h => h

theorem sane_call (m : Mode) (hB : WF B) (hT : Tame B) {c : Call} (hc : c.Typed B) {s : Store}
    (hs : s.HasBacking B.backing) :
    Sane (fun r => Keeps B.backing (fun i => i < B.backing.size ∧ ¬ c.Touches B i) s r.2) (call m B c s) := by
  have fld : ∀ {f : Field} {r : R Store}, Sane (Keeps B.backing f.outside s) r →
      (∀ i, f.covers i = true → c.Touches B i) →
      Sane (fun r : Out × Store => Keeps B.backing (fun i => i < B.backing.size ∧ ¬ c.Touches B i) s r.2)
        (do return (Out.unit, ← r)) := by
    intro f r h ht
    refine h.bind fun s' h' => h'.mono fun i hi => ?_
    cases hc : f.covers i
    · exact hc
    · exact absurd (ht i hc) hi.2
  have any : ∀ {r : R Store}, Sane (fun s' => s'.HasBacking B.backing) r → (∀ i, c.Touches B i) →
      Sane (fun r : Out × Store => Keeps B.backing (fun i => i < B.backing.size ∧ ¬ c.Touches B i) s r.2)
        (do return (Out.unit, ← r)) := by
    intro r h ht
    exact h.bind fun s' h' => ⟨h', fun i hi => absurd (ht i) hi.2⟩
  have rd : ∀ {α : Type} {r : R α} {k : α → Out}, Sane (fun _ => True) r →
      Sane (fun r : Out × Store => Keeps B.backing (fun i => i < B.backing.size ∧ ¬ c.Touches B i) s r.2)
        (do return (k (← r), s)) := fun h => h.bind fun _ _ => Keeps.refl hs
  by_cases hb : c.OnBits = true
  · obtain ⟨g, rfl⟩ := Store.cases_ofBits hs
    rw [call_bits m hB hb hc]
    have := sane_fullCall (B := B) m hb g
    cases hx : fullCall m B c g with
    | error q => exact this.of_err hx
    | ok r =>
      refine ⟨Store.hasBacking_ofBits _ _, fun i hi => ?_⟩
      have h2 := this.of_ok hx i hi.2
      show (Store.ofBits B.backing r.2).bit i = _
      rw [Store.bit_ofBits_lt hi.1, Store.bit_ofBits_lt hi.1, h2]
  · cases c with
    | get f => exact rd ((sane_getX m hT.backing (hT.field f hc.1) (hT.converts hc.1) hs).mono fun _ _ => trivial)
    | inverted f =>
      exact rd ((sane_invertedX m hT.backing (hT.field f hc.1) (hT.converts hc.1) hs).mono fun _ _ => trivial)
    | set f v => exact fld (sane_setX m hT.backing (hT.field f hc.1) (hT.converts hc.1) hs hc.2.2) fun _ h => h
    | checkedSet f v =>
      refine (sane_setImpl m true hT.backing (hT.field f hc.1) (hT.converts hc.1) hs hc.2.2).bind fun r h => ?_
      obtain ⟨r, s'⟩ := r
      have h' : Keeps B.backing (fun i => i < B.backing.size ∧ ¬ (Call.checkedSet f v).Touches B i) s s' :=
        h.mono fun i hi => by
          cases hc : f.covers i
          · exact hc
          · exact absurd hc hi.2
      cases r <;> exact h'
    | clearField f => exact fld (sane_setZero m hT.backing (hT.field f hc.1) (hT.converts hc.1) hs) fun _ h => h
    | clearFieldToDefault f =>
      exact fld (sane_setDefault m hT.backing (hT.field f hc.1) (hT.converts hc.1) (hT.default f hc.1) hs) fun _ h => h
    | invertField f => exact fld (sane_invertX m hT.backing (hT.field f hc.1) (hT.converts hc.1) hs) fun _ h => h
    | write e d x =>
      cases d with
      | false =>
        cases e <;> exact (sane_write m hT _ hc hs).bind fun _ h => h.mono fun _ hi => hi.2
      | true =>
        cases e <;> exact (sane_writeDefaults m hT _ hc hs).bind fun _ h => h.mono fun _ hi => hi.2
    | writeDefaults =>
      exact (sane_setDefaults m hT hs).bind fun _ h => h.mono fun _ hi => outside_defaults B hi.2
    | clear d => cases d <;> exact any (sane_newBody m hT _ hs) fun _ => trivial
    | invert =>
      refine any ?_ fun _ => trivial
      obtain ⟨g, rfl⟩ := Store.cases_ofBits hs
      rw [apiInvert_source m hB]
      exact (sane_setAllFromSource m hT .none (Store.hasBacking_ofBits _ _) hs).mono fun _ h => h.1
    | debug =>
      refine rd (sane_mapM _ fun f hf => ?_)
      exact (sane_extract m false hs hT.backing (hT.field f hf)).bind fun _ _ => trivial
    | _ => exact absurd rfl hb

/-! ## Making a bitfield -/

theorem sane_copyFromSlice (n len : Nat) (sl : List (BitVec 8)) :
    Sane (fun bs => bs.length = n) (copyFromSlice n len sl) :=
  sane_forUpTo (by simp) fun _ _ _ h => (sane_getB _ _).bind fun _ _ => (sane_setB _ _ _).mono fun _ h' => by
    rw [h', List.length_set, h]

/-- The inner error, or a stored value of the storage type. -/
def Made (B : Bitfield) : Except String Store → Prop
  | .ok s => s.HasBacking B.backing
  | .error _ => True

theorem sane_made {r : R Store} (h : Sane (fun s => s.HasBacking B.backing) r) :
    Sane (Made B) (r.map Except.ok) := by
  cases r with
  | ok s => exact h
  | error q => exact h

theorem sane_source (m : Mode) (hT : Tame B) {x : Store} (hx : x.HasBacking B.backing) :
    Sane (fun s => s.HasBacking B.backing) (setAllFromSource m B .none x (initStore B)) :=
  (sane_setAllFromSource m hT .none hx (hasBacking_init B)).mono fun _ h => h.1

theorem sane_from (m : Mode) (hT : Tame B) (e : Endian) {x : Store} (hx : x.HasBacking B.backing) :
    Sane (fun s => s.HasBacking B.backing) (apiFromE m B e x) :=
  (sane_fromConv hx e).bind fun _ h => sane_source m hT h

theorem sane_fromDefaults (m : Mode) (hT : Tame B) (e : Endian) {x : Store} (hx : x.HasBacking B.backing) :
    Sane (fun s => s.HasBacking B.backing) (apiFromEDefaults m B e x) :=
  (sane_fromConv hx e).bind fun _ h => (sane_source m hT h).bind fun _ h =>
    (sane_setDefaults m hT h).mono fun _ h => h.1

theorem sane_fromSlice (m : Mode) (hT : Tame B) (e : Endian) (d : Bool) (sl : List (BitVec 8)) {n : Nat}
    (hn : B.backing = .arr n) : Sane (fun s => s.HasBacking B.backing) (apiFromSlice m B e d sl) := by
  have key : ∀ bs : List (BitVec 8), bs.length = n → Sane (fun s => s.HasBacking B.backing)
      (setAllFromSource m B .none (.arr bs) (initStore B) >>= fun s => if d = true then setDefaults m B s else pure s) := by
    intro bs hbs
    refine (sane_source m hT (x := .arr bs) (by rw [hn]; exact hbs)).bind fun s hs => ?_
    cases d
    · exact Sane.ok hs
    · exact (sane_setDefaults m hT hs).mono fun _ h => h.1
  unfold apiFromSlice
  simp only [hn]
  rw [← hn]
  refine (sane_copyFromSlice n _ sl).bind fun bs hbs => ?_
  cases e
  · exact key bs hbs
  · exact (sane_xorReverse n bs).bind fun bs' h => key bs' (h.trans hbs)

theorem sane_checkedFromSlice (m : Mode) (hT : Tame B) (e : Endian) (d : Bool) (sl : List (BitVec 8)) {n : Nat}
    (hn : B.backing = .arr n) : Sane (Made B) (apiCheckedFromSlice m B e d sl) := by
  have key : ∀ bs : List (BitVec 8), bs.length = n → Sane (Made B)
      (setAllFromSource m B .none (.arr bs) (initStore B) >>= fun s =>
        if d = true then setDefaults m B s >>= fun s => pure (Except.ok s) else pure (Except.ok s)) := by
    intro bs hbs
    refine (sane_source m hT (x := .arr bs) (by rw [hn]; exact hbs)).bind fun s hs => ?_
    cases d
    · exact Sane.ok hs
    · exact (sane_setDefaults m hT hs).bind fun _ h => Sane.ok h.1
  unfold apiCheckedFromSlice
  simp only [hn]
  split
  · exact Sane.ok trivial
  · refine (sane_copyFromSlice n _ sl).bind fun bs hbs => ?_
    cases e
    · exact key bs hbs
    · exact (sane_xorReverse n bs).bind fun bs' h => key bs' (h.trans hbs)

theorem sane_builderWith (m : Mode) (hT : Tame B) (check : Bool) {f : Field} (hf : f ∈ B.fields) {v : Val}
    (hv : HasType f.ty v) {s : Store} (hs : s.HasBacking B.backing) :
    Sane (fun r => r.2.HasBacking B.backing) (builderWith m check f s v) := by
  have key : ∀ {v}, HasType f.ty v → Sane (fun r => r.2.HasBacking B.backing) (setImpl m check f s v) := fun h =>
    (sane_setImpl m check hT.backing (hT.field f hf) (hT.converts hf) hs h).mono fun _ h => h.1
  unfold builderWith
  split
  · split
    · exact key hv
    · rename_i t n hne ht
      refine key ?_
      rw [ht]
      exact hasType_cast (fun e => hne e) n
    · exact key hv
  · exact key hv

theorem sane_builderRun (m : Mode) (hT : Tame B) {cs : List BuilderCall}
    (hc : ∀ c ∈ cs, c.f ∈ B.fields ∧ c.f.reserved = false ∧ HasType c.f.ty c.v) {s : Store}
    (hs : s.HasBacking B.backing) : Sane (Made B) (builderRun m cs s) := by
  induction cs generalizing s with
  | nil => exact hs
  | cons c cs ih =>
    obtain ⟨h1, _, h3⟩ := hc c List.mem_cons_self
    simp only [builderRun]
    refine (sane_builderWith m hT c.check h1 h3 hs).bind fun r hr => ?_
    obtain ⟨r, s'⟩ := r
    cases r with
    | ok u => exact ih (fun c hm => hc c (List.mem_cons_of_mem _ hm)) hr
    | error e => trivial

theorem sane_new (m : Mode) (hT : Tame B) (d : Bool) :
    Sane (fun s => s.HasBacking B.backing) (newBody m B d (initStore B)) := sane_newBody m hT d (hasBacking_init B)

theorem sane_origin (m : Mode) (hT : Tame B) {o : Origin} (ho : o.Typed B) : Sane (Made B) (o.run m B) := by
  cases o with
  | new => exact sane_made (sane_new m hT _)
  | newWithoutDefaults => exact sane_made (sane_new m hT _)
  | default g =>
    refine sane_made ?_
    cases g
    · exact (sane_setDefaults m hT (hasBacking_init B)).mono fun _ h => h.1
    · exact sane_new m hT _
  | builder g d cs =>
    refine Sane.bind (P := fun s => s.HasBacking B.backing) ?_ fun s hs => sane_builderRun m hT ho hs
    cases g <;> cases d <;> exact sane_new m hT _
  | «from» e d x =>
    cases e <;> cases d <;> refine sane_made ?_ <;>
      first | exact sane_from m hT _ ho | exact sane_fromDefaults m hT _ ho
  | fromTrait x => exact sane_made ((sane_traitConv ho _).bind fun _ h => sane_source m hT h)
  | fromSlice e d sl => exact sane_made (sane_fromSlice m hT _ d sl ho.choose_spec)
  | checkedFromSlice e d sl => exact sane_checkedFromSlice m hT _ d sl ho.choose_spec

end Bf
