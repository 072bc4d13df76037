import Verif.Lemmas.Arguments
import Verif.Props.Codegen

/-!
# What the arguments of `#[bitfield(..)]` can and cannot change (C59)

`SpecArgs.lean` says when two argument lists say the same about an argument.
-/

namespace Bf

open Rust Quote

variable {m rt : Mode} {cfg : String → Bool} {s : StructSpec} {p p' : Parsed} {as as' : List BitfieldArgSpec}
  {fuel : Nat} {t : Option SynType} {d : StructDecl}

theorem fieldOffset_same {A A' : BitfieldAttr} (ht : A'.ty = A.ty) (ho : A'.args.order = A.args.order) (b : Nat)
    (prev : List PField) : fieldOffset m A' b prev = fieldOffset m A b prev := by
  unfold fieldOffset
  rw [ht, ho]

theorem parseField_same {A A' : BitfieldAttr} (ht : A'.ty = A.ty) (ho : A'.args.order = A.args.order) (v : Vis)
    (f : FieldDecl) (prev : List PField) : parseField m A' v f prev = parseField m A v f prev := by
  unfold parseField
  simp only [fieldOffset_same ht ho]

theorem parseFields_same {A A' : BitfieldAttr} (ht : A'.ty = A.ty) (ho : A'.args.order = A.args.order) (v : Vis)
    (fs : List FieldDecl) : ∀ seen a b, parseFields m A' v fs seen a b = parseFields m A v fs seen a b := by
  induction fs with
  | nil => intros; rfl
  | cons f fs ih =>
    intro seen a b
    simp only [parseFields, parseField_same ht ho, ih]

theorem checkFit_same {A A' : BitfieldAttr} (ht : A'.ty = A.ty) (fs : List PField) :
    checkFit m A' fs = checkFit m A fs := by
  unfold checkFit
  rw [ht]

/-- With a list of arguments the macro gets as far as with another that states the same order. -/
theorem parseBitfield_same {r r' : BitfieldArgs} (h : parseBitfieldArgs cfg (bitfieldTokens as) = .ok r)
    (h' : parseBitfieldArgs cfg (bitfieldTokens as') = .ok r') (ho : r'.order = r.order) :
    parseBitfield m cfg ⟨t, bitfieldTokens as'⟩ d =
      (parseBitfield m cfg ⟨t, bitfieldTokens as⟩ d).map fun p => { p with args := r' } := by
  unfold parseBitfield parseBitfieldAttr
  dsimp only
  rw [h, h']
  cases t with
  | none => rfl
  | some t =>
    dsimp only
    cases t.dataType with
    | error e => rfl
    | ok ty =>
      have key : ∀ (A A' : BitfieldAttr), A'.ty = A.ty → A'.args.order = A.args.order → A'.args = r' →
          (match d.fields with
            | none => (.error (.error "Non-named fields are not supported.") : P Parsed)
            | some ds => do
              let (fields, ignored) ← parseFields m A' d.vis ds [] [] []
              checkFit m A' fields
              return { ty := A'.ty, vis := d.vis, fields, ignored, args := A'.args }) =
          (match d.fields with
            | none => (.error (.error "Non-named fields are not supported.") : P Parsed)
            | some ds => do
              let (fields, ignored) ← parseFields m A d.vis ds [] [] []
              checkFit m A fields
              return { ty := A.ty, vis := d.vis, fields, ignored, args := A.args }).map
            fun (p : Parsed) => { p with args := r' } := by
        intro A A' h1 h2 h3
        cases d.fields with
        | none => rfl
        | some ds =>
          dsimp only
          rw [parseFields_same h1 h2]
          cases parseFields m A d.vis ds [] [] [] with
          | error e => rfl
          | ok x =>
            obtain ⟨fs, ig⟩ := x
            change (checkFit m A' fs >>= fun _ => _) = Except.map _ (checkFit m A fs >>= fun _ => _)
            rw [checkFit_same h1, h1, h3]
            cases checkFit m A fs <;> rfl
      cases ty with
      | custom c => rfl
      | int i =>
        by_cases hu : (DataType.int i).unsigned = true
        · simp only [hu, if_true]
          exact key ⟨.int i, r⟩ ⟨.int i, r'⟩ rfl ho rfl
        · simp only [hu]; rfl
      | array n =>
        by_cases hu : (DataType.array n).unsigned = true
        · simp only [hu, if_true]
          exact key ⟨.array n, r⟩ ⟨.array n, r'⟩ rfl ho rfl
        · simp only [hu]; rfl

theorem order_same (h : lastAbout .order as' = lastAbout .order as) {r r' : BitfieldArgs}
    (hr : ArgsFrom (defaultArgs cfg) as r) (hr' : ArgsFrom (defaultArgs cfg) as' r') : r'.order = r.order := by
  rw [hr.order, hr'.order, statedOrder_eq, statedOrder_eq, h]

theorem flag_same {k : Flag} (h : lastAbout (.flag k) as' = lastAbout (.flag k) as) {r r' : BitfieldArgs}
    (hr : ArgsFrom (defaultArgs cfg) as r) (hr' : ArgsFrom (defaultArgs cfg) as' r') :
    r'.flag k = r.flag k ∧ r'.userSet k = r.userSet k := by
  rw [hr.flag, hr'.flag, hr.userSet, hr'.userSet, stated_eq, stated_eq, h]
  exact ⟨rfl, rfl⟩

theorem endian_same {k : EndianKey} (h : lastAbout (.endian k) as' = lastAbout (.endian k) as) {r r' : BitfieldArgs}
    (hr : ArgsFrom (defaultArgs cfg) as r) (hr' : ArgsFrom (defaultArgs cfg) as' r') :
    r'.endian k = r.endian k := by
  rw [hr.endian, hr'.endian, statedEndian_eq, statedEndian_eq, h]

/-! ## C59 -/

/-- **C59** (layout). Only `order` bears on whether a declaration is accepted, on the error it is rejected with, and on
the fields: two argument lists that say the same about it lead to the same outcome for every declaration, up to the
arguments recorded. -/
theorem C59_layout (h : lastAbout .order as' = lastAbout .order as) :
    ∃ r, parseBitfield m cfg ⟨t, bitfieldTokens as'⟩ d =
      (parseBitfield m cfg ⟨t, bitfieldTokens as⟩ d).map fun p => { p with args := r } := by
  obtain ⟨r, h1, h2⟩ := parseBitfieldArgs_tokens cfg as
  obtain ⟨r', h1', h2'⟩ := parseBitfieldArgs_tokens cfg as'
  exact ⟨r', parseBitfield_same h1 h1' (order_same h h2 h2')⟩

/-- **C59** (only the last argument about each key counts). Argument lists that say the same about everything have the
same effect. -/
theorem C59_same (h : SameAbout (fun _ => True) as as') :
    parseBitfield m cfg ⟨t, bitfieldTokens as'⟩ d = parseBitfield m cfg ⟨t, bitfieldTokens as⟩ d := by
  obtain ⟨r, h1, h2⟩ := parseBitfieldArgs_tokens cfg as
  obtain ⟨r', h1', h2'⟩ := parseBitfieldArgs_tokens cfg as'
  have : r' = r := BitfieldArgs.ext_of (fun k => (flag_same (h (.flag k) trivial) h2 h2').1)
    (fun k => (flag_same (h (.flag k) trivial) h2 h2').2) (order_same (h .order trivial) h2 h2')
    (fun k => endian_same (h (.endian k) trivial) h2 h2')
  unfold parseBitfield parseBitfieldAttr
  dsimp only
  rw [h1, h1', this]

/-- **C59** (the order of the arguments does not matter). Arguments with different keys can be written in any order. -/
theorem C59_reorder (h : as.Perm as') (hn : (as.map BitfieldArgSpec.key).Nodup) :
    parseBitfield m cfg ⟨t, bitfieldTokens as'⟩ d = parseBitfield m cfg ⟨t, bitfieldTokens as⟩ d :=
  C59_same fun k _ => lastAbout_perm h hn k

theorem call_heap (B : Bitfield) (b : Bool) (c : Call) (st : Store) :
    call rt { B with heap := b } c st = call rt B c st := by
  cases c <;> rfl

theorem fullCall_heap (B : Bitfield) (b : Bool) (c : Call) (g : Bits) :
    fullCall rt { B with heap := b } c g = fullCall rt B c g := by
  cases c <;> rfl

theorem fullHistory_heap (B : Bitfield) (b : Bool) (cs : List Call) : ∀ g : Bits,
    fullHistory rt { B with heap := b } cs g = fullHistory rt B cs g := by
  induction cs with
  | nil => intros; rfl
  | cons c cs ih =>
    intro g
    simp only [fullHistory, fullCall_heap, ih]

theorem typed_heap (B : Bitfield) (b : Bool) {c : Call} (h : c.Typed B) : c.Typed { B with heap := b } := by
  cases c <;> exact h

theorem originTyped_heap (B : Bitfield) (b : Bool) {o : Origin} (h : o.Typed B) : o.Typed { B with heap := b } := by
  cases o <;> exact h

theorem origin_heap (B : Bitfield) (b : Bool) (o : Origin) : o.run rt { B with heap := b } = o.run rt B := by
  cases o <;> rfl

/-- The descriptions of the two bitfields differ at most in how an array is stored. -/
theorem bitfield_same (hr : s.Readable) (ha : s.rest = bitfieldTokens as)
    (hs : SameAbout ArgKey.Behaviour as as') (h : parseBitfield m cfg s.attr s.decl = .ok p)
    (h' : parseBitfield m cfg ⟨some s.storage.syntax, bitfieldTokens as'⟩ s.decl = .ok p') :
    p'.bitfield = { p.bitfield with heap := p'.args.arrayHeap } ∧ p'.bob = p.bob := by
  have a := args_of hr ha h
  have a' := args_of (s := { s with rest := bitfieldTokens as' }) ⟨hr.storage, hr.ty, hr.default⟩ rfl h'
  obtain ⟨r, h1⟩ := C59_layout (m := m) (cfg := cfg) (t := some s.storage.syntax) (d := s.decl)
    (hs .order trivial)
  have h2 : parseBitfield m cfg ⟨some s.storage.syntax, bitfieldTokens as⟩ s.decl = .ok p := by rw [← ha]; exact h
  rw [h', h2] at h1
  have e := Except.ok.inj h1
  have e1 := endian_same (hs (.endian .from) trivial) a a'
  have e2 := endian_same (hs (.endian .into) trivial) a a'
  have e3 := endian_same (hs (.endian .write) trivial) a a'
  simp only [BitfieldArgs.endian] at e1 e2 e3
  have hty : p'.ty = p.ty := by rw [e]
  have hfs : p'.fields = p.fields := by rw [e]
  constructor
  · unfold Parsed.bitfield
    rw [hty, hfs, e1, e2, e3]
  · unfold Parsed.bob Parsed.intBacked
    rw [hty]

/-- **C59** (functions). Arguments other than `order` and the endian arguments decide which functions are generated and
how the bits are stored, not what a function does: any generated function that two such lists of arguments agree to
generate returns the same value and stores the same bits. In particular moving an array to the heap is not observable,
and neither is leaving out a group of functions. -/
theorem C59_history (hr : s.Readable) (ha : s.rest = bitfieldTokens as) (hl : s.Legal) (hu : s.Usable)
    (hs : SameAbout ArgKey.Behaviour as as') (h : parseBitfield m cfg s.attr s.decl = .ok p)
    (h' : parseBitfield m cfg ⟨some s.storage.syntax, bitfieldTokens as'⟩ s.decl = .ok p') (hf : 2 ^ 64 ≤ fuel)
    (cs : List Call) (hc : ∀ c ∈ cs, c.Typed p.bitfield) (hg : ∀ c ∈ cs, Generates p (c.tag p.bob))
    (hg' : ∀ c ∈ cs, Generates p' (c.tag p.bob)) (st : Store) (hst : st.HasBacking p.bitfield.backing) :
    (program p').history p'.bitfield rt fuel cs st = (program p).history p.bitfield rt fuel cs st := by
  obtain ⟨e, eb⟩ := bitfield_same hr ha hs h h'
  have hb : p'.bitfield.backing = p.bitfield.backing := by rw [e]
  rw [C54_history hr ha hl hu h hf cs hc hg st hst,
    C54_history (s := { s with rest := bitfieldTokens as' }) ⟨hr.storage, hr.ty, hr.default⟩ rfl
      ⟨hl.storage, hl.field, hl.names, hl.total⟩ ⟨hu.storage, hu.bytes, hu.custom, hu.default⟩ h' hf cs
      (fun c hm => by rw [e]; exact typed_heap _ _ (hc c hm)) (by rw [eb]; exact hg') st (by rw [hb]; exact hst),
    hb, e, fullHistory_heap]

/-- **C59** (constructors, conversions and builders). As for the functions; the condition `Fits` of C54 is required of both. -/
theorem C59_make (hr : s.Readable) (ha : s.rest = bitfieldTokens as) (hl : s.Legal) (hu : s.Compiles)
    (hs : SameAbout ArgKey.Behaviour as as') (h : parseBitfield m cfg s.attr s.decl = .ok p)
    (h' : parseBitfield m cfg ⟨some s.storage.syntax, bitfieldTokens as'⟩ s.decl = .ok p') (hf : 2 ^ 64 ≤ fuel)
    {og : Origin} (ho : og.Typed p.bitfield) (hw : og.Fits (genOf p)) (hw' : og.Fits (genOf p'))
    (hg : Generates p (og.tag p.bob)) (hg' : Generates p' (og.tag p.bob)) (st : Store)
    (hst : st.HasBacking p.bitfield.backing) :
    (program p').make p'.bitfield rt fuel og st = (program p).make p.bitfield rt fuel og st := by
  obtain ⟨e, eb⟩ := bitfield_same hr ha hs h h'
  have hb : p'.bitfield.backing = p.bitfield.backing := by rw [e]
  rw [C54_make_partial hr ha hl hu h hf ho hw hg st hst,
    C54_make_partial (s := { s with rest := bitfieldTokens as' }) ⟨hr.storage, hr.ty, hr.default⟩ rfl
      ⟨hl.storage, hl.field, hl.names, hl.total⟩ ⟨hu.storage, hu.default, hu.bytes⟩ h' hf
      (by rw [e]; exact originTyped_heap _ _ ho) hw' (by rw [eb]; exact hg') st (by rw [hb]; exact hst),
    e, origin_heap]

/-- **C59** (the heap). Two argument lists that say the same about everything but `array_heap` generate the same items
with the same visibilities. -/
theorem C59_heap (hs : SameAbout (· ≠ .flag .arrayHeap) as as')
    (h : parseBitfield m cfg ⟨t, bitfieldTokens as⟩ d = .ok p) :
    ∃ p', parseBitfield m cfg ⟨t, bitfieldTokens as'⟩ d = .ok p' ∧ surface p' = surface p := by
  obtain ⟨r, h1, h2⟩ := parseBitfieldArgs_tokens cfg as
  obtain ⟨r', h1', h2'⟩ := parseBitfieldArgs_tokens cfg as'
  have key := parseBitfield_same (m := m) (t := t) (d := d) h1 h1' (order_same (hs .order (by decide)) h2 h2')
  rw [h] at key
  have hp : p = { p with args := r } := by
    have := parseBitfield_same (m := m) (t := t) (d := d) h1 h1 rfl
    rw [h] at this
    exact Except.ok.inj this
  have hr : r' = { r with arrayHeap := r'.arrayHeap } := by
    refine BitfieldArgs.ext_of (fun k => ?_) (fun k => ?_) ((order_same (hs .order (by decide)) h2 h2').trans rfl)
      (fun k => (endian_same (hs (.endian k) (by simp)) h2 h2').trans (by cases k <;> rfl))
    · by_cases hk : k = .arrayHeap
      · rw [hk]; rfl
      · exact (flag_same (hs (.flag k) (by simpa using hk)) h2 h2').1.trans (by cases k <;> first | rfl | exact absurd rfl hk)
    · by_cases hk : k = .arrayHeap
      · rw [hk]; rfl
      · exact (flag_same (hs (.flag k) (by simpa using hk)) h2 h2').2.trans (by cases k <;> rfl)
  refine ⟨_, key, ?_⟩
  rw [hp, hr]
  unfold surface
  congr 1

/-! ## Examples -/

/-- The order is irrelevant, and so is an argument that is given again. -/
example (d : StructDecl) :
    parseBitfield m cfg ⟨t, bitfieldTokens [.flag .copy false, .order .msb, .endian .into .little, .flag .copy false]⟩ d =
      parseBitfield m cfg ⟨t, bitfieldTokens [.flag .copy true, .endian .into .little, .flag .copy false, .order .msb]⟩ d :=
  C59_same fun k _ => by
    by_cases h1 : k = .order
    · subst h1; rfl
    by_cases h2 : k = .flag .copy
    · subst h2; rfl
    by_cases h3 : k = .endian .into
    · subst h3; rfl
    simp [lastAbout, BitfieldArgSpec.key, Ne.symm h1, Ne.symm h2, Ne.symm h3]

example (d : StructDecl) :
    parseBitfield m cfg ⟨t, bitfieldTokens [.order .msb, .flag .builder false, .flag .arrayHeap true]⟩ d =
      parseBitfield m cfg ⟨t, bitfieldTokens [.flag .arrayHeap true, .order .msb, .flag .builder false]⟩ d :=
  C59_reorder ((List.Perm.swap ..).trans ((List.Perm.swap ..).cons _)) (by decide)

/-!
```
#[bitfield([u8; 4], array_heap = true)]
struct H { #[bits(12)] a: u16, #[bits(default = 9)] b: u8, #[bits(12)] _r: u16 }
```
-/

namespace ExH

def H : StructSpec where
  storage := .bytes 4
  rest := bitfieldTokens [.flag .arrayHeap true]
  vis := .pub
  fields := [
    ⟨"a", .priv, .int .u16, some ⟨some 12, []⟩⟩,
    ⟨"b", .priv, .int .u8, some ⟨none, [.default (.int ⟨false, 0, .dec, ['9'], []⟩) (.int 9)]⟩⟩,
    ⟨"_r", .priv, .int .u16, some ⟨some 12, []⟩⟩]

theorem readable : H.Readable where
  storage := trivial
  ty := by
    intro f hf
    simp only [H, List.mem_cons, List.not_mem_nil, or_false] at hf
    rcases hf with rfl | rfl | rfl <;> trivial
  default := by
    intro f hf d v hd
    simp only [H, List.mem_cons, List.not_mem_nil, or_false] at hf
    rcases hf with rfl | rfl | rfl <;> simp [FieldSpec.args] at hd
    obtain ⟨rfl, rfl⟩ := hd
    exact ⟨⟨by decide, by decide, by decide, by decide⟩, by decide, by decide, by decide⟩

theorem accepted (m : Mode) : ∃ p, parseBitfield m (fun _ => false) H.attr H.decl = .ok p := by
  cases m <;> exact ⟨_, rfl⟩

theorem legal : H.Legal :=
  ((C03_acceptance_partial (m := .checked) readable (.inl rfl)).mp (accepted _)).1

theorem usable : H.Usable where
  storage := by intro h; cases h
  bytes := by
    intro f hf _ len h
    simp only [H, List.mem_cons, List.not_mem_nil, or_false] at hf
    rcases hf with rfl | rfl | rfl <;> cases h
  custom := by
    intro f hf _ name c h
    simp only [H, List.mem_cons, List.not_mem_nil, or_false] at hf
    rcases hf with rfl | rfl | rfl <;> cases h
  default := by
    intro f hf _ d v h
    simp only [H, List.mem_cons, List.not_mem_nil, or_false] at hf
    rcases hf with rfl | rfl | rfl <;> cases h
    have hw : FieldSpec.CanWrite ⟨"b", .priv, .int .u8,
        some ⟨none, [.default (.int ⟨false, 0, .dec, ['9'], []⟩) (.int 9)]⟩⟩ := ⟨⟨by decide, rfl⟩, .inr rfl⟩
    exact ⟨⟨none, .inl ⟨hw, rfl⟩, by decide, fun h => absurd hw h, by decide⟩, .inl hw⟩

/-- Without `array_heap`, and with `copy = false` instead. -/
theorem same : SameAbout ArgKey.Behaviour [.flag .arrayHeap true] [.flag .copy false] := by
  intro k h
  cases k with
  | flag _ => cases h
  | order => rfl
  | endian _ => rfl

end ExH

/-- On the heap the emitted code of `H` allocates a box, and `clear_bits`, `set_bit(3, true)`, `into_bytes()` return and
store the same as without. -/
example (rt : Mode) (st : Store) : ∀ p p', parseBitfield .checked (fun _ => false) ExH.H.attr ExH.H.decl = .ok p →
    parseBitfield .checked (fun _ => false) ⟨some ExH.H.storage.syntax, bitfieldTokens [.flag .copy false]⟩
      ExH.H.decl = .ok p' →
    st.HasBacking (.arr 4) →
    (program p).boxed = true ∧ (program p').boxed = false ∧
    let cs : List Call := [.clear false, .setBit 3 true, .into none]
    (program p').history p'.bitfield rt (2 ^ 64) cs st = (program p).history p.bitfield rt (2 ^ 64) cs st := by
  intro p p' h h' hst
  have hb : p.bitfield.backing = .arr 4 := by cases h; rfl
  refine ⟨by cases h; rfl, by cases h'; rfl, C59_history ExH.readable rfl ExH.legal ExH.usable ExH.same h h'
    (Nat.le_refl _) _ (by simp [Call.Typed]) ?_ ?_ st (by rw [hb]; exact hst)⟩
  · simp only [List.mem_cons, List.not_mem_nil, or_false, forall_eq_or_imp, forall_eq]
    cases h
    exact ⟨⟨.pub, by decide⟩, ⟨.pub, by decide⟩, ⟨.pub, by decide⟩⟩
  · simp only [List.mem_cons, List.not_mem_nil, or_false, forall_eq_or_imp, forall_eq]
    cases h; cases h'
    exact ⟨⟨.pub, by decide⟩, ⟨.pub, by decide⟩, ⟨.pub, by decide⟩⟩

example (rt : Mode) (st : Store) : ∀ p p', parseBitfield .checked (fun _ => false) ExH.H.attr ExH.H.decl = .ok p →
    parseBitfield .checked (fun _ => false) ⟨some ExH.H.storage.syntax, bitfieldTokens [.flag .copy false]⟩
      ExH.H.decl = .ok p' →
    st.HasBacking (.arr 4) →
    (program p').make p'.bitfield rt (2 ^ 64) .new st = (program p).make p.bitfield rt (2 ^ 64) .new st := by
  intro p p' h h' hst
  have hb : p.bitfield.backing = .arr 4 := by cases h; rfl
  refine C59_make (og := .new) ExH.readable rfl ExH.legal ExH.usable.compiles ExH.same h h' (Nat.le_refl _) trivial trivial trivial ?_ ?_ st
    (by rw [hb]; exact hst)
  · cases h; exact ⟨.pub, by decide⟩
  · cases h; cases h'; exact ⟨.pub, by decide⟩

example : ∃ p p', parseBitfield .checked (fun _ => false) ExH.H.attr ExH.H.decl = .ok p ∧
    parseBitfield .checked (fun _ => false) ⟨some ExH.H.storage.syntax, bitfieldTokens []⟩ ExH.H.decl = .ok p' ∧
    surface p' = surface p ∧ 40 ≤ (surface p).length := by
  obtain ⟨p, h⟩ := ExH.accepted .checked
  obtain ⟨p', h', e⟩ := C59_heap (as' := []) (t := some ExH.H.storage.syntax) (d := ExH.H.decl)
    (as := [.flag .arrayHeap true]) (m := .checked) (cfg := fun _ => false) (p := p) (by
      intro k hk
      simp [lastAbout, BitfieldArgSpec.key, Ne.symm hk]) h
  exact ⟨p, p', h, h', e, by cases h; decide⟩

end Bf
