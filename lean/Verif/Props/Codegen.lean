import Verif.Lemmas.Codegen
import Verif.Props.Declared
import Verif.Props.Exact

/-!
# The emitted Rust code (C54, C55)

`program p` is the list of functions the macro emits for the parsed struct `p`, as Rust syntax (`Model/Quote.lean`).
`(program p).call`, `.make` and `.history` look functions up by name and run their bodies with the semantics of
`Model/Rust.lean`. The theorems about run-time behaviour (C06 - C37) are about functions written in Lean; here the
emitted code is shown to behave the same, and in terms of the declaration.
-/

namespace Bf

open Rust Quote

variable {m rt : Mode} {cfg : String → Bool} {s : StructSpec} {p : Parsed} {as : List BitfieldArgSpec}
  {fuel : Nat} {f : FieldSpec} {o : Nat}

/-! ## C54 -/

/-- **C54** (single calls). An emitted function does to every value of the bitfield what the function of the same
name in `Model/Api.lean` does, which C06 - C37 describe. -/
theorem C54_call (hr : s.Readable) (ha : s.rest = bitfieldTokens as) (hl : s.Legal) (hu : s.Compiles)
    (h : parseBitfield m cfg s.attr s.decl = .ok p) (hf : 2 ^ 64 ≤ fuel) {c : Call}
    (hc : c.Typed p.bitfield) (hg : Generates p (c.tag p.bob)) (st : Store)
    (hst : st.HasBacking p.bitfield.backing) :
    (program p).call p.bitfield rt fuel c st = liftE (call rt p.bitfield c st) := by
  have C := StructSpec.compiled hr ha hl hu h
  exact program_call C.generable hf hc (by rw [bob_eq p (ty_of_backing C.wf.backing)]; exact hg) hst

/-- **C54** (sequences of calls). The same for sequences of calls. -/
theorem C54_calls (hr : s.Readable) (ha : s.rest = bitfieldTokens as) (hl : s.Legal) (hu : s.Compiles)
    (h : parseBitfield m cfg s.attr s.decl = .ok p) (hT : UserConversions p.bitfield) (hf : 2 ^ 64 ≤ fuel)
    (cs : List Call) (hc : ∀ c ∈ cs, c.Typed p.bitfield) (hg : ∀ c ∈ cs, Generates p (c.tag p.bob)) (st : Store)
    (hst : st.HasBacking p.bitfield.backing) :
    (program p).history p.bitfield rt fuel cs st = liftE (history rt p.bitfield cs st) := by
  have C := StructSpec.compiled hr ha hl hu h
  exact program_history C.generable (fun hc hs h => ((sane_call rt C.wf (C.tame hT) hc hs).of_ok h).1) hf hc
    (by rw [bob_eq p (ty_of_backing C.wf.backing)]; exact hg) hst

/-- **C54** (histories). Running emitted functions one after the other, on any value of the bitfield, gives the
results and the final bits of the abstract machine of `MachineFull.lean`, for every sequence of calls the
generated interface contains, with any arguments of the right types. -/
theorem C54_history (hr : s.Readable) (ha : s.rest = bitfieldTokens as) (hl : s.Legal) (hu : s.Usable)
    (h : parseBitfield m cfg s.attr s.decl = .ok p) (hf : 2 ^ 64 ≤ fuel) (cs : List Call)
    (hc : ∀ c ∈ cs, c.Typed p.bitfield) (hg : ∀ c ∈ cs, Generates p (c.tag p.bob)) (st : Store)
    (hst : st.HasBacking p.bitfield.backing) :
    (program p).history p.bitfield rt fuel cs st =
      liftE ((fullHistory rt p.bitfield cs st.bit).map fun r => (r.1, Store.ofBits p.bitfield.backing r.2)) := by
  obtain ⟨hB, hS, -⟩ := C52_wf hr ha hl hu h
  rw [← C36_every_history rt hB hS cs hc st hst]
  exact program_history (StructSpec.compiled hr ha hl hu.compiles h).generable
    (fun hc hs h => call_ok_backing rt hB hS hc hs h) hf hc
    (by rw [bob_eq p (ty_of_backing hB.backing)]; exact hg) hst

/-- **C54** (constructors, conversions and builders). Missing from the full property: without the `new` functions,
the constructors of the builder do not compile if a field has a getter but no setter
(`finding_builder_read_only`). -/
theorem C54_make_partial (hr : s.Readable) (ha : s.rest = bitfieldTokens as) (hl : s.Legal) (hu : s.Compiles)
    (h : parseBitfield m cfg s.attr s.decl = .ok p) (hf : 2 ^ 64 ≤ fuel) {og : Origin}
    (ho : og.Typed p.bitfield) (hw : og.Fits (genOf p)) (hg : Generates p (og.tag p.bob)) (st : Store)
    (hst : st.HasBacking p.bitfield.backing) :
    (program p).make p.bitfield rt fuel og st = liftE (og.run rt p.bitfield) := by
  have C := StructSpec.compiled hr ha hl hu h
  exact program_make C.generable hf ho hw (by rw [bob_eq p (ty_of_backing C.wf.backing)]; exact hg) hst

/-- **C54** (`Builder::default()`). It makes the builder that `Builder::new()` makes: both hold the bitfield of `new()`.
Missing: as for the constructors of the builder above. -/
theorem C54_builder_default_partial (hr : s.Readable) (ha : s.rest = bitfieldTokens as) (hl : s.Legal) (hu : s.Compiles)
    (h : parseBitfield m cfg s.attr s.decl = .ok p) (hf : 2 ^ 64 ≤ fuel)
    (hw : (Origin.builder (genOf p).new true []).Fits (genOf p)) (hg : Generates p (.impl .builderDefault)) (st : Store)
    (hst : st.HasBacking p.bitfield.backing) :
    (program p).self rt fuel (.impl .builderDefault) [] st = liftE ((Origin.run rt p.bitfield .new)) ∧
    (program p).self rt fuel (.impl .builderDefault) [] st =
      (program p).make p.bitfield rt fuel (.builder (genOf p).new true []) st := by
  have C := StructSpec.compiled hr ha hl hu h
  have h1 := program_builderDefault (m := rt) C.generable hf hw hg hst
  refine ⟨h1, h1.trans ?_⟩
  have hb : Generates p (.builderFn "new") := by
    have := (C39_group hr ha h (g := .builder) (by decide) (.impl .builderDefault) (by simp [Group.tags])).mp hg
    exact (C39_group hr ha h (g := .builder) (by decide) (.builderFn "new") (by simp [Group.tags])).mpr this
  rw [C54_make_partial hr ha hl hu h hf (og := .builder (genOf p).new true []) (by intro c h; cases h) hw hb st hst]
  congr 1
  simp only [Origin.run, builderRun]
  have e : builderNew rt p.bitfield (genOf p).new true = apiNew rt p.bitfield := by
    cases (genOf p).new <;> rfl
  rw [e]
  cases apiNew rt p.bitfield <;> rfl

theorem isReadable_parsed (h : f.CanRead) : (f.parsed o).isReadable = true ∧ (f.parsed o).reserved = false := by
  obtain ⟨⟨hr, hi⟩, h⟩ := h
  refine ⟨?_, hr⟩
  simp only [Field.isReadable, FieldSpec.parsed, FieldSpec.effective, hr]
  cases ha : f.access? with
  | none => simp
  | some a => rw [ha] at h; cases a <;> simp_all

/-- **C54** (accessors of a declared struct). The emitted getter of a readable declared field returns the value of
the declared type formed by the bits at the declared position. The emitted setter of a writable one replaces these
bits by those of its argument and leaves the others alone. -/
theorem C54_accessors (hr : s.Readable) (ha : s.rest = bitfieldTokens as) (hl : s.Legal) (hu : s.Usable)
    (h : parseBitfield m cfg s.attr s.decl = .ok p) (hfuel : 2 ^ 64 ≤ fuel)
    (hf : s.At (orderValue cfg as) f o) :
    ∃ g, g.name = f.name ∧ ∀ st : Store, st.HasBacking p.bitfield.backing →
      (f.CanRead → (program p).call p.bitfield rt fuel (.get g) st =
        liftE ((f.ty.read f.width fun i => st.bit (o + i)).map fun v => (.val v, st))) ∧
      (f.CanWrite → ∀ v, f.ty.Contains v →
        (∀ name c code, f.ty = .custom name c → v = .custom code →
          c.fromBits (c.intoBits code % 2 ^ f.width).toNat = .ok code) →
        ∃ st', (program p).call p.bitfield rt fuel (.set g v) st = .ok (.unit, st') ∧
          st'.HasBacking p.bitfield.backing ∧
          ∀ i < p.bitfield.backing.size, st'.bit i =
            if o ≤ i ∧ i < o + f.width then f.ty.write v (i - o) else st.bit i) := by
  have R := StructSpec.runs hr ha hl hu h
  have hg : f.parsed o ∈ p.bitfield.fields := (R.fields _).mpr ⟨f, o, hf, rfl⟩
  refine ⟨f.parsed o, rfl, fun st hst => ⟨fun hR => ?_, fun hW v hv hc => ?_⟩⟩
  · have hR' := isReadable_parsed (o := o) hR
    have hgen : Generates p (.acc .get f.name) := (C05_getters hr h _).mpr ⟨f, At.mem hf, rfl, hR⟩
    rw [C54_call hr ha hl hu.compiles h hfuel (c := .get (f.parsed o)) ⟨hg, hR'.2, hR'.1⟩ hgen st hst]
    obtain ⟨g', hg', hn', huniq, hx⟩ := C52_accessors hr ha hl hu h hf
    obtain rfl := huniq hR.1.1 _ hg rfl
    simp only [call]
    rw [(hx rt st hst).1]
    cases TypeSpec.read f.ty f.width fun i => st.bit (o + i) <;> rfl
  · have hW' := (isWritable_parsed (o := o) hf.1).mpr hW
    have hgen : Generates p (.acc .set f.name) := (C05_setters hr h _).1.mpr ⟨f, At.mem hf, rfl, hW⟩
    obtain ⟨g', hg', hn', huniq, hx⟩ := C52_accessors hr ha hl hu h hf
    obtain rfl := huniq hW.1.1 _ hg rfl
    obtain ⟨st', h1, h2, h3⟩ := (hx rt st hst).2 v hv hc
    refine ⟨st', ?_, h2, h3⟩
    rw [C54_call hr ha hl hu.compiles h hfuel (c := .set (f.parsed o) v) ⟨hg, hW', hasType_data hv⟩ hgen st hst]
    simp only [call]
    rw [h1]
    rfl

/-- **C54** (construction of a declared struct). If the `new` functions are generated, the emitted `new()` gives
every declared field its declared default, or zeros without one. -/
theorem C54_new (hr : s.Readable) (ha : s.rest = bitfieldTokens as) (hl : s.Legal) (hu : s.Usable)
    (h : parseBitfield m cfg s.attr s.decl = .ok p) (hfuel : 2 ^ 64 ≤ fuel)
    (hn : GroupOn cfg as .new = true)
    (hc : ∀ f ∈ s.fields, f.ignored = false → ∀ name c, f.ty = .custom name c →
      c.Stable f.width (natOf f.width f.initial)) (st : Store) (hst : st.HasBacking p.bitfield.backing) :
    ∃ st', (program p).make p.bitfield rt fuel .new st = .ok (.ok st') ∧ st'.HasBacking p.bitfield.backing ∧
      ∀ f o, s.At (orderValue cfg as) f o → ∀ i < f.width, st'.bit (o + i) = f.initial i := by
  have hgen : Generates p (.fn "new") := (C39_group hr ha h (by decide) _ (by simp [Group.tags])).mpr hn
  obtain ⟨st', h1, h2, h3⟩ := C52_new hr ha hl hu h hc rt
  refine ⟨st', ?_, h2, h3⟩
  rw [C54_make_partial hr ha hl hu.compiles h hfuel (og := .new) trivial trivial hgen st hst]
  simp only [Origin.run]
  rw [h1]
  rfl

/-! ## C55 -/

/-- **C55** (the functions). A function is emitted exactly if it belongs to the generated interface, and none is
emitted twice. -/
theorem C55_functions (hr : s.Readable) (ha : s.rest = bitfieldTokens as) (hl : s.Legal) (hu : s.Compiles)
    (h : parseBitfield m cfg s.attr s.decl = .ok p) :
    (∀ t, t.isFn = true → (((program p).fn t).isSome = true ↔ Generates p t)) ∧
    ((program p).fns.map Prod.fst).Nodup := by
  have ht := ty_of_backing (StructSpec.compiled hr ha hl hu h).wf.backing
  refine ⟨fun t hf => generates_iff p ht hf, ?_⟩
  rw [program_tags p ht]
  refine List.Pairwise.filter _ ?_
  rw [List.pairwise_map]
  exact surface_nodup (distinct_of hr h)

/-- **C55** (constants). The emitted `X_BITS` and `X_OFFSET` are the width and the position of the declared field. -/
theorem C55_constants (hr : s.Readable) (ha : s.rest = bitfieldTokens as) (hl : s.Legal) (hu : s.Compiles)
    (h : parseBitfield m cfg s.attr s.decl = .ok p) (hf : s.At (orderValue cfg as) f o)
    (hv : f.CanRead ∨ f.CanWrite) :
    (program p).const .bitsConst f.name = some f.width ∧ (program p).const .offsetConst f.name = some o := by
  have R := StructSpec.compiled hr ha hl hu h
  have hg : f.parsed o ∈ p.bitfield.fields := (R.fields _).mpr ⟨f, o, hf, rfl⟩
  have hc : (f.parsed o).hasConstants = true := by
    rcases hv with hv | hv
    · have := isReadable_parsed (o := o) hv
      have h1 : (f.parsed o).hasGetter = true := by
        obtain ⟨h1, h2⟩ := this
        unfold Field.isReadable at h1
        unfold Field.hasGetter
        rw [h2]
        cases hx : (f.parsed o).access <;> simp_all
      simp [Field.hasConstants, h1]
    · have h1 : (f.parsed o).hasSetter = true := by
        rw [hasSetter_eq]; exact (isWritable_parsed hf.1).mpr hv
      simp [Field.hasConstants, h1]
  exact const_find (G := genOf p) R.generable hg hc

/-- **C55** (calls run). A call of an emitted function neither uses a name that does not resolve nor a value at a
wrong type, and its loops end: it returns a result or panics. The result does not depend on the bound on loops. -/
theorem C55_call (hr : s.Readable) (ha : s.rest = bitfieldTokens as) (hl : s.Legal) (hu : s.Compiles)
    (h : parseBitfield m cfg s.attr s.decl = .ok p) (hT : UserConversions p.bitfield) (hf : 2 ^ 64 ≤ fuel) {c : Call}
    (hc : c.Typed p.bitfield) (hg : Generates p (c.tag p.bob)) (st : Store)
    (hst : st.HasBacking p.bitfield.backing) :
    ((∃ r, (program p).call p.bitfield rt fuel c st = .ok r) ∨
      ∃ q, (program p).call p.bitfield rt fuel c st = .error (.panic q)) ∧
    ∀ fuel', 2 ^ 64 ≤ fuel' →
      (program p).call p.bitfield rt fuel' c st = (program p).call p.bitfield rt fuel c st := by
  have C := StructSpec.compiled hr ha hl hu h
  have e := fun {k} (hk : 2 ^ 64 ≤ k) => C54_call (rt := rt) hr ha hl hu h hk hc hg st hst
  refine ⟨?_, fun k hk => by rw [e hk, e hf]⟩
  rw [e hf]
  cases hx : call rt p.bitfield c st with
  | ok r => exact .inl ⟨r, rfl⟩
  | error q =>
    have := (sane_call rt C.wf (C.tame hT) hc hst).of_err hx
    exact .inr ⟨q, by cases q <;> first | rfl | exact absurd rfl this⟩

/-- **C55** (constructors run). Missing from the full property: `finding_builder_read_only`. -/
theorem C55_make_partial (hr : s.Readable) (ha : s.rest = bitfieldTokens as) (hl : s.Legal) (hu : s.Compiles)
    (h : parseBitfield m cfg s.attr s.decl = .ok p) (hT : UserConversions p.bitfield) (hf : 2 ^ 64 ≤ fuel)
    {og : Origin} (ho : og.Typed p.bitfield) (hw : og.Fits (genOf p)) (hg : Generates p (og.tag p.bob)) (st : Store)
    (hst : st.HasBacking p.bitfield.backing) :
    ((∃ r, (program p).make p.bitfield rt fuel og st = .ok r) ∨
      ∃ q, (program p).make p.bitfield rt fuel og st = .error (.panic q)) ∧
    ∀ fuel' st', 2 ^ 64 ≤ fuel' → st'.HasBacking p.bitfield.backing →
      (program p).make p.bitfield rt fuel' og st' = (program p).make p.bitfield rt fuel og st := by
  have C := StructSpec.compiled hr ha hl hu h
  have e := fun {k st} (hk : 2 ^ 64 ≤ k) (hst : Store.HasBacking st p.bitfield.backing) =>
    C54_make_partial (rt := rt) hr ha hl hu h hk ho hw hg st hst
  refine ⟨?_, fun k st' hk hst' => by rw [e hk hst', e hf hst]⟩
  rw [e hf hst]
  cases hx : og.run rt p.bitfield with
  | ok r => exact .inl ⟨r, rfl⟩
  | error q =>
    have := (sane_origin rt (C.tame hT) ho).of_err hx
    exact .inr ⟨q, by cases q <;> first | rfl | exact absurd rfl this⟩

/-! ## The hypotheses hold for a concrete struct -/

namespace ExR

theorem conversions (h : parseBitfield m (fun _ => false) R.attr R.decl = .ok p) : UserConversions p.bitfield := by
  intro g hg cd hty n
  obtain ⟨f, o, hf, rfl⟩ := ((StructSpec.runs readable rfl legal usable h).fields g).mp hg
  have hm := At.mem hf
  simp only [R, List.mem_cons, List.not_mem_nil, or_false] at hm
  rcases hm with rfl | rfl | rfl | rfl | rfl | rfl | rfl <;> cases hty
  nofun

end ExR

/-- The emitted getter of `k` returns `from_bits` of bits 23 to 26; the emitted setter of `a` replaces bits 27 to 31. -/
example (rt : Mode) (st : Store) (v : Int) (hv : -128 ≤ v ∧ v < 128) : ∀ p,
    parseBitfield .checked (fun _ => false) ExR.R.attr ExR.R.decl = .ok p → st.HasBacking p.bitfield.backing →
    (∃ g, g.name = "k" ∧ (program p).call p.bitfield rt (2 ^ 64) (.get g) st =
      .ok (.val (.custom (natOf 4 fun i => st.bit (23 + i))), st)) ∧
    ∃ g st', g.name = "a" ∧ (program p).call p.bitfield rt (2 ^ 64) (.set g (.int v)) st = .ok (.unit, st') ∧
      ∀ i < 32, st'.bit i = if 27 ≤ i ∧ i < 32 then intBit v (i - 27) else st.bit i := by
  intro p hp hst
  constructor
  · obtain ⟨g, hn, h⟩ := C54_accessors (rt := rt) (fuel := 2 ^ 64) (f := ExR.R.fields[2]) ExR.readable rfl ExR.legal
      ExR.usable hp (Nat.le_refl _) ⟨rfl, [_, _], _, 32, rfl, rfl, rfl⟩
    exact ⟨g, hn, (h st hst).1 ⟨⟨by decide, rfl⟩, .inl rfl⟩⟩
  · obtain ⟨g, hn, h⟩ := C54_accessors (rt := rt) (fuel := 2 ^ 64) (f := ExR.R.fields[0]) ExR.readable rfl ExR.legal
      ExR.usable hp (Nat.le_refl _) ⟨rfl, [], _, 32, rfl, rfl, rfl⟩
    obtain ⟨st', h1, _, h2⟩ := (h st hst).2 ⟨⟨by decide, rfl⟩, .inr rfl⟩ (.int v) hv (by rintro _ _ _ h; cases h)
    refine ⟨g, st', hn, h1, fun i hi => ?_⟩
    have hb : p.bitfield.backing.size = 32 := by cases hp; rfl
    exact h2 i (by omega)

/-- The emitted `new()` stores -3 in bits 27 to 31. -/
example (rt : Mode) (st : Store) : ∀ p, parseBitfield .checked (fun _ => false) ExR.R.attr ExR.R.decl = .ok p →
    st.HasBacking p.bitfield.backing →
    ∃ st', (program p).make p.bitfield rt (2 ^ 64) .new st = .ok (.ok st') ∧
      ∀ i < 5, st'.bit (27 + i) = intBit (-3) i := by
  intro p hp hst
  obtain ⟨st', h1, _, h3⟩ := C54_new (rt := rt) (fuel := 2 ^ 64) ExR.readable rfl ExR.legal ExR.usable hp (Nat.le_refl _) (by decide)
    ExR.lawful.initial st hst
  exact ⟨st', h1, h3 ExR.R.fields[0] 27 ⟨rfl, [], _, 32, rfl, rfl, rfl⟩⟩

/-- The emitted `Builder::default()` is that of `Builder::new()`. -/
example (rt : Mode) (st : Store) : ∀ p, parseBitfield .checked (fun _ => false) ExR.R.attr ExR.R.decl = .ok p →
    st.HasBacking p.bitfield.backing →
    (program p).self rt (2 ^ 64) (.impl .builderDefault) [] st =
      (program p).make p.bitfield rt (2 ^ 64) (.builder (genOf p).new true []) st := by
  intro p hp hst
  refine (C54_builder_default_partial ExR.readable rfl ExR.legal ExR.usable.compiles hp (Nat.le_refl _) ⟨rfl, ?_⟩ ?_ st hst).2
  · cases hp; intro h; cases h
  · cases hp; exact ⟨.pub, by decide⟩

/-- A history on the emitted code: `clear_bits`, then bit 3 set, then read. -/
example (st : Store) : ∀ p, parseBitfield .checked (fun _ => false) ExR.R.attr ExR.R.decl = .ok p →
    st.HasBacking p.bitfield.backing → 
    let cs : List Call := [.clear false, .setBit 3 true, .getBit 3]
    (∀ c ∈ cs, c.Typed p.bitfield) ∧ ∀ c ∈ cs, Generates p (c.tag p.bob) := by
  intro p hp hst
  cases hp
  refine ⟨?_, ?_⟩
  · simp [Call.Typed]
  · simp only [List.mem_cons, List.not_mem_nil, or_false, forall_eq_or_imp, forall_eq]
    exact ⟨⟨.pub, by decide⟩, ⟨.pub, by decide⟩, ⟨.pub, by decide⟩⟩

/-- The emitted constants of `b` are 6 and 16. -/
example : ∀ p, parseBitfield .checked (fun _ => false) ExR.R.attr ExR.R.decl = .ok p →
    (program p).const .bitsConst "b" = some 6 ∧ (program p).const .offsetConst "b" = some 16 :=
  fun _ hp => C55_constants (f := ExR.R.fields[4]) ExR.readable rfl ExR.legal ExR.usable.compiles hp
    ⟨rfl, [_, _, _, _], _, 32, rfl, rfl, rfl⟩ (.inl ⟨⟨by decide, rfl⟩, .inr rfl⟩)

/-- The emitted `set_bit` returns or panics; so does `from_bits`. -/
example (rt : Mode) (st : Store) : ∀ p, parseBitfield .checked (fun _ => false) ExR.R.attr ExR.R.decl = .ok p →
    st.HasBacking p.bitfield.backing →
    ((∃ r, (program p).call p.bitfield rt (2 ^ 64) (.setBit 3 true) st = .ok r) ∨
      ∃ q, (program p).call p.bitfield rt (2 ^ 64) (.setBit 3 true) st = .error (.panic q)) ∧
    ((∃ r, (program p).make p.bitfield rt (2 ^ 64) (.from none true st) st = .ok r) ∨
      ∃ q, (program p).make p.bitfield rt (2 ^ 64) (.from none true st) st = .error (.panic q)) := by
  intro p hp hst
  refine ⟨(C55_call ExR.readable rfl ExR.legal ExR.usable.compiles hp (ExR.conversions hp) (Nat.le_refl _) ?_ ?_ st hst).1,
    (C55_make_partial ExR.readable rfl ExR.legal ExR.usable.compiles hp (ExR.conversions hp) (Nat.le_refl _) ?_ ?_ ?_ st hst).1⟩
  · simp [Call.Typed]
  · cases hp; exact ⟨.pub, by decide⟩
  · exact hst
  · trivial
  · have : p.bob = "bits" := by cases hp; rfl
    rw [this]
    show Generates p (.fn "from_bits_with_defaults")
    cases hp; exact ⟨.pub, by decide⟩

namespace Finding


/-- `#[bitfield(u8, new = false)] struct R { #[bits(4, access = ro)] a: u8, #[bits(4)] b: u8 }` -/
def readOnly : StructSpec where
  storage := .int .u8
  rest := bitfieldTokens [.flag .new false]
  vis := .pub
  fields := [⟨"a", .pub, .int .u8, some ⟨some 4, [.access .ro]⟩⟩, ⟨"b", .pub, .int .u8, some ⟨some 4, []⟩⟩]

/-- Without the `new` functions the builder's own `new` spells the constants of `a` as `Self::A_BITS`, where `Self` is
the builder, which has none: the emitted code does not compile. -/
theorem finding_builder_read_only : ∀ m rt fuel, ∃ p,
    parseBitfield m (fun _ => false) readOnly.attr readOnly.decl = .ok p ∧
    Generates p (.builderFn "new") ∧ 
    (program p).make p.bitfield rt fuel (.builder false true []) (.int 8 0) = .error .illTyped := by
  intro m rt fuel
  obtain ⟨p, hp⟩ : ∃ p, p = match (parseBitfield .checked (fun _ => false) readOnly.attr readOnly.decl) with
    | .ok p => p
    | .error _ => ⟨.int .u8, .pub, [], [], defaultArgs (fun _ => false)⟩ := ⟨_, rfl⟩
  have h : (program p).fn (.builderFn "new") = some (builderNewFn (genOf p) true) := by
    have h := fn_builderNew (d := true) (G := genOf p) (en := fun f => f.enabled p.args) (by
      exact fn_present (feat := .builder) (F := builderNewFn (genOf p) true) (by rw [hp]; rfl) (by simp [featureFns]))
    exact h
  refine ⟨p, by rw [hp]; cases m <;> rfl, ?_, ?_⟩
  · rw [hp]; exact ⟨.pub, by decide⟩
  · have hb : (builderNewFn (genOf p) true).run ((program p).ctx rt fuel (.int 8 0) 3) [] (.int 8 0) = .error .illTyped := by
      have h1 : genOf p = genOf (match (parseBitfield .checked (fun _ => false) readOnly.attr readOnly.decl) with
          | .ok p => p
          | .error _ => ⟨.int .u8, .pub, [], [], defaultArgs (fun _ => false)⟩) := by rw [hp]
      rw [h1]
      generalize program p = P
      cases rt <;> rfl
    unfold Program.make Program.self
    simp only [Origin.tag, if_true]
    rw [h]
    simp only [Origin.args, hb]
    rfl

end Finding

end Bf
