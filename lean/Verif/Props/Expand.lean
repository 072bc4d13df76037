import Verif.Lemmas.Expand
import Verif.Props.Report

/-!
# The output of the macro as a whole (C61), visibilities (C62)
-/

namespace Bf

variable {m : Mode} {cfg : String → Bool} {attr : AttrInput} {s : StructSource} {p : Parsed}

/-! ## C61: the items -/

/-- **C61** (completeness). What is printed are the generated items (C05, C39), each once, in another order. -/
theorem C61_items : (expansion s p).items.Perm (surface p) := by
  simp only [Expansion.items, expansion, section_, ← List.flatMap_append]
  exact ((partition_perm _).trans (sorted_perm.filter _)).flatMap_right _

/-- **C61** (places). Above the `impl` block is just the struct. In the `impl` block are exactly the functions and constants of
the bitfield, below it are trait implementations and what belongs to the builder. -/
theorem C61_places {i : Item} :
    (i ∈ (expansion s p).above ↔ i ∈ surface p ∧ i.tag = .bitfield) ∧
    (i ∈ (expansion s p).inside ↔ i ∈ surface p ∧ i.tag.OfImpl) ∧
    (i ∈ (expansion s p).below ↔ i ∈ surface p ∧ i.tag ≠ .bitfield ∧ ¬ i.tag.OfImpl) := by
  simp only [expansion, mem_section, mem_surface]
  refine ⟨⟨?_, ?_⟩, ⟨?_, ?_⟩, ⟨?_, ?_⟩⟩
  · rintro ⟨F, h1, h2, h3⟩; exact ⟨⟨F, h1, h3⟩, (item_position h3).1.mp h2⟩
  · rintro ⟨⟨F, h1, h3⟩, h2⟩; exact ⟨F, h1, (item_position h3).1.mpr h2, h3⟩
  · rintro ⟨F, h1, h2, h3⟩; exact ⟨⟨F, h1, h3⟩, (item_position h3).2.mp h2⟩
  · rintro ⟨⟨F, h1, h3⟩, h2⟩; exact ⟨F, h1, (item_position h3).2.mpr h2, h3⟩
  · rintro ⟨F, h1, h2, h3⟩
    refine ⟨⟨F, h1, h3⟩, fun h => ?_, fun h => ?_⟩
    · rw [(item_position h3).1.mpr h] at h2; cases h2
    · rw [(item_position h3).2.mpr h] at h2; cases h2
  · rintro ⟨⟨F, h1, h3⟩, h2, h4⟩
    refine ⟨F, h1, ?_, h3⟩
    cases hF : F.position with
    | above => exact absurd ((item_position h3).1.mp hF) h2
    | inside => exact absurd ((item_position h3).2.mp hF) h4
    | below => rfl

/-! ## C61: the struct -/

/-- The attribute is one of the user's. -/
def StructAttr.user? : StructAttr → Option String
  | .user tokens => some tokens
  | _ => none

/-- **C61** (struct). The struct that is printed has the name of the declared struct, as has the `impl` block. All attributes
of the declared struct are kept, in their order. Of those that are added, `repr(transparent)` is there exactly if no field is
ignored and `repr(C)` otherwise, and the derived traits are those of C49. -/
theorem C61_struct {t : StructSpec} {as : List BitfieldArgSpec} (hr : t.Readable) (ha : t.rest = bitfieldTokens as)
    (h : parseBitfield m cfg t.attr t.decl = .ok p) :
    (expansion s p).struct.name = s.name ∧ (expansion s p).impl = s.name ∧
    (expansion s p).struct.attrs.filterMap StructAttr.user? = s.attrs ∧
    (.reprTransparent ∈ (expansion s p).struct.attrs ↔ ∀ f ∈ t.fields, f.ignored = false) ∧
    (.reprC ∈ (expansion s p).struct.attrs ↔ ∃ f ∈ t.fields, f.ignored = true) ∧
    (.deriveCopyClone ∈ (expansion s p).struct.attrs ↔
      flagValue cfg as .copy = true ∧ (t.intBacked = true ∨ flagValue cfg as .arrayHeap = false)) ∧
    (.deriveClone ∈ (expansion s p).struct.attrs ↔
      flagValue cfg as .copy = true ∧ t.intBacked = false ∧ flagValue cfg as .arrayHeap = true) := by
  obtain ⟨h1, h2, h3, h4, -, -⟩ := C49_shape hr ha h
  have hi : (∃ f ∈ t.fields, f.ignored = true) ↔ ¬ p.shape.transparent = true := by
    rw [h2]; simp
  have h3' : p.args.copy = true ↔ _ := h3
  have hb : (p.args.arrayHeap && !p.intBacked) = true ↔ _ := h1
  rw [hi, ← h2, ← h3', ← hb]
  have hb' : t.intBacked = true ∨ flagValue cfg as .arrayHeap = false ↔ ¬ (p.args.arrayHeap && !p.intBacked) = true := by
    rw [hb]
    cases t.intBacked <;> cases flagValue cfg as .arrayHeap <;> simp
  rw [hb']
  refine ⟨rfl, rfl, ?_, ?_⟩
  · have hd : (defaultAttrs p).filterMap StructAttr.user? = [] := by
      unfold defaultAttrs
      cases p.hasIgnored <;> cases p.args.copy <;> cases (p.args.arrayHeap && !p.intBacked) <;> rfl
    have hu : (s.attrs.map StructAttr.user).filterMap StructAttr.user? = s.attrs := by
      rw [List.filterMap_map]
      exact List.filterMap_some
    simp only [expansion, structDef, List.filterMap_append, hd, hu]
    simp [StructAttr.user?]
  · simp only [expansion, structDef, defaultAttrs, Parsed.shape]
    cases p.hasIgnored <;> cases p.args.copy <;> cases (p.args.arrayHeap && !p.intBacked) <;> simp

/-- **C61** (members). Besides the storage, the members of the printed struct are the ignored fields, all of them and in their
order; the storage is in a `Box` exactly if it is an array and `array_heap` is on. -/
theorem C61_members {t : StructSpec} {as : List BitfieldArgSpec} (hr : t.Readable) (ha : t.rest = bitfieldTokens as)
    (h : parseBitfield m cfg t.attr t.decl = .ok p) :
    (expansion s p).struct.shape.members.map Prod.fst = (t.fields.filter fun f => f.ignored).map FieldSpec.name ∧
    ((expansion s p).struct.shape.boxed = true ↔ t.intBacked = false ∧ flagValue cfg as .arrayHeap = true) :=
  ⟨(C49_shape hr ha h).2.2.2.2.2, (C49_shape hr ha h).1⟩

/-! ## C61: the outcome -/

/-- **C61** (outcome). The macro returns the code for the parsed struct if there is one and generation does not panic. An error
of the parser is returned as the compile error the parser describes, and a panic, wherever it happens, as an internal error:
the compiler itself never sees a panic. -/
theorem C61_outcome {E : Expansion} :
    (bitfieldMacro m cfg attr s = .code E ↔ ∃ p items, parseBitfield m cfg attr s.decl = .ok p ∧
      expandBitfield m cfg attr s.decl = .ok items ∧ E = expansion s p) ∧
    (∀ msg, bitfieldMacro m cfg attr s = .compileError (some msg) ↔ expandBitfield m cfg attr s.decl = .error (.error msg)) ∧
    (bitfieldMacro m cfg attr s = .compileError none ↔ ∃ e, expandBitfield m cfg attr s.decl = .error (.panic e)) := by
  rw [bitfieldMacro_eq]
  unfold expandBitfield
  cases h : parseBitfield m cfg attr s.decl with
  | error e =>
    cases e <;> exact ⟨⟨fun h => (by cases h), fun ⟨_, _, h, _⟩ => (by cases h)⟩,
      fun _ => ⟨fun h => (by cases h <;> rfl), fun h => (by cases h <;> rfl)⟩,
      ⟨fun h => (by first | cases h; done | exact ⟨_, rfl⟩), fun ⟨_, h⟩ => (by cases h <;> rfl)⟩⟩
  | ok p =>
    rw [ok_bind]
    by_cases h1 : p.args.forcePanic = true
    · simp [h1]
    · by_cases h2 : p.idents.all canFormatIdent = true
      · simp only [h1, h2, if_true, Bool.false_eq_true, if_false]
        exact ⟨⟨fun h => (by cases h; exact ⟨p, _, rfl, rfl, rfl⟩), fun ⟨_, _, h, _, e⟩ => (by cases h; rw [e])⟩,
          fun _ => ⟨fun h => (by cases h), fun h => (by cases h)⟩, ⟨fun h => (by cases h), fun ⟨_, h⟩ => (by cases h)⟩⟩
      · simp [h1, h2]

/-- **C61** (verdict). The output is code for every way of writing a legal struct, and otherwise a compile error that says what is
wrong. Missing from the full property, which is false for them: the declarations that are not `Reportable` (see C57). -/
theorem C61_verdict_partial (h : Reportable attr s.decl) (hd : s.decl.DefaultsReadable) :
    ((∃ (t : StructSpec) (as : List BitfieldArgSpec), t.Spelled as attr s.decl ∧ t.Readable ∧ t.Legal) →
      ∃ p, parseBitfield m cfg attr s.decl = .ok p ∧ bitfieldMacro m cfg attr s = .code (expansion s p)) ∧
    ((¬ ∃ (t : StructSpec) (as : List BitfieldArgSpec), t.Spelled as attr s.decl ∧ t.Readable ∧ t.Legal) →
      ∃ msg, bitfieldMacro m cfg attr s = .compileError (some msg)) := by
  obtain ⟨h1, h2⟩ := C57_verdict_partial (m := m) (cfg := cfg) h hd
  refine ⟨fun hx => ?_, fun hx => C61_outcome (E := expansion s ⟨.custom idCodec, .pub, [], [], defaultArgs cfg⟩) |>.2.1 _ |>.mpr (h2 hx).choose_spec |> .intro _⟩
  obtain ⟨items, hi⟩ := h1 hx
  obtain ⟨p, hp, -⟩ := expandBitfield_ok.mp hi
  exact ⟨p, hp, C61_outcome.1.mpr ⟨p, items, hp, hi, rfl⟩⟩

/-- **C61** (enums). The same for `#[bitflag]`: the code for the enum, the error of the parser, or an internal error. -/
theorem C61_enum {d : EnumDecl} :
    (∀ c, bitflagMacro cfg attr d = .code c ↔ expandBitflag cfg attr d = .ok c) ∧
    (∀ msg, bitflagMacro cfg attr d = .compileError (some msg) ↔ expandBitflag cfg attr d = .error (.error msg)) ∧
    (bitflagMacro cfg attr d = .compileError none ↔ ∃ e, expandBitflag cfg attr d = .error (.panic e)) := by
  unfold bitflagMacro
  rcases expandBitflag cfg attr d with e | c
  · cases e <;> simp [catchPanics]
  · simp [catchPanics]

/-- Generic parameters of the struct are dropped: whatever they are, the printed struct has none, and is accepted. -/
theorem finding_generics_dropped : (expansion s p).struct.generics = [] := rfl

/-! ## C62 -/

/-- **C62** (one segment). A visibility that names no more than one module is printed as one that means the same, in every
module. Missing: `pub(in a::b)`, see `finding_pub_in_path`. -/
theorem C62_visibility_partial {v : SynVis} (h : ∀ i path, v = .restricted i path → path.length ≤ 1) (here : List String) :
    (Vis.ofSyn v).toSyn.scope here = v.scope here := by
  cases v with
  | inherited => rfl
  | pub => rfl
  | restricted i path =>
    have hl := h i path rfl
    match path, hl with
    | [], _ => cases i <;> simp [Vis.ofSyn, Vis.toSyn, SynVis.scope, resolve]
    | [x], _ =>
      have hj : String.join [x] = x := by simp [String.join]
      simp only [Vis.ofSyn, Vis.toSyn, SynVis.scope, hj, true_and]
      by_cases hx : x = "crate" ∨ x = "self" ∨ x = "super"
      · rcases hx with rfl | rfl | rfl <;> cases i <;> simp
      · simp only [not_or] at hx
        have : resolve here [x] = none := by
          unfold resolve
          split <;> simp_all
        simp [hx, this]

/-- **C62** (the struct and what has its visibility). The printed struct can be used exactly where the declared one could, and so
can the functions of the bitfield and of the builder that belong to no field. Missing: as above. -/
theorem C62_struct_partial {t : StructSpec} (hr : t.Readable) (h : parseBitfield m cfg t.attr t.decl = .ok p)
    (hs : t.vis = Vis.ofSyn s.vis) (hv : ∀ i path, s.vis = .restricted i path → path.length ≤ 1) (here : List String) :
    (expansion s p).struct.vis.scope here = s.vis.scope here ∧
    ∀ n w, ((⟨.fn n, w⟩ : Item) ∈ (expansion s p).items ∨ (⟨.builderFn n, w⟩ : Item) ∈ (expansion s p).items ∨
      (⟨.builder, w⟩ : Item) ∈ (expansion s p).items) → w.toSyn.scope here = s.vis.scope here := by
  have hp : p.vis = Vis.ofSyn s.vis := (StructSpec.kept hr h).vis.trans hs
  refine ⟨?_, ?_⟩
  · change p.vis.toSyn.scope here = _
    rw [hp]
    exact C62_visibility_partial hv here
  · intro n w hx
    simp only [C61_items.mem_iff] at hx
    have : w = t.vis := by
      rcases hx with hx | hx | hx
      · exact C47_whole hr h hx (.inr (.inr (.inl ⟨n, rfl⟩)))
      · exact C47_whole hr h hx (.inr (.inr (.inr ⟨n, rfl⟩)))
      · exact C47_whole hr h hx (.inr (.inl rfl))
    rw [this, hs]
    exact C62_visibility_partial hv here

/-- **C62** (getters and setters). The accessors of a field that can be read can be used exactly where its visibility says.
Missing: as above, and fields that can only be written (see C47). -/
theorem C62_field_partial {t : StructSpec} (hr : t.Readable) (h : parseBitfield m cfg t.attr t.decl = .ok p)
    {f : FieldSpec} (hf : f ∈ t.fields) {v : SynVis} (hfv : f.vis = Vis.ofSyn v) (hi : v ≠ .inherited)
    (hv : ∀ i path, v = .restricted i path → path.length ≤ 1) (hc : f.CanRead) {a : Accessor}
    (ha : a ∈ [.get, .set, .checkedSet, .bitsConst, .offsetConst, .builderWith, .builderCheckedWith]) {w : Vis}
    (hw : (⟨.acc a f.name, w⟩ : Item) ∈ (expansion s p).items) (here : List String) :
    w.toSyn.scope here = v.scope here := by
  obtain ⟨g, hg, hn, hh, -, h2, -⟩ := C47_field_partial hr h (C61_items.mem_iff.mp hw)
  have hres : f.reserved = false := hc.1.1
  have hgf : g = f := by
    refine Classical.byContradiction fun hne => ?_
    have hgr : g.reserved = false := by
      unfold FieldSpec.reserved at hres ⊢
      rw [hn]; exact hres
    have hp := (StructSpec.kept hr h).names
    exact pairwise_ne hp hg hf hne hgr hres hn
  subst hgf
  have hw' : w = g.ownVis t.vis := h2 (by
    simp only [List.mem_cons, List.not_mem_nil, or_false] at ha ⊢
    rcases ha with rfl | rfl | rfl | rfl | rfl | rfl | rfl <;> decide) hc
  have : g.ownVis t.vis = Vis.ofSyn v := by
    unfold FieldSpec.ownVis
    rw [hfv]
    cases v with
    | inherited => exact absurd rfl hi
    | _ => rfl
  rw [hw', this]
  exact C62_visibility_partial hv here

/-- A path of several segments that the compiler accepts is printed as something that it does not accept. -/
theorem finding_pub_in_path {i : Bool} {path : List String} {here : List String} {sc : Scope}
    (h : (SynVis.restricted i path).scope here = some sc) (hl : 2 ≤ path.length) (hne : ∀ x ∈ path, x ≠ "") :
    (Vis.ofSyn (.restricted i path)).toSyn.scope here = none := by
  match path, hl with
  | a :: b :: rest, _ =>
    have ha : a = "crate" ∨ a = "self" ∨ a = "super" := by
      refine Classical.byContradiction fun hn => ?_
      simp only [not_or] at hn
      have : resolve here (a :: b :: rest) = none := by
        unfold resolve
        split <;> simp_all
      simp only [SynVis.scope, this] at h
      split at h <;> cases h
    have hj : ∃ c cs, (String.join (a :: b :: rest)).toList = a.toList ++ c :: cs := by
      have hb : b.toList ≠ [] := by
        intro hb
        exact hne b (by simp) (String.toList_eq_nil_iff.mp hb)
      cases hb' : b.toList with
      | nil => exact absurd hb' hb
      | cons c cs =>
        refine ⟨c, cs ++ (String.join rest).toList, ?_⟩
        simp [String.join_cons, hb']
    obtain ⟨c, cs, hj⟩ := hj
    simp only [Vis.ofSyn, Vis.toSyn, SynVis.scope]
    rw [if_pos]
    refine ⟨trivial, fun hm => ?_⟩
    simp only [List.mem_cons, List.cons.injEq, and_true, List.not_mem_nil, or_false] at hm
    rcases hm with hm | hm | hm <;> rw [hm] at hj <;> rcases ha with rfl | rfl | rfl <;> simp at hj

/-! ## Examples -/

/-- `ExT.T` as it may be written: with an attribute and generic parameters. -/
def ExT.source : StructSource where
  attrs := ["derive(PartialEq)"]
  vis := .pub
  name := "T"
  generics := ["const N: usize"]
  fields := ExT.T.decl.fields

example : ExT.source.decl = ExT.T.decl := rfl

/-- The macro returns code, without the generic parameter. -/
example : ∃ E, bitfieldMacro .checked (fun _ => false) ExT.T.attr ExT.source = .code E ∧ E.struct.generics = [] ∧
    (⟨.fn "clear_bits", .pub⟩ : Item) ∈ E.inside := by
  have hn : ExT.T.decl.PlainNames := ExT.plain
  have hx := (C39_expansion ExT.readable hn rfl (ExT.accepted .checked)).mpr rfl
  refine ⟨expansion ExT.source ExT.p, C61_outcome.1.mpr ⟨ExT.p, _, ExT.accepted .checked, hx, rfl⟩, rfl, ?_⟩
  refine C61_places.2.1.mpr ⟨?_, trivial⟩
  decide

example : (expansion ExT.source ExT.p).struct.shape.members.map Prod.fst = ["note"] :=
  (C61_members ExT.readable rfl (ExT.accepted .checked)).1

example : StructAttr.reprC ∈ (expansion ExT.source ExT.p).struct.attrs :=
  (C61_struct ExT.readable rfl (ExT.accepted .checked)).2.2.2.2.1.mpr ⟨_, List.mem_cons_of_mem _ (List.mem_cons_of_mem _
    (List.mem_cons_of_mem _ List.mem_cons_self)), rfl⟩

/-- In the module `a::b`, `pub(super)` is printed such that it means the module `a`. -/
example : (Vis.ofSyn (.restricted true ["super"])).toSyn.scope ["a", "b"] = some (.within ["a"]) := by
  rw [C62_visibility_partial (by rintro _ _ h; cases h; decide)]
  decide

/-- In the module `a::b`, `pub(in crate::a)` means the module `a`, but what is printed is rejected. -/
example : (SynVis.restricted true ["crate", "a"]).scope ["a", "b"] = some (.within ["a"]) ∧
    (Vis.ofSyn (.restricted true ["crate", "a"])).toSyn = .restricted false ["cratea"] ∧
    (Vis.ofSyn (.restricted true ["crate", "a"])).toSyn.scope ["a", "b"] = none :=
  ⟨by decide, by decide, finding_pub_in_path (sc := .within ["a"]) (by decide) (by decide) (by decide)⟩

/-- The getter of the public field `a` can be used everywhere. -/
example (w : Vis) (here : List String) (hw : (⟨.acc .get "a", w⟩ : Item) ∈ (expansion ExT.source ExT.p).items) :
    w.toSyn.scope here = some .everywhere :=
  C62_field_partial (v := .pub) ExT.readable (ExT.accepted .checked) (f := ⟨"a", .pub, .int .u8, none⟩) (by simp [ExT.T]) rfl
    (by decide) (by rintro _ _ h; cases h) ⟨⟨rfl, rfl⟩, .inr rfl⟩ (by decide) hw here

end Bf
