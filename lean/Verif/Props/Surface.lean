import Verif.Lemmas.Ident
import Verif.Props.Layout
import Verif.Props.History

/-!
# Which items are generated (C05, C39, C47 - C49)

`Generates p t` says that the macro, having accepted a struct as `p`, generates the item `t`.
-/

namespace Bf

/-! ## An example

```
#[bitfield(u16, builder = false, bit_ops = false, clear_bit_ops = true, into_endian = little)]
pub struct T {
    pub a: u8,
    #[bits(3, access = wo, default = 5)] pub(crate) b: u8,
    #[bits(4, access = ro)] c: u8,
    #[bits(ignore = true)] pub note: u32,
    #[bits(1)] _r: u8,
}
```
-/

namespace ExT

def as : List BitfieldArgSpec :=
  [.flag .builder false, .flag .bitOps false, .flag .clearBitOps true, .endian .into .little]

def T : StructSpec where
  storage := .int .u16
  rest := bitfieldTokens as
  vis := .pub
  fields := [
    ⟨"a", .pub, .int .u8, none⟩,
    ⟨"b", .restricted "crate", .int .u8,
      some ⟨some 3, [.access .wo, .default (.int ⟨false, 0, .dec, ['5'], []⟩) (.int 5)]⟩⟩,
    ⟨"c", .priv, .int .u8, some ⟨some 4, [.access .ro]⟩⟩,
    ⟨"note", .pub, .int .u32, some ⟨none, [.ignore true]⟩⟩,
    ⟨"_r", .priv, .int .u8, some ⟨some 1, []⟩⟩]

/-- The struct parsed. -/
def p : Parsed where
  ty := .int .u16
  vis := .pub
  fields := [
    ⟨⟨"a", .int .u8, 8, 0, .rw, false, none⟩, .pub, false⟩,
    ⟨⟨"b", .int .u8, 3, 8, .wo, false, some (.int 5)⟩, .restricted "crate", false⟩,
    ⟨⟨"c", .int .u8, 4, 11, .ro, false, none⟩, .pub, false⟩,
    ⟨⟨"_r", .int .u8, 1, 15, .rw, true, none⟩, .pub, false⟩]
  ignored := [⟨⟨"note", .int .u32, 0, 0, .na, false, none⟩, .pub, true⟩]
  args := { defaultArgs (fun _ => false) with
    builder := false, bitOps := false, clearBitOps := true, userSetClearBitOps := true,
    intoEndian := .little }

theorem readable : T.Readable where
  storage := trivial
  ty := by
    intro f hf
    simp only [T, List.mem_cons, List.not_mem_nil, or_false] at hf
    rcases hf with rfl | rfl | rfl | rfl | rfl <;> trivial
  default := by
    intro f hf d v hd
    simp only [T, List.mem_cons, List.not_mem_nil, or_false] at hf
    rcases hf with rfl | rfl | rfl | rfl | rfl <;> simp [FieldSpec.args] at hd
    obtain ⟨rfl, rfl⟩ := hd
    exact ⟨⟨by decide, by decide, by decide, by decide⟩, by decide, by decide, by simp⟩

theorem accepted (m : Mode) : parseBitfield m (fun _ => false) T.attr T.decl = .ok p := by
  cases m <;> rfl

end ExT

variable {m : Mode} {cfg : String → Bool} {s : StructSpec} {p : Parsed}

/-! ## C05 -/

/-- **C05** (which accessors exist). An item for a field `x` is generated exactly if a declared field
of that name has it (`FieldSpec.Has`: readers for `ro` and `rw` fields, writers for `wo` and `rw`
fields, builder methods for all fields that are not reserved) and its group is generated (getters,
setters and constants always are). -/
theorem C05_accessors (hr : s.Readable) (h : parseBitfield m cfg s.attr s.decl = .ok p)
    (a : Accessor) (x : String) :
    Generates p (.acc a x) ↔
      (∀ g, a.group = some g → p.HasGroup g) ∧ ∃ f ∈ s.fields, f.name = x ∧ f.Has a := by
  have k := StructSpec.kept hr h
  simp only [Generates, k.acc, ← group_feature]
  constructor
  · rintro ⟨v, h1, f, h2, h3, h4, _⟩; exact ⟨h1, f, h2, h3, h4⟩
  · rintro ⟨h1, f, h2, h3, h4⟩; exact ⟨_, h1, f, h2, h3, h4, rfl⟩

/-- **C05** (getters). -/
theorem C05_getters (hr : s.Readable) (h : parseBitfield m cfg s.attr s.decl = .ok p)
    (x : String) : Generates p (.acc .get x) ↔ ∃ f ∈ s.fields, f.name = x ∧ f.CanRead := by
  rw [C05_accessors hr h]
  exact ⟨fun h => h.2, fun h => ⟨fun _ hg => (by cases hg), h⟩⟩

/-- **C05** (setters). -/
theorem C05_setters (hr : s.Readable) (h : parseBitfield m cfg s.attr s.decl = .ok p)
    (x : String) :
    (Generates p (.acc .set x) ↔ ∃ f ∈ s.fields, f.name = x ∧ f.CanWrite) ∧
    (Generates p (.acc .checkedSet x) ↔ ∃ f ∈ s.fields, f.name = x ∧ f.CanWrite) := by
  rw [C05_accessors hr h, C05_accessors hr h]
  exact ⟨⟨fun h => h.2, fun h => ⟨fun _ hg => (by cases hg), h⟩⟩,
    ⟨fun h => h.2, fun h => ⟨fun _ hg => (by cases hg), h⟩⟩⟩

/-- **C05** (reserved fields). A reserved field has no accessor of any kind, unless another field
that is not reserved had the same name, which cannot be; and it states no access. -/
theorem C05_reserved (hr : s.Readable) (h : parseBitfield m cfg s.attr s.decl = .ok p)
    {f : FieldSpec} (hf : f ∈ s.fields) (hi : f.ignored = false) (hres : f.reserved = true) :
    (∀ a, ¬ Generates p (.acc a f.name)) ∧ f.access? = none := by
  refine ⟨fun a hg => ?_, (StructSpec.kept hr h).access f hf hi hres⟩
  obtain ⟨_, g, hg, hn, hh⟩ := (C05_accessors hr h a f.name).mp hg
  have hgr : g.reserved = true := by
    unfold FieldSpec.reserved at hres ⊢
    rw [hn]; exact hres
  have : ¬ g.Has a := by
    cases a <;> simp [FieldSpec.Has, FieldSpec.CanRead, FieldSpec.CanWrite, FieldSpec.Named, hgr]
  exact this hh

/-- **C05** (ignored fields have no accessor either, unless a field of the layout had the same
name, which cannot be). -/
theorem C05_ignored (hr : s.Readable) (h : parseBitfield m cfg s.attr s.decl = .ok p)
    {f : FieldSpec} (hf : f ∈ s.fields) (hi : f.ignored = true) (a : Accessor)
    (hres : f.reserved = false) : ¬ Generates p (.acc a f.name) := by
  intro hg
  obtain ⟨_, g, hg, hn, hh⟩ := (C05_accessors hr h a f.name).mp hg
  have hgi : g.ignored = false := (FieldSpec.has_iff (sv := s.vis)).mp hh |>.1
  have hgr : g.reserved = false := by
    unfold FieldSpec.reserved at hres ⊢
    rw [hn]; exact hres
  have hp := (StructSpec.kept hr h).names
  have hne : f ≠ g := by rintro rfl; rw [hi] at hgi; cases hgi
  have : ∀ l : List FieldSpec, l.Pairwise (fun f g => f.reserved = false → f.name ≠ g.name) →
      f ∈ l → g ∈ l → False := by
    intro l
    induction l with
    | nil => intro _ h; cases h
    | cons x l ih =>
      intro hp hf hg
      obtain ⟨hx, hp⟩ := List.pairwise_cons.mp hp
      rcases List.mem_cons.mp hf with h1 | h1 <;> rcases List.mem_cons.mp hg with h2 | h2
      · exact hne (h1.trans h2.symm)
      · subst h1; exact hx g h2 hres hn.symm
      · subst h2; exact hx f h1 hgr hn
      · exact ih hp h1 h2
  exact this _ hp hf hg

/-- **C05** (reserved bits). No bit or range write, checked or not and with any arguments, changes
a bit of a reserved field of an accepted struct. -/
theorem C05_reserved_bits {attr : AttrInput} {d : StructDecl}
    (h : parseBitfield .checked cfg attr d = .ok p) (hb : p.ty ≠ .int .bool)
    (hS : Supported p.bitfield) {f : Field} (hf : f ∈ p.bitfield.fields) (hres : f.reserved = true)
    (st : Store) (hs : st.HasBacking p.bitfield.backing) (o l : Nat) (ho : o < 2 ^ 32)
    (hl : l < 2 ^ 32) (b : Bool) (x : Store) (hx : x.HasBacking p.bitfield.backing) {c : Call}
    (hc : c ∈ [.setBit o b, .checkedSetBit o b, .setRange o l x, .checkedSetRange o l x])
    {os : List Out} {st' : Store} (hh : history m p.bitfield [c] st = .ok (os, st')) :
    ∀ i < f.bits, st'.bit (f.offset + i) = st.bit (f.offset + i) := by
  refine (C31_protected m (C01_wf h hb) hS [c] ?_ ?_ st hs hh hf (.inr (.inr hres)) ?_).2
  · intro c' hc'
    rw [List.mem_singleton] at hc'
    subst hc'
    simp only [List.mem_cons, List.not_mem_nil, or_false] at hc
    rcases hc with rfl | rfl | rfl | rfl
    · exact ho
    · exact ho
    · exact ⟨ho, hl, hx⟩
    · exact ⟨ho, hl, hx⟩
  · intro c' hc'
    rw [List.mem_singleton] at hc'
    subst hc'
    simp only [List.mem_cons, List.not_mem_nil, or_false] at hc
    rcases hc with rfl | rfl | rfl | rfl <;>
      exact ⟨fun d => by simp, by simp, fun _ _ => by simp⟩
  · intro hi
    rw [List.mem_singleton] at hi
    subst hi
    simp at hc

example : Generates ExT.p (.acc .get "a") ∧ ¬ Generates ExT.p (.acc .get "b") ∧
    Generates ExT.p (.acc .set "b") ∧ ¬ Generates ExT.p (.acc .set "c") ∧
    Generates ExT.p (.acc .clearToDefault "b") ∧ ¬ Generates ExT.p (.acc .invert "b") ∧
    ¬ Generates ExT.p (.acc .builderWith "a") := by
  have h1 : ∀ {t}, (∀ x ∈ surface ExT.p, x.tag ≠ t) → ¬ Generates ExT.p t :=
    fun h ⟨v, hv⟩ => h _ hv rfl
  exact ⟨⟨.pub, by decide⟩, h1 (by decide), ⟨.priv, by decide⟩, h1 (by decide), ⟨.pub, by decide⟩,
    h1 (by decide), h1 (by decide)⟩

example (a : Accessor) : ¬ Generates ExT.p (.acc a "_r") :=
  (C05_reserved ExT.readable (ExT.accepted .checked) (f := ExT.T.fields[4])
    (by simp [ExT.T]) rfl rfl).1 a

example (a : Accessor) : ¬ Generates ExT.p (.acc a "note") :=
  C05_ignored ExT.readable (ExT.accepted .checked) (f := ExT.T.fields[3])
    (by simp [ExT.T]) rfl a rfl

/-! ## C39 -/

/-- **C39** (the arguments are accepted). Arguments with any values, in any order, any number of
times are accepted. -/
theorem C39_accepted (cfg : String → Bool) (as : List BitfieldArgSpec) :
    ∃ r, parseBitfieldArgs cfg (bitfieldTokens as) = .ok r := by
  obtain ⟨r, h, _⟩ := parseBitfieldArgs_tokens cfg as
  exact ⟨r, h⟩

theorem args_of {as : List BitfieldArgSpec} (hr : s.Readable) (ha : s.rest = bitfieldTokens as)
    (h : parseBitfield m cfg s.attr s.decl = .ok p) : ArgsFrom (defaultArgs cfg) as p.args := by
  obtain ⟨r, h1, h2⟩ := parseBitfieldArgs_tokens cfg as
  have := (StructSpec.kept hr h).args
  rw [ha, h1] at this
  rw [← Except.ok.inj this]
  exact h2

/-- **C39** (each group except the `write_*` operations). Every item of the group is generated
exactly when the last argument for the group says so; without an argument, when the Cargo features
say so and, for a bit operation group, `bit_ops` does as well. -/
theorem C39_group {as : List BitfieldArgSpec} (hr : s.Readable) (ha : s.rest = bitfieldTokens as)
    (h : parseBitfield m cfg s.attr s.decl = .ok p) {g : Group} (hg : g ≠ .writeBits) :
    ∀ t ∈ g.tags s.intBacked, (Generates p t ↔ GroupOn cfg as g = true) := by
  intro t ht
  rw [← (StructSpec.kept hr h).int] at ht
  rw [generates_tag ht, enabled_eq (args_of hr ha h) hg]

/-- **C39** (the `write_*` operations). Missing: the argument `write_bit_ops` and its Cargo features
should decide, but the group is generated exactly when `bit_ops` is on
(`finding_write_flag_ignored`). -/
theorem C39_write_group_partial {as : List BitfieldArgSpec} (hr : s.Readable)
    (ha : s.rest = bitfieldTokens as) (h : parseBitfield m cfg s.attr s.decl = .ok p) :
    ∀ t ∈ Group.writeBits.tags s.intBacked,
      (Generates p t ↔ flagValue cfg as .bitOps = true) := by
  intro t ht
  rw [← (StructSpec.kept hr h).int] at ht
  rw [generates_tag ht, ← enabled_write (args_of hr ha h)]
  rfl

/-- **C39** (nothing else is generated). Every generated item is the struct, belongs to a field
(C05) or is in a group, all of which is then generated. -/
theorem C39_nothing_else {t : Tag} (hg : Generates p t) :
    t = .bitfield ∨ (∃ a x, t = .acc a x) ∨ ∃ g : Group, t ∈ g.tags p.intBacked ∧ p.HasGroup g := by
  cases hw : t.whole with
  | false =>
    cases t with
    | acc a x => exact .inr (.inl ⟨a, x, rfl⟩)
    | _ => cases hw
  | true =>
    rcases (mem_surface_whole hw).mp hg with h | ⟨g, h1, h2⟩
    · exact .inl h
    · exact .inr (.inr ⟨g, h2, hasGroup_iff.mpr h1⟩)

/-- **C39** (expansion). An accepted struct without raw identifiers expands to its items unless the (internal) argument
`force_panic` is on. (For raw identifiers see `finding_raw_field`.) -/
theorem C39_expansion {as : List BitfieldArgSpec} (hr : s.Readable) (hn : s.decl.PlainNames)
    (ha : s.rest = bitfieldTokens as) (h : parseBitfield m cfg s.attr s.decl = .ok p) :
    expandBitfield m cfg s.attr s.decl = .ok (surface p) ↔ flagValue cfg as .forcePanic = false := by
  have hf := (args_of hr ha h).flag .forcePanic
  rw [defaultArgs_flag] at hf
  change p.args.forcePanic = flagValue cfg as .forcePanic at hf
  rw [← hf, expandBitfield_ok]
  constructor
  · rintro ⟨q, hq, h1, -⟩
    rw [h] at hq
    cases hq
    exact h1
  · intro h1
    exact ⟨p, h, h1, idents_of_plain hn h, rfl⟩

theorem ExT.plain : ExT.T.decl.PlainNames where
  vis := by intro path h; cases h
  field := by
    intro ds h f hf
    cases h
    simp only [ExT.T, List.map_cons, List.map_nil, List.mem_cons, List.not_mem_nil, or_false] at hf
    rcases hf with rfl | rfl | rfl | rfl | rfl <;>
      exact ⟨⟨⟨_, _, rfl, by decide⟩, by decide⟩, fun path h => by cases h <;> exact ⟨⟨_, _, rfl, by decide⟩, by decide⟩⟩

example : GroupOn (fun _ => false) ExT.as .clearBits = true := rfl
example : GroupOn (fun _ => false) ExT.as .invertBits = false := rfl
example : GroupOn (fun _ => false) ExT.as .fromTraits = true := rfl
example : Generates ExT.p (.fn "clear_bits") :=
  (C39_group ExT.readable rfl (ExT.accepted .checked) (g := .clearBits) (by decide) _
    (by decide)).mpr rfl
example : ¬ Generates ExT.p (.fn "get_bit") := fun h => by
  have := (C39_group ExT.readable rfl (ExT.accepted .checked) (g := .setGetBits) (by decide) _
    (by decide)).mp h
  cases this
example : ¬ Generates ExT.p (.fn "write_bits") := fun h => by
  have := (C39_write_group_partial ExT.readable rfl (ExT.accepted .checked) _ (by decide)).mp h
  cases this

/-- The last argument wins. -/
example : GroupOn (fun f => f = "disable_debug") [.flag .debug false, .flag .debug true] .debug = true :=
  rfl

/-! ## C47 -/

/-- **C47** (struct and functions that belong to no field). The struct, the builder and every such
function has the visibility of the declared struct. -/
theorem C47_whole (hr : s.Readable) (h : parseBitfield m cfg s.attr s.decl = .ok p) {t : Tag}
    {v : Vis} (hg : ⟨t, v⟩ ∈ surface p)
    (ht : t = .bitfield ∨ t = .builder ∨ (∃ n, t = .fn n) ∨ ∃ n, t = .builderFn n) : v = s.vis := by
  rw [← (StructSpec.kept hr h).vis]
  obtain ⟨F, _, hx⟩ := mem_surface.mp hg
  rcases ht with rfl | rfl | ⟨n, rfl⟩ | ⟨n, rfl⟩ <;> cases F <;>
    simp [Feature.items, Parsed.fns] at hx <;> first | exact hx.2 | exact hx | grind

/-- **C47** (items of a field). Missing from the full property: a field without a visibility of its
own gets that of the struct, not private accessors (`finding_private_accessor`); items of `wo`
and `na` fields are private (`finding_write_only_private`); clear and invert functions always
have the visibility of the struct (`finding_write_only_private`). -/
theorem C47_field_partial (hr : s.Readable) (h : parseBitfield m cfg s.attr s.decl = .ok p)
    {a : Accessor} {x : String} {v : Vis} (hg : ⟨.acc a x, v⟩ ∈ surface p) :
    ∃ f ∈ s.fields, f.name = x ∧ f.Has a ∧
      (a ∈ [.clear, .clearToDefault, .invert, .inverted] → v = s.vis) ∧
      (a ∉ [.clear, .clearToDefault, .invert, .inverted] → f.CanRead → v = f.ownVis s.vis) ∧
      (a ∉ [.clear, .clearToDefault, .invert, .inverted] → ¬ f.CanRead → v = .priv) := by
  obtain ⟨_, f, hf, hn, hh, hv⟩ := (StructSpec.kept hr h).acc.mp hg
  refine ⟨f, hf, hn, hh, ?_, ?_, ?_⟩
  · intro ha
    rw [hv]
    simp only [List.mem_cons, List.not_mem_nil, or_false] at ha
    rcases ha with rfl | rfl | rfl | rfl <;> rfl
  all_goals
    intro ha hc
    obtain ⟨hi, happ⟩ := (FieldSpec.has_iff (sv := s.vis)).mp hh
    have hres : f.reserved = false := by
      cases hr : f.reserved with
      | false => rfl
      | true => exfalso; revert happ; cases a <;> simp [Accessor.applies, FieldSpec.view, hi, hr,
          View.hasSetter, View.hasGetter]
    have e : f.effective = f.access?.getD .rw := by
      simp only [FieldSpec.effective, hres]
      cases f.access? <;> rfl
    have ew : v = if f.access?.getD .rw == .rw || f.access?.getD .rw == .ro
        then f.ownVis s.vis else .priv := by
      rw [hv, ← e]
      cases a <;> first
        | (exfalso; simp at ha; done)
        | simp [Accessor.itemVis, FieldSpec.view, hi]
    rw [ew]
    simp only [FieldSpec.CanRead, FieldSpec.Named, hres, hi, true_and, and_true] at hc
    cases hacc : f.access?.getD .rw <;> simp_all

/-- **C47** (ignored fields). Missing: ignored fields should keep their visibility; they are
all private (`finding_ignored_private`). -/
theorem C47_ignored_partial (hr : s.Readable) (h : parseBitfield m cfg s.attr s.decl = .ok p) :
    p.shape.members = (s.fields.filter fun f => f.ignored).map fun f => (f.name, .priv) := by
  have k := (StructSpec.kept hr h).ignored
  have e : p.shape.members = (p.ignored.map PField.view).map
      fun w => (w.name, if w.access == .rw || w.access == .ro then w.vis else .priv) := by
    simp only [Parsed.shape, List.map_map]
    rfl
  rw [e, k, List.map_map]
  refine List.map_congr_left fun f hf => ?_
  have hi : f.ignored = true := by simpa using (List.mem_filter.mp hf).2
  simp only [Function.comp_apply, FieldSpec.view, hi, if_true]
  rfl

example : (⟨.acc .get "c", .pub⟩ : Item) ∈ surface ExT.p := by decide
example : ∃ f ∈ ExT.T.fields, f.name = "a" ∧ f.CanRead :=
  ⟨ExT.T.fields[0], by simp [ExT.T], rfl, ⟨rfl, rfl⟩, .inr rfl⟩

/-! ## C48 -/

/-- **C48** (byte order). `from_*`, `into_*` and `write_*` use the byte order of the last argument;
without one, the one the Cargo features choose. -/
theorem C48_endian {as : List BitfieldArgSpec} (hr : s.Readable) (ha : s.rest = bitfieldTokens as)
    (h : parseBitfield m cfg s.attr s.decl = .ok p) :
    p.bitfield.fromEndian = (statedEndian as .from).getD (EndianKey.from.byDefault cfg) ∧
    p.bitfield.intoEndian = (statedEndian as .into).getD (EndianKey.into.byDefault cfg) ∧
    p.bitfield.writeEndian = (statedEndian as .write).getD (EndianKey.write.byDefault cfg) := by
  have key : ∀ l b, resolveEndian l b .big = if l && !b then .little else .big := by decide
  have hE := (args_of hr ha h).endian
  refine ⟨?_, ?_, ?_⟩
  · have := hE .from
    simp only [BitfieldArgs.endian, defaultArgs, key] at this
    exact this
  · have := hE .into
    simp only [BitfieldArgs.endian, defaultArgs, key] at this
    exact this
  · have := hE .write
    simp only [BitfieldArgs.endian, defaultArgs, key] at this
    exact this

/-- **C48** (field order). -/
theorem C48_order {as : List BitfieldArgSpec} (hr : s.Readable) (ha : s.rest = bitfieldTokens as)
    (h : parseBitfield m cfg s.attr s.decl = .ok p) :
    p.args.order = (statedOrder as).getD (orderByDefault cfg) := by
  have key : ∀ l b, resolveOrder l b = if b && !l then .msb else .lsb := by decide
  have := (args_of hr ha h).order
  simp only [defaultArgs, key] at this
  exact this

example : ExT.p.bitfield.intoEndian = .little ∧ ExT.p.bitfield.fromEndian = .big := ⟨rfl, rfl⟩
example : (statedEndian ExT.as .into).getD (EndianKey.into.byDefault fun _ => false) = .little := rfl

/-! ## C49 -/

/-- **C49** (representation). The bits are boxed exactly for array-backed bitfields with `array_heap`.
The struct is `repr(transparent)` around its storage exactly if it has no ignored field. `copy`
derives `Clone`, and `Copy` if the bits are not boxed. The functions are `const` exactly if there is no
ignored field and the bits are not boxed. The other members are the ignored fields, in order. -/
theorem C49_shape {as : List BitfieldArgSpec} (hr : s.Readable) (ha : s.rest = bitfieldTokens as)
    (h : parseBitfield m cfg s.attr s.decl = .ok p) :
    (p.shape.boxed = true ↔ s.intBacked = false ∧ flagValue cfg as .arrayHeap = true) ∧
    (p.shape.transparent = true ↔ ∀ f ∈ s.fields, f.ignored = false) ∧
    (p.shape.clone = true ↔ flagValue cfg as .copy = true) ∧
    (p.shape.copy = true ↔ flagValue cfg as .copy = true ∧ p.shape.boxed = false) ∧
    (p.shape.constFn = true ↔ (∀ f ∈ s.fields, f.ignored = false) ∧ p.shape.boxed = false) ∧
    p.shape.members.map Prod.fst = (s.fields.filter fun f => f.ignored).map FieldSpec.name := by
  have k := StructSpec.kept hr h
  have hA : p.args.arrayHeap = flagValue cfg as .arrayHeap := by
    have := (args_of hr ha h).flag .arrayHeap
    rw [defaultArgs_flag] at this
    exact this
  have hC : p.args.copy = flagValue cfg as .copy := by
    have := (args_of hr ha h).flag .copy
    rw [defaultArgs_flag] at this
    exact this
  have hI : p.hasIgnored = false ↔ ∀ f ∈ s.fields, f.ignored = false := by
    have h1 : p.hasIgnored = false ↔ p.ignored.map PField.view = [] := by
      simp [Parsed.hasIgnored]
    rw [h1, k.ignored]
    simp
  refine ⟨?_, ?_, ?_, ?_, ?_, ?_⟩
  · simp only [Parsed.shape, hA, k.int]
    cases s.intBacked <;> cases flagValue cfg as .arrayHeap <;> simp
  · simp only [Parsed.shape, ← hI]
    cases p.hasIgnored <;> simp
  · simp only [Parsed.shape, hC]
  · simp only [Parsed.shape, hC, hA]
    cases flagValue cfg as .copy <;> cases flagValue cfg as .arrayHeap <;> simp
  · simp only [Parsed.shape, ← hI]
    cases p.hasIgnored <;> cases p.args.arrayHeap <;> simp
  · rw [C47_ignored_partial hr h, List.map_map]
    rfl

example : ExT.p.shape.transparent = false ∧ ExT.p.shape.members = [("note", .priv)] := ⟨rfl, rfl⟩
example : ∀ f ∈ ExT.T.fields.filter (fun f => f.ignored), f.name = "note" := by
  simp [ExT.T, FieldSpec.ignored, FieldSpec.args, lastArg]

/-! ## Findings -/

/-- C39: `write_bit_ops` has no effect. It is ignored when it is `false`, and does not switch the group
on when `bit_ops` is `false`. -/
theorem finding_write_flag_ignored : ∀ m,
    (∃ p, parseBitfield m (fun _ => false) { ExT.T with rest := bitfieldTokens [.flag .writeBitOps false] }.attr
      ExT.T.decl = .ok p ∧ Generates p (.fn "write_bits")) ∧
    (∃ p, parseBitfield m (fun _ => false)
      { ExT.T with rest := bitfieldTokens [.flag .bitOps false, .flag .writeBitOps true] }.attr
      ExT.T.decl = .ok p ∧ ¬ Generates p (.fn "write_bits")) := by
  intro m
  have h1 : ∀ {p : Parsed} {t}, (∀ x ∈ surface p, x.tag ≠ t) → ¬ Generates p t :=
    fun h ⟨v, hv⟩ => h _ hv rfl
  cases m <;> exact ⟨⟨_, rfl, .pub, by decide⟩, ⟨_, rfl, h1 (by decide)⟩⟩

/-- C47: field `c` is private, but its getter is public (README: "`b` is private, so `b()` is
private"). -/
theorem finding_private_accessor : ∀ m,
    parseBitfield m (fun _ => false) ExT.T.attr ExT.T.decl = .ok ExT.p ∧
    (∃ f ∈ ExT.T.fields, f.name = "c" ∧ f.vis = .priv) ∧
    ⟨.acc .get "c", .pub⟩ ∈ surface ExT.p :=
  fun m => ⟨ExT.accepted m, ⟨ExT.T.fields[2], by simp [ExT.T], rfl, rfl⟩, by decide⟩

/-- C47: field `b` is `pub(crate)` and write-only; its setter is private, yet its clear function is
public. -/
theorem finding_write_only_private : ∀ m,
    parseBitfield m (fun _ => false) ExT.T.attr ExT.T.decl = .ok ExT.p ∧
    (∃ f ∈ ExT.T.fields, f.name = "b" ∧ f.vis = .restricted "crate" ∧ f.CanWrite) ∧
    ⟨.acc .set "b", .priv⟩ ∈ surface ExT.p ∧ ⟨.acc .clear "b", .pub⟩ ∈ surface ExT.p :=
  fun m => ⟨ExT.accepted m, ⟨ExT.T.fields[1], by simp [ExT.T], rfl, rfl, ⟨rfl, rfl⟩, .inl rfl⟩,
    by decide, by decide⟩

/-- C47: ignored field `note` is `pub`; it becomes a private member. -/
theorem finding_ignored_private : ∀ m,
    parseBitfield m (fun _ => false) ExT.T.attr ExT.T.decl = .ok ExT.p ∧
    (∃ f ∈ ExT.T.fields, f.name = "note" ∧ f.vis = .pub ∧ f.ignored = true) ∧
    ("note", .priv) ∈ ExT.p.shape.members :=
  fun m => ⟨ExT.accepted m, ⟨ExT.T.fields[3], by simp [ExT.T], rfl, rfl, rfl⟩, by decide⟩

end Bf
