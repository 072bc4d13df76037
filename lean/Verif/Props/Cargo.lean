import Verif.SpecCargo
import Verif.Props.Surface
import Verif.Props.Bitflag
import Verif.SpecRun
import Verif.Model.Expand

/-!
# C67: Cargo features as defaults of the arguments
-/

namespace Bf

open Cargo

variable {requests : List Request} {cfg : String → Bool}

theorem built_bitfields (h : Built [bitfieldsManifest, implManifest] requests "bitfields") :
    ∃ r ∈ requests, r.package = "bitfields" := by
  generalize he : "bitfields" = x at h
  cases h with
  | request hr => exact ⟨_, hr, rfl⟩
  | dependency hM hb hd =>
    simp only [List.mem_cons, List.not_mem_nil, or_false] at hM
    rcases hM with rfl | rfl
    · simp only [bitfieldsManifest, List.mem_cons, List.not_mem_nil, or_false] at hd
      subst hd
      exact absurd he (by decide)
    · cases hd

/-- What holds of the active features of both packages. -/
def HoldsOfActive (requests : List Request) (p f : String) : Prop :=
  (p = "bitfields" → ∃ r ∈ requests, r.package = "bitfields") ∧
  (p = "bitfields-impl" → Asked requests f ∨ (WithDefaults requests ∧ (f = "default" ∨ f ∈ defaultFeatures)))

theorem active_holds {p f : String} (h : Active [bitfieldsManifest, implManifest] requests p f) : HoldsOfActive requests p f := by
  have wd : (∃ r ∈ requests, r.package = "bitfields") → WithDefaults requests :=
    fun ⟨r, hr, e⟩ => ⟨r, hr, .inl e⟩
  induction h with
  | request hr hf => exact ⟨fun e => ⟨_, hr, e⟩, fun e => .inl ⟨_, hr, e, hf⟩⟩
  | requestDefault hr hd => exact ⟨fun e => ⟨_, hr, e⟩, fun e => .inr ⟨⟨_, hr, .inr ⟨e, .inl hd⟩⟩, .inl rfl⟩⟩
  | dependency hM hb hd hf =>
    simp only [List.mem_cons, List.not_mem_nil, or_false] at hM
    rcases hM with rfl | rfl
    · simp only [bitfieldsManifest, List.mem_cons, List.not_mem_nil, or_false] at hd
      subst hd
      cases hf
    · cases hd
  | dependencyDefault hM hb hd hf =>
    simp only [List.mem_cons, List.not_mem_nil, or_false] at hM
    rcases hM with rfl | rfl
    · simp only [bitfieldsManifest, List.mem_cons, List.not_mem_nil, or_false] at hd
      subst hd
      exact ⟨fun e => absurd e (by decide), fun _ => .inr ⟨wd (built_bitfields hb), .inl rfl⟩⟩
    · cases hd
  | own hM ha hg hf ih =>
    simp only [List.mem_cons, List.not_mem_nil, or_false] at hM
    rcases hM with rfl | rfl
    · exact ⟨fun _ => ih.1 rfl, fun e => absurd e (by decide)⟩
    · refine ⟨fun e => absurd e (by decide), fun _ => .inr ?_⟩
      simp only [implManifest, List.mem_cons, List.mem_map] at hg
      rcases hg with hg | ⟨g, -, hg⟩
      · cases hg
        obtain ⟨x, hx, e⟩ := List.mem_map.mp hf
        cases e
        rcases ih.2 rfl with ⟨r, hr, h1, h2⟩ | ⟨h1, -⟩
        · exact ⟨⟨r, hr, .inr ⟨h1, .inr h2⟩⟩, .inr hx⟩
        · exact ⟨h1, .inr hx⟩
      · cases hg; cases hf
  | dep hM ha hg hf ih =>
    simp only [List.mem_cons, List.not_mem_nil, or_false] at hM
    rcases hM with rfl | rfl
    · simp only [bitfieldsManifest, List.mem_cons, List.mem_map] at hg
      rcases hg with hg | ⟨g, -, hg⟩
      · cases hg
        rcases List.mem_cons.mp hf with hf | hf
        · cases hf
          exact ⟨fun e => absurd e (by decide), fun _ => .inr ⟨wd (ih.1 rfl), .inl rfl⟩⟩
        · obtain ⟨x, hx, e⟩ := List.mem_map.mp hf; cases e
      · cases hg; cases hf
    · simp only [implManifest, List.mem_cons, List.mem_map] at hg
      rcases hg with hg | ⟨g, -, hg⟩
      · cases hg
        obtain ⟨x, hx, e⟩ := List.mem_map.mp hf; cases e
      · cases hg; cases hf

theorem active_iff (f : String) : Active [bitfieldsManifest, implManifest] requests "bitfields-impl" f ↔
    Asked requests f ∨ (WithDefaults requests ∧ (f = "default" ∨ f ∈ defaultFeatures)) := by
  refine ⟨fun ha => (active_holds ha).2 rfl, ?_⟩
  rintro (⟨r, hr, h1, h2⟩ | ⟨⟨r, hr, hd⟩, hf⟩)
  · rw [← h1]; exact .request hr h2
  · have hdef : Active [bitfieldsManifest, implManifest] requests "bitfields-impl" "default" := by
      rcases hd with hd | ⟨h1, h2 | h2⟩
      · have hb : Built [bitfieldsManifest, implManifest] requests bitfieldsManifest.name := by
          show Built _ _ "bitfields"
          rw [← hd]
          exact .request hr
        exact .dependencyDefault (M := bitfieldsManifest) (d := ⟨"bitfields-impl", true, []⟩) (by simp) hb
          (by simp [bitfieldsManifest]) rfl
      · rw [← h1]; exact .requestDefault hr h2
      · rw [← h1]; exact .request hr h2
    rcases hf with rfl | hf
    · exact hdef
    · exact .own (M := implManifest) (g := "default") (refs := defaultFeatures.map .own) (by simp) hdef
        (by simp [implManifest]) (List.mem_map.mpr ⟨f, hf, rfl⟩)

/-- **C67** (which features reach the macro). Exactly those that some crate asks of `bitfields-impl` itself, and the default
ones, unless every crate that uses the macro depends on `bitfields-impl` without its default features. Features of the
package `bitfields` do not matter. -/
theorem C67_active (h : Configures requests cfg) (f : String) :
    cfg f = true ↔ Asked requests f ∨ (WithDefaults requests ∧ (f = "default" ∨ f ∈ defaultFeatures)) := by
  rw [h f, active_iff]

/-- The features of the macro if no crate asks for the default ones. -/
theorem cfg_asked (h : Configures requests cfg) (hd : ¬ WithDefaults requests) (f : String) :
    cfg f = true ↔ Asked requests f := by
  rw [C67_active h f]; simp [hd]

theorem cfg_notAsked (h : Configures requests cfg) (hd : ¬ WithDefaults requests) (f : String) :
    cfg f = false ↔ ¬ Asked requests f := by
  rw [← cfg_asked h hd f]; simp

/-- A flag without arguments. -/
theorem byDefault_asked (h : Configures requests cfg) (hd : ¬ WithDefaults requests) {k : Flag} {on off : String}
    (hk : k.features = some (on, off)) :
    k.byDefault cfg = true ↔
      if k = .arrayHeap then Asked requests on ∧ ¬ Asked requests off else Asked requests on ∨ ¬ Asked requests off := by
  simp only [Flag.byDefault, hk]
  split <;> simp [cfg_asked h hd, cfg_notAsked h hd]

section Direct

variable {m : Mode} {s : StructSpec} {as : List BitfieldArgSpec} {p : Parsed}

/-- **C67** (functions and implementations). If every crate depends on `bitfields-impl` itself, without its default features,
then a group of items for which the declaration has no argument is generated unless only the feature that disables it is
asked for; a group of bit operations needs the same of the features of `bit_ops`. Missing: crates that depend on `bitfields`,
as the README says (`finding_features_ignored`). -/
theorem C67_groups_partial (hc : Configures requests cfg) (hd : ¬ WithDefaults requests) (hr : s.Readable)
    (ha : s.rest = bitfieldTokens as) (h : parseBitfield m cfg s.attr s.decl = .ok p) {g : Group} (hg : g ≠ .writeBits)
    (h1 : stated as g.flag = none) (h2 : stated as .bitOps = none) {on off : String} (hk : g.flag.features = some (on, off)) :
    ∀ t ∈ g.tags s.intBacked, (Generates p t ↔ (Asked requests on ∨ ¬ Asked requests off) ∧
      (g.isBitOps = true → Asked requests "generate_bit_ops" ∨ ¬ Asked requests "disable_bit_ops")) := by
  intro t ht
  have hb := byDefault_asked hc hd hk
  have hb' := byDefault_asked hc hd (k := .bitOps) rfl
  rw [if_neg (by cases g <;> decide)] at hb
  rw [if_neg (by decide)] at hb'
  rw [C39_group hr ha h hg t ht, GroupOn, h1]
  simp only [flagValue, h2, Option.getD_none, Bool.and_eq_true, Bool.or_eq_true, hb, hb']
  cases g.isBitOps <;> simp

/-- **C67** (the `write_*` operations, `Clone`, the heap). As above; the `write_*` operations go by `bit_ops`
(`finding_write_flag_ignored`), and the heap is used only if its feature is asked for. -/
theorem C67_shape_partial (hc : Configures requests cfg) (hd : ¬ WithDefaults requests) (hr : s.Readable)
    (ha : s.rest = bitfieldTokens as) (h : parseBitfield m cfg s.attr s.decl = .ok p) :
    (stated as .bitOps = none → ∀ t ∈ Group.writeBits.tags s.intBacked,
      (Generates p t ↔ Asked requests "generate_bit_ops" ∨ ¬ Asked requests "disable_bit_ops")) ∧
    (stated as .copy = none →
      (p.shape.clone = true ↔ Asked requests "derive_copy" ∨ ¬ Asked requests "disable_copy")) ∧
    (stated as .arrayHeap = none →
      (p.shape.boxed = true ↔ s.intBacked = false ∧ Asked requests "enable_array_heap" ∧ ¬ Asked requests "disable_array_heap")) := by
  have hb := byDefault_asked hc hd (k := .bitOps) rfl
  have hC := byDefault_asked hc hd (k := .copy) rfl
  have hH := byDefault_asked hc hd (k := .arrayHeap) rfl
  rw [if_neg (by decide)] at hb hC
  rw [if_pos rfl] at hH
  obtain ⟨s1, -, s2, -⟩ := C49_shape hr ha h
  refine ⟨fun h1 t ht => ?_, fun h1 => ?_, fun h1 => ?_⟩
  · rw [C39_write_group_partial hr ha h t ht, flagValue, h1]; exact hb
  · rw [s2, flagValue, h1]; exact hC
  · rw [s1, flagValue, h1, Option.getD_none, hH]

/-- **C67** (order, endianness). As above: the value that is not the usual one is taken if its feature is asked for and that of
the usual one is not. -/
theorem C67_values_partial (hc : Configures requests cfg) (hd : ¬ WithDefaults requests) (hr : s.Readable)
    (ha : s.rest = bitfieldTokens as) (h : parseBitfield m cfg s.attr s.decl = .ok p) :
    (statedOrder as = none →
      (p.args.order = .msb ↔ Asked requests "order_msb" ∧ ¬ Asked requests "order_lsb")) ∧
    (statedEndian as .from = none →
      (p.bitfield.fromEndian = .little ↔ Asked requests "from_endian_little" ∧ ¬ Asked requests "from_endian_big")) ∧
    (statedEndian as .into = none →
      (p.bitfield.intoEndian = .little ↔ Asked requests "into_endian_little" ∧ ¬ Asked requests "into_endian_big")) ∧
    (statedEndian as .write = none →
      (p.bitfield.writeEndian = .little ↔ Asked requests "write_endian_little" ∧ ¬ Asked requests "write_endian_big")) := by
  obtain ⟨e1, e2, e3⟩ := C48_endian hr ha h
  have hk : ∀ k : EndianKey, k.byDefault cfg = .little ↔
      Asked requests (k.key ++ "_little") ∧ ¬ Asked requests (k.key ++ "_big") := fun k => by
    simp [EndianKey.byDefault, cfg_asked hc hd, cfg_notAsked hc hd]
  refine ⟨fun h1 => ?_, fun h1 => ?_, fun h1 => ?_, fun h1 => ?_⟩
  · rw [C48_order hr ha h, h1]
    simp [orderByDefault, cfg_asked hc hd, cfg_notAsked hc hd]
  · rw [e1, h1]; exact hk .from
  · rw [e2, h1]; exact hk .into
  · rw [e3, h1]; exact hk .write

/-- **C67** (bitflags). As above. -/
theorem C67_bitflag_partial {s : EnumSpec} {c : FlagCode} (hc : Configures requests cfg) (hd : ¬ WithDefaults requests)
    (hr : s.Readable) (h : expandBitflag cfg s.attr s.decl = .ok c) (ha : s.args = []) :
    (c.copy = true ↔ Asked requests "bitflag_derive_copy" ∨ ¬ Asked requests "bitflag_disable_copy") ∧
    (c.fromEndian = .little ↔
      Asked requests "bitflag_from_endian_little" ∧ ¬ Asked requests "bitflag_from_endian_big") ∧
    (c.intoEndian = .little ↔
      Asked requests "bitflag_into_endian_little" ∧ ¬ Asked requests "bitflag_into_endian_big") := by
  have k := code_of hr h
  refine ⟨?_, ?_, ?_⟩
  · rw [k.copy]; simp [EnumSpec.copies, ha, lastArg, cfg_asked hc hd, cfg_notAsked hc hd]
  · rw [k.fromE]; simp [EnumSpec.fromEndian, ha, lastArg, cfg_asked hc hd, cfg_notAsked hc hd]
  · rw [k.intoE]; simp [EnumSpec.intoEndian, ha, lastArg, cfg_asked hc hd, cfg_notAsked hc hd]

/-- **C67** (the usual case). In a build where some crate depends on `bitfields`, or on `bitfields-impl` with its default
features, a declaration without arguments has everything: all groups of items, `Clone`, the first field in the lowest bits,
big endian, and no heap. -/
theorem C67_usual (hc : Configures requests cfg) (hw : WithDefaults requests) (hr : s.Readable)
    (ha : s.rest = bitfieldTokens []) (h : parseBitfield m cfg s.attr s.decl = .ok p) :
    (∀ g : Group, ∀ t ∈ g.tags s.intBacked, Generates p t) ∧ p.shape.clone = true ∧ p.shape.boxed = false ∧
    p.args.order = .lsb ∧ p.bitfield.fromEndian = .big ∧ p.bitfield.intoEndian = .big ∧ p.bitfield.writeEndian = .big := by
  have e : ∀ f, f ∈ defaultFeatures → cfg f = true := fun f hf => (C67_active hc f).mpr (.inr ⟨hw, .inr hf⟩)
  have hf : ∀ k : Flag, k ≠ .arrayHeap → k ≠ .forcePanic → k.byDefault cfg = true := by
    intro k h1 h2
    cases k <;> first
      | exact absurd rfl h1
      | exact absurd rfl h2
      | (simp only [Flag.byDefault, Flag.features]; rw [e _ (by decide)]; rfl)
  have hg : ∀ g : Group, g.flag.byDefault cfg = true := fun g => hf _ (by cases g <;> decide) (by cases g <;> decide)
  obtain ⟨s1, -, s2, -⟩ := C49_shape hr ha h
  obtain ⟨e1, e2, e3⟩ := C48_endian hr ha h
  have hk : ∀ k : EndianKey, cfg (k.key ++ "_big") = true := by
    intro k
    cases k <;> exact e _ (by decide)
  have hk : ∀ k : EndianKey, k.byDefault cfg = .big := by
    intro k
    simp [EndianKey.byDefault, hk]
  refine ⟨fun g t ht => ?_, ?_, ?_, ?_, ?_, ?_, ?_⟩
  · by_cases hw : g = .writeBits
    · subst hw
      rw [C39_write_group_partial hr ha h t ht]
      exact hf .bitOps (by decide) (by decide)
    · rw [C39_group hr ha h hw t ht]
      show (g.flag.byDefault cfg && (!g.isBitOps || Flag.bitOps.byDefault cfg)) = true
      rw [hg, hf .bitOps (by decide) (by decide), Bool.or_true]
      rfl
  · rw [s2]
    exact hf .copy (by decide) (by decide)
  · have hh : flagValue cfg [] .arrayHeap = false := by
      show (cfg "enable_array_heap" && !cfg "disable_array_heap") = false
      rw [e "disable_array_heap" (by decide)]
      simp
    cases hb : p.shape.boxed with
    | false => rfl
    | true => rw [(s1.mp hb).2] at hh; cases hh
  · rw [C48_order hr ha h]
    show orderByDefault cfg = .lsb
    simp [orderByDefault, e "order_lsb" (by decide)]
  · rw [e1]; exact hk .from
  · rw [e2]; exact hk .into
  · rw [e3]; exact hk .write

/-- **C67** (the usual case for bitflags). `Copy`, and big endian. -/
theorem C67_usual_bitflag {s : EnumSpec} {c : FlagCode} (hc : Configures requests cfg) (hw : WithDefaults requests)
    (hr : s.Readable) (h : expandBitflag cfg s.attr s.decl = .ok c) (ha : s.args = []) :
    c.copy = true ∧ c.fromEndian = .big ∧ c.intoEndian = .big := by
  have e : ∀ f, f ∈ defaultFeatures → cfg f = true := fun f hf => (C67_active hc f).mpr (.inr ⟨hw, .inr hf⟩)
  have k := code_of hr h
  refine ⟨?_, ?_, ?_⟩
  · rw [k.copy]; simp [EnumSpec.copies, ha, lastArg, e "bitflag_derive_copy" (by decide)]
  · rw [k.fromE]; simp [EnumSpec.fromEndian, ha, lastArg, e "bitflag_from_endian_big" (by decide)]
  · rw [k.intoE]; simp [EnumSpec.intoEndian, ha, lastArg, e "bitflag_into_endian_big" (by decide)]

end Direct

/-! ## Examples -/

namespace ExCargo

/-- `bitfields-impl = { default-features = false, features = ["disable_builder", "order_msb"] }` -/
def direct : List Request := [⟨"bitfields-impl", false, ["disable_builder", "order_msb"]⟩]

/-- The dependency that the README shows (README.md:2293-2306). -/
def readme : List Request := [
  ⟨"bitfields", false, ["generate_builder", "generate_set_get_bit_ops", "order_msb", "from_endian_little", "into_endian_big"]⟩]

theorem direct_noDefaults : ¬ WithDefaults direct := by
  rintro ⟨r, hr, h⟩
  simp only [direct, List.mem_singleton] at hr
  subst hr
  revert h
  decide

theorem asked_direct (f : String) : Asked direct f ↔ f ∈ ["disable_builder", "order_msb"] := by
  simp [Asked, direct]

/-- The features of the macro with `direct`. -/
def directCfg (f : String) : Bool := decide (f ∈ ["disable_builder", "order_msb"])

theorem direct_configures : Configures direct directCfg := by
  intro f
  rw [active_iff, asked_direct]
  simp [directCfg, direct_noDefaults]

/-- `#[bitfield(u16)] struct S { a: u8, b: u8 }` -/
def S : StructSpec where
  storage := .int .u16
  rest := bitfieldTokens []
  vis := .pub
  fields := [⟨"a", .pub, .int .u8, none⟩, ⟨"b", .pub, .int .u8, none⟩]

theorem readable : S.Readable where
  storage := trivial
  ty := by
    intro f hf
    simp only [S, List.mem_cons, List.not_mem_nil, or_false] at hf
    rcases hf with rfl | rfl <;> trivial
  default := by
    intro f hf d v h
    simp only [S, List.mem_cons, List.not_mem_nil, or_false] at hf
    rcases hf with rfl | rfl <;> cases h

/-- The features of the macro with it: the default ones. -/
theorem readme_configures : Configures readme fun f => decide (f = "default" ∨ f ∈ defaultFeatures) := by
  intro f
  rw [active_iff]
  have hw : WithDefaults readme := ⟨_, List.mem_singleton.mpr rfl, .inl rfl⟩
  have ha : ¬ Asked readme f := by
    rintro ⟨r, hr, h, -⟩
    simp only [readme, List.mem_singleton] at hr
    subst hr
    revert h
    decide
  simp [hw, ha]

end ExCargo

/-- The hypotheses are met: no builder, but `new`; the first field is in the upper byte; `from_bits` is big endian. -/
example : ∃ p, parseBitfield .checked ExCargo.directCfg ExCargo.S.attr ExCargo.S.decl = .ok p ∧
    ¬ Generates p .builder ∧ Generates p (.fn "new") ∧ Generates p (.fn "get_bit") ∧ p.args.order = .msb ∧
    p.bitfield.fromEndian = .big ∧ p.shape.clone = true := by
  obtain ⟨p, hp⟩ : ∃ p, parseBitfield .checked ExCargo.directCfg ExCargo.S.attr ExCargo.S.decl = .ok p := ⟨_, rfl⟩
  have hc := ExCargo.direct_configures
  have hd := ExCargo.direct_noDefaults
  have hr := ExCargo.readable
  obtain ⟨o, e, -⟩ := C67_values_partial hc hd hr (as := []) rfl hp
  refine ⟨p, hp, ?_, ?_, ?_, ?_, ?_, ?_⟩
  · rw [C67_groups_partial hc hd hr (as := []) rfl hp (g := .builder) (by decide) rfl rfl rfl _ (by simp [Group.tags])]
    simp [ExCargo.asked_direct, Group.isBitOps]
  · rw [C67_groups_partial hc hd hr (as := []) rfl hp (g := .new) (by decide) rfl rfl rfl _ (by simp [Group.tags])]
    simp [ExCargo.asked_direct, Group.isBitOps]
  · rw [C67_groups_partial hc hd hr (as := []) rfl hp (g := .setGetBits) (by decide) rfl rfl rfl _ (by simp [Group.tags])]
    simp [ExCargo.asked_direct]
  · rw [o rfl]; simp [ExCargo.asked_direct]
  · rcases he : p.bitfield.fromEndian with _ | _
    · exact absurd ((e rfl).mp he).1 (by simp [ExCargo.asked_direct])
    · rfl
  · rw [(C67_shape_partial hc hd hr (as := []) rfl hp).2.1 rfl]; simp [ExCargo.asked_direct]

/-- The usual case: the README's own dependency line. -/
example : ∃ p, parseBitfield .checked (fun f => decide (f = "default" ∨ f ∈ defaultFeatures)) ExCargo.S.attr
    ExCargo.S.decl = .ok p ∧ Generates p .builder ∧ p.args.order = .lsb := by
  obtain ⟨p, hp⟩ : ∃ p, parseBitfield .checked (fun f => decide (f = "default" ∨ f ∈ defaultFeatures)) ExCargo.S.attr
    ExCargo.S.decl = .ok p := ⟨_, rfl⟩
  obtain ⟨h1, -, -, h2, -⟩ := C67_usual ExCargo.readme_configures ⟨_, List.mem_singleton.mpr rfl, .inl rfl⟩
    ExCargo.readable rfl hp
  exact ⟨p, hp, h1 .builder _ (by simp [Group.tags]), h2⟩

/-- For bitflags too. -/
example : expandBitflag ExCargo.directCfg { ExFlag.s with args := [] }.attr { ExFlag.s with args := [] }.decl =
    .ok { ExFlag.c with copy := true, intoEndian := .big } := by rfl

namespace Finding

/-- With the default features every argument that is not given has its usual value. -/
theorem defaults_fixed (h : Configures requests cfg) (hw : WithDefaults requests) :
    defaultArgs cfg = defaultArgs (fun _ => false) ∧ defaultBitflagArgs cfg = defaultBitflagArgs fun _ => false := by
  have e : ∀ f, f ∈ defaultFeatures → cfg f = true := fun f hf => (C67_active h f).mpr (.inr ⟨hw, .inr hf⟩)
  have ord : ∀ b, resolveOrder true b = .lsb := by decide
  have end' : ∀ b, resolveEndian b true .big = .big := by decide
  have bool : ∀ b, resolveBool true b = true := by decide
  constructor
  · simp only [defaultArgs, e "order_lsb" (by decide), e "from_endian_big" (by decide), e "into_endian_big" (by decide),
      e "write_endian_big" (by decide), e "generate_new" (by decide), e "generate_from_into_bits" (by decide),
      e "generate_from_traits" (by decide), e "generate_default" (by decide), e "generate_debug" (by decide),
      e "derive_copy" (by decide), e "generate_bit_ops" (by decide), e "generate_write_bit_ops" (by decide),
      e "generate_clear_bit_ops" (by decide), e "generate_set_get_bit_ops" (by decide),
      e "generate_invert_bit_ops" (by decide), e "generate_toggle_bit_ops" (by decide), e "generate_builder" (by decide),
      e "disable_array_heap" (by decide), ord, end', bool]
    simp [resolveOrder, resolveEndian, resolveBool]
  · simp only [defaultBitflagArgs, e "bitflag_from_endian_big" (by decide), e "bitflag_into_endian_big" (by decide),
      e "bitflag_derive_copy" (by decide), end', bool]
    simp [resolveEndian, resolveBool]

/-- C67: as soon as one crate of the build depends on `bitfields`, with whatever features and with or without default
features, no Cargo feature that anybody asks for has any effect: both macros do what they do without features. -/
theorem finding_features_ignored (h : Configures requests cfg) (hb : ∃ r ∈ requests, r.package = "bitfields") :
    (∀ m attr d, bitfieldMacro m cfg attr d = bitfieldMacro m (fun _ => false) attr d) ∧
    (∀ attr d, bitflagMacro cfg attr d = bitflagMacro (fun _ => false) attr d) := by
  have hw : WithDefaults requests := by obtain ⟨r, hr, e⟩ := hb; exact ⟨r, hr, .inl e⟩
  obtain ⟨h1, h2⟩ := defaults_fixed h hw
  constructor
  · intro m attr d
    simp only [bitfieldMacro, parseBitfield, parseBitfieldAttr, parseBitfieldArgs, h1]
  · intro attr d
    simp only [bitflagMacro, expandBitflag, parseBitflag, parseBitflagAttr, parseBitflagArgs, h2]

/-- C67: with the dependency that the README shows as an example, fields are still placed least significant first and
`from_bits` still reads big endian. -/
theorem finding_readme_features (h : Configures ExCargo.readme cfg) {m : Mode} {s : StructSpec}
    {as : List BitfieldArgSpec} {p : Parsed} (hr : s.Readable) (ha : s.rest = bitfieldTokens as)
    (hp : parseBitfield m cfg s.attr s.decl = .ok p) (h1 : statedOrder as = none) (h2 : statedEndian as .from = none) :
    p.args.order = .lsb ∧ p.bitfield.fromEndian = .big := by
  have hw : WithDefaults ExCargo.readme := ⟨_, List.mem_singleton.mpr rfl, .inl rfl⟩
  have e : ∀ f, f ∈ defaultFeatures → cfg f = true := fun f hf => (C67_active h f).mpr (.inr ⟨hw, .inr hf⟩)
  rw [C48_order hr ha hp, (C48_endian hr ha hp).1, h1, h2]
  constructor
  · simp [orderByDefault, e "order_lsb" (by decide)]
  · simp [EndianKey.byDefault, EndianKey.key, e "from_endian_big" (by decide)]

example : Configures ExCargo.readme fun f => decide (f = "default" ∨ f ∈ defaultFeatures) := ExCargo.readme_configures
example : ∃ p, parseBitfield .checked (fun f => decide (f = "default" ∨ f ∈ defaultFeatures)) ExCargo.S.attr ExCargo.S.decl =
    .ok p := ⟨_, rfl⟩

end Finding

end Bf
