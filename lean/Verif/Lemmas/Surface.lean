import Verif.Lemmas.Accept
import Verif.SpecSurface

/-!
# Lemmas: arguments of `#[bitfield]` and generated items
-/

namespace Bf

/-! ## Arguments -/

def BitfieldArgSpec.arg : BitfieldArgSpec → Arg
  | .flag k b => ⟨k.key, boolText b, .bool b⟩
  | .order o => ⟨"order", o.text, .bool false⟩
  | .endian k e => ⟨k.key, e.text, .bool false⟩

theorem BitfieldArgSpec.tokens_eq (a : BitfieldArgSpec) :
    a.tokens = [.ident a.arg.key, .eq, .expr a.arg.text a.arg.value] := by cases a <;> rfl

theorem BitfieldArgSpec.key_mem (a : BitfieldArgSpec) : a.arg.key ∈ bitfieldKeys := by
  cases a with
  | flag k b => cases k <;> simp [BitfieldArgSpec.arg, Flag.key, bitfieldKeys]
  | order o => simp [BitfieldArgSpec.arg, bitfieldKeys]
  | endian k e => cases k <;> simp [BitfieldArgSpec.arg, EndianKey.key, bitfieldKeys]

theorem argsLoop_bitfield (as : List BitfieldArgSpec) :
    argsLoop bitfieldKeys (skipComma (bitfieldTokens as)) = .ok (as.map BitfieldArgSpec.arg) := by
  induction as with
  | nil => rfl
  | cons a as ih =>
    simp only [bitfieldTokens, List.flatMap_cons, List.cons_append, skipComma,
      BitfieldArgSpec.tokens_eq] at ih ⊢
    have hk := a.key_mem
    cases as with
    | nil => simp [argsLoop, hk]
    | cons a' as' =>
      simp only [List.flatMap_cons, List.cons_append,
        List.nil_append, List.map_cons] at ih ⊢
      conv => lhs; unfold argsLoop
      simp only [hk, not_true_eq_false, if_false]
      rw [ih]

theorem endianOf_text (e : Endian) : endianOf e.text = .ok e := by cases e <;> rfl

theorem orderOf_text (o : Order) : orderOf o.text = .ok o := by cases o <;> rfl

/-- The value of a flag. -/
def BitfieldArgs.flag (r : BitfieldArgs) : Flag → Bool
  | .new => r.new
  | .fromIntoBits => r.fromIntoBits
  | .fromTraits => r.fromTraits
  | .default => r.default
  | .debug => r.debug
  | .copy => r.copy
  | .bitOps => r.bitOps
  | .writeBitOps => r.writeBitOps
  | .clearBitOps => r.clearBitOps
  | .setGetBitOps => r.setGetBitOps
  | .invertBitOps => r.invertBitOps
  | .toggleBitOps => r.toggleBitOps
  | .builder => r.builder
  | .arrayHeap => r.arrayHeap
  | .forcePanic => r.forcePanic

/-- Whether the user set the flag, for the flags that record it. -/
def BitfieldArgs.userSet (r : BitfieldArgs) : Flag → Option Bool
  | .writeBitOps => some r.userSetWriteBitOps
  | .clearBitOps => some r.userSetClearBitOps
  | .setGetBitOps => some r.userSetSetGetBitOps
  | .invertBitOps => some r.userSetInvertBitOps
  | .toggleBitOps => some r.userSetToggleBitOps
  | _ => none

def BitfieldArgs.endian (r : BitfieldArgs) : EndianKey → Endian
  | .from => r.fromEndian
  | .into => r.intoEndian
  | .write => r.writeEndian

/-- The arguments `r'` result from `r` by the arguments `as`. -/
structure ArgsFrom (r : BitfieldArgs) (as : List BitfieldArgSpec) (r' : BitfieldArgs) : Prop where
  flag : ∀ k, r'.flag k = (stated as k).getD (r.flag k)
  userSet : ∀ k, r'.userSet k = (r.userSet k).map fun b => b || (stated as k).isSome
  order : r'.order = (statedOrder as).getD r.order
  endian : ∀ k, r'.endian k = (statedEndian as k).getD (r.endian k)

theorem ArgsFrom.trans {r r1 r' : BitfieldArgs} {a : BitfieldArgSpec} {as : List BitfieldArgSpec}
    (h1 : ArgsFrom r [a] r1) (h2 : ArgsFrom r1 as r') : ArgsFrom r (a :: as) r' := by
  refine ⟨fun k => ?_, fun k => ?_, ?_, fun k => ?_⟩
  · rw [h2.flag, h1.flag]
    simp only [stated, lastArg_cons]
    cases lastArg _ as <;> simp [lastArg]
  · rw [h2.userSet, h1.userSet]
    simp only [stated, lastArg_cons]
    cases r.userSet k with
    | none => rfl
    | some b =>
      simp only [Option.map_some, Option.some.injEq]
      cases lastArg _ as <;> simp [lastArg]
  · rw [h2.order, h1.order]
    simp only [statedOrder, lastArg_cons]
    cases lastArg _ as <;> simp [lastArg]
  · rw [h2.endian, h1.endian]
    simp only [statedEndian, lastArg_cons]
    cases lastArg _ as <;> simp [lastArg]

/-- The arguments with one flag set. -/
def BitfieldArgs.setFlag (r : BitfieldArgs) (k : Flag) (b : Bool) : BitfieldArgs :=
  match k with
  | .new => { r with new := b }
  | .fromIntoBits => { r with fromIntoBits := b }
  | .fromTraits => { r with fromTraits := b }
  | .default => { r with default := b }
  | .debug => { r with debug := b }
  | .copy => { r with copy := b }
  | .bitOps => { r with bitOps := b }
  | .writeBitOps => { r with writeBitOps := b, userSetWriteBitOps := true }
  | .clearBitOps => { r with clearBitOps := b, userSetClearBitOps := true }
  | .setGetBitOps => { r with setGetBitOps := b, userSetSetGetBitOps := true }
  | .invertBitOps => { r with invertBitOps := b, userSetInvertBitOps := true }
  | .toggleBitOps => { r with toggleBitOps := b, userSetToggleBitOps := true }
  | .builder => { r with builder := b }
  | .arrayHeap => { r with arrayHeap := b }
  | .forcePanic => { r with forcePanic := b }

def BitfieldArgs.setEndian (r : BitfieldArgs) (k : EndianKey) (e : Endian) : BitfieldArgs :=
  match k with
  | .from => { r with fromEndian := e }
  | .into => { r with intoEndian := e }
  | .write => { r with writeEndian := e }

theorem applyArg_arg (r : BitfieldArgs) (a : BitfieldArgSpec) :
    ∃ r1, applyArg r a.arg = .ok r1 ∧ ArgsFrom r [a] r1 := by
  cases a with
  | flag k b =>
    have hb : ∀ key, parseBool ⟨key, boolText b, .bool b⟩ = .ok b := fun key => parseBool_text b key _
    refine ⟨r.setFlag k b, ?_, ?_⟩
    · cases k <;>
        simp only [applyArg, BitfieldArgSpec.arg, Flag.key, String.reduceEq, if_true, if_false,
          hb] <;> rfl
    · refine ⟨fun k' => ?_, fun k' => ?_, ?_, fun k' => ?_⟩
      · cases k <;> cases k' <;> rfl
      · cases k <;> cases k' <;>
          first | rfl | simp [BitfieldArgs.userSet, stated, lastArg, BitfieldArgs.setFlag]
      · cases k <;> rfl
      · cases k <;> cases k' <;> rfl
  | order o =>
    refine ⟨{ r with order := o }, ?_, ?_⟩
    · simp only [applyArg, BitfieldArgSpec.arg, if_true, orderOf_text]
      rfl
    · refine ⟨fun k => ?_, fun k => ?_, rfl, fun k => ?_⟩
      · cases k <;> rfl
      · cases k <;> first | rfl | simp [BitfieldArgs.userSet, stated, lastArg]
      · cases k <;> rfl
  | endian k e =>
    refine ⟨r.setEndian k e, ?_, ?_⟩
    · cases k <;>
        simp only [applyArg, BitfieldArgSpec.arg, EndianKey.key, String.reduceEq, if_true,
           if_false, endianOf_text] <;> rfl
    · refine ⟨fun k' => ?_, fun k' => ?_, ?_, fun k' => ?_⟩
      · cases k <;> cases k' <;> rfl
      · cases k <;> cases k' <;>
          first | rfl | simp [BitfieldArgs.userSet, stated, lastArg, BitfieldArgs.setEndian]
      · cases k <;> rfl
      · cases k <;> cases k' <;> rfl

theorem foldlM_bitfield (as : List BitfieldArgSpec) :
    ∀ r, ∃ r', (as.map BitfieldArgSpec.arg).foldlM applyArg r = .ok r' ∧ ArgsFrom r as r' := by
  induction as with
  | nil =>
    intro r
    refine ⟨r, rfl, ?_, ?_, rfl, ?_⟩
    · intro k; rfl
    · intro k; cases h : r.userSet k <;> simp [stated, lastArg]
    · intro k; rfl
  | cons a as ih =>
    intro r
    obtain ⟨r1, h1, h2⟩ := applyArg_arg r a
    obtain ⟨r', h3, h4⟩ := ih r1
    refine ⟨r', ?_, h2.trans h4⟩
    rw [List.map_cons, List.foldlM_cons, h1]
    exact h3

theorem parseBitfieldArgs_tokens (cfg : String → Bool) (as : List BitfieldArgSpec) :
    ∃ r, parseBitfieldArgs cfg (bitfieldTokens as) = .ok r ∧ ArgsFrom (defaultArgs cfg) as r := by
  obtain ⟨r, h1, h2⟩ := foldlM_bitfield as (defaultArgs cfg)
  refine ⟨r, ?_, h2⟩
  simp only [parseBitfieldArgs, parseAttributeArguments, argsLoop_bitfield]
  exact h1

theorem defaultArgs_flag (cfg : String → Bool) (k : Flag) :
    (defaultArgs cfg).flag k = k.byDefault cfg := by
  cases k <;>
    simp only [BitfieldArgs.flag, defaultArgs, Flag.byDefault, Flag.features, resolveBool,
      reduceCtorEq, if_false, if_true] <;>
    first
      | rfl
      | (rename_i x; cases x)
      | (split <;> simp [*])

/-! ## What is kept of a field -/

/-- What the generated interface depends on. -/
structure View where
  name : String
  vis : Vis
  access : Access
  reserved : Bool
  hasDefault : Bool
  ignored : Bool
deriving DecidableEq

def PField.view (q : PField) : View :=
  ⟨q.field.name, q.vis, q.field.access, q.field.reserved, q.field.default.isSome, q.ignored⟩

/-- The access of a field of the layout. -/
def FieldSpec.effective (f : FieldSpec) : Access :=
  match f.access? with
  | some a => a
  | none =>
    if f.reserved then
      if f.default?.isSome then .ro else if f.bits.isSome then .rw else .na
    else .rw

def FieldSpec.view (sv : Vis) (f : FieldSpec) : View :=
  if f.ignored then ⟨f.name, f.vis, .na, false, false, true⟩
  else ⟨f.name, f.ownVis sv, f.effective, f.reserved, f.default?.isSome, false⟩

theorem fieldAccess_info {f : FieldSpec} {a : Access}
    (h : fieldAccess f.info.attr f.info.reserved = .ok a) :
    a = f.effective ∧ (f.reserved = true → f.access? = none) := by
  rw [FieldSpec.info_reserved] at h
  generalize hr : f.reserved = r at h
  simp only [FieldSpec.effective, hr]
  obtain ⟨name, vis, ty, bits⟩ := f
  cases bits with
  | none =>
    cases h
    simp [lastArg, FieldSpec.access?, FieldSpec.default?, FieldSpec.args]
  | some b =>
    generalize hf : (⟨name, vis, ty, some b⟩ : FieldSpec) = f at *
    have key : fieldAccess f.info.attr r =
        if f.access?.isSome && r then
          .error (.error "Reserved fields cannot have a defined access.")
        else if ((f.default?.map fun dv => (dv.1.const, dv.2)).or none).isSome && r then .ok .ro
        else .ok (f.access?.getD .rw) := by subst hf; rfl
    rw [key] at h
    have hb : f.bits.isSome = true := by rw [← hf]; rfl
    rw [hb]
    cases hl : f.access? with
    | some a' =>
      rw [hl] at h
      cases r with
      | true => cases h
      | false =>
        cases hd : f.default? <;> (rw [hd] at h; cases h; simp)
    | none =>
      rw [hl] at h
      refine ⟨?_, fun _ => rfl⟩
      cases r <;> cases hd : f.default? <;> (rw [hd] at h; cases h; simp)

theorem parseField_view {m : Mode} {A : BitfieldAttr} {sv : Vis} {f : FieldSpec}
    (hp : f.ty.Proper) (hr : f.Readable)
    {prev : List PField} {q : PField} (h : parseField m A sv f.decl prev = .ok q) :
    q.view = f.view sv ∧ q.ignored = f.ignored ∧
      (f.ignored = false → f.reserved = true → f.access? = none) := by
  obtain ⟨a, ha, h⟩ := parseField_ok.mp h
  by_cases hi : isIgnored a = true
  · rw [if_pos hi] at h
    simp only [parseIgnored] at h
    cases ht : f.decl.ty.dataType with
    | error e => rw [ht] at h; cases h
    | ok t =>
      rw [ht] at h
      cases h
      obtain ⟨e, _⟩ := FieldSpec.reads (i := ⟨f.decl, a, t⟩) hp hr ⟨ha, ht⟩ rfl
      have e1 : f.ignored = true := by
        rw [← FieldSpec.info_ignored, ← e]; exact hi
      refine ⟨?_, e1.symm, fun h => by rw [e1] at h; cases h⟩
      simp only [PField.view, FieldSpec.view, e1, if_true]
      rfl
  · rw [if_neg hi] at h
    obtain ⟨t, w, o, c, ht, _, _, _, _, hc, rfl⟩ := h
    obtain ⟨e, _⟩ := FieldSpec.reads (i := ⟨f.decl, a, t⟩) hp hr ⟨ha, ht⟩ rfl
    have e1 : f.ignored = false := by
      rw [← FieldSpec.info_ignored, ← e]; exact Bool.eq_false_iff.mpr hi
    have ea : f.info.attr = a := by rw [← e]
    obtain ⟨e2, e3⟩ := fieldAccess_info (f := f) (a := c) (by rw [ea]; exact hc)
    refine ⟨?_, e1.symm, fun _ => e3⟩
    simp only [PField.view, mkField, FieldSpec.view, e1]
    rw [if_neg (by simp)]
    simp only [View.mk.injEq]
    refine ⟨rfl, rfl, e2, ?_, ?_, trivial⟩
    · exact FieldSpec.info_reserved f
    · have := FieldSpec.info_default f
      rw [ea] at this
      rw [this]
      simp

theorem parseFields_view {m : Mode} {A : BitfieldAttr} {sv : Vis} (fs : List FieldSpec) :
    ∀ seen fields ign r, (∀ f ∈ fs, f.ty.Proper) → (∀ f ∈ fs, f.Readable) →
      parseFields m A sv (fs.map FieldSpec.decl) seen fields ign = .ok r →
      r.1.map PField.view = fields.map PField.view ++
        ((fs.filter fun f => !f.ignored).map (FieldSpec.view sv)) ∧
      r.2.map PField.view = ign.map PField.view ++
        ((fs.filter fun f => f.ignored).map (FieldSpec.view sv)) ∧
      ∀ f ∈ fs, f.ignored = false → f.reserved = true → f.access? = none := by
  induction fs with
  | nil => intro _ _ _ _ _ _ h; cases h; simp
  | cons f fs ih =>
    intro seen fields ign r hp hr h
    simp only [List.map_cons, parseFields] at h
    split at h
    · cases h
    obtain ⟨q, hq, h⟩ := bind_ok.mp h
    obtain ⟨e1, e2, e3⟩ := parseField_view (hp f (by simp)) (hr f (by simp)) hq
    have ih := fun seen fields ign r => ih seen fields ign r (fun g hg => hp g (by simp [hg]))
      (fun g hg => hr g (by simp [hg]))
    split at h
    · rename_i hi
      rw [e2] at hi
      obtain ⟨a1, a2, a3⟩ := ih _ _ _ _ h
      refine ⟨?_, ?_, ?_⟩
      · rw [a1]; simp [hi]
      · rw [a2]; simp [hi, e1]
      · intro g hg
        rcases List.mem_cons.mp hg with rfl | hg
        · exact e3
        · exact a3 g hg
    · rename_i hi
      rw [e2] at hi
      obtain ⟨a1, a2, a3⟩ := ih _ _ _ _ h
      refine ⟨?_, ?_, ?_⟩
      · rw [a1]; simp [hi, e1]
      · rw [a2]; simp [hi]
      · intro g hg
        rcases List.mem_cons.mp hg with rfl | hg
        · exact e3
        · exact a3 g hg

/-- What an accepted struct's parse result keeps of it. -/
structure Kept (cfg : String → Bool) (s : StructSpec) (p : Parsed) : Prop where
  fields : p.fields.map PField.view = (s.fields.filter fun f => !f.ignored).map (FieldSpec.view s.vis)
  ignored : p.ignored.map PField.view = (s.fields.filter fun f => f.ignored).map (FieldSpec.view s.vis)
  access : ∀ f ∈ s.fields, f.ignored = false → f.reserved = true → f.access? = none
  vis : p.vis = s.vis
  args : parseBitfieldArgs cfg s.rest = .ok p.args
  names : s.fields.Pairwise fun f g => f.reserved = false → f.name ≠ g.name
  ty : s.storage.syntax.dataType = .ok p.ty
  int : p.intBacked = s.intBacked

theorem parsed_attr {m : Mode} {cfg : String → Bool} {attr : AttrInput} {d : StructDecl} {p : Parsed}
    (h : parseBitfield m cfg attr d = .ok p) :
    p.vis = d.vis ∧ parseBitfieldArgs cfg attr.rest = .ok p.args ∧
      (∃ t, attr.ty = some t ∧ t.dataType = .ok p.ty) ∧ ∃ ds A, d.fields = some ds ∧
      parseFields m A d.vis ds [] [] [] = .ok (p.fields, p.ignored) := by
  simp only [parseBitfield] at h
  obtain ⟨A, hA, h⟩ := bind_ok.mp h
  cases hd : d.fields with
  | none => rw [hd] at h; cases h
  | some ds =>
    rw [hd] at h
    obtain ⟨⟨fs, ig⟩, hf, h⟩ := bind_ok.mp h
    obtain ⟨_, _, h⟩ := bind_ok.mp h
    cases h
    have : parseBitfieldArgs cfg attr.rest = .ok A.args ∧
        ∃ t, attr.ty = some t ∧ t.dataType = .ok A.ty := by
      simp only [parseBitfieldAttr] at hA
      cases ht : attr.ty with
      | none => rw [ht] at hA; cases hA
      | some t =>
        rw [ht] at hA
        simp only at hA
        split at hA
        · cases hA
        · cases hA
        · rename_i ty _ hty
          split at hA
          · obtain ⟨args, ha, h⟩ := bind_ok.mp hA
            cases h
            exact ⟨ha, t, rfl, hty⟩
          · cases hA
    exact ⟨rfl, this.1, this.2, ds, A, rfl, hf⟩

theorem StructSpec.kept {m : Mode} {cfg : String → Bool} {s : StructSpec} {p : Parsed}
    (hr : s.Readable) (h : parseBitfield m cfg s.attr s.decl = .ok p) : Kept cfg s p := by
  obtain ⟨h1, h2, ⟨t, h3, h4⟩, ds, A, h5, h6⟩ := parsed_attr h
  cases h5
  cases h3
  obtain ⟨a1, a2, a3⟩ := parseFields_view s.fields _ _ _ _ hr.ty hr.default h6
  rw [show s.decl.vis = s.vis from rfl] at a1 a2
  refine ⟨by simpa using a1, by simpa using a2, a3, h1, h2, ?_, h4, ?_⟩
  · have := parseFields_names _ _ _ _ _ h6
    rw [List.pairwise_map] at this
    refine this.imp fun {f g} hfg hf => hfg ?_
    rw [← hf, ← FieldSpec.info_reserved]
    rfl
  · have := dataType_syntax.mp h4
    simp only [Parsed.intBacked, StructSpec.intBacked]
    cases hs : s.storage with
    | int it => rw [hs] at this; rw [this]
    | bytes n => rw [hs] at this; rw [this.2.2]
    | custom name c =>
      exfalso
      have hsup := supported_of_dataType hr.storage h4
      rw [dataType_supported hsup] at h4
      have e := Except.ok.inj h4
      have hA : ∃ A, parseBitfieldAttr cfg s.attr = .ok A := by
        simp only [parseBitfield] at h
        obtain ⟨A, hA, _⟩ := bind_ok.mp h
        exact ⟨A, hA⟩
      obtain ⟨A, hA⟩ := hA
      rw [hs] at hsup
      simp only [parseBitfieldAttr, StructSpec.attr, hs, dataType_supported hsup,
        TypeSpec.data] at hA
      cases hA

/-! ## Items for fields -/

def View.hasSetter (w : View) : Bool :=
  if w.reserved then false
  else match w.access with
    | .wo | .rw => true
    | _ => false

def View.hasGetter (w : View) : Bool :=
  if w.reserved then false
  else match w.access with
    | .ro | .rw => true
    | _ => false

theorem view_hasSetter (q : PField) : q.field.hasSetter = q.view.hasSetter := rfl

theorem view_hasGetter (q : PField) : q.field.hasGetter = q.view.hasGetter := rfl

/-- The feature that generates an accessor. -/
def Accessor.feature : Accessor → Feature
  | .bitsConst | .offsetConst => .constants
  | .get => .getters
  | .set | .checkedSet => .setters
  | .clear | .clearToDefault => .clearBitOps
  | .invert | .inverted => .invertBitOps
  | .builderWith | .builderCheckedWith => .builder

/-- A field has the accessor. -/
def Accessor.applies (w : View) : Accessor → Bool
  | .bitsConst | .offsetConst => w.hasGetter || w.hasSetter
  | .get | .inverted => w.hasGetter
  | .set | .checkedSet | .clear | .invert => w.hasSetter
  | .clearToDefault => w.hasSetter && w.hasDefault
  | .builderWith | .builderCheckedWith => !w.reserved

/-- The visibility of the accessor. -/
def Accessor.itemVis (sv : Vis) (w : View) : Accessor → Vis
  | .clear | .clearToDefault | .invert | .inverted => sv
  | _ => if w.access == .rw || w.access == .ro then w.vis else .priv

theorem mem_surface {p : Parsed} {x : Item} :
    x ∈ surface p ↔ ∃ F : Feature, F.enabled p.args = true ∧ x ∈ F.items p := by
  simp only [surface, List.mem_flatMap, List.mem_filter]
  constructor
  · rintro ⟨F, ⟨_, h⟩, hx⟩; exact ⟨F, h, hx⟩
  · rintro ⟨F, h, hx⟩; exact ⟨F, ⟨by cases F <;> decide, h⟩, hx⟩

theorem mem_items_acc {p : Parsed} {F : Feature} {a : Accessor} {x : String} {v : Vis} :
    ⟨.acc a x, v⟩ ∈ F.items p ↔ F = a.feature ∧
      ∃ w ∈ p.fields.map PField.view, w.name = x ∧ a.applies w = true ∧ v = a.itemVis p.vis w := by
  simp only [List.mem_map]
  cases F <;> cases a <;>
    simp [Feature.items, Parsed.fns, Accessor.feature, Accessor.applies, Accessor.itemVis,
      PField.visibility, view_hasSetter, view_hasGetter, PField.view, Field.hasConstants] <;>
    grind

theorem mem_surface_acc {p : Parsed} {a : Accessor} {x : String} {v : Vis} :
    ⟨.acc a x, v⟩ ∈ surface p ↔ a.feature.enabled p.args = true ∧
      ∃ w ∈ p.fields.map PField.view, w.name = x ∧ a.applies w = true ∧ v = a.itemVis p.vis w := by
  rw [mem_surface]
  constructor
  · rintro ⟨F, h, hx⟩
    obtain ⟨rfl, hw⟩ := mem_items_acc.mp hx
    exact ⟨h, hw⟩
  · rintro ⟨h, hw⟩
    exact ⟨_, h, mem_items_acc.mpr ⟨rfl, hw⟩⟩

theorem FieldSpec.has_iff {f : FieldSpec} {sv : Vis} {a : Accessor} :
    f.Has a ↔ f.ignored = false ∧ a.applies (f.view sv) = true := by
  cases hi : f.ignored with
  | true =>
    cases a <;> simp [FieldSpec.Has, FieldSpec.CanRead, FieldSpec.CanWrite, FieldSpec.Named, hi]
  | false =>
    cases hr : f.reserved with
    | true =>
      cases a <;> simp [FieldSpec.Has, FieldSpec.CanRead, FieldSpec.CanWrite, FieldSpec.Named, hr,
        Accessor.applies, FieldSpec.view, hi, View.hasSetter, View.hasGetter]
    | false =>
      cases hc : f.access? with
      | none =>
        cases a <;> simp [FieldSpec.Has, FieldSpec.CanRead, FieldSpec.CanWrite, FieldSpec.Named, hr,
          Accessor.applies, FieldSpec.view, hi, View.hasSetter, View.hasGetter, hc,
          FieldSpec.effective]
      | some c =>
        cases c <;> cases a <;>
          simp [FieldSpec.Has, FieldSpec.CanRead, FieldSpec.CanWrite, FieldSpec.Named, hr,
            Accessor.applies, FieldSpec.view, hi, View.hasSetter, View.hasGetter, hc,
            FieldSpec.effective]

theorem Kept.acc {cfg : String → Bool} {s : StructSpec} {p : Parsed} (k : Kept cfg s p)
    {a : Accessor} {x : String} {v : Vis} :
    ⟨.acc a x, v⟩ ∈ surface p ↔ a.feature.enabled p.args = true ∧
      ∃ f ∈ s.fields, f.name = x ∧ f.Has a ∧ v = a.itemVis s.vis (f.view s.vis) := by
  rw [mem_surface_acc, k.fields, k.vis]
  refine and_congr_right fun _ => ?_
  constructor
  · rintro ⟨w, hw, h1, h2, h3⟩
    obtain ⟨f, hf, rfl⟩ := List.mem_map.mp hw
    obtain ⟨hf, hi⟩ := List.mem_filter.mp hf
    have hi : f.ignored = false := by simpa using hi
    refine ⟨f, hf, ?_, FieldSpec.has_iff.mpr ⟨hi, h2⟩, h3⟩
    rw [← h1, FieldSpec.view, hi]
    rfl
  · rintro ⟨f, hf, h1, h2, h3⟩
    obtain ⟨hi, h2⟩ := (FieldSpec.has_iff (sv := s.vis)).mp h2
    refine ⟨f.view s.vis, List.mem_map.mpr ⟨f, List.mem_filter.mpr ⟨hf, by simp [hi]⟩, rfl⟩, ?_,
      h2, h3⟩
    rw [← h1, FieldSpec.view, hi]
    rfl

/-! ## Other items -/

def Group.feature : Group → Feature
  | .new => .new
  | .fromIntoBits => .fromIntoBits
  | .fromTraits => .fromTraits
  | .default => .default
  | .debug => .debug
  | .builder => .builder
  | .writeBits => .writeBitOps
  | .clearBits => .clearBitOps
  | .setGetBits => .setGetBitOps
  | .invertBits => .invertBitOps

def Group.all : List Group :=
  [.new, .fromIntoBits, .fromTraits, .default, .debug, .builder, .writeBits, .clearBits,
   .setGetBits, .invertBits]

theorem Group.mem_all (g : Group) : g ∈ Group.all := by cases g <;> decide

/-- The item belongs to no field. -/
def Tag.whole : Tag → Bool
  | .acc _ _ => false
  | _ => true

theorem tags_whole (int : Bool) (g : Group) : ∀ t ∈ g.tags int, t.whole = true := by
  cases int <;> cases g <;> decide

theorem tags_disjoint : ∀ int : Bool, ∀ g ∈ Group.all, ∀ g' ∈ Group.all, ∀ t ∈ g.tags int,
    t ∈ g'.tags int → g = g' := by decide +kernel

theorem mem_group_items {p : Parsed} {g : Group} {t : Tag} (ht : t.whole = true) :
    (∃ v, ⟨t, v⟩ ∈ g.feature.items p) ↔ t ∈ g.tags p.intBacked := by
  cases g <;> cases hi : p.intBacked <;> cases t <;>
    first
      | (cases ht; done)
      | (simp [Group.feature, Feature.items, Group.tags, Parsed.fns, hi, intConversions,
          arrayConversions, Parsed.bob, exists_or]; done)
      | (simp [Group.feature, Feature.items, Group.tags, Parsed.fns, hi, Parsed.bob,
          exists_or, or_comm, or_left_comm])

theorem mem_surface_whole {p : Parsed} {t : Tag} (ht : t.whole = true) :
    Generates p t ↔ t = .bitfield ∨
      ∃ g : Group, g.feature.enabled p.args = true ∧ t ∈ g.tags p.intBacked := by
  simp only [Generates, mem_surface]
  constructor
  · rintro ⟨v, F, hF, hx⟩
    have key : ∀ g : Group, g.feature = F → t = .bitfield ∨
        ∃ g : Group, g.feature.enabled p.args = true ∧ t ∈ g.tags p.intBacked := by
      rintro g rfl
      exact .inr ⟨g, hF, (mem_group_items ht).mp ⟨v, hx⟩⟩
    cases F with
    | struct =>
      left
      simp only [Feature.items, List.mem_singleton, Item.mk.injEq] at hx
      exact hx.1
    | constants =>
      simp only [Feature.items, List.mem_flatMap, List.mem_cons, Item.mk.injEq, List.not_mem_nil,
        or_false] at hx
      obtain ⟨f, _, ⟨rfl, _⟩ | ⟨rfl, _⟩⟩ := hx <;> cases ht
    | setters =>
      simp only [Feature.items, List.mem_flatMap, List.mem_cons, Item.mk.injEq, List.not_mem_nil,
        or_false] at hx
      obtain ⟨f, _, ⟨rfl, _⟩ | ⟨rfl, _⟩⟩ := hx <;> cases ht
    | getters =>
      simp only [Feature.items, List.mem_map, Item.mk.injEq] at hx
      obtain ⟨f, _, rfl, _⟩ := hx
      cases ht
    | new => exact key .new rfl
    | fromTraits => exact key .fromTraits rfl
    | debug => exact key .debug rfl
    | fromIntoBits => exact key .fromIntoBits rfl
    | builder => exact key .builder rfl
    | default => exact key .default rfl
    | writeBitOps => exact key .writeBits rfl
    | setGetBitOps => exact key .setGetBits rfl
    | clearBitOps => exact key .clearBits rfl
    | invertBitOps => exact key .invertBits rfl
  · rintro (rfl | ⟨g, hg, h⟩)
    · exact ⟨p.vis, .struct, rfl, by simp [Feature.items]⟩
    · obtain ⟨v, hv⟩ := (mem_group_items ht).mpr h
      exact ⟨v, _, hg, hv⟩

theorem generates_tag {p : Parsed} {g : Group} {t : Tag} (h : t ∈ g.tags p.intBacked) :
    Generates p t ↔ g.feature.enabled p.args = true := by
  rw [mem_surface_whole (tags_whole _ g t h)]
  constructor
  · rintro (rfl | ⟨g', hg', h'⟩)
    · exfalso
      revert h
      cases p.intBacked <;> cases g <;> decide
    · rw [tags_disjoint _ g g.mem_all g' g'.mem_all t h h']
      exact hg'
  · exact fun hg => .inr ⟨g, hg, h⟩

theorem hasGroup_iff {p : Parsed} {g : Group} :
    p.HasGroup g ↔ g.feature.enabled p.args = true := by
  constructor
  · intro h
    have : ∃ t, t ∈ g.tags p.intBacked := by
      cases p.intBacked <;> cases g <;> exact ⟨_, List.mem_cons_self ..⟩
    obtain ⟨t, ht⟩ := this
    exact (generates_tag ht).mp (h t ht)
  · exact fun h t ht => (generates_tag ht).mpr h

theorem group_feature (a : Accessor) {p : Parsed} :
    a.feature.enabled p.args = true ↔ ∀ g, a.group = some g → p.HasGroup g := by
  simp only [hasGroup_iff]
  cases a <;> simp [Accessor.feature, Accessor.group, Group.feature, Feature.enabled]

/-- What decides about a group, on the parsed arguments. -/
theorem enabled_eq {cfg : String → Bool} {as : List BitfieldArgSpec} {r : BitfieldArgs}
    (h : ArgsFrom (defaultArgs cfg) as r) {g : Group} (hg : g ≠ .writeBits) :
    g.feature.enabled r = GroupOn cfg as g := by
  have hb : r.bitOps = flagValue cfg as .bitOps := by
    have := h.flag .bitOps
    rw [defaultArgs_flag] at this
    exact this
  have hf : ∀ k, r.flag k = flagValue cfg as k := by
    intro k
    have := h.flag k
    rw [defaultArgs_flag] at this
    exact this
  have hu : ∀ k, (defaultArgs cfg).userSet k = some false →
      r.userSet k = some (stated as k).isSome := by
    intro k hk
    rw [h.userSet, hk]
    simp
  have simple : ∀ k, (∃ b, stated as k = some b ∧ r.flag k = b) ∨
      (stated as k = none ∧ r.flag k = k.byDefault cfg) := by
    intro k
    rw [hf, flagValue]
    cases stated as k <;> simp
  cases g with
  | writeBits => exact absurd rfl hg
  | new =>
    rcases simple .new with ⟨b, h1, h2⟩ | ⟨h1, h2⟩ <;>
      simpa [GroupOn, Group.flag, h1, Group.feature, Feature.enabled, Group.isBitOps,
        BitfieldArgs.flag] using h2
  | fromIntoBits =>
    rcases simple .fromIntoBits with ⟨b, h1, h2⟩ | ⟨h1, h2⟩ <;>
      simpa [GroupOn, Group.flag, h1, Group.feature, Feature.enabled, Group.isBitOps,
        BitfieldArgs.flag] using h2
  | fromTraits =>
    rcases simple .fromTraits with ⟨b, h1, h2⟩ | ⟨h1, h2⟩ <;>
      simpa [GroupOn, Group.flag, h1, Group.feature, Feature.enabled, Group.isBitOps,
        BitfieldArgs.flag] using h2
  | default =>
    rcases simple .default with ⟨b, h1, h2⟩ | ⟨h1, h2⟩ <;>
      simpa [GroupOn, Group.flag, h1, Group.feature, Feature.enabled, Group.isBitOps,
        BitfieldArgs.flag] using h2
  | debug =>
    rcases simple .debug with ⟨b, h1, h2⟩ | ⟨h1, h2⟩ <;>
      simpa [GroupOn, Group.flag, h1, Group.feature, Feature.enabled, Group.isBitOps,
        BitfieldArgs.flag] using h2
  | builder =>
    rcases simple .builder with ⟨b, h1, h2⟩ | ⟨h1, h2⟩ <;>
      simpa [GroupOn, Group.flag, h1, Group.feature, Feature.enabled, Group.isBitOps,
        BitfieldArgs.flag] using h2
  | clearBits =>
    have u : r.userSetClearBitOps = (stated as .clearBitOps).isSome :=
      Option.some.inj (hu .clearBitOps rfl)
    rcases simple .clearBitOps with ⟨b, h1, h2⟩ | ⟨h1, h2⟩ <;>
      (simp only [BitfieldArgs.flag] at h2
       simp only [GroupOn, Group.flag, h1, Group.feature, Feature.enabled, Group.isBitOps,
        bitOpsEnabled, u, h2, hb]
       cases flagValue cfg as .bitOps <;> simp)
  | setGetBits =>
    have u : r.userSetSetGetBitOps = (stated as .setGetBitOps).isSome :=
      Option.some.inj (hu .setGetBitOps rfl)
    rcases simple .setGetBitOps with ⟨b, h1, h2⟩ | ⟨h1, h2⟩ <;>
      (simp only [BitfieldArgs.flag] at h2
       simp only [GroupOn, Group.flag, h1, Group.feature, Feature.enabled, Group.isBitOps,
        bitOpsEnabled, u, h2, hb]
       cases flagValue cfg as .bitOps <;> simp)
  | invertBits =>
    have u : r.userSetInvertBitOps = (stated as .invertBitOps).isSome :=
      Option.some.inj (hu .invertBitOps rfl)
    rcases simple .invertBitOps with ⟨b, h1, h2⟩ | ⟨h1, h2⟩ <;>
      (simp only [BitfieldArgs.flag] at h2
       simp only [GroupOn, Group.flag, h1, Group.feature, Feature.enabled, Group.isBitOps,
        bitOpsEnabled, u, h2, hb]
       cases flagValue cfg as .bitOps <;> simp)

theorem enabled_write {cfg : String → Bool} {as : List BitfieldArgSpec} {r : BitfieldArgs}
    (h : ArgsFrom (defaultArgs cfg) as r) :
    Feature.enabled r .writeBitOps = flagValue cfg as .bitOps := by
  have hb : r.bitOps = flagValue cfg as .bitOps := by
    have := h.flag .bitOps
    rw [defaultArgs_flag] at this
    exact this
  simp only [Feature.enabled, bitOpsEnabled, hb]
  cases flagValue cfg as .bitOps <;> simp

end Bf
