import Verif.Lemmas.CodeMake
import Verif.Lemmas.Names
import Verif.Props.History
import Verif.Props.Safety
import Verif.Lemmas.SaneCall
import Verif.Lemmas.Run

/-!
# The program generated for a declaration
-/

namespace Bf

open Rust Quote

/-! ## Its functions -/

@[simp] theorem isFn_fn (n : String) : (Tag.fn n).isFn = true := rfl
@[simp] theorem isFn_impl (n : TraitImpl) : (Tag.impl n).isFn = true := rfl
@[simp] theorem isFn_builderFn (n : String) : (Tag.builderFn n).isFn = true := rfl
@[simp] theorem isFn_bitfield : (Tag.bitfield).isFn = false := rfl
@[simp] theorem isFn_builder : (Tag.builder).isFn = false := rfl
@[simp] theorem isFn_acc (a : Accessor) (n : String) :
    (Tag.acc a n).isFn = (a != .bitsConst && a != .offsetConst) := rfl

theorem ty_of_backing {p : Parsed} (h : p.bitfield.backing.OK) (c : Codec) : p.ty ≠ .custom c := by
  intro e
  have h : p.ty.backing.OK := h
  rw [e] at h
  simp [DataType.backing, Backing.OK] at h

theorem bob_eq (p : Parsed) (ht : ∀ c, p.ty ≠ .custom c) : paramTok p.bitfield = p.bob := by
  unfold paramTok Parsed.bob Parsed.intBacked Parsed.bitfield
  cases h : p.ty with
  | custom c => exact absurd h (ht c)
  | _ => rfl

theorem feature_tags (p : Parsed) (ht : ∀ c, p.ty ≠ .custom c) (F : Feature) :
    (featureFns (genOf p) F).map Prod.fst = ((F.items p).map Item.tag).filter Tag.isFn := by
  have hbob := bob_eq p ht
  have hf : p.bitfield.fields = p.fields.map (·.field) := rfl
  have hB : (genOf p).B = p.bitfield := rfl
  cases F
  case fromIntoBits =>
    cases hty : p.ty with
    | custom c => exact absurd hty (ht c)
    | _ =>
      simp [List.filter_cons, featureFns, Feature.items, Parsed.fns, endians, intConversions, arrayConversions,
        genOf, Parsed.bitfield, Parsed.intBacked, DataType.backing, hty]
  all_goals simp only [featureFns, Feature.items, hB, hbob]
  all_goals simp [List.filter_cons, List.filter_append, Field.hasDefault, Parsed.fns, endians, List.filter_map,
    List.map_flatMap, List.filter_flatMap, List.flatMap_map, Function.comp_def, hf]
  all_goals rfl

theorem program_tags (p : Parsed) (ht : ∀ c, p.ty ≠ .custom c) :
    (program p).fns.map Prod.fst = ((surface p).map Item.tag).filter Tag.isFn := by
  have h : (program p).fns = (Feature.all.filter fun f => f.enabled p.args).flatMap (featureFns (genOf p)) := rfl
  rw [h, surface, List.map_flatMap, List.map_flatMap, List.filter_flatMap]
  simp only [feature_tags p ht]

theorem fn_isSome (P : Program) (t : Tag) : (P.fn t).isSome = true ↔ t ∈ P.fns.map Prod.fst := by
  unfold Program.fn
  rw [Option.isSome_map, List.find?_isSome]
  simp

theorem generates_iff (p : Parsed) (ht : ∀ c, p.ty ≠ .custom c) {t : Tag} (hf : t.isFn = true) :
    ((program p).fn t).isSome = true ↔ Generates p t := by
  rw [fn_isSome, program_tags p ht, List.mem_filter, List.mem_map]
  constructor
  · rintro ⟨⟨⟨t', v⟩, hm, rfl⟩, -⟩
    exact ⟨v, hm⟩
  · rintro ⟨v, hm⟩
    exact ⟨⟨_, hm, rfl⟩, hf⟩

theorem Call.tag_isFn (bob : String) (c : Call) : (c.tag bob).isFn = true := by
  cases c <;> rfl

theorem Origin.tag_isFn (bob : String) (o : Origin) : (o.tag bob).isFn = true := by
  cases o <;> rfl

/-! ## Its bitfield -/

theorem shaped_of_assign {b : Backing} {f : Field} {v : Val} (h : AssignOK b f v) : Shaped b f.ty v := by
  unfold AssignOK SetterOK DirectOK at h
  unfold Shaped
  cases f.isWritable <;> cases hty : f.ty with
    | int t => cases t <;> cases v <;> simp_all
    | array len => cases b <;> cases v <;> simp_all
    | custom c => cases v <;> simp_all

/-- What an accepted struct has whose generated code compiles. -/
structure Compiled (cfg : String → Bool) (as : List BitfieldArgSpec) (s : StructSpec) (p : Parsed) : Prop where
  wf : WF p.bitfield
  default : ∀ f ∈ p.bitfield.fields, ∀ v, f.default = some v → AssignOK p.bitfield.backing f v
  len : ∀ f ∈ p.bitfield.fields, ∀ len, f.ty = .array len → (∃ w, p.bitfield.backing = .int w) → len < 2 ^ 60
  fields : ∀ g, g ∈ p.bitfield.fields ↔ ∃ f o, s.At (orderValue cfg as) f o ∧ g = f.parsed o
  distinct : p.Distinct

theorem StructSpec.compiled {m : Mode} {cfg : String → Bool} {s : StructSpec} {p : Parsed}
    {as : List BitfieldArgSpec} (hr : s.Readable) (ha : s.rest = bitfieldTokens as) (hl : s.Legal)
    (hc : s.Compiles) (h : parseBitfield m cfg s.attr s.decl = .ok p) : Compiled cfg as s p := by
  obtain ⟨_, size, hs, hty, hp⟩ := StructSpec.parsed hr (.inr hl.small) h
  have hf := StructSpec.layout hr ha hl h
  have hb : p.ty ≠ .int .bool := by
    rw [hty]
    intro e
    apply hc.storage
    cases hst : s.storage with
    | int t => rw [hst] at e; cases e; rfl
    | bytes n => rw [hst] at e; cases e
    | custom name c => rw [hst] at e; cases e
  have hback := backing_data (p := p) hty
  refine ⟨hp.wf hb, ?_, ?_, hf, distinct_of hr h⟩
  · intro g hg v hv
    obtain ⟨f, o, hat, rfl⟩ := (hf g).mp hg
    have hv : f.default?.map (·.2) = some v := hv
    cases hd : f.default? with
    | none => rw [hd] at hv; cases hv
    | some dv =>
      obtain ⟨d, v'⟩ := dv
      rw [hd] at hv
      cases hv
      exact assignOK_parsed hty hl hat.1 (hc.default f (At.mem hat) hat.1 d _ hd).2
  · rintro g hg len ht ⟨w, hw⟩
    obtain ⟨f, o, hat, rfl⟩ := (hf g).mp hg
    have ht : f.ty.data = .array len := ht
    cases hst : s.storage with
    | int u =>
      cases h : f.ty with
      | int t => rw [h] at ht; cases ht
      | bytes n => rw [h] at ht; cases ht; exact hc.bytes f (At.mem hat) hat.1 len h u hst
      | custom name c => rw [h] at ht; cases ht
    | bytes n => rw [hback, hst] at hw; cases hw
    | custom name c => have := hl.storage; rw [hst] at this; exact this.elim

namespace Compiled

variable {cfg : String → Bool} {as : List BitfieldArgSpec} {s : StructSpec} {p : Parsed}

theorem generable (h : Compiled cfg as s p) : Generable p.bitfield where
  backing := h.wf.backing
  field := h.wf.field
  default := fun f hf v hv => shaped_of_assign (h.default f hf v hv)
  names := by
    have e : p.bitfield.fields = p.fields.map (·.field) := rfl
    rw [e, List.filter_map, List.pairwise_map]
    exact h.distinct
  len := h.len

theorem tame (h : Compiled cfg as s p) (hT : UserConversions p.bitfield) : Tame p.bitfield :=
  ⟨h.wf.backing, h.wf.field, h.default, hT⟩

end Compiled

/-! ## Running it -/

variable {p : Parsed}

theorem program_call (hG : Generable p.bitfield) {m : Mode} {fuel : Nat}
    (hf : 2 ^ 64 ≤ fuel) {c : Call} (hc : c.Typed p.bitfield) (hg : Generates p (c.tag (paramTok p.bitfield)))
    {s : Store} (hs : s.HasBacking p.bitfield.backing) :
    (program p).call p.bitfield m fuel c s = liftE (call m p.bitfield c s) :=
  call_eq (G := genOf p) hG rfl hf hs hc
    ((generates_iff p (ty_of_backing hG.backing) (c.tag_isFn _)).mpr hg)

theorem program_make (hG : Generable p.bitfield) {m : Mode} {fuel : Nat}
    (hf : 2 ^ 64 ≤ fuel) {o : Origin} (ho : o.Typed p.bitfield) (hw : o.Fits (genOf p))
    (hg : Generates p (o.tag (paramTok p.bitfield))) {s : Store} (hs : s.HasBacking p.bitfield.backing) :
    (program p).make p.bitfield m fuel o s = liftE (o.run m p.bitfield) :=
  make_eq (G := genOf p) hG rfl (fun h => h) hf hs ho hw
    ((generates_iff p (ty_of_backing hG.backing) (o.tag_isFn _)).mpr hg)

theorem program_builderDefault (hG : Generable p.bitfield) {m : Mode} {fuel : Nat} (hf : 2 ^ 64 ≤ fuel)
    (hw : (Origin.builder (genOf p).new true []).Fits (genOf p)) (hg : Generates p (.impl .builderDefault)) {s : Store}
    (hs : s.HasBacking p.bitfield.backing) :
    (program p).self m fuel (.impl .builderDefault) [] s = liftE ((apiNew m p.bitfield).map .ok) := by
  refine builderDefault_eq (G := genOf p) hG rfl (fun h => h) hf hs (Origin.fits_setters hw) ?_
  have := (generates_iff p (ty_of_backing hG.backing) rfl).mpr hg
  obtain ⟨feat, F, h1, h2⟩ := fn_enabled this
  cases feat <;> simp [featureFns, endians] at h2
  · split at h2 <;> simp at h2
  · exact h1

theorem program_history (hG : Generable p.bitfield) {m : Mode}
    (hk : ∀ {c s o s'}, c.Typed p.bitfield → s.HasBacking p.bitfield.backing → call m p.bitfield c s = .ok (o, s') →
      s'.HasBacking p.bitfield.backing) {fuel : Nat}
    (hf : 2 ^ 64 ≤ fuel) {cs : List Call} (hc : ∀ c ∈ cs, c.Typed p.bitfield)
    (hg : ∀ c ∈ cs, Generates p (c.tag (paramTok p.bitfield))) {s : Store} (hs : s.HasBacking p.bitfield.backing) :
    (program p).history p.bitfield m fuel cs s = liftE (history m p.bitfield cs s) := by
  induction cs generalizing s with
  | nil => rfl
  | cons c cs ih =>
    have hcc := hc c List.mem_cons_self
    simp only [Program.history, history]
    rw [program_call hG hf hcc (hg c List.mem_cons_self) hs]
    cases h : call m p.bitfield c s with
    | error e => cases e <;> rfl
    | ok r =>
      obtain ⟨o, s1⟩ := r
      have hs1 := hk hcc hs h
      have := ih (fun c h => hc c (List.mem_cons_of_mem _ h)) (fun c h => hg c (List.mem_cons_of_mem _ h)) hs1
      simp only [liftE_ok, ebind_ok]
      rw [this]
      show _ = liftE ((history m p.bitfield cs s1) >>= fun r => .ok (o :: r.1, r.2))
      cases history m p.bitfield cs s1 with
      | error e => cases e <;> rfl
      | ok r => rfl

end Bf
