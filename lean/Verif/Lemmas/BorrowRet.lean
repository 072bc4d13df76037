import Verif.SpecBorrow
import Verif.Lemmas.MutFns

/-! # What the emitted functions return -/

namespace Bf.Text

open Rust Quote

variable {P : Printer} {C : Style} {H : Head} {tag : Tag} {fn : Fn}

/-- The types without a slice and without an error. -/
def flatTy : Ty → Bool
  | .slice | .result _ => false
  | _ => true

/-- The types functions return. -/
def valueTy : Ty → Bool
  | .result t => flatTy t
  | t => flatTy t

theorem tySyn_noRef {t : Ty} (h : flatTy t = true) : (tySyn t).hasRef = false := by
  cases t <;> first | rfl | cases h

theorem dataSyn_noRef (t : DataType) : (dataSyn t).hasRef = false := by
  cases t with
  | int t => cases t <;> rfl
  | _ => rfl

theorem sigSyn_noRef (ho : H.obj.hasRef = false) (hs : H.self.hasRef = false) {t : Ty} (h : flatTy t = true) :
    (sigSyn H t).hasRef = false := by
  cases t <;> first | exact ho | exact hs | rfl | cases h

theorem flat_fieldTy (t : DataType) : valueTy (fieldTy t) = true := by
  cases t with
  | int t => cases t <;> rfl
  | _ => rfl

theorem flat_backTy (b : Backing) : flatTy (backTy b) = true := by cases b <;> rfl

theorem value_backTy (b : Backing) : valueTy (backTy b) = true := by cases b <;> rfl

theorem value_plain {f : SFn} {t : SType} (h : f.ret = some t) (ht : t.hasRef = false) : f.returnsValue = true := by
  unfold SFn.returnsValue
  rw [h]
  split
  · rename_i e
    cases e
    simp [SType.hasRef, typesHaveRef] at ht
  · rename_i e
    cases e
    simp [ht]
  · rfl

theorem value_of (ho : H.obj.hasRef = false) (hs : H.self.hasRef = false) (hr : valueTy fn.ret = true) :
    (fnSyn C H tag fn).returnsValue = true := by
  have hret : (fnSyn C H tag fn).ret = retSyn H fn.ret := rfl
  revert hr hret
  generalize fn.ret = t
  intro hr hret
  cases t with
  | unit => simp [SFn.returnsValue, hret, retSyn]
  | result t =>
    have := sigSyn_noRef ho hs hr
    simp [SFn.returnsValue, hret, retSyn, sigSyn, namesTy, this]
  | _ => exact value_plain hret (sigSyn_noRef ho hs hr)

/-- A function of the templates. -/
macro "rt" : tactic => `(tactic|
  (refine value_of ?_ ?_ ?_ <;>
    first | rfl | exact dataSyn_noRef _ | exact flat_fieldTy _ | exact value_backTy _ | exact flat_backTy _))

theorem members_returns (P : Printer) (F : Feature) :
    ∀ x ∈ P.fns F, (fnSyn C x.1 x.2.1 x.2.2).returnsValue = true := by
  have from_ok : ∀ {r tag} e d, (fnSyn C (P.head r) tag (fromFn P.B e d)).returnsValue = true := by
    intro r tag e d
    rt
  have into_ok : ∀ {r tag} e, (fnSyn C (P.head r) tag (intoFn P.B e)).returnsValue = true := by
    intro r tag e
    rt
  intro x hx
  cases F with
  | struct | fromTraits | debug | builder | default | constants => cases hx
  | new =>
    simp only [Printer.fns, List.mem_cons, List.not_mem_nil, or_false] at hx
    rcases hx with rfl | rfl <;> rt
  | setters =>
    obtain ⟨f, -, hx⟩ := List.mem_flatMap.mp hx
    simp only [List.mem_cons, List.not_mem_nil, or_false] at hx
    rcases hx with rfl | rfl <;> rt
  | getters =>
    obtain ⟨f, -, rfl⟩ := List.mem_map.mp hx
    rt
  | fromIntoBits =>
    simp only [Printer.fns] at hx
    split at hx
    · rcases List.mem_append.mp hx with hx | hx
      · obtain ⟨e, -, hx⟩ := List.mem_flatMap.mp hx
        simp only [List.mem_cons, List.not_mem_nil, or_false] at hx
        rcases hx with rfl | rfl <;> exact from_ok _ _
      · obtain ⟨f, -, rfl⟩ := List.mem_map.mp hx
        exact into_ok _
    · rcases List.mem_append.mp hx with hx | hx
      · rcases List.mem_append.mp hx with hx | hx
        · rcases List.mem_append.mp hx with hx | hx
          · obtain ⟨e, -, hx⟩ := List.mem_flatMap.mp hx
            simp only [List.mem_cons, List.not_mem_nil, or_false] at hx
            rcases hx with rfl | rfl <;> exact from_ok _ _
          · obtain ⟨e, -, hx⟩ := List.mem_flatMap.mp hx
            simp only [List.mem_cons, List.not_mem_nil, or_false] at hx
            rcases hx with rfl | rfl | rfl | rfl <;> rt
        · obtain ⟨f, -, rfl⟩ := List.mem_map.mp hx
          exact into_ok _
      · obtain ⟨e, -, hx⟩ := List.mem_flatMap.mp hx
        simp only [List.mem_cons, List.not_mem_nil, or_false] at hx
        rcases hx with rfl | rfl <;> rt
  | writeBitOps =>
    rcases List.mem_append.mp hx with hx | hx
    · obtain ⟨e, -, hx⟩ := List.mem_flatMap.mp hx
      simp only [List.mem_cons, List.not_mem_nil, or_false] at hx
      rcases hx with rfl | rfl <;> rt
    · cases List.mem_singleton.mp hx
      rt
  | setGetBitOps =>
    simp only [Printer.fns, List.mem_cons, List.not_mem_nil, or_false] at hx
    rcases hx with rfl | rfl | rfl | rfl | rfl | rfl | rfl | rfl <;> rt
  | clearBitOps =>
    rcases List.mem_append.mp hx with hx | hx
    · rcases List.mem_append.mp hx with hx | hx
      · simp only [List.mem_cons, List.not_mem_nil, or_false] at hx
        rcases hx with rfl | rfl <;> rt
      · obtain ⟨f, -, rfl⟩ := List.mem_map.mp hx
        rt
    · obtain ⟨f, hf, rfl⟩ := List.mem_map.mp hx
      rt
  | invertBitOps =>
    rcases List.mem_append.mp hx with hx | hx
    · rcases List.mem_append.mp hx with hx | hx
      · cases List.mem_singleton.mp hx
        rt
      · obtain ⟨f, -, rfl⟩ := List.mem_map.mp hx
        rt
    · obtain ⟨f, -, rfl⟩ := List.mem_map.mp hx
      rt

theorem builder_value (P : Printer) :
    ∀ x ∈ P.builderFns, (fnSyn C x.1 x.2.1 x.2.2).returnsValue = true := by
  intro x hx
  rcases List.mem_append.mp hx with hx | hx
  · simp only [List.mem_cons, List.not_mem_nil, or_false] at hx
    rcases hx with rfl | rfl <;> rt
  · obtain ⟨f, -, hx⟩ := List.mem_flatMap.mp hx
    simp only [List.mem_cons, List.not_mem_nil, or_false] at hx
    rcases hx with rfl | rfl <;> rt

theorem items_returns (P : Printer) (F : Feature) :
    ∀ i ∈ P.items C F, ∀ g ∈ i.fns, g.returnsValue = true := by
  intro i hx g hg
  obtain ⟨tr, ty, ms, rfl, hg'⟩ := mem_fns hg
  replace hg := hg'
  cases F with
  | constants | new | setters | getters | fromIntoBits | writeBitOps | setGetBitOps | clearBitOps | invertBitOps => cases hx
  | struct =>
    simp only [Printer.items] at hx
    split at hx <;> cases List.mem_singleton.mp hx
  | fromTraits =>
    simp only [Printer.items, List.mem_cons, List.not_mem_nil, or_false] at hx
    rcases hx with hx | hx <;> cases hx <;> cases List.mem_singleton.mp hg
    · rt
    · rfl
  | debug =>
    cases List.mem_singleton.mp hx
    cases List.mem_singleton.mp hg
    rfl
  | default =>
    cases List.mem_singleton.mp hx
    cases List.mem_singleton.mp hg
    rt
  | builder =>
    simp only [Printer.items, List.mem_cons, List.not_mem_nil, or_false] at hx
    rcases hx with hx | hx | hx <;> cases hx
    · cases List.mem_singleton.mp hg
      rt
    · rcases List.mem_append.mp hg with hg | hg
      · obtain ⟨x, hx, e⟩ := List.mem_map.mp hg
        cases e
        exact builder_value P x hx
      · cases List.mem_singleton.mp hg
        exact value_plain rfl rfl

theorem expansion_returns (P : Printer) :
    ∀ i ∈ P.expansion C, ∀ g ∈ i.fns, g.returnsValue = true := by
  intro i hx g hg
  rcases List.mem_append.mp hx with hx | hx
  · rcases List.mem_append.mp hx with hx | hx
    · obtain ⟨F, -, hx⟩ := List.mem_flatMap.mp hx
      exact items_returns P F i hx g hg
    · cases List.mem_singleton.mp hx
      obtain ⟨tr, ty, ms, e, hg⟩ := mem_fns hg
      cases e
      obtain ⟨F, -, hg⟩ := List.mem_flatMap.mp hg
      have hc : ∀ F' : Feature, SMember.fn g ∈ (P.fns F').map (fun x => SMember.fn (fnSyn C x.1 x.2.1 x.2.2)) →
          g.returnsValue = true := by
        intro F' hg
        obtain ⟨x, hx, e⟩ := List.mem_map.mp hg
        cases e
        exact members_returns P F' x hx
      cases F with
      | constants =>
        obtain ⟨f, -, hg⟩ := List.mem_flatMap.mp hg
        simp only [List.mem_cons, List.not_mem_nil, or_false, reduceCtorEq] at hg
      | _ => exact hc _ hg
  · obtain ⟨F, -, hx⟩ := List.mem_flatMap.mp hx
    exact items_returns P F i hx g hg

end Bf.Text
