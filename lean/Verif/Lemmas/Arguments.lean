import Verif.SpecArgs
import Verif.Lemmas.Surface
import Verif.Lemmas.Decl

/-!
# Lemmas about argument lists that say the same
-/

namespace Bf

variable {as as' : List BitfieldArgSpec}

theorem lastArg_eq {β : Type} {g : BitfieldArgSpec → Option β} {k : ArgKey}
    (hg : ∀ a, a.key ≠ k → g a = none) (hs : ∀ a, a.key = k → (g a).isSome) (as : List BitfieldArgSpec) :
    lastArg g as = (lastAbout k as).bind g := by
  unfold lastArg lastAbout
  induction as.reverse with
  | nil => rfl
  | cons a l ih =>
    by_cases h : a.key = k
    · have := hs a h
      simp only [List.findSome?, List.find?, h, decide_true, Option.bind_some]
      cases hb : g a with
      | none => rw [hb] at this; cases this
      | some b => rfl
    · simp only [List.findSome?, List.find?, h, decide_false, hg a h]
      exact ih

theorem stated_eq (as : List BitfieldArgSpec) (k : Flag) :
    stated as k = (lastAbout (.flag k) as).bind
      (fun | .flag k' b => if k' = k then some b else none | _ => none) := by
  refine lastArg_eq ?_ ?_ as
  · intro a h
    cases a with
    | flag k' b =>
      have : k' ≠ k := fun e => h (by rw [e]; rfl)
      simp [this]
    | order _ => rfl
    | endian _ _ => rfl
  · intro a h
    cases a with
    | flag k' b =>
      have : k' = k := by injection h
      simp [this]
    | order _ => cases h
    | endian _ _ => cases h

theorem statedOrder_eq (as : List BitfieldArgSpec) :
    statedOrder as = (lastAbout .order as).bind (fun | .order o => some o | _ => none) := by
  refine lastArg_eq ?_ ?_ as
  · intro a h
    cases a with
    | order _ => exact absurd rfl h
    | flag _ _ => rfl
    | endian _ _ => rfl
  · intro a h
    cases a with
    | order _ => rfl
    | flag _ _ => cases h
    | endian _ _ => cases h

theorem statedEndian_eq (as : List BitfieldArgSpec) (k : EndianKey) :
    statedEndian as k = (lastAbout (.endian k) as).bind
      (fun | .endian k' e => if k' = k then some e else none | _ => none) := by
  refine lastArg_eq ?_ ?_ as
  · intro a h
    cases a with
    | endian k' b =>
      have : k' ≠ k := fun e => h (by rw [e]; rfl)
      simp [this]
    | order _ => rfl
    | flag _ _ => rfl
  · intro a h
    cases a with
    | endian k' b =>
      have : k' = k := by injection h
      simp [this]
    | order _ => cases h
    | flag _ _ => cases h

theorem BitfieldArgs.ext_of {r r' : BitfieldArgs} (hf : ∀ k, r'.flag k = r.flag k)
    (hu : ∀ k, r'.userSet k = r.userSet k) (ho : r'.order = r.order) (he : ∀ k, r'.endian k = r.endian k) :
    r' = r := by
  cases r; cases r'
  have f1 := hf .new; have f2 := hf .fromIntoBits; have f3 := hf .fromTraits; have f4 := hf .default
  have f5 := hf .debug; have f6 := hf .copy; have f7 := hf .bitOps; have f8 := hf .writeBitOps
  have f9 := hf .clearBitOps; have f10 := hf .setGetBitOps; have f11 := hf .invertBitOps
  have f12 := hf .toggleBitOps; have f13 := hf .builder; have f14 := hf .arrayHeap; have f15 := hf .forcePanic
  have u1 := Option.some.inj (hu .writeBitOps); have u2 := Option.some.inj (hu .clearBitOps)
  have u3 := Option.some.inj (hu .setGetBitOps); have u4 := Option.some.inj (hu .invertBitOps)
  have u5 := Option.some.inj (hu .toggleBitOps)
  have e1 := he .from; have e2 := he .into; have e3 := he .write
  simp only [BitfieldArgs.flag, BitfieldArgs.endian] at *
  subst f1 f2 f3 f4 f5 f6 f7 f8 f9 f10 f11 f12 f13 f14 f15 u1 u2 u3 u4 u5 ho e1 e2 e3
  rfl

/-! ## The order of the arguments -/

theorem find_perm {l l' : List BitfieldArgSpec} (h : l.Perm l') (hn : (l.map BitfieldArgSpec.key).Nodup) (k : ArgKey) :
    l.find? (fun a => a.key = k) = l'.find? (fun a => a.key = k) := by
  induction h with
  | nil => rfl
  | cons a _ ih =>
    simp only [List.map_cons, List.nodup_cons] at hn
    simp only [List.find?, ih hn.2]
  | swap a b l =>
    simp only [List.map_cons, List.nodup_cons, List.mem_cons, not_or] at hn
    by_cases ha : a.key = k
    · have hb : b.key ≠ k := fun e => hn.1.1 (by rw [e, ha])
      simp [List.find?, ha, hb]
    · by_cases hb : b.key = k <;> simp [List.find?, ha, hb]
  | trans h1 _ ih1 ih2 => rw [ih1 hn, ih2 ((h1.map _).nodup_iff.mp hn)]

theorem lastAbout_perm (h : as.Perm as') (hn : (as.map BitfieldArgSpec.key).Nodup) (k : ArgKey) :
    lastAbout k as' = lastAbout k as := by
  unfold lastAbout
  refine (find_perm ((List.reverse_perm as).trans (h.trans (List.reverse_perm as').symm)) ?_ k).symm
  rw [List.map_reverse]
  exact (List.reverse_perm _).nodup_iff.mpr hn

end Bf
