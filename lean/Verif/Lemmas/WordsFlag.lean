import Verif.Lemmas.Words

/-!
# The words of the code for a bitflag enum
-/

namespace Bf.Text

set_option maxRecDepth 20000
set_option maxHeartbeats 2000000
set_option linter.unusedVariables false

open Quote

/-- Every token is one that may be there. -/
def FlagAll (P : FlagPrinter) (ts : List Tok) : Prop := ∀ t ∈ ts, FlagPrinted P t

namespace FlagWords

variable {P : FlagPrinter}

@[simp] theorem all_nil : FlagAll P [] := fun _ h => by cases h
@[simp] theorem all_cons {t ts} : FlagAll P (t :: ts) ↔ FlagPrinted P t ∧ FlagAll P ts := by simp [FlagAll]
@[simp] theorem all_append {xs ys} : FlagAll P (xs ++ ys) ↔ FlagAll P xs ∧ FlagAll P ys := by
  simp only [FlagAll, List.mem_append, or_imp, forall_and]

theorem all_joined {tss} (h : ∀ ts ∈ tss, FlagAll P ts) : FlagAll P (joined tss) := by
  induction tss with
  | nil => exact all_nil
  | cons ts tss ih => exact all_append.mpr ⟨h _ (.head _), ih fun _ hm => h _ (.tail _ hm)⟩

theorem all_joinedComma {tss} (h : ∀ ts ∈ tss, FlagAll P ts) : FlagAll P (joinedComma tss) := by
  induction tss with
  | nil => exact all_nil
  | cons ts tss ih =>
    exact all_append.mpr ⟨h _ (.head _), all_cons.mpr ⟨.p, ih fun _ hm => h _ (.tail _ hm)⟩⟩

theorem all_attrs {as : List String} (h : ∀ a ∈ as, FlagPrinted P (.attr a)) :
    FlagAll P (joined (as.map fun a => [Tok.attr a])) := by
  refine all_joined fun ts hts => ?_
  obtain ⟨a, ha, rfl⟩ := List.mem_map.mp hts
  exact all_cons.mpr ⟨h a ha, all_nil⟩

@[simp] theorem kw_printed {k} : FlagPrinted P (.kw k) := .kw
@[simp] theorem p_printed {k} : FlagPrinted P (.p k) := .p
@[simp] theorem opn_printed {k} : FlagPrinted P (.opn k) := .opn
@[simp] theorem cls_printed {k} : FlagPrinted P (.cls k) := .cls
@[simp] theorem str_printed {k} : FlagPrinted P (.str k) := .str
@[simp] theorem int_printed {n} : FlagPrinted P (.int n "") := .int
@[simp] theorem vis_printed : FlagPrinted P (.vis P.F.vis) := .vis
@[simp] theorem name_printed : FlagPrinted P (.ident P.name) := .name
@[simp] theorem word_Clone : FlagPrinted P (.ident "Clone") := .word (List.mem_of_getElem? (i := 0) rfl)
@[simp] theorem word_Copy : FlagPrinted P (.ident "Copy") := .word (List.mem_of_getElem? (i := 1) rfl)
@[simp] theorem word_clone : FlagPrinted P (.ident "clone") := .word (List.mem_of_getElem? (i := 2) rfl)
@[simp] theorem word_core : FlagPrinted P (.ident "core") := .word (List.mem_of_getElem? (i := 3) rfl)
@[simp] theorem word_derive : FlagPrinted P (.ident "derive") := .word (List.mem_of_getElem? (i := 4) rfl)
@[simp] theorem word_doc : FlagPrinted P (.ident "doc") := .word (List.mem_of_getElem? (i := 5) rfl)
@[simp] theorem word_marker : FlagPrinted P (.ident "marker") := .word (List.mem_of_getElem? (i := 6) rfl)
@[simp] theorem word_repr : FlagPrinted P (.ident "repr") := .word (List.mem_of_getElem? (i := 7) rfl)
@[simp] theorem word_std : FlagPrinted P (.ident "std") := .word (List.mem_of_getElem? (i := 8) rfl)
@[simp] theorem word_Self : FlagPrinted P (.ident "Self") := .word (List.mem_of_getElem? (i := 9) rfl)
@[simp] theorem word__ : FlagPrinted P (.ident "_") := .word (List.mem_of_getElem? (i := 10) rfl)
@[simp] theorem word_self : FlagPrinted P (.ident "self") := .word (List.mem_of_getElem? (i := 11) rfl)
@[simp] theorem word_bits : FlagPrinted P (.ident "bits") := .word (List.mem_of_getElem? (i := 12) rfl)
@[simp] theorem word_from_bits : FlagPrinted P (.ident "from_bits") := .word (List.mem_of_getElem? (i := 13) rfl)
@[simp] theorem word_into_bits : FlagPrinted P (.ident "into_bits") := .word (List.mem_of_getElem? (i := 14) rfl)
@[simp] theorem word_swap_bytes : FlagPrinted P (.ident "swap_bytes") := .word (List.mem_of_getElem? (i := 15) rfl)
@[simp] theorem word_bool : FlagPrinted P (.ident "bool") := .word (List.mem_of_getElem? (i := 16) rfl)
@[simp] theorem word_u8 : FlagPrinted P (.ident "u8") := .word (List.mem_of_getElem? (i := 17) rfl)
@[simp] theorem word_u16 : FlagPrinted P (.ident "u16") := .word (List.mem_of_getElem? (i := 18) rfl)
@[simp] theorem word_u32 : FlagPrinted P (.ident "u32") := .word (List.mem_of_getElem? (i := 19) rfl)
@[simp] theorem word_u64 : FlagPrinted P (.ident "u64") := .word (List.mem_of_getElem? (i := 20) rfl)
@[simp] theorem word_u128 : FlagPrinted P (.ident "u128") := .word (List.mem_of_getElem? (i := 21) rfl)
@[simp] theorem word_i8 : FlagPrinted P (.ident "i8") := .word (List.mem_of_getElem? (i := 22) rfl)
@[simp] theorem word_i16 : FlagPrinted P (.ident "i16") := .word (List.mem_of_getElem? (i := 23) rfl)
@[simp] theorem word_i32 : FlagPrinted P (.ident "i32") := .word (List.mem_of_getElem? (i := 24) rfl)
@[simp] theorem word_i64 : FlagPrinted P (.ident "i64") := .word (List.mem_of_getElem? (i := 25) rfl)
@[simp] theorem word_i128 : FlagPrinted P (.ident "i128") := .word (List.mem_of_getElem? (i := 26) rfl)

@[simp] theorem type_all : FlagAll P (typeTokens P.F.ty) := by
  cases ht : P.F.ty with
  | int t => cases t <;> simp [typeTokens, intTokens, IntTy.text]
  | array n => simp [typeTokens, arrayTokens]
  | custom c => simp only [typeTokens, all_cons, all_nil, and_true]; exact .type ht

@[simp] theorem conv_all {e} : FlagAll P (flagConvTokens e) := by
  cases e <;> simp [flagConvTokens]

@[simp] theorem repr_all : FlagAll P (reprTokens P) := by simp [reprTokens]

@[simp] theorem copy_all : FlagAll P (flagCopyTokens P) := by
  unfold flagCopyTokens; split <;> simp

theorem variant_all {v} (hv : v ∈ P.F.variants) : FlagAll P (variantTokens P v) := by
  simp only [variantTokens, Words.splice_tok, Words.splice_list, all_append, all_cons, all_nil, p_printed, and_true,
    true_and]
  exact ⟨all_attrs fun a ha => .variantAttr hv ha, .variant hv, fun t ht => .value hv ht⟩

theorem cases_all {tss} (h : casesTokens P = .ok tss) : ∀ ts ∈ tss, FlagAll P ts := by
  unfold casesTokens at h
  simp only [] at h
  split at h
  · rename_i w hw
    cases h
    have hmem : w ∈ P.F.variants := by
      rcases Option.or_eq_some_iff.mp hw with h | ⟨-, h⟩ <;> exact List.mem_of_find?_eq_some h
    intro ts hts
    rcases List.mem_append.mp hts with h | h
    · obtain ⟨v, hv, rfl⟩ := List.mem_map.mp h
      have hv := (List.mem_filter.mp hv).1
      simp only [Words.splice_tok, Words.splice_list, all_append, all_cons, all_nil, p_printed, word_Self, and_true,
        true_and]
      exact ⟨fun t ht => .value hv ht, .variant hv⟩
    · cases h with
      | head => simp only [Words.splice_tok, all_cons, all_nil, p_printed, word_Self, word__, and_true, true_and]
                exact .variant hmem
      | tail _ h => cases h
  · cases h

theorem from_all {ts} (h : flagFromTokens P = .ok ts) : FlagAll P ts := by
  unfold flagFromTokens at h
  obtain ⟨tss, h1, h⟩ := bind_ok.mp h
  cases h
  have := all_joinedComma (cases_all h1)
  simp [this]

@[simp] theorem into_all : FlagAll P (flagIntoTokens P) := by simp [flagIntoTokens]

theorem flag_all {ts} (h : flagTokens P = .ok ts) : FlagAll P ts := by
  unfold flagTokens at h
  obtain ⟨us, h1, h⟩ := bind_ok.mp h
  cases h
  have h1 := from_all h1
  have h2 : FlagAll P (joined (P.attrs.map fun a => [Tok.attr a])) := all_attrs fun a ha => .attr ha
  have h3 : FlagAll P (joinedComma (P.F.variants.map (variantTokens P))) := by
    refine all_joinedComma fun ts hts => ?_
    obtain ⟨v, hv, rfl⟩ := List.mem_map.mp hts
    exact variant_all hv
  simp [h1, h2, h3]

end FlagWords

end Bf.Text
