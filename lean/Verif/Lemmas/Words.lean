import Verif.Lemmas.Layout
import Verif.SpecWords

/-!
# The words of the generated code
-/

namespace Bf.Text

set_option maxRecDepth 20000
set_option maxHeartbeats 2000000
set_option linter.unusedVariables false

open Quote

/-- Every token is one that may be there. -/
def All (P : Printer) (ts : List Tok) : Prop := ∀ t ∈ ts, Printed P t

namespace Words

variable {P : Printer} {f : Field}

@[simp] theorem all_nil : All P [] := fun _ h => by cases h
@[simp] theorem all_cons {t ts} : All P (t :: ts) ↔ Printed P t ∧ All P ts := by simp [All]
@[simp] theorem all_append {xs ys} : All P (xs ++ ys) ↔ All P xs ∧ All P ys := by
  simp only [All, List.mem_append, or_imp, forall_and]

@[simp] theorem all_joined {tss} (h : ∀ ts ∈ tss, All P ts) : All P (joined tss) := by
  induction tss with
  | nil => exact all_nil
  | cons ts tss ih => exact all_append.mpr ⟨h _ (.head _), ih fun _ hm => h _ (.tail _ hm)⟩

@[simp] theorem all_joinedComma {tss} (h : ∀ ts ∈ tss, All P ts) : All P (joinedComma tss) := by
  induction tss with
  | nil => exact all_nil
  | cons ts tss ih =>
    exact all_append.mpr ⟨h _ (.head _), all_cons.mpr ⟨.p, ih fun _ hm => h _ (.tail _ hm)⟩⟩

@[simp] theorem all_joinedBetween {tss} (h : ∀ ts ∈ tss, All P ts) : All P (joinedBetween tss) := by
  induction tss with
  | nil => exact all_nil
  | cons ts tss ih =>
    cases tss with
    | nil => exact h _ (.head _)
    | cons us uss => exact all_append.mpr ⟨h _ (.head _), all_cons.mpr ⟨.p, ih fun _ hm => h _ (.tail _ hm)⟩⟩

@[simp high] theorem all_fields {p g} (h : ∀ f ∈ P.B.fields, All P (g f)) :
    All P (joined ((P.B.fields.filter p).map g)) := by
  refine all_joined fun ts hts => ?_
  obtain ⟨f, hf, rfl⟩ := List.mem_map.mp hts
  exact h f (List.mem_filter.mp hf).1

theorem all_ite {c : Prop} [Decidable c] {a b : List Tok} :
    All P (if c then a else b) ↔ (c → All P a) ∧ (¬c → All P b) := by
  split <;> simp [*]

@[simp] theorem all_some_ite {c : Prop} [Decidable c] {a : List Tok} :
    All P ((if c then some a else none).getD []) ↔ (c → All P a) := by
  split <;> simp [*]

@[simp] theorem all_none_ite {c : Prop} [Decidable c] {a : List Tok} :
    All P ((if c then none else some a).getD []) ↔ (¬c → All P a) := by
  split <;> simp [*]

@[simp] theorem splice_list (ts : List Tok) : Splice.splice ts = ts := rfl
@[simp] theorem splice_option (o : Option (List Tok)) : Splice.splice o = o.getD [] := rfl
@[simp] theorem splice_tok (t : Tok) : Splice.splice t = [t] := rfl

@[simp] theorem kw_printed {k} : Printed P (.kw k) := .kw
@[simp] theorem p_printed {k} : Printed P (.p k) := .p
@[simp] theorem opn_printed {k} : Printed P (.opn k) := .opn
@[simp] theorem cls_printed {k} : Printed P (.cls k) := .cls
@[simp] theorem str_printed {k} : Printed P (.str k) := .str
@[simp] theorem lifetime_printed : Printed P (.lifetime "_") := .lifetime (.inl rfl)
@[simp] theorem static_printed : Printed P (.lifetime "static") := .lifetime (.inr rfl)
@[simp] theorem fieldVis_printed (h : f ∈ P.B.fields) : Printed P (.vis (P.fieldVis f.offset)) := .fieldVis h
@[simp] theorem u32_printed {n} : Printed P (u32 n) := .int (.inr (by decide))
@[simp] theorem usize_printed {n} : Printed P (usize n) := .int (.inr (by decide))
@[simp] theorem int_printed {n} : Printed P (.int n "") := .int (.inl rfl)
@[simp] theorem int_u8_printed {n} : Printed P (.int n "u8") := .int (.inr (by decide))
@[simp] theorem int_u32_printed {n} : Printed P (.int n "u32") := .int (.inr (by decide))
@[simp] theorem int_usize_printed {n} : Printed P (.int n "usize") := .int (.inr (by decide))
@[simp] theorem int_u128_printed {n} : Printed P (.int n "u128") := .int (.inr (by decide))
@[simp] theorem int_text_printed {n} {t : IntTy} : Printed P (.int n t.text) := .int (.inr (by cases t <;> decide))
@[simp] theorem vis_printed : Printed P (.vis P.vis) := .vis
@[simp] theorem name_printed : Printed P (.ident P.name) := .name
@[simp] theorem builder_printed : Printed P (.ident (P.name ++ "Builder")) := .builder
@[simp] theorem text_printed {t : IntTy} : Printed P (.ident t.text) := .word (by cases t <;> decide)

@[simp] theorem nameTok_printed (h : f ∈ P.B.fields) (a) : Printed P (nameTok a f) := .field h a

@[simp] theorem word_C : Printed P (.ident "C") := .word (List.mem_of_getElem? (i := 0) rfl)
@[simp] theorem word_allow : Printed P (.ident "allow") := .word (List.mem_of_getElem? (i := 1) rfl)
@[simp] theorem word_clippy : Printed P (.ident "clippy") := .word (List.mem_of_getElem? (i := 2) rfl)
@[simp] theorem word_derive : Printed P (.ident "derive") := .word (List.mem_of_getElem? (i := 3) rfl)
@[simp] theorem word_doc : Printed P (.ident "doc") := .word (List.mem_of_getElem? (i := 4) rfl)
@[simp] theorem word_manual_swap : Printed P (.ident "manual_swap") := .word (List.mem_of_getElem? (i := 5) rfl)
@[simp] theorem word_repr : Printed P (.ident "repr") := .word (List.mem_of_getElem? (i := 6) rfl)
@[simp] theorem word_transparent : Printed P (.ident "transparent") := .word (List.mem_of_getElem? (i := 7) rfl)
@[simp] theorem word_unnecessary_cast : Printed P (.ident "unnecessary_cast") := .word (List.mem_of_getElem? (i := 8) rfl)
@[simp] theorem word_Box : Printed P (.ident "Box") := .word (List.mem_of_getElem? (i := 9) rfl)
@[simp] theorem word_Clone : Printed P (.ident "Clone") := .word (List.mem_of_getElem? (i := 10) rfl)
@[simp] theorem word_Copy : Printed P (.ident "Copy") := .word (List.mem_of_getElem? (i := 11) rfl)
@[simp] theorem word_Debug : Printed P (.ident "Debug") := .word (List.mem_of_getElem? (i := 12) rfl)
@[simp] theorem word_Default : Printed P (.ident "Default") := .word (List.mem_of_getElem? (i := 13) rfl)
@[simp] theorem word_Err : Printed P (.ident "Err") := .word (List.mem_of_getElem? (i := 14) rfl)
@[simp] theorem word_Formatter : Printed P (.ident "Formatter") := .word (List.mem_of_getElem? (i := 15) rfl)
@[simp] theorem word_From : Printed P (.ident "From") := .word (List.mem_of_getElem? (i := 16) rfl)
@[simp] theorem word_Ok : Printed P (.ident "Ok") := .word (List.mem_of_getElem? (i := 17) rfl)
@[simp] theorem word_Result : Printed P (.ident "Result") := .word (List.mem_of_getElem? (i := 18) rfl)
@[simp] theorem word_boxed : Printed P (.ident "boxed") := .word (List.mem_of_getElem? (i := 19) rfl)
@[simp] theorem word_clone : Printed P (.ident "clone") := .word (List.mem_of_getElem? (i := 20) rfl)
@[simp] theorem word_contains : Printed P (.ident "contains") := .word (List.mem_of_getElem? (i := 21) rfl)
@[simp] theorem word_convert : Printed P (.ident "convert") := .word (List.mem_of_getElem? (i := 22) rfl)
@[simp] theorem word_core : Printed P (.ident "core") := .word (List.mem_of_getElem? (i := 23) rfl)
@[simp] theorem word_debug_struct : Printed P (.ident "debug_struct") := .word (List.mem_of_getElem? (i := 24) rfl)
@[simp] theorem word_default : Printed P (.ident "default") := .word (List.mem_of_getElem? (i := 25) rfl)
@[simp] theorem word_field : Printed P (.ident "field") := .word (List.mem_of_getElem? (i := 26) rfl)
@[simp] theorem word_finish : Printed P (.ident "finish") := .word (List.mem_of_getElem? (i := 27) rfl)
@[simp] theorem word_fmt : Printed P (.ident "fmt") := .word (List.mem_of_getElem? (i := 28) rfl)
@[simp] theorem word_from : Printed P (.ident "from") := .word (List.mem_of_getElem? (i := 29) rfl)
@[simp] theorem word_len : Printed P (.ident "len") := .word (List.mem_of_getElem? (i := 30) rfl)
@[simp] theorem word_marker : Printed P (.ident "marker") := .word (List.mem_of_getElem? (i := 31) rfl)
@[simp] theorem word_new : Printed P (.ident "new") := .word (List.mem_of_getElem? (i := 32) rfl)
@[simp] theorem word_result : Printed P (.ident "result") := .word (List.mem_of_getElem? (i := 33) rfl)
@[simp] theorem word_std : Printed P (.ident "std") := .word (List.mem_of_getElem? (i := 34) rfl)
@[simp] theorem word_swap_bytes : Printed P (.ident "swap_bytes") := .word (List.mem_of_getElem? (i := 35) rfl)
@[simp] theorem word_BITS : Printed P (.ident "BITS") := .word (List.mem_of_getElem? (i := 36) rfl)
@[simp] theorem word_MAX : Printed P (.ident "MAX") := .word (List.mem_of_getElem? (i := 37) rfl)
@[simp] theorem word_Self : Printed P (.ident "Self") := .word (List.mem_of_getElem? (i := 38) rfl)
@[simp] theorem word__ : Printed P (.ident "_") := .word (List.mem_of_getElem? (i := 39) rfl)
@[simp] theorem word_bool : Printed P (.ident "bool") := .word (List.mem_of_getElem? (i := 40) rfl)
@[simp] theorem word_false : Printed P (.ident "false") := .word (List.mem_of_getElem? (i := 41) rfl)
@[simp] theorem word_self : Printed P (.ident "self") := .word (List.mem_of_getElem? (i := 42) rfl)
@[simp] theorem word_str : Printed P (.ident "str") := .word (List.mem_of_getElem? (i := 43) rfl)
@[simp] theorem word_u8 : Printed P (.ident "u8") := .word (List.mem_of_getElem? (i := 44) rfl)
@[simp] theorem word_u16 : Printed P (.ident "u16") := .word (List.mem_of_getElem? (i := 45) rfl)
@[simp] theorem word_u32 : Printed P (.ident "u32") := .word (List.mem_of_getElem? (i := 46) rfl)
@[simp] theorem word_u64 : Printed P (.ident "u64") := .word (List.mem_of_getElem? (i := 47) rfl)
@[simp] theorem word_u128 : Printed P (.ident "u128") := .word (List.mem_of_getElem? (i := 48) rfl)
@[simp] theorem word_usize : Printed P (.ident "usize") := .word (List.mem_of_getElem? (i := 49) rfl)
@[simp] theorem word_i8 : Printed P (.ident "i8") := .word (List.mem_of_getElem? (i := 50) rfl)
@[simp] theorem word_i16 : Printed P (.ident "i16") := .word (List.mem_of_getElem? (i := 51) rfl)
@[simp] theorem word_i32 : Printed P (.ident "i32") := .word (List.mem_of_getElem? (i := 52) rfl)
@[simp] theorem word_i64 : Printed P (.ident "i64") := .word (List.mem_of_getElem? (i := 53) rfl)
@[simp] theorem word_i128 : Printed P (.ident "i128") := .word (List.mem_of_getElem? (i := 54) rfl)
@[simp] theorem word___arr : Printed P (.ident "__arr") := .word (List.mem_of_getElem? (i := 55) rfl)
@[simp] theorem word___i : Printed P (.ident "__i") := .word (List.mem_of_getElem? (i := 56) rfl)
@[simp] theorem word___int_val : Printed P (.ident "__int_val") := .word (List.mem_of_getElem? (i := 57) rfl)
@[simp] theorem word___src : Printed P (.ident "__src") := .word (List.mem_of_getElem? (i := 58) rfl)
@[simp] theorem word___v : Printed P (.ident "__v") := .word (List.mem_of_getElem? (i := 59) rfl)
@[simp] theorem word___val : Printed P (.ident "__val") := .word (List.mem_of_getElem? (i := 60) rfl)
@[simp] theorem word_bit : Printed P (.ident "bit") := .word (List.mem_of_getElem? (i := 61) rfl)
@[simp] theorem word_bit_in_byte : Printed P (.ident "bit_in_byte") := .word (List.mem_of_getElem? (i := 62) rfl)
@[simp] theorem word_bit_index : Printed P (.ident "bit_index") := .word (List.mem_of_getElem? (i := 63) rfl)
@[simp] theorem word_bit_val : Printed P (.ident "bit_val") := .word (List.mem_of_getElem? (i := 64) rfl)
@[simp] theorem word_bits : Printed P (.ident "bits") := .word (List.mem_of_getElem? (i := 65) rfl)
@[simp] theorem word_byte_idx : Printed P (.ident "byte_idx") := .word (List.mem_of_getElem? (i := 66) rfl)
@[simp] theorem word_bytes : Printed P (.ident "bytes") := .word (List.mem_of_getElem? (i := 67) rfl)
@[simp] theorem word_copy_len : Printed P (.ident "copy_len") := .word (List.mem_of_getElem? (i := 68) rfl)
@[simp] theorem word_debug : Printed P (.ident "debug") := .word (List.mem_of_getElem? (i := 69) rfl)
@[simp] theorem word_dst_bit : Printed P (.ident "dst_bit") := .word (List.mem_of_getElem? (i := 70) rfl)
@[simp] theorem word_dst_bit_in_byte : Printed P (.ident "dst_bit_in_byte") := .word (List.mem_of_getElem? (i := 71) rfl)
@[simp] theorem word_dst_byte : Printed P (.ident "dst_byte") := .word (List.mem_of_getElem? (i := 72) rfl)
@[simp] theorem word_dst_byte_idx : Printed P (.ident "dst_byte_idx") := .word (List.mem_of_getElem? (i := 73) rfl)
@[simp] theorem word_e : Printed P (.ident "e") := .word (List.mem_of_getElem? (i := 74) rfl)
@[simp] theorem word_f : Printed P (.ident "f") := .word (List.mem_of_getElem? (i := 75) rfl)
@[simp] theorem word_field_bits : Printed P (.ident "field_bits") := .word (List.mem_of_getElem? (i := 76) rfl)
@[simp] theorem word_i : Printed P (.ident "i") := .word (List.mem_of_getElem? (i := 77) rfl)
@[simp] theorem word_is_protected : Printed P (.ident "is_protected") := .word (List.mem_of_getElem? (i := 78) rfl)
@[simp] theorem word_j : Printed P (.ident "j") := .word (List.mem_of_getElem? (i := 79) rfl)
@[simp] theorem word_length : Printed P (.ident "length") := .word (List.mem_of_getElem? (i := 80) rfl)
@[simp] theorem word_mask : Printed P (.ident "mask") := .word (List.mem_of_getElem? (i := 81) rfl)
@[simp] theorem word_offset : Printed P (.ident "offset") := .word (List.mem_of_getElem? (i := 82) rfl)
@[simp] theorem word_protected_mask : Printed P (.ident "protected_mask") := .word (List.mem_of_getElem? (i := 83) rfl)
@[simp] theorem word_range_mask : Printed P (.ident "range_mask") := .word (List.mem_of_getElem? (i := 84) rfl)
@[simp] theorem word_readable_mask : Printed P (.ident "readable_mask") := .word (List.mem_of_getElem? (i := 85) rfl)
@[simp] theorem word_res : Printed P (.ident "res") := .word (List.mem_of_getElem? (i := 86) rfl)
@[simp] theorem word_shift : Printed P (.ident "shift") := .word (List.mem_of_getElem? (i := 87) rfl)
@[simp] theorem word_shifted_protected_mask : Printed P (.ident "shifted_protected_mask") := .word (List.mem_of_getElem? (i := 88) rfl)
@[simp] theorem word_slice : Printed P (.ident "slice") := .word (List.mem_of_getElem? (i := 89) rfl)
@[simp] theorem word_src_bit : Printed P (.ident "src_bit") := .word (List.mem_of_getElem? (i := 90) rfl)
@[simp] theorem word_src_bit_in_byte : Printed P (.ident "src_bit_in_byte") := .word (List.mem_of_getElem? (i := 91) rfl)
@[simp] theorem word_src_byte : Printed P (.ident "src_byte") := .word (List.mem_of_getElem? (i := 92) rfl)
@[simp] theorem word_temp : Printed P (.ident "temp") := .word (List.mem_of_getElem? (i := 93) rfl)
@[simp] theorem word_temp_bits : Printed P (.ident "temp_bits") := .word (List.mem_of_getElem? (i := 94) rfl)
@[simp] theorem word_this : Printed P (.ident "this") := .word (List.mem_of_getElem? (i := 95) rfl)
@[simp] theorem word_val : Printed P (.ident "val") := .word (List.mem_of_getElem? (i := 96) rfl)
@[simp] theorem word_val_to_set : Printed P (.ident "val_to_set") := .word (List.mem_of_getElem? (i := 97) rfl)
@[simp] theorem word_value : Printed P (.ident "value") := .word (List.mem_of_getElem? (i := 98) rfl)
@[simp] theorem word_writable_mask : Printed P (.ident "writable_mask") := .word (List.mem_of_getElem? (i := 99) rfl)
@[simp] theorem word_build : Printed P (.ident "build") := .word (List.mem_of_getElem? (i := 100) rfl)
@[simp] theorem word_new_without_defaults : Printed P (.ident "new_without_defaults") := .word (List.mem_of_getElem? (i := 101) rfl)
@[simp] theorem word_from_bits : Printed P (.ident "from_bits") := .word (List.mem_of_getElem? (i := 102) rfl)
@[simp] theorem word_from_bits_with_defaults : Printed P (.ident "from_bits_with_defaults") := .word (List.mem_of_getElem? (i := 103) rfl)
@[simp] theorem word_from_le_bits : Printed P (.ident "from_le_bits") := .word (List.mem_of_getElem? (i := 104) rfl)
@[simp] theorem word_from_le_bits_with_defaults : Printed P (.ident "from_le_bits_with_defaults") := .word (List.mem_of_getElem? (i := 105) rfl)
@[simp] theorem word_from_be_bits : Printed P (.ident "from_be_bits") := .word (List.mem_of_getElem? (i := 106) rfl)
@[simp] theorem word_from_be_bits_with_defaults : Printed P (.ident "from_be_bits_with_defaults") := .word (List.mem_of_getElem? (i := 107) rfl)
@[simp] theorem word_into_bits : Printed P (.ident "into_bits") := .word (List.mem_of_getElem? (i := 108) rfl)
@[simp] theorem word_into_le_bits : Printed P (.ident "into_le_bits") := .word (List.mem_of_getElem? (i := 109) rfl)
@[simp] theorem word_into_be_bits : Printed P (.ident "into_be_bits") := .word (List.mem_of_getElem? (i := 110) rfl)
@[simp] theorem word_from_bytes : Printed P (.ident "from_bytes") := .word (List.mem_of_getElem? (i := 111) rfl)
@[simp] theorem word_from_bytes_with_defaults : Printed P (.ident "from_bytes_with_defaults") := .word (List.mem_of_getElem? (i := 112) rfl)
@[simp] theorem word_from_le_bytes : Printed P (.ident "from_le_bytes") := .word (List.mem_of_getElem? (i := 113) rfl)
@[simp] theorem word_from_le_bytes_with_defaults : Printed P (.ident "from_le_bytes_with_defaults") := .word (List.mem_of_getElem? (i := 114) rfl)
@[simp] theorem word_from_be_bytes : Printed P (.ident "from_be_bytes") := .word (List.mem_of_getElem? (i := 115) rfl)
@[simp] theorem word_from_be_bytes_with_defaults : Printed P (.ident "from_be_bytes_with_defaults") := .word (List.mem_of_getElem? (i := 116) rfl)
@[simp] theorem word_into_bytes : Printed P (.ident "into_bytes") := .word (List.mem_of_getElem? (i := 117) rfl)
@[simp] theorem word_into_le_bytes : Printed P (.ident "into_le_bytes") := .word (List.mem_of_getElem? (i := 118) rfl)
@[simp] theorem word_into_be_bytes : Printed P (.ident "into_be_bytes") := .word (List.mem_of_getElem? (i := 119) rfl)
@[simp] theorem word_from_slice : Printed P (.ident "from_slice") := .word (List.mem_of_getElem? (i := 120) rfl)
@[simp] theorem word_from_slice_with_defaults : Printed P (.ident "from_slice_with_defaults") := .word (List.mem_of_getElem? (i := 121) rfl)
@[simp] theorem word_from_le_slice : Printed P (.ident "from_le_slice") := .word (List.mem_of_getElem? (i := 122) rfl)
@[simp] theorem word_from_le_slice_with_defaults : Printed P (.ident "from_le_slice_with_defaults") := .word (List.mem_of_getElem? (i := 123) rfl)
@[simp] theorem word_from_be_slice : Printed P (.ident "from_be_slice") := .word (List.mem_of_getElem? (i := 124) rfl)
@[simp] theorem word_from_be_slice_with_defaults : Printed P (.ident "from_be_slice_with_defaults") := .word (List.mem_of_getElem? (i := 125) rfl)
@[simp] theorem word_checked_from_slice : Printed P (.ident "checked_from_slice") := .word (List.mem_of_getElem? (i := 126) rfl)
@[simp] theorem word_checked_from_slice_with_defaults : Printed P (.ident "checked_from_slice_with_defaults") := .word (List.mem_of_getElem? (i := 127) rfl)
@[simp] theorem word_checked_from_le_slice : Printed P (.ident "checked_from_le_slice") := .word (List.mem_of_getElem? (i := 128) rfl)
@[simp] theorem word_checked_from_le_slice_with_defaults : Printed P (.ident "checked_from_le_slice_with_defaults") := .word (List.mem_of_getElem? (i := 129) rfl)
@[simp] theorem word_checked_from_be_slice : Printed P (.ident "checked_from_be_slice") := .word (List.mem_of_getElem? (i := 130) rfl)
@[simp] theorem word_checked_from_be_slice_with_defaults : Printed P (.ident "checked_from_be_slice_with_defaults") := .word (List.mem_of_getElem? (i := 131) rfl)
@[simp] theorem word_into_slice : Printed P (.ident "into_slice") := .word (List.mem_of_getElem? (i := 132) rfl)
@[simp] theorem word_into_le_slice : Printed P (.ident "into_le_slice") := .word (List.mem_of_getElem? (i := 133) rfl)
@[simp] theorem word_into_be_slice : Printed P (.ident "into_be_slice") := .word (List.mem_of_getElem? (i := 134) rfl)
@[simp] theorem word_checked_into_slice : Printed P (.ident "checked_into_slice") := .word (List.mem_of_getElem? (i := 135) rfl)
@[simp] theorem word_checked_into_le_slice : Printed P (.ident "checked_into_le_slice") := .word (List.mem_of_getElem? (i := 136) rfl)
@[simp] theorem word_checked_into_be_slice : Printed P (.ident "checked_into_be_slice") := .word (List.mem_of_getElem? (i := 137) rfl)
@[simp] theorem word_get_bit : Printed P (.ident "get_bit") := .word (List.mem_of_getElem? (i := 138) rfl)
@[simp] theorem word_set_bit : Printed P (.ident "set_bit") := .word (List.mem_of_getElem? (i := 139) rfl)
@[simp] theorem word_checked_get_bit : Printed P (.ident "checked_get_bit") := .word (List.mem_of_getElem? (i := 140) rfl)
@[simp] theorem word_checked_set_bit : Printed P (.ident "checked_set_bit") := .word (List.mem_of_getElem? (i := 141) rfl)
@[simp] theorem word_get_bits_range : Printed P (.ident "get_bits_range") := .word (List.mem_of_getElem? (i := 142) rfl)
@[simp] theorem word_set_bits_range : Printed P (.ident "set_bits_range") := .word (List.mem_of_getElem? (i := 143) rfl)
@[simp] theorem word_checked_get_bits_range : Printed P (.ident "checked_get_bits_range") := .word (List.mem_of_getElem? (i := 144) rfl)
@[simp] theorem word_checked_set_bits_range : Printed P (.ident "checked_set_bits_range") := .word (List.mem_of_getElem? (i := 145) rfl)
@[simp] theorem word_get_bytes_range : Printed P (.ident "get_bytes_range") := .word (List.mem_of_getElem? (i := 146) rfl)
@[simp] theorem word_set_bytes_range : Printed P (.ident "set_bytes_range") := .word (List.mem_of_getElem? (i := 147) rfl)
@[simp] theorem word_checked_get_bytes_range : Printed P (.ident "checked_get_bytes_range") := .word (List.mem_of_getElem? (i := 148) rfl)
@[simp] theorem word_checked_set_bytes_range : Printed P (.ident "checked_set_bytes_range") := .word (List.mem_of_getElem? (i := 149) rfl)
@[simp] theorem word_write_bits : Printed P (.ident "write_bits") := .word (List.mem_of_getElem? (i := 150) rfl)
@[simp] theorem word_write_bits_with_defaults : Printed P (.ident "write_bits_with_defaults") := .word (List.mem_of_getElem? (i := 151) rfl)
@[simp] theorem word_write_le_bits : Printed P (.ident "write_le_bits") := .word (List.mem_of_getElem? (i := 152) rfl)
@[simp] theorem word_write_le_bits_with_defaults : Printed P (.ident "write_le_bits_with_defaults") := .word (List.mem_of_getElem? (i := 153) rfl)
@[simp] theorem word_write_be_bits : Printed P (.ident "write_be_bits") := .word (List.mem_of_getElem? (i := 154) rfl)
@[simp] theorem word_write_be_bits_with_defaults : Printed P (.ident "write_be_bits_with_defaults") := .word (List.mem_of_getElem? (i := 155) rfl)
@[simp] theorem word_write_bytes : Printed P (.ident "write_bytes") := .word (List.mem_of_getElem? (i := 156) rfl)
@[simp] theorem word_write_bytes_with_defaults : Printed P (.ident "write_bytes_with_defaults") := .word (List.mem_of_getElem? (i := 157) rfl)
@[simp] theorem word_write_le_bytes : Printed P (.ident "write_le_bytes") := .word (List.mem_of_getElem? (i := 158) rfl)
@[simp] theorem word_write_le_bytes_with_defaults : Printed P (.ident "write_le_bytes_with_defaults") := .word (List.mem_of_getElem? (i := 159) rfl)
@[simp] theorem word_write_be_bytes : Printed P (.ident "write_be_bytes") := .word (List.mem_of_getElem? (i := 160) rfl)
@[simp] theorem word_write_be_bytes_with_defaults : Printed P (.ident "write_be_bytes_with_defaults") := .word (List.mem_of_getElem? (i := 161) rfl)
@[simp] theorem word_write_defaults : Printed P (.ident "write_defaults") := .word (List.mem_of_getElem? (i := 162) rfl)
@[simp] theorem word_clear_bits : Printed P (.ident "clear_bits") := .word (List.mem_of_getElem? (i := 163) rfl)
@[simp] theorem word_clear_bits_with_defaults : Printed P (.ident "clear_bits_with_defaults") := .word (List.mem_of_getElem? (i := 164) rfl)
@[simp] theorem word_clear_bytes : Printed P (.ident "clear_bytes") := .word (List.mem_of_getElem? (i := 165) rfl)
@[simp] theorem word_clear_bytes_with_defaults : Printed P (.ident "clear_bytes_with_defaults") := .word (List.mem_of_getElem? (i := 166) rfl)
@[simp] theorem word_invert_bits : Printed P (.ident "invert_bits") := .word (List.mem_of_getElem? (i := 167) rfl)
@[simp] theorem word_invert_bytes : Printed P (.ident "invert_bytes") := .word (List.mem_of_getElem? (i := 168) rfl)

@[simp] theorem int_tokens {t : IntTy} : All P (intTokens t) := by simp [intTokens]
@[simp] theorem array_tokens {n} : All P (arrayTokens n) := by simp [arrayTokens]

@[simp] theorem type_tokens (h : f ∈ P.B.fields) : All P (typeTokens f.ty) := by
  cases ht : f.ty <;> simp [typeTokens]
  exact .type h ht

theorem custom_tokens {c} (h : f ∈ P.B.fields) (ht : f.ty = .custom c) : All P (typeTokens (.custom c)) :=
  ht ▸ type_tokens h

@[simp] theorem ignored_tokens {x} (h : x ∈ P.ignored) : All P (typeTokens x.2.1) := by
  cases ht : x.2.1 <;> simp [typeTokens]
  exact .ignoredType h ht

@[simp] theorem back_tokens : All P (backTokens P.B.backing) := by
  cases h : P.B.backing <;> simp [backTokens]
  exact .storage h

@[simp] theorem bob_clear : Printed P (.ident ("clear_" ++ bob P)) := by
  cases h : P.B.backing <;> simp only [bob, paramTok, h] <;> exact .word (by decide +kernel)
@[simp] theorem bob_clear_defaults : Printed P (.ident ("clear_" ++ bob P ++ "_with_defaults")) := by
  cases h : P.B.backing <;> simp only [bob, paramTok, h] <;> exact .word (by decide +kernel)
@[simp] theorem bob_invert : Printed P (.ident ("invert_" ++ bob P)) := by
  cases h : P.B.backing <;> simp only [bob, paramTok, h] <;> exact .word (by decide +kernel)
@[simp] theorem bob_write : Printed P (.ident ("write_" ++ bob P)) := by
  cases h : P.B.backing <;> simp only [bob, paramTok, h] <;> exact .word (by decide +kernel)
@[simp] theorem bob_write_defaults : Printed P (.ident ("write_" ++ bob P ++ "_with_defaults")) := by
  cases h : P.B.backing <;> simp only [bob, paramTok, h] <;> exact .word (by decide +kernel)
@[simp] theorem bob_write_le : Printed P (.ident ("write_le_" ++ bob P)) := by
  cases h : P.B.backing <;> simp only [bob, paramTok, h] <;> exact .word (by decide +kernel)
@[simp] theorem bob_write_le_defaults : Printed P (.ident ("write_le_" ++ bob P ++ "_with_defaults")) := by
  cases h : P.B.backing <;> simp only [bob, paramTok, h] <;> exact .word (by decide +kernel)
@[simp] theorem bob_write_be : Printed P (.ident ("write_be_" ++ bob P)) := by
  cases h : P.B.backing <;> simp only [bob, paramTok, h] <;> exact .word (by decide +kernel)
@[simp] theorem bob_write_be_defaults : Printed P (.ident ("write_be_" ++ bob P ++ "_with_defaults")) := by
  cases h : P.B.backing <;> simp only [bob, paramTok, h] <;> exact .word (by decide +kernel)

/-- Settles the conditions of the lemmas. -/
macro "prd" : tactic =>
  `(tactic| first | assumption | (intro _ h; cases h; done) | (intro _ _; simp (disch := assumption); done) |
    (simp (disch := assumption); done))

/-- Splits the cases of a template and goes through its tokens. -/
macro "pr" : tactic =>
  `(tactic| ((repeat' split) <;> (try simp (disch := prd)) <;>
    (try (repeat' apply And.intro) <;>
      first | assumption | exact .ignored ‹_› | exact .fieldVis ‹_› | exact .ignoredVis ‹_› | exact custom_tokens ‹_› ‹_›)))

/-- The same for a template for each of some fields. -/
macro "prj" : tactic =>
  `(tactic| (
    first | refine all_joined fun ts hts => ?_ | intro ts hts
    obtain ⟨x, hx, hxe⟩ := List.mem_map.mp hts
    subst hxe
    first | have hx' := (List.mem_filter.mp hx).1 | skip
    pr))

@[simp] theorem innerTokens_all {builder : Bool} : All P (innerTokens P builder) := by
  unfold innerTokens
  pr

@[simp] theorem modifierTokens_all  : All P ((modifierTokens P).getD []) := by
  unfold modifierTokens
  simp only []
  generalize (P.ignored.isEmpty && _ && _) = c
  cases c <;> simp

@[simp] theorem referenceTokens_all {builder : Bool} : All P (referenceTokens P builder) := by
  unfold referenceTokens
  pr

@[simp] theorem ignoredDefaultTokens_all  : ∀ ts ∈ ignoredDefaultTokens P, All P ts := by
  unfold ignoredDefaultTokens
  prj

@[simp] theorem initTokens_all {builder : Bool} : All P (initTokens P builder) := by
  unfold initTokens
  pr

@[simp] theorem bitsTokens_all {builder : Bool} (hf : f ∈ P.B.fields) : All P (bitsTokens P f builder) := by
  unfold bitsTokens
  pr

@[simp] theorem offsetTokens_all {builder : Bool} (hf : f ∈ P.B.fields) : All P (offsetTokens P f builder) := by
  unfold offsetTokens
  pr

@[simp] theorem extractTokens_all {src : Source} {cast inv builder : Bool} (hf : f ∈ P.B.fields) : All P (extractTokens P f src cast inv builder) := by
  unfold extractTokens
  pr

@[simp] theorem setterCallTokens_all {value_tokens : List Tok} {builder : Bool} (hf : f ∈ P.B.fields) (hv : All P value_tokens) : All P (setterCallTokens P f value_tokens builder) := by
  unfold setterCallTokens
  pr

@[simp] theorem directTokens_all {value_tokens : List Tok} {builder : Bool} (hf : f ∈ P.B.fields) (hv : All P value_tokens) : All P (directTokens P f value_tokens builder) := by
  unfold directTokens
  pr

@[simp] theorem setDefaultTokens_all  (hf : f ∈ P.B.fields) : All P (setDefaultTokens P f) := by
  unfold setDefaultTokens
  split
  · rename_i v hd
    have hv : All P (P.default f.offset) := fun t ht => .default hf (by simp [Field.hasDefault, hd]) ht
    pr
  · exact all_nil

@[simp] theorem setDefaultsTokens_all  : ∀ ts ∈ setDefaultsTokens P, All P ts := by
  unfold setDefaultsTokens
  prj

@[simp] theorem setZeroTokens_all  (hf : f ∈ P.B.fields) : All P (setZeroTokens P f) := by
  unfold setZeroTokens
  (repeat' split) <;> (first | apply setterCallTokens_all hf | apply directTokens_all hf) <;> pr

@[simp] theorem setZerosTokens_all {skipDefaults : Bool} : ∀ ts ∈ setZerosTokens P skipDefaults, All P ts := by
  unfold setZerosTokens
  prj

@[simp] theorem builderSetTokens_all {check : Bool} (hf : f ∈ P.B.fields) : All P (builderSetTokens f check) := by
  unfold builderSetTokens
  pr

@[simp] theorem valueTokens_all  (hf : f ∈ P.B.fields) : All P (valueTokens f) := by
  unfold valueTokens
  pr

@[simp] theorem checkTokens_all  : All P checkTokens := by
  unfold checkTokens
  pr

@[simp] theorem signedCheckTokens_all  (hf : f ∈ P.B.fields) : All P (signedCheckTokens f) := by
  unfold signedCheckTokens
  pr

@[simp] theorem setFromVarTokens_all {useSetter cast check builder : Bool} (hf : f ∈ P.B.fields) : All P (setFromVarTokens P f useSetter cast check builder) := by
  unfold setFromVarTokens
  simp only [all_ite]
  refine ⟨fun _ => builderSetTokens_all hf, fun _ => ?_⟩
  have h1 := valueTokens_all hf
  simp only [splice_option, splice_list, all_append, all_ite, all_some_ite]
  exact ⟨fun _ => signedCheckTokens_all hf, extractTokens_all hf, fun _ => checkTokens_all,
    fun _ => setterCallTokens_all hf h1, fun _ => directTokens_all hf h1⟩

@[simp] theorem setAllTokens_all {p : Protection} : All P (setAllTokens P p) := by
  unfold setAllTokens
  prj

@[simp] theorem newTokens_all {defaults builder existing : Bool} : All P (newTokens P defaults builder existing) := by
  unfold newTokens
  pr

end Words

end Bf.Text
