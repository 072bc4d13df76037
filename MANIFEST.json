{
 "claims": [
  {
   "property": "C01",
   "status": "partial",
   "theorems": [
    "Bf.C01_partition",
    "Bf.C01_partition_small_partial",
    "Bf.C01_wf",
    "Bf.C01_wf_small_partial",
    "Bf.Finding.finding_widths_wrap",
    "Bf.Finding.finding_storage_wraps"
   ],
   "note": "Proved for every declaration when the macro is built with overflow checks; in a macro built without them proved as long as widths sum up to less than 2^32 (false otherwise: finding_widths_wrap, finding_storage_wraps). C01_wf links accepted declarations to the run-time theorems."
  },
  {
   "property": "C02",
   "status": "partial",
   "theorems": [
    "Bf.C02_offset",
    "Bf.C02_layout_partial",
    "Bf.C02_same_acceptance",
    "Bf.C02_same_acceptance_small_partial",
    "Bf.C02_mirror",
    "Bf.C02_mirror_small_partial",
    "Bf.Finding.finding_widths_wrap"
   ],
   "note": "Offsets, layout from the declaration, equal acceptance under both orders and the mirror image. Checked mode: all declarations; wrapping mode: sums of widths below 2^32."
  },
  {
   "property": "C03",
   "status": "partial",
   "theorems": [
    "Bf.C03_acceptance_partial",
    "Bf.Finding.finding_widths_wrap",
    "Bf.Finding.finding_storage_wraps",
    "Bf.Finding.finding_default_min",
    "Bf.Finding.finding_default_wraps",
    "Bf.Finding.finding_expr_panics",
    "Bf.Finding.finding_literal_float_like",
    "Bf.Finding.finding_ignored_type_panics",
    "Bf.Finding.finding_bool_storage"
   ],
   "note": "An iff on written declarations (StructSpec). Missing: defaults the macro misreads, negative defaults of -2^127 and below, large widths in wrapping mode; all false there, see findings."
  },
  {
   "property": "C04",
   "status": "partial",
   "theorems": [
    "Bf.C04_literal_default_partial",
    "Bf.Finding.finding_default_min",
    "Bf.Finding.finding_default_wraps"
   ],
   "note": "For any integer or bool field of any accepted struct. Missing: -d with d >= 2^127, where the code is wrong (findings)."
  },
  {
   "property": "C05",
   "status": "proved",
   "theorems": [
    "Bf.C05_accessors",
    "Bf.C05_getters",
    "Bf.C05_setters",
    "Bf.C05_reserved",
    "Bf.C05_ignored",
    "Bf.C05_reserved_bits"
   ],
   "note": "Which items exist is proved of the list of generated items, for every accepted struct; that reserved bits survive bit and range writes rests on C31 and asks for Supported layouts."
  },
  {
   "property": "C06",
   "status": "proved",
   "theorems": [
    "Bf.C06_unsigned_round_trip"
   ],
   "note": "All layouts that satisfy WF and Supported, both backings, both overflow modes."
  },
  {
   "property": "C07",
   "status": "proved",
   "theorems": [
    "Bf.C07_signed_round_trip",
    "Bf.C07_signed_fits"
   ],
   "note": "All layouts that satisfy WF and Supported, both backings, both overflow modes."
  },
  {
   "property": "C08",
   "status": "partial",
   "theorems": [
    "Bf.C08_bool_round_trip",
    "Bf.C08_array_round_trip",
    "Bf.C08_array_narrow",
    "Bf.Finding.finding_array_ragged",
    "Bf.Finding.finding_array_too_wide"
   ],
   "note": "Proved for array fields whose width is the size of their type or (on integer-backed bitfields) a whole number of bytes. The counterexamples show what happens to array fields with other widths, which the macro accepts."
  },
  {
   "property": "C09",
   "status": "proved",
   "theorems": [
    "Bf.C09_custom_round_trip",
    "Bf.C09_custom_general"
   ],
   "note": "The codec (user code) is arbitrary; the round-trip theorem asks the law only of the value at hand."
  },
  {
   "property": "C10",
   "status": "proved",
   "theorems": [
    "Bf.C10_frame",
    "Bf.C10_frame_builder"
   ],
   "note": "All layouts that satisfy WF and Supported, both backings, both overflow modes; also for the builder."
  },
  {
   "property": "C11",
   "status": "proved",
   "theorems": [
    "Bf.C11_last_write_wins",
    "Bf.C11_commute",
    "Bf.C11_write_back"
   ],
   "note": "write-back is for integer, bool and array fields, as the property says."
  },
  {
   "property": "C12",
   "status": "partial",
   "theorems": [
    "Bf.C12_exact",
    "Bf.C12_fits_accepted",
    "Bf.C12_checked_set_partial",
    "Bf.C12_checked_set_integer_partial",
    "Bf.C12_err_changes_nothing",
    "Bf.Finding.finding_checked_set_wide_type",
    "Bf.Finding.finding_checked_set_array"
   ],
   "note": "False in full: on integer-backed bitfields the argument is cast to the backing type before the comparison, and checked setters of array fields never fail. Proved for all arguments on which the generated comparison is exact, and spelled out for the common field types; an Err never changes the bitfield, without restriction. C12_exact says for every argument whether it is refused."
  },
  {
   "property": "C13",
   "status": "proved",
   "theorems": [
    "Bf.C13_new",
    "Bf.C13_new_getter"
   ],
   "note": "Custom defaults must survive the user's own conversions (DefaultsPreserved, ZeroPreserved); automatic without custom fields."
  },
  {
   "property": "C14",
   "status": "proved",
   "theorems": [
    "Bf.C14_new_without_defaults"
   ],
   "note": "As C13."
  },
  {
   "property": "C15",
   "status": "partial",
   "theorems": [
    "Bf.C15_default_eq_new_partial",
    "Bf.C15_default_eq_new_noncustom",
    "Bf.Finding.finding_default_not_new"
   ],
   "note": "False in full for custom types whose from_bits(0).into_bits() is not 0 when new is not generated."
  },
  {
   "property": "C16",
   "status": "proved",
   "theorems": [
    "Bf.C16_with",
    "Bf.C16_start",
    "Bf.C16_builder_fold",
    "Bf.C16_builder_fields",
    "Bf.C16_checked_chain"
   ],
   "note": "Any sequence of with_x/checked_with_x, any fields."
  },
  {
   "property": "C17",
   "status": "proved",
   "theorems": [
    "Bf.C17_from_into",
    "Bf.C17_into_from",
    "Bf.C17_configured"
   ],
   "note": "Custom field types must satisfy their round-trip law (user code)."
  },
  {
   "property": "C18",
   "status": "proved",
   "theorems": [
    "Bf.C18_int_swap",
    "Bf.C18_array_reverse",
    "Bf.C18_anchor",
    "Bf.C18_configured",
    "Bf.C18_from_traits"
   ],
   "note": "All bit patterns; the From impls included."
  },
  {
   "property": "C19",
   "status": "proved",
   "theorems": [
    "Bf.C19_from_with_defaults"
   ],
   "note": "Custom field types must satisfy their round-trip law (user code)."
  },
  {
   "property": "C20",
   "status": "proved",
   "theorems": [
    "Bf.C20_from_slice",
    "Bf.C20_checked_from_slice",
    "Bf.C20_into_slice",
    "Bf.C20_checked_into_slice"
   ],
   "note": "Slices of any length."
  },
  {
   "property": "C21",
   "status": "proved",
   "theorems": [
    "Bf.C21_write_bits",
    "Bf.C21_configured",
    "Bf.C21_le_is_reversed_be"
   ],
   "note": "All three byte orders; custom field types must satisfy their round-trip law (user code)."
  },
  {
   "property": "C22",
   "status": "proved",
   "theorems": [
    "Bf.C22_write_defaults",
    "Bf.C22_write_with_defaults"
   ],
   "note": "As C13."
  },
  {
   "property": "C23",
   "status": "partial",
   "theorems": [
    "Bf.C23_write_eq_from_partial",
    "Bf.C23_array_opposite",
    "Bf.Finding.finding_write_bytes_endian"
   ],
   "note": "False in full for array-backed bitfields: write_* reads bytes in the opposite order. Proved for integer-backed ones; C23_array_opposite says exactly what array-backed ones do."
  },
  {
   "property": "C24",
   "status": "proved",
   "theorems": [
    "Bf.C24_get_bit"
   ],
   "note": "All offsets, any state."
  },
  {
   "property": "C25",
   "status": "proved",
   "theorems": [
    "Bf.C25_set_bit"
   ],
   "note": "All offsets, any state."
  },
  {
   "property": "C26",
   "status": "partial",
   "theorems": [
    "Bf.C26_get_range_partial",
    "Bf.C26_checked_get_range_partial",
    "Bf.C26_odd_release",
    "Bf.Finding.finding_range_length_zero",
    "Bf.Finding.finding_range_sum_overflow"
   ],
   "note": "False in full for length 0 on integer-backed bitfields and when offset+length overflows u32. Proved for all other ranges; for these C26_odd_release and C34_range_panics_iff say exactly what happens."
  },
  {
   "property": "C27",
   "status": "partial",
   "theorems": [
    "Bf.C27_set_range_partial",
    "Bf.C27_checked_set_range_partial",
    "Bf.C27_odd_release",
    "Bf.Finding.finding_checked_range_truncates"
   ],
   "note": "As C26; moreover the checked variant does not reject values too large for the range. The remaining ranges: C27_odd_release, C34_range_panics_iff."
  },
  {
   "property": "C28",
   "status": "proved",
   "theorems": [
    "Bf.C28_clear",
    "Bf.C28_clear_field",
    "Bf.C28_clear_field_to_default"
   ],
   "note": "From any state; defaults as C13."
  },
  {
   "property": "C29",
   "status": "proved",
   "theorems": [
    "Bf.C29_invert",
    "Bf.C29_invert_field"
   ],
   "note": "Custom field types must satisfy their round-trip law (user code)."
  },
  {
   "property": "C30",
   "status": "partial",
   "theorems": [
    "Bf.C30_inverted_partial",
    "Bf.C30_narrow_signed",
    "Bf.Finding.finding_inverted_signed"
   ],
   "note": "False for signed fields narrower than their type on any backing. Proved for all other fields; C30_narrow_signed says what narrow signed fields give."
  },
  {
   "property": "C31",
   "status": "proved",
   "theorems": [
    "Bf.C31_protected"
   ],
   "note": "Induction over arbitrary call sequences."
  },
  {
   "property": "C32",
   "status": "proved",
   "theorems": [
    "Bf.C32_reserved_default",
    "Bf.C32_reserved_zero"
   ],
   "note": "Induction over arbitrary call sequences from every origin."
  },
  {
   "property": "C33",
   "status": "proved",
   "theorems": [
    "Bf.C33_reads",
    "Bf.C33_histories"
   ],
   "note": "Also for whole histories."
  },
  {
   "property": "C34",
   "status": "partial",
   "theorems": [
    "Bf.C34_range_panics_iff",
    "Bf.C34_panic_sources",
    "Bf.C34_no_panic_partial",
    "Bf.C34_history_partial",
    "Bf.C34_mode_independent_partial",
    "Bf.C34_history_mode_independent_partial",
    "Bf.C34_origin_partial",
    "Bf.Finding.finding_range_length_zero",
    "Bf.Finding.finding_range_sum_overflow",
    "Bf.Finding.finding_array_too_wide",
    "Bf.Finding.finding_array_too_long",
    "Bf.Finding.finding_custom_too_wide"
   ],
   "note": "False in full for degenerate ranges (see C26) and for array and custom fields wider than the generated code supports. C34_panic_sources and C34_range_panics_iff give all panics on Supported layouts, without restriction on arguments."
  },
  {
   "property": "C35",
   "status": "partial",
   "theorems": [
    "Bf.C35_same_history_partial",
    "Bf.C35_le_bytes",
    "Bf.Finding.finding_backings_differ"
   ],
   "note": "False for zero-length ranges. Proved for all other calls and all histories."
  },
  {
   "property": "C36",
   "status": "partial",
   "theorems": [
    "Bf.C36_every_history",
    "Bf.C36_machines_agree",
    "Bf.C36_refines_partial",
    "Bf.C36_effects_partial",
    "Bf.Finding.finding_range_length_zero",
    "Bf.Finding.finding_range_sum_overflow",
    "Bf.Finding.finding_checked_set_wide_type",
    "Bf.Finding.finding_checked_set_array"
   ],
   "note": "The documented effects hold except for the arguments listed at C12 and C26. C36_every_history leaves out no argument: it uses the machine of MachineFull.lean, which adds to the documented effects exactly those exceptions."
  },
  {
   "property": "C37",
   "status": "proved",
   "theorems": [
    "Bf.C37_constants_read",
    "Bf.C37_constants_write"
   ],
   "note": "All layouts that satisfy WF and Supported."
  },
  {
   "property": "C38",
   "status": "partial",
   "theorems": [
    "Bf.C38_presence",
    "Bf.C38_no_bits",
    "Bf.C38_start",
    "Bf.C38_makes",
    "Bf.C38_unchanged",
    "Bf.C38_bits",
    "Bf.finding_ignored_val",
    "Bf.finding_ignored_array"
   ],
   "note": "Ignored fields take no bits, start at default(), survive every history and do not influence it: proved for all declarations and histories. That they can always be initialised is false for an ignored field called val or of an array type (findings)."
  },
  {
   "property": "C39",
   "status": "partial",
   "theorems": [
    "Bf.C39_accepted",
    "Bf.C39_group",
    "Bf.C39_write_group_partial",
    "Bf.C39_nothing_else",
    "Bf.C39_expansion",
    "Bf.finding_write_flag_ignored"
   ],
   "note": "False for the write_* group: write_bit_ops is ignored and the group follows bit_ops. Proved for every other group."
  },
  {
   "property": "C40",
   "status": "proved",
   "theorems": [
    "Bf.C40_from_bits",
    "Bf.C40_fallback",
    "Bf.C40_into_bits",
    "Bf.C40_round_trip",
    "Bf.C40_bits_round_trip"
   ],
   "note": "For all enums that compile, any byte order as long as from and into agree (otherwise the round trip is false: finding_bitflag_endian, Props/Bitflag.lean)."
  },
  {
   "property": "C41",
   "status": "partial",
   "theorems": [
    "Bf.C41_accepts",
    "Bf.C41_rejects_partial",
    "Bf.C41_error",
    "Bf.C41_generates",
    "Bf.finding_bitflag_type"
   ],
   "note": "Acceptance on written enums and rejection with an error. Missing: the macro accepts some storage types that do not compile (finding_bitflag_type)."
  },
  {
   "property": "C42",
   "status": "proved",
   "theorems": [
    "Bf.C42_any_depth",
    "Bf.C42_declared",
    "Bf.C42_generated",
    "Bf.C42_nested_lawful",
    "Bf.C42_nested_round_trip",
    "Bf.C42_flag_total",
    "Bf.C42_flag_round_trip",
    "Bf.C42_flag_lawful"
   ],
   "note": "Nested bitfields and bitflags satisfy the codec law the run-time theorems assume. C42_any_depth is by induction over the nesting of declared types, with the emitted from_bits and into_bits as the conversions; C42_generated runs emitted code only."
  },
  {
   "property": "C43",
   "status": "partial",
   "theorems": [
    "Bf.C43_literal_partial",
    "Bf.C43_bool",
    "Bf.C43_path_partial",
    "Bf.Finding.finding_literal_float_like",
    "Bf.Finding.finding_path_float_like",
    "Bf.Finding.finding_ident_as_literal",
    "Bf.Finding.finding_expr_panics"
   ],
   "note": "All literal spellings except negated hexadecimal literals ending in f32/f64; expressions beginning with a letter without dots or float suffix. Findings for the rest."
  },
  {
   "property": "C44",
   "status": "proved",
   "theorems": [
    "Bf.C44_debug"
   ],
   "note": "All states and layouts; the values passed to the formatter."
  },
  {
   "property": "C45",
   "status": "proved",
   "theorems": [
    "Bf.C45_local",
    "Bf.C45_range",
    "Bf.C45_injective"
   ],
   "note": "Any state."
  },
  {
   "property": "C46",
   "status": "proved",
   "theorems": [
    "Bf.C46_duplicate_rejected",
    "Bf.C46_reserved_share"
   ],
   "note": "Rejection of clashes for all declarations and modes; reserved fields may be renamed freely, in both modes."
  },
  {
   "property": "C47",
   "status": "partial",
   "theorems": [
    "Bf.C47_whole",
    "Bf.C47_field_partial",
    "Bf.C47_ignored_partial",
    "Bf.finding_private_accessor",
    "Bf.finding_write_only_private",
    "Bf.finding_ignored_private"
   ],
   "note": "False in several ways: private fields inherit the struct's visibility, items of wo and na fields and ignored fields are private, clear/invert functions always have the struct's visibility. C47_field_partial says exactly which visibility each item has."
  },
  {
   "property": "C48",
   "status": "proved",
   "theorems": [
    "Bf.C48_endian",
    "Bf.C48_order"
   ],
   "note": "Argument lists of any length; Cargo features arbitrary."
  },
  {
   "property": "C49",
   "status": "proved",
   "theorems": [
    "Bf.C49_shape"
   ],
   "note": "The model of the struct covers representation, derives, members and constness only."
  },
  {
   "property": "C50",
   "status": "partial",
   "theorems": [
    "Bf.C50_items",
    "Bf.C50_bitfield_partial",
    "Bf.C50_builder",
    "Bf.finding_name_clash",
    "Bf.finding_name_clash_case"
   ],
   "note": "Items and builder names: unconditional. Names of the bitfield: for safe field names (SpecNames.lean). Missing: other field names, where accepted structs do clash (findings)."
  },
  {
   "property": "C51",
   "status": "proved",
   "theorems": [
    "Bf.C51_enum"
   ],
   "note": "Everything the generated enum item carries."
  },
  {
   "property": "C52",
   "status": "proved",
   "theorems": [
    "Bf.C52_accepted",
    "Bf.C52_wf",
    "Bf.C52_accessors",
    "Bf.C52_new"
   ],
   "note": "C52_wf derives the hypotheses (WF, Supported, Lawful) of the run-time theorems C06-C37 from the declaration. Shapes outside Usable are covered by findings of C08/C15."
  },
  {
   "property": "C53",
   "status": "partial",
   "theorems": [
    "Bf.C53_default_read_partial",
    "Bf.Finding.finding_signed_default",
    "Bf.Finding.finding_large_default"
   ],
   "note": "Proved for literals that rustc's literal typing leaves unchanged and that fit the signed range. finding_signed_default: a positive literal of 2^(n-1) or more is accepted on a signed field of n bits and reads back negative. finding_large_default: the default of a writable integer field is passed as `lit as _`, so an unsuffixed literal is an i32 and a value outside i32 is changed on fields wider than 32 bits (Rust's literal fallback, stated in SpecRun.lean, is part of the trusted base)."
  },
  {
   "property": "C54",
   "status": "partial",
   "theorems": [
    "Bf.C54_call",
    "Bf.C54_calls",
    "Bf.C54_history",
    "Bf.C54_make_partial",
    "Bf.C54_builder_default_partial",
    "Bf.C54_accessors",
    "Bf.C54_new",
    "Bf.Finding.finding_builder_read_only"
   ],
   "note": "Single calls and sequences of calls: full, for every accepted declaration that compiles. Histories in terms of the abstract machine, accessors and new(): full for supported layouts (see C34 for the others). Constructors, conversions and builders: missing the builder of a struct with new = false and a field that has a getter but no setter, whose emitted code does not compile (finding_builder_read_only; by C64_exact these are the only functions that do not, if the defaults have suitable types). Semantics of the Rust fragment in Model/Rust.lean, emitted code in Model/Quote.lean."
  },
  {
   "property": "C55",
   "status": "partial",
   "theorems": [
    "Bf.C55_functions",
    "Bf.C55_constants",
    "Bf.C55_call",
    "Bf.C55_make_partial",
    "Bf.Finding.finding_builder_read_only"
   ],
   "note": "Functions, constants and calls: full. Constructors: see finding_builder_read_only. UserConversions: the user's from_bits returns or panics."
  },
  {
   "property": "C56",
   "status": "proved",
   "theorems": [
    "Bf.C56_form",
    "Bf.C56_meaning",
    "Bf.C56_accepted",
    "Bf.C56_reported",
    "Bf.C56_attributes",
    "Bf.C56_enum"
   ],
   "note": "C56_form and C56_meaning extend C01-C05, C38-C55 from the canonical way of writing a struct to every accepted one. C56_accepted: for defaults the macro reads correctly (C43); if it was compiled without overflow checks, for widths below 2^32 in total."
  },
  {
   "property": "C57",
   "status": "partial",
   "theorems": [
    "Bf.C57_reported_partial",
    "Bf.C57_verdict_partial",
    "Bf.C57_enum_partial",
    "Bf.Finding.finding_expr_panics",
    "Bf.Finding.finding_ignored_type_panics",
    "Bf.Finding.finding_default_min",
    "Bf.Finding.finding_wide_default_panics",
    "Bf.Finding.finding_widths_wrap",
    "Bf.finding_raw_field"
   ],
   "note": "False in full: the macro panics on prefixed literals followed by more (0x1 | 0x2), on the default -2^127, on ignored fields of unknown types, on integer fields with a default and more than 128 bits and, with overflow checks, on widths that add up to 2^32 or more. Raw identifiers as field names (r#type) make code generation panic (finding_raw_field, for all structs). Reportable excludes these, other defaults outside DefaultSpec.Supported that are not float literals, and force_panic = true."
  },
  {
   "property": "C58",
   "status": "proved",
   "theorems": [
    "Bf.C58_const",
    "Bf.C58_declared"
   ],
   "note": "Which constructs are allowed in a const fn is stated in SpecConst (from the Rust reference, not checked against rustc). The user's from_bits, into_bits and default expressions are taken to be const, as the documentation demands. The compiler version test (supports_const_mut_refs) is taken as satisfied."
  },
  {
   "property": "C59",
   "status": "proved",
   "theorems": [
    "Bf.C59_layout",
    "Bf.C59_same",
    "Bf.C59_reorder",
    "Bf.C59_history",
    "Bf.C59_make",
    "Bf.C59_heap"
   ],
   "note": "The behavioural part speaks of the emitted code (Quote.lean), with the declaration legal and usable as in C54; for builders the condition Fits of C54 is required under both argument lists (without it the builder does not compile, finding_builder_read_only)."
  },
  {
   "property": "C60",
   "status": "partial",
   "theorems": [
    "Bf.C60_no_std_partial",
    "Bf.C60_needs_std",
    "Bf.C60_named",
    "Bf.C60_no_alloc",
    "Bf.C60_enum",
    "Bf.Finding.finding_copy_needs_std"
   ],
   "note": "Missing from the full property: with copy on (the default) the code names std::marker::Copy (finding_copy_needs_std). C60_needs_std says exactly when a path outside of core occurs, C60_named which ones occur. Paths in attributes, types and default expressions written by the user are not part of the claim; prelude names without a path exist in core too."
  },
  {
   "property": "C61",
   "status": "partial",
   "theorems": [
    "Bf.C61_items",
    "Bf.C61_places",
    "Bf.C61_struct",
    "Bf.C61_members",
    "Bf.C61_outcome",
    "Bf.C61_verdict_partial",
    "Bf.C61_enum",
    "Bf.finding_generics_dropped",
    "Bf.finding_raw_field"
   ],
   "note": "Items, places, struct attributes and outcome: full (C61_outcome has no hypotheses). Missing: generic parameters are dropped (finding_generics_dropped), and the macro panics on the declarations of the findings of C57, so that the verdict is proved for Reportable declarations."
  },
  {
   "property": "C62",
   "status": "partial",
   "theorems": [
    "Bf.C62_visibility_partial",
    "Bf.C62_struct_partial",
    "Bf.C62_field_partial",
    "Bf.finding_pub_in_path"
   ],
   "note": "Missing: pub(in path) with more than one segment, which is printed as something the compiler rejects whenever the declaration was accepted (finding_pub_in_path, for all paths). Items whose visibility is deliberately or wrongly another one: see C47. The meaning of visibilities (SpecExpand.lean, editions since 2018) is stated from the Rust reference."
  },
  {
   "property": "C63",
   "status": "partial",
   "theorems": [
    "Bf.C63_documented",
    "Bf.C63_bits_partial",
    "Bf.C63_text_partial",
    "Bf.C63_constants_partial",
    "Bf.Finding.finding_array_docs",
    "Bf.Finding.finding_sign_docs"
   ],
   "note": "Missing: fields of byte array types, whose bits are called bytes in the comments (finding_array_docs). The part about the sign bit in the comments of getters of signed fields is wrong (finding_sign_docs)."
  },
  {
   "property": "C64",
   "status": "partial",
   "theorems": [
    "Bf.C64_typed_partial",
    "Bf.C64_exact",
    "Bf.C64_new",
    "Bf.C64_literal",
    "Bf.C64_constant",
    "Bf.Finding.finding_const_default",
    "Bf.Finding.finding_builder_read_only"
   ],
   "note": "Typing rules (SpecTypes.lean) are stated from the Rust reference for the syntax the generator emits; user types are not told apart, references and mutability are not modelled. Missing: the builder's constructors when `new` is off and a field is read-only (finding_builder_read_only). C64_exact: with suiting defaults these builders are the only functions that are not well typed. Defaults must suit their fields; C64_new shows this is necessary, C64_literal and C64_constant say when it holds, and finding_const_default is an accepted declaration where it does not."
  },
  {
   "property": "C65",
   "status": "proved",
   "theorems": [
    "Bf.C65_call",
    "Bf.C65_history",
    "Bf.C65_setter",
    "Bf.C65_bits",
    "Bf.C65_make"
   ],
   "note": "Compiles: what rustc requires of the declaration beyond what the macro checks. For builders the condition Fits of C54 is part of this (otherwise the builder does not compile). UserConversions as in C55."
  },
  {
   "property": "C66",
   "status": "proved",
   "theorems": [
    "Bf.C66_array_get",
    "Bf.C66_array_set",
    "Bf.C66_array_wide",
    "Bf.C66_custom_checked",
    "Bf.C66_custom_wrapping",
    "Bf.C66_unmade",
    "Bf.C66_made"
   ],
   "note": "Compiles, Fits, UserConversions as in C65. default() without the new functions is excluded from C66_unmade: it stores defaults only. C66_made assumes that the user's from_bits does not panic."
  },
  {
   "property": "C67",
   "status": "partial",
   "theorems": [
    "Bf.C67_active",
    "Bf.C67_groups_partial",
    "Bf.C67_shape_partial",
    "Bf.C67_values_partial",
    "Bf.C67_bitflag_partial",
    "Bf.C67_usual",
    "Bf.C67_usual_bitflag",
    "Bf.Finding.finding_features_ignored",
    "Bf.Finding.finding_readme_features"
   ],
   "note": "Cargo's feature resolution (SpecCargo.lean) is stated from the Cargo book; one version of each package. Missing: crates that depend on the package bitfields, which forwards none of its features and always switches on the defaults of the macro package, so that no feature has any effect (finding_features_ignored, finding_readme_features)."
  },
  {
   "property": "C68",
   "status": "proved",
   "theorems": [
    "Bf.Docs.C68_sections",
    "Bf.Docs.C68_update",
    "Bf.Docs.C68_idempotent",
    "Bf.Docs.C68_replace",
    "Bf.Docs.C68_files"
   ],
   "note": "Texts are lists of characters. str::find, rfind, trim and lines of the standard library are modelled (Model/BuildScript.lean). A write that fails part way is not modelled. C68_idempotent has a condition on the README; an example shows it is needed."
  },
  {
   "property": "C69",
   "status": "partial",
   "theorems": [
    "Bf.Text.C69_parses_partial",
    "Bf.Text.C69_unambiguous_partial",
    "Bf.Text.C69_functions",
    "Bf.Text.C69_builder",
    "Bf.Text.C69_constants",
    "Bf.Text.C69_every_function",
    "Bf.Text.C69_no_other",
    "Bf.Text.C69_struct",
    "Bf.Text.C69_visibility",
    "Bf.Text.finding_compound_default",
    "Bf.Text.finding_ignored_array_text"
   ],
   "note": "Model/Emit.lean has the templates of the generator verbatim (scripts/templates.py compares all of them with the source). Model/Syntax.lean is a parser for the part of Rust's grammar they use; SpecText.lean says which syntax each construct of Model/Rust.lean has. Missing: default expressions with operators, of which only the last operand is converted (finding_compound_default), and ignored arrays, for which the text is not Rust (finding_ignored_array_text). Paths with generic arguments and types written as longer paths are one token."
  },
  {
   "property": "C70",
   "status": "partial",
   "theorems": [
    "Bf.Text.C70_parses_partial",
    "Bf.Text.C70_from_bits_partial",
    "Bf.Text.C70_into_bits_partial",
    "Bf.Text.C70_panics",
    "Bf.Text.finding_computed_value"
   ],
   "note": "Model/EmitFlag.lean has the templates of bitflag_generator.rs verbatim (scripts/templates.py compares them with the source). runFrom and runInto in SpecFlagText.lean run the bodies as the parser reads them. Missing: discriminants that are computed, such as `1 << 2`; the macro accepts them but repeats them as patterns, which is not Rust (finding_computed_value)."
  },
  {
   "property": "C71",
   "status": "partial",
   "theorems": [
    "Bf.C71_true_partial",
    "Bf.C71_short",
    "Bf.C71_long",
    "Bf.C71_bits_partial",
    "Bf.C71_enum_partial",
    "Bf.C71_shown_partial",
    "Bf.C71_shown_enum_partial",
    "Bf.Finding.finding_total_prefix",
    "Bf.Finding.finding_max_wrapped"
   ],
   "note": "SpecMessage.lean has the texts, each with the fact it claims; scripts/messages.py compares the texts of the model with the source. Types are named by the last segment of their path and array lengths in decimal. Missing: defaults and values the macro misreads as floats (C43); the total in the message with order = msb, which is only the sum of the first fields (finding_total_prefix); without overflow checks, limits for widths above 128 bits (finding_max_wrapped). Messages of syn and spans are not modelled."
  },
  {
   "property": "C72",
   "status": "partial",
   "theorems": [
    "Bf.Text.C72_bitflag_partial",
    "Bf.Text.C72_changes_only_mutable_partial",
    "Bf.Text.C72_setters_listed",
    "Bf.Text.finding_compound_default",
    "Bf.Text.finding_ignored_array_text"
   ],
   "note": "SpecMut.lean states Rust's rule for assignments and `&mut self` calls on the syntax trees of Model/Syntax.lean; which methods take `&mut self` is read off the parsed items. Missing: default expressions and ignored arrays outside C69 (finding_compound_default, finding_ignored_array_text). Moved values are the subject of C73; rules for overlapping borrows are not modelled. C72_bitflag_partial: the functions of a bitflag enum, with the hypotheses of C70_parses_partial."
  },
  {
   "property": "C73",
   "status": "partial",
   "theorems": [
    "Bf.Text.C73_bitflag_partial",
    "Bf.Text.C73_nothing_used_after_move_partial",
    "Bf.Text.C73_store_copy",
    "Bf.Text.C73_into_takes",
    "Bf.Text.finding_compound_default",
    "Bf.Text.finding_ignored_array_text"
   ],
   "note": "SpecMove.lean states Rust's rule for moved values on the syntax trees of Model/Syntax.lean; which members are Copy and which methods take self is read off the parsed items. Missing: default expressions and ignored arrays outside C69 (finding_compound_default, finding_ignored_array_text), and defaults that are a single name which is also a local variable of the emitted code that is not Copy. Overlapping borrows are not modelled. C73_bitflag_partial: the functions of a bitflag enum, with the hypotheses of C70_parses_partial."
  },
  {
   "property": "C74",
   "status": "proved",
   "theorems": [
    "Bf.C74_setters_reach",
    "Bf.C74_reachable_iff",
    "Bf.C74_getters_separate",
    "Bf.C74_independent",
    "Bf.C74_declared"
   ],
   "note": "On the call machine of C31 to C36 and, in C74_declared, for declared structs. Custom types must have inverse from_bits and into_bits (Lawful), as the crate's documentation asks for."
  },
  {
   "property": "C75",
   "status": "proved",
   "theorems": [
    "Bf.C75_place",
    "Bf.C75_interface",
    "Bf.C75_calls",
    "Bf.C75_data",
    "Bf.C75_new",
    "Bf.C75_grown_place",
    "Bf.C75_grown"
   ],
   "note": "Versions in Props/Evolve.lean says what two versions are. Calls, new() and conversions are those of the emitted code (C54). Data: the new version's custom types must have inverse from_bits and into_bits."
  },
  {
   "property": "C76",
   "status": "partial",
   "theorems": [
    "Bf.Text.C76_names_partial",
    "Bf.Text.C76_bitflag_partial",
    "Bf.Text.finding_unrooted",
    "Bf.Text.finding_default_captured",
    "Bf.Text.finding_compound_default",
    "Bf.Text.finding_ignored_array_text"
   ],
   "note": "SpecScope.lean says which names code refers to, following Rust's scopes. The code is what is parsed from the printed tokens (C69, C70). Attributes are not covered. Missing: default expressions other than those of Simple, values other than those of Constant, ignored fields that are arrays. finding_unrooted: core, Default, Ok, Err are not written as paths from ::core. finding_default_captured: a default expression is printed where variables of the generated function shadow the user's names."
  },
  {
   "property": "C77",
   "status": "partial",
   "theorems": [
    "Bf.C77_text",
    "Bf.C77_tells_apart",
    "Bf.C77_values_partial",
    "Bf.C77_emitted",
    "Bf.finding_debug_value",
    "Bf.finding_debug_hidden"
   ],
   "note": "SpecDebug.lean says what core::fmt writes for debug_struct, field and finish. Proved: the text (also for the emitted code), and that it determines all bits. Missing: the values shown are the stored bits, which are what the getter returns for unsigned fields and for byte arrays in byte arrays only (finding_debug_value: -1 is shown as 15 and true as 1); fields that are not readable are shown too (finding_debug_hidden), although the README says that readable fields are printed. Format flags other than # are not modelled."
  },
  {
   "property": "C78",
   "status": "proved",
   "theorems": [
    "Bf.Text.C78_words",
    "Bf.Text.C78_bitflag_words",
    "Bf.Text.C78_unwanted",
    "Bf.Text.C78_bitflag_unwanted",
    "Bf.Text.C78_filled"
   ],
   "note": "C78_words and C78_bitflag_words have no hypotheses about the declaration. The tokens of a default, an attribute or a user's type are the user's and are not looked into; texts (documentation and messages) are not restricted. Names of fields are upper-cased as ASCII."
  },
  {
   "property": "C79",
   "status": "partial",
   "theorems": [
    "Bf.Text.C79_borrows_partial",
    "Bf.Text.C79_returns_no_reference_partial",
    "Bf.Text.C79_bitflag_partial"
   ],
   "note": "The rule is sufficient for what Rust's borrow checker asks of these trees, not equal to it. Missing in C79_borrows_partial and C79_returns_no_reference_partial: as in C69_parses_partial (defaults other than those of Simple, ignored fields that are arrays); in the first also a default that is nothing but the name `this`. C79_bitflag_partial: the functions of a bitflag enum, with the hypotheses of C70_parses_partial."
  }
 ]
}