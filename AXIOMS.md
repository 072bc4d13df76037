# Axioms

What `#print axioms` reports for the theorems of MANIFEST.json (written by scripts/axioms.py).

## C01

- `Bf.C01_partition`: Classical.choice, Quot.sound, propext
- `Bf.C01_partition_small_partial`: Classical.choice, Quot.sound, propext
- `Bf.C01_wf`: Classical.choice, Quot.sound, propext
- `Bf.C01_wf_small_partial`: Classical.choice, Quot.sound, propext
- `Bf.Finding.finding_widths_wrap`: Classical.choice, Quot.sound, propext
- `Bf.Finding.finding_storage_wraps`: Classical.choice, Quot.sound, propext

## C02

- `Bf.C02_offset`: Classical.choice, Quot.sound, propext
- `Bf.C02_layout_partial`: Classical.choice, Quot.sound, propext
- `Bf.C02_same_acceptance`: Classical.choice, Quot.sound, propext
- `Bf.C02_same_acceptance_small_partial`: Classical.choice, Quot.sound, propext
- `Bf.C02_mirror`: Classical.choice, Quot.sound, propext
- `Bf.C02_mirror_small_partial`: Classical.choice, Quot.sound, propext
- `Bf.Finding.finding_widths_wrap`: Classical.choice, Quot.sound, propext

## C03

- `Bf.C03_acceptance_partial`: Classical.choice, Quot.sound, propext
- `Bf.Finding.finding_widths_wrap`: Classical.choice, Quot.sound, propext
- `Bf.Finding.finding_storage_wraps`: Classical.choice, Quot.sound, propext
- `Bf.Finding.finding_default_min`: Classical.choice, Quot.sound, propext
- `Bf.Finding.finding_default_wraps`: Classical.choice, Quot.sound, propext
- `Bf.Finding.finding_expr_panics`: propext
- `Bf.Finding.finding_literal_float_like`: propext
- `Bf.Finding.finding_ignored_type_panics`: Classical.choice, Quot.sound, propext
- `Bf.Finding.finding_bool_storage`: Classical.choice, Quot.sound, propext

## C04

- `Bf.C04_literal_default_partial`: Classical.choice, Quot.sound, propext
- `Bf.Finding.finding_default_min`: Classical.choice, Quot.sound, propext
- `Bf.Finding.finding_default_wraps`: Classical.choice, Quot.sound, propext

## C05

- `Bf.C05_accessors`: Classical.choice, Quot.sound, propext
- `Bf.C05_getters`: Classical.choice, Quot.sound, propext
- `Bf.C05_setters`: Classical.choice, Quot.sound, propext
- `Bf.C05_reserved`: Classical.choice, Quot.sound, propext
- `Bf.C05_ignored`: Classical.choice, Quot.sound, propext
- `Bf.C05_reserved_bits`: Classical.choice, Quot.sound, propext

## C06

- `Bf.C06_unsigned_round_trip`: Classical.choice, Quot.sound, propext

## C07

- `Bf.C07_signed_round_trip`: Classical.choice, Quot.sound, propext
- `Bf.C07_signed_fits`: Classical.choice, Quot.sound, propext

## C08

- `Bf.C08_bool_round_trip`: Classical.choice, Quot.sound, propext
- `Bf.C08_array_round_trip`: Classical.choice, Quot.sound, propext
- `Bf.C08_array_narrow`: Classical.choice, Quot.sound, propext
- `Bf.Finding.finding_array_ragged`: Quot.sound, propext
- `Bf.Finding.finding_array_too_wide`: Quot.sound, propext

## C09

- `Bf.C09_custom_round_trip`: Classical.choice, Quot.sound, propext
- `Bf.C09_custom_general`: Classical.choice, Quot.sound, propext

## C10

- `Bf.C10_frame`: Classical.choice, Quot.sound, propext
- `Bf.C10_frame_builder`: Classical.choice, Quot.sound, propext

## C11

- `Bf.C11_last_write_wins`: Classical.choice, Quot.sound, propext
- `Bf.C11_commute`: Classical.choice, Quot.sound, propext
- `Bf.C11_write_back`: Classical.choice, Quot.sound, propext

## C12

- `Bf.C12_exact`: Classical.choice, Quot.sound, propext
- `Bf.C12_fits_accepted`: Quot.sound, propext
- `Bf.C12_checked_set_partial`: Classical.choice, Quot.sound, propext
- `Bf.C12_checked_set_integer_partial`: Classical.choice, Quot.sound, propext
- `Bf.C12_err_changes_nothing`: Classical.choice, Quot.sound, propext
- `Bf.Finding.finding_checked_set_wide_type`: Quot.sound, propext
- `Bf.Finding.finding_checked_set_array`: Quot.sound, propext

## C13

- `Bf.C13_new`: Classical.choice, Quot.sound, propext
- `Bf.C13_new_getter`: Classical.choice, Quot.sound, propext

## C14

- `Bf.C14_new_without_defaults`: Classical.choice, Quot.sound, propext

## C15

- `Bf.C15_default_eq_new_partial`: Classical.choice, Quot.sound, propext
- `Bf.C15_default_eq_new_noncustom`: Classical.choice, Quot.sound, propext
- `Bf.Finding.finding_default_not_new`: Quot.sound, propext

## C16

- `Bf.C16_with`: Classical.choice, Quot.sound, propext
- `Bf.C16_start`: Quot.sound, propext
- `Bf.C16_builder_fold`: Classical.choice, Quot.sound, propext
- `Bf.C16_builder_fields`: Classical.choice, Quot.sound, propext
- `Bf.C16_checked_chain`: Classical.choice, Quot.sound, propext

## C17

- `Bf.C17_from_into`: Classical.choice, Quot.sound, propext
- `Bf.C17_into_from`: Classical.choice, Quot.sound, propext
- `Bf.C17_configured`: Classical.choice, Quot.sound, propext

## C18

- `Bf.C18_int_swap`: Classical.choice, Quot.sound, propext
- `Bf.C18_array_reverse`: Quot.sound, propext
- `Bf.C18_anchor`: Classical.choice, Quot.sound, propext
- `Bf.C18_configured`: Quot.sound, propext
- `Bf.C18_from_traits`: Quot.sound, propext

## C19

- `Bf.C19_from_with_defaults`: Classical.choice, Quot.sound, propext

## C20

- `Bf.C20_from_slice`: Quot.sound, propext
- `Bf.C20_checked_from_slice`: Quot.sound, propext
- `Bf.C20_into_slice`: Classical.choice, Quot.sound, propext
- `Bf.C20_checked_into_slice`: Classical.choice, Quot.sound, propext

## C21

- `Bf.C21_write_bits`: Classical.choice, Quot.sound, propext
- `Bf.C21_configured`: Quot.sound, propext
- `Bf.C21_le_is_reversed_be`: Quot.sound, propext

## C22

- `Bf.C22_write_defaults`: Classical.choice, Quot.sound, propext
- `Bf.C22_write_with_defaults`: Quot.sound, propext

## C23

- `Bf.C23_write_eq_from_partial`: Classical.choice, Quot.sound, propext
- `Bf.C23_array_opposite`: Classical.choice, Quot.sound, propext
- `Bf.Finding.finding_write_bytes_endian`: Quot.sound, propext

## C24

- `Bf.C24_get_bit`: Classical.choice, Quot.sound, propext

## C25

- `Bf.C25_set_bit`: Classical.choice, Quot.sound, propext

## C26

- `Bf.C26_get_range_partial`: Classical.choice, Quot.sound, propext
- `Bf.C26_checked_get_range_partial`: Classical.choice, Quot.sound, propext
- `Bf.C26_odd_release`: Classical.choice, Quot.sound, propext
- `Bf.Finding.finding_range_length_zero`: Quot.sound, propext
- `Bf.Finding.finding_range_sum_overflow`: Classical.choice, Quot.sound, propext

## C27

- `Bf.C27_set_range_partial`: Classical.choice, Quot.sound, propext
- `Bf.C27_checked_set_range_partial`: Classical.choice, Quot.sound, propext
- `Bf.C27_odd_release`: Classical.choice, Quot.sound, propext
- `Bf.Finding.finding_checked_range_truncates`: Quot.sound, propext

## C28

- `Bf.C28_clear`: Classical.choice, Quot.sound, propext
- `Bf.C28_clear_field`: Classical.choice, Quot.sound, propext
- `Bf.C28_clear_field_to_default`: Classical.choice, Quot.sound, propext

## C29

- `Bf.C29_invert`: Classical.choice, Quot.sound, propext
- `Bf.C29_invert_field`: Classical.choice, Quot.sound, propext

## C30

- `Bf.C30_inverted_partial`: Classical.choice, Quot.sound, propext
- `Bf.C30_narrow_signed`: Classical.choice, Quot.sound, propext
- `Bf.Finding.finding_inverted_signed`: Quot.sound, propext

## C31

- `Bf.C31_protected`: Classical.choice, Quot.sound, propext

## C32

- `Bf.C32_reserved_default`: Classical.choice, Quot.sound, propext
- `Bf.C32_reserved_zero`: Classical.choice, Quot.sound, propext

## C33

- `Bf.C33_reads`: Classical.choice, Quot.sound, propext
- `Bf.C33_histories`: Classical.choice, Quot.sound, propext

## C34

- `Bf.C34_range_panics_iff`: Classical.choice, Quot.sound, propext
- `Bf.C34_panic_sources`: Classical.choice, Quot.sound, propext
- `Bf.C34_no_panic_partial`: Classical.choice, Quot.sound, propext
- `Bf.C34_history_partial`: Classical.choice, Quot.sound, propext
- `Bf.C34_mode_independent_partial`: Classical.choice, Quot.sound, propext
- `Bf.C34_history_mode_independent_partial`: Classical.choice, Quot.sound, propext
- `Bf.C34_origin_partial`: Classical.choice, Quot.sound, propext
- `Bf.Finding.finding_range_length_zero`: Quot.sound, propext
- `Bf.Finding.finding_range_sum_overflow`: Classical.choice, Quot.sound, propext
- `Bf.Finding.finding_array_too_wide`: Quot.sound, propext
- `Bf.Finding.finding_array_too_long`: Quot.sound, propext
- `Bf.Finding.finding_custom_too_wide`: Quot.sound, propext

## C35

- `Bf.C35_same_history_partial`: Classical.choice, Quot.sound, propext
- `Bf.C35_le_bytes`: Classical.choice, Quot.sound, propext
- `Bf.Finding.finding_backings_differ`: Quot.sound, propext

## C36

- `Bf.C36_every_history`: Classical.choice, Quot.sound, propext
- `Bf.C36_machines_agree`: Classical.choice, Quot.sound, propext
- `Bf.C36_refines_partial`: Classical.choice, Quot.sound, propext
- `Bf.C36_effects_partial`: Classical.choice, Quot.sound, propext
- `Bf.Finding.finding_range_length_zero`: Quot.sound, propext
- `Bf.Finding.finding_range_sum_overflow`: Classical.choice, Quot.sound, propext
- `Bf.Finding.finding_checked_set_wide_type`: Quot.sound, propext
- `Bf.Finding.finding_checked_set_array`: Quot.sound, propext

## C37

- `Bf.C37_constants_read`: Classical.choice, Quot.sound, propext
- `Bf.C37_constants_write`: Classical.choice, Quot.sound, propext

## C38

- `Bf.C38_presence`: Classical.choice, Quot.sound, propext
- `Bf.C38_no_bits`: Classical.choice, Quot.sound, propext
- `Bf.C38_start`: Classical.choice, Quot.sound, propext
- `Bf.C38_makes`: Classical.choice, Quot.sound, propext
- `Bf.C38_unchanged`: Quot.sound, propext
- `Bf.C38_bits`: Classical.choice, Quot.sound, propext
- `Bf.finding_ignored_val`: Classical.choice, Quot.sound, propext
- `Bf.finding_ignored_array`: Classical.choice, Quot.sound, propext

## C39

- `Bf.C39_accepted`: Classical.choice, Quot.sound, propext
- `Bf.C39_group`: Classical.choice, Quot.sound, propext
- `Bf.C39_write_group_partial`: Classical.choice, Quot.sound, propext
- `Bf.C39_nothing_else`: Quot.sound, propext
- `Bf.C39_expansion`: Classical.choice, Quot.sound, propext
- `Bf.finding_write_flag_ignored`: Classical.choice, Quot.sound, propext

## C40

- `Bf.C40_from_bits`: Classical.choice, Quot.sound, propext
- `Bf.C40_fallback`: Classical.choice, Quot.sound, propext
- `Bf.C40_into_bits`: Classical.choice, Quot.sound, propext
- `Bf.C40_round_trip`: Classical.choice, Quot.sound, propext
- `Bf.C40_bits_round_trip`: Classical.choice, Quot.sound, propext

## C41

- `Bf.C41_accepts`: Classical.choice, Quot.sound, propext
- `Bf.C41_rejects_partial`: Classical.choice, Quot.sound, propext
- `Bf.C41_error`: Classical.choice, Quot.sound, propext
- `Bf.C41_generates`: Classical.choice, Quot.sound, propext
- `Bf.finding_bitflag_type`: Classical.choice, Quot.sound, propext

## C42

- `Bf.C42_any_depth`: Classical.choice, Quot.sound, propext
- `Bf.C42_declared`: Classical.choice, Quot.sound, propext
- `Bf.C42_generated`: Classical.choice, Quot.sound, propext
- `Bf.C42_nested_lawful`: Classical.choice, Quot.sound, propext
- `Bf.C42_nested_round_trip`: Classical.choice, Quot.sound, propext
- `Bf.C42_flag_total`: Quot.sound, propext
- `Bf.C42_flag_round_trip`: Classical.choice, Quot.sound, propext
- `Bf.C42_flag_lawful`: Classical.choice, Quot.sound, propext

## C43

- `Bf.C43_literal_partial`: Classical.choice, Quot.sound, propext
- `Bf.C43_bool`: propext
- `Bf.C43_path_partial`: Quot.sound, propext
- `Bf.Finding.finding_literal_float_like`: propext
- `Bf.Finding.finding_path_float_like`: propext
- `Bf.Finding.finding_ident_as_literal`: propext
- `Bf.Finding.finding_expr_panics`: propext

## C44

- `Bf.C44_debug`: Classical.choice, Quot.sound, propext

## C45

- `Bf.C45_local`: Classical.choice, Quot.sound, propext
- `Bf.C45_range`: Classical.choice, Quot.sound, propext
- `Bf.C45_injective`: Classical.choice, Quot.sound, propext

## C46

- `Bf.C46_duplicate_rejected`: Classical.choice, Quot.sound, propext
- `Bf.C46_reserved_share`: Classical.choice, Quot.sound, propext

## C47

- `Bf.C47_whole`: Classical.choice, Quot.sound, propext
- `Bf.C47_field_partial`: Classical.choice, Quot.sound, propext
- `Bf.C47_ignored_partial`: Classical.choice, Quot.sound, propext
- `Bf.finding_private_accessor`: Classical.choice, Quot.sound, propext
- `Bf.finding_write_only_private`: Classical.choice, Quot.sound, propext
- `Bf.finding_ignored_private`: Classical.choice, Quot.sound, propext

## C48

- `Bf.C48_endian`: Classical.choice, Quot.sound, propext
- `Bf.C48_order`: Classical.choice, Quot.sound, propext

## C49

- `Bf.C49_shape`: Classical.choice, Quot.sound, propext

## C50

- `Bf.C50_items`: Classical.choice, Quot.sound, propext
- `Bf.C50_bitfield_partial`: Classical.choice, Quot.sound, propext
- `Bf.C50_builder`: Classical.choice, Quot.sound, propext
- `Bf.finding_name_clash`: Classical.choice, Quot.sound, propext
- `Bf.finding_name_clash_case`: Classical.choice, Quot.sound, propext

## C51

- `Bf.C51_enum`: Classical.choice, Quot.sound, propext

## C52

- `Bf.C52_accepted`: Classical.choice, Quot.sound, propext
- `Bf.C52_wf`: Classical.choice, Quot.sound, propext
- `Bf.C52_accessors`: Classical.choice, Quot.sound, propext
- `Bf.C52_new`: Classical.choice, Quot.sound, propext

## C53

- `Bf.C53_default_read_partial`: Classical.choice, Quot.sound, propext
- `Bf.Finding.finding_signed_default`: Classical.choice, Quot.sound, propext
- `Bf.Finding.finding_large_default`: Classical.choice, Quot.sound, propext

## C54

- `Bf.C54_call`: Classical.choice, Quot.sound, propext
- `Bf.C54_calls`: Classical.choice, Quot.sound, propext
- `Bf.C54_history`: Classical.choice, Quot.sound, propext
- `Bf.C54_make_partial`: Classical.choice, Quot.sound, propext
- `Bf.C54_builder_default_partial`: Classical.choice, Quot.sound, propext
- `Bf.C54_accessors`: Classical.choice, Quot.sound, propext
- `Bf.C54_new`: Classical.choice, Quot.sound, propext
- `Bf.Finding.finding_builder_read_only`: Classical.choice, Quot.sound, propext

## C55

- `Bf.C55_functions`: Classical.choice, Quot.sound, propext
- `Bf.C55_constants`: Classical.choice, Quot.sound, propext
- `Bf.C55_call`: Classical.choice, Quot.sound, propext
- `Bf.C55_make_partial`: Classical.choice, Quot.sound, propext
- `Bf.Finding.finding_builder_read_only`: Classical.choice, Quot.sound, propext

## C56

- `Bf.C56_form`: Classical.choice, Quot.sound, propext
- `Bf.C56_meaning`: Classical.choice, Quot.sound, propext
- `Bf.C56_accepted`: Classical.choice, Quot.sound, propext
- `Bf.C56_reported`: Classical.choice, Quot.sound, propext
- `Bf.C56_attributes`: Classical.choice, Quot.sound, propext
- `Bf.C56_enum`: Classical.choice, Quot.sound, propext

## C57

- `Bf.C57_reported_partial`: Classical.choice, Quot.sound, propext
- `Bf.C57_verdict_partial`: Classical.choice, Quot.sound, propext
- `Bf.C57_enum_partial`: Classical.choice, Quot.sound, propext
- `Bf.Finding.finding_expr_panics`: propext
- `Bf.Finding.finding_ignored_type_panics`: Classical.choice, Quot.sound, propext
- `Bf.Finding.finding_default_min`: Classical.choice, Quot.sound, propext
- `Bf.Finding.finding_wide_default_panics`: Classical.choice, Quot.sound, propext
- `Bf.Finding.finding_widths_wrap`: Classical.choice, Quot.sound, propext
- `Bf.finding_raw_field`: Classical.choice, Quot.sound, propext

## C58

- `Bf.C58_const`: Quot.sound, propext
- `Bf.C58_declared`: Classical.choice, Quot.sound, propext

## C59

- `Bf.C59_layout`: Classical.choice, Quot.sound, propext
- `Bf.C59_same`: Classical.choice, Quot.sound, propext
- `Bf.C59_reorder`: Classical.choice, Quot.sound, propext
- `Bf.C59_history`: Classical.choice, Quot.sound, propext
- `Bf.C59_make`: Classical.choice, Quot.sound, propext
- `Bf.C59_heap`: Classical.choice, Quot.sound, propext

## C60

- `Bf.C60_no_std_partial`: Classical.choice, Quot.sound, propext
- `Bf.C60_needs_std`: Classical.choice, Quot.sound, propext
- `Bf.C60_named`: Classical.choice, Quot.sound, propext
- `Bf.C60_no_alloc`: Classical.choice, Quot.sound, propext
- `Bf.C60_enum`: Classical.choice, Quot.sound, propext
- `Bf.Finding.finding_copy_needs_std`: Classical.choice, Quot.sound, propext

## C61

- `Bf.C61_items`: Classical.choice, Quot.sound, propext
- `Bf.C61_places`: Classical.choice, Quot.sound, propext
- `Bf.C61_struct`: Classical.choice, Quot.sound, propext
- `Bf.C61_members`: Classical.choice, Quot.sound, propext
- `Bf.C61_outcome`: Classical.choice, Quot.sound, propext
- `Bf.C61_verdict_partial`: Classical.choice, Quot.sound, propext
- `Bf.C61_enum`: Classical.choice, Quot.sound, propext
- `Bf.finding_generics_dropped`: propext
- `Bf.finding_raw_field`: Classical.choice, Quot.sound, propext

## C62

- `Bf.C62_visibility_partial`: Classical.choice, Quot.sound, propext
- `Bf.C62_struct_partial`: Classical.choice, Quot.sound, propext
- `Bf.C62_field_partial`: Classical.choice, Quot.sound, propext
- `Bf.finding_pub_in_path`: Classical.choice, Quot.sound, propext

## C63

- `Bf.C63_documented`: Classical.choice, Quot.sound, propext
- `Bf.C63_bits_partial`: Classical.choice, Quot.sound, propext
- `Bf.C63_text_partial`: Classical.choice, Quot.sound, propext
- `Bf.C63_constants_partial`: Quot.sound, propext
- `Bf.Finding.finding_array_docs`: propext
- `Bf.Finding.finding_sign_docs`: Quot.sound, propext

## C64

- `Bf.C64_typed_partial`: Classical.choice, Quot.sound, propext
- `Bf.C64_exact`: Classical.choice, Quot.sound, propext
- `Bf.C64_new`: Classical.choice, Quot.sound, propext
- `Bf.C64_literal`: propext
- `Bf.C64_constant`: Classical.choice, Quot.sound, propext
- `Bf.Finding.finding_const_default`: Classical.choice, Quot.sound, propext
- `Bf.Finding.finding_builder_read_only`: Classical.choice, Quot.sound, propext

## C65

- `Bf.C65_call`: Classical.choice, Quot.sound, propext
- `Bf.C65_history`: Classical.choice, Quot.sound, propext
- `Bf.C65_setter`: Classical.choice, Quot.sound, propext
- `Bf.C65_bits`: Classical.choice, Quot.sound, propext
- `Bf.C65_make`: Classical.choice, Quot.sound, propext

## C66

- `Bf.C66_array_get`: Classical.choice, Quot.sound, propext
- `Bf.C66_array_set`: Classical.choice, Quot.sound, propext
- `Bf.C66_array_wide`: Classical.choice, Quot.sound, propext
- `Bf.C66_custom_checked`: Classical.choice, Quot.sound, propext
- `Bf.C66_custom_wrapping`: Classical.choice, Quot.sound, propext
- `Bf.C66_unmade`: Classical.choice, Quot.sound, propext
- `Bf.C66_made`: Classical.choice, Quot.sound, propext

## C67

- `Bf.C67_active`: Quot.sound, propext
- `Bf.C67_groups_partial`: Classical.choice, Quot.sound, propext
- `Bf.C67_shape_partial`: Classical.choice, Quot.sound, propext
- `Bf.C67_values_partial`: Classical.choice, Quot.sound, propext
- `Bf.C67_bitflag_partial`: Classical.choice, Quot.sound, propext
- `Bf.C67_usual`: Classical.choice, Quot.sound, propext
- `Bf.C67_usual_bitflag`: Classical.choice, Quot.sound, propext
- `Bf.Finding.finding_features_ignored`: Classical.choice, Quot.sound, propext
- `Bf.Finding.finding_readme_features`: Classical.choice, Quot.sound, propext

## C68

- `Bf.Docs.C68_sections`: Classical.choice, Quot.sound, propext
- `Bf.Docs.C68_update`: Classical.choice, Quot.sound, propext
- `Bf.Docs.C68_idempotent`: Classical.choice, Quot.sound, propext
- `Bf.Docs.C68_replace`: Classical.choice, Quot.sound, propext
- `Bf.Docs.C68_files`: Classical.choice, Quot.sound, propext

## C69

- `Bf.Text.C69_parses_partial`: Classical.choice, Quot.sound, propext
- `Bf.Text.C69_unambiguous_partial`: Classical.choice, Quot.sound, propext
- `Bf.Text.C69_functions`: Quot.sound, propext
- `Bf.Text.C69_builder`: Quot.sound, propext
- `Bf.Text.C69_constants`: Classical.choice, Quot.sound, propext
- `Bf.Text.C69_every_function`: Classical.choice, Quot.sound, propext
- `Bf.Text.C69_no_other`: Classical.choice, Quot.sound, propext
- `Bf.Text.C69_struct`: Classical.choice, Quot.sound, propext
- `Bf.Text.C69_visibility`: Classical.choice, Quot.sound, propext
- `Bf.Text.finding_compound_default`: Classical.choice, Quot.sound, propext
- `Bf.Text.finding_ignored_array_text`: Classical.choice, Quot.sound, propext

## C70

- `Bf.Text.C70_parses_partial`: Quot.sound, propext
- `Bf.Text.C70_from_bits_partial`: Quot.sound, propext
- `Bf.Text.C70_into_bits_partial`: Classical.choice, Quot.sound, propext
- `Bf.Text.C70_panics`: none
- `Bf.Text.finding_computed_value`: Classical.choice, Quot.sound, propext

## C71

- `Bf.C71_true_partial`: Classical.choice, Quot.sound, propext
- `Bf.C71_short`: Classical.choice, Quot.sound, propext
- `Bf.C71_long`: Classical.choice, Quot.sound, propext
- `Bf.C71_bits_partial`: Classical.choice, Quot.sound, propext
- `Bf.C71_enum_partial`: Classical.choice, Quot.sound, propext
- `Bf.C71_shown_partial`: Classical.choice, Quot.sound, propext
- `Bf.C71_shown_enum_partial`: Classical.choice, Quot.sound, propext
- `Bf.Finding.finding_total_prefix`: Classical.choice, Quot.sound, propext
- `Bf.Finding.finding_max_wrapped`: Classical.choice, Quot.sound, propext

## C72

- `Bf.Text.C72_bitflag_partial`: Classical.choice, Quot.sound, propext
- `Bf.Text.C72_changes_only_mutable_partial`: Classical.choice, Quot.sound, propext
- `Bf.Text.C72_setters_listed`: Classical.choice, Quot.sound, propext
- `Bf.Text.finding_compound_default`: Classical.choice, Quot.sound, propext
- `Bf.Text.finding_ignored_array_text`: Classical.choice, Quot.sound, propext

## C73

- `Bf.Text.C73_bitflag_partial`: Classical.choice, Quot.sound, propext
- `Bf.Text.C73_nothing_used_after_move_partial`: Classical.choice, Quot.sound, propext
- `Bf.Text.C73_store_copy`: Classical.choice, Quot.sound, propext
- `Bf.Text.C73_into_takes`: Classical.choice, Quot.sound, propext
- `Bf.Text.finding_compound_default`: Classical.choice, Quot.sound, propext
- `Bf.Text.finding_ignored_array_text`: Classical.choice, Quot.sound, propext

## C74

- `Bf.C74_setters_reach`: Classical.choice, Quot.sound, propext
- `Bf.C74_reachable_iff`: Classical.choice, Quot.sound, propext
- `Bf.C74_getters_separate`: Classical.choice, Quot.sound, propext
- `Bf.C74_independent`: Classical.choice, Quot.sound, propext
- `Bf.C74_declared`: Classical.choice, Quot.sound, propext

## C75

- `Bf.C75_place`: Classical.choice, Quot.sound, propext
- `Bf.C75_interface`: Classical.choice, Quot.sound, propext
- `Bf.C75_calls`: Classical.choice, Quot.sound, propext
- `Bf.C75_data`: Classical.choice, Quot.sound, propext
- `Bf.C75_new`: Classical.choice, Quot.sound, propext
- `Bf.C75_grown_place`: Classical.choice, Quot.sound, propext
- `Bf.C75_grown`: Classical.choice, Quot.sound, propext

## C76

- `Bf.Text.C76_names_partial`: Classical.choice, Quot.sound, propext
- `Bf.Text.C76_bitflag_partial`: Classical.choice, Quot.sound, propext
- `Bf.Text.finding_unrooted`: Classical.choice, Quot.sound, propext
- `Bf.Text.finding_default_captured`: Classical.choice, Quot.sound, propext
- `Bf.Text.finding_compound_default`: Classical.choice, Quot.sound, propext
- `Bf.Text.finding_ignored_array_text`: Classical.choice, Quot.sound, propext

## C77

- `Bf.C77_text`: Classical.choice, Quot.sound, propext
- `Bf.C77_tells_apart`: Classical.choice, Quot.sound, propext
- `Bf.C77_values_partial`: Classical.choice, Quot.sound, propext
- `Bf.C77_emitted`: Classical.choice, Quot.sound, propext
- `Bf.finding_debug_value`: Classical.choice, Quot.sound, propext
- `Bf.finding_debug_hidden`: Classical.choice, Quot.sound, propext

## C78

- `Bf.Text.C78_words`: Classical.choice, Quot.sound, propext
- `Bf.Text.C78_bitflag_words`: Quot.sound, propext
- `Bf.Text.C78_unwanted`: Classical.choice, Quot.sound, propext
- `Bf.Text.C78_bitflag_unwanted`: Quot.sound, propext
- `Bf.Text.C78_filled`: Classical.choice, Quot.sound, propext

## C79

- `Bf.Text.C79_borrows_partial`: Classical.choice, Quot.sound, propext
- `Bf.Text.C79_returns_no_reference_partial`: Classical.choice, Quot.sound, propext
- `Bf.Text.C79_bitflag_partial`: Classical.choice, Quot.sound, propext
