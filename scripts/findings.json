{
 "C12": [
  "finding_checked_set_wide_type",
  "finding_checked_set_array"
 ],
 "C15": [
  "finding_default_not_new"
 ],
 "C23": [
  "finding_write_bytes_endian"
 ],
 "C26": [
  "finding_range_length_zero",
  "finding_range_sum_overflow"
 ],
 "C27": [
  "finding_checked_range_truncates"
 ],
 "C30": [
  "finding_inverted_signed"
 ],
 "C34": [
  "finding_range_length_zero",
  "finding_range_sum_overflow",
  "finding_array_too_wide",
  "finding_array_too_long",
  "finding_custom_too_wide"
 ],
 "C35": [
  "finding_backings_differ"
 ],
 "C08": [
  "finding_array_ragged",
  "finding_array_too_wide"
 ],
 "C01": [
  "finding_widths_wrap",
  "finding_storage_wraps"
 ],
 "C02": [
  "finding_widths_wrap"
 ],
 "C03": [
  "finding_widths_wrap",
  "finding_storage_wraps",
  "finding_default_min",
  "finding_default_wraps",
  "finding_expr_panics",
  "finding_literal_float_like",
  "finding_ignored_type_panics",
  "finding_bool_storage"
 ],
 "C04": [
  "finding_default_min",
  "finding_default_wraps"
 ],
 "C43": [
  "finding_literal_float_like",
  "finding_path_float_like",
  "finding_ident_as_literal",
  "finding_expr_panics"
 ],
 "C39": [
  "finding_write_flag_ignored"
 ],
 "C47": [
  "finding_private_accessor",
  "finding_write_only_private",
  "finding_ignored_private"
 ],
 "C41": [
  "finding_bitflag_type"
 ],
 "C38": [
  "finding_ignored_val",
  "finding_ignored_array"
 ],
 "C50": [
  "finding_name_clash",
  "finding_name_clash_case"
 ],
 "C36": [
  "finding_range_length_zero",
  "finding_range_sum_overflow",
  "finding_checked_set_wide_type",
  "finding_checked_set_array"
 ],
 "C53": [
  "finding_signed_default",
  "finding_large_default"
 ],
 "C54": [
  "finding_builder_read_only"
 ],
 "C55": [
  "finding_builder_read_only"
 ],
 "C57": [
  "finding_expr_panics",
  "finding_ignored_type_panics",
  "finding_default_min",
  "finding_wide_default_panics",
  "finding_widths_wrap",
  "finding_raw_field"
 ],
 "C60": [
  "finding_copy_needs_std"
 ],
 "C61": [
  "finding_generics_dropped",
  "finding_raw_field"
 ],
 "C62": [
  "finding_pub_in_path"
 ],
 "C63": [
  "finding_array_docs",
  "finding_sign_docs"
 ],
 "C64": [
  "finding_const_default",
  "finding_builder_read_only"
 ],
 "C67": [
  "finding_features_ignored",
  "finding_readme_features"
 ],
 "C69": [
  "finding_compound_default",
  "finding_ignored_array_text"
 ],
 "C70": [
  "finding_computed_value"
 ],
 "C71": [
  "finding_total_prefix",
  "finding_max_wrapped"
 ],
 "C72": [
  "finding_compound_default",
  "finding_ignored_array_text"
 ],
 "C73": [
  "finding_compound_default",
  "finding_ignored_array_text"
 ],
 "C76": [
  "finding_unrooted",
  "finding_default_captured",
  "finding_compound_default",
  "finding_ignored_array_text"
 ],
 "C77": [
  "finding_debug_value",
  "finding_debug_hidden"
 ]
}
