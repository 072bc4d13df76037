{"id": "C01", "title": "Accepted structs partition the backing storage", "statement": "Whenever the #[bitfield] macro accepts a struct, every bit of the backing type belongs to exactly one non-ignored field: the ranges OFFSET..OFFSET+BITS are inside the storage, pairwise disjoint, and together cover every bit.", "quantifier": "all struct declarations (any number, order, type and width of fields), all backing types, both bit orders", "why_tests_cant": "The space of declarations is unbounded; tests can only instantiate some layouts.", "anchors": ["bitfields_impl/src/parsing/bitfields/bitfield_parser.rs: parse_fields, calculate_field_offset, check_fields_fit_in_bitfield_type", "bitfields_impl/src/parsing/common/spanned_data_type.rs: DataType::bit_size"]}
{"id": "C02", "title": "Field order fixes the offsets", "statement": "With order=lsb the offset of a field is the sum of the widths of the fields declared before it; with order=msb it is the storage size minus the widths of that field and all fields before it. Hence the msb layout of a struct is the mirror image of the lsb layout of the same struct.", "quantifier": "all accepted declarations, both bit orders", "why_tests_cant": "Depends on every prefix of an arbitrary list of field widths.", "anchors": ["bitfields_impl/src/parsing/bitfields/bitfield_parser.rs: calculate_field_offset"]}
{"id": "C03", "title": "A struct is accepted only if widths are legal and total exactly the storage size", "statement": "The macro accepts a declaration if and only if: no two non-reserved names clash with a later field, every field has a width of at least one bit, integer and bool fields are no wider than their type, custom fields state a width, literal defaults fit, reserved fields state no access, and the widths sum to exactly the size of the backing type.", "quantifier": "all declarations", "why_tests_cant": "An iff over an infinite input space; tests only show some accepted and some rejected structs.", "anchors": ["bitfields_impl/src/parsing/bitfields/bitfield_parser.rs: parse_bitfield_struct, parse_field_helper, check_bits, check_field_data_type_can_hold_bits, check_fields_fit_in_bitfield_type"]}
{"id": "C04", "title": "Literal defaults that do not fit are rejected, ones that fit are accepted", "statement": "For an integer field of n bits, a non-negative literal default d is accepted exactly when d < 2^n; a negative literal -d is accepted exactly when the field type is signed and d <= 2^(n-1).", "quantifier": "all field widths 1..128, all literals representable in u128", "why_tests_cant": "2^128 literals times 128 widths times types.", "anchors": ["bitfields_impl/src/parsing/bitfields/bitfield_parser.rs: check_default_value_fit_in_field, min_max_for_bits"]}
{"id": "C05", "title": "Access and reserved-ness decide which accessors exist", "statement": "x() exists exactly for non-reserved ro/rw fields, set_x/checked_set_x/clear_x/invert_x exactly for non-reserved rw/wo fields, builder with_x for every non-reserved field; a reserved field (name starting with '_') never has any accessor, may not state an access, and a reserved field's bits are never writable through set_bit or range writes.", "quantifier": "all declarations and all access/reserved/default combinations", "why_tests_cant": "Decision table must hold for all combinations and names.", "anchors": ["bitfields_impl/src/parsing/bitfields/bitfield_parser.rs: get_field_access", "bitfields_impl/src/parsing/bitfields/bitfield.rs: has_setter, has_getter, has_read_access, has_constants", "bitfields_impl/src/generating/bitfield/features/builder_feature.rs: generate_builder_setters"]}
{"id": "C06", "title": "Unsigned set/get round trip truncates to the field width", "statement": "After set_x(v) on an unsigned integer field of n bits, x() returns v mod 2^n, for integer-backed and array-backed bitfields.", "quantifier": "all layouts, all stored states, all values v of the field type, both overflow-check modes", "why_tests_cant": "Values up to 2^128 times all offsets/widths/states.", "anchors": ["bitfields_impl/src/generating/bitfield/features/field_setters_feature.rs", "bitfields_impl/src/generating/bitfield/features/field_getters_feature.rs", "bitfields_impl/src/generating/bitfield/features/common/generator_helper.rs: generate_extract_field_bits_from_source_into_variable_tokens, generate_setting_field_without_setter_tokens"]}
{"id": "C07", "title": "Signed set/get round trip is two's complement", "statement": "After set_x(v) on a signed field of n bits, x() returns the unique value in -2^(n-1)..2^(n-1) congruent to v modulo 2^n; in particular it returns v itself whenever v fits.", "quantifier": "all layouts, states, signed field types and values", "why_tests_cant": "Sign extension must be right for every width and value.", "anchors": ["bitfields_impl/src/generating/bitfield/features/common/generator_helper.rs: generate_sign_extend_bit_operation_tokens", "bitfields_impl/src/generating/bitfield/features/field_getters_feature.rs"]}
{"id": "C08", "title": "Bool and byte-array set/get round trip", "statement": "After set_x(v) on a bool field x() returns v; after set_x(a) on a [u8; L] field whose width is 8*L bits x() returns a, for integer-backed and array-backed bitfields.", "quantifier": "all layouts, states and values", "why_tests_cant": "All byte arrays of any length at any bit offset.", "anchors": ["bitfields_impl/src/generating/bitfield/features/common/generator_helper.rs: generate_extract_field_bits_from_source_into_variable_tokens, generate_setting_field_without_setter_tokens", "bitfields_impl/src/generating/bitfield/features/field_getters_feature.rs: generate_value_return_tokens"]}
{"id": "C09", "title": "Custom-type set/get round trip through from_bits/into_bits", "statement": "For a custom-typed (or nested bitfield/bitflag) field, whenever the user's from_bits(v.into_bits() truncated to the field) gives back v for a value v, x() after set_x(v) returns v; the bits stored are v.into_bits().", "quantifier": "all layouts, states, user codecs and values", "why_tests_cant": "Quantifies over arbitrary user-supplied conversion functions.", "anchors": ["bitfields_impl/src/generating/bitfield/features/common/generator_helper.rs: get_value_variable_tokens, generate_setting_field_from_variable_tokens", "bitfields_impl/src/generating/bitfield/features/field_getters_feature.rs"]}
{"id": "C10", "title": "Setting a field changes no other bit", "statement": "set_x, checked_set_x, clear_x, invert_x and with_x change no bit outside OFFSET..OFFSET+BITS of x; in particular every other field's getter returns what it returned before.", "quantifier": "all accepted layouts, all pairs of distinct fields, all states and values", "why_tests_cant": "Independence of every pair of fields in every layout.", "anchors": ["bitfields_impl/src/generating/bitfield/features/common/generator_helper.rs: generate_setting_field_without_setter_tokens", "bitfields_impl/src/generating/bitfield/features/field_setters_feature.rs", "bitfields_impl/src/generating/bitfield/features/clear_bit_ops_feature.rs", "bitfields_impl/src/generating/bitfield/features/invert_bit_ops_feature.rs"]}
{"id": "C11", "title": "Setters are last-write-wins and commute across fields", "statement": "set_x(v); set_x(w) is the same as set_x(w); set_x(v); set_y(w) is the same as set_y(w); set_x(v) for distinct fields; writing back set_x(x()) to an integer field leaves the bitfield unchanged.", "quantifier": "all layouts, states, values, distinct field pairs", "why_tests_cant": "Algebraic laws over all states.", "anchors": ["bitfields_impl/src/generating/bitfield/features/field_setters_feature.rs", "bitfields_impl/src/generating/bitfield/features/field_getters_feature.rs"]}
{"id": "C12", "title": "Checked setters fail exactly when the value does not fit, and then change nothing", "statement": "checked_set_x(v) (and checked_with_x) returns Err exactly when v is not representable in the field's width, in which case the bitfield is unchanged; otherwise it returns Ok and has the effect of set_x(v).", "quantifier": "all layouts, states, field types and values", "why_tests_cant": "All values around every boundary at every width, including values wider than the storage.", "anchors": ["bitfields_impl/src/generating/bitfield/features/common/generator_helper.rs: generate_bit_size_check_tokens, generate_signed_bit_size_check_tokens, generate_setting_field_from_variable_tokens", "bitfields_impl/src/generating/bitfield/features/field_setters_feature.rs"]}
{"id": "C13", "title": "new() holds exactly the declared defaults", "statement": "new() yields a bitfield in which every field with a default holds that default (reserved and inaccessible ones included) and every other field's bits are zero.", "quantifier": "all accepted layouts with integer, bool and array fields; custom fields under the law from_bits(0).into_bits()=0", "why_tests_cant": "All layouts and default values.", "anchors": ["bitfields_impl/src/generating/bitfield/features/common/generator_helper.rs: generate_new_function_implementation_tokens, generate_setting_fields_to_default_value_tokens_list, generate_setting_fields_to_zero_tokens_list", "bitfields_impl/src/generating/bitfield/features/new_functions_feature.rs"]}
{"id": "C14", "title": "new_without_defaults() is zero except reserved fields with defaults", "statement": "new_without_defaults() yields zero in every field except reserved fields with a default, which hold the default.", "quantifier": "all accepted layouts", "why_tests_cant": "All layouts and default values.", "anchors": ["bitfields_impl/src/generating/bitfield/features/common/generator_helper.rs: generate_new_function_implementation_tokens", "bitfields_impl/src/generating/bitfield/features/new_functions_feature.rs"]}
{"id": "C15", "title": "Default::default() equals new()", "statement": "Default::default() produces the same bits as new(), whether or not generation of new is disabled.", "quantifier": "all layouts and configurations", "why_tests_cant": "Two code paths must agree for all layouts.", "anchors": ["bitfields_impl/src/generating/bitfield/features/default_trait_feature.rs", "bitfields_impl/src/generating/bitfield/features/common/generator_helper.rs: generate_new_function_implementation_tokens"]}
{"id": "C16", "title": "The builder is construction followed by field writes", "statement": "Builder::new() (resp. new_without_defaults()) followed by any sequence of with_x(v) and build() gives the bits of new() (resp. new_without_defaults()) with exactly those fields overwritten in order, including ro and na fields; checked_with_x errs exactly when checked_set_x would.", "quantifier": "all layouts, all sequences of builder calls", "why_tests_cant": "Unbounded builder chains over all layouts.", "anchors": ["bitfields_impl/src/generating/bitfield/features/builder_feature.rs", "bitfields_impl/src/generating/bitfield/features/common/generator_helper.rs: generate_builder_direct_setter_call_tokens"]}
{"id": "C17", "title": "from_bits/into_bits round trip", "statement": "For equal from/into endianness, T::from_bits(b).into_bits() == b and T::from_bits(t.into_bits()) == t; the same for bytes and for the explicit le/be variants.", "quantifier": "all layouts (custom fields under the codec law), all bit patterns of the storage", "why_tests_cant": "2^size patterns per layout, unbounded array sizes.", "anchors": ["bitfields_impl/src/generating/bitfield/features/from_into_bits_feature.rs", "bitfields_impl/src/generating/bitfield/features/from_traits_feature.rs", "bitfields_impl/src/generating/bitfield/features/common/generator_helper.rs: generate_extract_all_field_bits_from_variable_into_variable_tokens_and_set_fields_tokens"]}
{"id": "C18", "title": "Little/big endian variants are byte reversals of each other", "statement": "from_le_bits(b) == from_be_bits(b.swap_bytes()), into_le_bits() == into_be_bits().swap_bytes(); for arrays le and be differ by reversing the byte array; from_bits/into_bits/From use exactly the configured endianness; the two From impls agree with from_bits/into_bits (from_bytes/into_bytes).", "quantifier": "all layouts, patterns, endianness settings", "why_tests_cant": "All patterns and array lengths, incl. odd lengths for the in-place xor swap.", "anchors": ["bitfields_impl/src/generating/bitfield/features/from_into_bits_feature.rs", "bitfields_impl/src/generating/bitfield/features/from_traits_feature.rs", "bitfields_impl/src/generating/common/endian_conversion.rs"]}
{"id": "C19", "title": "from_bits_with_defaults takes defaults where declared and the input elsewhere", "statement": "In from_bits_with_defaults(b) (and le/be, bytes, slice variants) each field with a default holds its default and each other field holds its bits of b.", "quantifier": "all layouts, patterns", "why_tests_cant": "All layouts and patterns.", "anchors": ["bitfields_impl/src/generating/bitfield/features/from_into_bits_feature.rs", "bitfields_impl/src/generating/bitfield/features/common/generator_helper.rs: generate_setting_fields_to_default_value_tokens_list"]}
{"id": "C20", "title": "Slice conversions pad, truncate and report short slices", "statement": "from_slice of a slice of any length behaves as from_bytes of the slice truncated or zero-padded to N bytes; checked_from_slice errs exactly when the slice is shorter than N; into_slice overwrites exactly the first min(len,N) bytes with into_bytes and leaves the rest; checked_into_slice errs exactly when the slice is shorter than N and then leaves it untouched.", "quantifier": "all array-backed layouts, slices of any length and content", "why_tests_cant": "Unbounded slice lengths.", "anchors": ["bitfields_impl/src/generating/bitfield/features/from_into_bits_feature.rs: generate_array_backed_from_slice_tokens, generate_array_backed_into_slice_tokens"]}
{"id": "C21", "title": "write_bits replaces exactly the writable fields", "statement": "write_bits(b)/write_bytes(b) sets every field that has a setter to its bits of b (after endian conversion) and leaves every read-only, no-access and reserved bit unchanged.", "quantifier": "all layouts, states, patterns", "why_tests_cant": "All layouts, states and patterns.", "anchors": ["bitfields_impl/src/generating/bitfield/features/write_bit_ops_feature.rs", "bitfields_impl/src/generating/bitfield/features/common/generator_helper.rs: generate_extract_all_field_bits_from_variable_into_variable_tokens_and_set_fields_tokens"]}
{"id": "C22", "title": "write_defaults and *_with_defaults restore exactly the declared defaults", "statement": "write_defaults() puts every field with a default (of any access) at its default and changes no other bit; write_bits_with_defaults(b) is write_bits(b) followed by write_defaults().", "quantifier": "all layouts, states, patterns", "why_tests_cant": "All layouts and states.", "anchors": ["bitfields_impl/src/generating/bitfield/features/write_bit_ops_feature.rs", "bitfields_impl/src/generating/bitfield/features/common/generator_helper.rs: generate_setting_fields_to_default_value_tokens_list"]}
{"id": "C23", "title": "Explicit-endian writes agree with explicit-endian constructors", "statement": "write_le_bits(b) on a bitfield whose fields are all writable gives from_le_bits(b), and write_be_bits(b) gives from_be_bits(b); the same for write_le_bytes/from_le_bytes and write_be_bytes/from_be_bytes.", "quantifier": "all layouts, states, patterns", "why_tests_cant": "Consistency of two independently written code paths over all inputs.", "anchors": ["bitfields_impl/src/generating/bitfield/features/write_bit_ops_feature.rs: generate_bits_variable_endian_conversion_tokens", "bitfields_impl/src/generating/bitfield/features/from_into_bits_feature.rs"]}
{"id": "C24", "title": "get_bit/checked_get_bit read exactly the readable bits", "statement": "get_bit(i) is the stored bit i if i is in range and belongs to a readable field, else false; checked_get_bit(i) returns that bit, Err(offset) if i is out of range, Err(non-readable) if the field has no read access.", "quantifier": "all layouts, states and u32 offsets", "why_tests_cant": "All 2^32 offsets times layouts.", "anchors": ["bitfields_impl/src/generating/bitfield/features/set_get_bit_ops_feature.rs: generate_get_bit_ops_tokens, generate_field_bits_access_guard_tokens"]}
{"id": "C25", "title": "set_bit/checked_set_bit write exactly the writable bits", "statement": "set_bit(i,b) sets bit i to b if it is in range and in a field with a setter and otherwise changes nothing; checked_set_bit does the same or returns the matching Err, leaving the bitfield unchanged on Err.", "quantifier": "all layouts, states, offsets, bits", "why_tests_cant": "All offsets times layouts.", "anchors": ["bitfields_impl/src/generating/bitfield/features/set_get_bit_ops_feature.rs: generate_set_bit_ops_tokens"]}
{"id": "C26", "title": "Range reads return the readable bits of the range", "statement": "get_bits_range(o,n)/get_bytes_range(o,n) returns 0 when the range is not inside the storage, else the n bits from o with unreadable bits read as 0; the checked variant errs exactly when the range is out of bounds or touches an unreadable bit. It never panics.", "quantifier": "all layouts, states, u32 offsets and lengths", "why_tests_cant": "All pairs of u32 offset and length, including 0 and wrap-around.", "anchors": ["bitfields_impl/src/generating/bitfield/features/set_get_bit_ops_feature.rs: generate_get_bit_ops_tokens, generate_check_offset_and_length_bitfield_range_tokens"]}
{"id": "C27", "title": "Range writes change exactly the writable bits of the range", "statement": "set_bits_range(o,n,v)/set_bytes_range writes the low n bits of v to the writable bits of the range and changes nothing else, and nothing at all when the range is not inside the storage; the checked variant errs exactly when the range is out of bounds, touches a protected bit or (per its documentation) v does not fit in n bits, and then changes nothing. It never panics.", "quantifier": "all layouts, states, u32 offsets, lengths and values", "why_tests_cant": "All pairs of u32 offset and length and all values.", "anchors": ["bitfields_impl/src/generating/bitfield/features/set_get_bit_ops_feature.rs: generate_set_bit_ops_tokens"]}
{"id": "C28", "title": "Clear operations reset exactly what they document", "statement": "clear_bits()/clear_bytes() gives exactly new_without_defaults(); clear_bits_with_defaults() gives exactly new(); clear_x() zeroes exactly x; clear_x_to_default() sets exactly x to its default - from any state.", "quantifier": "all layouts and states", "why_tests_cant": "From every state of every layout.", "anchors": ["bitfields_impl/src/generating/bitfield/features/clear_bit_ops_feature.rs", "bitfields_impl/src/generating/bitfield/features/common/generator_helper.rs: generate_new_function_implementation_tokens"]}
{"id": "C29", "title": "Invert operations flip exactly the writable bits", "statement": "invert_bits()/invert_bytes() flips every bit of fields with a setter and no other bit, and is its own inverse; invert_x() flips exactly the bits of x and is its own inverse.", "quantifier": "all layouts (custom fields under the codec law) and states", "why_tests_cant": "All layouts and states.", "anchors": ["bitfields_impl/src/generating/bitfield/features/invert_bit_ops_feature.rs"]}
{"id": "C30", "title": "x_inverted() is what x() would be after invert_x()", "statement": "x_inverted() does not modify the bitfield and returns the value x() returns after invert_x().", "quantifier": "all layouts, states, readable and writable fields", "why_tests_cant": "All widths, values and types, including narrow signed fields.", "anchors": ["bitfields_impl/src/generating/bitfield/features/invert_bit_ops_feature.rs: generate_inverted_fields_getter_tokens, generate_value_to_field_tokens"]}
{"id": "C31", "title": "Protected bits survive every history of field, bit, range, write and invert operations", "statement": "Starting from any state, no sequence of set_x, checked_set_x, set_bit, checked_set_bit, range writes (checked or not), write_bits (any endianness), invert_bits, invert_x, clear_x and clear_x_to_default calls changes any bit of a read-only, no-access or reserved field. Only construction, clear_bits*, write_defaults and *_with_defaults may.", "quantifier": "all layouts, all states, all finite call sequences with all arguments", "why_tests_cant": "Unbounded histories.", "anchors": ["bitfields_impl/src/generating/bitfield/features/field_setters_feature.rs", "bitfields_impl/src/generating/bitfield/features/set_get_bit_ops_feature.rs", "bitfields_impl/src/generating/bitfield/features/write_bit_ops_feature.rs", "bitfields_impl/src/generating/bitfield/features/invert_bit_ops_feature.rs", "bitfields_impl/src/generating/bitfield/features/clear_bit_ops_feature.rs"]}
{"id": "C32", "title": "Reserved fields keep their default for the object's whole life", "statement": "A bitfield obtained from new(), new_without_defaults(), default(), a builder or from_bits_with_defaults keeps every reserved field with a default at that default, and every reserved field without a default of a bitfield obtained from new(), new_without_defaults() or a builder stays zero, after every sequence of operations of the API.", "quantifier": "all layouts, all finite histories of all mutating operations", "why_tests_cant": "Unbounded histories.", "anchors": ["bitfields_impl/src/generating/bitfield/features/common/generator_helper.rs: generate_new_function_implementation_tokens, generate_protected_bits_mask_tokens", "bitfields_impl/src/generating/bitfield/features/write_bit_ops_feature.rs", "bitfields_impl/src/generating/bitfield/features/clear_bit_ops_feature.rs"]}
{"id": "C33", "title": "Unreadable bits are never revealed by the read API", "statement": "Two bitfields that differ only in bits of write-only and no-access fields give identical results for every getter, x_inverted, get_bit, checked_get_bit, get range and checked get range call (non-interference); into_bits, From and Debug are the only ways to see them.", "quantifier": "all layouts, all pairs of states, all read calls and arguments", "why_tests_cant": "A two-run property over all states.", "anchors": ["bitfields_impl/src/generating/bitfield/features/field_getters_feature.rs", "bitfields_impl/src/generating/bitfield/features/set_get_bit_ops_feature.rs", "bitfields_impl/src/generating/bitfield/features/invert_bit_ops_feature.rs"]}
{"id": "C34", "title": "No generated operation panics on an accepted layout", "statement": "On every accepted layout no constructor, getter, setter, conversion, bit, range, clear, write or invert call panics (no overflowing shift, index out of bounds or arithmetic overflow), with overflow checks on or off, and the result does not depend on whether overflow checks are on.", "quantifier": "all accepted layouts, states, arguments and call histories", "why_tests_cant": "Panic freedom over all inputs.", "anchors": ["bitfields_impl/src/generating/bitfield/features/common/generator_helper.rs", "bitfields_impl/src/generating/bitfield/features/set_get_bit_ops_feature.rs", "bitfields_impl/src/generating/bitfield/features/from_into_bits_feature.rs"]}
{"id": "C35", "title": "Integer-backed and array-backed bitfields behave the same", "statement": "For the same fields, an unsigned-integer-backed bitfield and a [u8; N]-backed bitfield of the same size stay bit-for-bit equal (into_bits().to_le_bytes() == into_le_bytes()) and return equal results under every history of field, bit, range, clear and invert operations.", "quantifier": "all layouts expressible on both backings, all histories", "why_tests_cant": "Two independent code generators compared over unbounded histories.", "anchors": ["bitfields_impl/src/generating/bitfield/features/common/generator_helper.rs: generate_extract_field_bits_from_source_into_variable_tokens, generate_setting_field_without_setter_tokens, generate_protected_bits_mask_tokens", "bitfields_impl/src/generating/bitfield/features/set_get_bit_ops_feature.rs"]}
{"id": "C36", "title": "Every history of calls behaves like a simple array of bits", "statement": "A bitfield under any sequence of API calls is observationally equivalent to an abstract array of bits in which each call has its documented one-line effect.", "quantifier": "all layouts, initial states and finite call sequences, all arguments", "why_tests_cant": "Refinement over unbounded histories.", "anchors": ["bitfields_impl/src/generating/bitfield/features/common/generator_helper.rs", "bitfields_impl/src/generating/bitfield/features/set_get_bit_ops_feature.rs", "bitfields_impl/src/generating/bitfield/features/write_bit_ops_feature.rs", "bitfields_impl/src/generating/bitfield/features/clear_bit_ops_feature.rs", "bitfields_impl/src/generating/bitfield/features/invert_bit_ops_feature.rs"]}
{"id": "C37", "title": "Field constants describe where the getter reads", "statement": "For every field with constants, X_OFFSET + X_BITS is at most the storage size, and for a readable unsigned field get_bits_range(X_OFFSET, X_BITS) equals x(); writing with set_bits_range(X_OFFSET, X_BITS, v) on a writable unsigned field equals set_x(v).", "quantifier": "all layouts, states, values", "why_tests_cant": "Two code paths over all layouts, states and values.", "anchors": ["bitfields_impl/src/generating/bitfield/features/field_constants_feature.rs", "bitfields_impl/src/generating/bitfield/features/set_get_bit_ops_feature.rs", "bitfields_impl/src/generating/bitfield/features/field_getters_feature.rs"]}
{"id": "C38", "title": "Ignored fields are untouched and do not affect the bits", "statement": "Ignored fields take no bits of the layout, start at their Default value, and no generated operation changes them; conversely their presence and values do not affect any generated operation on the bits.", "quantifier": "all declarations with ignored fields, all histories", "why_tests_cant": "Unbounded declarations and histories.", "anchors": ["bitfields_impl/src/parsing/bitfields/bitfield_parser.rs: parse_ignored_field, parse_fields", "bitfields_impl/src/generating/bitfield/features/common/generator_helper.rs: generate_bitfield_struct_initialization_tokens, generate_ignored_fields_default_calls_token_list"]}
{"id": "C39", "title": "Feature switches: arguments override Cargo features, the last one wins, and bit_ops is a master switch", "statement": "Each operation group is generated exactly when its own flag says so: without an argument the Cargo feature default (enabled unless only the disable feature is set) applies, a #[bitfield] argument overrides it, the last of repeated arguments wins, and with bit_ops=false a bit operation group is generated only if its own argument is explicitly true.", "quantifier": "all argument lists and Cargo feature combinations", "why_tests_cant": "Exponentially many configurations, unbounded argument lists.", "anchors": ["bitfields_impl/src/parsing/bitfields/bitfield_attribute/bitfield_arguments.rs: Default, parse, resolve_bool_feature, resolve_bit_order_feature", "bitfields_impl/src/parsing/common/conversion_endian.rs: resolve_endian_feature", "bitfields_impl/src/generating/bitfield/feature.rs: is_bit_ops_feature_enabled", "bitfields_impl/src/generating/bitfield/features/write_bit_ops_feature.rs: enabled"]}
{"id": "C40", "title": "Bitflag conversions are total and round trip", "statement": "A #[bitflag] enum's from_bits maps each variant's value to that variant and any other value to the #[base] variant (else the first #[default] variant), for every bit pattern; from_bits(v.into_bits()) == v for every variant when from_endian and into_endian agree; into_bits(from_bits(b)) == b whenever b is a variant's value.", "quantifier": "all accepted enums, all bit patterns, all endianness settings", "why_tests_cant": "All enums and up to 2^128 patterns.", "anchors": ["bitfields_impl/src/generating/bitflag/bitflag_generator.rs", "bitfields_impl/src/parsing/bitflags/bitflag_parser.rs: check_base_bitflag_variants"]}
{"id": "C41", "title": "Bitflag enum acceptance", "statement": "A bitflag enum is accepted exactly when every variant has an explicit value, at most one variant is #[base], at least one variant is #[base] or #[default], and the type is a supported unsigned integer; generation then never hits the 'no base or default' panic.", "quantifier": "all enum declarations", "why_tests_cant": "Unbounded declarations.", "anchors": ["bitfields_impl/src/parsing/bitflags/bitflag_parser.rs", "bitfields_impl/src/parsing/bitflags/bitflag_attribute_parser.rs", "bitfields_impl/src/generating/bitflag/bitflag_generator.rs: generate_match_cases_tokens_list"]}
{"id": "C42", "title": "Nested bitfields and bitflag fields round trip", "statement": "A bitfield or bitflag used as the type of a field satisfies the codec law: setting the field to a nested value and reading it back gives a nested value with equal bits, when its bits fit in the field.", "quantifier": "all outer and inner layouts, all nested values", "why_tests_cant": "All combinations of layouts and values.", "anchors": ["bitfields_impl/src/generating/bitfield/features/from_into_bits_feature.rs", "bitfields_impl/src/generating/bitfield/features/common/generator_helper.rs: get_value_variable_tokens", "bitfields_impl/src/generating/bitflag/bitflag_generator.rs"]}
{"id": "C43", "title": "Default literals are read with their Rust value", "statement": "A default written as a decimal, 0x, 0b or 0o integer literal, with any underscores, letter case, type suffix and leading minus sign, is checked against the field using exactly the value Rust gives that literal; true/false count as 1/0; anything else that is not a float is passed through to the compiler unchecked.", "quantifier": "all literal spellings", "why_tests_cant": "Unbounded strings.", "anchors": ["bitfields_impl/src/parsing/common/const_expr.rs: ConstExpr::new, parse_integer, strip_integer_suffix, parse_integer_helper, check_float"]}
{"id": "C44", "title": "Debug shows every field's stored bits in declaration order", "statement": "The Debug output lists every non-ignored field once, in declaration order, with the number formed by its stored bits (for byte-array fields of array-backed bitfields: the bytes).", "quantifier": "all layouts and states", "why_tests_cant": "All layouts and states.", "anchors": ["bitfields_impl/src/generating/bitfield/features/debug_trait_feature.rs"]}
{"id": "C45", "title": "Every readable value is produced by exactly the bits of its field", "statement": "x() depends only on the bits OFFSET..OFFSET+BITS, is always a value representable in BITS bits of the field type, and two states giving the same x() for an integer field have the same bits there.", "quantifier": "all layouts, states and integer, bool and array fields", "why_tests_cant": "All layouts and states.", "anchors": ["bitfields_impl/src/generating/bitfield/features/field_getters_feature.rs", "bitfields_impl/src/generating/bitfield/features/common/generator_helper.rs: generate_extract_field_bits_from_source_into_variable_tokens"]}
{"id": "C46", "title": "Duplicate field names are rejected", "statement": "A struct in which a non-reserved field's name occurs again later is rejected; reserved fields may share a name.", "quantifier": "all declarations", "why_tests_cant": "Unbounded declarations.", "anchors": ["bitfields_impl/src/parsing/bitfields/bitfield_parser.rs: parse_fields"]}
{"id": "C47", "title": "Visibility of the generated items", "statement": "The generated struct and the functions that belong to no field have the visibility of the declared struct; the constants, getter and setters of a field have the visibility written on the field; ignored fields keep theirs.", "quantifier": "all accepted declarations, fields and visibilities", "why_tests_cant": "Every combination of struct visibility, field visibility and access would have to be compiled.", "anchors": ["bitfields_impl/src/lib.rs: docs 'Visibility', 'Ignored Fields'", "bitfields_impl/src/parsing/bitfields/bitfield.rs: Field::visibility", "bitfields_impl/src/parsing/bitfields/bitfield_parser.rs: get_field_visibility"]}
{"id": "C48", "title": "Field order and byte orders: the last argument wins, else the Cargo features decide", "statement": "The field order and the byte orders of from_*, into_* and write_* are those of the last order, from_endian, into_endian and write_endian argument; without an argument, those of the Cargo features (big endian and lsb unless only the other feature is active).", "quantifier": "all accepted declarations, argument lists and sets of Cargo features", "why_tests_cant": "Unbounded argument lists; a test build has one set of Cargo features.", "anchors": ["bitfields_impl/src/parsing/bitfields/bitfield_attribute/bitfield_arguments.rs: BitfieldArguments", "bitfields_impl/src/parsing/common/conversion_endian.rs: resolve_endian_feature"]}
{"id": "C49", "title": "Representation of the generated struct", "statement": "The struct is repr(transparent) around its storage exactly if it has no ignored field; the storage is boxed exactly if it is an array and array_heap is on; Clone is derived exactly if copy is on, and Copy too unless the storage is boxed; functions are const exactly if there is no ignored field and the storage is not boxed; the remaining members are the ignored fields in order.", "quantifier": "all accepted declarations, argument lists and sets of Cargo features", "why_tests_cant": "A test compiles one declaration under one set of Cargo features.", "anchors": ["bitfields_impl/src/generating/bitfield/features/bitfield_struct_feature.rs", "bitfields_impl/src/generating/bitfield/features/common/generator_helper.rs"]}
{"id": "C50", "title": "Generated names do not clash", "statement": "No item is generated twice, no two functions of the builder have the same name, and, if the field names keep out of the way of generated names (snake case, not starting with set_, checked_set_, clear_ or invert_, not ending with _inverted or _to_default, not named after a whole-bitfield function), no two functions or constants of the bitfield have the same name, so the expansion of an accepted struct does not fail on duplicate definitions.", "quantifier": "all accepted declarations, argument lists and sets of Cargo features", "why_tests_cant": "Field names are arbitrary identifiers; a test compiles a few.", "anchors": ["bitfields_impl/src/generating/bitfield/features/common/naming_extensions.rs", "bitfields_impl/src/generating/bitfield/bitfield_generator.rs", "bitfields_impl/src/generating/bitfield/features/builder_feature.rs"]}
{"id": "C51", "title": "The generated bitflag enum is the declared one", "statement": "The enum generated by #[bitflag] keeps its visibility and its variants in order with their values; its attributes are kept except that #[base] is removed; it is repr(T) for the stated type T, and derives Copy and Clone exactly if copy is on.", "quantifier": "all accepted bitflag declarations and sets of Cargo features", "why_tests_cant": "Unbounded set of enum declarations; a test build has one set of Cargo features.", "anchors": ["bitfields_impl/src/generating/bitflag/bitflag_generator.rs", "bitfields_impl/src/parsing/bitflags/bitflag_parser.rs"]}
{"id": "C52", "title": "A declared struct behaves as declared", "statement": "A legal declaration (types supported, widths positive and within the type, defaults fitting, names distinct, widths summing up to the storage) is accepted by the macro. If the generated code compiles and array and custom fields have a supported shape, then the getter of every declared field returns the value of its type formed by exactly the bits at the declared position (sum of the widths of the fields before it, from the bottom for lsb order and from the top for msb order), its setter changes exactly these bits, and new() succeeds and gives every field its declared default or zeros.", "quantifier": "all legal struct declarations (any number of fields, widths, types, accesses, defaults, ignored fields), argument lists, Cargo features, overflow modes of macro and program, stored values and arguments", "why_tests_cant": "Tests fix one declaration each; the property relates every declaration to the run-time behaviour of the code generated for it.", "anchors": ["bitfields_impl/src/parsing/bitfields/bitfield_parser.rs: parse_bitfield_struct, calculate_field_offset", "bitfields_impl/src/generating/bitfield/features/field_getters_feature.rs", "bitfields_impl/src/generating/bitfield/features/field_setters_feature.rs", "bitfields_impl/src/generating/bitfield/features/new_functions_feature.rs"]}
{"id": "C53", "title": "A declared literal default is what the getter returns after new()", "statement": "If a field is declared with a literal default, then the getter of that field returns this literal (the number, or the truth value for bool) on the value returned by new(); without a default it returns 0 or false.", "quantifier": "all legal struct declarations, integer literals in any radix, overflow modes of macro and program", "why_tests_cant": "The literal passes through the macro's own literal parser and range check, rustc, the setter and the getter; agreement of all of them for every literal, type and width is not a finite check.", "anchors": ["bitfields_impl/src/parsing/bitfields/bitfield_parser.rs: check_default_value_fit_in_field, min_max_for_bits", "bitfields_impl/src/parsing/common/const_expr.rs", "bitfields_impl/src/generating/bitfield/features/new_functions_feature.rs"]}
{"id": "C54", "title": "The emitted Rust code behaves as the interface promises", "statement": "For every accepted, legal declaration, running the Rust code the macro emits gives the promised results: every sequence of calls of emitted functions returns what the abstract bit machine returns and leaves the bits it leaves; the emitted getter of a declared field returns the value at the declared bits, the emitted setter changes exactly these bits, and the emitted constructors, conversions and builders produce the promised value.", "quantifier": "all legal struct declarations, argument lists, Cargo features, overflow modes of macro and program, histories of calls, argument values and stored values", "why_tests_cant": "The emitted code is different for every declaration (types, widths, offsets, access, storage); a test runs the code of one declaration on a few values.", "anchors": ["bitfields_impl/src/generating/common/generator_helper.rs", "bitfields_impl/src/generating/bitfield/features/*.rs", "bitfields_impl/src/generating/bitfield/bitfield_generator.rs: generate_features"]}
{"id": "C55", "title": "The emitted code is complete and well formed", "statement": "Exactly the functions of the promised interface are emitted, none twice; the emitted constants of a field are its declared width and position; no emitted function refers to a name that does not exist or uses a value at a wrong type, and every loop ends, so that every call returns or panics.", "quantifier": "all legal struct declarations, argument lists, Cargo features, overflow modes, calls of emitted functions with arguments of their types, stored values", "why_tests_cant": "Whether emitted code resolves its names and ends its loops depends on the declaration, of which there are unboundedly many; a test compiles one.", "anchors": ["bitfields_impl/src/generating/common/generator_helper.rs: get_bitfield_reference_tokens, generate_setting_field_without_setter_tokens", "bitfields_impl/src/generating/bitfield/features/builder_feature.rs", "bitfields_impl/src/generating/bitfield/features/field_constants_feature.rs"]}
{"id": "C56", "title": "Attributes are read strictly and the way of writing does not matter", "statement": "The macros accept only attributes made of known `key = value` arguments whose values are of the right kind (true/false; lsb/msb, little/big and ro/wo/rw/na in any case), separated by commas with an optional trailing one; anything else in #[bitfield(..)] is reported as an error, not a panic. Upper or lower case of these words, optional commas, attributes other than the first #[bits] of a field (e.g. doc comments) do not change what is generated. With overflow checks in the macro, a declaration is accepted exactly if it is a way of writing a legal struct.", "quantifier": "all token sequences of the attributes, all struct and enum declarations, Cargo features", "why_tests_cant": "The inputs are arbitrary token sequences; tests try a handful of malformed ones and cannot show that no malformed attribute is silently accepted.", "anchors": ["bitfields_impl/src/parsing/common/attribute_argument_parser.rs: parse_attribute_arguments, parse_boolean_attribute_argument", "bitfields_impl/src/parsing/bitfields/bitfield_attribute/bitfield_arguments.rs: BitfieldArguments::parse, BitOrder::from_str", "bitfields_impl/src/parsing/bitfields/bits_attribute/bits_attribute_parser.rs: parse_bits", "bitfields_impl/src/parsing/bitfields/bitfield_parser.rs: get_bits_attribute", "bitfields_impl/src/parsing/common/conversion_endian.rs: ConversionEndian::from_str"]}
{"id": "C57", "title": "What is wrong with a declaration is reported, the macro does not fail internally", "statement": "Whatever is written in the attributes and fields of a struct, or in the attribute and variants of an enum, the macro either accepts it or reports an error message about it; it does not panic. A declaration that is not a way of writing a legal struct is reported.", "quantifier": "all struct and enum declarations, well-formed or not: any token sequences in the attributes, any types, any number of fields and variants; all Cargo features, macro crate compiled with or without overflow checks", "why_tests_cant": "The inputs are arbitrary token sequences and declarations; a panic may hide in the arithmetic on any combination of width, type, default and order.", "anchors": ["bitfields_impl/src/lib.rs: start_bitfield_generation, start_bitflag_generation, catch_panics", "bitfields_impl/src/parsing/bitfields/bitfield_parser.rs: parse_field_helper, parse_ignored_field, check_bits, check_default_value_fit_in_field, min_max_for_bits, calculate_field_offset", "bitfields_impl/src/parsing/common/const_expr.rs: ConstExpr::new", "bitfields_impl/src/parsing/bitflags/bitflag_parser.rs"]}
{"id": "C58", "title": "The generated functions can be used in const contexts", "statement": "For a bitfield without ignored fields that is not stored in a heap array, every generated function that does not implement a trait (constructors, builder, accessors, conversions, bit, range, write, clear and invert operations) is a const fn, and its body uses only what is allowed in one: no calls of trait methods and no calls of functions that are not const themselves, provided the user's from_bits, into_bits and default expressions are const.", "quantifier": "all accepted struct declarations: any fields, widths, types, accesses, defaults, backing types, arguments", "why_tests_cant": "Each declaration generates its own code; a body that is not allowed in a const fn may appear only for one combination of access, type, backing and arguments, and tests compile a fixed set of structs.", "anchors": ["bitfields_impl/src/generating/bitfield/features/common/generator_helper.rs: get_function_modifier_tokens, supports_const_mut_refs", "bitfields_impl/src/generating/bitfield/features/set_get_bit_ops_feature.rs: generate_field_bits_access_guard_tokens", "bitfields_impl/src/generating/bitfield/features/*.rs: generate_feature"]}
{"id": "C59", "title": "Arguments change only what they are documented to change", "statement": "Only the last argument about each key counts, and arguments with different keys can be written in any order. Only order bears on which declarations are accepted, on the errors reported and on the layout. The arguments that switch groups of functions on and off, copy and array_heap do not change what any function that is still generated (and compiles) returns or stores: in particular moving an array-backed bitfield to the heap is not observable through its functions, and array_heap changes neither the generated items nor their visibilities.", "quantifier": "all struct declarations, all pairs of argument lists of any length that agree on the keys in question, all sequences of calls with any arguments, all stored values, with and without overflow checks", "why_tests_cant": "There are infinitely many pairs of argument lists and declarations, and equality of behaviour ranges over all histories of calls; tests run a few structs with a few argument combinations.", "anchors": ["bitfields_impl/src/parsing/bitfields/bitfield_attribute/bitfield_arguments.rs: BitfieldArguments, apply arguments", "bitfields_impl/src/generating/bitfield/features/bitfield_struct_feature.rs: get_backing_field_type_tokens", "bitfields_impl/src/generating/bitfield/features/common/generator_helper.rs: Box::new initialisation, dereferences of the boxed array"]}
{"id": "C60", "title": "Generated code works without std and does not allocate", "statement": "The code generated for a bitfield that is not stored on the heap, and for a bitflag, names nothing outside of core, so that it compiles in a no_std crate, and names nothing that allocates.", "quantifier": "all accepted struct and enum declarations with any fields, types, arguments and Cargo features", "why_tests_cant": "Each declaration generates its own code, so a path into std may appear for one combination of arguments only; the tests of the crate are compiled with std.", "anchors": ["README.md: no_std Compatible, zero allocations", "bitfields_impl/src/generating/bitfield/features/bitfield_struct_feature.rs: get_default_attributes, get_backing_field_type_tokens", "bitfields_impl/src/generating/bitfield/features/common/generator_helper.rs: Box::new", "bitfields_impl/src/generating/bitflag/bitflag_generator.rs: generate_copy_derive_tokens", "bitfields_impl/src/generating/bitfield/features/*.rs: paths in signatures and impl heads"]}
{"id": "C61", "title": "The macro's output is one well-placed copy of everything it announces, or an error", "statement": "For every declaration the output of the macro is either code or one compile error, never a panic of the compiler, and the error is an internal one only if the macro panicked. The code contains every generated item exactly once: the struct first, then one impl block with exactly the functions and constants of the bitfield, then trait implementations and the builder. The printed struct has the declared name and generic parameters, keeps all attributes of the declared struct in their order, and carries repr(transparent) exactly if no field is ignored.", "quantifier": "all struct and enum declarations as written, legal or not, all arguments and Cargo features, all attributes and names", "why_tests_cant": "Which items are printed, and where, depends on every combination of arguments, fields and accesses, and the inputs on which the macro may panic are unbounded; tests compile a fixed set of structs.", "anchors": ["bitfields_impl/src/lib.rs: bitfield, bitflag, catch_panics", "bitfields_impl/src/generating/bitfield/bitfield_generator.rs: generate_bitfield, get_enabled_features, generate_features, do_generate_bitfield", "bitfields_impl/src/generating/bitfield/features/*.rs: feature_position, order_priority", "bitfields_impl/src/generating/bitfield/features/bitfield_struct_feature.rs: get_default_attributes, generate_struct_attributes_tokens"]}
{"id": "C62", "title": "Generated items are visible exactly where the declaration says", "statement": "The visibility that is printed for the struct, the builder, the functions and the accessors means the same as the visibility written in the declaration: the items can be used in exactly the same modules, in whichever module the struct is declared.", "quantifier": "all visibilities (none, pub, pub(crate), pub(self), pub(super), pub(in path) with any path), all modules, all accepted struct declarations", "why_tests_cant": "Paths and module trees are unbounded, and a test inside the crate cannot observe that an item is not visible elsewhere.", "anchors": ["bitfields_impl/src/parsing/common/visibility.rs: Visibility::new, to_tokens", "bitfields_impl/src/parsing/bitfields/bitfield.rs: Field::visibility", "bitfields_impl/src/generating/bitfield/features/*.rs: visibility_tokens"]}
{"id": "C63", "title": "Generated documentation names the right bits", "statement": "Every function generated for a field has a documentation comment that says what the function does and names exactly the bits (first and last, in the order of the layout) that the field occupies in the declared layout; the comments of the constants say that they are in bits.", "quantifier": "all accepted struct declarations, all fields, widths, orders and accesses", "why_tests_cant": "The comments are computed from offsets that depend on all other fields; they are not observable at run time, and a reader relies on them for every struct.", "anchors": ["bitfields_impl/src/generating/bitfield/features/common/generator_helper.rs: get_setter_documentation, get_field_unit_terms", "bitfields_impl/src/generating/bitfield/features/field_getters_feature.rs: get_getter_documentation", "bitfields_impl/src/generating/bitfield/features/clear_bit_ops_feature.rs: get_clear_field_documentation", "bitfields_impl/src/generating/bitfield/features/invert_bit_ops_feature.rs: get_invert_field_documentation", "bitfields_impl/src/generating/bitfield/features/field_constants_feature.rs"]}
{"id": "C64", "title": "The generated code type-checks", "statement": "In the code generated for an accepted declaration, every variable, constant and function that is used is declared, and every operand, argument, assigned value and returned value has the type required at its place, for every storage type (integers, byte arrays, boxed byte arrays), field type, access and set of options, provided each default has a type that suits its field; a default suits if it is a literal that fits, or (for integer fields that cannot be written, in an integer storage) has the storage type. `new` type-checks exactly when all defaults suit.", "quantifier": "all accepted struct declarations, all argument lists, all generated functions, all default expressions", "why_tests_cant": "Whether generated code compiles depends on the combination of storage type, field types, widths, accesses, options and default expressions; tests compile some combinations only, and a declaration the macro accepts can still fail to compile.", "anchors": ["bitfields_impl/src/generating/bitfield/features/common/generator_helper.rs", "bitfields_impl/src/generating/bitfield/features/*.rs: all generate_* functions", "bitfields_impl/src/generating/bitfield/bitfield_generator.rs: generate_features"]}
{"id": "C65", "title": "What holds for every accepted layout", "statement": "For every layout the macro accepts and whose generated code compiles, including those whose accessors do not work as declared: a call that returns changes no bit other than those it is meant to change (the bits of the field for functions of a field, writable bits in the range for functions on bits, writable bits for writes, bits of fields with defaults when defaults are restored), so a setter never changes another field, also after any sequence of calls; functions on single bits, ranges and the whole value do exactly what is specified; bitfields that are made have the declared storage type.", "quantifier": "all accepted struct declarations that compile, supported or not, all argument lists, all stored values, all arguments, all sequences of calls, both overflow modes", "why_tests_cant": "Isolation must hold for every combination of shapes, widths, offsets, stored values and arguments; the shapes the generated code does not handle are not tested at all.", "anchors": ["bitfields_impl/src/generating/bitfield/features/common/generator_helper.rs: generate_setting_field_from_variable_tokens, generate_extract_field_bits_from_source_into_variable_tokens, generate_protected_bits_mask_tokens", "bitfields_impl/src/generating/bitfield/features/*.rs", "bitfields_impl/src/parsing/bitfields/"]}
{"id": "C66", "title": "What accessors of unsupported shapes do", "statement": "For the shapes of fields that the macro accepts but does not handle, the generated code does exactly this. A byte array in an integer: the getter returns the bits of the field cut to the array, the setter stores only the whole bytes that fit and clears the rest of the field; if the array has more than 16 bytes the getter panics with overflow checks and repeats the first 16 bytes without them. A byte array with fewer bits than its field, in a byte array: getter and setter always panic. A user type in more than 128 bits: with overflow checks getter and setter panic; without them the getter converts the bits put over one another in steps of 128 and the setter truncates the value to width mod 128 bits and stores the 128 bits of the result repeatedly. If one field panics in this way, no constructor, conversion or builder of the bitfield returns one; and new(), new_without_defaults() and from_bits() return one exactly if no field does.", "quantifier": "all accepted struct declarations that compile, all such fields at all offsets and widths, all stored values, all arguments, all constructors and conversions, both overflow modes", "why_tests_cant": "No test uses these shapes; what happens depends on every combination of width, array length, storage and overflow mode.", "anchors": ["bitfields_impl/src/generating/bitfield/features/common/generator_helper.rs: generate_extract_field_bits_from_source_into_variable_tokens, generate_setting_field_from_variable_tokens, generate_setting_field_without_setter_tokens", "bitfields_impl/src/generating/bitfield/features/field_getters_feature.rs", "bitfields_impl/src/generating/bitfield/features/field_setters_feature.rs", "bitfields_impl/src/parsing/bitfields/"]}
{"id": "C67", "title": "Cargo features set the defaults of the arguments", "statement": "An argument of #[bitfield] or #[bitflag] that is not given has the value chosen by the Cargo features asked for in the build: with default features switched off, a feature such as disable_builder, order_msb or from_endian_little changes the default for all declarations, and the features of all crates in the build count together. Which features reach the macro: exactly those asked of the macro package itself, plus the default ones if any crate depends on the bitfields package or leaves the defaults of the macro package on.", "quantifier": "all sets of dependencies of all crates in a build (package, default features on or off, features), all declarations", "why_tests_cant": "Features are fixed when the test is compiled, and are united over all crates of a build; the tests of a workspace see one combination.", "anchors": ["bitfields/Cargo.toml: [dependencies], [features]", "bitfields_impl/Cargo.toml: [features]", "bitfields_impl/src/parsing/bitfields/bitfield_attribute/bitfield_arguments.rs", "bitfields_impl/src/parsing/bitflags/bitflag_arguments.rs", "README.md: Global Cargo Feature Flags"]}
{"id": "C68", "title": "The build script copies the README into the documentation and nothing else", "statement": "With UPDATE_DOCS set, the build script replaces in the macro crate's source exactly the text between the documentation tags by comment lines that show the tagged sections of the README in order (trimmed, an empty line between two, the import line added after each line that begins a Rust example); everything else in the file stays, and no text of the README becomes code. Running it again changes nothing, so the check that the documentation is up to date succeeds after an update, provided no section has a start tag in it. Without UPDATE_DOCS no file changes; the README never changes; if the script fails no file has changed.", "quantifier": "all README texts, all source files with places for the two documentations, both values of the environment variable, missing or unwritable files", "why_tests_cant": "The script has no tests; it must be right for every future README and source file, with tags nested, missing, repeated or unclosed.", "anchors": ["bitfields/build.rs: main, extract_content, inject_rust_block_prelude, format_as_doc_comments, replace_between_tags, update_lib_docs", ".github/workflows/docs-up-to-date.yml"]}
{"id": "C69", "title": "The code a compiler reads is the code the other properties are about", "statement": "For every accepted bitfield and all its options, the text the macro prints is well-formed Rust, and a compiler that reads it by Rust's grammar (operator precedence, `as`, blocks, calls, paths, struct literals) finds exactly: the struct with its attributes, one impl block with the constants and the functions of the enabled features in order, the trait impls and the builder, each with the visibility, receiver, parameters, result type and body of the function whose behaviour the other properties describe. No function is missing, none is added, and no operator binds differently from what is meant, provided each default expression is a literal, a path, a call or an array and no ignored field is an array.", "quantifier": "all layouts, storage types, names, visibilities, attributes, options, ignored fields, and default expressions of the stated forms", "why_tests_cant": "Precedence mistakes in spliced token streams show only for particular combinations of field type, storage, access and default; there is an unbounded number of structs, and a test compiles one.", "anchors": ["bitfields_impl/src/generating/bitfield/bitfield_generator.rs: do_generate_bitfield", "bitfields_impl/src/generating/bitfield/features/*: every quote! template", "bitfields_impl/src/generating/bitfield/features/common/generator_helper.rs"]}
{"id": "C70", "title": "The code a compiler reads for a bitflag enum is the code the other properties are about", "statement": "For every accepted bitflag enum, the text the macro prints is well-formed Rust, and a compiler that reads it by Rust's grammar finds exactly: the enum with `repr` of the chosen type, the optional derive and the user's attributes, every variant with its remaining attributes, name and discriminant, in order; and one impl block with `const fn from_bits` and `const fn into_bits` of the enum's visibility. Running the body that is read yields, for all bits, the variant the other properties name, and for each variant the bits they name, provided each discriminant is an integer or a path.", "quantifier": "all enums, types, names, visibilities, attributes, options and bits; discriminants of the stated forms", "why_tests_cant": "A test compiles one enum; the discriminant is spliced both as an expression and as a pattern, and which of them works depends on how it is written.", "anchors": ["bitfields_impl/src/generating/bitflag/bitflag_generator.rs: generate_bitflag", "bitfields_impl/src/generating/common/endian_conversion.rs", "bitfields_impl/src/parsing/common/const_expr.rs: to_tokens"]}
{"id": "C71", "title": "Compile errors tell the truth", "statement": "Every compile error of the macros says something true about the declaration: the argument it calls unknown is not an argument and the arguments it lists are the arguments; a value it calls invalid is invalid and the values it lists are the valid ones; the default it says is too big or too small is outside the range it gives; the field type it calls too small is smaller than the stated width; the name it calls a duplicate occurs twice; the variant it names has no value; and the number of bits of the fields, of the bitfield and the number of missing bits are the right numbers. If the only mistake is that the fields are too small, the message gives the number of missing bits, and adding a reserved field of that width anywhere makes the struct accepted. If the only mistake is that they are too big, the message says so.", "quantifier": "all declarations of structs and enums, all token lists of the attributes, all Cargo features", "why_tests_cant": "A test compares the message of one wrong declaration. There are infinitely many wrong declarations, with several mistakes each, and a message that is right for one may name a wrong number, name or limit for another.", "anchors": ["bitfields_impl/src/parsing/bitfields/bitfield_parser.rs: parse_fields, get_field_bits, check_field_default_value, calculate_field_offset, check_bitfield_fields_fit", "bitfields_impl/src/parsing/common/attribute_argument_parser.rs", "bitfields_impl/src/parsing/bitfields/bits_attribute/bits_attribute_parser.rs", "bitfields_impl/src/parsing/bitfields/bitfield_attribute/bitfield_attribute_parser.rs", "bitfields_impl/src/parsing/bitflags/bitflag_parser.rs: check_base_bitflag_variants", "bitfields_impl/src/parsing/bitflags/bitflag_attribute_parser.rs"]}
{"id": "C72", "title": "The generated code changes only what is mutable", "statement": "In the code the macro prints for an accepted struct, every assignment and every call of a method that takes `&mut self` is on a place that may be changed: it belongs to a variable declared with `mut`, or is reached through a `&mut` reference. So functions that take `&self` or a shared slice change nothing of the caller, and rustc does not reject a function for a missing `mut`.", "quantifier": "all layouts, arguments, field types, names and Cargo features; default expressions of the forms of C69", "why_tests_cant": "Which statements are printed, and whether `let mut` is printed, depends on the layout, the storage, the endianness and the fields with defaults; a test compiles a few of the combinations.", "anchors": ["bitfields_impl/src/generating/bitfield/features/*.rs: generate_feature", "bitfields_impl/src/generating/bitfield/features/common/*.rs", "bitfields_impl/src/generating/common/endian_conversion.rs"]}
{"id": "C73", "title": "The generated code works for types that are not Copy", "statement": "In the code the macro prints for an accepted struct, no variable is used after its value was moved, no part that is not `Copy` is moved out of a reference, and no loop moves what was there before it, even if none of the user's field types, the bitfield itself and its builder is `Copy`. So custom field types need not be `Copy`, `copy = false` and arrays on the heap work, and rustc does not reject a function for a moved value.", "quantifier": "all layouts, arguments, field types, names and Cargo features; default expressions of the forms of C69", "why_tests_cant": "Which values are moved and in which order depends on the storage, the endianness, the type of the field and whether the function belongs to the builder; the types in tests are mostly Copy, for which the rule never applies.", "anchors": ["bitfields_impl/src/generating/bitfield/features/*.rs: generate_feature", "bitfields_impl/src/generating/bitfield/features/common/*.rs", "bitfields_impl/src/generating/common/endian_conversion.rs"]}
{"id": "C74", "title": "The fields are the whole state: setters reach every value and getters tell values apart", "statement": "From any stored value, calls to setters, each made at most once, lead to every other stored value that has the same bits in the fields without a setter. Conversely, no sequence of calls other than the clearing calls and the ones that write the defaults changes a bit outside of the fields with setters. Two stored values on which all getters return the same, and which have the same bits in fields without a getter, are the same. Fields are independent: whatever possible result is chosen for each getter, one stored value gives all of them at once.", "quantifier": "all layouts, backings, access modes, field types and stored values, all choices of results for the getters, all sequences of calls; custom types whose from_bits and into_bits are inverse", "why_tests_cant": "Reachability and its converse are about all pairs of stored values and all finite call sequences, and separation is about all pairs of values of every layout.", "anchors": ["bitfields_impl/src/generating/bitfield/features/field_setters_feature.rs", "bitfields_impl/src/generating/bitfield/features/field_getters_feature.rs", "bitfields_impl/src/generating/bitfield/features/invert_bit_ops_feature.rs", "bitfields_impl/src/generating/bitfield/features/write_bit_ops_feature.rs"]}
{"id": "C75", "title": "Replacing some fields leaves the other fields as they were", "statement": "If a run of members of a struct is replaced by other members (split, merged, renamed, reserved, ..) and both versions are accepted, every field outside of the run keeps its bits, in either order of fields, and the same functions. Code that uses only the functions of these fields returns the same values and leaves the same bits with both versions. A new bitfield holds the same bits in them. Data that one version wrote with into_le_bits or into_be_bits is read by the other with from_le_bits or from_be_bits as the same bits. Members may also be added, with a larger storage, at the side of the most significant bits: if both bitfields hold the same bits as far as the smaller one reaches, getters of the old fields return the same, and their setters leave the same bits there and change no others.", "quantifier": "all pairs of accepted versions of a struct with the same storage and arguments, all sequences of calls on common fields, all stored values, both field orders, builds with and without overflow checks", "why_tests_cant": "It relates any two declarations that share members, over all call sequences and stored values.", "anchors": ["bitfields_impl/src/parsing/bitfields/bitfield_parser.rs", "bitfields_impl/src/generating/bitfield/features/field_getters_feature.rs", "bitfields_impl/src/generating/bitfield/features/field_setters_feature.rs", "bitfields_impl/src/generating/bitfield/features/from_into_bits_feature.rs"]}
{"id": "C76", "title": "The printed code does not depend on what else is in scope", "statement": "Every name in the code the macros print is a variable or parameter declared earlier in the same function, self or Self, the struct or its builder, the type of a field, a path from ::core or ::std, one of a fixed list (Ok, Err, Default, core, primitive types, true, false), or written by the user in a default expression or as the value of a variant. The variables the code declares have names from a fixed list, which no field, type or argument extends. So constants, functions, modules and types of the user's cannot change its meaning, unless they are called core, Default, Ok or Err, or are constants named like one of the variables.", "quantifier": "all layouts, arguments, field types, field and struct names, every function and item printed for structs and enums", "why_tests_cant": "A test has one set of names in scope. Whether a name in the code is bound depends on every branch of the generator for every layout and argument.", "anchors": ["bitfields_impl/src/generating/bitfield/bitfield_generator.rs", "bitfields_impl/src/generating/bitfield/features/from_into_bits_feature.rs", "bitfields_impl/src/generating/bitfield/features/set_get_bit_ops_feature.rs", "bitfields_impl/src/generating/bitfield/features/debug_trait_feature.rs", "bitfields_impl/src/generating/bitflag/bitflag_generator.rs"]}
{"id": "C77", "title": "The Debug text shows the whole bitfield and tells different values apart", "statement": "Formatting a bitfield with {:?} or {:#?} gives its name and, in braces, every field with its name and value in declaration order, laid out as derived Debug implementations do. Two values of one bitfield type have the same text exactly if they are equal. The values shown are those the getters return, and only readable fields are shown.", "quantifier": "all layouts, all pairs of states, both formats, all names", "why_tests_cant": "That no two states print alike is a claim about all pairs of states of all layouts; a test looks at the text of a few.", "anchors": ["bitfields_impl/src/generating/bitfield/features/debug_trait_feature.rs: generate_default_trait_feature_tokens, generate_debug_set_field_tokens", "README.md: Debug Trait, arguments (debug)"]}
{"id": "C78", "title": "The generated code uses a fixed vocabulary and nothing unsafe", "statement": "Every token of the code generated for a bitfield or a bitflag enum is a word of a fixed list (attributes, paths into the standard library, primitive types, local variables, the fixed function names), or something that the user wrote (names, visibilities, types, attributes, defaults), or a name made of a field's name or the struct's name in one of the documented ways, or no name at all (keyword, punctuation, number, text). So `unsafe`, `unwrap`, `panic`, `static`, `extern`, `transmute` and the like, and the name of this crate, occur only where the user wrote them, and nothing of a template is left unfilled.", "quantifier": "for every bitfield (any fields, types, defaults, ignored fields, visibility, arguments and storage) and every bitflag enum, and every token of the expansion", "why_tests_cant": "The README promises code without `unsafe` and without runtime dependencies for every declaration; the templates are chosen by storage, field type, access, arguments and ignored fields, and a test sees the expansion of only a few combinations.", "anchors": ["README.md", "bitfields_impl/src/generating/bitfield/bitfield_generator.rs", "bitfields_impl/src/generating/bitfield/features/common/generator_helper.rs", "bitfields_impl/src/generating/bitfield/features/common/naming_extensions.rs", "bitfields_impl/src/generating/bitflag/bitflag_generator.rs"]}
{"id": "C79", "title": "The generated code does not use what it has borrowed", "statement": "In every generated function, the arguments of a call that takes `&mut self` do not use the variable the call is made on, the result of such a call is kept in a variable only if the receiver is not used any more, and a reference is only written as an argument whose call's result is not kept; so the borrows of the generated code never conflict. No generated function returns a reference, except the text of an error, so a value read from a bitfield never keeps it borrowed.", "quantifier": "for every bitfield (any fields, types, names, ignored fields, visibility, arguments and storage) and every generated function, with defaults that are simple expressions", "why_tests_cant": "A borrow conflict in one template shows only when a declaration selects that template; the templates are chosen by storage, field type, access, arguments, defaults and ignored fields, and a test compiles only a few combinations.", "anchors": ["bitfields_impl/src/generating/bitfield/bitfield_generator.rs", "bitfields_impl/src/generating/bitfield/features/common/generator_helper.rs"]}
