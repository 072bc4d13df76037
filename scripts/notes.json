{
 "C06": "All layouts that satisfy WF and Supported, both backings, both overflow modes.",
 "C07": "All layouts that satisfy WF and Supported, both backings, both overflow modes.",
 "C08": "Proved for array fields whose width is the size of their type or (on integer-backed bitfields) a whole number of bytes. The counterexamples show what happens to array fields with other widths, which the macro accepts.",
 "C09": "The codec (user code) is arbitrary; the round-trip theorem asks the law only of the value at hand.",
 "C10": "All layouts that satisfy WF and Supported, both backings, both overflow modes; also for the builder.",
 "C11": "write-back is for integer, bool and array fields, as the property says.",
 "C12": "False in full: on integer-backed bitfields the argument is cast to the backing type before the comparison, and checked setters of array fields never fail. Proved for all arguments on which the generated comparison is exact, and spelled out for the common field types; an Err never changes the bitfield, without restriction. C12_exact says for every argument whether it is refused.",
 "C13": "Custom defaults must survive the user's own conversions (DefaultsPreserved, ZeroPreserved); automatic without custom fields.",
 "C14": "As C13.",
 "C15": "False in full for custom types whose from_bits(0).into_bits() is not 0 when new is not generated.",
 "C16": "Any sequence of with_x/checked_with_x, any fields.",
 "C17": "Custom field types must satisfy their round-trip law (user code).",
 "C18": "All bit patterns; the From impls included.",
 "C19": "Custom field types must satisfy their round-trip law (user code).",
 "C20": "Slices of any length.",
 "C21": "All three byte orders; custom field types must satisfy their round-trip law (user code).",
 "C22": "As C13.",
 "C23": "False in full for array-backed bitfields: write_* reads bytes in the opposite order. Proved for integer-backed ones; C23_array_opposite says exactly what array-backed ones do.",
 "C24": "All offsets, any state.",
 "C25": "All offsets, any state.",
 "C26": "False in full for length 0 on integer-backed bitfields and when offset+length overflows u32. Proved for all other ranges; for these C26_odd_release and C34_range_panics_iff say exactly what happens.",
 "C27": "As C26; moreover the checked variant does not reject values too large for the range. The remaining ranges: C27_odd_release, C34_range_panics_iff.",
 "C28": "From any state; defaults as C13.",
 "C29": "Custom field types must satisfy their round-trip law (user code).",
 "C30": "False for signed fields narrower than their type on any backing. Proved for all other fields; C30_narrow_signed says what narrow signed fields give.",
 "C31": "Induction over arbitrary call sequences.",
 "C32": "Induction over arbitrary call sequences from every origin.",
 "C33": "Also for whole histories.",
 "C34": "False in full for degenerate ranges (see C26) and for array and custom fields wider than the generated code supports. C34_panic_sources and C34_range_panics_iff give all panics on Supported layouts, without restriction on arguments.",
 "C35": "False for zero-length ranges. Proved for all other calls and all histories.",
 "C36": "The documented effects hold except for the arguments listed at C12 and C26. C36_every_history leaves out no argument: it uses the machine of MachineFull.lean, which adds to the documented effects exactly those exceptions.",
 "C37": "All layouts that satisfy WF and Supported.",
 "C44": "All states and layouts; the values passed to the formatter.",
 "C45": "Any state.",
 "C01": "Proved for every declaration when the macro is built with overflow checks; in a macro built without them proved as long as widths sum up to less than 2^32 (false otherwise: finding_widths_wrap, finding_storage_wraps). C01_wf links accepted declarations to the run-time theorems.",
 "C02": "Offsets, layout from the declaration, equal acceptance under both orders and the mirror image. Checked mode: all declarations; wrapping mode: sums of widths below 2^32.",
 "C03": "An iff on written declarations (StructSpec). Missing: defaults the macro misreads, negative defaults of -2^127 and below, large widths in wrapping mode; all false there, see findings.",
 "C04": "For any integer or bool field of any accepted struct. Missing: -d with d >= 2^127, where the code is wrong (findings).",
 "C43": "All literal spellings except negated hexadecimal literals ending in f32/f64; expressions beginning with a letter without dots or float suffix. Findings for the rest.",
 "C46": "Rejection of clashes for all declarations and modes; reserved fields may be renamed freely, in both modes.",
 "C05": "Which items exist is proved of the list of generated items, for every accepted struct; that reserved bits survive bit and range writes rests on C31 and asks for Supported layouts.",
 "C39": "False for the write_* group: write_bit_ops is ignored and the group follows bit_ops. Proved for every other group.",
 "C47": "False in several ways: private fields inherit the struct's visibility, items of wo and na fields and ignored fields are private, clear/invert functions always have the struct's visibility. C47_field_partial says exactly which visibility each item has.",
 "C48": "Argument lists of any length; Cargo features arbitrary.",
 "C49": "The model of the struct covers representation, derives, members and constness only.",
 "C38": "Ignored fields take no bits, start at default(), survive every history and do not influence it: proved for all declarations and histories. That they can always be initialised is false for an ignored field called val or of an array type (findings).",
 "C40": "For all enums that compile, any byte order as long as from and into agree (otherwise the round trip is false: finding_bitflag_endian, Props/Bitflag.lean).",
 "C41": "Acceptance on written enums and rejection with an error. Missing: the macro accepts some storage types that do not compile (finding_bitflag_type).",
 "C42": "Nested bitfields and bitflags satisfy the codec law the run-time theorems assume. C42_any_depth is by induction over the nesting of declared types, with the emitted from_bits and into_bits as the conversions; C42_generated runs emitted code only.",
 "C51": "Everything the generated enum item carries.",
 "C50": "Items and builder names: unconditional. Names of the bitfield: for safe field names (SpecNames.lean). Missing: other field names, where accepted structs do clash (findings).",
 "C52": "C52_wf derives the hypotheses (WF, Supported, Lawful) of the run-time theorems C06-C37 from the declaration. Shapes outside Usable are covered by findings of C08/C15.",
 "C53": "Proved for literals that rustc's literal typing leaves unchanged and that fit the signed range. finding_signed_default: a positive literal of 2^(n-1) or more is accepted on a signed field of n bits and reads back negative. finding_large_default: the default of a writable integer field is passed as `lit as _`, so an unsuffixed literal is an i32 and a value outside i32 is changed on fields wider than 32 bits (Rust's literal fallback, stated in SpecRun.lean, is part of the trusted base).",
 "C54": "Single calls and sequences of calls: full, for every accepted declaration that compiles. Histories in terms of the abstract machine, accessors and new(): full for supported layouts (see C34 for the others). Constructors, conversions and builders: missing the builder of a struct with new = false and a field that has a getter but no setter, whose emitted code does not compile (finding_builder_read_only; by C64_exact these are the only functions that do not, if the defaults have suitable types). Semantics of the Rust fragment in Model/Rust.lean, emitted code in Model/Quote.lean.",
 "C55": "Functions, constants and calls: full. Constructors: see finding_builder_read_only. UserConversions: the user's from_bits returns or panics.",
 "C56": "C56_form and C56_meaning extend C01-C05, C38-C55 from the canonical way of writing a struct to every accepted one. C56_accepted: for defaults the macro reads correctly (C43); if it was compiled without overflow checks, for widths below 2^32 in total.",
 "C57": "False in full: the macro panics on prefixed literals followed by more (0x1 | 0x2), on the default -2^127, on ignored fields of unknown types, on integer fields with a default and more than 128 bits and, with overflow checks, on widths that add up to 2^32 or more. Raw identifiers as field names (r#type) make code generation panic (finding_raw_field, for all structs). Reportable excludes these, other defaults outside DefaultSpec.Supported that are not float literals, and force_panic = true.",
 "C58": "Which constructs are allowed in a const fn is stated in SpecConst (from the Rust reference, not checked against rustc). The user's from_bits, into_bits and default expressions are taken to be const, as the documentation demands. The compiler version test (supports_const_mut_refs) is taken as satisfied.",
 "C59": "The behavioural part speaks of the emitted code (Quote.lean), with the declaration legal and usable as in C54; for builders the condition Fits of C54 is required under both argument lists (without it the builder does not compile, finding_builder_read_only).",
 "C60": "Missing from the full property: with copy on (the default) the code names std::marker::Copy (finding_copy_needs_std). C60_needs_std says exactly when a path outside of core occurs, C60_named which ones occur. Paths in attributes, types and default expressions written by the user are not part of the claim; prelude names without a path exist in core too.",
 "C61": "Items, places, struct attributes and outcome: full (C61_outcome has no hypotheses). Missing: generic parameters are dropped (finding_generics_dropped), and the macro panics on the declarations of the findings of C57, so that the verdict is proved for Reportable declarations.",
 "C62": "Missing: pub(in path) with more than one segment, which is printed as something the compiler rejects whenever the declaration was accepted (finding_pub_in_path, for all paths). Items whose visibility is deliberately or wrongly another one: see C47. The meaning of visibilities (SpecExpand.lean, editions since 2018) is stated from the Rust reference.",
 "C63": "Missing: fields of byte array types, whose bits are called bytes in the comments (finding_array_docs). The part about the sign bit in the comments of getters of signed fields is wrong (finding_sign_docs).",
 "C64": "Typing rules (SpecTypes.lean) are stated from the Rust reference for the syntax the generator emits; user types are not told apart, references and mutability are not modelled. Missing: the builder's constructors when `new` is off and a field is read-only (finding_builder_read_only). C64_exact: with suiting defaults these builders are the only functions that are not well typed. Defaults must suit their fields; C64_new shows this is necessary, C64_literal and C64_constant say when it holds, and finding_const_default is an accepted declaration where it does not.",
 "C65": "Compiles: what rustc requires of the declaration beyond what the macro checks. For builders the condition Fits of C54 is part of this (otherwise the builder does not compile). UserConversions as in C55.",
 "C66": "Compiles, Fits, UserConversions as in C65. default() without the new functions is excluded from C66_unmade: it stores defaults only. C66_made assumes that the user's from_bits does not panic.",
 "C67": "Cargo's feature resolution (SpecCargo.lean) is stated from the Cargo book; one version of each package. Missing: crates that depend on the package bitfields, which forwards none of its features and always switches on the defaults of the macro package, so that no feature has any effect (finding_features_ignored, finding_readme_features).",
 "C68": "Texts are lists of characters. str::find, rfind, trim and lines of the standard library are modelled (Model/BuildScript.lean). A write that fails part way is not modelled. C68_idempotent has a condition on the README; an example shows it is needed.",
 "C69": "Model/Emit.lean has the templates of the generator verbatim (scripts/templates.py compares all of them with the source). Model/Syntax.lean is a parser for the part of Rust's grammar they use; SpecText.lean says which syntax each construct of Model/Rust.lean has. Missing: default expressions with operators, of which only the last operand is converted (finding_compound_default), and ignored arrays, for which the text is not Rust (finding_ignored_array_text). Paths with generic arguments and types written as longer paths are one token.",
 "C70": "Model/EmitFlag.lean has the templates of bitflag_generator.rs verbatim (scripts/templates.py compares them with the source). runFrom and runInto in SpecFlagText.lean run the bodies as the parser reads them. Missing: discriminants that are computed, such as `1 << 2`; the macro accepts them but repeats them as patterns, which is not Rust (finding_computed_value).",
 "C71": "SpecMessage.lean has the texts, each with the fact it claims; scripts/messages.py compares the texts of the model with the source. Types are named by the last segment of their path and array lengths in decimal. Missing: defaults and values the macro misreads as floats (C43); the total in the message with order = msb, which is only the sum of the first fields (finding_total_prefix); without overflow checks, limits for widths above 128 bits (finding_max_wrapped). Messages of syn and spans are not modelled.",
 "C72": "SpecMut.lean states Rust's rule for assignments and `&mut self` calls on the syntax trees of Model/Syntax.lean; which methods take `&mut self` is read off the parsed items. Missing: default expressions and ignored arrays outside C69 (finding_compound_default, finding_ignored_array_text). Moved values are the subject of C73; rules for overlapping borrows are not modelled. C72_bitflag_partial: the functions of a bitflag enum, with the hypotheses of C70_parses_partial.",
 "C73": "SpecMove.lean states Rust's rule for moved values on the syntax trees of Model/Syntax.lean; which members are Copy and which methods take self is read off the parsed items. Missing: default expressions and ignored arrays outside C69 (finding_compound_default, finding_ignored_array_text), and defaults that are a single name which is also a local variable of the emitted code that is not Copy. Overlapping borrows are not modelled. C73_bitflag_partial: the functions of a bitflag enum, with the hypotheses of C70_parses_partial.",
 "C74": "On the call machine of C31 to C36 and, in C74_declared, for declared structs. Custom types must have inverse from_bits and into_bits (Lawful), as the crate's documentation asks for.",
 "C75": "Versions in Props/Evolve.lean says what two versions are. Calls, new() and conversions are those of the emitted code (C54). Data: the new version's custom types must have inverse from_bits and into_bits.",
 "C76": "SpecScope.lean says which names code refers to, following Rust's scopes. The code is what is parsed from the printed tokens (C69, C70). Attributes are not covered. Missing: default expressions other than those of Simple, values other than those of Constant, ignored fields that are arrays. finding_unrooted: core, Default, Ok, Err are not written as paths from ::core. finding_default_captured: a default expression is printed where variables of the generated function shadow the user's names.",
 "C77": "SpecDebug.lean says what core::fmt writes for debug_struct, field and finish. Proved: the text (also for the emitted code), and that it determines all bits. Missing: the values shown are the stored bits, which are what the getter returns for unsigned fields and for byte arrays in byte arrays only (finding_debug_value: -1 is shown as 15 and true as 1); fields that are not readable are shown too (finding_debug_hidden), although the README says that readable fields are printed. Format flags other than # are not modelled.",
 "C78": "C78_words and C78_bitflag_words have no hypotheses about the declaration. The tokens of a default, an attribute or a user's type are the user's and are not looked into; texts (documentation and messages) are not restricted. Names of fields are upper-cased as ASCII.",
 "C79": "The rule is sufficient for what Rust's borrow checker asks of these trees, not equal to it. Missing in C79_borrows_partial and C79_returns_no_reference_partial: as in C69_parses_partial (defaults other than those of Simple, ignored fields that are arrays); in the first also a default that is nothing but the name `this`. C79_bitflag_partial: the functions of a bitflag enum, with the hypotheses of C70_parses_partial."
}
