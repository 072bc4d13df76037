# Formal model of gregorygaines/bitfields-rs: design

The crate is a procedural macro. A user writes `#[bitfield(T, ...)] struct S { ... }`
(or `#[bitflag(T)] enum E { ... }`), the macro parses the declaration and emits
Rust code. What a user relies on is (1) which declarations are accepted and which
layout and interface they get and (2) what the emitted functions do at run time. Both
are modelled in Lean 4, in `/verif/lean/Verif`.

## The layers of the model

1. **Parser** (`Model/ConstExpr`, `Args`, `Parser`, `Bitflag`). Functions from token trees
   of a declaration (attribute tokens, fields with their attributes, types as token strings)
   to a parsed bitfield. The result is `Except` with errors (a compile error at the user's
   code) and panics (caught in lib.rs and reported as an internal error) kept apart. `Mode` says
   whether the macro crate itself was compiled with overflow checks.
2. **Interface** (`Model/Surface`, `Obj`). Which items are generated, their names, visibilities
   and modifiers, the generated struct, ignored fields.
3. **Run-time functions** (`Model/Prim`, `Types`, `Gen`, `Api`, `Op`). For each generated
   function one Lean function that mirrors the emitted Rust statement by statement: same masks,
   same shifts, same loops. Panics are explicit outcomes, with a parameter `Mode` (`checked` =
   overflow checks on, `wrapping` = off). Nothing is totalised: a shift by the width or more, an
   index out of bounds, a `u32` overflow give `Panic` in `checked` mode, and the wrapped result
   in `wrapping` mode (an index out of bounds panics in both).
4. **Emitted code** (`Model/Rust`, `Quote`). `Rust` is the syntax and the run-time semantics of
   the fragment of Rust that occurs inside the generator's `quote!` blocks: typed integers,
   `let` with shadowing, assignment, loops, early return, method calls, constants. `Quote` models
   the generator as a function that produces this syntax. C54 and C55 prove that running the emitted
   program gives what layer 3 gives (so that layer 3 is not trusted), and from there what the
   specification says.
5. **Printed tokens** (`Model/Tokens`, `Emit`, `EmitDecl`, `EmitFlag`, `Syntax`). `Emit` and `EmitFlag` have the `quote!` templates of the generator
   verbatim (`quote! "…"` is a macro that turns the text into tokens when the model is compiled) and the functions that
   choose and splice them. `Syntax` is a parser for the part of Rust's grammar that occurs. C69 proves that the
   tokens parse to the programs of layer 4, so that the shape of `Quote` is not trusted; C70 is the same for enums.
   `scripts/templates.py` compares the templates with the source.

## Specifications

Each is a small file that does not mention masks or loops or the parser:

| file | content |
|------|---------|
| `Spec` | a bitfield is a function `Nat -> Bool`; what it means that a field holds a value; `WF` (layout is a partition), `Supported` (field shapes the generated code can handle) |
| `Machine` | each API call has a one-line effect on the bits |
| `MachineFull` | `Machine` plus exactly the exceptions the code makes (see findings), for all arguments |
| `SpecDecl` | what a user declares (`StructSpec`), how it is written as tokens, when it is legal |
| `SpecSurface`, `SpecNames` | arguments, groups of items, which items exist, safe names |
| `SpecFlag` | bitflag enums |
| `SpecRun` | where the bits of a declared field are, what its getter returns, what its default is |
| `SpecCall`, `SpecCode` | which calls compile; which emitted function a call stands for |
| `SpecForm` | all the ways a declaration may be written |
| `SpecReport` | declarations, well-formed or not, on which the macro does not fail internally |
| `SpecConst` | what may occur in the body of a `const fn` |
| `SpecText` | the Rust syntax of the constructs of `Model/Rust.lean`, and of the items of an expansion |
| `SpecMut` | Rust's rule that only `mut` variables and what `&mut` references point to are changed |
| `SpecMove` | Rust's rule that a value that is not `Copy` is used once |
| `SpecMessage` | the texts of compile errors, each with the fact about the declaration that it claims |
| `SpecFlagText` | the Rust syntax of a bitflag enum, and running its two functions |
| `SpecScope` | which names code refers to |
| `SpecDebug` | what `core::fmt` writes for `debug_struct`, `field`, `finish` |
| `SpecTypes` | typing rules for the emitted code; which default suits which field |

`Lemmas/*.lean` hold the refinement proofs, `Props/*.lean` the property theorems, each with
an `example` beside it that instantiates its hypotheses on concrete declarations (an integer-backed and an
array-backed one, with signed, bool, array, custom, reserved, read-only and write-only fields).

Custom field types are a `Codec`: arbitrary user functions `from_bits`/`into_bits`
(`from_bits` may panic). Where a property needs the user's functions to be inverse to each other
on the field's width, that hypothesis is written in the theorem (`Lawful`, `Preserves`).

## Trusted base

* Lean 4.33.0 kernel. Axioms: at most `propext`, `Classical.choice`, `Quot.sound`;
  `AXIOMS.md` lists them for each theorem (from `#print axioms`). No own axioms, no `sorry`, no
  `native_decide`/`bv_decide`.
* The hand-made correspondence between the Lean definitions of `Model/*` and the Rust text (each
  definition cites file and lines).
* The semantics of the Rust fragment in `Model/Rust.lean`: integer `as` casts, overflow and shift
  behaviour in both modes, two's complement, `swap_bytes`, evaluation order, shadowing, literal typing (an unsuffixed
  literal takes the type its context asks for, else `i32`; types that rustc infers from later uses are written
  out in `Quote.lean`).
* What a default expression evaluates to is given by the user (`DefaultSpec`); for literals `SpecRun.lean` states the Rust rule.
* Compile errors: where they point to (spans) and messages of `syn` are not modelled. Messages name a type by the last segment
  of its path and an array length in decimal.
* The grammar of Rust in `Model/Syntax.lean` (precedences, places where a struct literal or a block ends a statement).
* How Cargo unites features (`SpecCargo.lean`).
* `syn` splits the input into the tokens that `SpecDecl`/`SpecForm` describe.

### Modelled

* `lib.rs`: `start_bitfield_generation`, `check_force_panic`, `start_bitflag_generation`, `catch_panics`
* `parsing/common/`: `spanned_data_type`, `const_expr`, `conversion_endian`, `attribute_argument_parser`, `type_parse_error`, `visibility`
* `parsing/bitfields/**`, `parsing/bitflags/**`
* `generating/bitfield/feature.rs`, `generating/bitfield/bitfield_generator.rs` (which features are enabled, order and places),
  all of `generating/bitfield/features/**` except fixed documentation strings
* `generating/bitflag/*`, `generating/common/endian_conversion.rs`
* `bitfields/build.rs`
* the features and the dependency between the packages in both `Cargo.toml`

### Not modelled

* Tokenisation by `syn`; spans; splicing by `quote` is modelled as concatenation.
* Fixed doc comments (those of the items of fields are modelled, C63).
* Enforcement of visibilities, `const fn` rules and borrow rules by rustc, except that only mutable places are changed (C72), nothing is used after it was moved (C73), and calls of `&mut self` methods do not overlap with other uses of what they change (C79).
  Static typing (C64) does not look at references, takes all types of the user for one, and reads a default expression as one operand (as if in parentheses).
* Format flags of `Debug` other than `#`; the `Debug` implementation of user types (never called).
* Failure of allocation. (`Box::new` and the dereferences of a boxed array are part of the emitted code in `Quote.lean`;
  leaving one out makes the code ill-typed.)
* How `catch_unwind` works: `catch_panics` is modelled as turning a panic into a compile error.
* Which characters beyond ASCII may be in an identifier (all are taken to be allowed).

## Properties

Statuses and theorem names: `MANIFEST.json` (written by `scripts/manifest.py`).

| id | what is modelled | how proved |
|----|------------------|-----------|
| C01-C03, C46 | `parseFields` and all checks in their order | induction over the field list, with the sum of widths as invariant; acceptance as an iff on `StructSpec` |
| C04 | `checkDefault`, `minMax` | case analysis and arithmetic; the 128-bit corner cases separately |
| C05, C39, C47-C49 | argument fold, features, `surface` (all generated items) | induction over argument lists, case analysis over access/reserved/default for all names |
| C06-C12, C45 | generated setters and getters on both backings | bit-level refinement (`getLsbD` extensionality; loop invariants for arrays) |
| C13-C16 | `new`, `new_without_defaults`, `default`, builder | induction over the field list, disjointness |
| C17-C20 | from/into bits, bytes, slices, endian | induction over the field list and partition; list reversal by in-place xor swap |
| C21-C23 | write operations | as C17 with the protection filter |
| C24-C27, C37 | bit and range operations with masks and guards | bit-level refinement, u32 overflow made explicit |
| C28-C30 | clear, invert | from the above |
| C31-C36 | `Op`, `step`, `run` over lists of calls | invariants and refinement by induction over the list of calls |
| C38 | store paired with ignored values | invariant over histories |
| C40-C41, C51 | bitflag parser, generated `match` and enum | induction over the variant list |
| C42 | codecs of nested bitfields and bitflags; types made by the macros, nested to any depth, with the emitted conversions as their codecs (`SpecNested.lean`) | instance of the codec law; induction over the nesting; C54 |
| C43 | string-level `ConstExpr::new` | induction over digit lists |
| C44 | `debugFields` | refinement |
| C50 | names of all generated items | injectivity of the naming scheme on safe names |
| C52, C53 | declaration to getter | composition of C01-C05 with C06-C37 |
| C54, C55 | emitted Rust code | symbolic execution of each emitted function against layer 3, loop invariants; composition with C36 and C52 |
| C56 | all ways of writing a declaration | the parser is a function of what is declared; inversion of the parser |
| C57 | the parser on arbitrary declarations | every step reports or succeeds; bound on the sum of widths as loop invariant |
| C58 | the emitted functions as Rust syntax, `shape.constFn` | one lemma per token function and generated function: nothing forbidden in a `const fn` occurs |
| C59 | argument lists that agree, `array_heap` in parser and emitted code | extensionality of the parsed arguments; C54 for both sides |
| C60 | all paths in the emitted code (`Paths.lean`) | per emitted function, from the lemmas of C58 |
| C61 | order and places of the output, attributes of the struct, identifiers made up, entry points (`Expand.lean`) | permutation of the feature list; case analysis over features; C57 |
| C62 | reading and printing of visibilities | case analysis over paths; meaning of visibilities in `SpecExpand.lean`; C47 |
| C63 | texts of the comments (`Docs.lean`) | case analysis over accessors; layout of the declaration |
| C64 | the emitted functions as Rust syntax | one lemma per token function and generated function, under the declarations of the program; inversion of the typing rules for the converse |
| C65 | as C54, for all layouts that compile | each primitive keeps the storage type and the bits outside the field (`Sane.lean`); calls on bits are compared with those of a layout of plain integer fields |
| C66 | as C65, for fields outside `StructSpec.Usable` | loop lemmas for the byte loops beyond 128 bits (`Lemmas/Odd.lean`), lifted to the emitted code by C54; storing into a broken field panics, every constructor stores into every field |
| C67 | the two manifests (`Cargo.lean`), defaults of the arguments | induction over Cargo's rules (`SpecCargo.lean`) gives the active features exactly; C39, C48, C49, C51 for their effect |
| C68 | the functions of `bitfields/build.rs` on lists of characters (`BuildScript.lean`) | first and last occurrences of tags that do not overlap themselves; induction over sections and lines |
| C69 | the `quote!` templates (`Emit.lean`), a parser for Rust (`Syntax.lean`) | for each template the parser's run on it with its splices abstract, then induction over fields and features |
| C70 | the templates of the bitflag generator (`EmitFlag.lean`), the same parser | induction over variants and arms; then running the body that is read |
| C71 | the texts of all compile errors of the parsers | every step of the parser tells the truth if it reports; sum of the widths so far as loop invariant |
| C72 | `mut` and `&mut` in the syntax trees of C69, Rust's rule for them (`SpecMut.lean`) | each statement keeps the permissions it needs; induction over fields and features; C69 ties the trees to the tokens |
| C73 | the kinds of variables (`Copy`, `&`, `&mut`, owned, gone) through the syntax trees of C69, Rust's rule for moves (`SpecMove.lean`) | a static check of what statements give away, sound by induction over them; each function by it; which members are `Copy` and which methods take `self` is read off the same items |
| C74 | the machine of all calls (`Machine.lean`); for declared structs through C52 | the setters of the writable fields, one after the other, by induction over the fields; the converse is C31; separation bit by bit from the decoding of each field; independence by overwriting all fields |
| C75 | two declared structs with common members (`Versions`, `Grown`), the emitted programs of both | both totals are the storage size, so the replaced runs have equal widths and offsets agree; calls on a field depend on nothing else (C54, C52) |
| C76 | the trees parsed from the printed tokens, the names in scope at each of them (`SpecScope.lean`) | combinators for "refers to at most these variables, declares at least those" (`SE`, `SS`), then every function of `Model/Quote.lean`, every item |
| C77 | `{:?}` and `{:#?}` of `core::fmt` as functions on lists of characters (`SpecDebug.lean`); numbers end before the first character that is not a digit, so the text of the rows can be cut in one way only | induction over the fields; with C44 and C54 |
| C78 | `SpecWords.lean`: the list `words` (and `flagWords`), and the inductive `Printed P t` with one constructor for each reason a token may be there; `unwanted`: words that must not appear. The subject is `expansionTokens` and `flagTokens` of the printers | one lemma for each of the 90 template functions: all its tokens are `Printed`; then `unwanted` is compared with the list, and with the prefixes and suffixes of the made names |
| C79 | `SpecBorrow.lean`: `SFn.lendOk`, a rule on the trees of the parser that is enough for calls of `&mut self` methods; `SFn.returnsValue`, on the result type. The subject is what the parser reads from the printed tokens (C69) | the rule is computed on the trees of the templates (`lendE`, `lendS`), template by template, and carried over to the parsed trees; the result types one feature at a time |

## Findings

Where the code violates the intended property, a theorem `finding_*` proves the negation on a concrete
witness, and the property theorem is named `..._partial` with the extra hypothesis spelled out.

| finding | what happens |
|---------|--------------|
| `finding_checked_set_wide_type` (C12) | the argument of a checked setter is cast to the backing type before it is compared: 257 is accepted for 4 bits of a `u8` |
| `finding_checked_set_array` (C12) | checked setters of byte-array fields never fail |
| `finding_default_not_new` (C15) | `default()` differs from `new()` if `new` is not generated and a custom type does not map 0 to 0 |
| `finding_write_bytes_endian` (C23) | on array-backed bitfields `write_le_bytes` and `from_le_bytes` read bytes in opposite orders |
| `finding_range_length_zero` (C26, C27, C34) | a range of length 0 on an integer-backed bitfield panics, or in release mode means "to the top" |
| `finding_range_sum_overflow` (C26, C27, C34) | `offset + length` overflows `u32` |
| `finding_checked_range_truncates` (C27) | `checked_set_bits_range` does not report values too large for the range |
| `finding_inverted_signed` (C30) | `x_inverted()` of a narrow signed field is not sign-extended |
| `finding_array_ragged` (C08) | bits beyond the last whole byte of an array field are lost |
| `finding_array_too_wide`, `finding_array_too_long`, `finding_custom_too_wide` (C08, C34) | accepted layouts whose accessors always panic |
| `finding_backings_differ` (C35) | the backings differ on ranges of length 0 |
| `finding_literal_float_like`, `finding_path_float_like`, `finding_ident_as_literal`, `finding_expr_panics` (C43, C03) | defaults misread |
| `finding_default_min`, `finding_default_wraps` (C04, C03) | defaults of -2^127 and below |
| `finding_widths_wrap`, `finding_storage_wraps` (C01-C03) | macro compiled without overflow checks: sums of widths wrap |
| `finding_ignored_type_panics` (C03, C38) | ignored fields of unknown primitive types make the macro panic |
| `finding_bool_storage` (C03) | `#[bitfield(bool)]` passes the checks |
| `finding_ignored_val`, `finding_ignored_array` (C38) | ignored fields that do not compile |
| `finding_write_flag_ignored` (C39) | `write_bit_ops` has no effect |
| `finding_bitflag_endian`, `finding_bitflag_type` (C40, C41) | unequal byte orders; storage types that do not compile |
| `finding_private_accessor`, `finding_write_only_private`, `finding_ignored_private` (C47) | visibilities other than documented |
| `finding_name_clash`, `finding_name_clash_case` (C50) | accepted structs with clashing items |
| `finding_signed_default`, `finding_large_default` (C53) | accepted defaults that read back as other values |
| `finding_wide_default_panics` (C57) | `#[bits(200, default = 1)] a: u8` makes the macro panic instead of reporting the width |
| `finding_raw_field` (C57, C61) | a raw identifier as the name of a field, such as `r#type`, makes the macro panic: `set_r#type` is not an identifier |
| `finding_generics_dropped` (C61) | generic parameters of the struct are dropped |
| `finding_pub_in_path` (C62) | `pub(in crate::a)` is printed as `pub(cratea)`, which the compiler rejects |
| `finding_array_docs`, `finding_sign_docs` (C63) | comments call the bits of byte array fields bytes; comments of signed getters name the lowest bit as the sign bit |
| `finding_compound_default` (C69) | `default = A \| B` is spliced before `as` without parentheses |
| `finding_ignored_array_text` (C69) | `buf: [u8; 4]::default()` does not parse |
| `finding_computed_value` (C70) | a discriminant such as `1 << 2` is accepted, but repeated as a pattern, which is not Rust |
| `finding_total_prefix` (C71) | with `order = msb` a message gives the sum of the first fields as the total |
| `finding_max_wrapped` (C71) | without overflow checks `#[bits(130, default = 5)] a: u8` is reported with a maximum of 3 |
| `finding_builder_read_only` (C54, C55, C64) | builder without `new` and with a read-only field does not compile |
| `finding_const_default` (C64) | a default that is a constant of the field's own type is not cast to the storage type if the field cannot be written: accepted, but the code does not compile |
| `finding_copy_needs_std` (C60) | with `copy` (the default) the code derives `std::marker::Copy`, which does not resolve in a `no_std` crate |
| `finding_unrooted` (C76) | `core`, `Default`, `Ok` and `Err` are not written as paths from `::core`: with something else of that name in scope the code does not compile or means something else |
| `finding_default_captured` (C76) | in `#[bits(default = bits)]` the name is the parameter in `from_bits_with_defaults(bits)` and the user's in `new()` |
| `finding_debug_value` (C77) | `Debug` prints stored bits, not values: a field with the value -1 as 15, `true` as 1 |
| `finding_debug_hidden` (C77) | `Debug` also prints fields that are not readable, although the README says it prints readable fields |
| `finding_features_ignored`, `finding_readme_features` (C67) | the package `bitfields` forwards none of its features and always switches on the defaults of the macro package: no documented feature has any effect |

Seen while modelling, without a theorem of its own:

* A type is recognised by the last segment of its path (`spanned_data_type.rs:52`): a user's type `my::u8` is taken for the
  primitive `u8`, and a user's type named `f32` is rejected as a float.
* Attributes of fields other than `#[bits]` are dropped.

## Tests of the theorems

`seeded/LOG.jsonl`: one line per wrong program. In a scratch copy a definition of `Model/*` is edited the way
a bug would change the program, failing proofs are removed one after the other, and
the claims whose theorems no longer hold are recorded.
