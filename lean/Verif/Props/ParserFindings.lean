import Verif.Props.Layout
import Verif.Props.Findings

/-!
# Where the macro does not accept or reject what it should

Concrete declarations for the gaps in the `_partial` theorems about declarations.
-/

namespace Bf.Finding

/-! ## Default expressions -/

/-- C43, C03: `default = -0x1f32` is an integer literal, but is rejected as a float. -/
theorem finding_literal_float_like :
    IntLit.text ⟨true, 0, .hex, ['1', 'f', '3', '2'], []⟩ = ['-', '0', 'x', '1', 'f', '3', '2'] ∧
    constExpr ['-', '0', 'x', '1', 'f', '3', '2'] = .error (.error "Float are not supported.") := by
  decide

/-- C43, C03: constants named like floats (`MAX_F32`) and field accesses (`A.0`) are rejected as
floats. -/
theorem finding_path_float_like :
    constExpr ['M', 'A', 'X', '_', 'F', '3', '2'] = .error (.error "Float are not supported.") ∧
    constExpr ['A', '.', '0'] = .error (.error "Float are not supported.") := by
  decide

/-- C43: the identifiers `TRUE` and `_5` are read as the literals 1 and 5, and `--5` (which is 5)
as -5. -/
theorem finding_ident_as_literal :
    constExpr ['T', 'R', 'U', 'E'] = .ok (.literal 1 false) ∧
    constExpr ['_', '5'] = .ok (.literal 5 false) ∧
    constExpr ['-', '-', '5'] = .ok (.literal 5 true) := by
  decide

/-- C43, C03: an expression that begins with a prefixed literal makes the macro panic:
`default = 0x1 | 0x2`, `default = 0xFF as u8`. -/
theorem finding_expr_panics :
    constExpr ['0', 'x', '1', ' ', '|', ' ', '0', 'x', '2'] = .error (.panic .unreachable) ∧
    constExpr ['0', 'x', 'F', 'F', ' ', 'a', 's', ' ', 'u', '8'] = .error (.panic .unreachable) := by
  decide

/-- A `u128` bitfield with one `i128` field with the given default. -/
def signed (d : DefaultSpec) (v : Int) : StructSpec :=
  ⟨.int .u128, [], .pub, [⟨"a", .pub, .int .i128, some ⟨none, [.default d (.int v)]⟩⟩]⟩

/-- Whether the macro accepts. -/
def accepts (m : Mode) (s : StructSpec) : Bool :=
  match parseBitfield m (fun _ => false) s.attr s.decl with
  | .ok _ => true
  | .error _ => false

/-- -2^127 -/
def minLit : IntLit := ⟨true, 0, .hex, '8' :: List.replicate 31 '0', []⟩

/-- C04: `-2^127` fits in a 128-bit signed field, but the macro panics on it. -/
theorem finding_default_min : ∀ m,
    (DefaultSpec.int minLit).Fits .i128 128 ∧
    parseBitfield m (fun _ => false) (signed (.int minLit) (-2 ^ 127)).attr
      (signed (.int minLit) (-2 ^ 127)).decl = .error (.panic .unreachable) := by
  intro m
  refine ⟨⟨rfl, by decide⟩, ?_⟩
  cases m <;> rfl

/-- -(2^128 - 1) -/
def hugeLit : IntLit := ⟨true, 0, .hex, List.replicate 32 'f', []⟩

/-- C04: `-(2^128 - 1)` does not fit in any field, but the macro accepts it (it is compared as
`1`). -/
theorem finding_default_wraps : ∀ m,
    ¬ (DefaultSpec.int hugeLit).Fits .i128 128 ∧
    accepts m (signed (.int hugeLit) (-(2 ^ 128 - 1))) = true := by
  intro m
  refine ⟨fun h => absurd h.2 (by decide), ?_⟩
  cases m <;> rfl

/-! ## Widths -/

/-- A type of any width. -/
def any : Codec := { fromBits := fun n => .ok n, intoBits := fun n => n }

/-- `#[bits(4294967295)] a: T, #[bits(9)] b: T` in a `u8`. -/
def wrapping : StructSpec :=
  ⟨.int .u8, [], .pub, [⟨"a", .pub, .custom "T" any, some ⟨some 4294967295, []⟩⟩,
    ⟨"b", .pub, .custom "T" any, some ⟨some 9, []⟩⟩]⟩

/-- C01, C03: a macro built without overflow checks accepts fields of 4294967295 and 9 bits in a
`u8`, since the sum of the widths wraps around to 8. With overflow checks it panics. -/
theorem finding_widths_wrap :
    ¬ wrapping.Legal ∧ accepts .wrapping wrapping = true ∧ accepts .checked wrapping = false := by
  refine ⟨fun h => absurd h.total (by decide), rfl, rfl⟩

/-- `#[bitfield([u8; 536870913])]` with a single `u8` field. -/
def hugeStorage : StructSpec :=
  ⟨.bytes 536870913, [], .pub, [⟨"a", .pub, .int .u8, none⟩]⟩

/-- C01, C03: in a macro built without overflow checks the size of `[u8; 536870913]` wraps around
to 8 bits, so that one `u8` field is enough. -/
theorem finding_storage_wraps :
    ¬ hugeStorage.Legal ∧ accepts .wrapping hugeStorage = true ∧
      accepts .checked hugeStorage = false := by
  refine ⟨fun h => absurd h.total (by decide), rfl, rfl⟩

/-! ## Types -/

/-- An ignored field of type `f32`. -/
def floatIgnored : StructDecl :=
  ⟨.pub, some [⟨"a", .pub, .path "u8" noCodec, []⟩, ⟨"x", .pub, .path "f32" noCodec,
    [⟨true, true, some [.ident "ignore", .eq, .expr ['t', 'r', 'u', 'e'] (.bool true)]⟩]⟩]⟩

/-- C03, C38: an ignored field whose type the macro does not know (`f32`, `usize`, references)
makes it panic. -/
theorem finding_ignored_type_panics : ∀ m,
    parseBitfield m (fun _ => false) ⟨some (.path "u8" noCodec), []⟩ floatIgnored =
      .error (.panic .unreachable) := by
  intro m; cases m <;> rfl

/-- C03: `#[bitfield(bool)]` passes the macro's checks; the generated code does not compile. -/
theorem finding_bool_storage : ∀ m,
    accepts m ⟨.int .bool, [], .pub, [⟨"a", .pub, .int .bool, none⟩]⟩ = true := by
  intro m; cases m <;> rfl

end Bf.Finding
