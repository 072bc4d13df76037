import Verif.Lemmas.ScopeItems
import Verif.Props.FlagText
import Verif.Props.Text

/-!
# What else is in scope where the struct is declared (C76)
-/

namespace Bf.Text

open Rust Quote

section
variable {P : Printer} {C : Style}

/-- Whatever the layout, the arguments, the types and the names are: every name in the items the macro prints is a
variable that is declared before it in the same function, the struct or its builder, the type of a field, the beginning of a path
from `::core` or `::std`, one of the names listed in `outer`, or written by the user in a default expression. And the variables
the code declares are among `localNames`. Missing: as in `C69_parses_partial`, default expressions other than those of
`Simple`, and ignored fields that are arrays. -/
theorem C76_names_partial (h : Fits P C) : ∃ k items, (∀ n, k ≤ n → parseItems n (expansionTokens P) = some items) ∧
    ∀ i ∈ items, i.scoped (fun segs => outer P.name segs || P.userPath segs) = true := by
  obtain ⟨k, hk⟩ := C69_parses_partial h
  exact ⟨k, _, hk, expansion_scoped h⟩

end

/-! ## Enums -/

section
variable {P : FlagPrinter} {value : String → SExpr} {c : FlagCode}

/-- The same for an enum. The user's expressions are the values of the variants. Missing: as in `C70_parses_partial`, values
other than those of `Constant`. -/
theorem C76_bitflag_partial (h : generateBitflag P.F = .ok c)
    (hv : ∀ v ∈ P.F.variants, Constant (P.value v.name) (value v.name)) :
    ∃ ts k items, flagTokens P = .ok ts ∧ (∀ n, k ≤ n → parseItems n ts = some items) ∧
      ∀ i ∈ items, i.scoped (fun segs => outer P.name segs || P.userPath segs) = true := by
  obtain ⟨ts, h1, k, h2⟩ := C70_parses_partial h hv
  refine ⟨ts, k, _, h1, h2, ?_⟩
  obtain ⟨w, -, rfl⟩ := generate_of h
  have key : ∀ v ∈ P.F.variants, ∀ vs, exprScoped (allow P.name P.userPath) vs (value v.name) = true ∧
      patternScoped (allow P.name P.userPath) (value v.name) = true ∧ boundBy (value v.name) = [] := by
    intro v hm vs
    have h3 : ∀ xs, leadingPath (P.value v.name) = some xs → allow P.name P.userPath (xs.map .name) = true := by
      intro xs hx
      have : P.userPath (xs.map .name) = true := by
        refine List.any_eq_true.mpr ⟨v, hm, ?_⟩
        simp [hx, pathNames_names]
      simp [allow, this]
    have h4 := hv v hm
    generalize value v.name = e at h4 ⊢
    generalize P.value v.name = ts at h3 h4
    cases h4 with
    | int n s => exact ⟨rfl, rfl, rfl⟩
    | name x =>
      have := h3 [x] rfl
      simp only [List.map_cons, List.map_nil] at this
      simp [names, exprScoped, patternScoped, boundBy, this]
    | path x y =>
      have := h3 [x, y] rfl
      simp only [List.map_cons, List.map_nil] at this
      simp [names, exprScoped, patternScoped, boundBy, this]
  show ∀ i ∈ flagItems _ _ _ _, i.scoped (allow P.name P.userPath) = true
  intro i hi
  simp only [flagItems, List.mem_cons, List.not_mem_nil, or_false] at hi
  rcases hi with rfl | rfl
  · simp only [SItem.scoped, List.all_eq_true]
    intro x hx
    obtain ⟨y, hy, rfl⟩ := List.mem_map.mp hx
    obtain ⟨v, hv, rfl⟩ := List.mem_map.mp hy
    exact (key v hv []).1
  · have ha : ∀ vs, armsScoped (allow P.name P.userPath) vs
        (((P.F.variants.filter fun v => !v.base).map fun v => (v.value, v.name)).map (fun a => (value a.2, names ["Self", a.2])) ++
          [(names ["_"], names ["Self", w.name])]) = true := by
      intro vs
      have : ∀ l : List FlagVariant, (∀ v ∈ l, v ∈ P.F.variants) → armsScoped (allow P.name P.userPath) vs
          ((l.map fun v => (v.value, v.name)).map (fun a => (value a.2, names ["Self", a.2])) ++
          [(names ["_"], names ["Self", w.name])]) = true := by
        intro l hl
        induction l with
        | nil => simp [armsScoped, names, patternScoped, boundBy, exprScoped]
        | cons v l ih =>
          obtain ⟨-, h5, h6⟩ := key v (hl v (.head _)) vs
          simp [armsScoped, h5, h6, names, exprScoped, List.map_map] at ih ⊢
          exact ih fun v hv => hl v (.tail _ hv)
      exact this _ fun v hv => (List.mem_filter.mp hv).1
    have ht := type_data (n := P.name) (X := P.userPath) (t := P.F.ty)
    simp only [SItem.scoped, SMember.scoped, List.all_cons, List.all_nil, type_name, Bool.and_true, Bool.true_and, Bool.and_eq_true]
    constructor
    · simp only [SFn.scoped, fromBitsSyn, List.all_cons, List.all_nil, ht, type_self]
      cases P.F.args.fromEndian <;> simp [swapSyn, stmtsScoped, exprScoped, exprsScoped, names, -List.map_map] <;> exact ha _
    · simp only [SFn.scoped, intoBitsSyn, List.all_nil, ht]
      cases P.F.args.intoEndian <;> simp [swapSyn, stmtsScoped, exprScoped, exprsScoped, names, ht, Recv.names]

end

/-! ## What is in scope does matter -/

/-- With a module `core`, a trait `Default` or constructors `Ok`, `Err` of the user's in scope, the code means something
else: `impl core::fmt::Debug` is not a path from `::core`. -/
theorem finding_unrooted {P : Printer} {C : Style} (h : Fits P C) (hF : .debug ∈ enabledFeatures P.args) :
    ∃ k items, (∀ n, k ≤ n → parseItems n (expansionTokens P) = some items) ∧
      ∃ i ∈ items, i.scoped (fun segs => rooted P.name segs || P.userPath segs) = false := by
  obtain ⟨k, hk⟩ := C69_parses_partial h
  refine ⟨k, _, hk, _, List.mem_append_right _ (List.mem_flatMap.mpr ⟨.debug, List.mem_filter.mpr ⟨hF, by decide⟩, .head _⟩), ?_⟩
  have h1 : P.userPath [.name "core", .name "fmt", .name "Debug"] = false := by
    rw [Printer.userPath, List.any_eq_false]
    intro f _
    simp only [Bool.not_eq_true, Bool.and_eq_false_iff]
    refine .inr ?_
    split
    · rename_i xs hx
      rw [decide_eq_false_iff_not]
      intro he
      cases he
      unfold leadingPath at hx
      split at hx <;> cases hx
    · rfl
  simp [SItem.scoped, namesTy, typeScoped, h1, rooted]

/-- The user's default expressions are printed into functions that have variables of their own. With
`#[bits(default = bits)]` the same `bits` is the user's in `new()` and the parameter in `from_bits_with_defaults(bits)`: the second
refers to nothing outside. -/
theorem finding_default_captured : ∃ (P : Printer) (C : Style), Fits P C ∧ P.default 0 = [.ident "bits"] ∧
    (P.head .none, .fn "new", newFn P.B true) ∈ P.fns .new ∧
    (fnSyn C (P.head .none) (.fn "new") (newFn P.B true)).scoped (outer P.name) = false ∧
    (P.head .none, .fn "from_bits_with_defaults", fromFn P.B none true) ∈ P.fns .fromIntoBits ∧
    (fnSyn C (P.head .none) (.fn "from_bits_with_defaults") (fromFn P.B none true)).scoped (outer P.name) = true := by
  refine ⟨⟨⟨.int 8, [⟨"a", .int .u8, 8, 0, .rw, false, some (.int 5)⟩], .big, .big, .big, false⟩, "A", .pub, [], [],
    defaultArgs fun _ => false, fun _ => [.ident "bits"], fun _ => .pub, true⟩, ⟨"A", [], fun _ => names ["bits"]⟩,
    ⟨rfl, rfl, fun f _ _ => .name f.ty "bits", fun _ h => by cases h⟩, rfl, .head _, ?_, ?_, ?_⟩
  · decide +kernel
  · exact .tail _ (.head _)
  · decide +kernel

/-! ## Examples -/

example : ∃ k items, (∀ n, k ≤ n → parseItems n (expansionTokens Ex.printer) = some items) ∧
    ∀ i ∈ items, i.scoped (fun segs => outer "Status" segs || Ex.printer.userPath segs) = true := C76_names_partial Ex.fits

example : ∃ ts k items, flagTokens ExFlagText.P = .ok ts ∧ (∀ n, k ≤ n → parseItems n ts = some items) ∧
    ∀ i ∈ items, i.scoped (fun segs => outer "Mode" segs || ExFlagText.P.userPath segs) = true :=
  C76_bitflag_partial ExFlagText.generated ExFlagText.constants

example : .debug ∈ enabledFeatures Ex.printer.args := by decide

/-- The user's constant `LAST` is allowed because it is written as a value; `OTHER` is not. -/
example : ExFlagText.P.userPath [.name "LAST"] = true ∧ ExFlagText.P.userPath [.name "OTHER"] = false := by decide +kernel

/-! What is refused: -/

/-- `fn n() -> u8 { count }` -/
example : (⟨none, false, "n", .none, [], some (namesTy ["u8"]), [.expr (names ["count"]) false]⟩ : SFn).scoped (outer "Status") =
    false := by decide +kernel

/-- `fn n() -> u8 { { let i = 0; } i }`: not declared any more -/
example : (⟨none, false, "n", .none, [], some (namesTy ["u8"]),
    [.expr (.block [.letS "i" none (.int 0 "") false]) false, .expr (names ["i"]) false]⟩ : SFn).scoped (outer "Status") =
    false := by decide +kernel

/-- `fn n() -> u8 { let count = 0; count }`: not one of the names for variables -/
example : (⟨none, false, "n", .none, [], some (namesTy ["u8"]),
    [.letS "count" none (.int 0 "") false, .expr (names ["count"]) false]⟩ : SFn).scoped (outer "Status") = false := by
  decide +kernel

/-- `fn n() -> Box<[u8; 4]>`; `::std::boxed::Box` is allowed -/
example : (⟨none, false, "n", .none, [], some (.path [.name "Box"] [.arr (namesTy ["u8"]) 4 ""]), []⟩ : SFn).scoped
    (outer "Status") = false ∧
    (⟨none, false, "n", .none, [], some (.path [.name "", .name "std", .name "boxed", .name "Box"]
      [.arr (namesTy ["u8"]) 4 ""]), []⟩ : SFn).scoped (outer "Status") = true := by decide +kernel

end Bf.Text
