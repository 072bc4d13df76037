import Verif.Lemmas.BorrowFns
import Verif.Lemmas.BorrowRet
import Verif.Props.Text

/-!
# What is borrowed is not used (C79)
-/

namespace Bf.Text

open Rust Quote

variable {P : Printer} {C : Style}

/-- Whatever the layout, the arguments, the types and the names are, every function among the items the macro prints obeys
the rule of `SpecBorrow.lean`: the arguments of a `&mut self` call do not use its receiver, and what such a call returns
is not kept in a variable while the receiver is used. Which methods take `&mut self` is read off the same items.
Missing: as in `C69_parses_partial`, default expressions other than those of `Simple`, and ignored fields that are
arrays; and a default that is nothing but the name `this`, which is the name of the variable that is being filled. -/
theorem C79_borrows_partial (h : Fits P C) (hn : ∀ f ∈ P.B.fields, P.default f.offset ≠ [.ident "this"]) :
    ∃ k items, (∀ n, k ≤ n → parseItems n (expansionTokens P) = some items) ∧
      ∀ i ∈ items, ∀ f ∈ i.fns, f.lendOk (mutMethods items) = true := by
  obtain ⟨k, hk⟩ := C69_parses_partial h
  exact ⟨k, _, hk, expansion_lend h hn⟩

/-- Whatever the layout, the arguments, the types and the names are, no function among the items the macro prints returns
a reference, except the text of an error: what a getter returns does not keep the bitfield borrowed. Missing: as in
`C69_parses_partial`. -/
theorem C79_returns_no_reference_partial (h : Fits P C) :
    ∃ k items, (∀ n, k ≤ n → parseItems n (expansionTokens P) = some items) ∧
      ∀ i ∈ items, ∀ f ∈ i.fns, f.returnsValue = true := by
  obtain ⟨k, hk⟩ := C69_parses_partial h
  exact ⟨k, _, hk, expansion_returns P⟩

/-! ## Examples -/

example : ∃ k items, (∀ n, k ≤ n → parseItems n (expansionTokens Ex.printer) = some items) ∧
    ∀ i ∈ items, ∀ f ∈ i.fns, f.lendOk (mutMethods items) = true :=
  C79_borrows_partial Ex.fits (fun _ _ h => by cases h)

example : ∃ k items, (∀ n, k ≤ n → parseItems n (expansionTokens Ex.printer) = some items) ∧
    ∀ i ∈ items, ∀ f ∈ i.fns, f.returnsValue = true := C79_returns_no_reference_partial Ex.fits

/-- `fn n(&self) -> &[u8]`, `fn n(&self) -> Option<&u8>` and `fn n(&self) -> Result<(), &str>` -/
example : (⟨none, false, "n", .ref, [], some (.ref (.slice (namesTy ["u8"]))), []⟩ : SFn).returnsValue = false ∧
    (⟨none, false, "n", .ref, [], some (.path [.name "Option"] [.ref (namesTy ["u8"])]), []⟩ : SFn).returnsValue = false ∧
    (⟨none, false, "n", .ref, [], some (.path [.name "", .name "core", .name "result", .name "Result"]
      [.unit, .ref (namesTy ["str"])]), []⟩ : SFn).returnsValue = true := by decide +kernel

/-- What the rule refuses. `fn n(this: &mut S) { this.set_a(this.b()); }` (Rust accepts this one) -/
example : (⟨none, false, "n", .none, [("this", .ref (namesTy ["S"]) true)], none,
    [.expr (.method (names ["this"]) "set_a" [.method (names ["this"]) "b" []]) true]⟩ : SFn).lendOk
    (mutMethods (Ex.printer.expansion Ex.style)) = false := by decide +kernel

/-- The same with the argument taken first is allowed. -/
example : (⟨none, false, "n", .none, [("this", .ref (namesTy ["S"]) true)], none,
    [.letS "v" none (.method (names ["this"]) "b" []) false,
     .expr (.method (names ["this"]) "set_a" [names ["v"]]) true]⟩ : SFn).lendOk
    (mutMethods (Ex.printer.expansion Ex.style)) = true := by decide +kernel

/-- `fn n(f: &mut F) { let mut d = f.debug_struct("S"); f.debug_struct("S"); d.finish(); }` -/
example : (⟨none, false, "n", .none, [("f", .ref (namesTy ["F"]) true)], none,
    [.letS "d" none (.method (names ["f"]) "debug_struct" [.str "S"]) true,
     .expr (.method (names ["f"]) "debug_struct" [.str "S"]) true,
     .expr (.method (names ["d"]) "finish" []) true]⟩ : SFn).lendOk (fun _ => false) = false := by decide +kernel

/-- The same without the second use of `f` is allowed. -/
example : (⟨none, false, "n", .none, [("f", .ref (namesTy ["F"]) true)], none,
    [.letS "d" none (.method (names ["f"]) "debug_struct" [.str "S"]) true,
     .expr (.method (names ["d"]) "finish" []) true]⟩ : SFn).lendOk (fun _ => false) = true := by decide +kernel

/-- `fn n(x: u8) { let r = &x; }` -/
example : (⟨none, false, "n", .none, [("x", namesTy ["u8"])], none,
    [.letS "r" none (.pre .ref (names ["x"])) false]⟩ : SFn).lendOk (fun _ => false) = false := by decide +kernel

end Bf.Text
