import Verif.Lemmas.MutFns
import Verif.Props.Text

/-!
# Only what may be changed is changed (C72)
-/

namespace Bf.Text

open Rust Quote

variable {P : Printer} {C : Style}

/-- Whatever the layout, the arguments, the types and the names are, every function among the items the macro prints
assigns only to places, and calls `&mut self` methods only on places, that it may change: each of them belongs to a
variable declared with `mut` or is reached through `&mut`. Which methods take `&mut self` is read off the same items.
Missing: as in `C69_parses_partial`, default expressions other than those of `Simple`, and ignored fields that are
arrays. -/
theorem C72_changes_only_mutable_partial (h : Fits P C) : ∃ k items, (∀ n, k ≤ n → parseItems n (expansionTokens P) = some items) ∧
    ∀ i ∈ items, ∀ f ∈ i.fns, f.mutOk (mutMethods items) = true := by
  obtain ⟨k, hk⟩ := C69_parses_partial h
  exact ⟨k, _, hk, expansion_mut h⟩

/-- The methods that are read off the items include the setter and the checked setter of every field that has one, which
the other functions call. -/
theorem C72_setters_listed {f : Field} (hf : f ∈ P.B.fields) (hs : f.hasSetter = true)
    (hF : .setters ∈ enabledFeatures P.args) :
    mutMethods (P.expansion C) (Accessor.set.ident f.name) = true ∧
      mutMethods (P.expansion C) (Accessor.checkedSet.ident f.name) = true := by
  have key : ∀ H t fn, (H, t, fn) ∈ P.fns .setters → H.recv = .refMut → mutMethods (P.expansion C) (tagName t) = true := by
    intro H t fn h hr
    refine List.any_eq_true.mpr ⟨_, List.mem_append_left _ (List.mem_append_right _ (.head _)), ?_⟩
    refine List.any_eq_true.mpr ⟨fnSyn C H t fn, List.mem_filterMap.mpr ⟨.fn (fnSyn C H t fn), ?_, rfl⟩, ?_⟩
    · exact List.mem_flatMap.mpr ⟨.setters, List.mem_filter.mpr ⟨hF, by decide⟩, List.mem_map.mpr ⟨_, h, rfl⟩⟩
    · simp [fnSyn, hr]
  have hm : ∀ x ∈ [(P.fieldHead f .refMut, Tag.acc .set f.name, setterFn P.B f),
       (P.fieldHead f .refMut, Tag.acc .checkedSet f.name, checkedSetterFn P.B f)], x ∈ P.fns .setters := fun x hx =>
    List.mem_flatMap.mpr ⟨f, List.mem_filter.mpr ⟨hf, hs⟩, hx⟩
  exact ⟨key _ _ _ (hm _ (.head _)) rfl, key _ _ _ (hm _ (.tail _ (.head _))) rfl⟩

/-! ## Examples -/

example : ∃ k items, (∀ n, k ≤ n → parseItems n (expansionTokens Ex.printer) = some items) ∧
    ∀ i ∈ items, ∀ f ∈ i.fns, f.mutOk (mutMethods items) = true := C72_changes_only_mutable_partial Ex.fits

example : mutMethods (Ex.printer.expansion Ex.style) "set_a" = true :=
  (C72_setters_listed (P := Ex.printer) (f := Ex.printer.B.fields[0]) (.head _) rfl (by decide)).1

example : mutMethods (Ex.printer.expansion Ex.style) "flag" = false := by decide +kernel

/-- What the rule refuses: the setter of `a` if it took `&self`. -/
example : ({ fnSyn Ex.style (Ex.printer.fieldHead Ex.printer.B.fields[0] .refMut) (.acc .set "a")
      (setterFn Ex.printer.B Ex.printer.B.fields[0]) with recv := .ref } : SFn).mutOk
    (mutMethods (Ex.printer.expansion Ex.style)) = false := by decide +kernel

/-- `fn n() -> u8 { let i = 0; i += 1; i }` -/
example : (⟨none, false, "n", .none, [], some (namesTy ["u8"]),
    [.letS "i" none (.int 0 "") false, .assign (some .add) (names ["i"]) (.int 1 ""), .expr (names ["i"]) false]⟩ : SFn).mutOk
    (fun _ => false) = false := rfl

/-- `fn n(a: &[u8]) { a[0] = 1; }` -/
example : (⟨none, false, "n", .none, [("a", .ref (.slice (namesTy ["u8"])) false)], none,
    [.assign none (.index (names ["a"]) (.int 0 "")) (.int 1 "")]⟩ : SFn).mutOk (fun _ => false) = false := rfl

/-- `fn n(&self) { let mut this = self; this.set_a(1); }`: a reference remains the kind of reference it is -/
example : (⟨none, false, "n", .ref, [], none,
    [.letS "this" none (names ["self"]) true, .expr (.method (names ["this"]) "set_a" [.int 1 ""]) true]⟩ : SFn).mutOk
    (mutMethods (Ex.printer.expansion Ex.style)) = false := by decide +kernel

end Bf.Text
