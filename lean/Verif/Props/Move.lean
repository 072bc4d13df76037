import Verif.Lemmas.MoveItems
import Verif.Props.Text

/-!
# Nothing is used after it was given away (C73)
-/

namespace Bf.Text

open Rust Quote

variable {P : Printer} {C : Style}

/-- The variables of the emitted code that are not `Copy`. -/
def movable : List String := ["self", "field_bits", "this", "__src", "slice", "debug", "f"]

theorem back_copy (hw : ∀ w, P.B.backing = .int w → w ∈ [8, 16, 32, 64, 128]) : (tySyn (backTy P.B.backing)).kind = .copy := by
  cases hB : P.B.backing with
  | arr n => exact (by decide +kernel : (namesTy ["u8"]).kind = .copy)
  | int w =>
    have := hw w hB
    simp only [List.mem_cons, List.not_mem_nil, or_false] at this
    rcases this with rfl | rfl | rfl | rfl | rfl <;> decide +kernel

/-- Whatever the layout, the arguments, the types and the names are, no function among the items the macro prints uses a
variable after it was given away, takes a part that is not `Copy` from behind a reference, or takes something in a loop that
was there before. Neither the types of the user nor the bitfield nor its builder are taken to be `Copy`. Which members are
`Copy` and which methods take `self` is read off the same items. Missing: as in `C69_parses_partial`, default expressions
other than those of `Simple`, and ignored fields that are arrays; and defaults that are one of the names in `movable`, which
would name a variable of the emitted code. -/
theorem C73_nothing_used_after_move_partial (h : Fits P C) (hw : ∀ w, P.B.backing = .int w → w ∈ [8, 16, 32, 64, 128])
    (hh : P.B.heap = P.args.arrayHeap)
    (hn : ∀ f ∈ P.B.fields, f.hasDefault = true → ∀ x, C.user f.offset = names [x] → x ∉ movable) :
    ∃ k items, (∀ n, k ≤ n → parseItems n (expansionTokens P) = some items) ∧
      ∀ i ∈ items, ∀ f ∈ i.fns, f.moveOk (facts items) = true := by
  obtain ⟨k, hk⟩ := C69_parses_partial h
  replace hn : ∀ f ∈ P.B.fields, f.hasDefault = true → ∀ x, C.user f.offset = names [x] → x ∉ "self" :: "field_bits" :: looked :=
    fun f hf hd x hx hm => hn f hf hd x hx (by
      simp only [looked, movable, List.mem_cons, List.not_mem_nil, or_false] at hm ⊢
      rcases hm with h | h | h | h | h | h | h | h <;> simp [h])
  exact ⟨k, _, hk, expansion_move (around_of h (back_copy hw) hh hn) (freshIgnored_of h) (back_copy hw)⟩

/-- What is read off the items about the stored value is the case: it is `Copy` unless it is an array on the heap. -/
theorem C73_store_copy (hw : ∀ w, P.B.backing = .int w → w ∈ [8, 16, 32, 64, 128]) (hh : P.B.heap = P.args.arrayHeap) :
    (facts (P.expansion C)).part (if P.ignored = [] then "0" else "val") = true ↔ (∃ w, P.B.backing = .int w) ∨ P.args.arrayHeap = false := by
  rw [store_part P _ rfl, storage_kind (back_copy hw) hh, ← hh]
  unfold plainStore
  cases hB : P.B.backing <;> simp

/-- The function that gives the stored number takes the bitfield, and so do those of the builder: a bitfield that is not
`Copy` can be read only once that way. -/
theorem C73_into_takes {w : Nat} (hB : P.B.backing = .int w) (hF : .fromIntoBits ∈ enabledFeatures P.args) :
    (facts (P.expansion C)).self "into_bits" = true := by
  simp only [facts]
  refine List.any_eq_true.mpr ⟨_, List.mem_append_left _ (List.mem_append_right _ (.head _)), ?_⟩
  refine List.any_eq_true.mpr ⟨fnSyn C (P.head .value) (.fn "into_bits") (intoFn P.B none),
    List.mem_filterMap.mpr ⟨.fn (fnSyn C (P.head .value) (.fn "into_bits") (intoFn P.B none)), ?_, rfl⟩, rfl⟩
  refine List.mem_flatMap.mpr ⟨.fromIntoBits, List.mem_filter.mpr ⟨hF, by decide⟩,
    List.mem_map.mpr ⟨(P.head .value, .fn "into_bits", intoFn P.B none), ?_, rfl⟩⟩
  simp only [Printer.fns, hB]
  exact List.mem_append_right _ (.head _)

/-! ## Examples -/

example : ∃ k items, (∀ n, k ≤ n → parseItems n (expansionTokens Ex.printer) = some items) ∧
    ∀ i ∈ items, ∀ f ∈ i.fns, f.moveOk (facts items) = true :=
  C73_nothing_used_after_move_partial Ex.fits (fun w h => by
    have : Ex.printer.B.backing = .int 16 := rfl
    rw [this] at h
    cases h
    decide) rfl nofun

example : (facts (Ex.printer.expansion Ex.style)).self "into_bits" = true := C73_into_takes (P := Ex.printer) rfl (by decide)

/-- What the rule refuses: `fn n(a: T) { f(a); f(a); }` -/
example : (⟨none, false, "n", .none, [("a", .path [.name "T"] [])], none,
    [.expr (.call (names ["f"]) [names ["a"]]) true, .expr (.call (names ["f"]) [names ["a"]]) true]⟩ : SFn).moveOk
    (facts []) = false := by decide +kernel

/-- `fn n(a: u8) { f(a); f(a); }` is fine. -/
example : (⟨none, false, "n", .none, [("a", namesTy ["u8"])], none,
    [.expr (.call (names ["f"]) [names ["a"]]) true, .expr (.call (names ["f"]) [names ["a"]]) true]⟩ : SFn).moveOk
    (facts []) = true := by decide +kernel

/-- `fn n(a: T) { while b { f(a); } }`: in a loop -/
example : (⟨none, false, "n", .none, [("a", .path [.name "T"] []), ("b", namesTy ["bool"])], none,
    [.loop (names ["b"]) [.expr (.call (names ["f"]) [names ["a"]]) true]]⟩ : SFn).moveOk (facts []) = false := by decide +kernel

/-- `fn n(a: T) { if b { f(a); } f(a); }`: in one of two branches -/
example : (⟨none, false, "n", .none, [("a", .path [.name "T"] []), ("b", namesTy ["bool"])], none,
    [.expr (.ite (names ["b"]) [.expr (.call (names ["f"]) [names ["a"]]) true] none) false,
     .expr (.call (names ["f"]) [names ["a"]]) true]⟩ : SFn).moveOk (facts []) = false := by decide +kernel

/-- `fn n(&self) -> T { self.this }`: from behind a reference -/
example : (⟨none, false, "n", .ref, [], some (namesTy ["T"]), [.expr (.field (names ["self"]) "this") false]⟩ : SFn).moveOk
    (facts (Ex.printer.expansion Ex.style)) = false := by decide +kernel

/-- `fn n(self) { let bits = self.into_bits(); self.into_bits(); }`, but for `this`. -/
example : (⟨none, false, "n", .value, [], none, [.letS "this" none (names ["self"]) false,
    .letS "bits" none (.method (names ["this"]) "into_bits" []) false, .expr (.method (names ["this"]) "into_bits" []) true]⟩ : SFn).moveOk
    (facts (Ex.printer.expansion Ex.style)) = false := by decide +kernel

end Bf.Text
