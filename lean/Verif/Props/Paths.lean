import Verif.Lemmas.Paths
import Verif.Props.Const
import Verif.Props.Bitflag
import Verif.Props.Arguments

/-!
# `no_std` and allocation (C60)

`SpecPaths.lean` says which paths resolve without `std` and which allocate.
-/

namespace Bf

open Rust Quote

variable {m : Mode} {cfg : String → Bool} {s : StructSpec} {p : Parsed} {as : List BitfieldArgSpec}

theorem unboxed_of (h : p.shape.boxed = false) : Unboxed p.bitfield := by
  intro n hn
  simp only [Parsed.shape, Bool.and_eq_false_iff, Bool.not_eq_false'] at h
  rcases h with h | h
  · exact h
  · simp only [Parsed.bitfield, Parsed.intBacked] at hn h
    cases hp : p.ty <;> rw [hp] at hn h <;> cases hn
    cases h

/-- The paths outside of `core`: which there are depends on `copy` and on the storage only. -/
theorem paths_iff : (∀ q ∈ bitfieldPaths p, q.InCore) ↔ p.args.copy = false ∧ p.shape.boxed = false := by
  constructor
  · intro h
    have h1 : ∀ q ∈ structPaths p, q.InCore := fun q hq => h q (List.mem_append.mpr (.inl hq))
    unfold structPaths at h1
    unfold Parsed.shape
    dsimp only
    revert h1
    cases p.args.copy <;> cases p.args.arrayHeap && !p.intBacked <;> simp [Path.InCore]
  · rintro ⟨h1, h2⟩ q hq
    rcases List.mem_append.mp hq with hq | hq
    · have h2' : (p.args.arrayHeap && !p.intBacked) = false := h2
      simp [structPaths, h1, h2'] at hq
    · obtain ⟨x, hx, hq⟩ := List.mem_flatMap.mp hq
      exact program_core (unboxed_of h2) x hx q hq

theorem core_not_allocates {q : Path} (h : q.InCore) : ¬ q.Allocates := by
  unfold Path.InCore at h
  cases q with
  | nil => cases h
  | cons a q =>
    cases h
    simp [Path.Allocates]

theorem not_boxed (hr : s.Readable) (ha : s.rest = bitfieldTokens as) (h : parseBitfield m cfg s.attr s.decl = .ok p)
    (hb : s.intBacked = true ∨ flagValue cfg as .arrayHeap = false) : p.shape.boxed = false := by
  cases hx : p.shape.boxed with
  | false => rfl
  | true =>
    obtain ⟨h3, h4⟩ := (C49_shape hr ha h).1.mp hx
    rcases hb with hb | hb
    · rw [h3] at hb; cases hb
    · rw [h4] at hb; cases hb

/-! ## C60 -/

/-- **C60** (`no_std`). The full property is that the code for a struct that is not stored on the heap names nothing outside
of `core`. Missing: with `copy` on, which is the default, it names `std::marker::Copy` (`finding_copy_needs_std`). With `copy`
off it holds, whatever the other arguments are. -/
theorem C60_no_std_partial (hr : s.Readable) (ha : s.rest = bitfieldTokens as)
    (h : parseBitfield m cfg s.attr s.decl = .ok p)
    (hb : s.intBacked = true ∨ flagValue cfg as .arrayHeap = false) (hc : flagValue cfg as .copy = false) :
    ∀ q ∈ bitfieldPaths p, q.InCore := by
  refine paths_iff.mpr ⟨?_, not_boxed hr ha h hb⟩
  cases hx : p.args.copy with
  | false => rfl
  | true => rw [(C49_shape hr ha h).2.2.1.mp hx] at hc; cases hc

/-- **C60** (exactly when `std` is needed). Something outside of `core` is named exactly if `copy` is on or the bits are stored
on the heap; all other arguments, the fields and the storage make no difference. -/
theorem C60_needs_std (hr : s.Readable) (ha : s.rest = bitfieldTokens as)
    (h : parseBitfield m cfg s.attr s.decl = .ok p) :
    (∃ q ∈ bitfieldPaths p, ¬ q.InCore) ↔
      flagValue cfg as .copy = true ∨ (s.intBacked = false ∧ flagValue cfg as .arrayHeap = true) := by
  obtain ⟨h1, -, h2, -⟩ := C49_shape hr ha h
  have h2' : p.args.copy = true ↔ flagValue cfg as .copy = true := h2
  rw [← h1, ← h2']
  constructor
  · rintro ⟨q, hq, hn⟩
    refine Classical.byContradiction fun hx => ?_
    simp only [not_or, Bool.not_eq_true] at hx
    exact hn (paths_iff.mpr hx q hq)
  · intro hx
    refine Classical.byContradiction fun hn => ?_
    have := paths_iff.mp fun q hq => Classical.byContradiction fun hc => hn ⟨q, hq, hc⟩
    rw [this.1, this.2] at hx
    simp at hx

/-- **C60** (nothing else is named). Every path in the code is an item of the standard library. Outside of `core` there are at
most three: `Copy` if `copy` is on and the bits are not on the heap, and `Box` and `Box::new` if they are. -/
theorem C60_named (hr : s.Readable) (ha : s.rest = bitfieldTokens as) (h : parseBitfield m cfg s.attr s.decl = .ok p) :
    ∀ q ∈ bitfieldPaths p, q ∈ libraryPaths ∧ (q.InCore ∨
      (q = ["std", "marker", "Copy"] ∧ flagValue cfg as .copy = true ∧
        (s.intBacked = true ∨ flagValue cfg as .arrayHeap = false)) ∨
      ((q = ["std", "boxed", "Box"] ∨ q = ["std", "boxed", "Box", "new"]) ∧
        s.intBacked = false ∧ flagValue cfg as .arrayHeap = true)) := by
  obtain ⟨h1, -, h2, -⟩ := C49_shape hr ha h
  have h2' : p.args.copy = true ↔ flagValue cfg as .copy = true := h2
  have hb : s.intBacked = true ∨ flagValue cfg as .arrayHeap = false ↔ ¬ p.shape.boxed = true := by
    rw [h1]
    cases s.intBacked <;> cases flagValue cfg as .arrayHeap <;> simp
  rw [hb, ← h1, ← h2']
  have hx : p.shape.boxed = (p.args.arrayHeap && !p.intBacked) := rfl
  intro q hq
  rcases List.mem_append.mp hq with hq | hq
  · rw [hx]
    unfold structPaths at hq
    revert hq
    cases p.args.copy <;> cases p.args.arrayHeap && !p.intBacked <;>
      simp only [Bool.false_eq_true, if_true, if_false, List.append_nil, List.nil_append, List.not_mem_nil, List.mem_cons,
        List.cons_append, or_false, false_imp_iff]
    · rintro rfl; decide
    · rintro (rfl | rfl) <;> decide
    · rintro (rfl | rfl) <;> decide
  · have hc : p.shape.boxed = false → q.InCore := fun hu => by
      obtain ⟨x, hx, hq⟩ := List.mem_flatMap.mp hq
      exact program_core (unboxed_of hu) x hx q hq
    obtain ⟨x, -, hq⟩ := List.mem_flatMap.mp hq
    rcases List.mem_append.mp hq with hq | hq
    · exact ⟨headPaths_library _ q hq, .inl (headPaths_core _ q hq)⟩
    · obtain ⟨h3, h4⟩ := fnPaths_library q hq
      refine ⟨h3, ?_⟩
      rcases h4 with rfl | rfl
      · exact .inl rfl
      · cases hu : p.shape.boxed
        · exact .inl (hc hu)
        · exact .inr (.inr ⟨.inr rfl, rfl⟩)

/-- **C60** (no allocation). The code for a struct that is not stored on the heap names nothing that allocates; in particular
it does not call `Box::new`. -/
theorem C60_no_alloc (hr : s.Readable) (ha : s.rest = bitfieldTokens as)
    (h : parseBitfield m cfg s.attr s.decl = .ok p)
    (hb : s.intBacked = true ∨ flagValue cfg as .arrayHeap = false) : ∀ q ∈ bitfieldPaths p, ¬ q.Allocates := by
  have hx := not_boxed hr ha h hb
  intro q hq
  rcases List.mem_append.mp hq with hq | hq
  · have hx' : (p.args.arrayHeap && !p.intBacked) = false := hx
    simp only [structPaths, hx', Bool.false_eq_true, if_false, List.append_nil] at hq
    split at hq
    · simp only [List.mem_cons, List.not_mem_nil, or_false] at hq
      rcases hq with rfl | rfl <;> decide
    · cases hq
  · obtain ⟨x, hx', hq⟩ := List.mem_flatMap.mp hq
    exact core_not_allocates (program_core (unboxed_of hx) x hx' q hq)

/-- **C60** (enums). The code for an enum names items of the library only, never anything that allocates, and names something outside of `core` exactly
if `copy` is on. -/
theorem C60_enum {s : EnumSpec} {c : FlagCode} (hr : s.Readable) (h : expandBitflag cfg s.attr s.decl = .ok c) :
    (∀ q ∈ flagPaths c, q ∈ libraryPaths ∧ ¬ q.Allocates) ∧ ((∃ q ∈ flagPaths c, ¬ q.InCore) ↔ s.copies cfg = true) := by
  rw [← (C51_enum hr h).2.1]
  unfold flagPaths
  cases c.copy <;> simp [Path.Allocates, Path.InCore, libraryPaths]

/-! ## The hypotheses hold for concrete declarations -/

namespace ExC

/-- The example of C58 with `copy = false` -/
def N : StructSpec := { C with rest := bitfieldTokens [.flag .copy false] }

end ExC

/-- Without `copy`, the code needs `core` only; it does name paths. -/
example : ∃ p, parseBitfield .checked (fun _ => false) ExC.N.attr ExC.N.decl = .ok p ∧
    (∀ q ∈ bitfieldPaths p, q.InCore) ∧ ["core", "result", "Result"] ∈ bitfieldPaths p := by
  obtain ⟨p, hp⟩ : ∃ p, parseBitfield .checked (fun _ => false) ExC.N.attr ExC.N.decl = .ok p := ⟨_, rfl⟩
  have hr : ExC.N.Readable := ⟨ExC.readable.storage, ExC.readable.ty, ExC.readable.default⟩
  refine ⟨p, hp, C60_no_std_partial (as := [.flag .copy false]) hr rfl hp (.inl rfl) (by decide), ?_⟩
  have h3 : Feature.setGetBitOps ∈ Feature.all.filter fun f => f.enabled p.args := by cases hp; decide
  refine List.mem_append.mpr (.inr (List.mem_flatMap.mpr ⟨(.fn "checked_set_bit", checkedSetBitFn (genOf p)), ?_, ?_⟩))
  · exact List.mem_flatMap.mpr ⟨.setGetBitOps, h3, .tail _ (.head _)⟩
  · simp [headPaths, fnPaths, checkedSetBitFn, typePaths]

/-- With it, something that is not in `core` but nothing that allocates. -/
example : ∃ p, parseBitfield .checked (fun _ => false) ExC.C.attr ExC.C.decl = .ok p ∧
    (∀ q ∈ bitfieldPaths p, ¬ q.Allocates) ∧ ∃ q ∈ bitfieldPaths p, ¬ q.InCore := by
  obtain ⟨p, hp⟩ : ∃ p, parseBitfield .checked (fun _ => false) ExC.C.attr ExC.C.decl = .ok p := ⟨_, rfl⟩
  exact ⟨p, hp, C60_no_alloc ExC.readable rfl hp (.inl rfl), (C60_needs_std ExC.readable rfl hp).mpr (.inl (by decide))⟩

/-- On the heap, `Box` is all there is outside of `core`. -/
example : ∃ p, parseBitfield .checked (fun _ => false) ExH.H.attr ExH.H.decl = .ok p ∧
    ∀ q ∈ bitfieldPaths p, q.InCore ∨ q = ["std", "boxed", "Box"] ∨ q = ["std", "boxed", "Box", "new"] := by
  obtain ⟨p, hp⟩ := ExH.accepted .checked
  refine ⟨p, hp, fun q hq => ?_⟩
  rcases (C60_named ExH.readable rfl hp q hq).2 with h | ⟨-, -, h⟩ | ⟨h, -⟩
  · exact .inl h
  · exact absurd h (by decide)
  · exact .inr h

/-- An array on the heap: the storage and the constructors name `Box`. -/
example : ∃ p, parseBitfield .checked (fun _ => false) ExH.H.attr ExH.H.decl = .ok p ∧
    (∃ q ∈ bitfieldPaths p, q.Allocates) ∧ boxNewPath ∈ fnPaths (newFn p.bitfield true) := by
  obtain ⟨p, hp⟩ := ExH.accepted .checked
  refine ⟨p, hp, ⟨["std", "boxed", "Box"], ?_, by decide⟩, ?_⟩
  · refine List.mem_append.mpr (.inl ?_)
    cases hp
    decide
  · cases hp
    decide

example : (∀ q ∈ flagPaths ExFlag.c, ¬ q.Allocates) ∧ ∀ q ∈ flagPaths ExFlag.c, q.InCore := by
  have h := C60_enum ExFlag.readable ExFlag.accepted
  refine ⟨fun q hq => (h.1 q hq).2, fun q hq => Classical.byContradiction fun hn => ?_⟩
  have := h.2.mp ⟨q, hq, hn⟩
  revert this
  decide

/-! ## The code violates the property -/

namespace Finding

/-- `#[bitfield(u8)] struct S { a: u8 }` -/
def byteStruct : StructSpec where
  storage := .int .u8
  rest := []
  vis := .priv
  fields := [⟨"a", .priv, .int .u8, none⟩]

/-- `#[bitflag(u8)] enum E { #[base] A = 0 }` -/
def oneFlag : EnumSpec where
  ty := .int .u8
  args := []
  vis := .priv
  variants := [⟨"A", ["base"], some (.int ⟨false, 0, .dec, ['0'], []⟩, 0)⟩]

/-- **C60** fails: by default the code for a struct and for an enum derives `std::marker::Copy`, a path that does not resolve
in a `#![no_std]` crate. -/
theorem finding_copy_needs_std : ∀ m,
    (∃ p, parseBitfield m (fun _ => false) byteStruct.attr byteStruct.decl = .ok p ∧
      ["std", "marker", "Copy"] ∈ bitfieldPaths p ∧ ¬ Path.InCore ["std", "marker", "Copy"]) ∧
    ∃ c, expandBitflag (fun _ => false) oneFlag.attr oneFlag.decl = .ok c ∧ ["std", "marker", "Copy"] ∈ flagPaths c := by
  intro m
  refine ⟨?_, _, rfl, by decide⟩
  have h : ∃ p, parseBitfield m (fun _ => false) byteStruct.attr byteStruct.decl = .ok p := by cases m <;> exact ⟨_, rfl⟩
  obtain ⟨p, hp⟩ := h
  refine ⟨p, hp, List.mem_append.mpr (.inl ?_), by decide⟩
  cases m <;> cases hp <;> decide

end Finding

end Bf
