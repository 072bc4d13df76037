import Verif.Lemmas.Const
import Verif.Props.Surface
import Verif.Props.Declared

/-!
# The emitted functions may be `const` (C58)

`Parsed.shape.constFn` says when the functions of the `impl` blocks are declared `const fn` (see `C49_shape`).
-/

namespace Bf

open Rust Quote

variable {m : Mode} {cfg : String → Bool}

/-- **C58** (const functions). If the functions are declared `const`, none of them contains anything that is not allowed in
a `const fn`. -/
theorem C58_const {p : Parsed} (h : p.shape.constFn = true) {t : Tag} {f : Fn} (hf : (t, f) ∈ (program p).fns)
    (ht : inherent t = true) : f.constOk = true := by
  have hg : (genOf p).ignored = false := by
    simp only [Parsed.shape, Bool.and_eq_true, Bool.not_eq_true'] at h
    exact h.1
  have hu : Unboxed (genOf p).B := by
    intro n hn
    simp only [Parsed.shape, Bool.and_eq_true, Bool.not_eq_true', Bool.and_eq_false_iff, Bool.not_eq_false'] at h
    rcases h.2 with h | h
    · exact h
    · simp only [genOf, Parsed.bitfield, Parsed.intBacked] at hn h
      cases hp : p.ty <;> rw [hp] at hn h <;> cases hn
      cases h
  simp only [program, assemble, List.mem_flatMap] at hf
  obtain ⟨ft, -, hx⟩ := hf
  exact featureFns_constOk hg hu ft _ hx ht

/-- **C58** (declared structs). For an accepted declaration without ignored fields, whose bits are an integer or an array
that is not on the heap, every function that is not of a trait is a `const fn` and contains nothing that is not allowed in
one. -/
theorem C58_declared {s : StructSpec} {as : List BitfieldArgSpec} {p : Parsed} (hr : s.Readable)
    (ha : s.rest = bitfieldTokens as) (h : parseBitfield m cfg s.attr s.decl = .ok p)
    (hi : ∀ f ∈ s.fields, f.ignored = false) (hb : s.intBacked = true ∨ flagValue cfg as .arrayHeap = false) :
    p.shape.constFn = true ∧ ∀ t f, (t, f) ∈ (program p).fns → inherent t = true → f.constOk = true := by
  obtain ⟨h1, -, -, -, h2, -⟩ := C49_shape hr ha h
  have hc : p.shape.constFn = true := by
    refine h2.mpr ⟨hi, ?_⟩
    cases hx : p.shape.boxed with
    | false => rfl
    | true =>
      obtain ⟨h3, h4⟩ := h1.mp hx
      rcases hb with hb | hb
      · rw [h3] at hb; cases hb
      · rw [h4] at hb; cases hb
  exact ⟨hc, fun t f hf ht => C58_const hc hf ht⟩

/-! ## The hypotheses hold for concrete declarations -/

namespace ExC

def as : List BitfieldArgSpec := [.flag .bitOps true, .flag .invertBitOps true]

/-- `#[bitfield(u16, bit_ops = true, invert_bit_ops = true)]` with a custom field, a read-only one and a reserved one -/
def C : StructSpec where
  storage := .int .u16
  rest := bitfieldTokens as
  vis := .pub
  fields := [
    ⟨"a", .priv, .int .i8, some ⟨some 5, []⟩⟩,
    ⟨"k", .priv, .custom "Kind" ExS.kind, some ⟨some 4, []⟩⟩,
    ⟨"c", .priv, .int .u8, some ⟨some 4, [.access .ro]⟩⟩,
    ⟨"_r", .priv, .int .u8, some ⟨some 3, []⟩⟩]

theorem readable : C.Readable where
  storage := trivial
  ty := by
    intro f hf
    simp only [C, List.mem_cons, List.not_mem_nil, or_false] at hf
    rcases hf with rfl | rfl | rfl | rfl <;> first | trivial | (show _ ∉ _; decide)
  default := by
    intro f hf d v hd
    simp only [C, List.mem_cons, List.not_mem_nil, or_false] at hf
    rcases hf with rfl | rfl | rfl | rfl <;> simp [FieldSpec.args] at hd

/-- The same struct, with an ignored field added -/
def I : StructSpec := { C with fields := ⟨"x", .priv, .int .u32, some ⟨none, [.ignore true]⟩⟩ :: C.fields }

end ExC

/-- Every emitted function of the struct is `const`; for instance `set_bit`, which has a guard for the read-only field,
and `invert_k`, which calls the setter of `k`. -/
example : ∀ p, parseBitfield .checked (fun _ => false) ExC.C.attr ExC.C.decl = .ok p →
    (p.shape.constFn = true ∧ ∀ t f, (t, f) ∈ (program p).fns → inherent t = true → f.constOk = true) ∧
    ((program p).fns.map Prod.fst).contains (.fn "set_bit") = true ∧
    ((program p).fns.map Prod.fst).contains (.acc .invert "k") = true := by
  intro p hp
  refine ⟨C58_declared ExC.readable rfl hp ?_ (.inl rfl), ?_⟩
  · intro f hf
    simp only [ExC.C, List.mem_cons, List.not_mem_nil, or_false] at hf
    rcases hf with rfl | rfl | rfl | rfl <;> rfl
  · cases hp
    exact ⟨by decide, by decide⟩

example : ∃ p, parseBitfield .checked (fun _ => false) ExC.C.attr ExC.C.decl = .ok p := ⟨_, rfl⟩

/-- With an ignored field the functions are not `const`, and `set_bit` contains something that is not allowed in a `const
fn`: declaring it `const` would not compile. -/
example : ∀ p, parseBitfield .checked (fun _ => false) ExC.I.attr ExC.I.decl = .ok p →
    p.shape.constFn = false ∧ ∃ f, (Tag.fn "set_bit", f) ∈ (program p).fns ∧ f.constOk = false := by
  intro p hp
  have h1 : p.shape.constFn = false := by cases hp; rfl
  have h2 : (setBitFn (genOf p)).constOk = false := by cases hp; rfl
  have h3 : Feature.setGetBitOps ∈ Feature.all.filter fun f => f.enabled p.args := by cases hp; decide
  refine ⟨h1, setBitFn (genOf p), ?_, h2⟩
  simp only [program, assemble, List.mem_flatMap]
  exact ⟨.setGetBitOps, h3, .head _⟩

example : ∃ p, parseBitfield .checked (fun _ => false) ExC.I.attr ExC.I.decl = .ok p := ⟨_, rfl⟩

end Bf
