import Verif.Lemmas.TextFlag
import Verif.Props.Bitflag

/-!
# The printed code of a bitflag enum is the code analysed (C70)
-/

namespace Bf.Text

open Rust Quote

section

variable {P : FlagPrinter} {value : String → SExpr} {c : FlagCode}

/-- **C70** (syntax). The tokens printed for an enum parse to the enum and the two functions of `flagItems`, if the value
of each variant is an integer or a path. Missing: other values, see `finding_computed_value`. -/
theorem C70_parses_partial (h : generateBitflag P.F = .ok c)
    (hv : ∀ v ∈ P.F.variants, Constant (P.value v.name) (value v.name)) :
    ∃ ts, flagTokens P = .ok ts ∧ ∃ k, ∀ n, k ≤ n → parseItems n ts = some (flagItems P.name P.attrs value c) := by
  obtain ⟨ts, h1, h2⟩ := itm_flag h hv
  exact ⟨ts, h1, h2.all⟩

/-- **C70** (`from_bits`). Running the function that is read from the tokens gives the variant `flagFromBits` names, for
all bits. `val` gives the value of a constant, the one rustc computes. -/
theorem C70_from_bits_partial {w : Nat} {val : SExpr → Nat} (h : generateBitflag P.F = .ok c)
    (hv : ∀ v ∈ P.F.variants, Constant (P.value v.name) (value v.name))
    (hn : ∀ v ∈ P.F.variants, P.value v.name ≠ [.ident "_"])
    (hval : ∀ v ∈ P.F.variants, val (value v.name) = v.value) :
    ∃ ts k, flagTokens P = .ok ts ∧ ∀ n, k ≤ n → ∃ is f, parseItems n ts = some is ∧
      fnNamed "from_bits" is = some f ∧
      ∀ bits : BitVec w, runFrom val f.body bits = some (names ["Self", flagFromBits c bits]) := by
  obtain ⟨ts, h1, k, h2⟩ := C70_parses_partial h hv
  obtain ⟨u, -, hcd⟩ := generate_of h
  have harm : ∀ a ∈ c.cases.arms, ∃ v ∈ P.F.variants, a = (v.value, v.name) := by
    intro a ha
    rw [hcd] at ha
    obtain ⟨v, hv', rfl⟩ := List.mem_map.mp ha
    exact ⟨v, (List.mem_filter.mp hv').1, rfl⟩
  refine ⟨ts, k, h1, fun n hk => ⟨_, _, h2 n hk, rfl, run_from ?_ ?_⟩⟩
  · intro a ha
    obtain ⟨v, hm, rfl⟩ := harm a ha
    have hc := hv v hm
    have hn := hn v hm
    show (value v.name).isWild = false
    generalize P.value v.name = ts at hc hn
    generalize value v.name = e at hc
    cases hc with
    | int => rfl
    | path => rfl
    | name x => exact decide_eq_false fun e => hn (by rw [e])
  · intro a ha
    obtain ⟨v, hm, rfl⟩ := harm a ha
    exact hval v hm

/-- **C70** (`into_bits`). Running the function that is read from the tokens on a variant gives the bits of
`flagIntoBits`; its discriminant is the value rustc gives it. -/
theorem C70_into_bits_partial {w : Nat} (h : generateBitflag P.F = .ok c)
    (hv : ∀ v ∈ P.F.variants, Constant (P.value v.name) (value v.name)) :
    ∃ ts k, flagTokens P = .ok ts ∧ ∀ n, k ≤ n → ∃ is f, parseItems n ts = some is ∧
      fnNamed "into_bits" is = some f ∧
      ∀ v ∈ c.variants, (∀ u ∈ c.variants, u.1 = v.1 → u = v) →
        runInto (BitVec.ofNat w v.2.2) f.body = some (flagIntoBits c w v.1) := by
  obtain ⟨ts, h1, k, h2⟩ := C70_parses_partial h hv
  refine ⟨ts, k, h1, fun n hk => ⟨_, _, h2 n hk, rfl, fun v hm hu => ?_⟩⟩
  rw [run_into]
  unfold flagIntoBits
  cases hf : c.variants.find? fun u => u.1 == v.1 with
  | none => exact absurd (List.find?_eq_none.mp hf v hm) (by simp)
  | some u =>
    rw [hu u (List.mem_of_find?_eq_some hf) (by simpa using List.find?_some hf)]

/-- **C70** (panics). Printing panics exactly when the analysed generator does. -/
theorem C70_panics (e : Reject) : flagTokens P = .error e ↔ generateBitflag P.F = .error e := by
  unfold flagTokens flagFromTokens casesTokens generateBitflag matchCases
  cases (P.F.variants.find? FlagVariant.base).or (P.F.variants.find? FlagVariant.default)
  · exact ⟨fun h => by cases h; rfl, fun h => by cases h; rfl⟩
  · exact ⟨fun h => (by cases h), fun h => (by cases h)⟩

end

/-! ## An example: the enum of `ExFlag` -/

namespace ExFlagText

def F : Bitflag where
  ty := .int .u16
  vis := .pub
  variants := [⟨"Off", ["default"], 0, false, true⟩, ⟨"On", [], 16, false, false⟩, ⟨"Other", ["doc"], 7, true, false⟩,
    ⟨"Last", [], 300, false, false⟩]
  args := ⟨.big, .little, false⟩

theorem parsed : parseBitflag (fun _ => false) ExFlag.s.attr ExFlag.s.decl = .ok F := rfl

def P : FlagPrinter where
  F := F
  name := "Mode"
  attrs := ["derive(Debug)"]
  value x :=
    if x = "Off" then quote! "0" else if x = "On" then quote! "0x10" else if x = "Other" then quote! "7" else quote! "LAST"

def value (x : String) : SExpr :=
  if x = "Off" then .int 0 "" else if x = "On" then .int 16 "" else if x = "Other" then .int 7 "" else names ["LAST"]

def val : SExpr → Nat
  | .int n _ => n
  | _ => 300

theorem constants : ∀ v ∈ P.F.variants, Constant (P.value v.name) (value v.name) := by
  intro v hv
  simp only [P, F, List.mem_cons, List.not_mem_nil, or_false] at hv
  rcases hv with rfl | rfl | rfl | rfl
  · exact .int 0 ""
  · exact .int 16 ""
  · exact .int 7 ""
  · exact .name "LAST"

theorem generated : generateBitflag P.F = .ok ExFlag.c := rfl

example : ∃ ts, flagTokens P = .ok ts ∧ ∃ k, ∀ n, k ≤ n → parseItems n ts = some (flagItems P.name P.attrs value ExFlag.c) :=
  C70_parses_partial generated constants

example : ∃ ts k, flagTokens P = .ok ts ∧ ∀ n, k ≤ n → ∃ is f, parseItems n ts = some is ∧
    fnNamed "from_bits" is = some f ∧
    ∀ bits : BitVec 16, runFrom val f.body bits = some (names ["Self", flagFromBits ExFlag.c bits]) := by
  refine C70_from_bits_partial generated constants ?_ ?_ <;> intro v hv <;>
    simp only [P, F, List.mem_cons, List.not_mem_nil, or_false] at hv <;>
    rcases hv with rfl | rfl | rfl | rfl
  all_goals first | rfl | (intro h; simp [P] at h)

example : flagFromBits ExFlag.c (300#16) = "Last" ∧ flagIntoBits ExFlag.c 16 "Last" = 0x2c01#16 := by decide

example : ∀ u ∈ ExFlag.c.variants, u.1 = "Last" → u = ("Last", [], 300) := by
  intro u hu h
  simp only [ExFlag.c, List.mem_cons, List.not_mem_nil, or_false] at hu
  rcases hu with rfl | rfl | rfl | rfl <;> first | rfl | exact absurd h (by decide)

-- Without a variant marked `#[base]` or `#[default]` both panic. `parse_bitflag_enum` rejects such an enum before.
example : flagTokens { P with F := { F with variants := [] } } = .error (.panic .unreachable) :=
  (C70_panics _).mpr rfl

end ExFlagText

/-! ## Computed values -/

/-- `A = 1 << 2` is a discriminant in Rust, and the macro accepts it. It repeats the expression as a pattern, and what it
prints is not Rust. -/
theorem finding_computed_value (c : Codec) :
    ∃ (F : Bitflag) (P : FlagPrinter) (ts : List Tok),
      parseBitflag (fun _ => false) ⟨some (.path "u8" c), []⟩
        ⟨.pub, [⟨"A", [], some ("1 << 2".toList, 4)⟩, ⟨"B", ["base"], some ("0".toList, 0)⟩]⟩ = .ok F ∧
      P.F = F ∧ P.value "A" = quote! "1 << 2" ∧ P.value "B" = quote! "0" ∧
      flagTokens P = .ok ts ∧ ∀ n, parseItems (n + 100) ts = none := by
  refine ⟨_, ⟨_, "X", [], fun x => if x = "A" then quote! "1 << 2" else quote! "0"⟩, _, rfl, rfl, rfl, rfl, rfl, ?_⟩
  intro n
  krfl

end Bf.Text
