import Verif.Model.EmitDecl
import Verif.Lemmas.TextImpls
import Verif.Props.Ignored

/-!
# The printed code is the code analysed (C69)
-/

namespace Bf.Text

open Rust Quote

variable {P : Printer} {C : Style}

/-! ## What a Rust parser reads -/

/-- Whatever the layout, the arguments, the types and the names are, the tokens the macro prints parse to the items of
`Printer.expansion`: the struct, the constants and the functions of `featureFns` with their Rust syntax. Missing:
default expressions other than those of `Simple`, and ignored fields that are arrays, see `finding_compound_default` and
`finding_ignored_array_text`. -/
theorem C69_parses_partial (h : Fits P C) : ∃ k, ∀ n, k ≤ n → parseItems n (expansionTokens P) = some (P.expansion C) :=
  (itm_expansion h).all

/-- What it parses to depends on the tokens alone. -/
theorem C69_unambiguous_partial {P P' : Printer} {C C' : Style} (h : Fits P C) (h' : Fits P' C')
    (e : expansionTokens P = expansionTokens P') : P.expansion C = P'.expansion C' := by
  obtain ⟨k, hk⟩ := C69_parses_partial h
  obtain ⟨k', hk'⟩ := C69_parses_partial h'
  have a := hk (max k k') (Nat.le_max_left _ _)
  have b := hk' (max k k') (Nat.le_max_right _ _)
  rw [e, b] at a
  exact (Option.some.inj a).symm

/-! ## The functions among the items -/

/-- The functions inside the `impl` block are those of `featureFns`, in this order. -/
theorem C69_functions (F : Feature) (hF : F.position = .inside) : (P.fns F).map Prod.snd = featureFns P.G F := by
  cases F with
  | struct | fromTraits | debug | builder | default => cases hF
  | constants => rfl
  | new => rfl
  | setters => simp only [Printer.fns, featureFns, List.map_flatMap]; rfl
  | getters => simp only [Printer.fns, featureFns, List.map_map]; rfl
  | fromIntoBits =>
    simp only [Printer.fns, featureFns]
    have e : P.G.B = P.B := rfl
    rw [e]
    cases P.B.backing <;> simp only [List.map_append, List.map_flatMap, List.map_map] <;> rfl
  | writeBitOps => simp only [Printer.fns, featureFns, List.map_append, List.map_flatMap]; rfl
  | setGetBitOps => rfl
  | clearBitOps => simp only [Printer.fns, featureFns, List.map_append, List.map_map]; rfl
  | invertBitOps => simp only [Printer.fns, featureFns, List.map_append, List.map_map]; rfl

/-- The functions of the builder are those of `featureFns`, in this order. -/
theorem C69_builder : (.impl .builderDefault, builderDefaultFn) :: P.builderFns.map Prod.snd ++ [(.builderFn "build", buildFn)] =
    featureFns P.G .builder := by
  simp only [Printer.builderFns, featureFns, List.map_append, List.map_flatMap]
  rfl

/-- The constants have the values of the program. -/
theorem C69_constants : P.constsSyn.map (fun
      | .const _ x _ (.int n _) => (x, n)
      | _ => ("", 0)) = (constants P.B).map fun c => (c.1.1.ident c.1.2, c.2) := by
  simp only [Printer.constsSyn, constants, List.map_flatMap]
  rfl

/-! ## The functions of a declaration -/

section

variable {s : StructSource} {p : Parsed} {default : Nat → List Tok} {constMut : Bool}

theorem G_of : (printerOf s p default constMut).G = genOf p := by
  simp only [Printer.G, printerOf, genOf, Parsed.hasIgnored, List.isEmpty_map]

theorem mem_enabled {args : BitfieldArgs} {F : Feature} : F ∈ enabledFeatures args ↔ F.enabled args = true := by
  refine ⟨fun h => (List.mem_filter.mp h).2, fun h => List.mem_filter.mpr ⟨?_, h⟩⟩
  cases F <;> decide

theorem mem_section {pos : Position} {F : Feature} :
    F ∈ (printerOf s p default constMut).section pos ↔ F.enabled p.args = true ∧ F.position = pos := by
  simp only [Printer.section, List.mem_filter, mem_enabled, decide_eq_true_eq]
  rfl

theorem mem_program {x : Tag × Fn} :
    x ∈ (program p).fns ↔ ∃ F : Feature, F.enabled p.args = true ∧ x ∈ featureFns (genOf p) F := by
  simp only [program, assemble, List.mem_flatMap, List.mem_filter]
  refine exists_congr fun F => ⟨fun h => ⟨h.1.2, h.2⟩, fun h => ⟨⟨?_, h.1⟩, h.2⟩⟩
  cases F <;> decide

/-- The functions whose text is not that of `fnSyn` alone: `fmt` has a formatter, `build` takes the bitfield out of the
builder, and the result of `from` for the storage type is written `Self`. -/
def special (t : Tag) : Bool := decide (t ∈ [.impl .debug, .builderFn "build", .impl .intoBacking])

/-- Every function of the program is read from the printed tokens. -/
theorem C69_every_function {t : Tag} {fn : Fn} (h : (t, fn) ∈ (program p).fns) (ht : special t = false) :
    ∃ H tr ty ms, .impl tr ty ms ∈ (printerOf s p default constMut).expansion C ∧ .fn (fnSyn C H t fn) ∈ ms := by
  obtain ⟨F, hF, hx⟩ := mem_program.mp h
  rw [← G_of (s := s) (default := default) (constMut := constMut)] at hx
  by_cases hi : F.position = .inside
  · rw [← C69_functions F hi] at hx
    obtain ⟨⟨H, y⟩, hy, rfl⟩ := List.mem_map.mp hx
    refine ⟨H, none, _, _, List.mem_append_left _ (List.mem_append_right _ (.head _)),
      List.mem_flatMap.mpr ⟨F, mem_section.mpr ⟨hF, hi⟩, ?_⟩⟩
    have e : (printerOf s p default constMut).members C F =
        ((printerOf s p default constMut).fns F).map fun x => .fn (fnSyn C x.1 x.2.1 x.2.2) := by
      cases F <;> first | rfl | cases hy
    rw [e]
    exact List.mem_map.mpr ⟨_, hy, rfl⟩
  · have hitem : ∀ i, i ∈ (printerOf s p default constMut).items C F →
        i ∈ (printerOf s p default constMut).expansion C := by
      intro i hi'
      cases hp : F.position with
      | inside => exact absurd hp hi
      | above =>
        exact List.mem_append_left _ (List.mem_append_left _ (List.mem_flatMap.mpr ⟨F, mem_section.mpr ⟨hF, hp⟩, hi'⟩))
      | below => exact List.mem_append_right _ (List.mem_flatMap.mpr ⟨F, mem_section.mpr ⟨hF, hp⟩, hi'⟩)
    cases F with
    | constants | new | setters | getters | fromIntoBits | writeBitOps | setGetBitOps | clearBitOps | invertBitOps =>
      exact absurd rfl hi
    | struct => cases hx
    | fromTraits =>
      simp only [featureFns, List.mem_cons, List.not_mem_nil, or_false] at hx
      rcases hx with hx | hx <;> cases hx
      · exact ⟨_, _, _, _, hitem _ (.head _), .head _⟩
      · cases ht
    | debug =>
      simp only [featureFns, List.mem_cons, List.not_mem_nil, or_false] at hx
      cases hx
      cases ht
    | default =>
      simp only [featureFns, List.mem_cons, List.not_mem_nil, or_false] at hx
      cases hx
      exact ⟨_, _, _, _, hitem _ (.head _), .head _⟩
    | builder =>
      rw [← C69_builder] at hx
      rcases List.mem_append.mp hx with hx | hx
      · rcases List.mem_cons.mp hx with hx | hx
        · cases hx
          exact ⟨_, _, _, _, hitem _ (.tail _ (.head _)), .head _⟩
        · obtain ⟨⟨H, y⟩, hy, rfl⟩ := List.mem_map.mp hx
          exact ⟨H, _, _, _, hitem _ (.tail _ (.tail _ (.head _))),
            List.mem_append_left _ (List.mem_map.mpr ⟨_, hy, rfl⟩)⟩
      · cases List.mem_singleton.mp hx
        cases ht

/-- Every function read from an `impl` block of the bitfield's name is one of the program. -/
theorem C69_no_other {ms : List SMember} {g : SFn}
    (h : .impl none (namesTy [s.name]) ms ∈ (printerOf s p default constMut).expansion C) (hg : .fn g ∈ ms) :
    ∃ H t fn, (t, fn) ∈ (program p).fns ∧ g = fnSyn C H t fn := by
  have hout : ∀ F, ¬ .impl none (namesTy [s.name]) ms ∈ (printerOf s p default constMut).items C F := by
    intro F hF
    cases F with
    | constants | new | setters | getters | fromIntoBits | writeBitOps | setGetBitOps | clearBitOps | invertBitOps =>
      cases hF
    | struct =>
      simp only [Printer.items] at hF
      split at hF <;> cases List.mem_singleton.mp hF
    | fromTraits =>
      rcases List.mem_cons.mp hF with hF | hF
      · cases hF
      · cases List.mem_singleton.mp hF
    | debug => cases List.mem_singleton.mp hF
    | default => cases List.mem_singleton.mp hF
    | builder =>
      rcases List.mem_cons.mp hF with hF | hF
      · cases hF
      rcases List.mem_cons.mp hF with hF | hF
      · cases hF
      · have e := List.mem_singleton.mp hF
        simp only [SItem.impl.injEq, namesTy, SType.path.injEq, List.map_cons, List.map_nil, List.cons.injEq,
          Seg.name.injEq, and_true, true_and] at e
        have e := congrArg String.length e.1
        simp only [String.length_append] at e
        have : s.name = (printerOf s p default constMut).name := rfl
        rw [this] at e
        have : "Builder".length = 7 := by decide
        omega
  rcases List.mem_append.mp h with h | h
  · rcases List.mem_append.mp h with h | h
    · obtain ⟨F, -, hF⟩ := List.mem_flatMap.mp h
      exact absurd hF (hout F)
    · have e := List.mem_singleton.mp h
      simp only [SItem.impl.injEq, true_and] at e
      rw [e.2] at hg
      obtain ⟨F, hF, hx⟩ := List.mem_flatMap.mp hg
      obtain ⟨he, hpos⟩ := mem_section.mp hF
      have hx : SMember.fn g ∈ ((printerOf s p default constMut).fns F).map fun x => .fn (fnSyn C x.1 x.2.1 x.2.2) := by
        cases F <;> first
          | exact hx
          | (simp only [Printer.members, Printer.constsSyn, List.mem_flatMap] at hx
             obtain ⟨f, -, hf⟩ := hx
             rcases List.mem_cons.mp hf with hf | hf
             · cases hf
             · cases List.mem_singleton.mp hf)
      obtain ⟨⟨H, t, fn⟩, hy, e⟩ := List.mem_map.mp hx
      refine ⟨H, t, fn, mem_program.mpr ⟨F, he, ?_⟩, (SMember.fn.inj e).symm⟩
      rw [← G_of (s := s) (default := default) (constMut := constMut), ← C69_functions F hpos]
      exact List.mem_map.mpr ⟨_, hy, rfl⟩
  · obtain ⟨F, -, hF⟩ := List.mem_flatMap.mp h
    exact absurd hF (hout F)

/-- The struct has the attributes, the visibility and the name of `structDef`. -/
theorem C69_struct (ht : ∀ c, p.ty ≠ .custom c) : (printerOf s p default constMut).structAttrs = (structDef s p).attrs ∧
    ∃ i, (printerOf s p default constMut).items C .struct = [i] ∧
      match i with
      | .tuple as v x _ => as = (structDef s p).attrs.map attrSyn ∧ v = some p.vis ∧ x = s.name ∧ p.hasIgnored = false
      | .struct as v x _ => as = (structDef s p).attrs.map attrSyn ∧ v = some p.vis ∧ x = s.name ∧ p.hasIgnored = true
      | .enum .. | .impl .. => False := by
  obtain ⟨ty, vis, fields, ignored, args⟩ := p
  have e : (printerOf s ⟨ty, vis, fields, ignored, args⟩ default constMut).structAttrs =
      (structDef s ⟨ty, vis, fields, ignored, args⟩).attrs := by
    simp only [Printer.structAttrs, structDef, defaultAttrs, printerOf, Parsed.hasIgnored, List.isEmpty_map,
      Parsed.bitfield, Parsed.intBacked]
    cases ty with
    | custom c => exact absurd rfl (ht c)
    | int t =>
      cases ignored <;> by_cases hc : args.copy = true <;> by_cases ha : args.arrayHeap = true <;>
        simp [hc, ha, DataType.backing]
    | array n =>
      cases ignored <;> by_cases hc : args.copy = true <;> by_cases ha : args.arrayHeap = true <;>
        simp [hc, ha, DataType.backing]
  refine ⟨e, ?_⟩
  simp only [Printer.items]
  cases hi : (printerOf s ⟨ty, vis, fields, ignored, args⟩ default constMut).ignored with
  | nil =>
    refine ⟨_, rfl, by rw [e], rfl, rfl, ?_⟩
    cases ignored with
    | nil => rfl
    | cons _ _ => cases hi
  | cons i is =>
    refine ⟨_, rfl, by rw [e], rfl, rfl, ?_⟩
    simp only [Parsed.hasIgnored]
    cases ignored with
    | nil => cases hi
    | cons _ _ => rfl

/-- The functions of a field have its visibility. -/
theorem C69_visibility (h : Partition p.bitfield.backing.size p.bitfield.fields) {q : PField} (hq : q ∈ p.fields) :
    (printerOf s p default constMut).fieldVis q.field.offset = q.vis := by
  have hin : ∀ q ∈ p.fields, 1 ≤ q.field.bits := fun q hq => (h.inside _ (List.mem_map.mpr ⟨q, hq, rfl⟩)).1
  have hd : p.fields.Pairwise fun a b => a.field.Disjoint b.field := List.pairwise_map.mp h.disjoint
  simp only [printerOf]
  obtain ⟨ty, vis, fields, ignored, args⟩ := p
  clear h
  simp only at hq hin hd ⊢
  revert hin hd
  induction fields with
  | nil => cases hq
  | cons a as ih =>
    intro hin hd
    simp only [List.find?_cons]
    rcases List.mem_cons.mp hq with rfl | hq
    · simp only [decide_true, Option.map_some, Option.getD_some]
    · have hne : a.field.offset ≠ q.field.offset := by
        have h1 := hin a (.head _)
        have h2 := hin q (.tail _ hq)
        have h3 := (List.pairwise_cons.mp hd).1 q hq
        intro e
        refine h3 a.field.offset ⟨?_, ?_⟩ <;> simp only [Field.covers, Bool.and_eq_true, decide_eq_true_eq] <;> omega
      simp only [hne, decide_false]
      exact ih hq (fun q hq => hin q (.tail _ hq)) (List.pairwise_cons.mp hd).2

end

/-! ## An example -/

namespace Ex

/-- ```
#[bitfield(u16, order = msb)]
#[derive(Hash)]
pub struct Status {
    #[bits(3, default = 0x5)] a: u8,
    #[bits(ignore = true)] x: u32,
    #[bits(4, access = ro)] k: Kind,
    flag: bool,
    _r: u8,
}
``` -/
def source : StructSource := ⟨["derive(Hash)"], .pub, "Status", [], ExS.S.decl.fields⟩

def printer : Printer := printerOf source ExS.p (fun _ => [.int 5 ""]) true

def style : Style := ⟨"Status", [("x", .call (.qpath (namesTy ["u32"]) [.name "default"]) [])], fun _ => .int 5 ""⟩

theorem fits : Fits printer style where
  name := rfl
  ignored := rfl
  user := fun f _ _ => .int f.ty 5 ""
  noArray := by
    intro x hx n h
    cases List.mem_singleton.mp hx
    cases h

example : ∃ k, ∀ n, k ≤ n → parseItems n (expansionTokens printer) = some (printer.expansion style) := C69_parses_partial fits

/-- What is printed for the getter of `flag`. -/
example : getterTokens printer ⟨"flag", .int .bool, 1, 8, .rw, false, none⟩ =
    let doc := Tok.str (Accessor.doc .msb ⟨"flag", .int .bool, 1, 8, .rw, false, none⟩ .get)
    let vis := Tok.vis .pub
    quote! "#[doc = #doc]
      #vis fn flag(&self) -> bool {
          let this = self;
          let mask = u16::MAX >> (u16::BITS - Self::FLAG_BITS);
          let value = (this.val >> Self::FLAG_OFFSET) & mask;
          value != 0
      }" := by krfl

example : ∃ H tr ty ms, .impl tr ty ms ∈ printer.expansion style ∧ .fn (fnSyn style H (.acc .get "flag")
    (getterFn ExS.p.bitfield ⟨"flag", .int .bool, 1, 8, .rw, false, none⟩)) ∈ ms :=
  C69_every_function (s := source) (p := ExS.p)
    (mem_program.mpr ⟨.getters, rfl, .tail _ (.tail _ (.head _))⟩) rfl

example : printer.fieldVis 13 = .pub :=
  C69_visibility (C01_partition (ExS.accepted .checked)) (q := ExS.p.fields[0]) (.head _)

end Ex

/-! ## Findings -/

/-- `#[bitfield(u8)] pub struct T { #[bits(8, default = A | B)] a: u8 }` -/
def ExCompound : Printer where
  B := ⟨.int 8, [⟨"a", .int .u8, 8, 0, .rw, false, some (.int 3)⟩], .big, .big, .big, false⟩
  name := "T"
  vis := .pub
  attrs := []
  ignored := []
  args := defaultArgs fun _ => false
  default := fun _ => [.ident "A", .p .or, .ident "B"]
  fieldVis := fun _ => .pub
  constMut := true

/-- A default expression is printed without parentheses in front of `as`: of `A | B` only `B` is converted to the type
of the field, so that constants of a wider type are rejected by the compiler. The code analysed converts the value of the
expression. -/
theorem finding_compound_default :
    (∀ f, ExCompound.B.fields = [f] → setDefaultTokens ExCompound f = quote! "this.set_a(A | B as _);" ∧
      ∀ n, ∃ read, parseStmts (n + 30) (setDefaultTokens ExCompound f) = some (read, []) ∧
        read = [.expr (.method (names ["this"]) "set_a"
          [.bin .or (names ["A"]) (.cast (names ["B"]) (namesTy ["_"]))]) true] ∧
        ∀ C, stmtSyn C (setDefaultTok ExCompound.B f) ≠ read) := by
  intro f hf
  cases hf
  refine ⟨by krfl, fun n => ⟨_, by krfl, rfl, fun C h => ?_⟩⟩
  have e : stmtSyn C (setDefaultTok ExCompound.B ⟨"a", .int .u8, 8, 0, .rw, false, some (.int 3)⟩) =
    [.expr (.method (names ["this"]) "set_a" [.cast (C.user 0) (namesTy ["_"])]) true] := by krfl
  rw [e] at h
  cases h

set_option maxRecDepth 10000 in
/-- An ignored field that is an array is made with `buf: [u8; 4]::default()`, which is not Rust: the type would have to
be in angle brackets. -/
theorem finding_ignored_array_text : ∃ p, parseBitfield .checked (fun _ => false) (ExVal (.bytes 4) "buf").attr
      (ExVal (.bytes 4) "buf").decl = .ok p ∧
    ignoredDefaultTokens (printerOf ⟨[], .inherited, "V", [], (ExVal (.bytes 4) "buf").decl.fields⟩ p (fun _ => []) true) =
      [quote! "buf: [u8; 4]::default()"] ∧
    ∀ n, parseItems (n + 100) (expansionTokens
      (printerOf ⟨[], .inherited, "V", [], (ExVal (.bytes 4) "buf").decl.fields⟩ p (fun _ => []) true)) = none := by
  refine ⟨ExVal.parsed (.array 4) "buf", rfl, ?_, fun n => ?_⟩
  · krfl
  · krfl

end Bf.Text
