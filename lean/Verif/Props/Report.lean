import Verif.Lemmas.Report
import Verif.Props.Form
import Verif.Props.ParserFindings

/-!
# What is wrong with a declaration is reported (C57)

The other theorems about rejected declarations are about well-formed ones. These are about declarations as written:
any tokens in the attributes, any types, missing or repeated things.
-/

namespace Bf

variable {m : Mode} {cfg : String → Bool} {attr : AttrInput} {d : StructDecl}

/-- **C57** (structs). The macro never fails internally on the declaration: what it does not accept it reports. Missing
from the full property, which is false for them: defaults the macro cannot read, integer fields with a default and more
than 128 bits, ignored fields of unknown types, widths that add up to 2^32 or more, raw identifiers,
`force_panic = true` (see `Reportable`). -/
theorem C57_reported_partial (h : Reportable attr d) {e : Reject} (he : expandBitfield m cfg attr d = .error e) :
    ∃ msg, e = .error msg :=
  expandBitfield_reports h e he

/-- **C57** (verdict). If moreover the defaults are not float literals, the macro accepts the declaration if it is a way
of writing a legal struct, and reports an error if it is not. Missing: as in `C57_reported_partial`. -/
theorem C57_verdict_partial (h : Reportable attr d) (hd : d.DefaultsReadable) :
    ((∃ (s : StructSpec) (as : List BitfieldArgSpec), s.Spelled as attr d ∧ s.Readable ∧ s.Legal) →
      ∃ items, expandBitfield m cfg attr d = .ok items) ∧
    ((¬ ∃ (s : StructSpec) (as : List BitfieldArgSpec), s.Spelled as attr d ∧ s.Readable ∧ s.Legal) →
      ∃ msg, expandBitfield m cfg attr d = .error (.error msg)) := by
  have hacc := C56_accepted (m := m) (cfg := cfg) (attr := attr) hd (.inr fun s as => h.small)
  constructor
  · intro hs
    obtain ⟨p, hp⟩ := hacc.mpr hs
    cases hx : expandBitfield m cfg attr d with
    | ok items => exact ⟨items, rfl⟩
    | error e =>
      exfalso
      obtain ⟨msg, rfl⟩ := C57_reported_partial h hx
      unfold expandBitfield at hx
      rw [hp] at hx
      change (if _ then _ else (if _ then _ else _)) = _ at hx
      split at hx
      · cases hx
      · split at hx <;> cases hx
  · intro hs
    cases hx : expandBitfield m cfg attr d with
    | error e =>
      obtain ⟨msg, rfl⟩ := C57_reported_partial h hx
      exact ⟨msg, rfl⟩
    | ok items =>
      exfalso
      obtain ⟨p, hp, -⟩ := expandBitfield_ok.mp hx
      exact hs (hacc.mp ⟨p, hp⟩)

/-- **C57** (enums). The same for `#[bitflag]`, whatever the attribute and the variants. Missing: discriminants the macro
cannot read. -/
theorem C57_enum_partial {d : EnumDecl} (h : d.Reportable) {e : Reject} (he : expandBitflag cfg attr d = .error e) :
    ∃ msg, e = .error msg :=
  expandBitflag_reports h e he

/-! ## The hypotheses hold for concrete declarations -/

namespace ExP

/-- `#[bitfield(u16, order = msb)] struct S { #[bits(9, default = 0x1F)] a: u16, #[bits(ignore = true)] b: u32,
#[bits(default = 1.5)] c: u8 }`: a float default, and 17 bits. -/
def A : AttrInput := ⟨some (.path "u16" idCodec), [.comma, .ident "order", .eq, .expr ['m', 's', 'b'] (.int 0)]⟩

def decl : StructDecl where
  vis := .pub
  fields := some [
    ⟨"a", .priv, .path "u16" idCodec,
      [⟨true, true, some [.int 9 false, .comma, .ident "default", .eq, .expr ['0', 'x', '1', 'F'] (.int 31)]⟩]⟩,
    ⟨"b", .priv, .path "u32" idCodec,
      [⟨true, true, some [.ident "ignore", .eq, .expr ['t', 'r', 'u', 'e'] (.bool true)]⟩]⟩,
    ⟨"c", .priv, .path "u8" idCodec,
      [⟨true, true, some [.ident "default", .eq, .expr ['1', '.', '5'] (.int 0)]⟩]⟩]

theorem hasDefault {ts : List Tok} {pre : List Tok} {t text : List Char} {v : Val}
    (hts : ts = pre ++ [.ident "default", .eq, .expr t v]) (hpre : Tok.ident "default" ∉ pre) (h : HasDefault ts text) :
    text = t := by
  obtain ⟨v', a, b, h⟩ := h
  rw [hts] at h
  have h' : a ++ (.ident "default" :: (.eq :: .expr text v' :: b)) = pre ++ .ident "default" :: [.eq, .expr t v] := by
    simpa using h
  rcases List.append_eq_append_iff.mp h' with ⟨c, h1, h2⟩ | ⟨c, h1, h2⟩
  · cases c with
    | nil => simp at h2; exact h2.1.1
    | cons x xs =>
      simp only [List.cons_append, List.cons.injEq] at h2
      obtain ⟨rfl, h2⟩ := h2
      exact absurd (by rw [h1]; simp) hpre
  · cases c with
    | nil => simp at h2; exact h2.1.1.symm
    | cons x xs =>
      simp only [List.cons_append, List.cons.injEq] at h2
      obtain ⟨rfl, h2⟩ := h2
      have : Tok.ident "default" ∈ [Tok.eq, Tok.expr t v] := by rw [h2]; simp
      simp at this

theorem reportable : Reportable A decl where
  storage := by intro t h; cases h; decide
  field := by
    intro ds h f hf
    cases h
    simp only [List.mem_cons, List.not_mem_nil, or_false] at hf
    rcases hf with rfl | rfl | rfl
    · refine ⟨?_, ?_, ?_⟩
      · rintro ts ⟨a, ha, hts⟩ text ht
        simp only [List.mem_cons, List.not_mem_nil, or_false] at ha
        subst ha; cases hts
        have := hasDefault (pre := [.int 9 false, .comma]) rfl (by decide) ht
        subst this
        exact .inl ⟨.int ⟨false, 0, .hex, ['1', 'F'], []⟩,
          ⟨⟨by decide, ⟨'1', by decide⟩, by decide, .inl rfl⟩, by decide, (fun h => by cases h.1), nofun⟩, by decide⟩
      · rintro name c - ts ⟨a, ha, hts⟩ text ht k b hk
        simp only [List.mem_cons, List.not_mem_nil, or_false] at ha
        subst ha; cases hts
        simp at hk
        omega
      · rintro ts ⟨a, ha, hts⟩ ⟨v, hv⟩
        simp only [List.mem_cons, List.not_mem_nil, or_false] at ha
        subst ha; cases hts
        exact absurd (hv.subset (List.mem_cons_self)) (by decide)
    · refine ⟨?_, ?_, ?_⟩
      · rintro ts ⟨a, ha, hts⟩ text ⟨v, hv⟩
        simp only [List.mem_cons, List.not_mem_nil, or_false] at ha
        subst ha; cases hts
        exact absurd (hv.subset (List.mem_cons_self)) (by decide)
      · rintro name c - ts ⟨a, ha, hts⟩ text ⟨v, hv⟩
        simp only [List.mem_cons, List.not_mem_nil, or_false] at ha
        subst ha; cases hts
        exact absurd (hv.subset (List.mem_cons_self)) (by decide)
      · intros
        exact ⟨.int .u32, trivial, rfl⟩
    · refine ⟨?_, ?_, ?_⟩
      · rintro ts ⟨a, ha, hts⟩ text ht
        simp only [List.mem_cons, List.not_mem_nil, or_false] at ha
        subst ha; cases hts
        have := hasDefault (pre := []) rfl (by decide) ht
        subst this
        exact .inr ⟨⟨[], ['1'], ['5'], by simp, by simp, by decide, rfl⟩, by decide⟩
      · rintro name c - ts ⟨a, ha, hts⟩ text ht k b hk
        simp only [List.mem_cons, List.not_mem_nil, or_false] at ha
        subst ha; cases hts
        simp at hk
      · rintro ts ⟨a, ha, hts⟩ ⟨v, hv⟩
        simp only [List.mem_cons, List.not_mem_nil, or_false] at ha
        subst ha; cases hts
        exact absurd (hv.subset (List.mem_cons_self)) (by decide)
  total := by
    intro ds h
    cases h
    refine ⟨[128, 128, 128], .cons ⟨by decide, ?_⟩ (.cons ⟨by decide, ?_⟩ (.cons ⟨by decide, ?_⟩ .nil)), by decide⟩ <;>
    · rintro ts ⟨a, ha, hts⟩ k b hk
      simp only [List.mem_cons, List.not_mem_nil, or_false] at ha
      subst ha; cases hts
      simp at hk <;> omega
  panic := fun ⟨v, hv⟩ => absurd (hv.subset (List.mem_cons_self)) (by decide)
  names := by
    refine ⟨fun path h => by (cases h), ?_⟩
    intro ds h f hf
    cases h
    simp only [List.mem_cons, List.not_mem_nil, or_false] at hf
    rcases hf with rfl | rfl | rfl <;> exact ⟨⟨⟨_, _, rfl, by decide⟩, by decide⟩, fun path h => by cases h⟩

/-- The macro reports the float. -/
example : ∃ msg, expandBitfield .checked (fun _ => false) A decl = .error (.error msg) := by
  cases hx : expandBitfield .checked (fun _ => false) A decl with
  | ok items => cases hx
  | error e => obtain ⟨msg, rfl⟩ := C57_reported_partial reportable hx; exact ⟨msg, rfl⟩

/-- `#[bitfield(u8)] struct S { a: u8, b: T }` is reported, since it is not a way of writing a legal struct. -/
example : ∃ msg, expandBitfield .wrapping (fun _ => false) ⟨some (.path "u8" idCodec), []⟩
    ⟨.pub, some [⟨"a", .priv, .path "u8" idCodec, []⟩, ⟨"b", .priv, .path "T" idCodec, []⟩]⟩ = .error (.error msg) := by
  have hno : ∀ f ∈ [(⟨"a", .priv, .path "u8" idCodec, []⟩ : FieldDecl), ⟨"b", .priv, .path "T" idCodec, []⟩],
      f.attrs = [] := by simp
  refine (C57_verdict_partial ⟨?_, ?_, ?_, ?_, ?_⟩ ?_).2 ?_
  · intro t h; cases h; decide
  · intro ds h f hf
    cases h
    have hno : ∀ ts, ¬ f.HasTokens ts := fun ts ⟨a, ha, _⟩ => by rw [hno f hf] at ha; cases ha
    exact ⟨fun ts h => absurd h (hno ts), fun _ _ _ ts h => absurd h (hno ts), fun ts h => absurd h (hno ts)⟩
  · intro ds h
    cases h
    exact ⟨[128, 128], .cons ⟨by decide, fun ts ⟨a, ha, _⟩ => by cases ha⟩
      (.cons ⟨by decide, fun ts ⟨a, ha, _⟩ => by cases ha⟩ .nil), by decide⟩
  · rintro ⟨v, hv⟩
    exact absurd (hv.subset List.mem_cons_self) (by simp)
  · refine ⟨fun path h => by (cases h), ?_⟩
    intro ds h f hf
    cases h
    simp only [List.mem_cons, List.not_mem_nil, or_false] at hf
    rcases hf with rfl | rfl <;> exact ⟨⟨⟨_, _, rfl, by decide⟩, by decide⟩, fun path h => by cases h⟩
  · intro ds h f hf a ha
    cases h
    rw [hno f hf] at ha; cases ha
  · rintro ⟨s, as, hs, hr, hl⟩
    obtain ⟨ds, hds, he⟩ := hs.fields
    cases hds
    cases hfs : s.fields with
    | nil => rw [hfs] at he; cases he
    | cons f fs =>
      rw [hfs] at he
      cases he with
      | cons h1 h2 =>
        cases h2 with
        | cons h2 h3 =>
          rename_i g gs
          have hb : g.bits = none := h2.bits
          have hm : g ∈ s.fields := by rw [hfs]; simp
          obtain ⟨w, hw, -⟩ := (hl.field g hm).width (by unfold FieldSpec.ignored FieldSpec.args; rw [hb]; rfl)
          unfold FieldSpec.width? at hw
          rw [hb] at hw
          have hty := h2.ty
          cases hgt : g.ty with
          | int t => rw [hgt] at hty; cases t <;> simp [TypeSpec.Spelled, IntTy.name] at hty
          | bytes n => rw [hgt] at hty; cases hty
          | custom n c => rw [hgt] at hw; cases hw

/-- `#[bitflag(u8, copy = maybe)] enum E { A }` -/
example {cfg : String → Bool} : ∃ msg, expandBitflag cfg ⟨some (.path "u8" idCodec), [.comma, .ident "copy", .eq,
    .expr ['m', 'a', 'y', 'b', 'e'] (.int 0)]⟩ ⟨.pub, [⟨"A", [], none⟩]⟩ = .error (.error msg) := by
  cases hx : expandBitflag cfg ⟨some (.path "u8" idCodec), [.comma, .ident "copy", .eq,
    .expr ['m', 'a', 'y', 'b', 'e'] (.int 0)]⟩ ⟨.pub, [⟨"A", [], none⟩]⟩ with
  | ok items => cases hx
  | error e =>
    obtain ⟨msg, rfl⟩ := C57_enum_partial (by intro v hv text n h; simp at hv; subst hv; cases h) hx
    exact ⟨msg, rfl⟩

end ExP

/-- C57: a field with a raw identifier as its name that can be read or written makes the macro panic, although the struct
is accepted by the parser: `set_r#type` is not an identifier. -/
theorem finding_raw_field {s : StructSpec} {p : Parsed} (hr : s.Readable) (h : parseBitfield m cfg s.attr s.decl = .ok p)
    {f : FieldSpec} (hf : f ∈ s.fields) (hu : f.CanRead ∨ f.CanWrite) (hn : RawIdent f.name) :
    expandBitfield m cfg s.attr s.decl = .error (.panic .unreachable) := by
  have hg : Generates p (.acc .bitsConst f.name) := by
    refine (C05_accessors hr h _ _).mpr ⟨fun g hg => by (cases hg), f, hf, rfl, ?_⟩
    exact hu
  obtain ⟨v, hv⟩ := hg
  have hi : p.idents.all canFormatIdent = false := by
    rw [List.all_eq_false]
    refine ⟨Accessor.bitsConst.ident f.name, ?_, fun hc => ?_⟩
    · refine List.mem_append_left _ (List.mem_flatMap.mpr ⟨_, hv, ?_⟩)
      exact List.mem_append_right _ (by simp)
    · rcases (hn.accessor .bitsConst).mp hc with h | h <;> cases h
  unfold expandBitfield
  rw [h, ok_bind, hi]
  split <;> rfl

namespace Finding

/-- `#[bitfield(u8)] struct S { r#type: u8 }` -/
def rawField : StructSpec := ⟨.int .u8, [], .pub, [⟨"r#type", .pub, .int .u8, none⟩]⟩

example {m : Mode} :
    expandBitfield m (fun _ => false) rawField.attr rawField.decl = .error (.panic .unreachable) := by
  obtain ⟨p, hp⟩ : ∃ p, parseBitfield m (fun _ => false) rawField.attr rawField.decl = .ok p := by cases m <;> exact ⟨_, rfl⟩
  refine finding_raw_field (f := ⟨"r#type", .pub, .int .u8, none⟩) ?_ hp (by simp [rawField]) ?_
    ⟨"type", ⟨⟨_, _, rfl, by decide⟩, by decide⟩, by decide⟩
  · refine ⟨trivial, ?_, ?_⟩ <;> intro f hf <;> simp only [rawField, List.mem_singleton] at hf <;> subst hf
    · trivial
    · intro d v hd; cases hd
  · exact .inl ⟨⟨rfl, rfl⟩, .inr rfl⟩

/-- `#[bitfield(u8)] struct S { #[bits(200, default = 1)] a: u8 }` -/
def wideDefault : StructSpec :=
  ⟨.int .u8, [], .pub, [⟨"a", .pub, .int .u8, some ⟨some 200, [.default (.int ⟨false, 0, .dec, ['1'], []⟩) (.int 1)]⟩⟩]⟩

/-- C57: a field of an integer type with a default and more than 128 bits makes the macro panic if it was compiled with
overflow checks: it compares the default with `1 << bits` before it compares the width with the type. -/
theorem finding_wide_default_panics :
    parseBitfield .checked (fun _ => false) wideDefault.attr wideDefault.decl = .error (.panic .shift) ∧
    ∃ msg, parseBitfield .wrapping (fun _ => false) wideDefault.attr wideDefault.decl = .error (.error msg) :=
  ⟨rfl, _, rfl⟩

end Finding

end Bf
