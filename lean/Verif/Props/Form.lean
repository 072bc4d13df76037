import Verif.Lemmas.Form
import Verif.Props.Declared
import Verif.Props.Bitflag

/-!
# How declarations may be written (C56)

The theorems C01 - C55 about declarations are about structs written in one particular way (`StructSpec.attr`,
`StructSpec.decl`). Here: every declaration that a macro accepts means one of these, and all else is rejected.
-/

namespace Bf

variable {m : Mode} {cfg : String → Bool} {attr : AttrInput} {d : StructDecl} {s : StructSpec}
  {as : List BitfieldArgSpec} {p : Parsed}

/-- **C56** (only well-formed declarations are accepted). In a declaration the macro accepts, the arguments are known
`key = value` pairs with values of the right kind, separated by commas, and so on: it is a way of writing some struct of
`SpecDecl.lean`. -/
theorem C56_form (h : parseBitfield m cfg attr d = .ok p) :
    ∃ (s : StructSpec) (as : List BitfieldArgSpec), s.Spelled as attr d := by
  obtain ⟨s, as, hs, _⟩ := structSpec_of (name := .expr) (fun _ => rfl) h
  exact ⟨s, as, hs⟩

/-- **C56** (the way of writing does not matter). All ways of writing a struct are read alike. -/
theorem C56_meaning (h : s.Spelled as attr d) :
    parseBitfield m cfg attr d = parseBitfield m cfg s.attr s.decl :=
  parseBitfield_spelled h m cfg

/-- **C56** (acceptance). If the defaults are ones the macro reads correctly (C43), it accepts exactly the ways of
writing legal structs. For a macro crate compiled without overflow checks: if the widths add up to less than 2^32. -/
theorem C56_accepted (hd : d.DefaultsReadable)
    (hm : m = .checked ∨ ∀ (s : StructSpec) (as : List BitfieldArgSpec), s.Spelled as attr d → s.Small) :
    (∃ p, parseBitfield m cfg attr d = .ok p) ↔
      ∃ (s : StructSpec) (as : List BitfieldArgSpec), s.Spelled as attr d ∧ s.Readable ∧ s.Legal := by
  constructor
  · rintro ⟨p, h⟩
    have hname : ∃ name : List Char → DefaultSpec, (∀ t, (name t).text = t) ∧
        ∀ t, (∃ D : DefaultSpec, D.Supported ∧ D.text = t) → (name t).Supported := by
      classical
      refine ⟨fun t => if h : ∃ D : DefaultSpec, D.Supported ∧ D.text = t then h.choose else .expr t, ?_, ?_⟩
      · intro t
        dsimp only
        split
        · rename_i h; exact h.choose_spec.2
        · rfl
      · intro t h
        dsimp only
        rw [dif_pos h]
        exact h.choose_spec.1
    obtain ⟨name, hn, hs⟩ := hname
    obtain ⟨s, as, h1, h2, h3, h4⟩ := structSpec_of hn h
    have hr : s.Readable := ⟨h2, h3, fun f hf D v hv => by
      obtain ⟨ds, hds, x, hx, b, hb, ts, text, hts, ht, rfl⟩ := h4 f hf D v hv
      exact hs text (hd ds hds x hx b hb ts hts text ht)⟩
    refine ⟨s, as, h1, hr, ?_⟩
    rw [C56_meaning h1] at h
    exact ((C03_acceptance_partial hr (hm.imp id fun hm => hm s as h1)).mp ⟨p, h⟩).1
  · rintro ⟨s, as, h1, h2, h3⟩
    obtain ⟨r, hr, _⟩ := parseBitfieldArgs_tokens cfg as
    obtain ⟨p, hp⟩ := (C03_acceptance_partial (m := m) (cfg := cfg) h2 (hm.imp id fun hm => hm s as h1)).mpr ⟨h3, r, by rw [h1.rest]; exact hr⟩
    exact ⟨p, by rw [C56_meaning h1]; exact hp⟩

/-- **C56** (malformed arguments are reported). If what follows the storage type is not a list of known arguments
with proper values, the macro reports an error; it does not panic. -/
theorem C56_reported (h : ¬ ∃ as, SpelledArgs BitfieldArgSpec.Spelled 1 as attr.rest) :
    ∃ msg, parseBitfield m cfg attr d = .error (.error msg) := by
  cases hA : parseBitfieldAttr cfg attr with
  | error e =>
    obtain ⟨msg, rfl⟩ := parseBitfieldAttr_reports cfg attr e hA
    exact ⟨msg, by unfold parseBitfield; rw [hA]; rfl⟩
  | ok A =>
    exfalso
    apply h
    unfold parseBitfieldAttr at hA
    split at hA
    · cases hA
    · split at hA
      · cases hA
      · cases hA
      · split at hA
        · obtain ⟨r, hr⟩ := bind_ok_left hA
          exact parseBitfieldArgs_ok hr
        · cases hA

/-- **C56** (other attributes). Attributes other than the first `#[bits]` of a field, e.g. doc comments, do not
matter. -/
theorem C56_attributes {vis : Vis} {ds es : List FieldDecl} (h : Each FieldDecl.Alike ds es) :
    parseBitfield m cfg attr ⟨vis, some ds⟩ = parseBitfield m cfg attr ⟨vis, some es⟩ := by
  have key : ∀ A seen acc ign, parseFields m A vis ds seen acc ign = parseFields m A vis es seen acc ign := by
    intro A
    induction h with
    | nil => intros; rfl
    | @cons x y ds es hxy t ih =>
      intro seen acc ign
      have hb : getBitsAttribute x = getBitsAttribute y := by
        have hb := hxy.bits
        rw [getBitsAttribute_filter, getBitsAttribute_filter]
        cases h1 : x.attrs.filter (fun a => a.isBits && a.outer) <;>
          cases h2 : y.attrs.filter (fun a => a.isBits && a.outer) <;> rw [h1, h2] at hb <;> simp at hb
        · rw [hb]
      have hp : ∀ prev, parseField m A vis x prev = parseField m A vis y prev := by
        intro prev
        unfold parseField fieldDataType parseIgnored
        rw [hb, hxy.ty, hxy.name, hxy.vis]
      unfold parseFields
      simp only [hp, hxy.name, ih]
  unfold parseBitfield
  simp only [key]

/-- **C56** (enums). The same for `#[bitflag]`: what it accepts is a way of writing some enum of `SpecFlag.lean`, and
all ways of writing it are read alike. -/
theorem C56_enum {e : EnumDecl} :
    (∀ F, parseBitflag cfg attr e = .ok F → ∃ s : EnumSpec, s.Spelled attr e) ∧
    ∀ s : EnumSpec, s.Spelled attr e → parseBitflag cfg attr e = parseBitflag cfg s.attr s.decl := by
  constructor
  · intro F h
    unfold parseBitflag at h
    obtain ⟨A, hA⟩ := bind_ok_left h
    unfold parseBitflagAttr at hA
    cases hty : attr.ty with
    | none => simp only [hty] at hA; cases hA
    | some t =>
      simp only [hty] at hA
      cases hdt : t.dataType with
      | error e => simp only [hdt] at hA; cases hA
      | ok dt =>
        obtain ⟨y, hy, -⟩ := spelled_of_dataType hdt
        have hargs : ∃ r, parseBitflagArgs cfg attr.rest = .ok r := by
          simp only [hdt] at hA
          split at hA
          · cases hA
          · cases hA
          · split at hA
            · exact bind_ok_left hA
            · cases hA
        obtain ⟨_, hargs⟩ := hargs
        obtain ⟨as, has⟩ := parseBitflagArgs_ok hargs
        refine ⟨⟨y, as, e.vis, e.variants.map fun v => ⟨v.name, v.attrs, v.discriminant.map fun x => (.expr x.1, x.2)⟩⟩,
          ⟨t, hty, hy⟩, has, ?_⟩
        have hv : ∀ v : VariantDecl, VariantSpec.decl ⟨v.name, v.attrs, v.discriminant.map fun x => (.expr x.1, x.2)⟩ = v := by
          rintro ⟨n, a, d⟩
          cases d <;> rfl
        cases e with
        | mk vis vs =>
          simp only [EnumSpec.decl, List.map_map]
          congr 1
          exact (List.map_id'' hv vs).symm
  · intro s h
    obtain ⟨t, ht, hs⟩ := h.ty
    have h1 : parseBitflagAttr cfg attr = parseBitflagAttr cfg s.attr := by
      have e : unsupportedFlag t = unsupportedFlag s.ty.syntax := by
        unfold unsupportedFlag; rw [text_spelled hs]
      unfold parseBitflagAttr EnumSpec.attr
      simp only [ht, dataType_spelled hs, e, parseBitflagArgs_spelled cfg h.args]
    unfold parseBitflag
    rw [h1, h.decl]

/-! ## The hypotheses hold for concrete declarations -/

namespace ExF

/-- `#[bitfield(u8, order = MSB, from_endian = Little,)] struct F { /** .. */ #[bits(, 3,, access = RO)] a: u8,
#[bits(5)] #[bits(7)] b: u8 }` -/
def A : AttrInput where
  ty := some (.path "u8" idCodec)
  rest := [.comma, .ident "order", .eq, .expr ['M', 'S', 'B'] (.int 0), .comma,
    .ident "from_endian", .eq, .expr ['L', 'i', 't', 't', 'l', 'e'] (.int 0), .comma]

def decl : StructDecl where
  vis := .pub
  fields := some [
    ⟨"a", .priv, .path "u8" idCodec, [⟨false, true, none⟩,
      ⟨true, true, some [.comma, .int 3 false, .comma, .comma, .ident "access", .eq, .expr ['R', 'O'] (.int 0)]⟩]⟩,
    ⟨"b", .priv, .path "u8" idCodec, [⟨true, true, some [.int 5 false]⟩, ⟨true, true, some [.int 7 false]⟩]⟩]

def args : List BitfieldArgSpec := [.order .msb, .endian .from .little]

def S : StructSpec where
  storage := .int .u8
  rest := bitfieldTokens args
  vis := .pub
  fields := [⟨"a", .priv, .int .u8, some ⟨some 3, [.access .ro]⟩⟩, ⟨"b", .priv, .int .u8, some ⟨some 5, []⟩⟩]

theorem spelled : S.Spelled args A decl where
  rest := rfl
  storage := ⟨_, rfl, rfl⟩
  args := ⟨[⟨"order", ['M', 'S', 'B'], .int 0⟩, ⟨"from_endian", ['L', 'i', 't', 't', 'l', 'e'], .int 0⟩], 1, true,
    by omega, rfl, .cons ⟨rfl, rfl⟩ (.cons ⟨rfl, rfl⟩ .nil)⟩
  vis := rfl
  fields := ⟨_, rfl, .cons
    ⟨rfl, rfl, rfl, ⟨_, _, rfl, rfl, 1, _, by omega, rfl,
      [⟨"access", ['R', 'O'], .int 0⟩], 2, false, by omega, rfl, .cons ⟨rfl, rfl⟩ .nil⟩⟩
    (.cons ⟨rfl, rfl, rfl, ⟨_, _, rfl, rfl, 0, _, by omega, rfl, [], 0, false, by omega, rfl, .nil⟩⟩ .nil)⟩

theorem defaults : decl.DefaultsReadable := by
  rintro fs h f hf a ha ts hts text ⟨v, hv⟩
  cases h
  simp only [List.mem_cons, List.not_mem_nil, or_false] at hf
  have hm : Tok.ident "default" ∈ ts := hv.subset (by simp)
  rcases hf with rfl | rfl <;> simp only [List.mem_cons, List.not_mem_nil, or_false] at ha <;>
    rcases ha with rfl | rfl <;> cases hts <;> simp at hm

/-- The declaration is accepted; the read-only field `a` has bits 5 to 7. -/
example : ∃ p, parseBitfield .checked (fun _ => false) A decl = .ok p ∧
    p.bitfield.fields.map (fun f => (f.name, f.offset, f.bits, f.access)) = [("a", 5, 3, .ro), ("b", 0, 5, .rw)] ∧
    p.bitfield.fromEndian = .little := by
  rw [C56_meaning spelled]
  exact ⟨_, rfl, rfl, rfl⟩

example : ∃ (s : StructSpec) (as : List BitfieldArgSpec), s.Spelled as A decl ∧ s.Readable ∧ s.Legal :=
  (C56_accepted (m := .checked) (cfg := fun _ => false) defaults (.inl rfl)).mp ⟨_, rfl⟩

/-- `#[bitfield(u8, colour = true)]`, `#[bitfield(u8, new = yes)]`, `#[bitfield(u8, new)]` and
`#[bitfield(u8, new = true,,)]` are reported. -/
example (ts : List Tok) (h : ts ∈ [
    [.comma, .ident "colour", .eq, .expr ['t', 'r', 'u', 'e'] (.bool true)],
    [.comma, .ident "new", .eq, .expr ['y', 'e', 's'] (.bool true)],
    [.comma, .ident "new"],
    [.comma, .ident "new", .eq, .expr ['t', 'r', 'u', 'e'] (.bool true), .comma, .comma]]) :
    ∃ msg, parseBitfield .checked (fun _ => false) ⟨some (.path "u8" idCodec), ts⟩ decl = .error (.error msg) := by
  refine C56_reported fun ⟨as, hs⟩ => ?_
  have h1 := parseBitfieldArgs_spelled (fun _ => false) hs
  obtain ⟨r, hr, -⟩ := parseBitfieldArgs_tokens (fun _ => false) as
  rw [hr] at h1
  simp only [List.mem_cons, List.not_mem_nil, or_false] at h
  rcases h with rfl | rfl | rfl | rfl <;> cases h1

/-- The second `#[bits]` of `b` and the doc comment of `a` may be left out. -/
example : parseBitfield m cfg A decl = parseBitfield m cfg A ⟨.pub, some [
    ⟨"a", .priv, .path "u8" idCodec,
      [⟨true, true, some [.comma, .int 3 false, .comma, .comma, .ident "access", .eq, .expr ['R', 'O'] (.int 0)]⟩]⟩,
    ⟨"b", .priv, .path "u8" idCodec, [⟨true, true, some [.int 5 false]⟩]⟩]⟩ :=
  C56_attributes (.cons ⟨rfl, rfl, rfl, rfl⟩ (.cons ⟨rfl, rfl, rfl, rfl⟩ .nil))

/-- `#[bitflag(u16 into_endian = LITTLE, copy = false,)]` is read like `#[bitflag(u16, into_endian = little, copy = false)]`. -/
example : parseBitflag cfg ⟨some (.path "u16" idCodec), [.ident "into_endian", .eq,
    .expr ['L', 'I', 'T', 'T', 'L', 'E'] (.int 0), .comma, .ident "copy", .eq,
    .expr ['f', 'a', 'l', 's', 'e'] (.int 0), .comma]⟩ ExFlag.s.decl = parseBitflag cfg ExFlag.s.attr ExFlag.s.decl :=
  C56_enum.2 ExFlag.s ⟨⟨_, rfl, rfl⟩, ⟨[⟨"into_endian", ['L', 'I', 'T', 'T', 'L', 'E'], .int 0⟩,
    ⟨"copy", ['f', 'a', 'l', 's', 'e'], .int 0⟩], 0, true, by omega, rfl, .cons ⟨rfl, rfl⟩ (.cons ⟨rfl, rfl⟩ .nil)⟩, rfl⟩

end ExF

end Bf
