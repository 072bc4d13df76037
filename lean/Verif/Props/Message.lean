import Verif.SpecMessage
import Verif.Lemmas.Message
import Verif.Props.Layout
import Verif.Props.Bitflag
import Verif.Props.Expand

/-!
# C71: compile errors tell the truth
-/

namespace Bf

variable {m : Mode} {cfg : String → Bool}

/-- **C71** (structs). Each message that `#[bitfield]` gives is one of those of `SpecMessage`, and what it says about the
struct is the case: the numbers, names and types in it are those of the declaration, and the values it lists as valid are
the valid ones. Missing from the full property, and false: defaults that the macro misreads (in `Readable`, see C43 and
`finding_literal_float_like`); in wrapping mode, numbers that wrap around (see `finding_max_wrapped`); and with
`order = msb` the "total bits of the fields" are those of the first fields only (see `finding_total_prefix`). -/
theorem C71_true_partial {s : StructSpec} {msg : String} (hr : s.Readable) (hs : m = .checked ∨ s.Small)
    (hd : m = .checked ∨ ∀ f ∈ s.fields, ∀ t, f.ty = .int t → f.default? ≠ none → f.width ≤ 128)
    (h : parseBitfield m cfg s.attr s.decl = .error (.error msg)) : s.Wrong msg :=
  parseBitfield_tells hr hs hd cfg msg h

namespace ExMsg

/-- `#[bitfield(u16, order = msb)] pub struct S { #[bits(9, default = 600)] a: u16, b: u8 }` -/
def S : StructSpec where
  storage := .int .u16
  rest := [.comma, .ident "order", .eq, .expr ['m', 's', 'b'] (.bool false)]
  vis := .pub
  fields := [⟨"a", .priv, .int .u16, some ⟨some 9, [.default (.int ⟨false, 0, .dec, ['6', '0', '0'], []⟩) (.int 600)]⟩⟩,
    ⟨"b", .priv, .int .u8, none⟩]

theorem readable : S.Readable where
  storage := trivial
  ty := by
    intro f hf
    simp only [S, List.mem_cons, List.not_mem_nil, or_false] at hf
    rcases hf with rfl | rfl <;> trivial
  default := by
    intro f hf d v hd
    simp only [S, List.mem_cons, List.not_mem_nil, or_false] at hf
    rcases hf with rfl | rfl <;> simp [FieldSpec.args] at hd
    obtain ⟨rfl, rfl⟩ := hd
    exact ⟨⟨by decide, by decide, by decide, by decide⟩, by decide, by decide, by simp⟩

example : ∃ msg, parseBitfield .checked (fun _ => false) S.attr S.decl = .error (.error msg) ∧
    msg = "The default value '600' exceeds the maximum value for the specified '9 bits (511)'." ∧ S.Wrong msg := by
  refine ⟨_, rfl, by decide +kernel, C71_true_partial (m := .checked) (cfg := fun _ => false) readable (.inl rfl) (.inl rfl) rfl⟩

/-- With `default = 500` and `order = bsm`. -/
def S' : StructSpec where
  storage := .int .u16
  rest := [.comma, .ident "order", .eq, .expr ['b', 's', 'm'] (.bool false)]
  vis := .pub
  fields := []

example : ∃ msg, parseBitfield .wrapping (fun _ => false) S'.attr S'.decl = .error (.error msg) ∧
    msg = "Invalid order argument 'bsm'. Valid values are 'lsb' or 'msb'." ∧ S'.Wrong msg := by
  refine ⟨_, rfl, by decide +kernel, C71_true_partial (m := .wrapping) (cfg := fun _ => false) ⟨trivial, by simp [S'], by simp [S']⟩
    (.inr ⟨by decide, fun n hn => by cases hn; decide⟩) (.inr (by simp [S'])) rfl⟩

end ExMsg

/-- **C71** (a struct that is too small). If all is right but the fields are too small for the storage, the message says
how many bits there are, how many there should be, and how many are missing. The advice in it is right too: with a
reserved field of the missing width, in any place, the struct is accepted. -/
theorem C71_short {s : StructSpec} {size : Nat} {args : BitfieldArgs} (hr : s.Readable)
    (hst : ∀ t, s.storage = .int t → t.unsigned = true) (hsz : s.storage.size = some size) (hlt : size < 2 ^ 32)
    (hargs : parseBitfieldArgs cfg s.rest = .ok args) (hf : ∀ f ∈ s.fields, f.Legal)
    (hn : s.fields.Pairwise fun f g => (f.reserved = false ∨ f.ignored = true) → f.name ≠ g.name)
    (ht : (s.fields.map FieldSpec.width).sum < size) :
    parseBitfield m cfg s.attr s.decl = .error (.error s!"The total number of bits of the fields \
      '{(s.fields.map FieldSpec.width).sum} bits' is less than the number of bits of the bitfield '{s.storage.text} \
      ({size} bits)', you can add a reserved field (prefixed with '_') to fill the remaining \
      '{size - (s.fields.map FieldSpec.width).sum} bits'.") ∧
    ∀ (pre post : List FieldSpec) (r : FieldSpec), s.fields = pre ++ post → r.Legal → r.ty.Proper → r.Readable →
      r.name.toList.head? = some '_' → r.ignored = false →
      r.width = size - (s.fields.map FieldSpec.width).sum → (∀ f ∈ s.fields, f.name ≠ r.name) →
      ∃ p, parseBitfield m cfg s.attr { s with fields := pre ++ r :: post }.decl = .ok p := by
  refine ⟨parseBitfield_less hr hst hsz hlt (by omega) hargs hf hn ht, ?_⟩
  have hf0 := hf
  intro pre post r he hl hp hrr hres hig hw hname
  have hmem : ∀ f ∈ pre ++ r :: post, f = r ∨ f ∈ s.fields := by
    intro f hf
    rw [he]
    simp only [List.mem_append, List.mem_cons] at hf ⊢
    rcases hf with h | h | h
    · exact .inr (.inl h)
    · exact .inl h
    · exact .inr (.inr h)
  have hR : ({ s with fields := pre ++ r :: post } : StructSpec).Readable := by
    refine ⟨hr.storage, fun f hf => ?_, fun f hf => ?_⟩
    · rcases hmem f hf with rfl | h
      · exact hp
      · exact hr.ty f h
    · rcases hmem f hf with rfl | h
      · exact hrr
      · exact hr.default f h
  have hL : ({ s with fields := pre ++ r :: post } : StructSpec).Legal := by
    refine ⟨?_, fun f hf => ?_, ?_, ?_⟩
    · cases hx : s.storage with
      | int t => exact hst t hx
      | bytes n =>
        rw [hx] at hsz
        simp only [TypeSpec.size, Option.some.injEq] at hsz
        exact ⟨by omega, by omega⟩
      | custom name c => rw [hx] at hsz; cases hsz
    · rcases hmem f hf with rfl | h
      · exact hl
      · exact hf0 f h
    · rw [he] at hn
      obtain ⟨h1, h2, h3⟩ := List.pairwise_append.mp hn
      refine List.pairwise_append.mpr ⟨h1, List.pairwise_cons.mpr ⟨fun g _ hb => ?_, h2⟩, fun f hf g hg hb => ?_⟩
      · have : r.reserved = true := by simp [FieldSpec.reserved, hres]
        rw [this, hig] at hb
        rcases hb with h | h <;> cases h
      · rcases List.mem_cons.mp hg with rfl | hg
        · exact hname f (by rw [he]; simp [hf])
        · exact h3 f hf g hg hb
    · show some ((pre ++ r :: post).map FieldSpec.width).sum = s.storage.size
      rw [hsz, Option.some.injEq]
      have : (s.fields.map FieldSpec.width).sum = (pre.map FieldSpec.width).sum + (post.map FieldSpec.width).sum := by
        rw [he]; simp
      simp only [List.map_append, List.map_cons, List.sum_append, List.sum_cons]
      omega
  exact StructSpec.accepted hR hL hargs

namespace ExMsg

/-- `ExS.S` without its last field. -/
def short : StructSpec := { ExS.S with fields := ExS.S.fields.take 4 }

theorem legal : ExS.S.Legal := ((C03_acceptance_partial (m := .checked) (cfg := fun _ => false) ExS.readable
  (.inl rfl)).mp ⟨_, ExS.accepted _⟩).1

/-- `_r: u8` -/
def filler : FieldSpec := ⟨"_r", .priv, .int .u8, none⟩

theorem mem_short {f : FieldSpec} (h : f ∈ short.fields) : f ∈ ExS.S.fields := List.mem_of_mem_take h

example : (∃ msg, parseBitfield .wrapping (fun _ => false) short.attr short.decl = .error (.error msg) ∧
      msg = "The total number of bits of the fields '8 bits' is less than the number of bits of the bitfield 'u16 (16 \
        bits)', you can add a reserved field (prefixed with '_') to fill the remaining '8 bits'.") ∧
    ∃ p, parseBitfield .wrapping (fun _ => false) short.attr
      { short with fields := short.fields.take 1 ++ filler :: short.fields.drop 1 }.decl = .ok p := by
  have h := C71_short (m := .wrapping) (cfg := fun _ => false) (s := short) (size := 16)
    ⟨ExS.readable.storage, fun f hf => ExS.readable.ty f (mem_short hf),
      fun f hf d v hd => ExS.readable.default f (mem_short hf) d v hd⟩
    (fun t ht => by cases ht; rfl) rfl (by decide) rfl (fun f hf => legal.field f (mem_short hf))
    (legal.names.sublist (List.take_sublist 4 _)) (by decide)
  refine ⟨⟨_, h.1, by decide +kernel⟩, h.2 (short.fields.take 1) (short.fields.drop 1) filler
    (List.take_append_drop 1 _).symm ?_ ?_ ?_ rfl rfl rfl ?_⟩
  · exact legal.field _ (by simp [ExS.S, filler])
  · trivial
  · intro d v hd; cases hd
  · intro f hf
    simp only [short, ExS.S, List.take, List.mem_cons, List.not_mem_nil, or_false] at hf
    rcases hf with rfl | rfl | rfl | rfl <;> decide

end ExMsg

/-- **C71** (a struct that is too big). If all is right but the fields are too big for the storage, the message says so:
either with the sum of all widths, or with the sum of the widths of the first fields, which is already too big. -/
theorem C71_long {s : StructSpec} {size : Nat} {args : BitfieldArgs} {msg : String} (hr : s.Readable)
    (hst : ∀ t, s.storage = .int t → t.unsigned = true) (hsz : s.storage.size = some size) (h0 : 0 < size)
    (hlt : size < 2 ^ 32) (hs : m = .checked ∨ s.Small) (hargs : parseBitfieldArgs cfg s.rest = .ok args)
    (hf : ∀ f ∈ s.fields, f.Legal)
    (hn : s.fields.Pairwise fun f g => (f.reserved = false ∨ f.ignored = true) → f.name ≠ g.name)
    (ht : size < (s.fields.map FieldSpec.width).sum)
    (h : parseBitfield m cfg s.attr s.decl = .error (.error msg)) :
    (∃ pre post, s.fields = pre ++ post ∧ size < (pre.map FieldSpec.width).sum ∧
      msg = s!"The total bits of the fields ({(pre.map FieldSpec.width).sum} bits) exceeds the bit size of the bitfield \
        type ({size} bits).") ∨
    msg = s!"The total number of bits of the fields '{(s.fields.map FieldSpec.width).sum} bits' is greater than the \
      number of bits of the bitfield '{s.storage.text} ({size} bits)'." :=
  parseBitfield_greater hr hst hsz h0 hlt hs hargs hf hn ht h

namespace ExMsg

/-- `#[bitfield(u8)] struct S { a: u8, b: u8 }` -/
def long (rest : List Tok) : StructSpec :=
  ⟨.int .u8, rest, .pub, [⟨"a", .priv, .int .u8, none⟩, ⟨"b", .priv, .int .u8, none⟩, ⟨"c", .priv, .int .u16, none⟩]⟩

theorem long_readable (rest : List Tok) : (long rest).Readable := by
  refine ⟨trivial, fun f hf => ?_, fun f hf d v hd => ?_⟩ <;>
    simp only [long, List.mem_cons, List.not_mem_nil, or_false] at hf <;> rcases hf with rfl | rfl | rfl
  · trivial
  · trivial
  · trivial
  · cases hd
  · cases hd
  · cases hd

theorem long_legal (rest : List Tok) : ∀ f ∈ (long rest).fields, f.Legal := by
  intro f hf
  simp only [long, List.mem_cons, List.not_mem_nil, or_false] at hf
  rcases hf with rfl | rfl | rfl <;>
    exact ⟨trivial, nofun, fun _ => ⟨_, rfl, by decide⟩, fun _ t h => (by cases h; decide), nofun, nofun⟩

example : ∃ msg, parseBitfield .checked (fun _ => false) (long []).attr (long []).decl = .error (.error msg) ∧
    msg = "The total number of bits of the fields '32 bits' is greater than the number of bits of the bitfield 'u8 (8 \
      bits)'." :=
  ⟨_, rfl, by decide +kernel⟩

/-- The hypotheses hold for it, and with `order = msb`. -/
example := fun rest (args : BitfieldArgs) (h : parseBitfieldArgs (fun _ => false) rest = .ok args) msg =>
  C71_long (m := .checked) (cfg := fun _ => false) (msg := msg) (long_readable rest) (fun t ht => by cases ht; rfl) rfl
    (by decide) (by decide) (.inl rfl) h (long_legal rest) (by simp [long]) (show 8 < 32 by decide)

end ExMsg

/-- **C71** (`#[bits(..)]`). Each message about the tokens of this attribute is one of `BitsWrong`, and what it says about
them is the case. Missing: that an expression which `BitsWrong` takes for a float is one (see
`finding_literal_float_like`). -/
theorem C71_bits_partial {d : FieldDecl} {msg : String} (h : getBitsAttribute d = .error (.error msg)) :
    ∃ a ∈ d.attrs, a.isBits = true ∧
      ((a.tokens = none ∧ msg = "The '#[bits]' attribute must be a list.") ∨
        ∃ ts, a.tokens = some ts ∧ BitsWrong ts msg) := by
  unfold getBitsAttribute at h
  cases ha : d.attrs.find? (fun a => a.isBits && a.outer) with
  | none => rw [ha] at h; cases h
  | some a =>
    rw [ha] at h
    dsimp only at h
    have hb := List.find?_some ha
    refine ⟨a, List.mem_of_find?_eq_some ha, (Bool.and_eq_true _ _ ▸ hb).1, ?_⟩
    cases ht : a.tokens with
    | none => rw [ht] at h; cases h; exact .inl ⟨rfl, rfl⟩
    | some ts =>
      rw [ht] at h
      dsimp only at h
      refine .inr ⟨ts, rfl, parseBitsAttr_tells ts msg ?_⟩
      cases hp : parseBitsAttr ts with
      | ok a => rw [hp] at h; cases h
      | error e => rw [hp] at h; cases h; rfl

/-- `#[bits(4, acces = rw)]` -/
example : ∃ msg, getBitsAttribute ⟨"a", .pub, .path "u8" noCodec, [⟨true, true, some [.int 4 false, .comma,
      .ident "acces", .eq, .expr ['r', 'w'] (.int 0)]⟩]⟩ = .error (.error msg) ∧
    msg = "Unknown argument 'acces'. Valid arguments are: 'access', 'default', 'ignore'." ∧
    ∃ ts, BitsWrong ts msg := by
  refine ⟨_, rfl, by decide +kernel, ?_⟩
  obtain ⟨a, ha, -, ⟨h, -⟩ | ⟨ts, -, h⟩⟩ := C71_bits_partial (d := ⟨"a", .pub, .path "u8" noCodec, [⟨true, true,
    some [.int 4 false, .comma, .ident "acces", .eq, .expr ['r', 'w'] (.int 0)]⟩]⟩) rfl
  · simp only [List.mem_singleton] at ha
    subst ha
    cases h
  · exact ⟨ts, h⟩

/-- **C71** (enums). Each message that `#[bitflag]` gives is one of those of `SpecMessage`, whatever is written after the
type, and what it says about the enum is the case. Missing from the full property: values that the macro misreads (in
`Readable`, see C43). -/
theorem C71_enum_partial {s : EnumSpec} {ts : List Tok} {msg : String} (hr : s.Readable)
    (h : expandBitflag cfg ⟨some s.ty.syntax, ts⟩ s.decl = .error (.error msg)) : s.Wrong ts msg :=
  expandBitflag_tells hr cfg ts msg h

namespace ExMsg

/-- `ExFlag.s` with one more variant, with no value. -/
def flag : EnumSpec := { ExFlag.s with variants := ExFlag.s.variants ++ [⟨"New", [], none⟩] }

example : ∃ msg, expandBitflag (fun _ => false) flag.attr flag.decl = .error (.error msg) ∧
    msg = "Bitflag variant 'New' must have an explicit value (e.g. `New = 0b0001`)." ∧
    flag.Wrong flag.attr.rest msg := by
  refine ⟨_, rfl, by decide +kernel, C71_enum_partial (cfg := fun _ => false) ⟨trivial, fun v hv d n h => ?_⟩ rfl⟩
  rcases List.mem_append.mp hv with hv | hv
  · exact ExFlag.readable.value v hv d n h
  · simp only [List.mem_singleton] at hv
    subst hv
    cases h

end ExMsg

/-! ## What the compiler shows -/

/-- **C71** (compiler). The text of a compile error the macro returns, unless it is an internal error, says what is the case:
`C71_true_partial` of what the entry point `#[bitfield]` gives to the compiler. -/
theorem C71_shown_partial {s : StructSpec} {src : StructSource} {msg : String} (hr : s.Readable) (hs : m = .checked ∨ s.Small)
    (hd : m = .checked ∨ ∀ f ∈ s.fields, ∀ t, f.ty = .int t → f.default? ≠ none → f.width ≤ 128) (e : src.decl = s.decl)
    (h : bitfieldMacro m cfg s.attr src = .compileError (some msg)) : s.Wrong msg := by
  have h1 := (C61_outcome (E := expansion src ⟨.custom idCodec, .pub, [], [], defaultArgs cfg⟩)).2.1 msg |>.mp h
  rw [e] at h1
  unfold expandBitfield at h1
  cases hp : parseBitfield m cfg s.attr s.decl with
  | error r =>
    rw [hp] at h1
    cases h1
    exact C71_true_partial hr hs hd hp
  | ok p =>
    rw [hp, ok_bind] at h1
    split at h1
    · cases h1
    · split at h1 <;> cases h1

namespace ExMsg

example : ∃ msg, bitfieldMacro .checked (fun _ => false) S.attr ⟨["derive(Hash)"], .pub, "S", [], S.decl.fields⟩ =
      .compileError (some msg) ∧
    msg = "The default value '600' exceeds the maximum value for the specified '9 bits (511)'." ∧ S.Wrong msg := by
  refine ⟨_, rfl, by decide +kernel, C71_shown_partial (m := .checked) (cfg := fun _ => false)
    (src := ⟨["derive(Hash)"], .pub, "S", [], S.decl.fields⟩) readable (.inl rfl) (.inl rfl) rfl rfl⟩

end ExMsg

/-- **C71** (compiler, enums). The same of `#[bitflag]`. -/
theorem C71_shown_enum_partial {s : EnumSpec} {ts : List Tok} {msg : String} (hr : s.Readable)
    (h : bitflagMacro cfg ⟨some s.ty.syntax, ts⟩ s.decl = .compileError (some msg)) : s.Wrong ts msg :=
  C71_enum_partial hr (C61_enum.2.1 msg |>.mp h)

/-! ## Findings -/

namespace Finding

/-- `order = msb` -/
def msb : List Tok := [.comma, .ident "order", .eq, .expr ['m', 's', 'b'] (.bool false)]

/-- C71: with `order = msb`, the message for a struct that is too big gives as "the total bits of the fields" the sum of
the first fields that are too big together; here 16 bits, although the fields have 32 bits. -/
theorem finding_total_prefix : ∃ msg,
    parseBitfield .checked (fun _ => false) (ExMsg.long msb).attr (ExMsg.long msb).decl = .error (.error msg) ∧
    msg = "The total bits of the fields (16 bits) exceeds the bit size of the bitfield type (8 bits)." ∧
    ((ExMsg.long msb).fields.map FieldSpec.width).sum = 32 :=
  ⟨_, rfl, by decide +kernel, rfl⟩

/-- `#[bitfield(u8)] struct S { #[bits(130, default = 5)] a: u8 }` -/
def wrappedMax : StructSpec :=
  ⟨.int .u8, [], .pub, [⟨"a", .pub, .int .u8, some ⟨some 130, [.default (.int ⟨false, 0, .dec, ['5'], []⟩) (.int 5)]⟩⟩]⟩

/-- C71: without overflow checks, a width of more than 128 bits and a default give a message with a false maximum. -/
theorem finding_max_wrapped : ∃ msg,
    parseBitfield .wrapping (fun _ => false) wrappedMax.attr wrappedMax.decl = .error (.error msg) ∧
    msg = "The default value '5' exceeds the maximum value for the specified '130 bits (3)'." :=
  ⟨_, rfl, by decide +kernel⟩

end Finding

end Bf
