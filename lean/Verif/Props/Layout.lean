import Verif.Lemmas.Rename

/-!
# Which structs are accepted and how they are laid out (C01 - C04, C46)

`parseBitfield m cfg attr d = .ok p` says that the macro accepts the struct `d` with the attribute
`#[bitfield(attr)]` and takes it for `p`; `m` is the overflow mode the macro crate was
compiled in (`checked` in dev builds, `wrapping` in release builds) and `cfg` the Cargo features.

The macro adds up widths as `u32`s. In wrapping mode the properties hold as long as these sums
are below 2^32 (`StructSpec.Small`); `finding_widths_wrap` and `finding_storage_wraps` show what
happens otherwise.
-/

namespace Bf

/-! ## An example

```
#[bitfield(u16, order = msb)]
pub struct S {
    #[bits(3, default = 0x5)] a: u8,
    #[bits(ignore = true)] x: u32,
    #[bits(4, access = ro)] k: Kind,
    flag: bool,
    _r: u8,
}
```
-/

namespace ExS

/-- A four-bit type. -/
def kind : Codec := { fromBits := fun n => .ok n, intoBits := fun n => n }

def S : StructSpec where
  storage := .int .u16
  rest := [.comma, .ident "order", .eq, .expr ['m', 's', 'b'] (.bool false)]
  vis := .pub
  fields := [
    ⟨"a", .priv, .int .u8, some ⟨some 3, [.default (.int ⟨false, 0, .hex, ['5'], []⟩) (.int 5)]⟩⟩,
    ⟨"x", .priv, .int .u32, some ⟨none, [.ignore true]⟩⟩,
    ⟨"k", .priv, .custom "Kind" kind, some ⟨some 4, [.access .ro]⟩⟩,
    ⟨"flag", .priv, .int .bool, none⟩,
    ⟨"_r", .priv, .int .u8, none⟩]

/-- The struct parsed. -/
def p : Parsed where
  ty := .int .u16
  vis := .pub
  fields := [
    ⟨⟨"a", .int .u8, 3, 13, .rw, false, some (.int 5)⟩, .pub, false⟩,
    ⟨⟨"k", .custom kind, 4, 9, .ro, false, none⟩, .pub, false⟩,
    ⟨⟨"flag", .int .bool, 1, 8, .rw, false, none⟩, .pub, false⟩,
    ⟨⟨"_r", .int .u8, 8, 0, .na, true, none⟩, .pub, false⟩]
  ignored := [⟨⟨"x", .int .u32, 0, 0, .na, false, none⟩, .priv, true⟩]
  args := { defaultArgs (fun _ => false) with order := .msb }

/-- Field `a` with another default. -/
def withA (l : IntLit) (v : Val) : StructSpec :=
  { S with fields := [] ++ FieldSpec.withDefault S.fields[0] ⟨some 3, S.fields[0].args⟩ l v :: S.fields.tail }

theorem readable : S.Readable where
  storage := trivial
  ty := by
    intro f hf
    simp only [S, List.mem_cons, List.not_mem_nil, or_false] at hf
    rcases hf with rfl | rfl | rfl | rfl | rfl <;>
      first | trivial | (show _ ∉ _; decide)
  default := by
    intro f hf d v hd
    simp only [S, List.mem_cons, List.not_mem_nil, or_false] at hf
    rcases hf with rfl | rfl | rfl | rfl | rfl <;> simp [FieldSpec.args] at hd
    obtain ⟨rfl, rfl⟩ := hd
    exact ⟨⟨by decide, by decide, by decide, by decide⟩, by decide, by decide, by simp⟩

theorem small : S.Small := ⟨by decide, by intro n h; cases h; decide⟩

theorem accepted (m : Mode) : parseBitfield m (fun _ => false) S.attr S.decl = .ok p := by
  cases m <;> rfl

end ExS

/-! ## C01 -/

/-- **C01** (macro built with overflow checks). Every accepted struct's fields partition the
storage. -/
theorem C01_partition {cfg : String → Bool} {attr : AttrInput} {d : StructDecl} {p : Parsed}
    (h : parseBitfield .checked cfg attr d = .ok p) :
    Partition p.bitfield.backing.size p.bitfield.fields := by
  obtain ⟨is, size, hp⟩ := parseBitfield_sound h fun _ _ => .inl rfl
  rw [hp.size_eq]
  exact hp.partition

/-- **C01** (either mode). Missing from the full property: structs whose widths sum up to 2^32
or more, in a macro built without overflow checks; for these it is false. -/
theorem C01_partition_small_partial {m : Mode} {cfg : String → Bool} {s : StructSpec} {p : Parsed}
    (hr : s.Readable) (hs : s.Small) (h : parseBitfield m cfg s.attr s.decl = .ok p) :
    Partition p.bitfield.backing.size p.bitfield.fields := by
  obtain ⟨_, size, _, _, hp⟩ := StructSpec.parsed hr (.inr hs) h
  rw [hp.size_eq]
  exact hp.partition

/-- **C01** (what the theorems about run-time behaviour assume). An accepted struct whose storage
is not `bool` (for which the generated code does not compile) is well formed. -/
theorem C01_wf {cfg : String → Bool} {attr : AttrInput} {d : StructDecl} {p : Parsed}
    (h : parseBitfield .checked cfg attr d = .ok p) (hb : p.ty ≠ .int .bool) : WF p.bitfield := by
  obtain ⟨is, size, hp⟩ := parseBitfield_sound h fun _ _ => .inl rfl
  exact hp.wf hb

/-- **C01** (the same in either mode, for structs with small widths). -/
theorem C01_wf_small_partial {m : Mode} {cfg : String → Bool} {s : StructSpec} {p : Parsed}
    (hr : s.Readable) (hs : s.Small) (h : parseBitfield m cfg s.attr s.decl = .ok p)
    (hb : p.ty ≠ .int .bool) : WF p.bitfield := by
  obtain ⟨_, size, _, _, hp⟩ := StructSpec.parsed hr (.inr hs) h
  exact hp.wf hb

example : Partition 16 ExS.p.bitfield.fields := C01_partition (ExS.accepted .checked)
example : Partition 16 ExS.p.bitfield.fields :=
  C01_partition_small_partial ExS.readable ExS.small (ExS.accepted .wrapping)
example : WF ExS.p.bitfield := C01_wf (ExS.accepted .checked) fun h => (by cases h)
example : WF ExS.p.bitfield :=
  C01_wf_small_partial ExS.readable ExS.small (ExS.accepted .wrapping) fun h => (by cases h)

/-! ## C02 -/

/-- **C02** (offsets of the parsed fields, macro built with overflow checks). The offset of a field
is determined by its width and those of the fields before it. -/
theorem C02_offset {cfg : String → Bool} {attr : AttrInput} {d : StructDecl} {p : Parsed}
    (h : parseBitfield .checked cfg attr d = .ok p) {pre : List Field} {f : Field}
    {post : List Field} (hf : p.bitfield.fields = pre ++ f :: post) :
    f.offset = specOffset p.args.order p.bitfield.backing.size (pre.map Field.bits).sum f.bits := by
  obtain ⟨is, size, hp⟩ := parseBitfield_sound h fun _ _ => .inl rfl
  rw [hp.size_eq, ← offsetOf_eq]
  have := Placed.of_build p.args.order size d.vis is pre f post
    (by rw [← hf, ← hp.fields]; rfl)
  rw [this, Nat.zero_add]

/-- **C02** (from the declaration, either mode). The fields that are not ignored are laid out in
order of declaration, with the declared names and widths and the offsets of the order in force.
Missing: structs that are not `Small`, in wrapping mode. -/
theorem C02_layout_partial {m : Mode} {cfg : String → Bool} {s : StructSpec} {p : Parsed}
    (hr : s.Readable) (hs : m = .checked ∨ s.Small)
    (h : parseBitfield m cfg s.attr s.decl = .ok p) :
    p.bitfield.fields.length = (s.fields.filter fun f => !f.ignored).length ∧
    ∀ pre f post, s.fields = pre ++ f :: post → f.ignored = false →
      ∃ g, p.bitfield.fields[(pre.filter fun f => !f.ignored).length]? = some g ∧
        g.name = f.name ∧ g.bits = f.width ∧ g.ty = f.ty.data ∧
        g.offset = specOffset p.args.order p.bitfield.backing.size
          (pre.map FieldSpec.width).sum f.width := by
  obtain ⟨_, size, _, _, hp⟩ := StructSpec.parsed hr hs h
  have hfil : ∀ fs : List FieldSpec, ((fs.map FieldSpec.info).filter fun j => !j.ignored).length =
      (fs.filter fun f => !f.ignored).length := by
    intro fs
    rw [List.filter_map, List.length_map]
    congr 2
    funext f
    simp only [Function.comp_apply, FieldSpec.info_ignored]
  constructor
  · show (p.fields.map _).length = _
    rw [List.length_map, hp.fields, build_length, hfil]
  · intro pre f post e hi
    have hget : p.fields[(pre.filter fun f => !f.ignored).length]? =
        some (f.info.pfield p.args.order size s.decl.vis (totalWidth (pre.map FieldSpec.info))) := by
      have := build_get (o := p.args.order) (size := size) (sv := s.decl.vis)
        (pre.map FieldSpec.info) (i := f.info) (post := post.map FieldSpec.info)
        (by rw [FieldSpec.info_ignored, hi]) 0
      rw [hfil, Nat.zero_add] at this
      rw [hp.fields, e, List.map_append, List.map_cons]
      exact this
    refine ⟨(f.info.pfield p.args.order size s.decl.vis
      (totalWidth (pre.map FieldSpec.info))).field, ?_, rfl, ?_, rfl, ?_⟩
    · show (p.fields.map (·.field))[(pre.filter fun f => !f.ignored).length]? = _
      rw [List.getElem?_map, hget]
      rfl
    · exact FieldSpec.info_width f
    · rw [hp.size_eq]
      show offsetOf _ _ (totalWidth (pre.map FieldSpec.info)) f.info.width = _
      rw [offsetOf_eq, totalWidth_infos, FieldSpec.info_width]

/-- **C02** (the order does not matter for acceptance). A struct that is accepted with some
arguments is accepted with any other legal arguments. -/
theorem C02_same_acceptance {cfg cfg' : String → Bool} {ty : Option SynType}
    {rest rest' : List Tok} {d : StructDecl} {p : Parsed} {args' : BitfieldArgs}
    (h : parseBitfield .checked cfg ⟨ty, rest⟩ d = .ok p)
    (h' : parseBitfieldArgs cfg' rest' = .ok args') :
    ∃ p', parseBitfield .checked cfg' ⟨ty, rest'⟩ d = .ok p' ∧ p'.args = args' :=
  same_acceptance (fun _ _ => .inl rfl) h h'

/-- **C02** (the same in either mode, for structs with small widths). -/
theorem C02_same_acceptance_small_partial {m : Mode} {cfg cfg' : String → Bool} {s : StructSpec}
    {rest' : List Tok} {p : Parsed} {args' : BitfieldArgs} (hr : s.Readable) (hs : s.Small)
    (h : parseBitfield m cfg s.attr s.decl = .ok p)
    (h' : parseBitfieldArgs cfg' rest' = .ok args') :
    ∃ p', parseBitfield m cfg' { s with rest := rest' }.attr s.decl = .ok p' ∧ p'.args = args' :=
  same_acceptance (s.noOverflow hr (.inr hs)) h h'

/-- **C02** (mirror image). If the same struct is laid out in both orders, then the fields are the
same except that offsets are counted from the other end. -/
theorem C02_mirror {cfg cfg' : String → Bool} {ty : Option SynType}
    {rest rest' : List Tok} {d : StructDecl} {p p' : Parsed}
    (h : parseBitfield .checked cfg ⟨ty, rest⟩ d = .ok p)
    (h' : parseBitfield .checked cfg' ⟨ty, rest'⟩ d = .ok p') (ho : p.args.order = .lsb)
    (ho' : p'.args.order = .msb) :
    p'.bitfield.backing = p.bitfield.backing ∧
    p'.bitfield.fields = p.bitfield.fields.map fun f =>
      { f with offset := p.bitfield.backing.size - (f.offset + f.bits) } :=
  mirror (fun _ _ => .inl rfl) h h' ho ho'

/-- **C02** (the same in either mode, for structs with small widths). -/
theorem C02_mirror_small_partial {m : Mode} {cfg cfg' : String → Bool} {s : StructSpec}
    {rest' : List Tok} {p p' : Parsed} (hr : s.Readable) (hs : s.Small)
    (h : parseBitfield m cfg s.attr s.decl = .ok p)
    (h' : parseBitfield m cfg' { s with rest := rest' }.attr s.decl = .ok p')
    (ho : p.args.order = .lsb) (ho' : p'.args.order = .msb) :
    p'.bitfield.backing = p.bitfield.backing ∧
    p'.bitfield.fields = p.bitfield.fields.map fun f =>
      { f with offset := p.bitfield.backing.size - (f.offset + f.bits) } :=
  mirror (s.noOverflow hr (.inr hs)) h h' ho ho'

/-- The declaration of the example in both orders. -/
example : ∃ p', parseBitfield .checked (fun _ => false) ⟨some (.path "u16" noCodec), []⟩
      ExS.S.decl = .ok p' ∧ p'.args.order = .lsb ∧
    ExS.p.bitfield.fields = p'.bitfield.fields.map fun f =>
      { f with offset := 16 - (f.offset + f.bits) } := by
  obtain ⟨p', h, ha⟩ := C02_same_acceptance (cfg := fun _ => false) (cfg' := fun _ => false)
    (ExS.accepted .checked) (rest' := []) rfl
  have hl : p'.args.order = .lsb := by rw [ha]; rfl
  obtain ⟨e1, e2⟩ := C02_mirror h (ExS.accepted .checked) hl rfl
  refine ⟨p', h, hl, ?_⟩
  rw [e2, ← e1]
  rfl

/-- The same in wrapping mode. -/
example : ∃ p', parseBitfield .wrapping (fun _ => false) { ExS.S with rest := [] }.attr
      ExS.S.decl = .ok p' ∧
    ExS.p.bitfield.fields = p'.bitfield.fields.map fun f =>
      { f with offset := p'.bitfield.backing.size - (f.offset + f.bits) } := by
  obtain ⟨p', h, ha⟩ := C02_same_acceptance_small_partial (cfg' := fun _ => false) ExS.readable
    ExS.small (ExS.accepted .wrapping) (rest' := []) rfl
  exact ⟨p', h, (C02_mirror_small_partial (s := { ExS.S with rest := [] })
    ⟨ExS.readable.storage, ExS.readable.ty, ExS.readable.default⟩
    ⟨ExS.small.widths, ExS.small.storage⟩ h (ExS.accepted .wrapping) (by rw [ha]; rfl) rfl).2⟩

example : ∃ g, ExS.p.bitfield.fields[1]? = some g ∧ g.name = "k" ∧ g.bits = 4 ∧ g.offset = 9 := by
  obtain ⟨g, h1, h2, h3, _, h4⟩ := (C02_layout_partial ExS.readable (.inr ExS.small)
    (ExS.accepted .wrapping)).2 [_, _] _ [_, _] rfl rfl
  exact ⟨g, h1, h2, h3, h4⟩

example : (ExS.p.bitfield.fields[2]?.map Field.offset) = some (16 - ((3 + 4) + 1)) :=
  congrArg some (C02_offset (ExS.accepted .checked) (pre := [_, _]) (f := _) (post := [_]) rfl)

/-! ## C03 -/

/-- **C03**. A struct is accepted exactly if it is legal. Missing from the full property:
defaults that the macro misreads (see C43) and negative defaults of -2^127 and below (both in
`Readable`); structs that are not `Small`, in wrapping mode. For all of these it is false, see
`finding_*` in `Props/ParserFindings.lean`. -/
theorem C03_acceptance_partial {m : Mode} {cfg : String → Bool} {s : StructSpec}
    (hr : s.Readable) (hs : m = .checked ∨ s.Small) :
    (∃ p, parseBitfield m cfg s.attr s.decl = .ok p) ↔
      s.Legal ∧ ∃ args, parseBitfieldArgs cfg s.rest = .ok args := by
  constructor
  · rintro ⟨p, h⟩
    obtain ⟨hl, size, _, _, hp⟩ := StructSpec.parsed hr hs h
    exact ⟨hl, p.args, hp.args⟩
  · rintro ⟨hl, args, hargs⟩
    exact StructSpec.accepted hr hl hargs

example : ExS.S.Legal :=
  ((C03_acceptance_partial (m := .wrapping) (cfg := fun _ => false) ExS.readable
    (.inr ExS.small)).mp ⟨_, ExS.accepted _⟩).1

/-- With one more bit the struct is rejected. -/
example : ¬ ∃ p, parseBitfield .checked (fun _ => false) ExS.S.attr
    { ExS.S with fields := ⟨"z", .priv, .int .bool, none⟩ :: ExS.S.fields }.decl = .ok p := by
  intro h
  have hr : { ExS.S with fields := ⟨"z", .priv, .int .bool, none⟩ :: ExS.S.fields }.Readable :=
    ⟨trivial, by
      intro f hf
      rcases List.mem_cons.mp hf with rfl | hf
      · trivial
      · exact ExS.readable.ty f hf, by
      intro f hf
      rcases List.mem_cons.mp hf with rfl | hf
      · intro d v hd; simp [FieldSpec.args] at hd
      · exact ExS.readable.default f hf⟩
  have := ((C03_acceptance_partial hr (.inl rfl)).mp h).1.total
  revert this
  decide

/-! ## C04 -/

/-- **C04**. Add a literal default to an integer or `bool` field of an accepted struct. The result
is accepted exactly if the literal fits: a non-negative literal `d` if `d < 2^n` for a field of `n`
bits, a negated literal `-d` if the type is signed and `d ≤ 2^(n-1)`. Missing from the full
property (and false): literals `-d` with `2^127 ≤ d`, see `finding_default_min` and
`finding_default_wraps`; literals the macro misreads (C43); large structs in wrapping mode. -/
theorem C04_literal_default_partial {m : Mode} {cfg : String → Bool} {s : StructSpec}
    {pre post : List FieldSpec} {f : FieldSpec} {b : BitsSpec} {t : IntTy} (hr : s.Readable)
    (hs : m = .checked ∨ s.Small) (h : ∃ p, parseBitfield m cfg s.attr s.decl = .ok p)
    (hf : s.fields = pre ++ f :: post) (hi : f.ignored = false) (ht : f.ty = .int t)
    (hb : f.bits = some b) (l : IntLit) (v : Val) (hl : l.Valid) (hlt : l.magnitude < 2 ^ 128)
    (hfl : ¬ l.FloatLike) (hneg : l.neg = true → l.magnitude < 2 ^ 127) :
    (∃ p, parseBitfield m cfg s.attr
        { s with fields := pre ++ f.withDefault b l v :: post }.decl = .ok p) ↔
      if l.neg then t.unsigned = false ∧ l.magnitude ≤ 2 ^ (f.width - 1)
      else l.magnitude < 2 ^ f.width := by
  have hargs : f.args = b.args := by simp [FieldSpec.args, hb]
  have hargs' : (f.withDefault b l v).args = f.args ++ [.default (.int l) v] := by
    rw [hargs]; rfl
  have hig : (f.withDefault b l v).ignored = f.ignored := by
    simp only [FieldSpec.ignored, hargs', lastArg_concat, Option.none_or]
  have hac : (f.withDefault b l v).access? = f.access? := by
    simp only [FieldSpec.access?, hargs', lastArg_concat, Option.none_or]
  have hde : (f.withDefault b l v).default? = some (.int l, v) := by
    simp only [FieldSpec.default?, hargs', lastArg_concat, Option.some_or]
  have hst : (f.withDefault b l v).bits.bind BitsSpec.width = f.bits.bind BitsSpec.width := by
    rw [hb]; rfl
  have hw? : (f.withDefault b l v).width? = f.width? := by
    simp only [FieldSpec.width?, hst]; rfl
  have hw : (f.withDefault b l v).width = f.width := by
    simp only [FieldSpec.width, hig, hw?]
  have hmem : f ∈ s.fields := by rw [hf]; simp
  have hsum : ((pre ++ f.withDefault b l v :: post).map FieldSpec.width).sum =
      (s.fields.map FieldSpec.width).sum := by
    rw [hf]; simp [hw]
  have hr' : { s with fields := pre ++ f.withDefault b l v :: post }.Readable := by
    refine ⟨hr.storage, ?_, ?_⟩
    · intro g hg
      simp only [List.mem_append, List.mem_cons] at hg
      rcases hg with hg | rfl | hg
      · exact hr.ty g (by rw [hf]; simp [hg])
      · exact hr.ty f hmem
      · exact hr.ty g (by rw [hf]; simp [hg])
    · intro g hg
      simp only [List.mem_append, List.mem_cons] at hg
      rcases hg with hg | rfl | hg
      · exact hr.default g (by rw [hf]; simp [hg])
      · intro d v' hd
        rw [hargs', List.mem_append] at hd
        rcases hd with hd | hd
        · exact hr.default f hmem d v' hd
        · simp only [List.mem_singleton, BitsArgSpec.default.injEq] at hd
          obtain ⟨rfl, -⟩ := hd
          exact ⟨hl, hlt, hfl, hneg⟩
      · exact hr.default g (by rw [hf]; simp [hg])
  have hs' : m = .checked ∨ { s with fields := pre ++ f.withDefault b l v :: post }.Small :=
    hs.imp id fun hs => ⟨by rw [hsum]; exact hs.widths, hs.storage⟩
  obtain ⟨hL, hA⟩ := (C03_acceptance_partial hr hs).mp h
  have hLf := hL.field f hmem
  rw [show s.attr = { s with fields := pre ++ f.withDefault b l v :: post }.attr from rfl,
    C03_acceptance_partial hr' hs', and_iff_left hA]
  constructor
  · intro h'
    have := (h'.field (f.withDefault b l v) (by simp)).default (by rw [hig, hi]) t ht _ _ hde
    rw [hw] at this
    exact this
  · intro hfit
    refine ⟨hL.storage, ?_, ?_, ?_⟩
    · intro g hg
      simp only [List.mem_append, List.mem_cons] at hg
      rcases hg with hg | rfl | hg
      · exact hL.field g (by rw [hf]; simp [hg])
      · refine ⟨hLf.ty, by rw [hst]; exact hLf.stated, ?_, ?_, ?_, ?_⟩
        · rw [hig, hw?]; exact hLf.width
        · rw [hig, hw]; exact hLf.holds
        · intro _ t' ht' d v' hd
          have : t' = t := by
            have ht'' : f.ty = .int t' := ht'
            rw [ht] at ht''
            cases ht''
            rfl
          subst this
          rw [hde] at hd
          cases hd
          rw [hw]
          exact hfit
        · rw [hig, hac]; exact hLf.access
      · exact hL.field g (by rw [hf]; simp [hg])
    · have hN := hL.names
      rw [hf] at hN
      show (pre ++ f.withDefault b l v :: post).Pairwise _
      rw [List.pairwise_append, List.pairwise_cons] at hN ⊢
      obtain ⟨h1, ⟨h2, h3⟩, h4⟩ := hN
      refine ⟨h1, ⟨fun g hg hb => h2 g hg ?_, h3⟩, fun a ha g hg => ?_⟩
      · rw [hig] at hb
        exact hb
      · rcases List.mem_cons.mp hg with rfl | hg
        · exact h4 a ha f (by simp)
        · exact h4 a ha g (by simp [hg])
    · show some ((pre ++ f.withDefault b l v :: post).map FieldSpec.width).sum = _
      rw [hsum]
      exact hL.total

/-- `#[bits(3, default = 0x5, default = d)] a: u8` is accepted for `d = 7`, not for `d = 0b1000`. -/
example : ∃ p, parseBitfield .checked (fun _ => false) ExS.S.attr
    (ExS.withA ⟨false, 0, .dec, ['7'], []⟩ (.int 7)).decl = .ok p :=
  (C04_literal_default_partial (t := .u8) ExS.readable (.inl rfl) ⟨_, ExS.accepted _⟩ rfl rfl rfl rfl
    ⟨false, 0, .dec, ['7'], []⟩ _ ⟨by decide, by decide, by decide, by decide⟩
    (by decide) (by decide) (by decide)).mpr (by decide)

example : ¬ ∃ p, parseBitfield .checked (fun _ => false) ExS.S.attr
    (ExS.withA ⟨false, 0, .bin, ['1', '0', '0', '0'], []⟩ (.int 8)).decl = .ok p := by
  intro h
  exact absurd ((C04_literal_default_partial (t := .u8) ExS.readable (.inl rfl)
    ⟨_, ExS.accepted _⟩ rfl rfl rfl rfl ⟨false, 0, .bin, ['1', '0', '0', '0'], []⟩ _
    ⟨by decide, by decide, by decide, by decide⟩
    (by decide) (by decide) (by decide)).mp h) (by decide)

/-! ## C46 -/

/-- **C46** (clashes are rejected). No struct in which the name of a field that is not reserved
occurs again later is accepted, whatever else it contains, in either mode. -/
theorem C46_duplicate_rejected {m : Mode} {cfg : String → Bool} {attr : AttrInput}
    {vis : Vis} {pre mid post : List FieldDecl} {f g : FieldDecl}
    (hr : f.name.toList.head? ≠ some '_') (hn : f.name = g.name) :
    ∀ p, parseBitfield m cfg attr ⟨vis, some (pre ++ f :: (mid ++ g :: post))⟩ ≠ .ok p := by
  intro p h
  simp only [parseBitfield] at h
  obtain ⟨A, _, h⟩ := bind_ok.mp h
  obtain ⟨r, hf, _⟩ := bind_ok.mp h
  have := parseFields_names _ _ _ _ _ hf
  rw [List.pairwise_append] at this
  obtain ⟨h1, -⟩ := List.pairwise_cons.mp this.2.1
  exact h1 g (by simp) (by simpa [isReservedName] using hr) hn

/-- The clash is with an ignored field of another type. -/
example : ∀ m p, parseBitfield m (fun _ => false) ⟨some (.path "u8" noCodec), []⟩
    ⟨.pub, some [⟨"a", .pub, .path "u8" noCodec, []⟩,
      ⟨"a", .pub, .path "bool" noCodec, [⟨true, true, some [.ident "ignore", .eq,
        .expr ['t', 'r', 'u', 'e'] (.bool true)]⟩]⟩]⟩ ≠ .ok p := fun _ =>
  C46_duplicate_rejected (pre := []) (mid := []) (post := []) (by decide) rfl

/-- **C46** (reserved fields may share a name). In an accepted struct, give reserved fields any
names that start with an underscore and are not names of ignored fields: the struct is still
accepted. -/
theorem C46_reserved_share {m : Mode} {cfg : String → Bool} {s : StructSpec}
    (hr : s.Readable) (h : ∃ p, parseBitfield m cfg s.attr s.decl = .ok p) (rename : FieldSpec → String)
    (hname : ∀ f ∈ s.fields, f.reserved = true → f.ignored = false →
      (rename f).toList.head? = some '_' ∧ ∀ g ∈ s.fields, g.ignored = true → rename f ≠ g.name)
    (hkeep : ∀ f ∈ s.fields, (f.reserved = false ∨ f.ignored = true) → rename f = f.name) :
    ∃ p, parseBitfield m cfg s.attr
      { s with fields := s.fields.map fun f : FieldSpec => f.renamed (rename f) }.decl = .ok p := by
  obtain ⟨p, h⟩ := h
  simp only [parseBitfield] at h ⊢
  obtain ⟨A, hA, h⟩ := bind_ok.mp h
  obtain ⟨r, hf, h⟩ := bind_ok.mp h
  obtain ⟨_, hc, _⟩ := bind_ok.mp h
  have e1 : (s.fields.map fun f => (f.decl, rename f)).map Prod.fst = s.fields.map FieldSpec.decl := by
    rw [List.map_map]; rfl
  have e2 : (s.fields.map fun f => (f.decl, rename f)).map (fun q => { q.1 with name := q.2 }) =
      (s.fields.map fun f => f.renamed (rename f)).map FieldSpec.decl := by
    rw [List.map_map, List.map_map]; rfl
  have hR : Renaming FieldDecl.ig (s.fields.map fun f => (f.decl, rename f)) := by
    constructor
    · intro q hq
      obtain ⟨f, hf, rfl⟩ := List.mem_map.mp hq
      by_cases hb : f.reserved = false ∨ f.ignored = true
      · exact .inl (hkeep f hf hb)
      · have h1 : f.reserved = true := by
          cases h1 : f.reserved
          · exact absurd (.inl h1) hb
          · rfl
        have h2 : f.ignored = false := by
          cases h2 : f.ignored
          · rfl
          · exact absurd (.inr h2) hb
        refine .inr ⟨?_, ?_, ?_⟩
        · have : f.name.toList.head? = some '_' := by simpa [FieldSpec.reserved] using h1
          simp [isReservedName, FieldSpec.decl, this]
        · simp [isReservedName, (hname f hf h1 h2).1]
        · cases h3 : f.decl.ig
          · rfl
          · rw [ig_decl (hr.default f hf) h3] at h2; cases h2
    · intro q hq
      obtain ⟨f, hf, rfl⟩ := List.mem_map.mp hq
      by_cases hb : f.reserved = false ∨ f.ignored = true
      · exact .inl (hkeep f hf hb)
      · have h1 : f.reserved = true := by
          cases h1 : f.reserved
          · exact absurd (.inl h1) hb
          · rfl
        have h2 : f.ignored = false := by
          cases h2 : f.ignored
          · rfl
          · exact absurd (.inr h2) hb
        refine .inr ?_
        intro q' hq' hi
        obtain ⟨g, hg, rfl⟩ := List.mem_map.mp hq'
        exact (hname f hf h1 h2).2 g hg (ig_decl (hr.default g hg) hi)
  obtain ⟨r', hf', hb⟩ := parseFields_renamed (m := m) (A := A) (sv := s.vis) _ hR
    (fun q _ a ha => by simp only [FieldDecl.ig, ha]) [] [] [] [] [] (fun q _ => .inr (by simp)) rfl r
    (by rw [e1]; exact hf)
  rw [e2] at hf'
  refine ⟨_, bind_ok.mpr ⟨A, hA, bind_ok.mpr ⟨r', hf', bind_ok.mpr ⟨(), ?_, rfl⟩⟩⟩⟩
  simp only [checkFit] at hc ⊢
  rw [← sumBits_congr hb]
  exact hc

/-- Two reserved fields named `_`. -/
example : ∃ p, parseBitfield .wrapping (fun _ => false) ⟨some (.path "u8" noCodec), []⟩
    ⟨.pub, some [⟨"_", .pub, .path "bool" noCodec, []⟩, ⟨"a", .pub, .path "u8" noCodec,
      [⟨true, true, some [.int 6 false]⟩]⟩, ⟨"_", .pub, .path "bool" noCodec, []⟩]⟩ = .ok p :=
  C46_reserved_share (s := ⟨.int .u8, [], .pub, [⟨"_a", .pub, .int .bool, none⟩,
      ⟨"a", .pub, .int .u8, some ⟨some 6, []⟩⟩, ⟨"_b", .pub, .int .bool, none⟩]⟩)
    ⟨trivial, by simp [TypeSpec.Proper], by simp [FieldSpec.Readable, FieldSpec.args]⟩
    ⟨_, rfl⟩
    (fun f => if f.reserved then "_" else f.name)
    (by
      intro f _ hr _
      rw [if_pos hr]
      refine ⟨by decide, ?_⟩
      intro g hg hi
      exfalso
      simp only [List.mem_cons, List.not_mem_nil, or_false] at hg
      rcases hg with rfl | rfl | rfl <;> revert hi <;> decide)
    (by
      intro f hf hr
      simp only [List.mem_cons, List.not_mem_nil, or_false] at hf
      rcases hf with rfl | rfl | rfl <;> revert hr <;> decide)

end Bf
