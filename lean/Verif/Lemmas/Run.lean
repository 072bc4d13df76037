import Verif.SpecRun
import Verif.Lemmas.Surface
import Verif.Lemmas.Decode
import Verif.Lemmas.Effect

/-!
# Lemmas: from declarations to run-time behaviour
-/

namespace Bf

theorem IntTy.reduce_eq (t : IntTy) (n : Int) : t.reduce n = t.cast n := by
  unfold IntTy.reduce IntTy.cast
  split
  · rw [BitVec.toNat_ofInt]
    have h : (0 : Int) < 2 ^ t.bitSize := Int.pow_pos (by decide)
    have h2 := Int.emod_nonneg n (Int.ne_of_gt h)
    push_cast
    omega
  · rw [BitVec.toInt_ofInt]

theorem IntTy.intBit_reduce (t : IntTy) (n : Int) {i : Nat} (h : i < t.bitSize) :
    intBit (t.reduce n) i = intBit n i := by
  rw [t.reduce_eq, intBit_cast t n h]

theorem StructSpec.Legal.small {s : StructSpec} (h : s.Legal) : s.Small := by
  have key : ∀ n, s.storage.size = some n → n < 2 ^ 32 := by
    intro n hn
    have hs := h.storage
    cases hst : s.storage with
    | int t =>
      rw [hst] at hn
      cases hn
      exact Nat.lt_of_le_of_lt t.bitSize_le (by decide)
    | bytes k =>
      rw [hst] at hn hs
      cases hn
      exact hs.2
    | custom name c => rw [hst] at hs; exact hs.elim
  exact ⟨key _ h.total.symm, key⟩

/-- The parsed form of a declared field. -/
def FieldSpec.parsed (f : FieldSpec) (o : Nat) : Field :=
  ⟨f.name, f.ty.data, f.width, o, f.effective, f.reserved, f.default?.map (·.2)⟩

theorem pfield_info {f : FieldSpec} {o : Order} {size before : Nat} {sv : Vis}
    (hacc : f.reserved = true → f.access? = none) :
    (f.info.pfield o size sv before).field = f.parsed (specOffset o size before f.width) := by
  have h1 : accessFor f.info.attr f.info.reserved = f.effective := by
    refine (fieldAccess_info (fieldAccess_ok.mpr ⟨?_, rfl⟩)).1
    intro hr
    rw [FieldSpec.info_states, hacc (by rw [← FieldSpec.info_reserved]; exact hr)]
    rfl
  have h2 : (f.info.attr.bind fun a => a.args.default).map (·.2) = f.default?.map (·.2) := by
    rw [FieldSpec.info_default, Option.map_map]
    rfl
  show Field.mk _ _ _ _ _ _ _ = Field.mk _ _ _ _ _ _ _
  rw [h1, h2, FieldSpec.info_width, offsetOf_eq]
  have := FieldSpec.info_reserved f
  simp only [Info.reserved] at this
  rw [this]
  rfl

theorem isWritable_parsed {f : FieldSpec} {o : Nat} (hi : f.ignored = false) :
    (f.parsed o).isWritable = true ↔ f.CanWrite := by
  simp only [Field.isWritable, FieldSpec.parsed, FieldSpec.CanWrite, FieldSpec.Named, hi, and_true,
    FieldSpec.effective]
  cases hr : f.reserved with
  | true => simp
  | false =>
    cases ha : f.access? with
    | none => simp
    | some a => cases a <;> simp

/-- The fields of a legal struct as parsed. -/
theorem fields_iff {m : Mode} {cfg : String → Bool} {s : StructSpec} {p : Parsed} {size : Nat}
    (hl : s.Legal)
    (hp : ParsedFrom m cfg s.attr s.decl p (s.fields.map FieldSpec.info) size)
    (hs : s.storage.size = some size) {g : Field} :
    g ∈ p.bitfield.fields ↔ ∃ f o, s.At p.args.order f o ∧ g = f.parsed o := by
  have key : ∀ (fs : List FieldSpec) (b : Nat), (∀ f ∈ fs, f.Legal) →
      (g ∈ (build p.args.order size s.decl.vis (fs.map FieldSpec.info) b).map (·.field) ↔
        ∃ pre f post, fs = pre ++ f :: post ∧ f.ignored = false ∧
          g = f.parsed (specOffset p.args.order size (b + (pre.map FieldSpec.width).sum) f.width)) := by
    intro fs
    induction fs with
    | nil => intro b _; simp [build]
    | cons f fs ih =>
      intro b hL
      have hLf := hL f (by simp)
      have ih := fun b => ih b fun f hf => hL f (by simp [hf])
      simp only [List.map_cons, build]
      by_cases hi : f.ignored = true
      · rw [if_pos (by rw [FieldSpec.info_ignored]; exact hi), ih]
        have hw : f.width = 0 := by simp [FieldSpec.width, hi]
        constructor
        · rintro ⟨pre, f', post, rfl, h1, h2⟩
          exact ⟨f :: pre, f', post, rfl, h1, by simpa [hw] using h2⟩
        · rintro ⟨pre, f', post, he, h1, h2⟩
          cases pre with
          | nil =>
            simp only [List.nil_append, List.cons.injEq] at he
            rw [← he.1, hi] at h1
            cases h1
          | cons x pre =>
            simp only [List.cons_append, List.cons.injEq] at he
            obtain ⟨rfl, rfl⟩ := he
            exact ⟨pre, f', post, rfl, h1, by simpa [hw] using h2⟩
      · have hi' : f.ignored = false := by simpa using hi
        rw [if_neg (by rw [FieldSpec.info_ignored]; exact hi), List.map_cons, List.mem_cons, ih,
          pfield_info (hLf.access hi'), FieldSpec.info_width]
        constructor
        · rintro (rfl | ⟨pre, f', post, rfl, h1, h2⟩)
          · exact ⟨[], f, fs, rfl, hi', by simp⟩
          · exact ⟨f :: pre, f', post, rfl, h1, by simpa [Nat.add_assoc] using h2⟩
        · rintro ⟨pre, f', post, he, h1, h2⟩
          cases pre with
          | nil =>
            simp only [List.nil_append, List.cons.injEq] at he
            obtain ⟨rfl, rfl⟩ := he
            exact .inl (by simpa using h2)
          | cons x pre =>
            simp only [List.cons_append, List.cons.injEq] at he
            obtain ⟨rfl, rfl⟩ := he
            exact .inr ⟨pre, f', post, rfl, h1, by simpa [Nat.add_assoc] using h2⟩
  have e : p.bitfield.fields =
      (build p.args.order size s.decl.vis (s.fields.map FieldSpec.info) 0).map (·.field) := by
    simp only [Parsed.bitfield, hp.fields]
  rw [e, key s.fields 0 hl.field]
  constructor
  · rintro ⟨pre, f, post, h1, h2, h3⟩
    exact ⟨f, _, ⟨h2, pre, post, size, h1, hs, rfl⟩, by simpa using h3⟩
  · rintro ⟨f, o, ⟨h2, pre, post, size', h1, hs', rfl⟩, h3⟩
    rw [hs] at hs'
    cases hs'
    exact ⟨pre, f, post, h1, h2, by simpa using h3⟩

theorem At.mem {s : StructSpec} {order : Order} {f : FieldSpec} {o : Nat} (h : s.At order f o) :
    f ∈ s.fields := by
  obtain ⟨_, pre, post, _, he, _⟩ := h
  rw [he]; simp

theorem backing_data {s : StructSpec} {p : Parsed} (hty : p.ty = s.storage.data) :
    p.bitfield.backing = match s.storage with
      | .int t => .int t.bitSize
      | .bytes n => .arr n
      | .custom _ _ => .int 0 := by
  show p.ty.backing = _
  rw [hty]
  cases s.storage <;> rfl

theorem assignOK_parsed {s : StructSpec} {p : Parsed} (hty : p.ty = s.storage.data) (hl : s.Legal)
    {f : FieldSpec} {o : Nat} {v : Val} (hi : f.ignored = false)
    (ht : TypeSpec.Takes s.storage f.ty f.CanWrite v) :
    AssignOK p.bitfield.backing (f.parsed o) v := by
  have hst := hl.storage
  rw [backing_data hty]
  unfold AssignOK
  cases h1 : s.storage with
  | custom name c => rw [h1] at hst; exact hst.elim
  | int u =>
    rw [h1] at ht
    cases h2 : f.ty with
    | int t =>
      rw [h2] at ht
      have hd : (f.parsed o).ty = .int t := by show f.ty.data = _; rw [h2]; rfl
      split
      · simp only [SetterOK, hd]
        cases t <;> cases v <;> first | trivial | exact ht.elim
      · rename_i hw
        rw [isWritable_parsed hi] at hw
        simp only [DirectOK, hd]
        cases t <;> cases v <;> first | trivial | exact ht.elim | exact (ht.resolve_left hw)
    | bytes len =>
      rw [h2] at ht
      have hd : (f.parsed o).ty = .array len := by show f.ty.data = _; rw [h2]; rfl
      split
      · simp only [SetterOK, hd]
        cases v with
        | int n => trivial
        | arr a => obtain ⟨⟨n, hn⟩, _⟩ := ht; cases hn
        | _ => exact ht.elim
      · rename_i hw
        rw [isWritable_parsed hi] at hw
        simp only [DirectOK, hd]
        cases v with
        | int n => exact ht.2.resolve_left hw
        | arr a => obtain ⟨⟨n, hn⟩, _⟩ := ht; cases hn
        | _ => exact ht.elim
    | custom name c =>
      rw [h2] at ht
      have hd : (f.parsed o).ty = .custom c := by show f.ty.data = _; rw [h2]; rfl
      split
      · simp only [SetterOK, hd]
        cases v <;> first | trivial | exact ht.elim
      · simp only [DirectOK, hd]
        cases v <;> first | trivial | exact ht.elim
  | bytes k =>
    rw [h1] at ht
    cases h2 : f.ty with
    | int t =>
      rw [h2] at ht
      have hd : (f.parsed o).ty = .int t := by show f.ty.data = _; rw [h2]; rfl
      split
      · simp only [SetterOK, hd]
        cases t <;> cases v <;> first | trivial | exact ht.elim
      · simp only [DirectOK, hd]
        cases t <;> cases v <;> first | trivial | exact ht.elim
    | bytes len =>
      rw [h2] at ht
      have hd : (f.parsed o).ty = .array len := by show f.ty.data = _; rw [h2]; rfl
      split
      · simp only [SetterOK, hd]
        cases v with
        | int n => obtain ⟨⟨n, hn⟩, _⟩ := ht; cases hn
        | arr a => exact ht.2
        | _ => exact ht.elim
      · simp only [DirectOK, hd]
        cases v with
        | int n => obtain ⟨⟨n, hn⟩, _⟩ := ht; cases hn
        | arr a => exact ht.2
        | _ => exact ht.elim
    | custom name c =>
      rw [h2] at ht
      have hd : (f.parsed o).ty = .custom c := by show f.ty.data = _; rw [h2]; rfl
      split
      · simp only [SetterOK, hd]
        cases v <;> first | trivial | exact ht.elim
      · simp only [DirectOK, hd]
        cases v <;> first | trivial | exact ht.elim

/-- What the theorems about run-time behaviour need of an accepted struct. -/
structure Runs (cfg : String → Bool) (as : List BitfieldArgSpec) (s : StructSpec) (p : Parsed) :
    Prop where
  wf : WF p.bitfield
  supported : Supported p.bitfield
  lawful : s.Lawful → Lawful p.bitfield
  fields : ∀ g, g ∈ p.bitfield.fields ↔ ∃ f o, s.At (orderValue cfg as) f o ∧ g = f.parsed o
  backing : p.bitfield.backing = match s.storage with
      | .int t => .int t.bitSize
      | .bytes n => .arr n
      | .custom _ _ => .int 0

theorem StructSpec.layout {m : Mode} {cfg : String → Bool} {s : StructSpec} {p : Parsed}
    {as : List BitfieldArgSpec} (hr : s.Readable) (ha : s.rest = bitfieldTokens as) (hl : s.Legal)
    (h : parseBitfield m cfg s.attr s.decl = .ok p) (g : Field) :
    g ∈ p.bitfield.fields ↔ ∃ f o, s.At (orderValue cfg as) f o ∧ g = f.parsed o := by
  obtain ⟨_, size, hs, hty, hp⟩ := StructSpec.parsed hr (.inr hl.small) h
  have ho : p.args.order = orderValue cfg as := by
    have key : ∀ l b, resolveOrder l b = if b && !l then .msb else .lsb := by decide
    obtain ⟨r, h1, h2⟩ := parseBitfieldArgs_tokens cfg as
    have e := (StructSpec.kept hr h).args
    rw [ha, h1] at e
    have := h2.order
    rw [Except.ok.inj e] at this
    simp only [defaultArgs, key] at this
    exact this
  rw [← ho]
  exact fields_iff hl hp hs

theorem StructSpec.runs {m : Mode} {cfg : String → Bool} {s : StructSpec} {p : Parsed}
    {as : List BitfieldArgSpec} (hr : s.Readable) (ha : s.rest = bitfieldTokens as) (hl : s.Legal)
    (hu : s.Usable) (h : parseBitfield m cfg s.attr s.decl = .ok p) : Runs cfg as s p := by
  obtain ⟨_, size, hs, hty, hp⟩ := StructSpec.parsed hr (.inr hl.small) h
  have hf := StructSpec.layout hr ha hl h
  have hb : p.ty ≠ .int .bool := by
    rw [hty]
    intro e
    apply hu.storage
    cases hst : s.storage with
    | int t => rw [hst] at e; cases e; rfl
    | bytes n => rw [hst] at e; cases e
    | custom name c => rw [hst] at e; cases e
  have hback := backing_data (p := p) hty
  refine ⟨hp.wf hb, ⟨?_, ?_⟩, ?_, hf, hback⟩
  · intro g hg
    obtain ⟨f, o, hat, rfl⟩ := (hf g).mp hg
    refine ⟨?_, ?_⟩
    · intro len ht
      have ht : f.ty = .bytes len := by
        have ht : f.ty.data = .array len := ht
        cases h : f.ty with
        | int t => rw [h] at ht; cases ht
        | bytes n => rw [h] at ht; cases ht; rfl
        | custom name c => rw [h] at ht; cases ht
      obtain ⟨h1, h2⟩ := hu.bytes f (At.mem hat) hat.1 len ht
      refine ⟨h1, ?_⟩
      intro w hw
      rw [hback] at hw
      cases hst : s.storage with
      | int u => exact h2 u hst
      | bytes n => rw [hst] at hw; cases hw
      | custom name c => have := hl.storage; rw [hst] at this; exact this.elim
    · intro c ht
      have ht : f.ty.data = .custom c := ht
      cases h : f.ty with
      | int t => rw [h] at ht; cases ht
      | bytes n => rw [h] at ht; cases ht
      | custom name c' => exact hu.custom f (At.mem hat) hat.1 name c' h
  · intro g hg v hv
    obtain ⟨f, o, hat, rfl⟩ := (hf g).mp hg
    have hv : f.default?.map (·.2) = some v := hv
    cases hd : f.default? with
    | none => rw [hd] at hv; cases hv
    | some dv =>
      obtain ⟨d, v'⟩ := dv
      rw [hd] at hv
      cases hv
      exact assignOK_parsed hty hl hat.1
        (hu.default f (At.mem hat) hat.1 d _ hd).2
  · intro hlaw g hg c hc
    obtain ⟨f, o, hat, rfl⟩ := (hf g).mp hg
    have hc : f.ty.data = .custom c := hc
    cases h : f.ty with
    | int t => rw [h] at hc; cases hc
    | bytes n => rw [h] at hc; cases hc
    | custom name c' =>
      rw [h] at hc
      cases hc
      exact hlaw f (At.mem hat) hat.1 name _ h

theorem decode_parsed (f : FieldSpec) (o : Nat) (x : Bits) :
    decode (f.parsed o) x = f.ty.read f.width x := by
  unfold decode TypeSpec.read FieldSpec.parsed
  cases f.ty with
  | int t => cases t <;> rfl
  | bytes n => rfl
  | custom name c => rfl

theorem encode_data (t : TypeSpec) (v : Val) : encode t.data v = t.write v := by
  cases v with
  | custom code => cases t <;> rfl
  | _ => rfl

theorem hasType_data {t : TypeSpec} {v : Val} (h : t.Contains v) : HasType t.data v := by
  cases t with
  | int it => cases it <;> cases v <;> exact h
  | bytes n => cases v <;> exact h
  | custom name c => cases v <;> exact h

end Bf
