import Verif.Lemmas.Decl
import Verif.Props.Literal

/-!
# Lemmas: accepted structs
-/

namespace Bf

theorem constExpr_text (d : DefaultSpec) (h : d.Supported) : constExpr d.text = .ok d.const := by
  cases d with
  | int l => exact C43_literal_partial l h.1 h.2.1 h.2.2.1
  | bool b =>
    cases b with
    | false => exact C43_bool.2
    | true => exact C43_bool.1
  | expr t => exact C43_path_partial t h

theorem supported_of_dataType {t : TypeSpec} (hp : t.Proper) {d : DataType}
    (h : t.syntax.dataType = .ok d) : t.Supported := by
  have := dataType_syntax.mp h
  cases t with
  | int it => trivial
  | bytes n => exact ⟨this.1, this.2.1⟩
  | custom name c =>
    intro hm
    have hp : name ∉ _ := hp
    have h2 := this.1
    simp only [builtinNames, List.mem_cons, List.not_mem_nil, or_false, not_or] at hm hp h2
    obtain ⟨a1, a2, a3, a4, a5, a6, a7, a8, a9, a10, a11⟩ := hp
    obtain ⟨b1, b2, b3, b4⟩ := h2
    rcases hm with h | h | h | h | h | h | h | h | h | h | h | h | h | h | h <;> contradiction

theorem FieldSpec.reads {f : FieldSpec} (hp : f.ty.Proper) (hr : f.Readable) {i : Info}
    (hi : i.Reads) (hd : i.decl = f.decl) :
    i = f.info ∧ f.ty.Supported ∧ ∀ n, f.bits.bind BitsSpec.width = some n → n < 2 ^ 32 := by
  obtain ⟨h1, h2⟩ := hi
  rw [hd] at h1 h2
  have hs : f.ty.Supported := supported_of_dataType hp h2
  have hw := getBitsAttribute_width h1
  refine ⟨?_, hs, hw⟩
  have e1 := getBitsAttribute_decl constExpr_text hr hw
  have e2 : f.decl.ty.dataType = .ok f.ty.data := dataType_supported hs
  rw [e1] at h1
  rw [e2] at h2
  cases i with
  | mk decl attr ty =>
    simp only at hd h1 h2
    cases h1
    cases h2
    cases hd
    rfl

theorem FieldSpec.info_reads {f : FieldSpec} (hr : f.Readable) (hs : f.ty.Supported)
    (hw : ∀ n, f.bits.bind BitsSpec.width = some n → n < 2 ^ 32) : f.info.Reads :=
  ⟨getBitsAttribute_decl constExpr_text hr hw, dataType_supported hs⟩

theorem declaredWidth_le {f : FieldSpec} (hp : f.ty.Proper) (hr : f.Readable) :
    declaredWidth f.decl ≤ f.width := by
  cases h1 : getBitsAttribute f.decl with
  | error e => simp [declaredWidth, h1]
  | ok a =>
    cases h2 : f.decl.ty.dataType with
    | error e => simp [declaredWidth, h1, h2]
    | ok t =>
      have hi : (⟨f.decl, a, t⟩ : Info).Reads := ⟨h1, h2⟩
      obtain ⟨e, _⟩ := FieldSpec.reads hp hr hi rfl
      have := declaredWidth_eq hi
      rw [e, FieldSpec.info_width] at this
      exact Nat.le_of_eq this

theorem sum_declaredWidth_le {fs : List FieldSpec} (hp : ∀ f ∈ fs, f.ty.Proper)
    (hr : ∀ f ∈ fs, f.Readable) :
    ((fs.map FieldSpec.decl).map declaredWidth).sum ≤ (fs.map FieldSpec.width).sum := by
  induction fs with
  | nil => exact Nat.le_refl _
  | cons f fs ih =>
    simp only [List.map_cons, List.sum_cons]
    have h1 := declaredWidth_le (hp f (by simp)) (hr f (by simp))
    have h2 := ih (fun g hg => hp g (by simp [hg])) (fun g hg => hr g (by simp [hg]))
    omega

theorem StructSpec.noOverflow {s : StructSpec} (hr : s.Readable) {m : Mode}
    (hm : m = .checked ∨ s.Small) :
    ∀ ds, s.decl.fields = some ds → NoOverflow m s.attr ds := by
  intro ds hd
  rcases hm with hm | hm
  · exact .inl hm
  · refine .inr ⟨?_, ?_⟩
    · cases hd
      exact Nat.lt_of_le_of_lt (sum_declaredWidth_le hr.ty hr.default) hm.widths
    · intro t n d ht hd' hs
      cases ht
      have hsup := supported_of_dataType hr.storage hd'
      rw [dataType_supported hsup] at hd'
      cases hd'
      rw [size_data] at hs
      exact hm.storage n hs

theorem infos_eq {fs : List FieldSpec} (hp : ∀ f ∈ fs, f.ty.Proper) (hr : ∀ f ∈ fs, f.Readable) :
    ∀ is : List Info, is.map Info.decl = fs.map FieldSpec.decl → (∀ i ∈ is, i.Reads) →
      is = fs.map FieldSpec.info ∧ ∀ f ∈ fs, f.ty.Supported ∧
        ∀ n, f.bits.bind BitsSpec.width = some n → n < 2 ^ 32 := by
  induction fs with
  | nil =>
    intro is h _
    rw [List.map_nil, List.map_eq_nil_iff] at h
    exact ⟨h, by simp⟩
  | cons f fs ih =>
    intro is h hreads
    cases is with
    | nil => simp at h
    | cons i is =>
      simp only [List.map_cons, List.cons.injEq] at h
      obtain ⟨e1, e2⟩ := h
      obtain ⟨a1, a2, a3⟩ := FieldSpec.reads (hp f (by simp)) (hr f (by simp))
        (hreads i (by simp)) e1
      obtain ⟨b1, b2⟩ := ih (fun g hg => hp g (by simp [hg])) (fun g hg => hr g (by simp [hg])) is
        e2 fun j hj => hreads j (by simp [hj])
      refine ⟨by rw [a1, b1]; rfl, ?_⟩
      intro g hg
      rcases List.mem_cons.mp hg with rfl | hg
      · exact ⟨a2, a3⟩
      · exact b2 g hg

theorem totalWidth_infos (fs : List FieldSpec) :
    totalWidth (fs.map FieldSpec.info) = (fs.map FieldSpec.width).sum := by
  induction fs with
  | nil => rfl
  | cons f fs ih =>
    rw [List.map_cons, totalWidth_cons, ih, FieldSpec.info_width]
    rfl

theorem namesOK_infos (fs : List FieldSpec) :
    NamesOK (fs.map FieldSpec.info) ↔ fs.Pairwise fun f g =>
      (f.reserved = false ∨ f.ignored = true) → f.name ≠ g.name := by
  simp only [NamesOK, List.pairwise_map]
  have e : ∀ f : FieldSpec, f.info.blocks = true ↔ (f.reserved = false ∨ f.ignored = true) := by
    intro f
    simp only [Info.blocks, FieldSpec.info_ignored, FieldSpec.info_reserved]
    cases f.ignored <;> cases f.reserved <;> simp
  constructor
  · intro h
    exact h.imp fun {f g} hfg hb => hfg ((e f).mpr hb)
  · intro h
    exact h.imp fun {f g} hfg hb => hfg ((e f).mp hb)

/-- The struct as parsed, if it is accepted. -/
theorem StructSpec.parsed {m : Mode} {cfg : String → Bool} {s : StructSpec} {p : Parsed}
    (hr : s.Readable) (hm : m = .checked ∨ s.Small)
    (h : parseBitfield m cfg s.attr s.decl = .ok p) :
    s.Legal ∧ ∃ size, s.storage.size = some size ∧ p.ty = s.storage.data ∧
      ParsedFrom m cfg s.attr s.decl p (s.fields.map FieldSpec.info) size := by
  obtain ⟨is, size, hp⟩ := parseBitfield_sound h (s.noOverflow hr hm)
  obtain ⟨his, hfs⟩ := infos_eq hr.ty hr.default is (Option.some.inj hp.decls).symm hp.reads
  subst his
  obtain ⟨t, ht1, ht2⟩ := hp.backing
  cases ht1
  have hsup := supported_of_dataType hr.storage ht2
  have ety := dataType_supported hsup
  rw [ety] at ht2
  have ety : p.ty = s.storage.data := (Except.ok.inj ht2).symm
  have hsz : s.storage.size = some size := by rw [← size_data, ← ety]; exact hp.hsize
  refine ⟨?_, size, hsz, ety, hp⟩
  have hlt := hp.lt
  have hu := hp.unsigned
  rw [ety] at hu
  refine ⟨?_, ?_, ?_, ?_⟩
  · cases hst : s.storage with
    | int t => rw [hst] at hu; exact hu
    | bytes n =>
      rw [hst] at hsz hsup
      cases hsz
      exact ⟨hsup.1, hlt⟩
    | custom name c => rw [hst] at hsz; cases hsz
  · intro f hf
    obtain ⟨h1, h2⟩ := hfs f hf
    refine (FieldSpec.info_legal h1 h2).mp ?_
    refine (Info.passes_iff (FieldSpec.info_literals (hr.default f hf))).mp (hp.checked f.info ?_)
    exact List.mem_map_of_mem hf
  · exact (namesOK_infos _).mp hp.names
  · rw [hsz, ← totalWidth_infos, hp.total]

theorem StructSpec.accepted {m : Mode} {cfg : String → Bool} {s : StructSpec}
    (hr : s.Readable) (hl : s.Legal) {args : BitfieldArgs}
    (hargs : parseBitfieldArgs cfg s.rest = .ok args) :
    ∃ p, parseBitfield m cfg s.attr s.decl = .ok p := by
  have hst := hl.storage
  have hsup : s.storage.Supported := by
    cases h : s.storage with
    | int t => trivial
    | bytes n => rw [h] at hst; exact ⟨hst.1, by have := hst.2; omega⟩
    | custom name c => rw [h] at hst; exact hst.elim
  have hsize : sizeOf? s.storage.data = some (s.fields.map FieldSpec.width).sum := by
    rw [size_data, hl.total]
  refine ⟨_, parseBitfield_complete (is := s.fields.map FieldSpec.info) (t := s.storage.syntax)
    (ty := s.storage.data) ?_ ?_ rfl (dataType_supported hsup) hsize ?_ ?_ hargs ?_ ?_ ?_⟩
  · simp only [StructSpec.decl, List.map_map]
    rfl
  · intro i hi
    obtain ⟨f, hf, rfl⟩ := List.mem_map.mp hi
    exact FieldSpec.info_reads (hr.default f hf) (hl.field f hf).ty (hl.field f hf).stated
  · have := hl.total
    cases h : s.storage with
    | int t =>
      rw [h] at this
      simp only [TypeSpec.size, Option.some.injEq] at this
      rw [this]
      exact Nat.lt_of_le_of_lt t.bitSize_le (by decide)
    | bytes n =>
      rw [h] at this hst
      simp only [TypeSpec.size, Option.some.injEq] at this
      rw [this]
      exact hst.2
    | custom name c => rw [h] at hst; exact hst.elim
  · cases h : s.storage with
    | int t => rw [h] at hst; exact hst
    | bytes n => rfl
    | custom name c => rw [h] at hst; exact hst.elim
  · intro i hi
    obtain ⟨f, hf, rfl⟩ := List.mem_map.mp hi
    have hL := hl.field f hf
    exact (Info.passes_iff (FieldSpec.info_literals (hr.default f hf))).mpr
      ((FieldSpec.info_legal hL.ty hL.stated).mpr hL)
  · exact (namesOK_infos _).mpr hl.names
  · exact totalWidth_infos _

/-! ## The layout -/

theorem offsetOf_eq (o : Order) (size before w : Nat) :
    offsetOf o size before w = specOffset o size before w := by cases o <;> rfl

theorem ParsedFrom.size_eq {m : Mode} {cfg : String → Bool} {attr : AttrInput} {d : StructDecl}
    {p : Parsed} {is : List Info} {size : Nat} (h : ParsedFrom m cfg attr d p is size) :
    p.bitfield.backing.size = size := backing_size h.hsize

theorem ParsedFrom.partition {m : Mode} {cfg : String → Bool} {attr : AttrInput} {d : StructDecl}
    {p : Parsed} {is : List Info} {size : Nat} (h : ParsedFrom m cfg attr d p is size) :
    Partition size p.bitfield.fields := by
  have hf : p.bitfield.fields = (build p.args.order size d.vis is 0).map (·.field) := by
    simp only [Parsed.bitfield, h.fields]
  have hP := Placed.of_build p.args.order size d.vis is
  have htot : ((p.bitfield.fields).map Field.bits).sum = size := by
    rw [hf, ← widths_eq, widths_build, h.total]
  rw [← hf] at hP
  have hle : 0 + ((p.bitfield.fields).map Field.bits).sum ≤ size := by omega
  have hone : ∀ i < size, ∃ k < p.bitfield.fields.length, ∀ j f, p.bitfield.fields[j]? = some f →
      (f.covers i = true ↔ j = k) := by
    intro i hi
    refine Placed.unique hi _ 0 hP hle (Nat.zero_le _) ?_
    rw [htot, Nat.zero_add]
    cases p.args.order <;> simp only [position] <;> omega
  have hin : ∀ f ∈ p.bitfield.fields, 1 ≤ f.bits ∧ f.offset + f.bits ≤ size := by
    intro f hm
    refine ⟨?_, hP.offset_le hle f hm⟩
    rw [hf, List.mem_map] at hm
    obtain ⟨q, hq, rfl⟩ := hm
    obtain ⟨i, hi, hig, c, rfl⟩ := build_mem hq
    exact ((h.checked i hi).width hig).1
  refine ⟨hin, ?_, hone⟩
  rw [List.pairwise_iff_getElem]
  intro a b ha hb hab i ⟨h1, h2⟩
  have hi : i < size := by
    have := (hin _ (List.getElem_mem ha)).2
    simp only [Field.covers, Bool.and_eq_true, decide_eq_true_eq] at h1
    omega
  obtain ⟨k, _, hk⟩ := hone i hi
  have e1 := (hk a _ (List.getElem?_eq_getElem ha)).mp h1
  have e2 := (hk b _ (List.getElem?_eq_getElem hb)).mp h2
  omega

theorem dataType_array {t : SynType} {n : Nat} (h : t.dataType = .ok (.array n)) : 1 ≤ n := by
  cases t with
  | path name c =>
    exfalso
    simp only [SynType.dataType] at h
    have key : ∀ (c : Prop) [Decidable c] (a b : Except TypeError DataType),
        (if c then a else b) = .ok (.array n) → a ≠ .ok (.array n) → b = .ok (.array n) := by
      intro c _ a b h ha
      split at h
      · exact absurd h ha
      · exact h
    iterate 13 replace h := key _ _ _ h (by simp)
    cases h
  | other => cases h
  | array elem len =>
    simp only [SynType.dataType] at h
    split at h
    · cases h
    · split at h
      · split at h
        · split at h
          · cases h
          · cases h
            omega
        · cases h
      · cases h
    · cases h

theorem ParsedFrom.wf {m : Mode} {cfg : String → Bool} {attr : AttrInput} {d : StructDecl}
    {p : Parsed} {is : List Info} {size : Nat} (h : ParsedFrom m cfg attr d p is size)
    (hb : p.ty ≠ .int .bool) : WF p.bitfield := by
  have hP := h.partition
  have hs := h.size_eq
  refine ⟨?_, ?_, hP.disjoint, ?_⟩
  · show p.ty.backing.OK
    have hu := h.unsigned
    have hsz := h.hsize
    have hlt := h.lt
    obtain ⟨t, _, ht⟩ := h.backing
    cases hty : p.ty with
    | int t =>
      rw [hty] at hu hb
      cases t with
      | bool => exact absurd rfl hb
      | u8 => exact .inl rfl
      | u16 => exact .inr (.inl rfl)
      | u32 => exact .inr (.inr (.inl rfl))
      | u64 => exact .inr (.inr (.inr (.inl rfl)))
      | u128 => exact .inr (.inr (.inr (.inr rfl)))
      | i8 => cases hu
      | i16 => cases hu
      | i32 => cases hu
      | i64 => cases hu
      | i128 => cases hu
    | array n =>
      rw [hty] at hsz ht
      cases hsz
      exact ⟨dataType_array ht, hlt⟩
    | custom c => rw [hty] at hsz; cases hsz
  · intro f hf
    refine ⟨(hP.inside f hf).1, by rw [hs]; exact (hP.inside f hf).2, ?_⟩
    intro t ht
    simp only [Parsed.bitfield, h.fields, List.mem_map] at hf
    obtain ⟨q, hq, rfl⟩ := hf
    obtain ⟨i, hi, hig, c, rfl⟩ := build_mem hq
    exact ((h.checked i hi).width hig).2 t ht
  · intro i hi
    rw [hs] at hi
    obtain ⟨k, hk, hu⟩ := hP.one i hi
    exact ⟨_, List.getElem_mem hk, (hu k _ (List.getElem?_eq_getElem hk)).mpr rfl⟩

theorem build_get {o : Order} {size : Nat} {sv : Vis} (pre : List Info) {i : Info}
    {post : List Info} (hi : i.ignored = false) :
    ∀ b, (build o size sv (pre ++ i :: post) b)[(pre.filter fun j => !j.ignored).length]? =
      some (i.pfield o size sv (b + totalWidth pre)) := by
  induction pre with
  | nil =>
    intro b
    simp only [List.nil_append, build]
    rw [if_neg (by rw [hi]; simp)]
    rfl
  | cons j pre ih =>
    intro b
    rw [List.cons_append]
    simp only [build, totalWidth_cons]
    by_cases hj : j.ignored = true
    · rw [if_pos hj, List.filter_cons_of_neg (by simp [hj]), ih]
      simp [Info.width, hj]
    · rw [if_neg hj, List.filter_cons_of_pos (by simpa using hj), List.length_cons,
        List.getElem?_cons_succ, ih, Nat.add_assoc]

theorem build_length {o : Order} {size : Nat} {sv : Vis} (is : List Info) :
    ∀ b, (build o size sv is b).length = (is.filter fun j => !j.ignored).length := by
  induction is with
  | nil => intro b; rfl
  | cons j pre ih =>
    intro b
    simp only [build]
    by_cases hj : j.ignored = true
    · rw [if_pos hj, List.filter_cons_of_neg (by simp [hj]), ih]
    · rw [if_neg hj, List.filter_cons_of_pos (by simpa using hj), List.length_cons,
        List.length_cons, ih]

/-- The declaration determines what the parser learns from it. -/
theorem reads_unique (is : List Info) : ∀ js : List Info, is.map Info.decl = js.map Info.decl →
    (∀ i ∈ is, i.Reads) → (∀ j ∈ js, j.Reads) → is = js := by
  induction is with
  | nil =>
    intro js h _ _
    cases js with
    | nil => rfl
    | cons j js => simp at h
  | cons i is ih =>
    intro js h hi hj
    cases js with
    | nil => simp at h
    | cons j js =>
      simp only [List.map_cons, List.cons.injEq] at h
      obtain ⟨a1, a2⟩ := hi i (by simp)
      obtain ⟨b1, b2⟩ := hj j (by simp)
      have : i = j := by
        cases i with
        | mk d1 x1 t1 =>
        cases j with
        | mk d2 x2 t2 =>
          simp only at h a1 a2 b1 b2
          rw [h.1, b1] at a1
          rw [h.1, b2] at a2
          rw [h.1, Except.ok.inj a1, Except.ok.inj a2]
      rw [this, ih js h.2 (fun k hk => hi k (by simp [hk])) fun k hk => hj k (by simp [hk])]

theorem build_mirror {size : Nat} {sv : Vis} (is : List Info) :
    ∀ (b k : Nat) (f g : PField), b + totalWidth is ≤ size → (build .lsb size sv is b)[k]? = some f →
      (build .msb size sv is b)[k]? = some g →
      g.field = { f.field with offset := size - (f.field.offset + f.field.bits) } := by
  induction is with
  | nil => intro b k f g _ h; simp [build] at h
  | cons i is ih =>
    intro b k f g hle h1 h2
    rw [totalWidth_cons] at hle
    simp only [build] at h1 h2
    by_cases hi : i.ignored = true
    · rw [if_pos hi] at h1 h2
      exact ih b k f g (by omega) h1 h2
    · rw [if_neg hi] at h1 h2
      cases k with
      | zero =>
        simp only [List.getElem?_cons_zero, Option.some.injEq] at h1 h2
        subst h1 h2
        rfl
      | succ k =>
        rw [List.getElem?_cons_succ] at h1 h2
        exact ih _ k f g (by omega) h1 h2

/-! ## The order -/

theorem same_acceptance {m : Mode} {cfg cfg' : String → Bool} {ty : Option SynType}
    {rest rest' : List Tok} {d : StructDecl} {p : Parsed} {args' : BitfieldArgs}
    (hno : ∀ ds, d.fields = some ds → NoOverflow m ⟨ty, rest⟩ ds)
    (h : parseBitfield m cfg ⟨ty, rest⟩ d = .ok p)
    (h' : parseBitfieldArgs cfg' rest' = .ok args') :
    ∃ p', parseBitfield m cfg' ⟨ty, rest'⟩ d = .ok p' ∧ p'.args = args' := by
  obtain ⟨is, size, hp⟩ := parseBitfield_sound h hno
  obtain ⟨t, ht1, ht2⟩ := hp.backing
  exact ⟨_, parseBitfield_complete hp.decls hp.reads ht1 ht2 hp.hsize hp.lt hp.unsigned h'
    hp.checked hp.names hp.total, rfl⟩

theorem mirror {m : Mode} {cfg cfg' : String → Bool} {ty : Option SynType}
    {rest rest' : List Tok} {d : StructDecl} {p p' : Parsed}
    (hno : ∀ ds, d.fields = some ds → NoOverflow m ⟨ty, rest⟩ ds)
    (h : parseBitfield m cfg ⟨ty, rest⟩ d = .ok p)
    (h' : parseBitfield m cfg' ⟨ty, rest'⟩ d = .ok p') (ho : p.args.order = .lsb)
    (ho' : p'.args.order = .msb) :
    p'.bitfield.backing = p.bitfield.backing ∧
    p'.bitfield.fields = p.bitfield.fields.map fun f =>
      { f with offset := p.bitfield.backing.size - (f.offset + f.bits) } := by
  obtain ⟨is, size, hp⟩ := parseBitfield_sound h hno
  obtain ⟨is', size', hp'⟩ := parseBitfield_sound h' hno
  have e : is = is' := reads_unique is is'
    (Option.some.inj (hp.decls.symm.trans hp'.decls)) hp.reads hp'.reads
  subst e
  have ety : p.ty = p'.ty := by
    obtain ⟨t, ht1, ht2⟩ := hp.backing
    obtain ⟨t', ht1', ht2'⟩ := hp'.backing
    have : t = t' := Option.some.inj (ht1.symm.trans ht1')
    rw [this, ht2'] at ht2
    exact (Except.ok.inj ht2).symm
  have es : size = size' := by
    have h1 := hp.hsize
    rw [ety, hp'.hsize] at h1
    exact (Option.some.inj h1).symm
  subst es
  refine ⟨by show p'.ty.backing = p.ty.backing; rw [ety], ?_⟩
  rw [hp.size_eq]
  show p'.fields.map (·.field) = (p.fields.map (·.field)).map _
  rw [hp.fields, hp'.fields, ho, ho', List.map_map]
  have hlen := (build_length (o := .lsb) (size := size) (sv := d.vis) is 0).trans
    (build_length (o := .msb) (size := size) (sv := d.vis) is 0).symm
  refine List.ext_getElem? fun k => ?_
  rw [List.getElem?_map, List.getElem?_map]
  cases h1 : (build .lsb size d.vis is 0)[k]? with
  | none =>
    have h2 : (build .msb size d.vis is 0)[k]? = none := by
      rw [List.getElem?_eq_none_iff] at h1 ⊢
      omega
    rw [h2]
    rfl
  | some f =>
    have hk : k < (build .msb size d.vis is 0).length := by
      rw [← hlen]
      exact (List.getElem?_eq_some_iff.mp h1).1
    have h2 := List.getElem?_eq_getElem hk
    rw [h2]
    have := build_mirror is 0 k f _ (by rw [hp.total]; omega) h1 h2
    simp only [Option.map_some, Function.comp_apply]
    rw [this]

/-! ## Names -/

theorem parseFields_seen {m : Mode} {A : BitfieldAttr} {sv : Vis} (ds : List FieldDecl) :
    ∀ seen fields ign r, parseFields m A sv ds seen fields ign = .ok r →
      ∀ g ∈ ds, g.name ∉ seen := by
  induction ds with
  | nil => intro _ _ _ _ _ g hg; simp at hg
  | cons d ds ih =>
    intro seen fields ign r h g hg
    simp only [parseFields] at h
    split at h
    · cases h
    rename_i hns
    obtain ⟨q, _, h⟩ := bind_ok.mp h
    rcases List.mem_cons.mp hg with rfl | hg
    · simpa using hns
    · have : g.name ∉ if q.field.reserved then seen else d.name :: seen := by
        split at h <;> exact ih _ _ _ _ h g hg
      intro hm
      apply this
      split
      · exact hm
      · exact List.mem_cons_of_mem _ hm

theorem parseField_reserved {m : Mode} {A : BitfieldAttr} {sv : Vis} {d : FieldDecl}
    {prev : List PField} {q : PField} (h : parseField m A sv d prev = .ok q)
    (hr : isReservedName d.name = false) : q.field.reserved = false := by
  obtain ⟨a, _, h⟩ := parseField_ok.mp h
  split at h
  · simp only [parseIgnored] at h
    cases hd : d.ty.dataType with
    | error e => rw [hd] at h; cases h
    | ok t => rw [hd] at h; cases h; rfl
  · obtain ⟨t, w, o, c, _, _, _, _, _, _, rfl⟩ := h
    exact hr

theorem parseFields_names {m : Mode} {A : BitfieldAttr} {sv : Vis} (ds : List FieldDecl) :
    ∀ seen fields ign r, parseFields m A sv ds seen fields ign = .ok r →
      ds.Pairwise fun f g => isReservedName f.name = false → f.name ≠ g.name := by
  induction ds with
  | nil => intro _ _ _ _ _; exact .nil
  | cons d ds ih =>
    intro seen fields ign r h
    simp only [parseFields] at h
    split at h
    · cases h
    obtain ⟨q, hq, h⟩ := bind_ok.mp h
    refine List.pairwise_cons.mpr ⟨fun g hg hr e => ?_, ?_⟩
    · have hq' := parseField_reserved hq hr
      have : g.name ∉ if q.field.reserved then seen else d.name :: seen := by
        split at h <;> exact parseFields_seen _ _ _ _ _ h g hg
      rw [hq', ← e] at this
      simp at this
    · split at h <;> exact ih _ _ _ _ h

/-! ## Last arguments -/

theorem lastArg_concat {α β : Type} (g : α → Option β) (a : α) (as : List α) :
    lastArg g (as ++ [a]) = (g a).or (lastArg g as) := by
  simp [lastArg, List.findSome?]
  cases g a <;> rfl

end Bf
