import Verif.SpecTypes
import Verif.Lemmas.TypedExact
import Verif.Lemmas.Run
import Verif.Props.Surface
import Verif.Props.Declared

/-!
# C64: the emitted code is well typed

`SpecTypes.lean` says what well typed means.
-/

namespace Bf

open Rust Quote

variable {m : Mode} {cfg : String → Bool} {s : StructSpec} {p : Parsed} {as : List BitfieldArgSpec}

theorem hasSetter_parsed {f : FieldSpec} {o : Nat} (hi : f.ignored = false) : (f.parsed o).hasSetter = true ↔ f.CanWrite := by
  simp only [Field.hasSetter, FieldSpec.parsed, FieldSpec.CanWrite, FieldSpec.Named, hi, and_true, FieldSpec.effective]
  by_cases hr : f.reserved = true
  · simp [hr]
  · cases ha : f.access? with
    | none => simp [hr]
    | some a => cases a <;> simp [hr]

theorem hasGetter_parsed {f : FieldSpec} {o : Nat} (hi : f.ignored = false) : (f.parsed o).hasGetter = true ↔ f.CanRead := by
  simp only [Field.hasGetter, FieldSpec.parsed, FieldSpec.CanRead, FieldSpec.Named, hi, and_true, FieldSpec.effective]
  by_cases hr : f.reserved = true
  · simp [hr]
  · cases ha : f.access? with
    | none => simp [hr]
    | some a => cases a <;> simp [hr]

theorem static_unsigned {u : IntTy} (hu : u.unsigned = true) (hb : u ≠ .bool) : u.static = .u u.bitSize := by
  cases u <;> first | rfl | exact absurd rfl hb | cases hu

theorem suits_iff (hty : p.ty = s.storage.data) (hl : s.Legal) (hst : s.storage ≠ .int .bool) {f : FieldSpec} {o : Nat}
    (hi : f.ignored = false) {typ : Option Ty → Option STy} :
    Accepts p.bitfield.backing (f.parsed o).ty (f.parsed o).hasSetter typ ↔ s.storage.Suits f.ty f.CanWrite typ := by
  have hs := hl.storage
  have hw := hasSetter_parsed (o := o) hi
  have ht : (f.parsed o).ty = f.ty.data := rfl
  rw [backing_data hty, ht]
  generalize (f.parsed o).hasSetter = b at hw ⊢
  rw [show f.CanWrite = (b = true) from propext hw.symm]
  cases h1 : s.storage with
  | custom name c => rw [h1] at hs; exact hs.elim
  | int u =>
    rw [h1] at hs hst
    have hu := static_unsigned hs fun e => hst (by rw [e])
    cases f.ty with
    | int t => cases t <;> cases b <;> simp [Accepts, TypeSpec.Suits, TypeSpec.data, hu]
    | bytes len => cases b <;> simp [Accepts, TypeSpec.Suits, TypeSpec.data, hu]
    | custom name c => cases b <;> simp [Accepts, TypeSpec.Suits, TypeSpec.data]
  | bytes n =>
    cases f.ty with
    | int t => cases t <;> cases b <;> simp [Accepts, TypeSpec.Suits, TypeSpec.data]
    | bytes len => cases b <;> simp [Accepts, TypeSpec.Suits, TypeSpec.data]
    | custom name c => cases b <;> simp [Accepts, TypeSpec.Suits, TypeSpec.data]

theorem held_eq (hr : s.Readable) (ha : s.rest = bitfieldTokens as) (h : parseBitfield m cfg s.attr s.decl = .ok p)
    (hty : p.ty = s.storage.data) (hl : s.Legal) (hst : s.storage ≠ .int .bool) :
    s.storage.held (flagValue cfg as .arrayHeap) = innerTy p.bitfield := by
  have hA : p.bitfield.heap = flagValue cfg as .arrayHeap := by
    have := (args_of hr ha h).flag .arrayHeap
    rw [defaultArgs_flag] at this
    exact this
  have hs := hl.storage
  unfold innerTy
  rw [backing_data hty, hA]
  cases h1 : s.storage with
  | custom name c => rw [h1] at hs; exact hs.elim
  | int u =>
    rw [h1] at hs hst
    simp [TypeSpec.held, static_unsigned hs fun e => hst (by rw [e])]
  | bytes n => rfl

theorem mem_of_fn {P : Program} {t : Tag} {F : Fn} (h : P.fn t = some F) : (t, F) ∈ P.fns := by
  unfold Program.fn at h
  obtain ⟨x, h1, rfl⟩ := Option.map_eq_some_iff.mp h
  have h2 := List.find?_some h1
  simp only [decide_eq_true_eq] at h2
  rw [← h2]
  exact List.mem_of_find?_eq_some h1

theorem builderNew_of {G : Gen} {feat : Feature} {F : Fn} {d : Bool}
    (h : (Tag.builderFn (if d then "new" else "new_without_defaults"), F) ∈ featureFns G feat) : F = builderNewFn G d := by
  cases d <;> cases feat <;> simp [featureFns, endians] at h <;> first | exact h | skip
  all_goals (split at h <;> simp at h)

/-- **C64** (well typed). In the code generated for an accepted declaration, every name that is used is declared, and every
operand, argument, assigned value and returned value has the type required at its place, given that the defaults suit their
fields. Missing: the constructors of the builder, if `new` is turned off and a field can only be read
(`finding_builder_read_only`). -/
theorem C64_typed_partial (hr : s.Readable) (ha : s.rest = bitfieldTokens as) (hl : s.Legal)
    (h : parseBitfield m cfg s.attr s.decl = .ok p) (hst : s.storage ≠ .int .bool)
    {types : List Char → Option STy} {user : Nat → Option Ty → Option STy} (hu : s.TypesDefaults (orderValue cfg as) types user)
    (hd : ∀ f ∈ s.fields, f.ignored = false → ∀ d v, f.default? = some (d, v) →
      s.storage.Suits f.ty f.CanWrite (d.typ types))
    {t : Tag} {F : Fn} (hF : (t, F) ∈ (program p).fns)
    (hx : (t = .builderFn "new" ∨ t = .builderFn "new_without_defaults") →
      flagValue cfg as .new = true ∨ ∀ f ∈ s.fields, f.CanRead → f.CanWrite) :
    F.typed ((program p).sig (s.storage.held (flagValue cfg as .arrayHeap)) user) = true := by
  obtain ⟨_, size, hs, hty, hp⟩ := StructSpec.parsed hr (.inr hl.small) h
  have hf := StructSpec.layout hr ha hl h
  refine program_typed (held_eq hr ha h hty hl hst) (distinct_of hr h) ?_ hF ?_
  · intro g hg v hv
    obtain ⟨f, o, hat, rfl⟩ := (hf g).mp hg
    have hv : f.default?.map (·.2) = some v := hv
    cases hdf : f.default? with
    | none => rw [hdf] at hv; cases hv
    | some dv =>
      have ho : user (f.parsed o).offset = _ := hu f o dv.1 dv.2 hat hdf
      rw [suits_iff hty hl hst hat.1, ho]
      exact hd f (At.mem hat) hat.1 dv.1 dv.2 hdf
  · intro ht hn g hg hc
    have hN : p.args.new = flagValue cfg as .new := by
      have := (args_of hr ha h).flag .new
      rw [defaultArgs_flag] at this
      exact this
    obtain ⟨f, o, hat, rfl⟩ := (hf g).mp hg
    rcases hx ht with hx | hx
    · rw [hN, hx] at hn; cases hn
    · simp only [Field.hasConstants, Bool.or_eq_true] at hc
      rcases hc with hc | hc
      · exact (hasSetter_parsed hat.1).mpr (hx f (At.mem hat) ((hasGetter_parsed hat.1).mp hc))
      · exact hc

/-- **C64** (exact). If the defaults suit their fields, then every generated function is well typed, except the
constructors of the builder: they are well typed if and only if `new` is generated or every field that can be read can be
written too. -/
theorem C64_exact (hr : s.Readable) (ha : s.rest = bitfieldTokens as) (hl : s.Legal)
    (h : parseBitfield m cfg s.attr s.decl = .ok p) (hst : s.storage ≠ .int .bool)
    {types : List Char → Option STy} {user : Nat → Option Ty → Option STy} (hu : s.TypesDefaults (orderValue cfg as) types user)
    (hd : ∀ f ∈ s.fields, f.ignored = false → ∀ d v, f.default? = some (d, v) →
      s.storage.Suits f.ty f.CanWrite (d.typ types))
    {t : Tag} {F : Fn} (hF : (t, F) ∈ (program p).fns) :
    F.typed ((program p).sig (s.storage.held (flagValue cfg as .arrayHeap)) user) = true ↔
      ((t = .builderFn "new" ∨ t = .builderFn "new_without_defaults") →
        flagValue cfg as .new = true ∨ ∀ f ∈ s.fields, f.CanRead → f.CanWrite) := by
  refine ⟨fun ht hb => ?_, C64_typed_partial hr ha hl h hst hu hd hF⟩
  by_cases hn : flagValue cfg as .new = true
  · exact .inl hn
  refine .inr fun f hm hR => Classical.byContradiction fun hW => ?_
  have hN : p.args.new = flagValue cfg as .new := by
    have := (args_of hr ha h).flag .new
    rw [defaultArgs_flag] at this
    exact this
  have hi : f.ignored = false := hR.1.2
  obtain ⟨_, size, hs, hty, hp⟩ := StructSpec.parsed hr (.inr hl.small) h
  obtain ⟨pre, post, hsplit⟩ := List.append_of_mem hm
  have hat : s.At (orderValue cfg as) f (specOffset (orderValue cfg as) size (pre.map FieldSpec.width).sum f.width) :=
    ⟨hi, pre, post, size, hsplit, hs, rfl⟩
  have hg := (StructSpec.layout hr ha hl h _).mpr ⟨f, _, hat, rfl⟩
  have hFd : ∃ d, F = builderNewFn (genOf p) d := by
    simp only [program, assemble, List.mem_flatMap] at hF
    obtain ⟨feat, -, hF⟩ := hF
    rcases hb with rfl | rfl
    · exact ⟨true, builderNew_of hF (d := true)⟩
    · exact ⟨false, builderNew_of hF (d := false)⟩
  obtain ⟨d, rfl⟩ := hFd
  rw [builderNew_exact (f := f.parsed _) (by show p.args.new = false; rw [hN]; simpa using hn) hg
    (by simp only [Field.hasConstants, (hasGetter_parsed hi).mpr hR, Bool.true_or])
    (by rw [Bool.eq_false_iff]; exact fun e => hW ((hasSetter_parsed hi).mp e))] at ht
  cases ht

/-- **C64** (defaults). `new` is well typed if and only if every default suits its field. -/
theorem C64_new (hr : s.Readable) (ha : s.rest = bitfieldTokens as) (hl : s.Legal)
    (h : parseBitfield m cfg s.attr s.decl = .ok p) (hst : s.storage ≠ .int .bool)
    {types : List Char → Option STy} {user : Nat → Option Ty → Option STy} (hu : s.TypesDefaults (orderValue cfg as) types user)
    (hn : flagValue cfg as .new = true) :
    ∃ F, (program p).fn (.fn "new") = some F ∧
      (F.typed ((program p).sig (s.storage.held (flagValue cfg as .arrayHeap)) user) = true ↔
      ∀ f ∈ s.fields, f.ignored = false → ∀ d v, f.default? = some (d, v) → s.storage.Suits f.ty f.CanWrite (d.typ types)) := by
  obtain ⟨_, size, hs, hty, hp⟩ := StructSpec.parsed hr (.inr hl.small) h
  have hf := StructSpec.layout hr ha hl h
  have hN : p.args.new = true := by
    have := (args_of hr ha h).flag .new
    rw [defaultArgs_flag] at this
    exact this.trans hn
  have e : (program p).fn _ = _ := declares_new (G := genOf p) (en := fun f => f.enabled p.args) hN true
  simp only [if_true] at e
  refine ⟨_, e, ⟨fun ht f hm hi d v hdf => ?_, fun hd => ?_⟩⟩
  · have hk : Declares ((program p).sig (s.storage.held (flagValue cfg as .arrayHeap)) user) p.bitfield :=
      declares_program (held_eq hr ha h hty hl hst) (distinct_of hr h)
    have hok := newFn_exact hk ht
    obtain ⟨pre, post, hsplit⟩ := List.append_of_mem hm
    have hat : s.At (orderValue cfg as) f (specOffset (orderValue cfg as) size (pre.map FieldSpec.width).sum f.width) :=
      ⟨hi, pre, post, size, hsplit, hs, rfl⟩
    have hg := (hf _).mpr ⟨f, _, hat, rfl⟩
    have := hok _ hg v (by show f.default?.map (·.2) = some v; rw [hdf]; rfl)
    rw [suits_iff hty hl hst hi] at this
    have ho := hu f _ d v hat hdf
    rw [← ho]
    exact this
  · exact C64_typed_partial hr ha hl h hst hu hd (mem_of_fn e) (fun ht => by simp at ht)

/-! ## Defaults that suit -/

theorem suffix_cases (x : List Char) :
    (x = ['u', 's', 'i', 'z', 'e'] ∧ suffixType x = some .u64 ∧ suffixStatic x = some (.ty .usize)) ∨
    (x = ['i', 's', 'i', 'z', 'e'] ∧ suffixType x = some .i64 ∧ suffixStatic x = some .userInt) ∨
    (x ≠ ['u', 's', 'i', 'z', 'e'] ∧ suffixType x ≠ some .bool ∧ suffixStatic x = (suffixType x).map fun t => .ty t.static) := by
  by_cases h1 : x = ['u', 's', 'i', 'z', 'e']
  · subst h1; exact .inl (by decide)
  · by_cases h2 : x = ['i', 's', 'i', 'z', 'e']
    · subst h2; exact .inr (.inl (by decide))
    · refine .inr (.inr ⟨h1, ?_, by simp [suffixStatic, h1, h2]⟩)
      unfold suffixType
      repeat' split
      all_goals simp

theorem lit_typ {l : IntLit} {c : Option IntTy} (hc : c ≠ some .bool) (h : l.neg = true → (l.type c).unsigned = false) :
    ∃ x, l.typ (c.map IntTy.static) = some x ∧ x.castable = true ∧
      (l.suffix ≠ ['u', 's', 'i', 'z', 'e'] → (l.type c).unsigned = true → x = .ty (l.type c).static) := by
  have key : ∀ t : IntTy, t ≠ .bool → (l.neg = true → t.unsigned = false) → ∃ x, (match (STy.ty t.static) with
      | .ty (.i w) => some (STy.ty (.i w))
      | .ty (.u w) => if l.neg then none else some (.ty (.u w))
      | .ty .usize => if l.neg then none else some (.ty .usize)
      | .userInt => some .userInt
      | _ => none) = some x ∧ x.castable = true ∧ x = .ty t.static := by
    intro t ht hn
    cases hx : l.neg with
    | true => rw [hx] at hn; cases t <;> first | exact absurd rfl ht | exact ⟨_, rfl, rfl, rfl⟩ | exact absurd (hn rfl) (by decide)
    | false => cases t <;> first | exact absurd rfl ht | exact ⟨_, rfl, rfl, rfl⟩
  rcases suffix_cases l.suffix with ⟨h1, h2, h3⟩ | ⟨h1, h2, h3⟩ | ⟨h1, h2, h3⟩
  · have h : l.neg = true → IntTy.u64.unsigned = false := by
      have e : l.type c = .u64 := by simp only [IntLit.type, h2]; rfl
      rw [e] at h; exact h
    have hn : l.neg = false := by
      cases hx : l.neg with
      | true => exact absurd (h hx) (by decide)
      | false => rfl
    exact ⟨.ty .usize, by simp [IntLit.typ, h3, hn], rfl, fun h => absurd h1 h⟩
  · refine ⟨.userInt, by simp [IntLit.typ, h3], rfl, fun _ hx => ?_⟩
    have hx : IntTy.i64.unsigned = true := by
      have e : l.type c = .i64 := by simp only [IntLit.type, h2]; rfl
      rw [e] at hx; exact hx
    exact absurd hx (by decide)
  · have e : (suffixStatic l.suffix).getD (.ty ((c.map IntTy.static).getD (.i 32))) = .ty (l.type c).static := by
      rw [h3]
      unfold IntLit.type
      cases suffixType l.suffix <;> cases c <;> rfl
    have hb : l.type c ≠ .bool := by
      unfold IntLit.type
      cases hs : suffixType l.suffix with
      | some t => intro h; exact h2 (by rw [hs]; exact congrArg some h)
      | none => cases c with
        | none => intro h; cases h
        | some t => intro h; exact hc (congrArg some h)
    obtain ⟨x, h4, h5, h6⟩ := key _ hb h
    refine ⟨x, ?_, h5, fun _ _ => h6⟩
    unfold IntLit.typ
    rw [e]
    exact h4

/-- **C64** (literals). A literal default that denotes a value the field takes (as assumed throughout C52 - C55) suits the
field. -/
theorem C64_literal {storage t : TypeSpec} {W : Prop} {d : DefaultSpec} {v : Val} {types : List Char → Option STy}
    (hd : ∀ e, d ≠ .expr e) (h : d.Denotes storage t W v) (ht : storage.Takes t W v)
    (hs : ∀ u, storage = .int u → u.unsigned = true ∧ u ≠ .bool) : storage.Suits t W (d.typ types) := by
  cases d with
  | expr e => exact absurd rfl (hd e)
  | bool b =>
    cases h
    cases t with
    | int t => cases t <;> first | exact rfl | exact ht.elim
    | bytes n => exact ht.elim
    | custom name c => exact ht.elim
  | int l =>
    obtain ⟨c, h1, h2, h3, rfl⟩ := h
    cases t with
    | custom name cd => exact ht.elim
    | bytes len =>
      cases storage with
      | custom name cd => exact h1.elim
      | bytes n => exact h1.elim
      | int u =>
        obtain ⟨hu, hb⟩ := hs u rfl
        rcases h1 with ⟨hw, rfl⟩ | ⟨hw, rfl⟩
        · obtain ⟨x, h4, h5, -⟩ := lit_typ (by simp) h2
          exact ⟨fun _ => ⟨x, h4, h5⟩, fun h => absurd hw h⟩
        · obtain ⟨x, h4, h5, h6⟩ := lit_typ (by simpa using hb) h2
          obtain ⟨h7, h8⟩ := h3 hw u rfl
          rw [h7] at h6
          exact ⟨fun h => absurd h hw, fun _ => h4.trans (by rw [h6 h8 hu])⟩
    | int t =>
      have hb' : t ≠ .bool := by rintro rfl; exact ht.elim
      cases storage with
      | custom name cd => cases t <;> exact h1.elim
      | int u =>
        obtain ⟨hu, hb⟩ := hs u rfl
        have key : (W → ∃ x, l.typ none = some x ∧ x.castable = true) ∧ (¬ W → l.typ (some u.static) = some (.ty u.static)) := by
          rcases h1 with ⟨hw, rfl⟩ | ⟨hw, rfl⟩
          · obtain ⟨x, h4, h5, -⟩ := lit_typ (by simp) h2
            exact ⟨fun _ => ⟨x, h4, h5⟩, fun h => absurd hw h⟩
          · obtain ⟨x, h4, h5, h6⟩ := lit_typ (by simpa using hb) h2
            obtain ⟨h7, h8⟩ := h3 hw u rfl
            rw [h7] at h6
            exact ⟨fun h => absurd h hw, fun _ => h4.trans (by rw [h6 h8 hu])⟩
        cases t <;> first | exact absurd rfl hb' | exact key
      | bytes n =>
        have key : (W → ∃ x, l.typ none = some x ∧ x.castable = true) ∧
            (¬ W → ∃ x, l.typ (some (.u 128)) = some x ∧ x.castable = true) := by
          rcases h1 with ⟨hw, rfl⟩ | ⟨hw, rfl⟩
          · obtain ⟨x, h4, h5, -⟩ := lit_typ (by simp) h2
            exact ⟨fun _ => ⟨x, h4, h5⟩, fun h => absurd hw h⟩
          · obtain ⟨x, h4, h5, -⟩ := lit_typ (by simp) h2
            exact ⟨fun h => absurd h hw, fun _ => ⟨x, h4, h5⟩⟩
        cases t <;> first | exact absurd rfl hb' | exact key

/-- **C64** (constants). When a default suits that is an expression of the field's own type, such as the name of a constant:
always, if the storage is a byte array. In an integer storage, always for `bool` and user types, never for a byte array; for
an integer only if the field can be written or has the storage type. -/
theorem C64_constant {storage t : TypeSpec} {W : Prop} {e : List Char} {types : List Char → Option STy}
    (he : types e = some (t.held false)) (hs : ∀ name c, storage ≠ .custom name c) :
    storage.Suits t W ((DefaultSpec.expr e).typ types) ↔
      match t, storage with
      | .int .bool, _ => True
      | .int i, .int u => W ∨ i = u
      | .bytes _, .int _ => False
      | _, _ => True := by
  have hx : (DefaultSpec.expr e).typ types = fun _ => some (t.held false) := funext fun _ => he
  rw [hx]
  cases storage with
  | custom name c => exact absurd rfl (hs name c)
  | int u =>
    cases t with
    | int i =>
      by_cases hb : i = .bool
      · subst hb; simp [TypeSpec.Suits, TypeSpec.held, IntTy.static]
      · have h1 : (STy.ty i.static).castable = true := by cases i <;> rfl
        have h2 : i.static = u.static ↔ i = u := by cases i <;> cases u <;> simp [IntTy.static]
        by_cases hw : W <;> cases i <;>
          first | exact absurd rfl hb | (simp [TypeSpec.Suits, TypeSpec.held, hw, h1]; done) |
            (simp only [TypeSpec.Suits, TypeSpec.held, hw]; simpa using h2)
    | bytes len => by_cases hw : W <;> cases u <;> simp [TypeSpec.Suits, TypeSpec.held, hw, IntTy.static, STy.castable, Ty.isInt]
    | custom name c => simp [TypeSpec.Suits, TypeSpec.held]
  | bytes n =>
    cases t with
    | int i => cases i <;> simp [TypeSpec.Suits, TypeSpec.held, IntTy.static, STy.castable, Ty.isInt]
    | bytes len => simp [TypeSpec.Suits, TypeSpec.held, STy.indexable]
    | custom name c => simp [TypeSpec.Suits, TypeSpec.held]

/-! ## The hypotheses hold for concrete declarations -/

/-- Two fields of the layout do not begin at the same bit. -/
theorem At.begins {order : Order} {f f' : FieldSpec} {o : Nat} (hl : s.Legal) (h : s.At order f o) (h' : s.At order f' o) :
    f' = f := by
  obtain ⟨hi, pre, post, size, he, hs, ho⟩ := h
  obtain ⟨hi', pre', post', size', he', hs', ho'⟩ := h'
  rw [hs] at hs'
  cases hs'
  have hw : ∀ g ∈ s.fields, g.ignored = false → 1 ≤ g.width := by
    intro g hg hi
    obtain ⟨w, h1, h2⟩ := (hl.field g hg).width hi
    simp only [FieldSpec.width, hi, h1]
    exact h2
  have w1 := hw f (by rw [he]; simp) hi
  have w2 := hw f' (by rw [he']; simp) hi'
  have hsum := hl.total
  rw [hs] at hsum
  have hsum := Option.some.inj hsum
  have t1 := hsum
  have t2 := hsum
  rw [he, List.map_append, List.sum_append, List.map_cons, List.sum_cons] at t1
  rw [he', List.map_append, List.sum_append, List.map_cons, List.sum_cons] at t2
  have e : (pre.map FieldSpec.width).sum = (pre'.map FieldSpec.width).sum ∨
      (pre.map FieldSpec.width).sum + f.width = (pre'.map FieldSpec.width).sum + f'.width := by
    cases order <;> simp only [specOffset] at ho ho' <;> omega
  rw [he] at he'
  rcases List.append_eq_append_iff.mp he' with ⟨a, h1, h2⟩ | ⟨a, h1, h2⟩
  · cases a with
    | nil => exact (List.cons.inj h2).1.symm
    | cons x a =>
      obtain rfl := (List.cons.inj h2).1
      rw [h1, List.map_append, List.sum_append, List.map_cons, List.sum_cons] at e
      omega
  · cases a with
    | nil => exact (List.cons.inj h2).1
    | cons x a =>
      obtain rfl := (List.cons.inj h2).1
      rw [h1, List.map_append, List.sum_append, List.map_cons, List.sum_cons] at e
      omega

/-- The defaults of every legal struct can be given types as C64 assumes. -/
theorem types_defaults (hl : s.Legal) (order : Order) (types : List Char → Option STy) :
    ∃ user, s.TypesDefaults order types user := by
  refine ⟨fun o e => open Classical in
    if h : ∃ x : FieldSpec × DefaultSpec × Val, s.At order x.1 o ∧ x.1.default? = some x.2 then h.choose.2.1.typ types e
    else none, fun f o d v hat hd => ?_⟩
  funext e
  have h : ∃ x : FieldSpec × DefaultSpec × Val, s.At order x.1 o ∧ x.1.default? = some x.2 := ⟨(f, d, v), hat, hd⟩
  dsimp only
  rw [dif_pos h]
  obtain ⟨h1, h2⟩ := h.choose_spec
  generalize h.choose = x at h1 h2 ⊢
  rw [At.begins hl hat h1, hd] at h2
  rw [← Option.some.inj h2]

/-- Every function of the example, among them the setters, the builder and the conversions, is well typed: the literal
defaults suit, and `Kind::C` is of the type of its field. -/
example : ∃ p user, parseBitfield .checked (fun _ => false) ExR.R.attr ExR.R.decl = .ok p ∧
    (∃ F, (program p).fn (.fn "new") = some F) ∧
    ∀ t F, (t, F) ∈ (program p).fns → F.typed ((program p).sig (.ty (.u 32)) user) = true := by
  have ⟨p, hp⟩ : ∃ p, parseBitfield .checked (fun _ => false) ExR.R.attr ExR.R.decl = .ok p := ⟨_, rfl⟩
  let types : List Char → Option STy := fun e => if e = ['K', 'i', 'n', 'd', ':', ':', 'C'] then some (.ty .obj) else none
  obtain ⟨user, hu⟩ := types_defaults ExR.legal (orderValue (fun _ => false) ExR.as) types
  refine ⟨p, user, hp, ?_, fun t F hF => ?_⟩
  · obtain ⟨F, hF, -⟩ := C64_new ExR.readable rfl ExR.legal hp (by simp [ExR.R]) hu rfl
    exact ⟨F, hF⟩
  · refine C64_typed_partial ExR.readable rfl ExR.legal hp (by simp [ExR.R]) hu ?_ hF (fun _ => .inl rfl)
    intro f hf hi d v hd
    obtain ⟨h1, h2⟩ := ExR.usable.default f hf hi d v hd
    by_cases hx : ∃ e, d = .expr e
    · obtain ⟨e, rfl⟩ := hx
      simp only [ExR.R, List.mem_cons, List.not_mem_nil, or_false] at hf
      rcases hf with rfl | rfl | rfl | rfl | rfl | rfl | rfl <;> cases hd
      exact (C64_constant rfl (by simp [ExR.R])).mpr trivial
    · exact C64_literal (fun e he => hx ⟨e, he⟩) h1 h2 (fun u hu => by cases hu; decide)

/-- The arms of `C64_constant`: `u8` in `u16`, read-only or not, and an array. -/
example {types : List Char → Option STy} (h : types ['X'] = some (.ty (.u 8))) :
    ¬ (TypeSpec.int .u16).Suits (.int .u8) False ((DefaultSpec.expr ['X']).typ types) ∧
    (TypeSpec.int .u16).Suits (.int .u8) True ((DefaultSpec.expr ['X']).typ types) ∧
    (TypeSpec.bytes 2).Suits (.int .u8) False ((DefaultSpec.expr ['X']).typ types) :=
  ⟨fun hx => by simpa using (C64_constant h (by simp)).mp hx, (C64_constant h (by simp)).mpr (.inl trivial),
    (C64_constant h (by simp)).mpr trivial⟩

namespace Finding

/-- `#[bitfield(u16)] struct K { #[bits(4, default = X, access = ro)] a: u8, #[bits(12)] b: u16 }`, where `X` is a constant -/
def constDefault : StructSpec where
  storage := .int .u16
  rest := []
  vis := .pub
  fields := [
    ⟨"a", .pub, .int .u8, some ⟨some 4, [.default (.expr ['X']) (.int 3), .access .ro]⟩⟩,
    ⟨"b", .pub, .int .u16, some ⟨some 12, []⟩⟩]

theorem constDefault_readable : constDefault.Readable where
  storage := trivial
  ty := by
    intro f hf
    simp only [constDefault, List.mem_cons, List.not_mem_nil, or_false] at hf
    rcases hf with rfl | rfl <;> trivial
  default := by
    intro f hf d v hd
    simp only [constDefault, List.mem_cons, List.not_mem_nil, or_false] at hf
    rcases hf with rfl | rfl <;> simp [FieldSpec.args] at hd
    obtain ⟨rfl, rfl⟩ := hd
    exact ⟨⟨_, _, rfl, by decide⟩, by decide, by decide, by decide, by decide⟩

/-- C64: the default of an integer field that cannot be written is not cast to the storage type. The declaration, whose
default is a constant of the field's own type, is accepted, but `new` is not well typed. -/
theorem finding_const_default {types : List Char → Option STy} (hX : types ['X'] = some (.ty (.u 8))) : ∀ m, ∃ p user F,
    parseBitfield m (fun _ => false) constDefault.attr constDefault.decl = .ok p ∧
    constDefault.TypesDefaults .lsb types user ∧ (program p).fn (.fn "new") = some F ∧
    F.typed ((program p).sig (.ty (.u 16)) user) = false := by
  intro m
  have ⟨p, hp⟩ : ∃ p, parseBitfield m (fun _ => false) constDefault.attr constDefault.decl = .ok p := by
    cases m <;> exact ⟨_, rfl⟩
  have hl : constDefault.Legal :=
    ((C03_acceptance_partial (m := .checked) (cfg := fun _ => false) constDefault_readable (.inl rfl)).mp ⟨_, rfl⟩).1
  obtain ⟨user, hu⟩ := types_defaults hl .lsb types
  obtain ⟨F, hF, h⟩ := C64_new (as := []) constDefault_readable rfl hl hp (by simp [constDefault]) hu rfl
  refine ⟨p, user, F, hp, hu, hF, Bool.eq_false_iff.mpr fun hx => ?_⟩
  have := h.mp hx _ (.head _) rfl _ _ rfl
  have := (C64_constant hX (by simp [constDefault])).mp this
  rcases this with ⟨-, h⟩ | h
  · revert h; decide
  · cases h

/-- `#[bitfield(u8, new = false)] struct K { #[bits(4, access = ro)] a: u8, #[bits(4)] b: u8 }` -/
def noNew : StructSpec where
  storage := .int .u8
  rest := bitfieldTokens [.flag .new false]
  vis := .pub
  fields := [⟨"a", .pub, .int .u8, some ⟨some 4, [.access .ro]⟩⟩, ⟨"b", .pub, .int .u8, some ⟨some 4, []⟩⟩]

theorem noNew_readable : noNew.Readable where
  storage := trivial
  ty := by
    intro f hf
    simp only [noNew, List.mem_cons, List.not_mem_nil, or_false] at hf
    rcases hf with rfl | rfl <;> trivial
  default := by
    intro f hf d v hd
    simp only [noNew, List.mem_cons, List.not_mem_nil, or_false] at hf
    rcases hf with rfl | rfl <;> simp [FieldSpec.args] at hd

/-- `C64_exact` at work: both constructors of the builder are generated and ill typed, everything else is well typed. -/
example : ∃ p, parseBitfield .checked (fun _ => false) noNew.attr noNew.decl = .ok p ∧
    (∃ F, (Tag.builderFn "new", F) ∈ (program p).fns) ∧
    ∀ t F, (t, F) ∈ (program p).fns → (F.typed ((program p).sig (.ty (.u 8)) fun _ _ => none) = false ↔
      t = .builderFn "new" ∨ t = .builderFn "new_without_defaults") := by
  have ⟨p, hp⟩ : ∃ p, parseBitfield .checked (fun _ => false) noNew.attr noNew.decl = .ok p := ⟨_, rfl⟩
  have hl : noNew.Legal :=
    ((C03_acceptance_partial (m := .checked) (cfg := fun _ => false) noNew_readable (.inl rfl)).mp ⟨_, rfl⟩).1
  have none_ : ∀ f ∈ noNew.fields, f.default? = none := by
    intro f hf
    simp only [noNew, List.mem_cons, List.not_mem_nil, or_false] at hf
    rcases hf with rfl | rfl <;> rfl
  refine ⟨p, hp, ⟨builderNewFn (genOf p) true, ?_⟩, fun t F hF => ?_⟩
  · have e : (program p).fn _ = _ := declares_builderNew (G := genOf p) (en := fun f => f.enabled p.args) (by cases hp; rfl)
    exact mem_of_fn e
  · have := C64_exact (as := [.flag .new false]) noNew_readable rfl hl hp (by simp [noNew]) (types := fun _ => none)
      (user := fun _ _ => none) (fun f o d v hat hd => by rw [none_ f (At.mem hat)] at hd; cases hd)
      (fun f hf _ d v hd => by rw [none_ f hf] at hd; cases hd) hF
    have h2 : ¬ (flagValue (fun _ => false) [.flag .new false] .new = true ∨ ∀ f ∈ noNew.fields, f.CanRead → f.CanWrite) := by
      rintro (h | h)
      · exact absurd h (by decide)
      · rcases (h _ (List.mem_cons_self ..) ⟨⟨by decide, rfl⟩, .inl rfl⟩).2 with h | h <;> cases h
    rw [← Bool.not_eq_true, show (STy.ty (.u 8)) = noNew.storage.held (flagValue (fun _ => false) [.flag .new false] .arrayHeap) from rfl,
      this]
    simp only [h2]
    exact ⟨fun hx => Classical.byContradiction fun hy => hx fun hz => absurd hz hy, fun hx hy => hy hx⟩

end Finding

end Bf
