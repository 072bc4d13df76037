import Verif.Model.Obj
import Verif.Lemmas.Surface
import Verif.Props.Surface

/-!
# Ignored fields (C38)
-/

namespace Bf

variable {m : Mode} {cfg : String → Bool} {p : Parsed}

/-! ## Their presence -/

/-- The declaration is not one of an ignored field. -/
def FieldDecl.kept (d : FieldDecl) : Bool :=
  match getBitsAttribute d with
  | .ok a => !isIgnored a
  | .error _ => true

theorem kept_of_parse {A : BitfieldAttr} {sv : Vis} {d : FieldDecl} {prev : List PField}
    {q : PField} (h : parseField m A sv d prev = .ok q) : d.kept = !q.ignored := by
  obtain ⟨a, ha, h⟩ := parseField_ok.mp h
  simp only [FieldDecl.kept, ha]
  by_cases hi : isIgnored a = true
  · rw [if_pos hi] at h
    simp only [parseIgnored] at h
    split at h
    · cases h
    · cases h; rw [hi]
  · rw [if_neg hi] at h
    obtain ⟨t, w, offset, access, -, -, -, -, -, -, rfl⟩ := h
    simp only [Bool.not_eq_true] at hi
    rw [hi]
    rfl

theorem ignored_not_reserved {A : BitfieldAttr} {sv : Vis} {d : FieldDecl} {prev : List PField}
    {q : PField} (h : parseField m A sv d prev = .ok q) (hq : q.ignored = true) :
    q.field.reserved = false := by
  obtain ⟨a, ha, h⟩ := parseField_ok.mp h
  by_cases hi : isIgnored a = true
  · rw [if_pos hi] at h
    simp only [parseIgnored] at h
    split at h
    · cases h
    · cases h; rfl
  · rw [if_neg hi] at h
    obtain ⟨t, w, offset, access, -, -, -, -, -, -, rfl⟩ := h
    cases hq

theorem parseFields_kept {A : BitfieldAttr} {sv : Vis} (ds : List FieldDecl) :
    ∀ seen seen' fields ign ign' F I, (∀ x ∈ seen', x ∈ seen) →
      parseFields m A sv ds seen fields ign = .ok (F, I) →
      parseFields m A sv (ds.filter FieldDecl.kept) seen' fields ign' = .ok (F, ign') := by
  induction ds with
  | nil =>
    intro seen seen' fields ign ign' F I _ h
    cases h
    rfl
  | cons d ds ih =>
    intro seen seen' fields ign ign' F I hsub h
    simp only [parseFields] at h
    by_cases hc : seen.contains d.name = true
    · rw [if_pos hc] at h; cases h
    · rw [if_neg hc] at h
      obtain ⟨q, hq, h⟩ := bind_ok.mp h
      have hk := kept_of_parse hq
      cases hi : q.ignored with
      | true =>
        rw [hi] at hk h
        rw [List.filter_cons_of_neg (by simp [hk])]
        rw [if_pos rfl] at h
        refine ih _ seen' _ _ ign' F I ?_ h
        intro x hx
        split
        · exact hsub x hx
        · exact List.mem_cons_of_mem _ (hsub x hx)
      | false =>
        rw [hi] at hk h
        rw [List.filter_cons_of_pos (by simp [hk])]
        simp only [Bool.false_eq_true, if_false] at h
        have hc' : ¬ seen'.contains d.name = true := by
          simp only [List.contains_iff_mem] at hc ⊢
          exact fun hx => hc (hsub _ hx)
        simp only [parseFields]
        rw [if_neg hc', hq]
        simp only [bind, Except.bind, hi, Bool.false_eq_true, if_false]
        refine ih _ _ _ _ ign' F I ?_ h
        intro x hx
        split at hx
        · next hr => rw [if_pos hr]; exact hsub x hx
        · next hr =>
          rw [if_neg hr]
          rcases List.mem_cons.mp hx with rfl | hx
          · exact List.mem_cons_self ..
          · exact List.mem_cons_of_mem _ (hsub x hx)

/-- Without its ignored fields, an accepted struct is accepted too and nothing else changes. -/
theorem parseBitfield_kept {attr : AttrInput} {vis : Vis} {ds : List FieldDecl}
    (h : parseBitfield m cfg attr ⟨vis, some ds⟩ = .ok p) :
    parseBitfield m cfg attr ⟨vis, some (ds.filter FieldDecl.kept)⟩ = .ok { p with ignored := [] } := by
  simp only [parseBitfield] at h ⊢
  obtain ⟨A, hA, h⟩ := bind_ok.mp h
  obtain ⟨⟨F, I⟩, hF, h⟩ := bind_ok.mp h
  obtain ⟨u, hu, h⟩ := bind_ok.mp h
  cases h
  refine bind_ok.mpr ⟨A, hA, bind_ok.mpr ⟨(F, []), ?_, bind_ok.mpr ⟨u, hu, rfl⟩⟩⟩
  exact parseFields_kept ds [] [] [] [] [] F I (fun x hx => hx) hF

/-- The struct without its ignored fields. -/
def StructSpec.bare (s : StructSpec) : StructSpec :=
  { s with fields := s.fields.filter fun f => !f.ignored }

theorem bare_decl {s : StructSpec} (hr : s.Readable)
    (h : parseBitfield m cfg s.attr s.decl = .ok p) :
    s.bare.decl = ⟨s.vis, some ((s.fields.map FieldSpec.decl).filter FieldDecl.kept)⟩ := by
  simp only [parseBitfield, StructSpec.decl] at h
  obtain ⟨A, -, h⟩ := bind_ok.mp h
  obtain ⟨r, hF, -⟩ := bind_ok.mp h
  obtain ⟨is, his, hreads⟩ := parseFields_reads _ _ _ _ _ hF
  have hk : ∀ f ∈ s.fields, f.decl.kept = !f.ignored := by
    intro f hf
    have hm : f.decl ∈ is.map Info.decl := by rw [his]; exact List.mem_map_of_mem hf
    obtain ⟨i, hi, hd⟩ := List.mem_map.mp hm
    replace hi := hreads i hi
    obtain ⟨rfl, -, -⟩ := FieldSpec.reads (hr.ty f hf) (hr.default f hf) hi hd
    have h1 : getBitsAttribute f.decl = .ok f.info.attr := hi.1
    simp only [FieldDecl.kept, h1]
    rw [← FieldSpec.info_ignored]
    rfl
  simp only [StructSpec.decl, StructSpec.bare, List.filter_map]
  congr 2
  refine congrArg _ (List.filter_congr fun f hf => ?_)
  exact (hk f hf).symm

/-- **C38** (presence). An accepted struct without its ignored fields is accepted too, and the macro
generates the same items with the same names and visibilities. They act on the same layout: every
generated function on the bits is determined by it. Ignored fields take no bits: the layout does not
contain them. -/
theorem C38_presence {s : StructSpec} (hr : s.Readable)
    (h : parseBitfield m cfg s.attr s.decl = .ok p) :
    ∃ p', parseBitfield m cfg s.bare.attr s.bare.decl = .ok p' ∧ p'.bitfield = p.bitfield ∧
      surface p' = surface p ∧ p'.ignored = [] := by
  refine ⟨{ p with ignored := [] }, ?_, rfl, rfl, rfl⟩
  rw [bare_decl hr h]
  exact parseBitfield_kept h

/-- **C38** (no bits). The fields of the layout are the other fields, in order. -/
theorem C38_no_bits {s : StructSpec} (hr : s.Readable)
    (h : parseBitfield m cfg s.attr s.decl = .ok p) :
    p.bitfield.fields.map Field.name = (s.fields.filter fun f => !f.ignored).map FieldSpec.name ∧
    p.ignored.map (fun q => q.field.name) =
      (s.fields.filter fun f => f.ignored).map FieldSpec.name := by
  have h1 := (StructSpec.kept hr h).fields
  have h2 := (StructSpec.kept hr h).ignored
  have key : ∀ f : FieldSpec, (f.view s.vis).name = f.name := by
    intro f; simp only [FieldSpec.view]; split <;> rfl
  constructor
  · have := congrArg (List.map View.name) h1
    simpa [Parsed.bitfield, PField.view, Function.comp_def, key] using this
  · have := congrArg (List.map View.name) h2
    simpa [PField.view, Function.comp_def, key] using this

/-! ## Their values -/

theorem parseFields_ignored_nodup {A : BitfieldAttr} {sv : Vis} (ds : List FieldDecl) :
    ∀ seen fields ign r, (∀ q ∈ ign, q.field.name ∈ seen) →
      (ign.map fun q => q.field.name).Nodup →
      parseFields m A sv ds seen fields ign = .ok r → (r.2.map fun q => q.field.name).Nodup := by
  induction ds with
  | nil => intro seen fields ign r _ h2 h; cases h; exact h2
  | cons d ds ih =>
    intro seen fields ign r h1 h2 h
    simp only [parseFields] at h
    by_cases hc : seen.contains d.name = true
    · rw [if_pos hc] at h; cases h
    · rw [if_neg hc] at h
      obtain ⟨q, hq, h⟩ := bind_ok.mp h
      have hsub : ∀ x ∈ seen, x ∈ if q.field.reserved then seen else d.name :: seen := by
        intro x hx
        split
        · exact hx
        · exact List.mem_cons_of_mem _ hx
      cases hi : q.ignored with
      | true =>
        have hres := ignored_not_reserved hq hi
        have hname : q.field.name = d.name := by
          obtain ⟨a, ha, h⟩ := parseField_ok.mp hq
          by_cases hg : isIgnored a = true
          · rw [if_pos hg] at h
            simp only [parseIgnored] at h
            split at h
            · cases h
            · cases h; rfl
          · rw [if_neg hg] at h
            obtain ⟨t, w, offset, access, -, -, -, -, -, -, rfl⟩ := h
            rfl
        rw [hi, if_pos rfl] at h
        refine ih _ _ _ _ ?_ ?_ h
        · intro x hx
          rcases List.mem_append.mp hx with hx | hx
          · exact hsub _ (h1 x hx)
          · rw [List.mem_singleton.mp hx, hres, hname]
            exact List.mem_cons_self ..
        · rw [List.map_append, List.nodup_append]
          refine ⟨h2, by simp, ?_⟩
          intro x hx y hy
          simp only [List.map_cons, List.map_nil, List.mem_singleton] at hy
          obtain ⟨q', hq', rfl⟩ := List.mem_map.mp hx
          rintro rfl
          refine hc (List.contains_iff_mem.mpr ?_)
          rw [← hname, ← hy]
          exact h1 q' hq'
      | false =>
        rw [hi] at h
        simp only [Bool.false_eq_true, if_false] at h
        exact ih _ _ _ _ (fun x hx => hsub _ (h1 x hx)) h2 h

theorem ignored_nodup {attr : AttrInput} {d : StructDecl}
    (h : parseBitfield m cfg attr d = .ok p) : (p.ignored.map fun q => q.field.name).Nodup := by
  obtain ⟨-, -, -, ds, A, -, hF⟩ := parsed_attr h
  exact parseFields_ignored_nodup ds [] [] [] _ (by simp) (by simp) hF

theorem initIgnored_find {dflt : String → R Nat} (qs : List PField) :
    ∀ ms, initIgnored dflt qs = .ok ms → (qs.map fun q => q.field.name).Nodup →
      ∀ q ∈ qs, ∃ v, dflt q.field.name = .ok v ∧
        (ms.find? fun x => x.1 == q.field.name) = some (q.field.name, .user v) := by
  induction qs with
  | nil => intro ms _ _ q hq; simp at hq
  | cons q qs ih =>
    intro ms h hn x hx
    simp only [initIgnored] at h
    split at h
    · cases h
    · obtain ⟨v, hv, h⟩ := bind_ok.mp h
      obtain ⟨vs, hvs, h⟩ := bind_ok.mp h
      cases h
      rw [List.map_cons, List.nodup_cons] at hn
      rcases List.mem_cons.mp hx with rfl | hx
      · exact ⟨v, hv, by simp⟩
      · obtain ⟨v', h1, h2⟩ := ih vs hvs hn.2 x hx
        refine ⟨v', h1, ?_⟩
        rw [List.find?_cons_of_neg, h2]
        simp only [beq_iff_eq]
        intro e
        refine hn.1 (List.mem_map.mpr ⟨x, hx, e.symm⟩)

theorem find_assign {name other : String} (hne : other ≠ name) (v : Member)
    (ms : List (String × Member)) :
    ((assign name v ms).find? fun x => x.1 == other) = ms.find? fun x => x.1 == other := by
  induction ms with
  | nil => rfl
  | cons x xs ih =>
    simp only [assign]
    split
    · next e =>
      rw [List.find?_cons_of_neg (by simp [Ne.symm hne]),
        List.find?_cons_of_neg (by simp [e, Ne.symm hne])]
    · simp only [List.find?_cons, ih]

theorem find_assign_self (name : String) (v : Member) (ms : List (String × Member)) :
    ((assign name v ms).find? fun x => x.1 == name) =
      (ms.find? fun x => x.1 == name).map fun _ => (name, v) := by
  induction ms with
  | nil => rfl
  | cons x xs ih =>
    simp only [assign]
    split
    · next e => simp [e]
    · next e => simp [e, ih]

theorem member_setBits (o : Obj) (s : Store) {name : String} (h : name ≠ "val") :
    (o.setBits s).member name = o.member name := by
  cases o with
  | tuple t => rfl
  | named ms => simp only [Obj.setBits, Obj.member, find_assign h]

theorem bits_setBits {o : Obj} {t : Store} (h : o.bits = .ok t) (s : Store) :
    (o.setBits s).bits = .ok s := by
  cases o with
  | tuple t => rfl
  | named ms =>
    simp only [Obj.bits, Obj.setBits, Obj.member, find_assign_self] at h ⊢
    cases hf : ms.find? fun x => x.1 == "val" with
    | none => rw [hf] at h; cases h
    | some x => rfl

theorem init_bits {dflt : String → R Nat} {o : Obj} (h : Obj.init p dflt = .ok o) :
    o.bits = .ok (initStore p.bitfield) := by
  simp only [Obj.init] at h
  split at h
  · split at h
    · cases h
    · obtain ⟨ms, -, h⟩ := bind_ok.mp h
      cases h
      rfl
  · cases h; rfl

theorem objMake_ok {dflt : String → R Nat} {g : Origin} {o : Obj}
    (h : objMake m p dflt g = .ok (.ok o)) :
    ∃ i s, Obj.init p dflt = .ok i ∧ g.run m p.bitfield = .ok (.ok s) ∧ o = i.setBits s := by
  simp only [objMake] at h
  obtain ⟨i, hi, h⟩ := bind_ok.mp h
  obtain ⟨r, hr, h⟩ := bind_ok.mp h
  cases r with
  | ok s => cases h; exact ⟨i, s, hi, hr, rfl⟩
  | error e => cases h

/-- **C38** (start). In every value made by an associated function or `From`, every ignored field has
the value of its type's `default()`, and the bits are those of the bitfield without them. -/
theorem C38_start {attr : AttrInput} {d : StructDecl} (h : parseBitfield m cfg attr d = .ok p)
    {dflt : String → R Nat} {g : Origin} {o : Obj} (ho : objMake m p dflt g = .ok (.ok o)) :
    (∀ q ∈ p.ignored, ∃ v, dflt q.field.name = .ok v ∧ o.member q.field.name = some (.user v)) ∧
    ∃ s, g.run m p.bitfield = .ok (.ok s) ∧ o.bits = .ok s := by
  obtain ⟨i, s, hi, hs, rfl⟩ := objMake_ok ho
  refine ⟨?_, s, hs, bits_setBits (init_bits hi) s⟩
  intro q hq
  simp only [Obj.init] at hi
  split at hi
  · split at hi
    · cases hi
    · next hv =>
      obtain ⟨ms, hms, hi⟩ := bind_ok.mp hi
      cases hi
      have hne : q.field.name ≠ "val" := fun e => hv (List.any_eq_true.mpr ⟨q, hq, by simp [e]⟩)
      rw [member_setBits _ _ hne]
      obtain ⟨v, h1, h2⟩ := initIgnored_find _ ms hms (ignored_nodup h) q hq
      refine ⟨v, h1, ?_⟩
      simp only [Obj.member]
      rw [List.find?_cons_of_neg (by simp [Ne.symm hne]), h2]
      rfl
  · next hh =>
    exfalso
    apply hh
    simp only [Parsed.hasIgnored, List.isEmpty_iff, Bool.not_eq_true', Bool.eq_false_iff, ne_eq]
    rintro e
    simp [e] at hq

/-- **C38** (making). Whether a value can be made depends on the ignored fields only through their own
`default()`: if these return and no field is an array or called `val`, exactly the calls that succeed
on the bits succeed. -/
theorem C38_makes {dflt : String → R Nat} (hd : ∀ q ∈ p.ignored, ∃ v, dflt q.field.name = .ok v)
    (ha : ∀ q ∈ p.ignored, ∀ n, q.field.ty ≠ .array n) (hv : ∀ q ∈ p.ignored, q.field.name ≠ "val")
    (g : Origin) :
    (∀ s, g.run m p.bitfield = .ok (.ok s) →
      ∃ o, objMake m p dflt g = .ok (.ok o) ∧ o.bits = .ok s) ∧
    (∀ e, g.run m p.bitfield = .ok (.error e) → objMake m p dflt g = .ok (.error e)) ∧
    (∀ e, g.run m p.bitfield = .error e → objMake m p dflt g = .error e) := by
  have hms : ∀ qs : List PField, (∀ q ∈ qs, ∃ v, dflt q.field.name = .ok v) →
      (∀ q ∈ qs, ∀ n, q.field.ty ≠ .array n) → ∃ ms, initIgnored dflt qs = .ok ms := by
    intro qs
    induction qs with
    | nil => intro _ _; exact ⟨[], rfl⟩
    | cons q qs ih =>
      intro h1 h2
      obtain ⟨v, hv⟩ := h1 q (List.mem_cons_self ..)
      obtain ⟨ms, hm⟩ := ih (fun x hx => h1 x (List.mem_cons_of_mem _ hx))
        (fun x hx => h2 x (List.mem_cons_of_mem _ hx))
      refine ⟨(q.field.name, .user v) :: ms, ?_⟩
      simp only [initIgnored]
      split
      · next n e => exact absurd e (h2 q (List.mem_cons_self ..) n)
      · rw [hv, hm]; rfl
  have hi : ∃ i, Obj.init p dflt = .ok i := by
    simp only [Obj.init]
    split
    · rw [if_neg]
      · obtain ⟨ms, hm⟩ := hms _ hd ha
        rw [hm]
        exact ⟨_, rfl⟩
      · intro h
        obtain ⟨q, hq, e⟩ := List.any_eq_true.mp h
        exact hv q hq (by simpa using e)
    · exact ⟨_, rfl⟩
  obtain ⟨i, hi⟩ := hi
  refine ⟨?_, ?_, ?_⟩
  · intro s hs
    refine ⟨i.setBits s, ?_, bits_setBits (init_bits hi) s⟩
    simp only [objMake, hi, hs, bind, Except.bind, pure, Except.pure]
  · intro e he
    simp only [objMake, hi, he, bind, Except.bind, pure, Except.pure]
  · intro e he
    simp only [objMake, hi, he, bind, Except.bind]

theorem objCall_bits {o : Obj} {s : Store} (hs : o.bits = .ok s) (c : Call) :
    objCall m p c o = (call m p.bitfield c s).map fun r => (r.1, o.setBits r.2) := by
  simp only [objCall, hs, bind, Except.bind]
  cases call m p.bitfield c s <;> rfl

/-- **C38** (untouched). No history of generated operations changes an ignored field. -/
theorem C38_unchanged (cs : List Call) : ∀ {o o' : Obj} {rs : List Out},
    objHistory m p cs o = .ok (rs, o') → ∀ name, name ≠ "val" → o'.member name = o.member name := by
  induction cs with
  | nil => intro o o' rs h name _; cases h; rfl
  | cons c cs ih =>
    intro o o' rs h name hn
    simp only [objHistory] at h
    obtain ⟨⟨r, o1⟩, h1, h⟩ := bind_ok.mp h
    obtain ⟨⟨rs', o2⟩, h2, h⟩ := bind_ok.mp h
    cases h
    rw [ih h2 name hn]
    simp only [objCall] at h1
    obtain ⟨s, -, h1⟩ := bind_ok.mp h1
    obtain ⟨⟨r', s'⟩, -, h1⟩ := bind_ok.mp h1
    cases h1
    exact member_setBits o s' hn

/-- **C38** (bits). What a history returns, whether it panics and the bits it leaves are those of the
same history on the bits alone, whatever the ignored fields and their values. -/
theorem C38_bits (cs : List Call) : ∀ {o : Obj} {s : Store}, o.bits = .ok s →
    (∀ rs s', history m p.bitfield cs s = .ok (rs, s') →
      ∃ o', objHistory m p cs o = .ok (rs, o') ∧ o'.bits = .ok s') ∧
    (∀ e, history m p.bitfield cs s = .error e → objHistory m p cs o = .error e) := by
  induction cs with
  | nil =>
    intro o s hs
    constructor
    · intro rs s' h; cases h; exact ⟨o, rfl, hs⟩
    · intro e h; cases h
  | cons c cs ih =>
    intro o s hs
    simp only [history, objHistory, objCall_bits hs]
    cases hc : call m p.bitfield c s with
    | error e => 
      constructor
      · intro rs s' h; cases h
      · intro e' h; cases h; rfl
    | ok r =>
      obtain ⟨r, s1⟩ := r
      obtain ⟨i1, i2⟩ := ih (bits_setBits hs s1)
      simp only [bind, Except.bind, Except.map]
      cases hh : history m p.bitfield cs s1 with
      | error e =>
        rw [i2 e hh]
        constructor
        · intro rs s' h; cases h
        · intro e' h; cases h; rfl
      | ok x =>
        obtain ⟨rs1, s2⟩ := x
        obtain ⟨o', h1, h2⟩ := i1 rs1 s2 hh
        rw [h1]
        constructor
        · intro rs s' h; cases h; exact ⟨o', rfl, h2⟩
        · intro e' h; cases h

/-! ## An example

`ExT.T` of `Props/Surface.lean` has the ignored field `note`. -/

namespace ExT

/-- Its value after `new()`, `set_a(5)`, `clear_a()`, `set_a(9)`. -/
example : (do
    match ← objMake .checked ExT.p (fun _ => .ok 77) .new with
    | .error _ => .error .rejected
    | .ok o =>
      let f := (ExT.p.fields[0]).field
      let (_, o) ← objHistory .checked ExT.p [.set f (.int 5), .clearField f, .set f (.int 9)] o
      return (o.member "note", o.bits)) =
    (.ok (some (.user 77), .ok (.int 16 0x0509#16)) : R (Option Member × R Store)) := rfl

example : ∃ p', parseBitfield .checked (fun _ => false) T.bare.attr T.bare.decl = .ok p' ∧
    p'.bitfield = ExT.p.bitfield ∧ surface p' = surface ExT.p ∧ p'.ignored = [] :=
  C38_presence readable (accepted .checked)

example : T.bare.fields.length = 4 := rfl

example : ∃ o, objMake .checked ExT.p (fun _ => .ok 77) .new = .ok (.ok o) := ⟨_, rfl⟩

end ExT

/-! ## Findings -/

/-- ```
#[bitfield(u8)]
struct V {
    a: u8,
    #[bits(ignore = true)] val: u32,
}
``` -/
def ExVal (ty : TypeSpec) (name : String) : StructSpec where
  storage := .int .u8
  rest := []
  vis := .priv
  fields := [⟨"a", .priv, .int .u8, none⟩, ⟨name, .priv, ty, some ⟨none, [.ignore true]⟩⟩]

/-- The accepted struct. -/
def ExVal.parsed (ty : DataType) (name : String) : Parsed where
  ty := .int .u8
  vis := .priv
  fields := [⟨⟨"a", .int .u8, 8, 0, .rw, false, none⟩, .priv, false⟩]
  ignored := [⟨⟨name, ty, 0, 0, .na, false, none⟩, .priv, true⟩]
  args := defaultArgs fun _ => false

/-- C38: an ignored field called `val` is accepted by the macro, but the generated struct has two
members `val` and does not compile. -/
theorem finding_ignored_val : ∀ m dflt g,
    parseBitfield m (fun _ => false) (ExVal (.int .u32) "val").attr (ExVal (.int .u32) "val").decl =
      .ok (ExVal.parsed (.int .u32) "val") ∧
    objMake m (ExVal.parsed (.int .u32) "val") dflt g = .error .rejected :=
  fun m _ _ => ⟨by cases m <;> rfl, rfl⟩

/-- C38: an ignored field of an array type is accepted by the macro, but its initialiser
`[u8; 2]::default()` does not compile. -/
theorem finding_ignored_array : ∀ m dflt g,
    parseBitfield m (fun _ => false) (ExVal (.bytes 2) "x").attr (ExVal (.bytes 2) "x").decl =
      .ok (ExVal.parsed (.array 2) "x") ∧
    objMake m (ExVal.parsed (.array 2) "x") dflt g = .error .rejected :=
  fun m _ _ => ⟨by cases m <;> rfl, rfl⟩

end Bf
