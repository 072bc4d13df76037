import Verif.Lemmas.Layout

/-!
# Lemmas about the parser: all fields of a struct
-/

namespace Bf

/-! ## Offsets -/

/-- The offset of a field of `w` bits declared after fields with `before` bits. -/
def offsetOf (o : Order) (size before w : Nat) : Nat :=
  match o with
  | .lsb => before
  | .msb => size - (before + w)

theorem fieldOffset_of_le {m : Mode} {A : BitfieldAttr} {size w : Nat} {prev : List PField}
    (hs : sizeOf? A.ty = some size) (hlt : size < 2 ^ 32) (h : widths prev + w ≤ size) :
    fieldOffset m A w prev = .ok (offsetOf A.args.order size (widths prev) w) := by
  simp only [fieldOffset]
  rw [sumBits_of_lt (by omega)]
  show (match A.args.order with
    | .lsb => _
    | .msb => _) = _
  cases A.args.order with
  | lsb => rfl
  | msb =>
    simp only []
    rw [bitSize_of_lt hs hlt, addU32_of_lt (by omega)]
    show (if widths prev + w ≤ size then _ else _) = _
    rw [if_pos h]
    have e1 : subU32 m size w = .ok (size - w) := by simp only [subU32]; rw [if_pos (by omega)]
    have e2 : subU32 m (size - w) (widths prev) = .ok (size - w - widths prev) := by
      simp only [subU32]; rw [if_pos (by omega)]
    rw [e1]
    show liftR (subU32 m (size - w) (widths prev)) = _
    rw [e2]
    simp only [liftR, offsetOf]
    exact congrArg Except.ok (by omega)

theorem fieldOffset_eq {m : Mode} {A : BitfieldAttr} {size w o : Nat} {prev : List PField}
    (hs : sizeOf? A.ty = some size) (hlt : size < 2 ^ 32)
    (hm : m = .checked ∨ widths prev + w < 2 ^ 32) (h : fieldOffset m A w prev = .ok o) :
    o = offsetOf A.args.order size (widths prev) w := by
  by_cases hle : widths prev + w ≤ size
  · rw [fieldOffset_of_le hs hlt hle] at h
    cases h
    rfl
  · simp only [fieldOffset] at h
    obtain ⟨s, hsum, h⟩ := bind_ok.mp h
    have hw : widths prev < 2 ^ 32 := by
      rcases hm with rfl | hm
      · exact sumBits_checked (liftR_ok.mp hsum)
      · omega
    rw [sumBits_of_lt hw] at hsum
    cases hsum
    cases ho : A.args.order with
    | lsb =>
      rw [ho] at h
      exact (pure_ok.mp h).symm
    | msb =>
      rw [ho] at h
      simp only [] at h
      obtain ⟨sz, hsz, h⟩ := bind_ok.mp h
      rw [bitSize_of_lt hs hlt] at hsz
      cases hsz
      obtain ⟨tot, htot, h⟩ := bind_ok.mp h
      have ht : tot = widths prev + w := by
        rcases hm with rfl | hm
        · exact (addU32_checked (liftR_ok.mp htot)).2
        · rw [addU32_of_lt hm] at htot
          cases htot
          rfl
      subst ht
      rw [if_neg hle] at h
      cases h

/-! ## Access -/

/-- The user wrote an `access` argument. -/
def statesAccess : Option BitsAttr → Bool
  | some a => a.args.userSetAccess
  | none => false

/-- The access of a field. -/
def accessFor (a : Option BitsAttr) (reserved : Bool) : Access :=
  match a with
  | none => if reserved then .na else .rw
  | some a => if a.args.default.isSome && reserved then .ro else a.args.access

theorem fieldAccess_ok {a : Option BitsAttr} {r : Bool} {c : Access} :
    fieldAccess a r = .ok c ↔ (r = true → statesAccess a = false) ∧ c = accessFor a r := by
  cases a with
  | none => simp [fieldAccess, statesAccess, accessFor, eq_comm]
  | some a =>
    simp only [fieldAccess, statesAccess, accessFor]
    cases r <;> cases a.args.userSetAccess <;> cases a.args.default.isSome <;> simp [eq_comm]

/-! ## What a declaration says -/

/-- A field declaration, its `#[bits]` attribute and its type. -/
structure Info where
  decl : FieldDecl
  attr : Option BitsAttr
  ty : DataType

/-- The attribute and the type are those of the declaration. -/
def Info.Reads (i : Info) : Prop :=
  getBitsAttribute i.decl = .ok i.attr ∧ i.decl.ty.dataType = .ok i.ty

def Info.ignored (i : Info) : Bool := isIgnored i.attr

def Info.reserved (i : Info) : Bool := isReservedName i.decl.name

/-- Number of bits the field takes. -/
def Info.width (i : Info) : Nat := if i.ignored then 0 else (widthOf i.attr i.ty).getD 0

/-- The conditions on one field. -/
def Info.Legal (i : Info) : Prop :=
  i.ignored = false → ∃ w, widthOf i.attr i.ty = some w ∧ 1 ≤ w ∧
    (∀ t, i.ty = .int t → w ≤ t.bitSize ∧
      ∀ e v, i.attr.bind (fun a => a.args.default) = some (e, v) → LiteralFits t w e) ∧
    (i.reserved = true → statesAccess i.attr = false)

/-- The parser's checks of one field succeed. -/
def Info.Passes (m : Mode) (i : Info) : Prop :=
  i.ignored = false → ∃ w, widthOf i.attr i.ty = some w ∧ 1 ≤ w ∧ intChecks m i.attr w i.ty ∧
    (i.reserved = true → statesAccess i.attr = false)

/-- Literals are `u128`s, and small enough that their negation is an `i128` other than the
smallest. -/
def Info.LiteralsOK (i : Info) : Prop :=
  ∀ n neg v, i.attr.bind (fun a => a.args.default) = some (.literal n neg, v) →
    n < 2 ^ 128 ∧ (neg = true → n < 2 ^ 127)

theorem Info.Passes.int_le {m : Mode} {i : Info} (h : i.Passes m) (hi : i.ignored = false)
    {w : Nat} (hw : widthOf i.attr i.ty = some w) {t : IntTy} (ht : i.ty = .int t) :
    w ≤ t.bitSize := by
  obtain ⟨w', hw', _, hc, _⟩ := h hi
  rw [hw] at hw'
  cases hw'
  rw [ht] at hc hw
  exact (checkCanHold_ok hw).mp hc.2

theorem Info.passes_iff {m : Mode} {i : Info} (hl : i.LiteralsOK) : i.Passes m ↔ i.Legal := by
  constructor
  · intro h hi
    obtain ⟨w, hw, h1, hc, hr⟩ := h hi
    refine ⟨w, hw, h1, fun t ht => ?_, hr⟩
    have hle := h.int_le hi hw ht
    refine ⟨hle, ?_⟩
    rw [ht] at hc
    exact (checkDefault_ok h1 (Nat.le_trans hle t.bitSize_le) hl).mp hc.1
  · intro h hi
    obtain ⟨w, hw, h1, hint, hr⟩ := h hi
    refine ⟨w, hw, h1, ?_, hr⟩
    cases hty : i.ty with
    | int t =>
      obtain ⟨h2, h3⟩ := hint t hty
      rw [hty] at hw
      exact ⟨(checkDefault_ok h1 (Nat.le_trans h2 t.bitSize_le) hl).mpr h3,
        (checkCanHold_ok hw).mpr h2⟩
    | array n => trivial
    | custom c => trivial

/-- The name is taken for later fields. -/
def Info.blocks (i : Info) : Bool := i.ignored || !i.reserved

/-- The parsed field. -/
def Info.pfield (o : Order) (size : Nat) (sv : Vis) (before : Nat) (i : Info) : PField :=
  mkField sv i.decl i.attr i.ty i.width (offsetOf o size before i.width)
    (accessFor i.attr i.reserved)

/-- The parsed ignored field. -/
def Info.ifield (i : Info) : PField :=
  { field := ⟨i.decl.name, i.ty, 0, 0, .na, false, none⟩, vis := i.decl.vis, ignored := true }

/-- The parsed fields, in order, given the number of bits before them. -/
def build (o : Order) (size : Nat) (sv : Vis) : List Info → Nat → List PField
  | [], _ => []
  | i :: is, b =>
    if i.ignored then build o size sv is b
    else i.pfield o size sv b :: build o size sv is (b + i.width)

def buildIgnored (is : List Info) : List PField :=
  (is.filter Info.ignored).map Info.ifield

def totalWidth (is : List Info) : Nat := (is.map Info.width).sum

@[simp] theorem totalWidth_nil : totalWidth [] = 0 := rfl

@[simp] theorem totalWidth_cons (i : Info) (is : List Info) :
    totalWidth (i :: is) = i.width + totalWidth is := by simp [totalWidth]

theorem widths_build (o : Order) (size : Nat) (sv : Vis) (is : List Info) :
    ∀ b, widths (build o size sv is b) = totalWidth is := by
  induction is with
  | nil => intro b; rfl
  | cons i is ih =>
    intro b
    simp only [build]
    split
    · rename_i h
      rw [ih, totalWidth_cons, Info.width, if_pos h, Nat.zero_add]
    · rw [widths_cons, ih, totalWidth_cons]
      rfl

/-! ## One field -/

theorem Info.width_of_not_ignored {i : Info} {w : Nat} (h : i.ignored = false)
    (hw : widthOf i.attr i.ty = some w) : i.width = w := by
  simp [Info.width, h, hw]

theorem Info.Passes.width {m : Mode} {i : Info} (h : i.Passes m) (hi : i.ignored = false) :
    1 ≤ i.width ∧ ∀ t, i.ty = .int t → i.width ≤ t.bitSize := by
  obtain ⟨w, hw, h1, _, _⟩ := h hi
  rw [Info.width_of_not_ignored hi hw]
  exact ⟨h1, fun t ht => h.int_le hi hw ht⟩

/-- A field that is parsed passes the checks. -/
theorem parseField_sound {m : Mode} {A : BitfieldAttr} {sv : Vis} {prev : List PField}
    {p : PField} {size : Nat} {i : Info} (hr : i.Reads) (hi : i.ignored = false)
    (hs : sizeOf? A.ty = some size) (hlt : size < 2 ^ 32)
    (hm : m = .checked ∨ widths prev + i.width < 2 ^ 32)
    (h : parseField m A sv i.decl prev = .ok p) :
    p = i.pfield A.args.order size sv (widths prev) ∧ i.Passes m := by
  obtain ⟨a, ha, h⟩ := parseField_ok.mp h
  rw [hr.1] at ha
  cases ha
  have hi' : ¬ isIgnored i.attr = true := by rw [← Info.ignored, hi]; simp
  rw [if_neg hi'] at h
  obtain ⟨t, w, o, c, ht, hw, h1, hc, ho, hacc, rfl⟩ := h
  rw [hr.2] at ht
  cases ht
  have hwid : widthOf i.attr i.ty = some w := by
    rcases hm with rfl | hm
    · exact getFieldBits_checked hw
    · cases hx : widthOf i.attr i.ty with
      | none =>
        simp only [widthOf, Option.or_eq_none_iff] at hx
        simp only [getFieldBits, hx.1] at hw
        cases hty : i.ty with
        | int t => rw [hty] at hx; cases hx.2
        | array n => rw [hty] at hx; cases hx.2
        | custom c => rw [hty] at hw; cases hw
      | some w' =>
        rw [Info.width_of_not_ignored hi hx] at hm
        rw [getFieldBits_of_lt hx (by omega)] at hw
        cases hw
        rfl
  have hiw := Info.width_of_not_ignored hi hwid
  rw [hiw] at hm
  have ho := fieldOffset_eq hs hlt hm ho
  obtain ⟨hacc1, rfl⟩ := fieldAccess_ok.mp hacc
  refine ⟨?_, fun _ => ⟨w, hwid, h1, hc, hacc1⟩⟩
  rw [ho]
  simp only [Info.pfield, hiw, Info.reserved]

/-- A field that passes the checks and fits is parsed. -/
theorem parseField_complete {m : Mode} {A : BitfieldAttr} {sv : Vis} {prev : List PField}
    {size : Nat} {i : Info} (hr : i.Reads) (hi : i.ignored = false)
    (hs : sizeOf? A.ty = some size) (hlt : size < 2 ^ 32) (hL : i.Passes m)
    (hle : widths prev + i.width ≤ size) :
    parseField m A sv i.decl prev = .ok (i.pfield A.args.order size sv (widths prev)) := by
  obtain ⟨w, hwid, h1, hint, hres⟩ := hL hi
  have hiw := Info.width_of_not_ignored hi hwid
  rw [hiw] at hle
  refine parseField_ok.mpr ⟨i.attr, hr.1, ?_⟩
  have hi' : ¬ isIgnored i.attr = true := by rw [← Info.ignored, hi]; simp
  rw [if_neg hi']
  refine ⟨i.ty, w, _, _, hr.2, getFieldBits_of_lt hwid (by omega), h1, hint,
    fieldOffset_of_le hs hlt hle, fieldAccess_ok.mpr ⟨hres, rfl⟩, ?_⟩
  simp only [Info.pfield, hiw, Info.reserved]

theorem parseField_ignored {m : Mode} {A : BitfieldAttr} {sv : Vis} {prev : List PField}
    {i : Info} (hr : i.Reads) (hi : i.ignored = true) :
    parseField m A sv i.decl prev = .ok i.ifield := by
  refine parseField_ok.mpr ⟨i.attr, hr.1, ?_⟩
  have hi' : isIgnored i.attr = true := hi
  rw [if_pos hi']
  simp only [parseIgnored, hr.2]
  rfl

theorem parseField_reads {m : Mode} {A : BitfieldAttr} {sv : Vis} {prev : List PField}
    {d : FieldDecl} {p : PField} (h : parseField m A sv d prev = .ok p) :
    ∃ i : Info, i.decl = d ∧ i.Reads := by
  obtain ⟨a, ha, h⟩ := parseField_ok.mp h
  by_cases hi : isIgnored a = true
  · rw [if_pos hi] at h
    simp only [parseIgnored] at h
    cases ht : d.ty.dataType with
    | error e => rw [ht] at h; cases h
    | ok t => exact ⟨⟨d, a, t⟩, rfl, ha, ht⟩
  · rw [if_neg hi] at h
    obtain ⟨t, _, _, _, ht, _⟩ := h
    exact ⟨⟨d, a, t⟩, rfl, ha, ht⟩

/-! ## All fields -/

/-- No name that is taken occurs again. -/
def NamesOK (is : List Info) : Prop :=
  is.Pairwise fun i j => i.blocks = true → i.decl.name ≠ j.decl.name

theorem parseFields_sound {m : Mode} {A : BitfieldAttr} {sv : Vis} {size : Nat}
    (hs : sizeOf? A.ty = some size) (hlt : size < 2 ^ 32) (is : List Info) :
    ∀ seen fields ign fs ig, (∀ i ∈ is, i.Reads) →
      (m = .checked ∨ widths fields + totalWidth is < 2 ^ 32) →
      parseFields m A sv (is.map Info.decl) seen fields ign = .ok (fs, ig) →
      fs = fields ++ build A.args.order size sv is (widths fields) ∧
      ig = ign ++ buildIgnored is ∧ (∀ i ∈ is, i.Passes m) ∧
      (∀ i ∈ is, i.decl.name ∉ seen) ∧ NamesOK is := by
  induction is with
  | nil =>
    intro seen fields ign fs ig _ _ h
    cases h
    refine ⟨by simp [build], by simp [buildIgnored], by simp, by simp, List.Pairwise.nil⟩
  | cons i is ih =>
    intro seen fields ign fs ig hr hm h
    rw [List.map_cons] at h
    simp only [parseFields] at h
    have hri := hr i (by simp)
    have hr' : ∀ j ∈ is, j.Reads := fun j hj => hr j (by simp [hj])
    rw [totalWidth_cons] at hm
    by_cases hseen : seen.contains i.decl.name = true
    · rw [if_pos hseen] at h; cases h
    rw [if_neg hseen] at h
    have hns : i.decl.name ∉ seen := by simpa using hseen
    obtain ⟨p, hp, h⟩ := bind_ok.mp h
    by_cases hi : i.ignored = true
    · rw [parseField_ignored hri hi] at hp
      cases hp
      have hw : i.width = 0 := by simp [Info.width, hi]
      have h' : parseFields m A sv (is.map Info.decl) (i.decl.name :: seen) fields
          (ign ++ [i.ifield]) = .ok (fs, ig) := h
      obtain ⟨e1, e2, e3, e4, e5⟩ := ih _ _ _ _ _ hr' (by rw [hw] at hm; simpa using hm) h'
      refine ⟨?_, ?_, ?_, ?_, ?_⟩
      · rw [e1]; simp only [build]; rw [if_pos hi]
      · rw [e2]; simp [buildIgnored, hi]
      · intro j hj
        rcases List.mem_cons.mp hj with rfl | hj
        · intro hf
          rw [hi] at hf
          cases hf
        · exact e3 j hj
      · intro j hj
        rcases List.mem_cons.mp hj with rfl | hj
        · exact hns
        · exact fun hm' => e4 j hj (List.mem_cons_of_mem _ hm')
      · refine List.pairwise_cons.mpr ⟨fun j hj _ e => e4 j hj ?_, e5⟩
        rw [← e]
        exact List.mem_cons_self
    · have hif : i.ignored = false := by simpa using hi
      have hm1 : m = .checked ∨ widths fields + i.width < 2 ^ 32 := by
        rcases hm with hm | hm
        · exact .inl hm
        · exact .inr (by omega)
      obtain ⟨rfl, hL⟩ := parseField_sound hri hif hs hlt hm1 hp
      have h' : parseFields m A sv (is.map Info.decl)
          (if i.reserved then seen else i.decl.name :: seen)
          (fields ++ [i.pfield A.args.order size sv (widths fields)]) ign = .ok (fs, ig) := h
      have hwf : widths (fields ++ [i.pfield A.args.order size sv (widths fields)]) =
          widths fields + i.width := by
        rw [widths_append, widths_cons]
        rfl
      have hm2 : m = .checked ∨
          widths (fields ++ [i.pfield A.args.order size sv (widths fields)]) + totalWidth is <
            2 ^ 32 := by
        rcases hm with hm | hm
        · exact .inl hm
        · exact .inr (by rw [hwf]; omega)
      obtain ⟨e1, e2, e3, e4, e5⟩ := ih _ _ _ _ _ hr' hm2 h'
      refine ⟨?_, ?_, ?_, ?_, ?_⟩
      · rw [e1, hwf]; simp only [build]; rw [if_neg hi]; simp
      · rw [e2]; simp [buildIgnored, hif]
      · intro j hj
        rcases List.mem_cons.mp hj with rfl | hj
        · exact hL
        · exact e3 j hj
      · intro j hj
        rcases List.mem_cons.mp hj with rfl | hj
        · exact hns
        · intro hm'
          refine e4 j hj ?_
          split
          · exact hm'
          · exact List.mem_cons_of_mem _ hm'
      · refine List.pairwise_cons.mpr ⟨fun j hj hb e => e4 j hj ?_, e5⟩
        have hb : i.reserved = false := by simpa [Info.blocks, hif] using hb
        rw [hb, ← e]
        simp

theorem parseFields_complete {m : Mode} {A : BitfieldAttr} {sv : Vis} {size : Nat}
    (hs : sizeOf? A.ty = some size) (hlt : size < 2 ^ 32) (is : List Info) :
    ∀ seen fields ign, (∀ i ∈ is, i.Reads) → (∀ i ∈ is, i.Passes m) →
      (∀ i ∈ is, i.decl.name ∉ seen) → NamesOK is →
      widths fields + totalWidth is ≤ size →
      parseFields m A sv (is.map Info.decl) seen fields ign =
        .ok (fields ++ build A.args.order size sv is (widths fields), ign ++ buildIgnored is) := by
  induction is with
  | nil => intro seen fields ign _ _ _ _ _; simp [parseFields, build, buildIgnored]
  | cons i is ih =>
    intro seen fields ign hr hL hns hN hle
    rw [totalWidth_cons] at hle
    obtain ⟨hN1, hN2⟩ := List.pairwise_cons.mp hN
    have hr' : ∀ j ∈ is, j.Reads := fun j hj => hr j (by simp [hj])
    have hL' : ∀ j ∈ is, j.Passes m := fun j hj => hL j (by simp [hj])
    have hseen : ¬ seen.contains i.decl.name = true := by
      have := hns i (by simp)
      simpa using this
    rw [List.map_cons]
    simp only [parseFields]
    rw [if_neg hseen]
    by_cases hi : i.ignored = true
    · rw [parseField_ignored (hr i (by simp)) hi]
      have hw : i.width = 0 := by simp [Info.width, hi]
      show parseFields m A sv (is.map Info.decl) (i.decl.name :: seen) fields
          (ign ++ [i.ifield]) = _
      rw [ih _ _ _ hr' hL' ?_ hN2 (by omega)]
      · simp only [build]
        rw [if_pos hi]
        simp [buildIgnored, hi]
      · intro j hj hmem
        rcases List.mem_cons.mp hmem with e | hmem
        · exact hN1 j hj (by simp [Info.blocks, hi]) e.symm
        · exact hns j (by simp [hj]) hmem
    · have hif : i.ignored = false := by simpa using hi
      rw [parseField_complete (hr i (by simp)) hif hs hlt (hL i (by simp))
        (by omega)]
      have hwf : widths (fields ++ [i.pfield A.args.order size sv (widths fields)]) =
          widths fields + i.width := by
        rw [widths_append, widths_cons]
        rfl
      show parseFields m A sv (is.map Info.decl)
          (if i.reserved then seen else i.decl.name :: seen)
          (fields ++ [i.pfield A.args.order size sv (widths fields)]) ign = _
      rw [ih _ _ _ hr' hL' ?_ hN2 (by rw [hwf]; omega), hwf]
      · simp only [build]
        rw [if_neg hi]
        simp [buildIgnored, hif]
      · intro j hj hmem
        cases hb : i.reserved with
        | true =>
          rw [hb] at hmem
          exact hns j (by simp [hj]) (by simpa using hmem)
        | false =>
          rw [hb] at hmem
          rcases List.mem_cons.mp hmem with e | hmem
          · exact hN1 j hj (by simp [Info.blocks, hb]) e.symm
          · exact hns j (by simp [hj]) hmem

theorem parseFields_reads {m : Mode} {A : BitfieldAttr} {sv : Vis} (ds : List FieldDecl) :
    ∀ seen fields ign r, parseFields m A sv ds seen fields ign = .ok r →
      ∃ is : List Info, is.map Info.decl = ds ∧ ∀ i ∈ is, i.Reads := by
  induction ds with
  | nil => intro _ _ _ _ _; exact ⟨[], rfl, by simp⟩
  | cons d ds ih =>
    intro seen fields ign r h
    simp only [parseFields] at h
    split at h
    · cases h
    obtain ⟨p, hp, h⟩ := bind_ok.mp h
    obtain ⟨i, rfl, hi⟩ := parseField_reads hp
    have : ∃ is : List Info, is.map Info.decl = ds ∧ ∀ i ∈ is, i.Reads := by
      split at h
      · exact ih _ _ _ _ h
      · exact ih _ _ _ _ h
    obtain ⟨is, rfl, his⟩ := this
    refine ⟨i :: is, rfl, ?_⟩
    intro j hj
    rcases List.mem_cons.mp hj with rfl | hj
    · exact hi
    · exact his j hj

/-! ## The whole struct -/

theorem checkFit_of_eq {m : Mode} {A : BitfieldAttr} {size : Nat} {fs : List PField}
    (hs : sizeOf? A.ty = some size) (hlt : size < 2 ^ 32) (h : widths fs = size) :
    checkFit m A fs = .ok () := by
  simp only [checkFit]
  rw [sumBits_of_lt (by omega), bitSize_of_lt hs hlt, h]
  show (if size < size then _ else if size < size then _ else Except.ok ()) = _
  rw [if_neg (Nat.lt_irrefl _), if_neg (Nat.lt_irrefl _)]

theorem checkFit_eq {m : Mode} {A : BitfieldAttr} {size : Nat} {fs : List PField}
    (hs : sizeOf? A.ty = some size) (hlt : size < 2 ^ 32)
    (hm : m = .checked ∨ widths fs < 2 ^ 32) (h : checkFit m A fs = .ok ()) :
    widths fs = size := by
  simp only [checkFit] at h
  obtain ⟨t, ht, h⟩ := bind_ok.mp h
  have hw : widths fs < 2 ^ 32 := by
    rcases hm with rfl | hm
    · exact sumBits_checked (liftR_ok.mp ht)
    · exact hm
  rw [sumBits_of_lt hw] at ht
  cases ht
  obtain ⟨s, hs', h⟩ := bind_ok.mp h
  rw [bitSize_of_lt hs hlt] at hs'
  cases hs'
  split at h
  · cases h
  · split at h
    · cases h
    · omega

theorem checkFit_size {A : BitfieldAttr} {fs : List PField}
    (h : checkFit .checked A fs = .ok ()) : ∃ size, sizeOf? A.ty = some size ∧ size < 2 ^ 32 := by
  simp only [checkFit] at h
  obtain ⟨t, ht, h⟩ := bind_ok.mp h
  obtain ⟨s, hs', h⟩ := bind_ok.mp h
  exact ⟨s, bitSize_checked (liftR_ok.mp hs')⟩

theorem parseBitfieldAttr_ok {cfg : String → Bool} {a : AttrInput} {A : BitfieldAttr} :
    parseBitfieldAttr cfg a = .ok A ↔ ∃ t, a.ty = some t ∧ t.dataType = .ok A.ty ∧
      (∃ s, sizeOf? A.ty = some s) ∧ A.ty.unsigned = true ∧
      parseBitfieldArgs cfg a.rest = .ok A.args := by
  have key : ∀ d : DataType, (do return ({ ty := d, args := ← parseBitfieldArgs cfg a.rest } :
      BitfieldAttr)) = Except.ok A ↔ A.ty = d ∧ parseBitfieldArgs cfg a.rest = .ok A.args := by
    intro d
    rw [bind_ok]
    constructor
    · rintro ⟨x, h1, h2⟩
      have := pure_ok.mp h2
      subst this
      exact ⟨rfl, h1⟩
    · rintro ⟨rfl, h⟩
      exact ⟨A.args, h, rfl⟩
  simp only [parseBitfieldAttr]
  cases a.ty with
  | none => simp
  | some t =>
    simp only [Option.some.injEq, exists_eq_left']
    cases hd : t.dataType with
    | error e => simp
    | ok d =>
      cases d with
      | custom c =>
        simp only [Except.ok.injEq, reduceCtorEq, false_iff]
        rintro ⟨h, ⟨s, hs⟩, _⟩
        rw [← h] at hs
        cases hs
      | int it =>
        simp only []
        cases hu : (DataType.int it).unsigned with
        | true =>
          rw [if_pos rfl, key]
          constructor
          · rintro ⟨h, h'⟩; rw [h]; exact ⟨rfl, ⟨_, rfl⟩, hu, h'⟩
          · rintro ⟨h, _, _, h'⟩; exact ⟨(Except.ok.inj h).symm, h'⟩
        | false =>
          simp only [Bool.false_eq_true, if_false, reduceCtorEq, false_iff]
          rintro ⟨h, _, h', _⟩
          rw [← Except.ok.inj h, hu] at h'
          cases h'
      | array n =>
        have hu : (DataType.array n).unsigned = true := rfl
        simp only []
        rw [if_pos hu, key]
        constructor
        · rintro ⟨h, h'⟩; rw [h]; exact ⟨rfl, ⟨_, rfl⟩, rfl, h'⟩
        · rintro ⟨h, _, _, h'⟩; exact ⟨(Except.ok.inj h).symm, h'⟩

/-- What is known of an accepted struct. -/
structure ParsedFrom (m : Mode) (cfg : String → Bool) (attr : AttrInput) (d : StructDecl) (p : Parsed)
    (is : List Info) (size : Nat) : Prop where
  decls : d.fields = some (is.map Info.decl)
  reads : ∀ i ∈ is, i.Reads
  backing : ∃ t, attr.ty = some t ∧ t.dataType = .ok p.ty
  hsize : sizeOf? p.ty = some size
  lt : size < 2 ^ 32
  unsigned : p.ty.unsigned = true
  args : parseBitfieldArgs cfg attr.rest = .ok p.args
  vis : p.vis = d.vis
  fields : p.fields = build p.args.order size d.vis is 0
  ignored : p.ignored = buildIgnored is
  total : totalWidth is = size
  checked : ∀ i ∈ is, i.Passes m
  names : NamesOK is

/-- The number of bits a declaration asks for. -/
def declaredWidth (d : FieldDecl) : Nat :=
  match getBitsAttribute d, d.ty.dataType with
  | .ok a, .ok t => (⟨d, a, t⟩ : Info).width
  | _, _ => 0

theorem declaredWidth_eq {i : Info} (h : i.Reads) : declaredWidth i.decl = i.width := by
  simp only [declaredWidth, h.1, h.2]

/-- Sums of widths and sizes do not overflow `u32`, or the overflow is noticed. -/
def NoOverflow (m : Mode) (attr : AttrInput) (ds : List FieldDecl) : Prop :=
  m = .checked ∨ ((ds.map declaredWidth).sum < 2 ^ 32 ∧
    ∀ t s d, attr.ty = some t → t.dataType = .ok d → sizeOf? d = some s → s < 2 ^ 32)

theorem sum_declaredWidth {is : List Info} (h : ∀ i ∈ is, i.Reads) :
    ((is.map Info.decl).map declaredWidth).sum = totalWidth is := by
  induction is with
  | nil => rfl
  | cons i is ih =>
    simp only [List.map_cons, List.sum_cons, totalWidth_cons]
    rw [declaredWidth_eq (h i (by simp)), ih fun j hj => h j (by simp [hj])]

theorem parseBitfield_sound {m : Mode} {cfg : String → Bool} {attr : AttrInput} {d : StructDecl}
    {p : Parsed} (h : parseBitfield m cfg attr d = .ok p)
    (hm : ∀ ds, d.fields = some ds → NoOverflow m attr ds) :
    ∃ is size, ParsedFrom m cfg attr d p is size := by
  simp only [parseBitfield] at h
  obtain ⟨A, hA, h⟩ := bind_ok.mp h
  obtain ⟨t, ht1, ht2, ⟨size, hs⟩, hu, hargs⟩ := parseBitfieldAttr_ok.mp hA
  cases hd : d.fields with
  | none => rw [hd] at h; cases h
  | some ds =>
    rw [hd] at h
    simp only [] at h
    obtain ⟨⟨fs, ig⟩, hf, h⟩ := bind_ok.mp h
    obtain ⟨_, hfit, h⟩ := bind_ok.mp h
    have := pure_ok.mp h
    subst this
    obtain ⟨is, rfl, hreads⟩ := parseFields_reads _ _ _ _ _ hf
    have hno := hm _ hd
    have hlt : size < 2 ^ 32 := by
      rcases hno with rfl | hno
      · obtain ⟨s, h1, h2⟩ := checkFit_size hfit
        rw [hs] at h1
        cases h1
        exact h2
      · exact hno.2 t size A.ty ht1 ht2 hs
    have hm2 : m = .checked ∨ widths [] + totalWidth is < 2 ^ 32 := by
      rcases hno with hno | hno
      · exact .inl hno
      · refine .inr ?_
        rw [← sum_declaredWidth hreads]
        simpa using hno.1
    obtain ⟨e1, e2, e3, _, e5⟩ := parseFields_sound hs hlt is _ _ _ _ _ hreads hm2 hf
    have e1 : fs = build A.args.order size d.vis is 0 := by simpa using e1
    have e2 : ig = buildIgnored is := by simpa using e2
    have htot : widths fs = totalWidth is := by rw [e1, widths_build]
    have hm3 : m = .checked ∨ widths fs < 2 ^ 32 := by
      rcases hm2 with hm2 | hm2
      · exact .inl hm2
      · exact .inr (by rw [htot]; simpa using hm2)
    have := checkFit_eq hs hlt hm3 hfit
    exact ⟨is, size, {
      decls := hd, reads := hreads, backing := ⟨t, ht1, ht2⟩, hsize := hs, lt := hlt,
      unsigned := hu, args := hargs, vis := rfl, fields := e1, ignored := e2,
      total := by rw [← htot, this], checked := e3, names := e5 }⟩

theorem parseBitfield_complete {m : Mode} {cfg : String → Bool} {attr : AttrInput}
    {d : StructDecl} {is : List Info} {size : Nat} {t : SynType} {ty : DataType}
    {args : BitfieldArgs} (hd : d.fields = some (is.map Info.decl)) (hr : ∀ i ∈ is, i.Reads)
    (ht1 : attr.ty = some t) (ht2 : t.dataType = .ok ty) (hs : sizeOf? ty = some size)
    (hlt : size < 2 ^ 32) (hu : ty.unsigned = true)
    (hargs : parseBitfieldArgs cfg attr.rest = .ok args) (hL : ∀ i ∈ is, i.Passes m) (hN : NamesOK is) (htot : totalWidth is = size) :
    parseBitfield m cfg attr d = .ok ⟨ty, d.vis, build args.order size d.vis is 0,
      buildIgnored is, args⟩ := by
  simp only [parseBitfield]
  have hA : parseBitfieldAttr cfg attr = .ok ⟨ty, args⟩ :=
    parseBitfieldAttr_ok.mpr ⟨t, ht1, ht2, ⟨size, hs⟩, hu, hargs⟩
  rw [hA, hd]
  have hf := parseFields_complete (m := m) (A := ⟨ty, args⟩) (sv := d.vis) hs hlt is [] [] [] hr
    hL (by simp) hN (by simp [htot])
  show (do
    let r ← parseFields m ⟨ty, args⟩ d.vis (is.map Info.decl) [] [] []
    checkFit m ⟨ty, args⟩ r.1
    return (⟨ty, d.vis, r.1, r.2, args⟩ : Parsed)) = _
  rw [hf]
  have e1 : ([] : List PField) ++ build args.order size d.vis is (widths []) =
      build args.order size d.vis is 0 := by simp
  refine bind_ok.mpr ⟨_, rfl, ?_⟩
  refine bind_ok.mpr ⟨(), ?_, ?_⟩
  · show checkFit m ⟨ty, args⟩ ([] ++ build args.order size d.vis is (widths [])) = _
    rw [e1]
    exact checkFit_of_eq hs hlt (by rw [widths_build, htot])
  · show Except.ok (⟨ty, d.vis, [] ++ build args.order size d.vis is (widths []),
      [] ++ buildIgnored is, args⟩ : Parsed) = _
    rw [e1]
    simp

end Bf

namespace Bf

/-! ## Positions in an accepted layout -/

theorem build_split {o : Order} {size : Nat} {sv : Vis} (is : List Info) :
    ∀ b pre p post, build o size sv is b = pre ++ p :: post →
      p.field.offset = offsetOf o size (b + widths pre) p.field.bits ∧
      ∃ i ∈ is, i.ignored = false ∧ p = i.pfield o size sv (b + widths pre) := by
  induction is with
  | nil => intro b pre p post h; simp [build] at h
  | cons i is ih =>
    intro b pre p post h
    simp only [build] at h
    by_cases hi : i.ignored = true
    · rw [if_pos hi] at h
      obtain ⟨h1, j, hj, h2⟩ := ih b pre p post h
      exact ⟨h1, j, List.mem_cons_of_mem _ hj, h2⟩
    · rw [if_neg hi] at h
      cases pre with
      | nil =>
        rw [List.nil_append] at h
        obtain ⟨rfl, -⟩ := List.cons.inj h
        exact ⟨rfl, i, List.mem_cons_self, by simpa using hi, rfl⟩
      | cons q pre =>
        rw [List.cons_append] at h
        obtain ⟨rfl, h'⟩ := List.cons.inj h
        obtain ⟨h1, j, hj, h2, h3⟩ := ih _ pre p post h'
        have e : b + widths (i.pfield o size sv b :: pre) = b + i.width + widths pre := by
          rw [widths_cons]
          show b + (i.width + widths pre) = _
          omega
        rw [e]
        exact ⟨h1, j, List.mem_cons_of_mem _ hj, h2, h3⟩

theorem build_mem {o : Order} {size : Nat} {sv : Vis} {is : List Info} {b : Nat} {p : PField}
    (h : p ∈ build o size sv is b) :
    ∃ i ∈ is, i.ignored = false ∧ ∃ c, p = i.pfield o size sv c := by
  obtain ⟨pre, post, e⟩ := List.append_of_mem h
  obtain ⟨_, i, hi, h1, h2⟩ := build_split is b pre p post e
  exact ⟨i, hi, h1, _, h2⟩

/-- A list of fields laid out from position `b` on, in order `o`. -/
def Placed (o : Order) (size b : Nat) (fs : List Field) : Prop :=
  ∀ pre f post, fs = pre ++ f :: post →
    f.offset = offsetOf o size (b + (pre.map Field.bits).sum) f.bits

theorem Placed.tail {o : Order} {size b : Nat} {f : Field} {fs : List Field}
    (h : Placed o size b (f :: fs)) : Placed o size (b + f.bits) fs := by
  intro pre g post e
  have := h (f :: pre) g post (by rw [e]; rfl)
  rw [this, List.map_cons, List.sum_cons, Nat.add_assoc]

theorem widths_eq (fs : List PField) : widths fs = ((fs.map (·.field)).map Field.bits).sum := by
  simp [widths, Function.comp_def]

theorem Placed.of_build (o : Order) (size : Nat) (sv : Vis) (is : List Info) :
    Placed o size 0 ((build o size sv is 0).map (·.field)) := by
  intro pre f post e
  rw [List.map_eq_append_iff] at e
  obtain ⟨pre', r, e, rfl, hr⟩ := e
  rw [List.map_eq_cons_iff] at hr
  obtain ⟨p, post', rfl, rfl, rfl⟩ := hr
  have := (build_split is 0 pre' p post' e).1
  rw [this, widths_eq]

/-- The position of bit `i` counted in declaration order. -/
def position (o : Order) (size i : Nat) : Nat :=
  match o with
  | .lsb => i
  | .msb => size - 1 - i

theorem covers_iff_position {o : Order} {size c i : Nat} {f : Field}
    (hf : f.offset = offsetOf o size c f.bits) (hle : c + f.bits ≤ size) (hi : i < size) :
    f.covers i = true ↔ c ≤ position o size i ∧ position o size i < c + f.bits := by
  simp only [Field.covers, Bool.and_eq_true, decide_eq_true_eq, hf]
  cases o with
  | lsb => simp [offsetOf, position]
  | msb =>
    simp only [offsetOf, position]
    omega

theorem Placed.offset_le {o : Order} {size b : Nat} {fs : List Field} (h : Placed o size b fs)
    (hle : b + (fs.map Field.bits).sum ≤ size) : ∀ f ∈ fs, f.offset + f.bits ≤ size := by
  intro f hf
  obtain ⟨pre, post, rfl⟩ := List.append_of_mem hf
  rw [h pre f post rfl]
  simp only [List.map_append, List.map_cons, List.sum_append, List.sum_cons] at hle
  cases o <;> simp only [offsetOf] <;> omega

/-- In a placed list, the fields covering a given bit are those of one index. -/
theorem Placed.unique {o : Order} {size i : Nat} (hi : i < size) (fs : List Field) :
    ∀ b, Placed o size b fs → b + (fs.map Field.bits).sum ≤ size → b ≤ position o size i →
      position o size i < b + (fs.map Field.bits).sum →
      ∃ k < fs.length, ∀ j f, fs[j]? = some f → (f.covers i = true ↔ j = k) := by
  induction fs with
  | nil => intro b _ _ h1 h2; simp only [List.map_nil, List.sum_nil] at h2; omega
  | cons f fs ih =>
    intro b hP hle h1 h2
    have hf := hP [] f fs rfl
    simp only [List.map_nil, List.sum_nil, Nat.add_zero] at hf
    simp only [List.map_cons, List.sum_cons] at hle h2
    have hcf := covers_iff_position (i := i) hf (by omega) hi
    have later : ∀ g ∈ fs, g.covers i = true → b + f.bits ≤ position o size i := by
      intro g hg hc
      obtain ⟨pre, post, rfl⟩ := List.append_of_mem hg
      have hg' := hP (f :: pre) g post rfl
      simp only [List.map_cons, List.sum_cons, List.map_append, List.sum_append] at hg' hle
      have := (covers_iff_position (i := i) hg' (by omega) hi).mp hc
      omega
    by_cases hx : position o size i < b + f.bits
    · refine ⟨0, by simp, ?_⟩
      intro j g hj
      cases j with
      | zero =>
        simp only [List.getElem?_cons_zero, Option.some.injEq] at hj
        subst hj
        simp only [iff_true]
        exact hcf.mpr ⟨h1, hx⟩
      | succ j =>
        rw [List.getElem?_cons_succ] at hj
        constructor
        · intro hc
          have := later g (List.mem_of_getElem? hj) hc
          omega
        · intro h; cases h
    · obtain ⟨k, hk, hu⟩ := ih _ hP.tail (by omega) (by omega) (by omega)
      refine ⟨k + 1, by simpa using hk, ?_⟩
      intro j g hj
      cases j with
      | zero =>
        simp only [List.getElem?_cons_zero, Option.some.injEq] at hj
        subst hj
        constructor
        · intro hc
          have := (hcf.mp hc).2
          omega
        · intro h; omega
      | succ j =>
        rw [List.getElem?_cons_succ] at hj
        rw [hu j g hj]
        omega

end Bf
