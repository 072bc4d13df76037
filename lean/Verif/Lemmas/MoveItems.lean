import Verif.Lemmas.MoveAll

/-! # No item uses what was given away -/

namespace Bf.Text

open Rust Quote

variable {C : Style} {R : Facts}

/-! ## `fmt` and `build` -/

theorem debugFields_moves (P : Printer) (hs : ∀ b S, Around C R P.B b S) {l : List Field} :
    Moves C R false [] (.all (l.map fun f => .seq (extractTok P.B f .bitfield false false false)
      (.debugField f.name (.var "value")))) := by
  refine .all fun s h => ?_
  obtain ⟨f, -, rfl⟩ := List.mem_map.mp h
  exact .seq (extract_moves (hs _ _)) (.of (hs _ _) (by qt []))

theorem fmt_move (P : Printer) (hs : ∀ b S, Around C R P.B b S) : (P.fmtSyn C).moveOk R = true := by
  simp only [SFn.moveOk, Printer.fmtSyn, debugFn]
  have h0 : Ok looked (dead false) [] [("f", .exclusive), ("self", .shared)] :=
    Ok.push (Ok.push ok_nil (.inl (by decide))) (.inr (.inl (by decide)))
  obtain ⟨v1, h1, g1⟩ := letThis_goes (C := C) (R := R) h0 (k := .shared) (by decide) (by decide) (by decide) (by decide)
  obtain ⟨v2, h2, g2⟩ := (debugFields_moves P hs (l := P.B.fields)).goes (h1.push (x := "debug") (k := .owned) (.inr (.inl (by decide))))
  have e1 : runE R false v1 (.method (names ["f"]) "debug_struct" [.str P.name]) = some (.owned, v1) := by
    simp [runE, names, takes, h1.see (x := "f") (by decide), runEs, returned]
  have e2 : ∃ r, runE R false v2 (.method (names ["debug"]) "finish" []) = some r := by
    simp [runE, names, takes, h2.see (x := "debug") (by decide), runEs]
  obtain ⟨r, e2⟩ := e2
  rw [List.append_assoc, List.append_assoc]
  show (runS R [("f", .exclusive), ("self", .shared)] _).isSome = true
  rw [g1.2 _ (by simp), List.singleton_append, runS, e1, Option.bind_some]
  rw [show heldKind v1 (.method (names ["f"]) "debug_struct" [.str P.name]) .owned = .owned from rfl, g2.2 _ (by simp), runS_last, e2]
  rfl

theorem build_move (P : Printer) : P.buildSyn.moveOk R = true := by
  simp only [SFn.moveOk, Printer.buildSyn, List.map_nil, List.nil_append, Recv.kinds, runS_last, runE, Bool.false_or]
  split
  · rfl
  · rfl

/-! ## Everything -/

theorem members_move {P : Printer} (hs : ∀ b S, Around C R P.B b S) (hi : FreshIgnored C) (hk : (tySyn (backTy P.B.backing)).kind = .copy) (F : Feature) : ∀ x ∈ P.fns F, (fnSyn C x.1 x.2.1 x.2.2).moveOk R = true := by
  intro x hx
  cases F with
  | struct | fromTraits | debug | builder | default | constants => cases hx
  | new =>
    simp only [Printer.fns, List.mem_cons, List.not_mem_nil, or_false] at hx
    rcases hx with rfl | rfl <;> exact new_move hs hi _
  | setters =>
    obtain ⟨f, -, hx⟩ := List.mem_flatMap.mp hx
    simp only [List.mem_cons, List.not_mem_nil, or_false] at hx
    rcases hx with rfl | rfl
    · exact setter_move hs nofun
    · exact checkedSetter_move hs nofun
  | getters =>
    obtain ⟨f, -, rfl⟩ := List.mem_map.mp hx
    exact getter_move hs nofun
  | fromIntoBits =>
    simp only [Printer.fns] at hx
    split at hx
    · rename_i w hB
      rcases List.mem_append.mp hx with hx | hx
      · obtain ⟨e, -, hx⟩ := List.mem_flatMap.mp hx
        simp only [List.mem_cons, List.not_mem_nil, or_false] at hx
        rcases hx with rfl | rfl <;> exact from_move hs hi hk _ _
      · obtain ⟨f, -, rfl⟩ := List.mem_map.mp hx
        exact into_move hs _ nofun
    · rename_i n hB
      rcases List.mem_append.mp hx with hx | hx
      · rcases List.mem_append.mp hx with hx | hx
        · rcases List.mem_append.mp hx with hx | hx
          · obtain ⟨e, -, hx⟩ := List.mem_flatMap.mp hx
            simp only [List.mem_cons, List.not_mem_nil, or_false] at hx
            rcases hx with rfl | rfl <;> exact from_move hs hi hk _ _
          · obtain ⟨e, -, hx⟩ := List.mem_flatMap.mp hx
            simp only [List.mem_cons, List.not_mem_nil, or_false] at hx
            rcases hx with rfl | rfl | rfl | rfl
            · exact slice_from_move hs hi _ _
            · exact slice_from_move hs hi _ _
            · exact checkedSlice_from_move hs hi _ _
            · exact checkedSlice_from_move hs hi _ _
        · obtain ⟨f, -, rfl⟩ := List.mem_map.mp hx
          exact into_move hs _ nofun
      · obtain ⟨e, -, hx⟩ := List.mem_flatMap.mp hx
        simp only [List.mem_cons, List.not_mem_nil, or_false] at hx
        rcases hx with rfl | rfl
        · exact slice_into_move hs _ hB nofun
        · exact checkedSlice_into_move hs _ hB nofun
  | writeBitOps =>
    rcases List.mem_append.mp hx with hx | hx
    · obtain ⟨e, -, hx⟩ := List.mem_flatMap.mp hx
      simp only [List.mem_cons, List.not_mem_nil, or_false] at hx
      rcases hx with rfl | rfl <;> exact write_move hs hk _ _ nofun
    · cases List.mem_singleton.mp hx
      exact writeDefaults_move hs nofun
  | setGetBitOps =>
    simp only [Printer.fns, List.mem_cons, List.not_mem_nil, or_false] at hx
    rcases hx with rfl | rfl | rfl | rfl | rfl | rfl | rfl | rfl
    · exact setBit_move (G := P.G) hs hk nofun
    · exact checkedSetBit_move (G := P.G) hs hk nofun
    · exact setRange_move (G := P.G) hs hk nofun
    · exact checkedSetRange_move (G := P.G) hs hk nofun
    · exact getBit_move (G := P.G) hs hk nofun
    · exact checkedGetBit_move (G := P.G) hs hk nofun
    · exact getRange_move (G := P.G) hs hk nofun
    · exact checkedGetRange_move (G := P.G) hs hk nofun
  | clearBitOps =>
    rcases List.mem_append.mp hx with hx | hx
    · rcases List.mem_append.mp hx with hx | hx
      · simp only [List.mem_cons, List.not_mem_nil, or_false] at hx
        rcases hx with rfl | rfl <;> exact clear_move hs _ nofun
      · obtain ⟨f, -, rfl⟩ := List.mem_map.mp hx
        exact clearField_move hs nofun
    · obtain ⟨f, hf, rfl⟩ := List.mem_map.mp hx
      exact clearToDefault_move hs (List.mem_filter.mp hf).1 nofun
  | invertBitOps =>
    rcases List.mem_append.mp hx with hx | hx
    · rcases List.mem_append.mp hx with hx | hx
      · cases List.mem_singleton.mp hx
        exact invert_move hs nofun
      · obtain ⟨f, -, rfl⟩ := List.mem_map.mp hx
        exact invertField_move hs nofun
    · obtain ⟨f, -, rfl⟩ := List.mem_map.mp hx
      exact inverted_move hs nofun

theorem builder_move {P : Printer} (hs : ∀ b S, Around C R P.B b S) (hi : FreshIgnored C) : ∀ x ∈ P.builderFns, (fnSyn C x.1 x.2.1 x.2.2).moveOk R = true := by
  intro x hx
  rcases List.mem_append.mp hx with hx | hx
  · simp only [List.mem_cons, List.not_mem_nil, or_false] at hx
    rcases hx with rfl | rfl <;> exact builderNew_move hs hi _
  · obtain ⟨f, -, hx⟩ := List.mem_flatMap.mp hx
    simp only [List.mem_cons, List.not_mem_nil, or_false] at hx
    rcases hx with rfl | rfl
    · exact with_move hs
    · exact checkedWith_move hs

theorem items_move {P : Printer} (hs : ∀ b S, Around C R P.B b S) (hi : FreshIgnored C) (hk : (tySyn (backTy P.B.backing)).kind = .copy) (F : Feature) : ∀ i ∈ P.items C F, ∀ g ∈ i.fns, g.moveOk R = true := by
  intro i hx g hg
  obtain ⟨tr, ty, ms, rfl, hg'⟩ := mem_fns hg
  replace hg := hg'
  cases F with
  | constants | new | setters | getters | fromIntoBits | writeBitOps | setGetBitOps | clearBitOps | invertBitOps => cases hx
  | struct =>
    simp only [Printer.items] at hx
    split at hx <;> cases List.mem_singleton.mp hx
  | fromTraits =>
    simp only [Printer.items, List.mem_cons, List.not_mem_nil, or_false] at hx
    rcases hx with hx | hx <;> cases hx <;> cases List.mem_singleton.mp hg
    · exact traitFrom_move hs hi hk
    · exact traitInto_move hs rfl (H := traitHead .none P.name) (tag := .impl .intoBacking)
  | debug =>
    cases List.mem_singleton.mp hx
    cases List.mem_singleton.mp hg
    exact fmt_move P hs
  | default =>
    cases List.mem_singleton.mp hx
    cases List.mem_singleton.mp hg
    exact default_move (G := P.G) hs hi
  | builder =>
    simp only [Printer.items, List.mem_cons, List.not_mem_nil, or_false] at hx
    rcases hx with hx | hx | hx <;> cases hx
    · cases List.mem_singleton.mp hg
      exact builderDefault_move
    · rcases List.mem_append.mp hg with hg | hg
      · obtain ⟨x, hx, e⟩ := List.mem_map.mp hg
        cases e
        exact builder_move hs hi x hx
      · cases List.mem_singleton.mp hg
        exact build_move P

theorem expansion_move {P : Printer} (hs : ∀ b S, Around C R P.B b S) (hi : FreshIgnored C) (hk : (tySyn (backTy P.B.backing)).kind = .copy) : ∀ i ∈ P.expansion C, ∀ g ∈ i.fns, g.moveOk R = true := by
  intro i hx g hg
  rcases List.mem_append.mp hx with hx | hx
  · rcases List.mem_append.mp hx with hx | hx
    · obtain ⟨F, -, hx⟩ := List.mem_flatMap.mp hx
      exact items_move hs hi hk F i hx g hg
    · cases List.mem_singleton.mp hx
      obtain ⟨tr, ty, ms, e, hg⟩ := mem_fns hg
      cases e
      obtain ⟨F, -, hg⟩ := List.mem_flatMap.mp hg
      have hc : ∀ F' : Feature, SMember.fn g ∈ (P.fns F').map (fun x => SMember.fn (fnSyn C x.1 x.2.1 x.2.2)) →
          g.moveOk R = true := by
        intro F' hg
        obtain ⟨x, hx, e⟩ := List.mem_map.mp hg
        cases e
        exact members_move hs hi hk F' x hx
      cases F with
      | constants =>
        obtain ⟨f, -, hg⟩ := List.mem_flatMap.mp hg
        simp only [List.mem_cons, List.not_mem_nil, or_false, reduceCtorEq] at hg
      | _ => exact hc _ hg
  · obtain ⟨F, -, hx⟩ := List.mem_flatMap.mp hx
    exact items_move hs hi hk F i hx g hg

/-! ## The surroundings -/

theorem freshIgnored_of {P : Printer} (h : Fits P C) : FreshIgnored C := by
  intro R vs
  rw [h.ignored]
  generalize P.ignored = l
  induction l with
  | nil => rfl
  | cons x l ih =>
    have : runE R false vs (defaultSyn x.2.1) = some (.owned, vs) := by
      unfold defaultSyn
      split <;> simp [runE, runEs]
    simp only [List.map_cons, runFields, this, Option.bind_some, ih]

theorem section_above (P : Printer) : P.section .above = [.struct] := by
  unfold Printer.section enabledFeatures
  rw [List.filter_filter, show (fun F : Feature => decide (F.position = .above) && F.enabled P.args) =
    fun F => F.enabled P.args && decide (F.position = .above) from funext fun F => Bool.and_comm _ _, ← List.filter_filter,
    show (sortByPriority Feature.all).filter (fun F => decide (F.position = .above)) = [.struct] by decide]
  rfl

/-- What is known of the first item. -/
theorem store_part (P : Printer) (x : String) (hx : x = if P.ignored = [] then "0" else "val") :
    (facts (P.expansion C)).part x = decide (P.storageSyn.kind = .copy) := by
  simp only [facts, Printer.expansion, section_above, List.flatMap_cons, List.flatMap_nil, List.append_nil, Printer.items]
  cases hi : P.ignored with
  | nil =>
    rw [hi, if_pos rfl] at hx
    subst hx
    simp [SItem.parts]
  | cons i is =>
    rw [hi, if_neg nofun] at hx
    subst hx
    simp [SItem.parts]

theorem storage_kind {P : Printer} (hk : (tySyn (backTy P.B.backing)).kind = .copy) (hh : P.B.heap = P.args.arrayHeap) :
    decide (P.storageSyn.kind = .copy) = plainStore P.B := by
  unfold Printer.storageSyn plainStore
  rw [← hh]
  cases hB : P.B.backing with
  | int w =>
    rw [hB] at hk
    cases P.B.heap <;> simp [hk]
  | arr n =>
    rw [hB] at hk
    cases P.B.heap
    · simp [hk]
    · simp [SType.kind]

/-- The characters `set_` or `checked_set_`. -/
def setterName (x : String) : Bool := "set_".toList.isPrefixOf x.toList || "checked_set_".toList.isPrefixOf x.toList

theorem setter_name {t : Tag} (h : setTag t = true) : setterName (tagName t) = true := by
  unfold setTag at h
  split at h
  · simp [tagName, Accessor.ident, setterName, List.isPrefixOf]
  · simp [tagName, Accessor.ident, setterName, List.isPrefixOf]
  · cases h

/-- Functions that take `self`. -/
def byValue (f : SFn) : Bool := decide (f.recv = .value) || decide (f.recv = .valueMut)

theorem members_value (P : Printer) (F : Feature) : ∀ x ∈ P.fns F, byValue (fnSyn C x.1 x.2.1 x.2.2) = true →
    setterName (tagName x.2.1) = false := by
  intro x hx hv
  cases F with
  | fromIntoBits =>
    simp only [Printer.fns] at hx
    split at hx
    · simp only [endians, List.flatMap_cons, List.flatMap_nil, List.map_cons, List.map_nil, List.mem_append, List.mem_cons, List.not_mem_nil, or_false] at hx
      rcases hx with ((rfl | rfl) | (rfl | rfl) | (rfl | rfl)) | rfl | rfl | rfl <;> first | (cases hv; done) | exact (by decide : setterName "into_bits" = false) | exact (by decide : setterName "into_le_bits" = false) | exact (by decide : setterName "into_be_bits" = false)
    · rcases List.mem_append.mp hx with hx | hx
      · rcases List.mem_append.mp hx with hx | hx
        · rcases List.mem_append.mp hx with hx | hx
          · obtain ⟨e, -, hx⟩ := List.mem_flatMap.mp hx
            simp only [List.mem_cons, List.not_mem_nil, or_false] at hx
            rcases hx with rfl | rfl <;> cases hv
          · obtain ⟨e, -, hx⟩ := List.mem_flatMap.mp hx
            simp only [List.mem_cons, List.not_mem_nil, or_false] at hx
            rcases hx with rfl | rfl | rfl | rfl <;> cases hv
        · obtain ⟨f, -, rfl⟩ := List.mem_map.mp hx
          cases hv
      · obtain ⟨e, -, hx⟩ := List.mem_flatMap.mp hx
        simp only [List.mem_cons, List.not_mem_nil, or_false] at hx
        rcases hx with rfl | rfl <;> cases hv
  | struct | fromTraits | debug | builder | default | constants => cases hx
  | new =>
    simp only [Printer.fns, List.mem_cons, List.not_mem_nil, or_false] at hx
    rcases hx with rfl | rfl <;> cases hv
  | setters =>
    obtain ⟨f, -, hx⟩ := List.mem_flatMap.mp hx
    simp only [List.mem_cons, List.not_mem_nil, or_false] at hx
    rcases hx with rfl | rfl <;> cases hv
  | getters =>
    obtain ⟨f, -, rfl⟩ := List.mem_map.mp hx
    cases hv
  | writeBitOps =>
    rcases List.mem_append.mp hx with hx | hx
    · obtain ⟨e, -, hx⟩ := List.mem_flatMap.mp hx
      simp only [List.mem_cons, List.not_mem_nil, or_false] at hx
      rcases hx with rfl | rfl <;> cases hv
    · cases List.mem_singleton.mp hx
      cases hv
  | setGetBitOps =>
    simp only [Printer.fns, List.mem_cons, List.not_mem_nil, or_false] at hx
    rcases hx with rfl | rfl | rfl | rfl | rfl | rfl | rfl | rfl <;> cases hv
  | clearBitOps =>
    rcases List.mem_append.mp hx with hx | hx
    · rcases List.mem_append.mp hx with hx | hx
      · simp only [List.mem_cons, List.not_mem_nil, or_false] at hx
        rcases hx with rfl | rfl <;> cases hv
      · obtain ⟨f, -, rfl⟩ := List.mem_map.mp hx
        cases hv
    · obtain ⟨f, hf, rfl⟩ := List.mem_map.mp hx
      cases hv
  | invertBitOps =>
    rcases List.mem_append.mp hx with hx | hx
    · rcases List.mem_append.mp hx with hx | hx
      · cases List.mem_singleton.mp hx
        cases hv
      · obtain ⟨f, -, rfl⟩ := List.mem_map.mp hx
        cases hv
    · obtain ⟨f, -, rfl⟩ := List.mem_map.mp hx
      cases hv

theorem with_name (x : String) : setterName ("with_" ++ x) = false := by
  simp [setterName, List.isPrefixOf]

theorem checkedWith_name (x : String) : setterName ("checked_with_" ++ x) = false := by
  simp [setterName, List.isPrefixOf]

theorem items_value (P : Printer) (F : Feature) : ∀ i ∈ P.items C F, ∀ g ∈ i.fns, byValue g = true → setterName g.name = false := by
  intro i hx g hg hv
  obtain ⟨tr, ty, ms, rfl, hg'⟩ := mem_fns hg
  replace hg := hg'
  cases F with
  | constants | new | setters | getters | fromIntoBits | writeBitOps | setGetBitOps | clearBitOps | invertBitOps => cases hx
  | struct =>
    simp only [Printer.items] at hx
    split at hx <;> cases List.mem_singleton.mp hx
  | fromTraits =>
    simp only [Printer.items, List.mem_cons, List.not_mem_nil, or_false] at hx
    rcases hx with hx | hx <;> cases hx <;> cases List.mem_singleton.mp hg <;> cases hv
  | debug =>
    cases List.mem_singleton.mp hx
    cases List.mem_singleton.mp hg
    cases hv
  | default =>
    cases List.mem_singleton.mp hx
    cases List.mem_singleton.mp hg
    cases hv
  | builder =>
    simp only [Printer.items, List.mem_cons, List.not_mem_nil, or_false] at hx
    rcases hx with hx | hx | hx <;> cases hx
    · cases List.mem_singleton.mp hg
      cases hv
    · rcases List.mem_append.mp hg with hg | hg
      · obtain ⟨x, hx, e⟩ := List.mem_map.mp hg
        cases e
        rcases List.mem_append.mp hx with hx | hx
        · simp only [List.mem_cons, List.not_mem_nil, or_false] at hx
          rcases hx with rfl | rfl <;> cases hv
        · obtain ⟨f, -, hx⟩ := List.mem_flatMap.mp hx
          simp only [List.mem_cons, List.not_mem_nil, or_false] at hx
          rcases hx with rfl | rfl
          · exact with_name _
          · exact checkedWith_name _
      · cases List.mem_singleton.mp hg
        exact (by decide : setterName "build" = false)

theorem expansion_value (P : Printer) : ∀ i ∈ P.expansion C, ∀ g ∈ i.fns, byValue g = true → setterName g.name = false := by
  intro i hx g hg hv
  rcases List.mem_append.mp hx with hx | hx
  · rcases List.mem_append.mp hx with hx | hx
    · obtain ⟨F, -, hx⟩ := List.mem_flatMap.mp hx
      exact items_value P F i hx g hg hv
    · cases List.mem_singleton.mp hx
      obtain ⟨tr, ty, ms, e, hg⟩ := mem_fns hg
      cases e
      obtain ⟨F, -, hg⟩ := List.mem_flatMap.mp hg
      have hc : ∀ F' : Feature, SMember.fn g ∈ (P.fns F').map (fun x => SMember.fn (fnSyn C x.1 x.2.1 x.2.2)) →
          setterName g.name = false := by
        intro F' hg
        obtain ⟨x, hx, e⟩ := List.mem_map.mp hg
        cases e
        exact members_value P F' x hx hv
      cases F with
      | constants =>
        obtain ⟨f, -, hg⟩ := List.mem_flatMap.mp hg
        simp only [List.mem_cons, List.not_mem_nil, or_false, reduceCtorEq] at hg
      | _ => exact hc _ hg
  · obtain ⟨F, -, hx⟩ := List.mem_flatMap.mp hx
    exact items_value P F i hx g hg hv

theorem setter_takes (P : Printer) {x : String} (h : setterName x = true) (b : Bool) :
    takes (facts (P.expansion C)) (thisSyn b) x = false := by
  have h1 : x ≠ "into_bits" := by rintro rfl; revert h; decide
  have h2 : x ≠ "swap_bytes" := by rintro rfl; revert h; decide
  have h3 : (facts (P.expansion C)).self x = false := by
    simp only [facts]
    refine List.any_eq_false.mpr fun i hi e => ?_
    obtain ⟨f, hf, e⟩ := List.any_eq_true.mp e
    rw [Bool.and_eq_true, decide_eq_true_eq] at e
    have := expansion_value P i hi f hf e.2
    rw [e.1, h] at this
    cases this
  cases b <;> simp [takes, thisSyn, names, h1, h2, h3]

theorem around_of {P : Printer} (h : Fits P C) (hk : (tySyn (backTy P.B.backing)).kind = .copy) (hh : P.B.heap = P.args.arrayHeap)
    (hn : ∀ f ∈ P.B.fields, f.hasDefault = true → ∀ x, C.user f.offset = names [x] → x ∉ "self" :: "field_bits" :: looked)
    (b : Bool) (S : List String) : Around C (facts (P.expansion C)) P.B b S where
  tuple hi := by
    rw [h.ignored, List.map_eq_nil_iff] at hi
    rw [store_part P "0" (by rw [if_pos hi]), storage_kind hk hh]
  val hi := by
    rw [h.ignored, Ne, List.map_eq_nil_iff] at hi
    rw [store_part P "val" (by rw [if_neg hi]), storage_kind hk hh]
  setter t b ht := setter_takes P (setter_name ht) b
  user k hu vs hv := by
    obtain ⟨f, hf, e⟩ := List.any_eq_true.mp hu
    rw [Bool.and_eq_true, decide_eq_true_eq] at e
    have h1 := h.user f hf e.1
    have h2 := hn f hf e.1
    rw [e.2] at h1 h2
    generalize C.user k = ex at h1 h2
    generalize P.default k = ts at h1
    generalize f.ty = t at h1
    cases h1 with
    | name _ x =>
      obtain ⟨h3, h4⟩ := plain_name (b := b) (h2 x rfl)
      obtain ⟨kk, h5, h6⟩ := hv.use h3 h4
      refine ⟨kk, fun e => ?_, ?_⟩
      · subst e
        rcases h5 with h | h <;> cases h
      · simpa only [names, List.map_cons, List.map_nil, runE, Bool.false_eq_true, if_false] using h6
    | path _ x y =>
      simp only [names, List.map_cons, List.map_nil, runE]
      refine ⟨_, ?_, rfl⟩
      split <;> exact nofun
    | _ => simp [runE, runEs]

end Bf.Text
