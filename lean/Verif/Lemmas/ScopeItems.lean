import Verif.Lemmas.ScopeCode
import Verif.Lemmas.MutFns

/-! # The names the printed items use -/

namespace Bf.Text

open Rust Quote

variable {P : Printer} {C : Style} {X : List Seg → Bool}

theorem pathNames_names (xs : List String) : pathNames (xs.map .name) = some xs := by
  induction xs with
  | nil => rfl
  | cons x xs ih => simp [pathNames, ih]

theorem defaultsIn_of (h : Fits P C) : DefaultsIn P.userPath C P.B := by
  intro f hf hd vs
  have hs := h.user f hf hd
  have key : ∀ xs, leadingPath (P.default f.offset) = some xs → allow C.name P.userPath (xs.map .name) = true := by
    intro xs hx
    have : P.userPath (xs.map .name) = true := by
      refine List.any_eq_true.mpr ⟨f, hf, ?_⟩
      simp [hd, hx, pathNames_names]
    simp [allow, this]
  generalize C.user f.offset = e at hs ⊢
  generalize P.default f.offset = ts at hs key
  generalize f.ty = t at hs
  cases hs with
  | user | int | neg | repeated => rfl
  | name t x =>
    have := key [x] rfl
    simp only [List.map_cons, List.map_nil] at this
    simp [names, exprScoped, this]
  | path t x y =>
    have := key [x, y] rfl
    simp only [List.map_cons, List.map_nil] at this
    simp [names, exprScoped, this]
  | call0 t x y =>
    have := key [x, y] rfl
    simp only [List.map_cons, List.map_nil] at this
    simp [names, exprScoped, exprsScoped, this]
  | call1 t x y =>
    have := key [x, y] rfl
    simp only [List.map_cons, List.map_nil] at this
    simp [names, exprScoped, exprsScoped, this]

theorem ignoredIn_of (h : Fits P C) : IgnoredIn X C := by
  intro vs
  have hn := h.noArray
  rw [h.ignored]
  generalize P.ignored = l at hn ⊢
  induction l with
  | nil => rfl
  | cons x l ih =>
    have h1 : exprScoped (allow C.name X) vs (defaultSyn x.2.1) = true := by
      unfold defaultSyn
      split
      · simp [exprScoped, exprsScoped]
      · rename_i t ht
        have : typeScoped (allow C.name X) (tySyn (fieldTy x.2.1)) = true := by
          refine type_named ?_
          cases hx : x.2.1 with
          | int t => exact intTy_named t
          | array n => rfl
          | custom c => exact absurd hx (ht c)
        simp [exprScoped, exprsScoped, this]
    simp [fieldsScoped, h1, ih fun x hx => hn x (.tail _ hx)]

theorem head_in (recv : Recv) (slice : Bool) : HeadIn X C (P.head recv slice) := ⟨rfl, type_self⟩

theorem opHead_in (f : Field) (recv : Recv) : HeadIn X C (P.opHead f recv) := ⟨type_data, type_self⟩

theorem fieldHead_in (f : Field) (recv : Recv) : HeadIn X C (P.fieldHead f recv) := ⟨type_data, type_self⟩

theorem members_scoped (h : Fits P C) (F : Feature) :
    ∀ x ∈ P.fns F, (fnSyn C x.1 x.2.1 x.2.2).scoped (allow C.name P.userPath) = true := by
  have hu := defaultsIn_of h
  have hi := ignoredIn_of (X := P.userPath) h
  intro x hx
  cases F with
  | struct | fromTraits | debug | builder | default | constants => cases hx
  | new =>
    simp only [Printer.fns, List.mem_cons, List.not_mem_nil, or_false] at hx
    rcases hx with rfl | rfl <;> exact newFn_scoped hu hi (head_in ..)
  | setters =>
    obtain ⟨f, -, hx⟩ := List.mem_flatMap.mp hx
    simp only [List.mem_cons, List.not_mem_nil, or_false] at hx
    rcases hx with rfl | rfl
    · exact setter_scoped (fieldHead_in ..) rfl
    · exact checkedSetter_scoped (fieldHead_in ..) rfl
  | getters =>
    obtain ⟨f, -, rfl⟩ := List.mem_map.mp hx
    exact getter_scoped (fieldHead_in ..) rfl
  | fromIntoBits =>
    simp only [Printer.fns] at hx
    split at hx
    · rcases List.mem_append.mp hx with hx | hx
      · obtain ⟨e, -, hx⟩ := List.mem_flatMap.mp hx
        simp only [List.mem_cons, List.not_mem_nil, or_false] at hx
        rcases hx with rfl | rfl <;> exact from_scoped hu hi (head_in ..)
      · obtain ⟨f, -, rfl⟩ := List.mem_map.mp hx
        exact into_scoped (head_in ..) rfl
    · rcases List.mem_append.mp hx with hx | hx
      · rcases List.mem_append.mp hx with hx | hx
        · rcases List.mem_append.mp hx with hx | hx
          · obtain ⟨e, -, hx⟩ := List.mem_flatMap.mp hx
            simp only [List.mem_cons, List.not_mem_nil, or_false] at hx
            rcases hx with rfl | rfl <;> exact from_scoped hu hi (head_in ..)
          · obtain ⟨e, -, hx⟩ := List.mem_flatMap.mp hx
            simp only [List.mem_cons, List.not_mem_nil, or_false] at hx
            rcases hx with rfl | rfl | rfl | rfl
            · exact fromSlice_scoped hu hi (head_in ..)
            · exact fromSlice_scoped hu hi (head_in ..)
            · exact checkedFromSlice_scoped hu hi (head_in ..)
            · exact checkedFromSlice_scoped hu hi (head_in ..)
        · obtain ⟨f, -, rfl⟩ := List.mem_map.mp hx
          exact into_scoped (head_in ..) rfl
      · obtain ⟨e, -, hx⟩ := List.mem_flatMap.mp hx
        simp only [List.mem_cons, List.not_mem_nil, or_false] at hx
        rcases hx with rfl | rfl
        · exact intoSlice_scoped (head_in ..) rfl
        · exact checkedIntoSlice_scoped (head_in ..) rfl
  | writeBitOps =>
    rcases List.mem_append.mp hx with hx | hx
    · obtain ⟨e, -, hx⟩ := List.mem_flatMap.mp hx
      simp only [List.mem_cons, List.not_mem_nil, or_false] at hx
      rcases hx with rfl | rfl <;> exact write_scoped hu (head_in ..) rfl
    · cases List.mem_singleton.mp hx
      exact writeDefaults_scoped hu (head_in ..) rfl
  | setGetBitOps =>
    simp only [Printer.fns, List.mem_cons, List.not_mem_nil, or_false] at hx
    rcases hx with rfl | rfl | rfl | rfl | rfl | rfl | rfl | rfl
    · exact setBit_scoped (head_in ..) rfl
    · exact checkedSetBit_scoped (head_in ..) rfl
    · exact setRange_scoped (head_in ..) rfl
    · exact checkedSetRange_scoped (head_in ..) rfl
    · exact getBit_scoped (head_in ..) rfl
    · exact checkedGetBit_scoped (head_in ..) rfl
    · exact getRange_scoped (head_in ..) rfl
    · exact checkedGetRange_scoped (head_in ..) rfl
  | clearBitOps =>
    rcases List.mem_append.mp hx with hx | hx
    · rcases List.mem_append.mp hx with hx | hx
      · simp only [List.mem_cons, List.not_mem_nil, or_false] at hx
        rcases hx with rfl | rfl <;> exact clearFn_scoped hu (head_in ..) rfl
      · obtain ⟨f, -, rfl⟩ := List.mem_map.mp hx
        exact clearField_scoped (opHead_in ..) rfl
    · obtain ⟨f, hf, rfl⟩ := List.mem_map.mp hx
      exact clearToDefault_scoped hu (List.mem_filter.mp hf).1 (opHead_in ..) rfl
  | invertBitOps =>
    rcases List.mem_append.mp hx with hx | hx
    · rcases List.mem_append.mp hx with hx | hx
      · cases List.mem_singleton.mp hx
        exact invert_scoped (head_in ..) rfl
      · obtain ⟨f, -, rfl⟩ := List.mem_map.mp hx
        exact invertField_scoped (opHead_in ..) rfl
    · obtain ⟨f, -, rfl⟩ := List.mem_map.mp hx
      exact inverted_scoped (opHead_in ..) rfl

theorem builder_scoped (h : Fits P C) : ∀ x ∈ P.builderFns, (fnSyn C x.1 x.2.1 x.2.2).scoped (allow C.name P.userPath) = true := by
  have hu := defaultsIn_of h
  have hi := ignoredIn_of (X := P.userPath) h
  intro x hx
  rcases List.mem_append.mp hx with hx | hx
  · simp only [List.mem_cons, List.not_mem_nil, or_false] at hx
    rcases hx with rfl | rfl <;> exact builderNew_scoped hu hi (head_in ..)
  · obtain ⟨f, -, hx⟩ := List.mem_flatMap.mp hx
    simp only [List.mem_cons, List.not_mem_nil, or_false] at hx
    rcases hx with rfl | rfl
    · exact with_scoped (fieldHead_in ..) rfl
    · exact checkedWith_scoped (fieldHead_in ..) rfl

theorem type_core {n : String} {xs : List String} : typeScoped (allow n X) (namesTy ("core" :: xs)) = true := by
  simp [namesTy, typeScoped, typeScoped.typesScoped]

theorem type_builder {n : String} : typeScoped (allow n X) (namesTy [n ++ "Builder"]) = true := by
  simp [namesTy, typeScoped, typeScoped.typesScoped]

theorem storage_scoped {n : String} : typeScoped (allow n X) P.storageSyn = true := by
  unfold Printer.storageSyn
  split
  · have := fun k => type_named (n := n) (X := X) (t := .arr k) rfl
    simp [typeScoped, typeScoped.typesScoped, this]
  · exact type_backing

theorem debugField_scoped {need : List String} {x : String} {e : Expr} (hd : "debug" ∈ need) (he : SE X C need e) :
    SS X C need [] (.debugField x e) := by
  unfold SS
  unfold SE at he
  intro vs hv
  refine ⟨?_, fun _ h => by cases h⟩
  sc [hv _ hd, he vs hv, names]

theorem fmt_scoped : (P.fmtSyn C).scoped (allow C.name X) = true := by
  have hf : SS X C ["debug", "this"] [] (.all (P.B.fields.map fun f =>
      .seq (extractTok P.B f .bitfield false false false) (.debugField f.name (.var "value")))) :=
    mapAll fun f _ => SS.drop (SS.seq (extract_scoped (src := .bitfield) (b := false) (by simp [sourceName, base]))
      (debugField_scoped (by simp) (SE.var (by simp))))
  unfold SS at hf
  have h1 := (hf ["debug", "this", "f", "self"] (by simp)).1
  have h2 := (declared_sub (stmtSyn C (.all (P.B.fields.map fun f =>
      .seq (extractTok P.B f .bitfield false false false) (.debugField f.name (.var "value"))))) (vs := ["debug", "this", "f", "self"])
      (x := "debug") (by simp))
  have h3 := type_core (X := X) (n := C.name) (xs := ["fmt", "Formatter"])
  have h4 := type_core (X := X) (n := C.name) (xs := ["fmt", "Result"])
  simp only [SFn.scoped, Printer.fmtSyn, debugFn, stmtsScoped_append, declared_append, Bool.and_eq_true]
  simp only [stmtSyn, declared, Recv.names, List.map_cons, List.map_nil, List.cons_append, List.nil_append]
  refine ⟨⟨by simp [h3, typeScoped], h4⟩, ⟨⟨?_, ?_⟩, h1⟩, ?_⟩
  · sc [names]
  · sc [names]
  · sc [names, h2]

theorem build_scoped : P.buildSyn.scoped (allow P.name X) = true := by
  simp only [SFn.scoped, Printer.buildSyn, type_name]
  sc [names, Recv.names]

theorem items_scoped (h : Fits P C) (F : Feature) : ∀ i ∈ P.items C F, i.scoped (allow P.name P.userPath) = true := by
  have hu := defaultsIn_of h
  have hi := ignoredIn_of (X := P.userPath) h
  have hn := h.name
  intro i hx
  cases F with
  | constants | new | setters | getters | fromIntoBits | writeBitOps | setGetBitOps | clearBitOps | invertBitOps => cases hx
  | struct =>
    simp only [Printer.items] at hx
    split at hx
    · cases List.mem_singleton.mp hx
      exact storage_scoped
    · cases List.mem_singleton.mp hx
      simp only [SItem.scoped, List.all_eq_true]
      intro m hm
      rcases List.mem_cons.mp hm with rfl | hm
      · exact storage_scoped
      · obtain ⟨x, -, rfl⟩ := List.mem_map.mp hm
        exact type_data
  | fromTraits =>
    have h1 := type_backing (n := P.name) (X := P.userPath) (b := P.B.backing)
    have h2 : ∀ t, typeScoped (allow P.name P.userPath) t = true →
        typeScoped (allow P.name P.userPath) (.path [.name "core", .name "convert", .name "From"] [t]) = true := by
      intro t ht
      simp [typeScoped, typeScoped.typesScoped, ht]
    have h3 : (fnSyn C (traitHead .none "Self") (.impl .fromBacking) (traitFromFn P.B)).scoped (allow C.name P.userPath) = true :=
      traitFrom_scoped hi ⟨rfl, type_self⟩
    have h4 : (fnSyn C (traitHead .none P.name) (.impl .intoBacking) (traitIntoFn P.B)).scoped (allow C.name P.userPath) = true :=
      traitInto_scoped ⟨rfl, by rw [hn]; exact type_name⟩
    rw [hn] at h3 h4
    have h5 : ({ fnSyn C (traitHead .none P.name) (.impl .intoBacking) (traitIntoFn P.B) with ret := some (namesTy ["Self"]) } :
        SFn).scoped (allow P.name P.userPath) = true := by
      simp only [SFn.scoped, Bool.and_eq_true] at h4 ⊢
      exact ⟨⟨h4.1.1, type_self⟩, h4.2⟩
    simp only [Printer.items, List.mem_cons, List.not_mem_nil, or_false] at hx
    rcases hx with rfl | rfl
    · simp only [SItem.scoped, SMember.scoped, List.all_cons, List.all_nil, h2 _ h1, type_name, h3, Bool.and_true]
    · simp only [SItem.scoped, SMember.scoped, List.all_cons, List.all_nil, h2 _ type_name, h1, h5, Bool.and_true]
  | debug =>
    have h1 := fmt_scoped (P := P) (C := C) (X := P.userPath)
    rw [hn] at h1
    cases List.mem_singleton.mp hx
    simp only [SItem.scoped, SMember.scoped, List.all_cons, List.all_nil, type_core, type_name, h1, Bool.and_true]
  | default =>
    have h1 : (fnSyn C (traitHead .none P.name) (.impl .default) (defaultFn P.G)).scoped (allow C.name P.userPath) = true :=
      default_scoped (G := P.G) hu hi ⟨rfl, by rw [hn]; exact type_name⟩
    rw [hn] at h1
    cases List.mem_singleton.mp hx
    simp only [SItem.scoped, SMember.scoped, List.all_cons, List.all_nil, type_core, type_name, h1, Bool.and_true]
  | builder =>
    have h1 : (fnSyn C (traitHead .none "Self") (.impl .builderDefault) builderDefaultFn).scoped (allow C.name P.userPath) = true :=
      builderDefault_scoped ⟨rfl, type_self⟩
    have h2 : typeScoped (allow P.name P.userPath) (namesTy ["Default"]) = true := by
      simp [namesTy, typeScoped, typeScoped.typesScoped]
    have h3 := builder_scoped h
    rw [hn] at h1 h3
    simp only [Printer.items, List.mem_cons, List.not_mem_nil, or_false] at hx
    rcases hx with rfl | rfl | rfl
    · simp only [SItem.scoped, List.all_cons, List.all_nil, type_name, Bool.and_true]
    · simp only [SItem.scoped, SMember.scoped, List.all_cons, List.all_nil, type_builder, h1, h2, Bool.and_true]
    · simp only [SItem.scoped, type_builder, Bool.true_and, List.all_eq_true]
      intro m hm
      rcases List.mem_append.mp hm with hm | hm
      · obtain ⟨x, hx, rfl⟩ := List.mem_map.mp hm
        exact h3 x hx
      · cases List.mem_singleton.mp hm
        exact build_scoped

theorem expansion_scoped (h : Fits P C) : ∀ i ∈ P.expansion C, i.scoped (allow P.name P.userPath) = true := by
  intro i hx
  rcases List.mem_append.mp hx with hx | hx
  · rcases List.mem_append.mp hx with hx | hx
    · obtain ⟨F, -, hx⟩ := List.mem_flatMap.mp hx
      exact items_scoped h F i hx
    · cases List.mem_singleton.mp hx
      simp only [SItem.scoped, type_name, Bool.true_and, List.all_eq_true]
      intro m hm
      obtain ⟨F, -, hm⟩ := List.mem_flatMap.mp hm
      have hc : ∀ F' : Feature, m ∈ (P.fns F').map (fun x => SMember.fn (fnSyn C x.1 x.2.1 x.2.2)) →
          m.scoped (allow P.name P.userPath) = true := by
        intro F' hm
        obtain ⟨x, hx, rfl⟩ := List.mem_map.mp hm
        have := members_scoped h F' x hx
        rw [h.name] at this
        exact this
      cases F with
      | constants =>
        obtain ⟨f, -, hm⟩ := List.mem_flatMap.mp hm
        simp only [List.mem_cons, List.not_mem_nil, or_false] at hm
        rcases hm with rfl | rfl <;> simp [SMember.scoped, exprScoped]
      | _ => exact hc _ hm
  · obtain ⟨F, -, hx⟩ := List.mem_flatMap.mp hx
    exact items_scoped h F i hx

end Bf.Text
