import Verif.Lemmas.TextItems
import Verif.SpecFlagText

/-!
# Reading a bitflag enum
-/

namespace Bf.Text

open Rust Quote

set_option maxRecDepth 2000

/-! ## Attributes -/

/-- `a` is an attribute that is read as `b`. -/
def OneAttr (a b : List Tok) : Prop :=
  ∀ n r, readAttrs (n + 1) (a ++ r) = (readAttrs n r).bind fun x => some (b :: x.1, x.2)

theorem readAttrs_of (as : List (List Tok × List Tok)) (h : ∀ a ∈ as, OneAttr a.1 a.2) (n : Nat) (t : Tok) (r : List Tok)
    (ht : readAttrs (n + 1) (t :: r) = some ([], t :: r)) :
    readAttrs (n + 1 + as.length) (joined (as.map Prod.fst) ++ t :: r) = some (as.map Prod.snd, t :: r) := by
  induction as with
  | nil => exact ht
  | cons a as ih =>
    have e : joined ((a :: as).map Prod.fst) ++ t :: r = a.1 ++ (joined (as.map Prod.fst) ++ t :: r) :=
      List.append_assoc _ _ _
    rw [e]
    show readAttrs (n + 1 + as.length + 1) _ = _
    rw [h a List.mem_cons_self, ih fun x hx => h x (List.mem_cons_of_mem _ hx)]
    rfl

theorem oneAttr_user (a : String) : OneAttr [.attr a] [.attr a] := fun _ _ => rfl

theorem oneAttr_repr (P : FlagPrinter) :
    OneAttr (reprTokens P) ([.ident "repr", .opn .paren] ++ typeTokens P.F.ty ++ [.cls .paren]) := by
  intro n r
  unfold reprTokens
  rcases type_eq P.F.ty with ⟨s, e, -⟩ | ⟨k, e, -⟩ | ⟨c, e, -⟩ <;> rw [e] <;> rfl

theorem joined_append (a b : List (List Tok)) : joined (a ++ b) = joined a ++ joined b := by
  induction a with
  | nil => rfl
  | cons x a ih => show x ++ joined (a ++ b) = _; rw [ih]; exact (List.append_assoc _ _ _).symm

/-- The attributes of the enum as they are printed and as they are read. -/
def flagAttrPairs (P : FlagPrinter) : List (List Tok × List Tok) :=
  (reprTokens P, [.ident "repr", .opn .paren] ++ typeTokens P.F.ty ++ [.cls .paren]) ::
  ((if P.F.args.copy then [(quote! "#[derive(std::marker::Copy, core::clone::Clone)]", attrSyn .deriveCopyClone)] else []) ++
    P.attrs.map fun a => ([.attr a], [.attr a]))

theorem flagAttrPairs_ok (P : FlagPrinter) : ∀ a ∈ flagAttrPairs P, OneAttr a.1 a.2 := by
  intro a ha
  rcases List.mem_cons.mp ha with rfl | ha
  · exact oneAttr_repr P
  · rcases List.mem_append.mp ha with ha | ha
    · split at ha
      · cases List.mem_singleton.mp ha
        exact fun _ _ => rfl
      · cases ha
    · obtain ⟨x, -, rfl⟩ := List.mem_map.mp ha
      exact oneAttr_user x

theorem flagAttrPairs_fst (P : FlagPrinter) : joined ((flagAttrPairs P).map Prod.fst) =
    reprTokens P ++ (flagCopyTokens P ++ joined (P.attrs.map fun a => [Tok.attr a])) := by
  have e : (flagAttrPairs P).map Prod.fst = reprTokens P :: ((if P.F.args.copy then
      [quote! "#[derive(std::marker::Copy, core::clone::Clone)]"] else []) ++ P.attrs.map fun a => [Tok.attr a]) := by
    unfold flagAttrPairs
    rw [List.map_cons, List.map_append, List.map_map]
    cases P.F.args.copy <;> rfl
  rw [e]
  show reprTokens P ++ joined (_ ++ _) = _
  rw [joined_append]
  unfold flagCopyTokens
  cases P.F.args.copy <;> rfl

/-! ## Constants -/

theorem Constant.before {ts : List Tok} {e : SExpr} (h : Constant ts e) (q : Punct) (hq : q = .comma ∨ q = .fat)
    (n : Nat) (r : List Tok) : parseBin (n + 20) true 2 (ts ++ .p q :: r) = some (e, .p q :: r) := by
  rcases hq with rfl | rfl <;> cases h <;> rfl

theorem Constant.isPat {ts : List Tok} {e : SExpr} (h : Constant ts e) : e.isPat = true := by
  cases h <;> rfl

/-! ## Variants -/

variable {P : FlagPrinter} {value : String → SExpr}

theorem parseVariants_of (vs : List FlagVariant) (M : Nat) (hM : ∀ v ∈ vs, v.attrs.length + 20 ≤ M)
    (hv : ∀ v ∈ vs, Constant (P.value v.name) (value v.name)) (n : Nat) (r : List Tok) :
    parseVariants (n + (vs.length + (M + 1))) (joinedComma (vs.map (variantTokens P)) ++ .cls .brace :: r) =
      some (vs.map fun v => (v.attrs.map fun a => [.attr a], v.name, value v.name), r) := by
  induction vs with
  | nil => rfl
  | cons v vs ih =>
    have ih := ih (fun x hx => hM x (List.mem_cons_of_mem _ hx)) fun x hx => hv x (List.mem_cons_of_mem _ hx)
    have e : n + ((v :: vs).length + (M + 1)) = n + (vs.length + (M + 1)) + 1 := by rw [List.length_cons]; omega
    rw [e]
    generalize hk : n + (vs.length + (M + 1)) = k at ih
    have hM := hM v List.mem_cons_self
    generalize hrest : joinedComma (vs.map (variantTokens P)) ++ .cls .brace :: r = rest at ih
    have e1 : joinedComma ((v :: vs).map (variantTokens P)) ++ .cls .brace :: r =
        joined ((v.attrs.map fun a => ([Tok.attr a], [Tok.attr a])).map Prod.fst) ++ .ident v.name ::
          (.p .eq :: (P.value v.name ++ .p .comma :: rest)) := by
      rw [← hrest, List.map_map]
      show joinedComma (variantTokens P v :: vs.map (variantTokens P)) ++ _ = _
      simp only [joinedComma, variantTokens, splice_list, splice_tok, List.append_assoc, List.cons_append,
        List.nil_append]
      rfl
    have h1 := readAttrs_of (v.attrs.map fun a => ([Tok.attr a], [Tok.attr a]))
      (fun a ha => by obtain ⟨x, -, rfl⟩ := List.mem_map.mp ha; exact oneAttr_user x) (k - v.attrs.length - 1)
      (.ident v.name) (.p .eq :: (P.value v.name ++ .p .comma :: rest)) rfl
    have e2 : k - v.attrs.length - 1 + 1 + (v.attrs.map fun a => ([Tok.attr a], [Tok.attr a])).length = k := by
      rw [List.length_map]; omega
    rw [e2] at h1
    have h2 := (hv v List.mem_cons_self).before .comma (.inl rfl) (k - 20) rest
    rw [Nat.sub_add_cancel (by omega)] at h2
    have step : ∀ ts : List Tok, (∀ r', ts ≠ .cls .brace :: r') → parseVariants (k + 1) ts =
        (readAttrs k ts).bind fun y => (match y.2 with
          | .ident x :: .p .eq :: r => (parseBin k true 2 r).bind fun z => (match z.2 with
            | .p .comma :: r => (parseVariants k r).bind fun u => some ((y.1, x, z.1) :: u.1, u.2)
            | r => (expectCls .brace r).bind fun r => some ([(y.1, x, z.1)], r))
          | _ => none) := by
      intro ts hts
      match ts with
      | [] => rfl
      | t :: ts =>
        cases t
        case cls d =>
          cases d
          case brace => exact absurd rfl (hts _)
          all_goals rfl
        all_goals rfl
    rw [e1, step, h1]
    · simp only [Option.bind_some]
      rw [h2]
      simp only [Option.bind_some]
      rw [ih]
      simp only [Option.bind_some, List.map_map]
      rfl
    · intro r'
      cases v.attrs <;> exact fun h => by cases h

/-! ## Arms -/

theorem parseArms_of (as : List (List Tok × SExpr × String)) (ha : ∀ a ∈ as, Constant a.1 a.2.1) (w : String) (n : Nat)
    (r : List Tok) :
    parseArms (n + (as.length + 30)) (joinedComma (as.map (fun a => a.1 ++ [.p .fat, .ident "Self", .p .path, .ident a.2.2]) ++
        [[.ident "_", .p .fat, .ident "Self", .p .path, .ident w]]) ++ .cls .brace :: r) =
      some (as.map (fun a => (a.2.1, names ["Self", a.2.2])) ++ [(names ["_"], names ["Self", w])], r) := by
  induction as with
  | nil => krfl
  | cons a as ih =>
    have ih := ih fun x hx => ha x (List.mem_cons_of_mem _ hx)
    have e : n + ((a :: as).length + 30) = n + (as.length + 30) + 1 := by rw [List.length_cons]; omega
    rw [e]
    generalize hk : n + (as.length + 30) = k at ih
    generalize hrest : joinedComma (as.map (fun a => a.1 ++ [.p .fat, .ident "Self", .p .path, .ident a.2.2]) ++
        [[.ident "_", .p .fat, .ident "Self", .p .path, .ident w]]) ++ .cls .brace :: r = rest at ih
    have e1 : joinedComma ((a :: as).map (fun a => a.1 ++ [.p .fat, .ident "Self", .p .path, .ident a.2.2]) ++
        [[.ident "_", .p .fat, .ident "Self", .p .path, .ident w]]) ++ .cls .brace :: r =
        a.1 ++ .p .fat :: .ident "Self" :: .p .path :: .ident a.2.2 :: .p .comma :: rest := by
      rw [← hrest]
      show a.1 ++ [.p .fat, .ident "Self", .p .path, .ident a.2.2] ++ .p .comma :: joinedComma _ ++ _ = _
      simp
    have hc := ha a List.mem_cons_self
    have h1 := hc.before .fat (.inr rfl) (k - 20) (.ident "Self" :: .p .path :: .ident a.2.2 :: .p .comma :: rest)
    have h2 := (Constant.path "Self" a.2.2).before .comma (.inl rfl) (k - 20) rest
    rw [Nat.sub_add_cancel (by omega)] at h1 h2
    have step : ∀ ts : List Tok, (∀ r', ts ≠ .cls .brace :: r') → parseArms (k + 1) ts =
        (parseBin k true 2 ts).bind fun y => (expectP .fat y.2).bind fun r => (parseBin k true 2 r).bind fun z =>
          if y.1.isPat then (match z.2 with
            | .p .comma :: r => (parseArms k r).bind fun u => some ((y.1, z.1) :: u.1, u.2)
            | r => (expectCls .brace r).bind fun r => some ([(y.1, z.1)], r))
          else none := by
      intro ts hts
      match ts with
      | [] => rfl
      | t :: ts =>
        cases t
        case cls d =>
          cases d
          case brace => exact absurd rfl (hts _)
          all_goals rfl
        all_goals rfl
    rw [e1, step, h1]
    · have h2 : parseBin k true 2 (.ident "Self" :: .p .path :: .ident a.2.2 :: .p .comma :: rest) =
          some (names ["Self", a.2.2], .p .comma :: rest) := h2
      have e3 : ∀ r, expectP .fat (.p .fat :: r) = some r := fun _ => rfl
      simp only [Option.bind_some, e3, h2, hc.isPat, if_true, ih]
      rfl
    · intro r'
      obtain ⟨t, x, y⟩ := a
      cases hc <;> exact fun h => by cases h

/-! ## Functions -/

theorem swap_seq (e : Endian) : Seq (flagConvTokens e) (swapSyn e) := by
  cases e
  · exact Seq.mk 1 20 (fun _ _ _ => rfl) fun _ _ => trivial
  · exact Seq.nil

theorem match_body (as : List (List Tok × SExpr × String)) (ha : ∀ a ∈ as, Constant a.1 a.2.1) (w : String) :
    Body (.kw .match_ :: .ident "bits" :: .opn .brace :: (joinedComma
        (as.map (fun a => a.1 ++ [.p .fat, .ident "Self", .p .path, .ident a.2.2]) ++
        [[.ident "_", .p .fat, .ident "Self", .p .path, .ident w]]) ++ [.cls .brace]))
      [.expr (.matching (names ["bits"]) (as.map (fun a => (a.2.1, names ["Self", a.2.2])) ++
        [(names ["_"], names ["Self", w])])) false] := by
  refine Body.mk (as.length + 33) (fun n r => ?_) fun _ => trivial
  have h := parseArms_of as ha w n (.cls .brace :: r)
  have step : ∀ (k : Nat) (ts : List Tok), parseStmts (k + 30 + 3) (.kw .match_ :: .ident "bits" :: .opn .brace :: ts) =
      (parseArms (k + 30) ts).bind fun a => (parseStmts (k + 32) a.2).bind fun b =>
        some (.expr (.matching (names ["bits"]) a.1) false :: b.1, b.2) := by
    intro k ts
    show ((parseStmt (k + 32) (.kw .match_ :: .ident "bits" :: .opn .brace :: ts)).bind fun s =>
      (parseStmts (k + 32) s.2).bind fun b => some (s.1 ++ b.1, b.2)) = _
    show (((parsePrimary (k + 31) true (.kw .match_ :: .ident "bits" :: .opn .brace :: ts)).bind fun s =>
      some ([.expr s.1 false], s.2)).bind fun s =>
      (parseStmts (k + 32) s.2).bind fun b => some (s.1 ++ b.1, b.2)) = _
    show ((((parseArms (k + 30) ts).bind fun s => some (.matching (names ["bits"]) s.1, s.2)).bind fun s =>
      some ([.expr s.1 false], s.2)).bind fun s =>
      (parseStmts (k + 32) s.2).bind fun b => some (s.1 ++ b.1, b.2)) = _
    cases parseArms (k + 30) ts <;> rfl
  have e : n + (as.length + 33) = n + as.length + 30 + 3 := by omega
  have e' : n + (as.length + 30) = n + as.length + 30 := by omega
  rw [e'] at h
  simp only [List.cons_append, List.append_assoc, List.nil_append]
  rw [e, step, h]
  rfl

theorem generate_of {F : Bitflag} {c : FlagCode} (h : generateBitflag F = .ok c) :
    ∃ w, (F.variants.find? FlagVariant.base).or (F.variants.find? FlagVariant.default) = some w ∧ c = {
      repr := F.ty
      copy := F.args.copy
      vis := F.vis
      variants := F.variants.map fun v => (v.name, v.attrs, v.value)
      cases := { arms := (F.variants.filter fun v => !v.base).map fun v => (v.value, v.name), wildcard := w.name }
      fromEndian := F.args.fromEndian
      intoEndian := F.args.intoEndian } := by
  unfold generateBitflag matchCases at h
  cases hw : (F.variants.find? FlagVariant.base).or (F.variants.find? FlagVariant.default) with
  | none => simp only [hw] at h; cases h
  | some w => simp only [hw] at h; cases h; exact ⟨w, rfl, rfl⟩

theorem cases_eq {c : FlagCode} (h : generateBitflag P.F = .ok c) (value : String → SExpr) :
    casesTokens P = .ok ((c.cases.arms.map fun a => (P.value a.2, value a.2, a.2)).map
        (fun a => a.1 ++ [.p .fat, .ident "Self", .p .path, .ident a.2.2]) ++
        [[.ident "_", .p .fat, .ident "Self", .p .path, .ident c.cases.wildcard]]) := by
  obtain ⟨w, hw, rfl⟩ := generate_of h
  unfold casesTokens
  simp only [hw, List.map_map]
  rfl

/-- What the code prints for `from_bits`. -/
theorem mem_from {c : FlagCode} (h : generateBitflag P.F = .ok c)
    (hv : ∀ v ∈ P.F.variants, Constant (P.value v.name) (value v.name)) :
    ∃ ts, flagFromTokens P = .ok ts ∧ Mem ts [.fn (fromBitsSyn value c)] := by
  have hc := cases_eq h value
  obtain ⟨w, hw, hcd⟩ := generate_of h
  refine ⟨_, by unfold flagFromTokens; rw [hc]; rfl, ?_⟩
  have ha : ∀ a ∈ c.cases.arms.map (fun a => (P.value a.2, value a.2, a.2)), Constant a.1 a.2.1 := by
    intro a ha
    obtain ⟨x, hx, rfl⟩ := List.mem_map.mp ha
    rw [hcd] at hx
    obtain ⟨v, hv', rfl⟩ := List.mem_map.mp hx
    exact hv v (List.mem_filter.mp hv').1
  have hb := (swap_seq c.fromEndian).body (match_body _ ha c.cases.wildcard)
  have hh : ∀ n r, parseOpen (n + 20) ((.p .hash :: .opn .bracket :: .ident "doc" :: .p .eq ::
      .str "Creates a new bitflag instance from the given bits." :: .cls .bracket :: .vis c.vis :: .kw .const_ :: .kw .fn_ ::
      .ident "from_bits" :: .opn .paren :: .ident "bits" :: .p .colon :: (typeTokens c.repr ++
        [.cls .paren, .p .arrow, .ident "Self", .opn .brace])) ++ r) =
      some (.inl ⟨some c.vis, true, "from_bits", .none, [("bits", dataSyn c.repr)], some (namesTy ["Self"]), []⟩, r) := by
    intro n r
    rcases type_eq c.repr with ⟨s, e1, e2⟩ | ⟨k, e1, e2⟩ | ⟨k, e1, e2⟩ <;> rw [e1, e2] <;> krfl
  refine (Mem.fn 20 hh hb).cast ?_ ?_
  · have e1 : c.vis = P.F.vis := by rw [hcd]
    have e2 : c.repr = P.F.ty := by rw [hcd]
    have e3 : c.fromEndian = P.F.args.fromEndian := by rw [hcd]
    rw [e1, e2, e3]
    simp only [splice_list, splice_tok, List.append_assoc, List.cons_append, List.nil_append]
  · simp only [fromBitsSyn, List.map_map]
    rfl

theorem mem_into {c : FlagCode} (h : generateBitflag P.F = .ok c) : Mem (flagIntoTokens P) [.fn (intoBitsSyn c)] := by
  obtain ⟨w, -, hcd⟩ := generate_of h
  have hs : Seq (.kw .let_ :: .ident "bits" :: .p .eq :: .ident "self" :: .kw .as_ :: (typeTokens c.repr ++ [.p .semi]))
      [.letS "bits" none (.cast (names ["self"]) (dataSyn c.repr))] := by
    refine Seq.mk 1 20 (fun n r _ => ?_) fun _ _ => trivial
    rcases type_eq c.repr with ⟨s, e1, e2⟩ | ⟨k, e1, e2⟩ | ⟨k, e1, e2⟩ <;> rw [e1, e2] <;> krfl
  have he : Body [.ident "bits"] [.expr (names ["bits"]) false] :=
    Body.mk 20 (fun _ _ => by krfl) fun _ => trivial
  have hb := hs.body ((swap_seq c.intoEndian).body he)
  have hh : ∀ n r, parseOpen (n + 20) ((.p .hash :: .opn .bracket :: .ident "doc" :: .p .eq ::
      .str "Returns the bits of the bitflag." :: .cls .bracket :: .vis c.vis :: .kw .const_ :: .kw .fn_ ::
      .ident "into_bits" :: .opn .paren :: .ident "self" :: .cls .paren :: .p .arrow :: (typeTokens c.repr ++
        [.opn .brace])) ++ r) =
      some (.inl ⟨some c.vis, true, "into_bits", .value, [], some (dataSyn c.repr), []⟩, r) := by
    intro n r
    rcases type_eq c.repr with ⟨s, e1, e2⟩ | ⟨k, e1, e2⟩ | ⟨k, e1, e2⟩ <;> rw [e1, e2] <;> krfl
  refine (Mem.fn 20 hh hb).cast ?_ ?_
  · have e1 : c.vis = P.F.vis := by rw [hcd]
    have e2 : c.repr = P.F.ty := by rw [hcd]
    have e3 : c.intoEndian = P.F.args.intoEndian := by rw [hcd]
    unfold flagIntoTokens
    rw [e1, e2, e3]
    simp only [splice_list, splice_tok, List.append_assoc, List.cons_append, List.nil_append]
  · rfl

/-! ## The items -/

theorem exists_bound (vs : List FlagVariant) : ∃ M, ∀ v ∈ vs, v.attrs.length + 20 ≤ M := by
  induction vs with
  | nil => exact ⟨0, fun _ h => by cases h⟩
  | cons v vs ih =>
    obtain ⟨M, h⟩ := ih
    refine ⟨M + v.attrs.length + 20, fun x hx => ?_⟩
    rcases List.mem_cons.mp hx with rfl | hx
    · omega
    · have := h x hx
      omega

theorem itm_flag {c : FlagCode} (h : generateBitflag P.F = .ok c)
    (hv : ∀ v ∈ P.F.variants, Constant (P.value v.name) (value v.name)) :
    ∃ ts, flagTokens P = .ok ts ∧ Itm ts (flagItems P.name P.attrs value c) := by
  obtain ⟨fs, hfs, hf⟩ := mem_from h hv
  have hi := mem_into h
  obtain ⟨w, -, hcd⟩ := generate_of h
  refine ⟨_, by unfold flagTokens; rw [hfs]; rfl, ?_⟩
  obtain ⟨M, hM⟩ := exists_bound P.F.variants
  have htop : ∀ n r, parseTop (n + (P.F.variants.length + (M + 1) + (flagAttrPairs P).length))
      ((joined ((flagAttrPairs P).map Prod.fst) ++ .vis P.F.vis :: .kw .enum_ :: .ident P.name :: .opn .brace ::
        (joinedComma (P.F.variants.map (variantTokens P)) ++ [.cls .brace])) ++ r) =
      some (.inr (.enum (flagAttrs P.attrs c) (some c.vis) P.name
        (c.variants.map fun v => (v.2.1.map fun a => [.attr a], v.1, value v.1))), r) := by
    intro n r
    have h1 := readAttrs_of (flagAttrPairs P) (flagAttrPairs_ok P) (n + (P.F.variants.length + M)) (.vis P.F.vis)
      (.kw .enum_ :: .ident P.name :: .opn .brace ::
        (joinedComma (P.F.variants.map (variantTokens P)) ++ .cls .brace :: r)) rfl
    have h2 := parseVariants_of (P := P) (value := value) P.F.variants M hM hv (n + (flagAttrPairs P).length) r
    have e1 : n + (P.F.variants.length + M) + 1 + (flagAttrPairs P).length =
      n + (P.F.variants.length + (M + 1) + (flagAttrPairs P).length) := by omega
    have e2 : n + (flagAttrPairs P).length + (P.F.variants.length + (M + 1)) =
      n + (P.F.variants.length + (M + 1) + (flagAttrPairs P).length) := by omega
    rw [e1] at h1
    rw [e2] at h2
    have e3 : (joined ((flagAttrPairs P).map Prod.fst) ++ .vis P.F.vis :: .kw .enum_ :: .ident P.name :: .opn .brace ::
        (joinedComma (P.F.variants.map (variantTokens P)) ++ [.cls .brace])) ++ r =
        joined ((flagAttrPairs P).map Prod.fst) ++ .vis P.F.vis :: .kw .enum_ :: .ident P.name :: .opn .brace ::
        (joinedComma (P.F.variants.map (variantTokens P)) ++ .cls .brace :: r) := by simp
    rw [e3]
    simp only [parseTop, h1, Option.bind_eq_bind, Option.bind_some, readVis, h2]
    have e4 : (flagAttrPairs P).map Prod.snd = flagAttrs P.attrs c := by
      rw [hcd]
      unfold flagAttrPairs flagAttrs
      cases P.F.args.copy <;> simp only [List.map_cons, List.map_append, List.map_map, List.map_nil, if_true,
        Bool.false_eq_true, if_false] <;> rfl
    rw [e4, hcd]
    simp only [List.map_map]
    rfl
  have himpl : ∀ n r, parseTop (n + 20) ([.kw .impl_, .ident P.name, .opn .brace] ++ r) =
      some (.inl (none, namesTy [P.name]), r) := fun _ _ => rfl
  refine ((Itm.top _ htop).append (Itm.impl 20 himpl (hf.append hi))).cast ?_ rfl
  rw [flagAttrPairs_fst]
  simp only [splice_list, splice_tok, List.append_assoc, List.cons_append, List.nil_append]

/-! ## Running the functions -/

theorem run_from {c : FlagCode} {val : SExpr → Nat} {w : Nat} (hw : ∀ a ∈ c.cases.arms, (value a.2).isWild = false)
    (hval : ∀ a ∈ c.cases.arms, val (value a.2) = a.1) (bits : BitVec w) :
    runFrom val (fromBitsSyn value c).body bits = some (names ["Self", flagFromBits c bits]) := by
  have key : ∀ b : BitVec w, runFrom val [.expr (.matching (names ["bits"])
      (c.cases.arms.map (fun a => (value a.2, names ["Self", a.2])) ++
        [(names ["_"], names ["Self", c.cases.wildcard])])) false] b = some (names ["Self", c.cases.run b]) := by
    intro b
    have e : ∀ as : List (Nat × String), (∀ a ∈ as, (value a.2).isWild = false) → (∀ a ∈ as, val (value a.2) = a.1) →
        ((as.map (fun a => (value a.2, names ["Self", a.2])) ++
          [(names ["_"], names ["Self", c.cases.wildcard])]).find? fun a =>
            a.1.isWild || BitVec.ofNat w (val a.1) == b).map Prod.snd =
        some (names ["Self", ((as.find? fun arm => BitVec.ofNat w arm.1 == b).map Prod.snd).getD c.cases.wildcard]) := by
      intro as h1 h2
      induction as with
      | nil => rfl
      | cons a as ih =>
        have ih := ih (fun x hx => h1 x (List.mem_cons_of_mem _ hx)) fun x hx => h2 x (List.mem_cons_of_mem _ hx)
        simp only [List.map_cons, List.cons_append, List.find?_cons, h1 a List.mem_cons_self, h2 a List.mem_cons_self,
          Bool.false_or]
        cases BitVec.ofNat w a.1 == b
        · exact ih
        · rfl
    have e := e _ hw hval
    unfold FlagMatch.run
    show (if SExpr.isVar "bits" (names ["bits"]) then _ else none) = _
    rw [if_pos (show SExpr.isVar "bits" (names ["bits"]) = true from by decide), e]
    cases c.cases.arms.find? fun arm => BitVec.ofNat w arm.1 == b <;> rfl
  unfold flagFromBits fromBitsSyn
  cases c.fromEndian
  · exact key _
  · exact key _

theorem run_into {c : FlagCode} {w : Nat} (d : BitVec w) :
    runInto d (intoBitsSyn c).body = some (bitsConv c.intoEndian d) := by
  unfold intoBitsSyn
  cases c.intoEndian <;> rfl

end Bf.Text
