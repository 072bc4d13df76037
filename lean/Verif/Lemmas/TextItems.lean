import Verif.Lemmas.TextOps

/-!
# Reading items
-/

namespace Bf.Text

open Rust Quote

set_option maxRecDepth 2000
set_option linter.unusedVariables false

variable {P : Printer} {C : Style}

/-! ## `impl` blocks -/

theorem parseMember_cls (n : Nat) (r : List Tok) : parseMember n (.cls .brace :: r) = none := by
  match n with
  | 0 | _ + 1 => rfl

theorem parseMembers_of (j n : Nat) (ts : List Tok) (ms : List SMember) (r : List Tok)
    (h : parseMemN j (n + j) ts = some (ms, r)) :
    parseMembers (n + j) ts = (parseMembers n r).map fun x => (ms ++ x.1, x.2) := by
  induction j generalizing ts ms with
  | zero =>
    cases h
    simp only [Nat.add_zero, List.nil_append]
    cases parseMembers n r <;> rfl
  | succ j ih =>
    have h : parseMemN (j + 1) (n + j + 1) ts = some (ms, r) := h
    simp only [parseMemN, Option.bind_eq_bind, Option.bind_eq_some_iff] at h
    obtain ⟨x, hx, y, hy, h⟩ := h
    cases h
    have := ih _ _ hy
    have e : parseMembers (n + j + 1) ts =
        (parseMember (n + j) ts).bind fun x => (parseMembers (n + j) x.2).bind fun y => some (x.1 :: y.1, y.2) := by
      match ts, hx with
      | [], _ => rfl
      | t :: ts, hx =>
        cases t
        case cls d =>
          cases d
          case brace => rw [parseMember_cls] at hx; cases hx
          all_goals rfl
        all_goals rfl
    show parseMembers (n + j + 1) ts = _
    rw [e, hx, Option.bind_some, this]
    cases parseMembers n y.2 <;> simp

/-! ## Lists of items -/

/-- Exactly `j` items. -/
def parseItemN : Nat → Nat → List Tok → Option (List SItem × List Tok)
  | 0, _, ts => some ([], ts)
  | _ + 1, 0, _ => none
  | j + 1, n + 1, ts => do
    let (m, r) ← parseItem n ts
    let (ms, r) ← parseItemN j n r
    return (m :: ms, r)

/-- Reading items. -/
def Itm (ts : List Tok) (is : List SItem) : Prop :=
  ∃ j K, ∀ n r, K ≤ n → parseItemN j (n + j) (ts ++ r) = some (is, r)

theorem Itm.cast {a b : List Tok} {A B : List SItem} (h : Itm a A) (e : a = b) (e' : A = B) : Itm b B := e ▸ e' ▸ h

theorem parseItemN_add (a b n : Nat) (ts : List Tok) :
    parseItemN (a + b) (n + b + a) ts =
      (parseItemN a (n + b + a) ts).bind fun x => (parseItemN b (n + b) x.2).map fun y => (x.1 ++ y.1, y.2) := by
  induction a generalizing ts with
  | zero =>
    simp only [Nat.zero_add, parseItemN, Option.bind_some, List.nil_append, Nat.add_zero]
    cases parseItemN b (n + b) ts <;> rfl
  | succ a ih =>
    have e : a + 1 + b = (a + b) + 1 := by omega
    rw [e]
    show parseItemN (a + b + 1) (n + b + a + 1) ts = (parseItemN (a + 1) (n + b + a + 1) ts).bind _
    simp only [parseItemN]
    cases h : parseItem (n + b + a) ts with
    | none => rfl
    | some x =>
      simp only [Option.bind_eq_bind, Option.bind_some, ih]
      cases parseItemN a (n + b + a) x.2 with
      | none => rfl
      | some y =>
        simp only [Option.bind_some, pure]
        cases parseItemN b (n + b) y.2 with
        | none => rfl
        | some z => simp

theorem Itm.append {a b : List Tok} {A B : List SItem} (ha : Itm a A) (hb : Itm b B) : Itm (a ++ b) (A ++ B) := by
  obtain ⟨i, K, ha⟩ := ha
  obtain ⟨j, L, hb⟩ := hb
  refine ⟨i + j, max K L, fun n r hn => ?_⟩
  have e : n + (i + j) = n + j + i := by omega
  rw [e, parseItemN_add, List.append_assoc, ha (n + j) (b ++ r) (by omega), Option.bind_some, hb n r (by omega)]
  rfl

theorem Itm.nil : Itm [] [] := ⟨0, 0, fun _ _ _ => rfl⟩

theorem Itm.joined {α : Type} (xs : List α) (f : α → List Tok) (g : α → List SItem)
    (h : ∀ x ∈ xs, Itm (f x) (g x)) : Itm (Text.joined (xs.map f)) (xs.flatMap g) := by
  induction xs with
  | nil => exact Itm.nil
  | cons x xs ih =>
    have e : Text.joined ((x :: xs).map f) = f x ++ Text.joined (xs.map f) := rfl
    rw [e, List.flatMap_cons]
    exact (h x List.mem_cons_self).append (ih fun y hy => h y (List.mem_cons_of_mem _ hy))

/-- An `impl`: what is before its members and its members. -/
theorem Itm.impl (K : Nat) {hd body : List Tok} {tr : Option SType} {t : SType} {ms : List SMember}
    (hh : ∀ n r, parseTop (n + K) (hd ++ r) = some (.inl (tr, t), r)) (hb : Mem body ms) :
    Itm (hd ++ (body ++ [.cls .brace])) [.impl tr t ms] := by
  obtain ⟨j, L, hb⟩ := hb
  refine ⟨1, max K (L + j + 1), fun n r hn => ?_⟩
  have h1 := hh (n - K) (body ++ .cls .brace :: r)
  rw [Nat.sub_add_cancel (by omega)] at h1
  have h2 := hb (n - j) (.cls .brace :: r) (by omega)
  obtain ⟨m, hm⟩ : ∃ m, n - j = m + 1 := ⟨n - j - 1, by omega⟩
  have h3 := parseMembers_of j (n - j) _ _ _ h2
  rw [Nat.sub_add_cancel (by omega), hm] at h3
  have h3 : parseMembers n (body ++ .cls .brace :: r) = some (ms, r) := by
    rw [h3]
    show some (ms ++ [], r) = _
    rw [List.append_nil]
  have e : hd ++ (body ++ [.cls .brace]) ++ r = hd ++ (body ++ .cls .brace :: r) := by simp
  have h4 : parseItem n (hd ++ (body ++ .cls .brace :: r)) = some (.impl tr t ms, r) := by
    simp only [parseItem, h1, Option.bind_eq_bind, Option.bind_some, h3]
    rfl
  show parseItemN 1 (n + 1) _ = _
  rw [e]
  simp only [parseItemN, h4]
  rfl

/-- A struct. -/
theorem Itm.top (K : Nat) {ts : List Tok} {i : SItem}
    (hh : ∀ n r, parseTop (n + K) (ts ++ r) = some (.inr i, r)) : Itm ts [i] := by
  refine ⟨1, K, fun n r hn => ?_⟩
  have h1 := hh (n - K) r
  rw [Nat.sub_add_cancel (by omega)] at h1
  show parseItemN 1 (n + 1) _ = _
  simp only [parseItemN, parseItem, h1]
  rfl

theorem parseItem_nil (n : Nat) : parseItem n [] = none := by
  match n with
  | 0 | _ + 1 => rfl

theorem parseItems_of (j n : Nat) (ts : List Tok) (is : List SItem) (h : parseItemN j (n + 1 + j) ts = some (is, [])) :
    parseItems (n + 1 + j) ts = some is := by
  induction j generalizing ts is with
  | zero => cases h; rfl
  | succ j ih =>
    have h : parseItemN (j + 1) (n + 1 + j + 1) ts = some (is, []) := h
    simp only [parseItemN, Option.bind_eq_bind, Option.bind_eq_some_iff] at h
    obtain ⟨x, hx, ⟨y1, y2⟩, hy, h⟩ := h
    cases h
    have := ih _ _ hy
    match ts, hx with
    | [], hx => rw [parseItem_nil] at hx; cases hx
    | t :: ts, hx =>
      show ((parseItem (n + 1 + j) (t :: ts)).bind fun x => (parseItems (n + 1 + j) x.2).bind fun y => some (x.1 :: y)) = _
      rw [hx, Option.bind_some, this]
      rfl

theorem Itm.all {ts : List Tok} {is : List SItem} (h : Itm ts is) : ∃ K, ∀ n, K ≤ n → parseItems n ts = some is := by
  obtain ⟨j, K, h⟩ := h
  refine ⟨K + j + 1, fun n hn => ?_⟩
  have h1 := h (n - j - 1 + 1) [] (by omega)
  rw [List.append_nil] at h1
  have h2 := parseItems_of j (n - j - 1) ts is h1
  have e : n - j - 1 + 1 + j = n := by omega
  rwa [e] at h2

/-! ## The struct -/

/-- An attribute in the code. -/
def attrTokens : StructAttr → List Tok
  | .user s => [.attr s]
  | a => .p .hash :: .opn .bracket :: (attrSyn a ++ [.cls .bracket])

theorem readAttrs_cons (a : StructAttr) (n : Nat) (r : List Tok) :
    readAttrs (n + 1) (attrTokens a ++ r) = (readAttrs n r).bind fun x => some (attrSyn a :: x.1, x.2) := by
  cases a <;> rfl

theorem readAttrs_all (as : List StructAttr) (v : Vis) (n : Nat) (r : List Tok) :
    readAttrs (n + 1 + as.length) (joined (as.map attrTokens) ++ .vis v :: r) = some (as.map attrSyn, .vis v :: r) := by
  induction as with
  | nil => rfl
  | cons a as ih =>
    have e : joined ((a :: as).map attrTokens) ++ .vis v :: r = attrTokens a ++ (joined (as.map attrTokens) ++ .vis v :: r) :=
      List.append_assoc _ _ _
    rw [e]
    show readAttrs (n + 1 + as.length + 1) _ = _
    rw [readAttrs_cons, ih]
    rfl

theorem attrs_eq (P : Printer) : joined (defaultAttrTokens P ++ P.attrs.map fun a => [Tok.attr a]) ++
      quote! "#[doc = \"Represents a bitfield.\"]" = joined (P.structAttrs.map attrTokens) := by
  have e : (P.structAttrs.map attrTokens) = defaultAttrTokens P ++ ((P.attrs.map fun a => [Tok.attr a]) ++
      [quote! "#[doc = \"Represents a bitfield.\"]"]) := by
    obtain ⟨⟨bk, flds, fe, ie, we, hp⟩, nm, vs, ats, ig, args, df, fv, cm⟩ := P
    unfold Printer.structAttrs defaultAttrTokens
    simp only [List.map_append, List.append_assoc, List.map_map]
    have e1 : ats.map (attrTokens ∘ StructAttr.user) = ats.map fun a => [Tok.attr a] := rfl
    rw [e1]
    cases ig <;> cases hc : args.copy <;> cases ha : args.arrayHeap <;> cases bk <;> rfl
  rw [e]
  have ha : ∀ a b : List (List Tok), joined (a ++ b) = joined a ++ joined b := by
    intro a b
    induction a with
    | nil => rfl
    | cons x a ih => show x ++ joined (a ++ b) = _; rw [ih]; exact (List.append_assoc _ _ _).symm
  rw [← List.append_assoc, ha, ha, ha]
  rfl

theorem parseDecls_ignored (ig : List (String × DataType × Vis)) (n : Nat) (r : List Tok) :
    parseDecls (n + (ig.length + 20)) (joinedComma (ig.map fun field =>
      (let v := Tok.vis field.2.2; let x := Tok.ident field.1; let t := typeTokens field.2.1; quote! "#v #x: #t")) ++
        .cls .brace :: r) = some (ig.map fun x => (some x.2.2, x.1, dataSyn x.2.1), r) := by
  induction ig with
  | nil => rfl
  | cons x ig ih =>
    have e : n + ((x :: ig).length + 20) = n + (ig.length + 20) + 1 := by rw [List.length_cons]; omega
    rw [e]
    have e1 : ∀ m r, parseType (m + 20) (typeTokens x.2.1 ++ .p .comma :: r) = some (dataSyn x.2.1, .p .comma :: r) := by
      intro m r
      rcases type_eq x.2.1 with ⟨s, e1, e2⟩ | ⟨n, e1, e2⟩ | ⟨c, e1, e2⟩ <;> rw [e1, e2] <;> rfl
    have e2 := e1 (n + ig.length) (joinedComma (ig.map fun field =>
      (let v := Tok.vis field.2.2; let x := Tok.ident field.1; let t := typeTokens field.2.1; quote! "#v #x: #t")) ++
        .cls .brace :: r)
    rw [Nat.add_assoc] at e2
    have e3 : ∀ (m : Nat) (ts : List Tok), parseDecls (m + 1) (.vis x.2.2 :: .ident x.1 :: .p .colon :: ts) =
        (parseType m ts).bind fun y => (match y.2 with
          | .p .comma :: r => (parseDecls m r).bind fun z => some ((some x.2.2, x.1, y.1) :: z.1, z.2)
          | r => (expectCls .brace r).bind fun r => some ([(some x.2.2, x.1, y.1)], r)) := fun _ _ => rfl
    have e4 : joinedComma ((x :: ig).map fun field =>
      (let v := Tok.vis field.2.2; let x := Tok.ident field.1; let t := typeTokens field.2.1; quote! "#v #x: #t")) ++
        .cls .brace :: r = .vis x.2.2 :: .ident x.1 :: .p .colon :: (typeTokens x.2.1 ++ .p .comma ::
          (joinedComma (ig.map fun field =>
      (let v := Tok.vis field.2.2; let x := Tok.ident field.1; let t := typeTokens field.2.1; quote! "#v #x: #t")) ++
        .cls .brace :: r)) := by
      simp [joinedComma, splice_list, splice_tok]
    rw [e4, e3, e2]
    simp only [Option.bind_some]
    rw [ih]
    rfl

theorem itm_struct (P : Printer) (C : Style) : Itm (structTokens P) (P.items C .struct) := by
  have hs : ∀ m (t : Tok) r, t = .cls .paren ∨ t = .p .comma →
      parseType (m + 20) (storageTokens P ++ t :: r) = some (P.storageSyn, t :: r) := by
    obtain ⟨⟨bk, flds, fe, ie, we, hp⟩, nm, vs, ats, ig, args, df, fv, cm⟩ := P
    intro m t r ht
    unfold storageTokens Printer.storageSyn
    rcases ht with rfl | rfl <;> cases ha : args.arrayHeap <;> cases bk <;> rfl
  cases hi : P.ignored with
  | nil =>
    have e : structTokens P = joined (P.structAttrs.map attrTokens) ++ .vis P.vis :: .kw .struct_ :: .ident P.name ::
        .opn .paren :: (storageTokens P ++ [.cls .paren, .p .semi]) := by
      rw [← attrs_eq]
      toks [structTokens, hi, List.isEmpty]
      rfl
    have e' : P.items C .struct = [.tuple (P.structAttrs.map attrSyn) (some P.vis) P.name P.storageSyn] := by
      simp only [Printer.items, hi]
    rw [e, e']
    refine Itm.top (20 + P.structAttrs.length) fun n r => ?_
    have h1 := readAttrs_all P.structAttrs P.vis (n + 19) (.kw .struct_ :: .ident P.name ::
        .opn .paren :: (storageTokens P ++ .cls .paren :: .p .semi :: r))
    have h2 := hs (n + P.structAttrs.length) (.cls .paren) (.p .semi :: r) (.inl rfl)
    have e1 : n + 19 + 1 + P.structAttrs.length = n + (20 + P.structAttrs.length) := by omega
    have e2 : n + P.structAttrs.length + 20 = n + (20 + P.structAttrs.length) := by omega
    rw [e1] at h1
    rw [e2] at h2
    have e3 : (joined (P.structAttrs.map attrTokens) ++ .vis P.vis :: .kw .struct_ :: .ident P.name ::
        .opn .paren :: (storageTokens P ++ [.cls .paren, .p .semi])) ++ r =
        joined (P.structAttrs.map attrTokens) ++ .vis P.vis :: .kw .struct_ :: .ident P.name ::
        .opn .paren :: (storageTokens P ++ .cls .paren :: .p .semi :: r) := by simp
    rw [e3]
    simp only [parseTop, h1, Option.bind_eq_bind, Option.bind_some, readVis, h2]
    rfl
  | cons i is =>
    have e : structTokens P = joined (P.structAttrs.map attrTokens) ++ .vis P.vis :: .kw .struct_ :: .ident P.name ::
        .opn .brace :: .ident "val" :: .p .colon :: (storageTokens P ++ .p .comma :: (joinedComma (memberTokens P) ++
          [.cls .brace])) := by
      rw [← attrs_eq]
      toks [structTokens, hi, List.isEmpty]
      rfl
    have e' : P.items C .struct = [.struct (P.structAttrs.map attrSyn) (some P.vis) P.name
        ((none, "val", P.storageSyn) :: P.ignored.map fun x => (some x.2.2, x.1, dataSyn x.2.1))] := by
      simp only [Printer.items, hi]
    rw [e, e']
    refine Itm.top (21 + P.ignored.length + P.structAttrs.length) fun n r => ?_
    have h1 := readAttrs_all P.structAttrs P.vis (n + 20 + P.ignored.length) (.kw .struct_ :: .ident P.name ::
        .opn .brace :: .ident "val" :: .p .colon :: (storageTokens P ++ .p .comma :: (joinedComma (memberTokens P) ++
          .cls .brace :: r)))
    have h2 := hs (n + P.ignored.length + P.structAttrs.length) (.p .comma) (joinedComma (memberTokens P) ++ .cls .brace :: r)
      (.inr rfl)
    have h3 := parseDecls_ignored P.ignored (n + P.structAttrs.length) r
    have e1 : n + 20 + P.ignored.length + 1 + P.structAttrs.length = n + P.ignored.length + P.structAttrs.length + 20 + 1 := by
      omega
    have e2 : n + P.structAttrs.length + (P.ignored.length + 20) = n + P.ignored.length + P.structAttrs.length + 20 := by
      omega
    have e0 : n + (21 + P.ignored.length + P.structAttrs.length) = n + P.ignored.length + P.structAttrs.length + 20 + 1 := by
      omega
    rw [e1] at h1
    rw [e2] at h3
    rw [e0]
    have e3 : (joined (P.structAttrs.map attrTokens) ++ .vis P.vis :: .kw .struct_ :: .ident P.name ::
        .opn .brace :: .ident "val" :: .p .colon :: (storageTokens P ++ .p .comma :: (joinedComma (memberTokens P) ++
          [.cls .brace]))) ++ r =
        joined (P.structAttrs.map attrTokens) ++ .vis P.vis :: .kw .struct_ :: .ident P.name ::
        .opn .brace :: .ident "val" :: .p .colon :: (storageTokens P ++ .p .comma :: (joinedComma (memberTokens P) ++
          .cls .brace :: r)) := by simp
    rw [e3]
    have h4 : ∀ m ts, parseDecls (m + 1) (.ident "val" :: .p .colon :: ts) =
        (parseType m ts).bind fun y => (match y.2 with
          | .p .comma :: r => (parseDecls m r).bind fun z => some ((none, "val", y.1) :: z.1, z.2)
          | r => (expectCls .brace r).bind fun r => some ([(none, "val", y.1)], r)) := fun _ _ => rfl
    simp only [parseTop, h1, Option.bind_eq_bind, Option.bind_some, readVis, h4, h2]
    rw [show memberTokens P = P.ignored.map fun field =>
      (let v := Tok.vis field.2.2; let x := Tok.ident field.1; let t := typeTokens field.2.1; quote! "#v #x: #t") from rfl, h3]
    rfl

end Bf.Text
