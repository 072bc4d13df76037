import Verif.Lemmas.TextSet

/-!
# Reading what generator_helper.rs prints: struct literals and masks
-/

namespace Bf.Text

open Rust Quote

variable {P : Printer} {C : Style}

/-! ## Struct literals -/

theorem parse_ignored (x : String × DataType × Vis) (hx : ∀ n, x.2.1 ≠ .array n) (n : Nat) (r : List Tok) :
    ∃ ts, (match x.2.1 with
        | .int _ => Splice.splice (Tok.ident x.1) ++ .p .colon :: .p .lt :: (Splice.splice (typeTokens x.2.1) ++
            [.p .gt, .p .path, .ident "default", .opn .paren, .cls .paren])
        | _ => Splice.splice (Tok.ident x.1) ++ .p .colon :: (Splice.splice (typeTokens x.2.1) ++
            [.p .path, .ident "default", .opn .paren, .cls .paren])) = .ident x.1 :: .p .colon :: ts ∧
      parseBin (n + 20) true 2 (ts ++ .p .comma :: r) = some (defaultSyn x.2.1, .p .comma :: r) := by
  obtain ⟨x, t, v⟩ := x
  cases t with
  | int t =>
    refine ⟨_, rfl, ?_⟩
    cases t <;> krfl
  | array k => exact absurd rfl (hx k)
  | custom c => exact ⟨_, rfl, by krfl⟩

theorem parseFields_cons {n : Nat} {x : String} {big r r' : List Tok} {e : SExpr} {fs : List (String × SExpr)}
    (h1 : parseBin n true 2 big = some (e, .p .comma :: r)) (h2 : parseFields n r = some (fs, r')) :
    parseFields (n + 1) (.ident x :: .p .colon :: big) = some ((x, e) :: fs, r') := by
  simp only [parseFields, h1, Option.bind_eq_bind, Option.bind_some, h2]
  rfl

theorem parse_ignoreds (ig : List (String × DataType × Vis)) (h : ∀ x ∈ ig, ∀ n, x.2.1 ≠ .array n) (P : Printer)
    (n : Nat) (r : List Tok) :
    parseFields (n + (21 + ig.length)) (joinedComma (ignoredDefaultTokens { P with ignored := ig }) ++ .cls .brace :: r) =
      some (ig.map fun x => (x.1, defaultSyn x.2.1), r) := by
  induction ig generalizing n with
  | nil => rfl
  | cons x xs ih =>
    obtain ⟨ts, e, hp⟩ := parse_ignored x (h x List.mem_cons_self) (n + xs.length + 1)
      (joinedComma (ignoredDefaultTokens { P with ignored := xs }) ++ .cls .brace :: r)
    have e' : joinedComma (ignoredDefaultTokens { P with ignored := x :: xs }) =
        (.ident x.1 :: .p .colon :: ts) ++ .p .comma :: joinedComma (ignoredDefaultTokens { P with ignored := xs }) := by
      rw [← e]; rfl
    have hih := ih (fun y hy => h y (List.mem_cons_of_mem _ hy)) n
    have hp : parseBin (n + (21 + xs.length)) true 2 (ts ++ .p .comma ::
        (joinedComma (ignoredDefaultTokens { P with ignored := xs }) ++ .cls .brace :: r)) =
          some (defaultSyn x.2.1, .p .comma ::
            (joinedComma (ignoredDefaultTokens { P with ignored := xs }) ++ .cls .brace :: r)) := by
      have e2 : n + (21 + xs.length) = n + xs.length + 1 + 20 := by omega
      rw [e2]; exact hp
    have := parseFields_cons (x := x.1) hp hih
    rw [e', List.append_assoc]
    exact this

/-- The initial value of the bits, GH:49-66 -/
def initValue : Backing → Bool → List Tok
  | .int _, _ => [.int 0 ""]
  | .arr n, false => [.opn .bracket, .int 0 "u8", .p .semi, .int n "usize", .cls .bracket]
  | .arr n, true => [.p .path, .ident "std", .p .path, .ident "boxed", .p .path, .ident "Box", .p .path,
      .ident "new", .opn .paren, .opn .bracket, .int 0 "u8", .p .semi, .int n "usize", .cls .bracket, .cls .paren]

theorem seq_init (h : Fits P C) (builder : Bool) (o : Option (List Tok)) (mu : Bool)
    (ho : o = none ∧ mu = false ∨ o = some [.kw .mut_] ∧ mu = true) :
    Seq (.kw .let_ :: (Splice.splice o ++ .ident "this" :: .p .eq :: (initTokens P builder ++ [.p .semi])))
      (stmtSyn C (initTok P.B builder mu)) := by
  open_style h
  cases ig with
  | nil =>
    rcases ho with ⟨rfl, rfl⟩ | ⟨rfl, rfl⟩ <;> cases bk with
    | int w => cases builder <;> seq 1 30
    | arr k => cases hp <;> cases builder <;> seq 1 30
  | cons x xs =>
    have hv : ∃ e, exprSyn ⟨nm, (x :: xs).map fun x => (x.1, defaultSyn x.2.1), cu⟩
          (match bk with
           | .int _ => .lit 0 none
           | .arr n => if hp then .boxNew (.zeros n) else .zeros n) = e ∧
        ∀ n r, parseBin (n + 20) true 2 (initValue bk hp ++ .p .comma :: r) = some (e, .p .comma :: r) := by
      cases bk with
      | int w => exact ⟨_, rfl, fun n r => by krfl⟩
      | arr k => cases hp <;> exact ⟨_, rfl, fun n r => by krfl⟩
    obtain ⟨e, he, hv⟩ := hv
    let Q : Printer := ⟨⟨bk, flds, fe, ie, we, hp⟩, nm, vs, ats, x :: xs, args, df, fv, cm⟩
    have key : ∀ n r, parseBin (n + (30 + (x :: xs).length)) true 2
        (.ident (selfName ⟨nm, [], cu⟩ builder) :: .opn .brace :: .ident "val" :: .p .colon ::
          (initValue bk hp ++ .p .comma :: (joinedComma (ignoredDefaultTokens Q) ++ .cls .brace :: .p .semi :: r))) =
        some (.struct [.name (selfName ⟨nm, [], cu⟩ builder)]
          (("val", e) :: (x :: xs).map fun x => (x.1, defaultSyn x.2.1)), .p .semi :: r) := by
      intro n r
      have h1 := parse_ignoreds (x :: xs) hna Q (n + 5) (.p .semi :: r)
      have h2 := hv (n + (x :: xs).length + 6)
        (joinedComma (ignoredDefaultTokens Q) ++ .cls .brace :: .p .semi :: r)
      have e1 : n + 5 + (21 + (x :: xs).length) = n + (x :: xs).length + 26 := by omega
      have e2 : n + (30 + (x :: xs).length) = n + (x :: xs).length + 30 := by omega
      rw [e1] at h1
      have h3 : parseFields (n + (x :: xs).length + 27) (.ident "val" :: .p .colon ::
          (initValue bk hp ++ .p .comma :: (joinedComma (ignoredDefaultTokens Q) ++ .cls .brace :: .p .semi :: r))) =
          some (("val", e) :: (x :: xs).map fun x => (x.1, defaultSyn x.2.1), .p .semi :: r) := by
        exact parseFields_cons h2 h1
      rw [e2]
      generalize n + (x :: xs).length = m at h3 ⊢
      generalize initValue bk hp ++ .p .comma ::
        (joinedComma (ignoredDefaultTokens Q) ++ .cls .brace :: .p .semi :: r) = big at h3 ⊢
      show ((parsePrimary (m + 28) true (.ident _ :: .opn .brace :: .ident "val" :: .p .colon :: big)).bind
        fun x => suffixes (m + 28) x.1 x.2).bind (fun x => climb (m + 29) true 2 x.1 x.2) = _
      have h4 : parsePrimary (m + 28) true (.ident (selfName ⟨nm, [], cu⟩ builder) :: .opn .brace :: .ident "val" ::
          .p .colon :: big) = some (.struct [.name (selfName ⟨nm, [], cu⟩ builder)]
          (("val", e) :: (x :: xs).map fun x => (x.1, defaultSyn x.2.1)), .p .semi :: r) := by
        show (parseFields (m + 27) (.ident "val" :: .p .colon :: big)).bind
          (fun x => some (SExpr.struct [.name (selfName ⟨nm, [], cu⟩ builder)] x.1, x.2)) = _
        rw [h3]
        rfl
      rw [h4]
      rfl
    refine Seq.mk 1 (32 + (x :: xs).length) (fun n r hr => ?_) (fun _ _ => trivial)
    have hb := key n r
    have e1 : n + (32 + (x :: xs).length + 1) = n + (30 + (x :: xs).length) + 1 + 1 + 1 := by omega
    have e2 : n + (30 + (x :: xs).length) + 1 = (n + 1) + (30 + (x :: xs).length) := by omega
    have hst : parseStmt (n + (30 + (x :: xs).length) + 1 + 1)
        (.kw .let_ :: (Splice.splice o ++ .ident "this" :: .p .eq ::
          (.ident (selfName ⟨nm, [], cu⟩ builder) :: .opn .brace :: .ident "val" :: .p .colon ::
          (initValue bk hp ++ .p .comma :: (joinedComma (ignoredDefaultTokens Q) ++ .cls .brace :: .p .semi :: r))))) =
        some ([.letS "this" none (.struct [.name (selfName ⟨nm, [], cu⟩ builder)]
          (("val", e) :: (x :: xs).map fun x => (x.1, defaultSyn x.2.1))) mu], r) := by
      have hb := key (n + 1) r
      rw [← e2] at hb
      rcases ho with ⟨rfl, rfl⟩ | ⟨rfl, rfl⟩
      · show ((parseBin (n + (30 + (x :: xs).length) + 1) true 2 _).bind fun x => (expectP .semi x.2).bind fun r =>
          some ([SStmt.letS "this" none x.1], r)) = _
        rw [hb]; rfl
      · show ((parseBin (n + (30 + (x :: xs).length) + 1) true 2 _).bind fun x => (expectP .semi x.2).bind fun r =>
          some ([SStmt.letS "this" none x.1 true], r)) = _
        rw [hb]; rfl
    rw [e1]
    have e3 : (.kw .let_ :: (Splice.splice o ++ .ident "this" :: .p .eq ::
        (initTokens ⟨⟨bk, flds, fe, ie, we, hp⟩, nm, vs, ats, x :: xs, args, df, fv, cm⟩ builder ++ [.p .semi]))) ++ r =
        .kw .let_ :: (Splice.splice o ++ .ident "this" :: .p .eq ::
          (.ident (selfName ⟨nm, [], cu⟩ builder) :: .opn .brace :: .ident "val" :: .p .colon ::
          (initValue bk hp ++ .p .comma :: (joinedComma (ignoredDefaultTokens Q) ++ .cls .brace :: .p .semi :: r)))) := by
      have e4 : initTokens ⟨⟨bk, flds, fe, ie, we, hp⟩, nm, vs, ats, x :: xs, args, df, fv, cm⟩ builder =
          .ident (selfName ⟨nm, [], cu⟩ builder) :: .opn .brace :: .ident "val" :: .p .colon ::
            (initValue bk hp ++ .p .comma :: (joinedComma (ignoredDefaultTokens Q) ++ [.cls .brace])) := by
        cases bk with
        | int w => cases builder <;> rfl
        | arr k => cases hp <;> cases builder <;> rfl
      rw [e4]
      simp only [List.append_assoc, List.cons_append, List.nil_append]
    rw [e3]
    have e5 : stmtSyn ⟨nm, (x :: xs).map fun x => (x.1, defaultSyn x.2.1), cu⟩
        (initTok ⟨bk, flds, fe, ie, we, hp⟩ builder mu) =
        [.letS "this" none (.struct [.name (selfName ⟨nm, [], cu⟩ builder)]
          (("val", e) :: (x :: xs).map fun x => (x.1, defaultSyn x.2.1))) mu] := by
      rw [← he]; cases bk <;> rfl
    rw [e5]
    show ((parseStmt _ _).bind fun x => (parseN 0 _ x.2).bind fun y => some (x.1 ++ y.1, y.2)) = _
    rw [hst]
    rfl

/-! ## Constructors -/

theorem thisMut_tokens (P : Printer) (defaults : Bool) :
    (!(setZerosTokens P defaults).isEmpty || !(if defaults then setDefaultsTokens P else []).isEmpty) =
      thisMut P.B defaults := by
  have key : ∀ {α β : Type} (p : α → Bool) (g : α → β) (l : List α), (!((l.filter p).map g).isEmpty) = l.any p := by
    intro α β p g l
    induction l with
    | nil => rfl
    | cons x xs ih =>
      cases hx : p x
      · simpa [hx] using ih
      · simp [hx]
  cases defaults
  · simp only [setZerosTokens, thisMut, key, Bool.false_eq_true, if_false, Bool.false_and]
    rfl
  · simp only [setZerosTokens, setDefaultsTokens, thisMut, key, if_true, Bool.true_and]

theorem seq_new (h : Fits P C) (defaults builder existing : Bool) :
    Seq (newTokens P defaults builder existing) (stmtSyn C (newTok P.B defaults builder existing)) := by
  have h1 : ∀ c : Bool, c = thisMut P.B defaults → Seq (Splice.splice (if !existing then
        some (.kw .let_ :: (Splice.splice (if c then some [Tok.kw .mut_] else none) ++ .ident "this" :: .p .eq ::
          (initTokens P builder ++ [.p .semi]))) else none))
      (stmtSyn C (if existing then .skip else initTok P.B builder (thisMut P.B defaults))) := by
    rintro c rfl
    cases existing with
    | true => exact Seq.nil
    | false => exact seq_init h builder _ _ (by cases thisMut P.B defaults <;> simp)
  have h2 : Seq (joined (if defaults then setDefaultsTokens P else []))
      (stmtSyn C (if defaults then setDefaultsTok P.B else .skip)) := by
    cases defaults with
    | true => exact seq_defaults h
    | false => exact Seq.nil
  have h3 : Seq (joined (if !defaults then
        (P.B.fields.filter fun f => f.reserved && f.hasDefault).map (setDefaultTokens P) else []))
      (stmtSyn C (if defaults then .skip
        else .all ((P.B.fields.filter fun f => f.reserved && f.hasDefault).map (setDefaultTok P.B)))) := by
    cases defaults with
    | true => exact Seq.nil
    | false => exact Seq.joined _ _ _ C fun f hf => seq_default h f (List.mem_filter.mp hf).1
  exact (h1 _ (thisMut_tokens P defaults)).append ((seq_zeros h defaults).append (h2.append (h3.append Seq.nil)))

/-! ## Masks -/

theorem parseArgs_bytes (bs : List (BitVec 8)) (n : Nat) (r : List Tok) :
    bs ≠ [] →
    parseArgs (n + (bs.length + 10)) .bracket (joinedBetween (bs.map fun b => [Tok.int b.toNat "u8"]) ++ .cls .bracket :: r) =
      some (bs.map fun b => .int b.toNat "u8", r) := by
  induction bs with
  | nil => intro h; exact absurd rfl h
  | cons b bs ih =>
    intro _
    cases bs with
    | nil => krfl
    | cons c cs =>
      have hih := ih (by simp)
      have e : joinedBetween ((b :: c :: cs).map fun b => [Tok.int b.toNat "u8"]) =
        Tok.int b.toNat "u8" :: .p .comma :: joinedBetween ((c :: cs).map fun b => [Tok.int b.toNat "u8"]) := rfl
      rw [e]
      generalize joinedBetween ((c :: cs).map fun b => [Tok.int b.toNat "u8"]) = J at hih ⊢
      show (parseArgs (n + ((c :: cs).length + 10)) .bracket (J ++ .cls .bracket :: r)).bind
        (fun x => some (.int b.toNat "u8" :: x.1, x.2)) = _
      rw [hih]
      rfl

theorem seq_prot (p : Protection) : Seq (protTokens P p) (stmtSyn C (protTok P.B p)) := by
  unfold protTokens protTok
  cases hb : P.B.backing with
  | int w => seq 1 30
  | arr n =>
    simp only
    generalize protMaskBytes (protectedFields P.B p) n = bs
    cases bs with
    | nil => seq 1 30
    | cons b bs =>
      refine Seq.mk 1 (bs.length + 30) (fun m r hr => ?_) (fun _ _ => trivial)
      have key : ∀ m r, parsePrimary (m + (bs.length + 25)) true (.opn .bracket ::
          (joinedBetween ((b :: bs).map fun b => [Tok.int b.toNat "u8"]) ++ .cls .bracket :: r)) =
          some (.array ((b :: bs).map fun b => .int b.toNat "u8"), r) := by
        intro m r
        cases bs with
        | nil => krfl
        | cons c cs =>
          have ha := parseArgs_bytes (c :: cs) (m + 14) r (by simp)
          have e : joinedBetween ((b :: c :: cs).map fun b => [Tok.int b.toNat "u8"]) =
            Tok.int b.toNat "u8" :: .p .comma :: joinedBetween ((c :: cs).map fun b => [Tok.int b.toNat "u8"]) := rfl
          rw [e]
          generalize joinedBetween ((c :: cs).map fun b => [Tok.int b.toNat "u8"]) = J at ha ⊢
          have e2 : m + ((c :: cs).length + 25) = m + 14 + ((c :: cs).length + 10) + 1 := by omega
          rw [e2]
          have e3 : m + 14 + ((c :: cs).length + 10) = m + (c :: cs).length + 24 := by omega
          rw [e3] at ha ⊢
          show (parseArgs (m + (c :: cs).length + 24) .bracket (J ++ .cls .bracket :: r)).bind
            (fun x => some (SExpr.array (.int b.toNat "u8" :: x.1), x.2)) = _
          rw [ha]
          rfl
      have hk := key (m + 2) (.p .semi :: r)
      have e2 : m + 2 + (bs.length + 25) = m + bs.length + 27 := by omega
      have e3 : m + (bs.length + 30 + 1) = m + bs.length + 31 := by omega
      rw [e2] at hk
      rw [e3]
      generalize joinedBetween ((b :: bs).map fun b => [Tok.int b.toNat "u8"]) = J at hk ⊢
      generalize m + bs.length = k at hk ⊢
      have e4 : (.kw .let_ :: .ident "protected_mask" :: .p .colon :: (Splice.splice (backTokens (.arr n)) ++
          .p .eq :: .opn .bracket :: (Splice.splice J ++ [.cls .bracket, .p .semi]))) ++ r =
        .kw .let_ :: .ident "protected_mask" :: .p .colon :: .opn .bracket :: .ident "u8" :: .p .semi :: .int n "" ::
          .cls .bracket :: .p .eq :: .opn .bracket :: (J ++ .cls .bracket :: .p .semi :: r) := by
        simp [Splice.splice, backTokens, arrayTokens, usize]
      have hb : parseBin (k + 29) true 2 (.opn .bracket :: (J ++ .cls .bracket :: .p .semi :: r)) =
          some (.array ((b :: bs).map fun b => SExpr.int b.toNat "u8"), .p .semi :: r) := by
        show ((parsePrimary (k + 27) true (.opn .bracket :: (J ++ .cls .bracket :: .p .semi :: r))).bind
          fun x => suffixes (k + 27) x.1 x.2).bind (fun x => climb (k + 28) true 2 x.1 x.2) = _
        rw [hk]
        rfl
      refine (congrArg _ e4).trans ?_
      show (((parseBin (k + 29) true 2 (.opn .bracket :: (J ++ .cls .bracket :: .p .semi :: r))).bind fun x =>
        (expectP .semi x.2).bind fun r => some ([SStmt.letS "protected_mask" (some (tySyn (.arr n))) x.1], r)).bind
        fun x => (parseN 0 (k + 30) x.2).bind fun y => some (x.1 ++ y.1, y.2)) = _
      rw [hb]
      rfl

end Bf.Text
