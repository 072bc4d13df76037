import Lean.Elab.Tactic.ElabTerm
import Verif.SpecText

/-!
# Composing what the parser reads

`Seq ts ss`: in front of anything that does not begin with `else`, the parser reads `ts` as the statements `ss`.
`Body ts ss`: in front of `}` it reads `ts` as `ss`. `Mem ts ms`: it reads `ts` as the functions and constants `ms`.
-/

namespace Bf.Text

open Lean Elab Tactic Meta in
/-- Closes an equation whose sides are equal by evaluation; the kernel evaluates them. -/
elab "krfl" : tactic => do
  let g ← getMainGoal
  g.withContext do
  let t ← instantiateMVars (← g.getType)
  let some (ty, a, _) := t.eq? | throwError "not an equation"
  let u ← getLevel ty
  g.assign (← mkAuxTheorem t (mkApp2 (.const ``Eq.refl [u]) ty a))

open Rust Quote

/-- Exactly `j` statements. -/
def parseN : Nat → Nat → List Tok → Option (List SStmt × List Tok)
  | 0, _, ts => some ([], ts)
  | _ + 1, 0, _ => none
  | j + 1, n + 1, ts => do
    let (s, r) ← parseStmt n ts
    let (ss, r) ← parseN j n r
    return (s ++ ss, r)

/-- The next token is not `else`. -/
def NoElse : List Tok → Prop
  | .kw .else_ :: _ => False
  | _ => True

/-- Reading statements. -/
def Seq (ts : List Tok) (ss : List SStmt) : Prop :=
  ∃ j K, (∀ n r, K ≤ n → NoElse r → parseN j (n + j) (ts ++ r) = some (ss, r)) ∧
    ∀ r, NoElse r → NoElse (ts ++ r)

/-- Reading the body of a block. -/
def Body (ts : List Tok) (ss : List SStmt) : Prop :=
  (∃ K, ∀ n r, K ≤ n → parseStmts n (ts ++ .cls .brace :: r) = some (ss, .cls .brace :: r)) ∧
    ∀ r, NoElse (ts ++ .cls .brace :: r)

theorem parseN_add (a b n : Nat) (ts : List Tok) :
    parseN (a + b) (n + b + a) ts =
      (parseN a (n + b + a) ts).bind fun x => (parseN b (n + b) x.2).map fun y => (x.1 ++ y.1, y.2) := by
  induction a generalizing ts with
  | zero =>
    simp only [Nat.zero_add, parseN, Option.bind_some, List.nil_append, Nat.add_zero]
    cases parseN b (n + b) ts <;> rfl
  | succ a ih =>
    have e : a + 1 + b = (a + b) + 1 := by omega
    rw [e]
    show parseN (a + b + 1) (n + b + a + 1) ts = (parseN (a + 1) (n + b + a + 1) ts).bind _
    simp only [parseN]
    cases h : parseStmt (n + b + a) ts with
    | none => rfl
    | some x =>
      simp only [Option.bind_eq_bind, Option.bind_some, ih]
      cases parseN a (n + b + a) x.2 with
      | none => rfl
      | some y =>
        simp only [Option.bind_some, pure]
        cases parseN b (n + b) y.2 with
        | none => rfl
        | some z => simp

theorem Seq.append {a b : List Tok} {A B : List SStmt} (ha : Seq a A) (hb : Seq b B) : Seq (a ++ b) (A ++ B) := by
  obtain ⟨i, K, ha, na⟩ := ha
  obtain ⟨j, L, hb, nb⟩ := hb
  refine ⟨i + j, max K L, fun n r hn hr => ?_, fun r hr => ?_⟩
  · have e : n + (i + j) = n + j + i := by omega
    rw [e, parseN_add, List.append_assoc, ha (n + j) (b ++ r) (by omega) (nb r hr), Option.bind_some,
      hb n r (by omega) hr]
    rfl
  · rw [List.append_assoc]; exact na _ (nb r hr)

theorem Seq.nil : Seq [] [] := ⟨0, 0, fun _ _ _ _ => rfl, fun _ h => h⟩

/-- From a computation with `n + K + j`. -/
theorem Seq.mk (j K : Nat) {ts : List Tok} {ss : List SStmt}
    (h : ∀ n r, NoElse r → parseN j (n + (K + j)) (ts ++ r) = some (ss, r)) (h' : ∀ r, NoElse r → NoElse (ts ++ r)) :
    Seq ts ss :=
  ⟨j, K, fun n r hn hr => by have := h (n - K) r hr; rwa [← Nat.add_assoc, Nat.sub_add_cancel hn] at this, h'⟩

theorem Seq.joined {α : Type} (xs : List α) (f : α → List Tok) (g : α → Stmt) (C : Style)
    (h : ∀ x ∈ xs, Seq (f x) (stmtSyn C (g x))) :
    Seq (Text.joined (xs.map f)) (stmtSyn C (.all (xs.map g))) := by
  induction xs with
  | nil => exact Seq.nil
  | cons x xs ih =>
    have e : Text.joined ((x :: xs).map f) = f x ++ Text.joined (xs.map f) := rfl
    rw [e]
    exact (h x List.mem_cons_self).append (ih fun y hy => h y (List.mem_cons_of_mem _ hy))

/-! ## Blocks -/

theorem parseStmt_nil (n : Nat) : parseStmt n [] = none := by
  match n with
  | 0 | 1 | 2 | 3 | _ + 4 => rfl

theorem parseStmt_cls (n : Nat) (r : List Tok) : parseStmt n (.cls .brace :: r) = none := by
  match n with
  | 0 | 1 | 2 | 3 | _ + 4 => rfl

theorem parseStmts_of (j n : Nat) (ts : List Tok) (ss : List SStmt) (r : List Tok)
    (h : parseN j (n + j) ts = some (ss, r)) :
    parseStmts (n + j) ts = (parseStmts n r).map fun x => (ss ++ x.1, x.2) := by
  induction j generalizing ts ss with
  | zero =>
    cases h
    simp only [Nat.add_zero, List.nil_append]
    cases parseStmts n r <;> rfl
  | succ j ih =>
    have h : parseN (j + 1) (n + j + 1) ts = some (ss, r) := h
    simp only [parseN, Option.bind_eq_bind, Option.bind_eq_some_iff] at h
    obtain ⟨x, hx, y, hy, h⟩ := h
    cases h
    have := ih _ _ hy
    match ts, hx with
    | [], hx => rw [parseStmt_nil] at hx; cases hx
    | t :: ts, hx =>
      have e : parseStmts (n + j + 1) (t :: ts) =
          (parseStmt (n + j) (t :: ts)).bind fun x => (parseStmts (n + j) x.2).bind fun y =>
            some (x.1 ++ y.1, y.2) := by
        cases t
        case cls d =>
          cases d
          case brace => rw [parseStmt_cls] at hx; cases hx
          all_goals rfl
        all_goals rfl
      show parseStmts (n + j + 1) (t :: ts) = _
      rw [e, hx, Option.bind_some, this]
      cases parseStmts n y.2 <;> simp

theorem Body.mk (K : Nat) {ts : List Tok} {ss : List SStmt}
    (h : ∀ n r, parseStmts (n + K) (ts ++ .cls .brace :: r) = some (ss, .cls .brace :: r))
    (h' : ∀ r, NoElse (ts ++ .cls .brace :: r)) : Body ts ss :=
  ⟨⟨K, fun n r hn => by have := h (n - K) r; rwa [Nat.sub_add_cancel hn] at this⟩, h'⟩

theorem Seq.body {a b : List Tok} {A B : List SStmt} (ha : Seq a A) (hb : Body b B) : Body (a ++ b) (A ++ B) := by
  obtain ⟨j, K, ha, na⟩ := ha
  obtain ⟨⟨L, hb⟩, hn⟩ := hb
  refine ⟨⟨max K L + j, fun n r h => ?_⟩, fun r => ?_⟩
  · obtain ⟨m, rfl⟩ : ∃ m, n = m + j := ⟨n - j, by omega⟩
    rw [List.append_assoc, parseStmts_of j m _ _ _ (ha m _ (by omega) (hn r)), hb m r (by omega)]
    rfl
  · rw [List.append_assoc]; exact na _ (hn r)

theorem Body.nil : Body [] [] := ⟨⟨1, fun n r h => by
  obtain ⟨m, rfl⟩ : ∃ m, n = m + 1 := ⟨n - 1, by omega⟩
  rfl⟩, fun _ => trivial⟩

/-! ## Functions and constants -/

/-- Exactly `j` functions or constants. -/
def parseMemN : Nat → Nat → List Tok → Option (List SMember × List Tok)
  | 0, _, ts => some ([], ts)
  | _ + 1, 0, _ => none
  | j + 1, n + 1, ts => do
    let (m, r) ← parseMember n ts
    let (ms, r) ← parseMemN j n r
    return (m :: ms, r)

/-- Reading functions and constants. -/
def Mem (ts : List Tok) (ms : List SMember) : Prop :=
  ∃ j K, ∀ n r, K ≤ n → parseMemN j (n + j) (ts ++ r) = some (ms, r)

theorem parseMemN_add (a b n : Nat) (ts : List Tok) :
    parseMemN (a + b) (n + b + a) ts =
      (parseMemN a (n + b + a) ts).bind fun x => (parseMemN b (n + b) x.2).map fun y => (x.1 ++ y.1, y.2) := by
  induction a generalizing ts with
  | zero =>
    simp only [Nat.zero_add, parseMemN, Option.bind_some, List.nil_append, Nat.add_zero]
    cases parseMemN b (n + b) ts <;> rfl
  | succ a ih =>
    have e : a + 1 + b = (a + b) + 1 := by omega
    rw [e]
    show parseMemN (a + b + 1) (n + b + a + 1) ts = (parseMemN (a + 1) (n + b + a + 1) ts).bind _
    simp only [parseMemN]
    cases h : parseMember (n + b + a) ts with
    | none => rfl
    | some x =>
      simp only [Option.bind_eq_bind, Option.bind_some, ih]
      cases parseMemN a (n + b + a) x.2 with
      | none => rfl
      | some y =>
        simp only [Option.bind_some, pure]
        cases parseMemN b (n + b) y.2 with
        | none => rfl
        | some z => simp

theorem Mem.append {a b : List Tok} {A B : List SMember} (ha : Mem a A) (hb : Mem b B) : Mem (a ++ b) (A ++ B) := by
  obtain ⟨i, K, ha⟩ := ha
  obtain ⟨j, L, hb⟩ := hb
  refine ⟨i + j, max K L, fun n r hn => ?_⟩
  have e : n + (i + j) = n + j + i := by omega
  rw [e, parseMemN_add, List.append_assoc, ha (n + j) (b ++ r) (by omega), Option.bind_some, hb n r (by omega)]
  rfl

theorem Mem.nil : Mem [] [] := ⟨0, 0, fun _ _ _ => rfl⟩

theorem Mem.joined {α : Type} (xs : List α) (f : α → List Tok) (g : α → List SMember)
    (h : ∀ x ∈ xs, Mem (f x) (g x)) : Mem (Text.joined (xs.map f)) (xs.flatMap g) := by
  induction xs with
  | nil => exact Mem.nil
  | cons x xs ih =>
    have e : Text.joined ((x :: xs).map f) = f x ++ Text.joined (xs.map f) := rfl
    rw [e, List.flatMap_cons]
    exact (h x List.mem_cons_self).append (ih fun y hy => h y (List.mem_cons_of_mem _ hy))

/-- A function: what is before its body and its body. -/
theorem Mem.fn (K : Nat) {hd body : List Tok} {f : SFn} {ss : List SStmt}
    (hh : ∀ n r, parseOpen (n + K) (hd ++ r) = some (.inl f, r)) (hb : Body body ss) :
    Mem (hd ++ (body ++ [.cls .brace])) [.fn { f with body := ss }] := by
  obtain ⟨⟨L, hb⟩, -⟩ := hb
  refine ⟨1, max K L, fun n r hn => ?_⟩
  have h1 := hh (n - K) (body ++ .cls .brace :: r)
  rw [Nat.sub_add_cancel (by omega)] at h1
  have h2 := hb n r (by omega)
  have e : hd ++ (body ++ [.cls .brace]) ++ r = hd ++ (body ++ .cls .brace :: r) := by simp
  have h3 : parseMember n (hd ++ (body ++ .cls .brace :: r)) = some (.fn { f with body := ss }, r) := by
    simp only [parseMember, h1, Option.bind_eq_bind, Option.bind_some, h2]
    rfl
  show parseMemN 1 (n + 1) _ = _
  rw [e]
  simp only [parseMemN, h3]
  rfl

/-- A constant. -/
theorem Mem.const (K : Nat) {ts : List Tok} {m : SMember}
    (hh : ∀ n r, parseOpen (n + K) (ts ++ r) = some (.inr m, r)) : Mem ts [m] := by
  refine ⟨1, K, fun n r hn => ?_⟩
  have h1 := hh (n - K) r
  rw [Nat.sub_add_cancel (by omega)] at h1
  show parseMemN 1 (n + 1) _ = _
  simp only [parseMemN, parseMember, h1]
  rfl

end Bf.Text
