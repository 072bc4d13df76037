import Verif.Lemmas.MoveCore

/-! # What the emitted functions give away -/

namespace Bf.Text

open Rust Quote

variable {P : Printer} {C : Style} {R : Facts} {S N D : List String} {H : Head} {tag : Tag} {B : Bitfield} {f : Field} {b : Bool}

/-- After the statement the variables are these. -/
def Goes (C : Style) (R : Facts) (vs : Kinds) (s : Stmt) (vs' : Kinds) : Prop :=
  (∃ k, runS R vs (stmtSyn C s) = some (k, vs')) ∧ ∀ rest, rest ≠ [] → runS R vs (stmtSyn C s ++ rest) = runS R vs' rest

theorem Goes.seq {vs vs' ws : Kinds} {s t : Stmt} (h1 : Goes C R vs s vs') (h2 : Goes C R vs' t ws) : Goes C R vs (.seq s t) ws := by
  obtain ⟨⟨k, h1⟩, h1'⟩ := h1
  obtain ⟨⟨k', h2⟩, h2'⟩ := h2
  have e : stmtSyn C (.seq s t) = stmtSyn C s ++ stmtSyn C t := by rw [stmtSyn]
  unfold Goes
  rw [e]
  refine ⟨?_, fun rest hr => by rw [List.append_assoc, h1' _ (by simp [hr]), h2' _ hr]⟩
  by_cases hn : stmtSyn C t = []
  · rw [hn, runS] at h2
    cases h2
    exact ⟨k, by rw [hn, List.append_nil, h1]⟩
  · exact ⟨k', by rw [h1' _ hn, h2]⟩

theorem Goes.skip {vs : Kinds} : Goes C R vs .skip vs :=
  ⟨⟨.copy, by rw [stmtSyn, runS]⟩, fun _ _ => by rw [stmtSyn, List.nil_append]⟩

theorem RunsS.goes {vs : Kinds} {s : Stmt} (h : RunsS C R N D S vs s) : ∃ vs', Ok N D S vs' ∧ Goes C R vs s vs' := by
  obtain ⟨l, k, h1, h2, h3⟩ := h
  exact ⟨_, h1, ⟨k, h2⟩, h3⟩

theorem Moves.goes {s : Stmt} (h : Moves C R b S s) {vs : Kinds} (hv : Ok looked (dead b) S vs) :
    ∃ vs', Ok looked (dead b) S vs' ∧ Goes C R vs s vs' := (h vs hv).goes

/-- A `let`. -/
theorem Goes.letS {vs vs' : Kinds} {s : Stmt} {x : String} {t : Option SType} {e : SExpr} {mu : Bool} {k : Kind}
    (hs : stmtSyn C s = [.letS x t e mu]) (he : runE R false vs e = some (k, vs')) :
    Goes C R vs s ((x, heldKind vs e k) :: vs') := by
  refine ⟨⟨.copy, ?_⟩, fun rest _ => ?_⟩
  · rw [hs, runS, he]
    simp only [Option.bind_some, runS]
  · rw [hs, List.singleton_append, runS, he]
    rfl

/-- The variables at the beginning of a function. -/
def startKinds (H : Head) (fn : Fn) : Kinds := fn.params.map (fun x => (x.1, (sigSyn H x.2).kind)) ++ H.recv.kinds

/-- The end of a function is fine. -/
def Ends (C : Style) (R : Facts) (vs : Kinds) (e : Expr) : Prop := ∀ b, (runS R vs (tailSyn C b e)).isSome = true

theorem moveOk_of {fn : Fn} {vs : Kinds} (hb : Goes C R (startKinds H fn) fn.body vs) (ht : Ends C R vs fn.tail) :
    (fnSyn C H tag fn).moveOk R = true := by
  have e : (fnSyn C H tag fn).moveOk R =
      (runS R (startKinds H fn) (stmtSyn C fn.body ++ tailSyn C fn.builder fn.tail)).isSome := by
    simp only [SFn.moveOk, fnSyn, List.map_map]
    rfl
  rw [e]
  by_cases hn : tailSyn C fn.builder fn.tail = []
  · obtain ⟨k, h⟩ := hb.1
    rw [hn, List.append_nil, h]
    rfl
  · rw [hb.2 _ hn]
    exact ht _

theorem ends_of {vs : Kinds} {e : Expr} (h : ∃ r, runE R false vs (exprSyn C e) = some r) : Ends C R vs e := by
  obtain ⟨r, h⟩ := h
  intro b
  unfold tailSyn
  split
  · rfl
  · simp only [runS, runE, runFields, h]; rfl
  · simp only [runS, runE, runFields, h]; rfl
  · rw [runS_last, h]; rfl

theorem ends_unit {vs : Kinds} : Ends C R vs .unit := ends_of ⟨_, by rw [exprSyn, runE]⟩

theorem ends_quiet (hs : Around C R B b S) {vs : Kinds} (hv : Ok looked (dead b) S vs) {e : Expr} (h : QE B b S e) : Ends C R vs e := by
  obtain ⟨k, -, -, h⟩ := quietE_runs hs e vs h hv
  exact ends_of ⟨_, h⟩

theorem use_some {vs : Kinds} {x : String} (h : kindOf x vs ≠ some .gone) : ∃ r, useVar x vs = some r := by
  unfold useVar
  split
  · rename_i e
    exact absurd e h
  all_goals exact ⟨_, rfl⟩

theorem whole_some {vs : Kinds} (h : kindOf (rootName b) vs ≠ some .gone) : ∃ r, runE R false vs (exprSyn C (.whole b)) = some r := by
  obtain ⟨r, hr⟩ := use_some h
  refine ⟨r, ?_⟩
  cases b <;> (simp only [exprSyn, names, List.map_cons, List.map_nil, runE, Bool.false_eq_true, if_false, if_true]; exact hr)

theorem ends_whole {vs : Kinds} (h : kindOf (rootName b) vs ≠ some .gone) : Ends C R vs (.whole b) := ends_of (whole_some h)

theorem ends_okWhole {vs : Kinds} (h : kindOf (rootName b) vs ≠ some .gone) : Ends C R vs (.okE (.whole b)) := by
  obtain ⟨r, hr⟩ := whole_some (C := C) (R := R) h
  exact ends_of ⟨_, by rw [exprSyn, runE, runEs, hr, Option.bind_some, runEs, Option.map_some]⟩

theorem ends_okUnit {vs : Kinds} : Ends C R vs (.okE .unit) := ends_of ⟨(.owned, vs), by
  simp only [exprSyn, runE, runEs, Option.bind_some, Option.map_some]⟩

/-! ## Variables -/

theorem ok_nil : Ok N D [] [] := ⟨fun _ => .inr (.inr nofun), nofun⟩

theorem Ok.grow {vs : Kinds} (h : Ok N D S vs) {x : String} {k : Kind} (hx : x ∈ D ∨ x ∈ N ∧ k ≠ .gone ∨ Free k) :
    Ok N D (x :: S) ((x, k) :: vs) := by
  refine ⟨(h.push hx).1, fun y hy => ?_⟩
  rcases List.mem_cons.mp hy with rfl | hy
  · simp [kindOf]
  · exact (h.push hx).2 y hy

theorem Ok.less {S' : List String} {vs : Kinds} (h : Ok N D S vs) (hs : ∀ x ∈ S', x ∈ S) : Ok N D S' vs :=
  ⟨h.1, fun x hx => h.2 x (hs x hx)⟩

theorem kindOf_take {x y : String} (h : y ≠ x) : ∀ vs : Kinds, kindOf x (take y vs) = kindOf x vs
  | [] => rfl
  | (z, k) :: vs => by
    by_cases hz : z = y
    · subst hz
      simp [take, kindOf, h]
    · simp only [take, if_neg hz, kindOf, kindOf_take h vs]

theorem use_other {vs : Kinds} {x : String} {r : Kind × Kinds} (h : useVar x vs = some r) (y : String) (hy : x ≠ y) :
    kindOf y r.2 = kindOf y vs := by
  unfold useVar at h
  split at h <;> cases h <;> first | rfl | exact kindOf_take hy vs

theorem use_held {vs : Kinds} {x : String} {k : Kind} (hk : kindOf x vs = some k) (hg : k ≠ .gone) :
    ∃ vs', useVar x vs = some (k, vs') := by
  unfold useVar
  rw [hk]
  cases k with
  | gone => exact absurd rfl hg
  | _ => exact ⟨_, rfl⟩

/-- Another variable with the name of one that was used. -/
theorem Ok.rebind {vs : Kinds} {x : String} (h : Ok (x :: N) D S vs) {r : Kind × Kinds} (hu : useVar x vs = some r) {k : Kind}
    (hk : Free k) : Ok N D (x :: S) ((x, k) :: r.2) := by
  refine ⟨fun y => ?_, fun y hy => ?_⟩
  · by_cases hy : x = y
    · subst hy
      refine .inr (.inr fun k' e => ?_)
      simp only [kindOf, if_true, Option.some.injEq] at e
      exact e ▸ hk
    · simp only [kindOf, if_neg hy, use_other hu y hy]
      rcases h.1 y with h | h | h
      · exact .inl h
      · rcases List.mem_cons.mp h.1 with e | hn
        · exact absurd e.symm hy
        · exact .inr (.inl ⟨hn, h.2⟩)
      · exact .inr (.inr h)
  · by_cases he : x = y
    · subst he
      simp [kindOf]
    · simp only [kindOf, if_neg he, use_other hu y he]
      rcases List.mem_cons.mp hy with e | hy
      · exact absurd e.symm he
      · exact h.2 y hy

/-- `let this = self;` -/
theorem letThis_goes {vs : Kinds} {k : Kind} (hv : Ok N D S vs) (hs : kindOf "self" vs = some k) (hk : k ≠ .gone) (hn : "this" ∈ N)
    (hd : "self" ∈ D) : ∃ vs', Ok N D S vs' ∧ Goes C R vs .letThis vs' := by
  obtain ⟨vs', hu⟩ := use_held hs hk
  refine ⟨_, ?_, Goes.letS (C := C) (k := k) (by rw [stmtSyn]) (by
    simpa only [names, List.map_cons, List.map_nil, runE, Bool.false_eq_true, if_false] using hu)⟩
  refine Ok.push ⟨fun x => ?_, fun x hx => ?_⟩ (.inr (.inl ⟨hn, heldKind_ne hk⟩))
  · by_cases hx : "self" = x
    · exact .inl (hx ▸ hd)
    · rw [use_other hu x hx]
      exact hv.1 x
  · by_cases hx' : "self" = x
    · subst hx'
      intro e
      unfold useVar at hu
      rw [hs] at hu
      cases k with
      | gone => exact hk rfl
      | copy | shared => cases hu; rw [hs] at e; cases e
      | exclusive | owned =>
        cases hu
        clear hv hx hk hn hd
        induction vs with
        | nil => cases hs
        | cons y vs ih =>
          obtain ⟨y, ky⟩ := y
          by_cases hy : y = "self"
          · simp [take, kindOf, hy] at e
          · simp only [kindOf, take, if_neg hy] at hs e
            exact ih hs e
    · rw [use_other hu x hx']
      exact hv.2 x hx

theorem kind_ne : ∀ t : SType, t.kind ≠ .gone
  | .path [.name t] [] => by unfold SType.kind; split <;> exact nofun
  | .path [.name _] (_ :: _) => nofun
  | .path (.name _ :: _ :: _) _ | .path (.custom _ :: _) _ | .path [] _ => nofun
  | .arr t _ _ => by unfold SType.kind; exact kind_ne t
  | .ref _ false | .ref _ true | .unit | .slice _ => nofun

theorem ok_start {l : List (String × Kind)} (h : ∀ x ∈ l, x.2 ≠ .gone ∧ (Free x.2 ∨ x.1 ∈ N)) {vs : Kinds} (hv : Ok N D S vs) :
    Ok N D (l.map Prod.fst ++ S) (l ++ vs) := by
  induction l with
  | nil => exact hv
  | cons x l ih =>
    have := ih fun x hx => h x (.tail _ hx)
    obtain ⟨x, k⟩ := x
    refine this.grow ?_
    rcases h _ (.head _) with ⟨h1, h2 | h2⟩
    · exact .inr (.inr h2)
    · exact .inr (.inl ⟨h2, h1⟩)

theorem ok_recv (r : Recv) (h : "self" ∈ N) : Ok N D [] r.kinds := by
  cases r with
  | none => exact ok_nil
  | _ => exact Ok.push ok_nil (.inr (.inl ⟨h, nofun⟩))

theorem start_ok {fn : Fn} (h : "self" ∈ N) (hp : ∀ x ∈ fn.params, Free (sigSyn H x.2).kind ∨ x.1 ∈ N) :
    Ok N D (fn.params.map Prod.fst) (startKinds H fn) := by
  have := ok_start (N := N) (D := D) (l := fn.params.map (fun x => (x.1, (sigSyn H x.2).kind))) (S := []) (vs := H.recv.kinds) (by
    intro x hx
    obtain ⟨y, hy, rfl⟩ := List.mem_map.mp hx
    exact ⟨kind_ne _, hp y hy⟩) (ok_recv _ h)
  simp only [List.map_map, List.append_nil] at this
  exact this

theorem start_self {fn : Fn} (hp : ∀ x ∈ fn.params, x.1 ≠ "self") (hr : H.recv ≠ .none) :
    ∃ k, kindOf "self" (startKinds H fn) = some k ∧ k ≠ .gone := by
  have h1 : ∀ l : List (String × Ty), (∀ x ∈ l, x.1 ≠ "self") →
      kindOf "self" (l.map (fun x => (x.1, (sigSyn H x.2).kind)) ++ H.recv.kinds) = kindOf "self" H.recv.kinds := by
    intro l hl
    induction l with
    | nil => rfl
    | cons x l ih =>
      simp only [List.map_cons, List.cons_append, kindOf, if_neg (hl x (.head _))]
      exact ih fun x hx => hl x (.tail _ hx)
  unfold startKinds
  rw [h1 _ hp]
  cases hH : H.recv with
  | none => exact absurd hH hr
  | _ => exact ⟨_, rfl, nofun⟩

/-- A function that begins with `let this = self;`. -/
theorem this_of {fn : Fn} {rest : Stmt} (hH : H.recv ≠ .none) (hf : stmtSyn C fn.body = stmtSyn C (.seq .letThis rest))
    (hp : ∀ x ∈ fn.params, x.1 ≠ "self" ∧ Free (sigSyn H x.2).kind)
    (hr : Moves C R false (fn.params.map Prod.fst) rest)
    (ht : ∀ vs, Ok looked (dead false) (fn.params.map Prod.fst) vs → Ends C R vs fn.tail) :
    (fnSyn C H tag fn).moveOk R = true := by
  have h1 : Ok looked (dead false) (fn.params.map Prod.fst) (startKinds H fn) :=
    start_ok (by decide) fun x hx => .inl (hp x hx).2
  obtain ⟨k, h2, h3⟩ := start_self (H := H) (fun x hx => (hp x hx).1) hH
  obtain ⟨vs, h4, h5⟩ := letThis_goes (C := C) (R := R) h1 h2 h3 (by decide) (by decide)
  obtain ⟨vs', h6, h7⟩ := hr.goes h4
  have h8 := h5.seq h7
  refine moveOk_of (vs := vs') ?_ (ht _ h6)
  unfold Goes
  rw [hf]
  exact h8

/-! ## Fields -/

theorem let_quiet {x : String} {t : Option Ty} {e : Expr} {mu : Bool} (h : QE B b S e) (hc : copyK e = true) (hb : bound S e = true) :
    QS B b S (.letS x t e mu) := by
  simp only [QS, quietS, Bool.and_eq_true, Bool.or_eq_true]
  exact ⟨h, .inr ⟨hc, hb⟩⟩

/-- A `let` of a `Copy` value. -/
theorem Moves.letS (hs : Around C R B b S) {x : String} {t : Option Ty} {e : Expr} {mu : Bool} (h : QE B b S e) (hc : copyK e = true)
    (hb : bound S e = true) : Moves C R b S (.letS x t e mu) := .of hs (let_quiet h hc hb)

theorem copy_bin (op : BinOp) (x y : Expr) : copyK (.bin op x y) = true := rfl

theorem extract_moves (hs : Around C R B b S) {src : Source} {inv : Bool} : Moves C R b S (extractTok B f src false inv b) := by
  have hb := bits_quiet (B := B) (b := b) (S := S) (f := f)
  have ho := off_quiet (B := B) (b := b) (S := S) (f := f)
  unfold extractTok
  simp only [Bool.and_false, Bool.false_eq_true, if_false]
  generalize bitsTok f b = bits at hb ⊢
  generalize offTok f b = off at ho ⊢
  have hsee : seeE (dead b) (sourceTok src b) = true := by cases src <;> simp [sourceTok, see_var, see_inner, mem_dead]
  cases hB : B.backing with
  | int w =>
    have hp : plainStore B = true := by simp [plainStore, hB]
    refine .all3 (.letS hs (mask_quiet hb) rfl rfl) .skip (.letS hs ?_ rfl rfl)
    have h1 : QE B b S (.bin .shr (sourceTok src b) off) := by
      simp only [QE, hp] at ho
      cases src <;> qt [sourceTok, ho, hp]
    have h2 := notIf_quiet (i := inv) h1
    qt [h2]
  | arr n =>
    cases hf : f.ty with
    | array len => exact .letS hs (readArr_quiet hsee hb ho) rfl rfl
    | int t => exact .letS hs (read_quiet hsee hb ho) (by cases inv <;> rfl) rfl
    | custom c => exact .letS hs (read_quiet hsee hb ho) (by cases inv <;> rfl) rfl

/-- With a parameter that is `Copy`. -/
theorem extractCast_moves (hs : Around C R B b S) (hS : "bits" ∈ S) (hf : ∀ c, f.ty ≠ .custom c) :
    Moves C R b S (extractTok B f .variable true false b) := by
  have hb := bits_quiet (B := B) (b := b) (S := S) (f := f)
  unfold extractTok
  simp only [decide_true, Bool.and_self, if_true, notIf, Bool.false_eq_true, if_false, sourceTok]
  generalize bitsTok f b = bits at hb ⊢
  cases hB : B.backing with
  | int w =>
    refine .all3 (.letS hs (mask_quiet hb) rfl rfl) ?_ (.letS hs (by qt []) rfl rfl)
    cases hf' : f.ty with
    | custom c => exact absurd hf' (hf c)
    | array len => exact .letS hs (pack_quiet hS) rfl rfl
    | int t => exact .letS hs (by qt []) rfl rfl
  | arr n =>
    cases hf' : f.ty with
    | custom c => exact absurd hf' (hf c)
    | array len => exact .letS hs (by qt []) rfl (by simp [bound, hS])
    | int t =>
      cases t with
      | bool => exact .letS hs (by qt []) rfl rfl
      | _ =>
        refine .all2 (.letS hs (by have := mask128_quiet hb; qt [this]) rfl rfl) (.letS hs (by qt []) rfl rfl)

/-- Without defaults. -/
theorem Setting.bare (hs : Around C R B b S) (N' D' S' : List String) : Setting C R N' D' S' (plainStore B) fun _ => false where
  tuple := hs.tuple
  val := hs.val
  setter := hs.setter
  user := fun _ h => by cases h

/-- Using a parameter that need not be `Copy`. -/
theorem intoBits_goes {w : Nat} {vs : Kinds} (hv : Ok ("bits" :: N) D S vs) (hd : "bits" ∉ D) : ∃ vs', Ok N D ("bits" :: S) vs' ∧
    Goes C R vs (.letS "bits" none (.cast (.intoBits (.var "bits")) (.u w))) vs' := by
  obtain ⟨r, hr⟩ := use_some (hv.there hd)
  have h1 : runE R false vs (exprSyn C (.var "bits")) = some r := by
    simpa only [exprSyn, names, List.map_cons, List.map_nil, runE, Bool.false_eq_true, if_false] using hr
  have h2 : takes R (exprSyn C (.var "bits")) "into_bits" = true := by simp [takes]
  have h3 : runE R false vs (exprSyn C (.cast (.intoBits (.var "bits")) (.u w))) = some (.copy, r.2) := by
    rw [exprSyn, runE, exprSyn, runE, h2, Bool.not_true, h1, Option.bind_some, runEs, Option.map_some, Option.map_some]
  refine ⟨_, hv.rebind hr (.inl rfl), ?_⟩
  have h4 := Goes.letS (C := C) (s := .letS "bits" none (.cast (.intoBits (.var "bits")) (.u w))) (by rw [stmtSyn]) h3
  have h5 : heldKind vs (exprSyn C (.cast (.intoBits (.var "bits")) (.u w))) .copy = .copy := by rw [exprSyn]; rfl
  rw [h5] at h4
  exact h4

theorem mask_quiet_any {ic : Bool} {U : Nat → Bool} {w : Nat} : quietE N D S ic U (maskTok w (bitsTok f b)) = true := by
  unfold maskTok bitsTok
  split <;> simp [quietE]

theorem Goes.all1 {vs vs' : Kinds} {s : Stmt} (h : Goes C R vs s vs') : Goes C R vs (.all [s]) vs' := h.seq .skip

/-- With a parameter of a type of the user. -/
theorem extractCustom_goes (hs : ∀ S, Around C R B b S) {c : Codec} (hf : f.ty = .custom c) {vs : Kinds}
    (hv : Ok ("bits" :: looked) (dead b) S vs) :
    ∃ vs', Ok looked (dead b) ("bits" :: S) vs' ∧ Goes C R vs (extractTok B f .variable true false b) vs' := by
  have hd : "bits" ∉ dead b := by cases b <;> decide
  have hb := bits_quiet (B := B) (b := b) (S := "bits" :: S) (f := f)
  unfold extractTok
  simp only [decide_true, Bool.and_self, if_true, notIf, Bool.false_eq_true, if_false, sourceTok, hf]
  cases hB : B.backing with
  | int w =>
    obtain ⟨v1, h1, g1⟩ := (quietS_runs (Setting.bare (hs S) ("bits" :: looked) (dead b) S) (.letS "mask" none (maskTok w (bitsTok f b))) vs (by
      simp only [quietS, mask_quiet_any, Bool.true_and, Bool.or_eq_true]
      exact .inr rfl) hv).goes
    obtain ⟨v2, h2, g2⟩ := intoBits_goes (C := C) (R := R) (w := w) h1 hd
    obtain ⟨v3, h3, g3⟩ := (Moves.letS (hs ("bits" :: S)) (x := "value") (t := none) (mu := false)
      (e := .bin .and (.var "bits") (.var "mask")) (by qt []) rfl rfl).goes h2
    exact ⟨v3, h3, g1.seq (g2.seq g3.all1)⟩
  | arr n =>
    obtain ⟨v2, h2, g2⟩ := intoBits_goes (C := C) (R := R) (w := 128) hv hd
    obtain ⟨v3, h3, g3⟩ := (Moves.all2 (.letS (hs ("bits" :: S)) (x := "mask") (t := none) (mu := false) (mask128_quiet hb) (mask128_copy _) rfl)
      (.letS (hs ("bits" :: S)) (x := "value") (t := none) (mu := false)
      (e := (.block (.letS "val" none (.bin .and (.var "bits") (.var "mask"))) (.var "val"))) (by qt []) rfl rfl)).goes h2
    exact ⟨v3, h3, g2.seq g3⟩

theorem Moves.checked (hs : Around C R B b S) : Moves C R b S checkTok := .of hs (by qt [checkTok])

theorem Moves.signed (hs : Around C R B b S) : Moves C R b S (signedCheckTok f) := by
  unfold signedCheckTok
  split
  · simp only []
    split
    · exact .skip
    · exact .of hs (by qt [])
  · exact .skip

theorem Moves.if {c : Bool} {s t : Stmt} (h1 : Moves C R b S s) (h2 : Moves C R b S t) :
    Moves C R b S (if c = true then s else t) := by
  split
  · exact h1
  · exact h2

theorem value_ne (n : Nat) : valueTok f ≠ .zeros n := by
  unfold valueTok
  split <;> exact nofun

theorem setVar_moves (hs : Around C R B b S) {u : Bool} : Moves C R b S
    (if u = true then setterCallTok B f (valueTok f) b else directTok B f (valueTok f) b) :=
  .if (.of hs (setterCall_quiet value_quiet)) (.direct hs value_quiet fun n => .inl (value_ne n))

/-- From the variable that holds the whole bitfield. -/
theorem setFromVar_moves (hs : Around C R B false S) {u : Bool} : Moves C R false S (setFromVarTok B f u false false false) := by
  unfold setFromVarTok
  simp only [Bool.false_and, Bool.false_eq_true, if_false, Bool.and_false]
  exact .seq .skip (.seq (extract_moves hs) (.seq .skip (.all1 (setVar_moves hs))))

/-- From a parameter that is `Copy`. -/
theorem setFromParam_moves (hs : Around C R B b S) (hS : "bits" ∈ S) (hf : ∀ c, f.ty ≠ .custom c) {u check : Bool}
    (hu : (b && (f.hasSetter && u)) = false) : Moves C R b S (setFromVarTok B f u true check b) := by
  unfold setFromVarTok
  simp only [hu, Bool.false_eq_true, if_false]
  exact .seq (.if (.signed hs) .skip) (.seq (extractCast_moves hs hS hf) (.seq (.if (.checked hs) .skip) (.all1 (setVar_moves hs))))

/-- From a parameter of a type of the user. -/
theorem setFromParam_goes (hs : ∀ S, Around C R B b S) {c : Codec} (hf : f.ty = .custom c) {u check : Bool}
    (hu : (b && (f.hasSetter && u)) = false) {vs : Kinds} (hv : Ok ("bits" :: looked) (dead b) S vs) :
    ∃ vs', Ok looked (dead b) ("bits" :: S) vs' ∧ Goes C R vs (setFromVarTok B f u true check b) vs' := by
  unfold setFromVarTok
  simp only [hu, Bool.false_eq_true, if_false]
  obtain ⟨v1, h1, g1⟩ := extractCustom_goes hs hf hv
  obtain ⟨v2, h2, g2⟩ := (Moves.seq (s := if (!(f.hasSetter && u) && check && !!f.ty.unsigned && !f.ty.isBool && !f.ty.isArray) = true then checkTok else .skip)
    (.if (.checked (hs ("bits" :: S))) .skip)
    (.all1 (setVar_moves (hs ("bits" :: S)) (u := f.hasSetter && u) (f := f)))).goes h1
  have hsig : signedCheckTok f = .skip := by simp only [signedCheckTok, hf]
  refine ⟨v2, h2, Goes.seq (vs' := vs) ?_ (g1.seq g2)⟩
  rw [hsig, ite_self]
  exact .skip

/-- Giving a parameter to a setter. -/
theorem builderSet_goes (hs : Around C R B true S) {check : Bool} {vs : Kinds} (hv : Ok ("bits" :: looked) (dead true) S vs) :
    ∃ vs', kindOf "self" vs' ≠ some .gone ∧ Goes C R vs (builderSetTok f check) vs' := by
  obtain ⟨r, hr⟩ := use_some (hv.there (x := "bits") (by decide))
  have hself : kindOf "self" r.2 ≠ some .gone := by
    rw [use_other hr "self" (by decide)]
    exact hv.there (by decide)
  refine ⟨r.2, hself, ?_⟩
  have h1 : runE R false vs (exprSyn C (.var "bits")) = some r := by
    simpa only [exprSyn, names, List.map_cons, List.map_nil, runE, Bool.false_eq_true, if_false] using hr
  have h2 : ∀ t e, setTag t = true → runE R false vs (exprSyn C e) = some r ∨ runE R false vs (exprSyn C e) = some (.copy, r.2) →
      ∃ k, runE R false vs (exprSyn C (.method true t e)) = some (k, r.2) := by
    intro t e ht he
    rw [exprSyn, runE, hs.setter t true ht, Bool.not_false, runE_this hv (by decide), Option.bind_some, runEs]
    rcases he with he | he <;> rw [he] <;> exact ⟨_, rfl⟩
  have h3 : setTag (.acc (if check then .checkedSet else .set) f.name) = true := by cases check <;> rfl
  have h4 : ∃ e k, builderSetTok f check = (if check then .tryS e else .expr e) ∧ runE R false vs (exprSyn C e) = some (k, r.2) := by
    unfold builderSetTok
    have hc := h2 _ (.castInfer (.var "bits")) h3 (.inr (by rw [exprSyn, runE, h1, Option.map_some]))
    have hv := h2 _ _ h3 (.inl h1)
    generalize Tag.acc (if check then .checkedSet else .set) f.name = t at hc hv ⊢
    obtain ⟨k, hk⟩ := hc
    obtain ⟨k', hk'⟩ := hv
    cases f.ty with
    | int t =>
      cases t with
      | bool => exact ⟨_, k', rfl, hk'⟩
      | _ => exact ⟨_, k, rfl, hk⟩
    | array n => exact ⟨_, k', rfl, hk'⟩
    | custom c => exact ⟨_, k', rfl, hk'⟩
  obtain ⟨e, k, h5, h6⟩ := h4
  rw [h5]
  have key : ∀ (s : Stmt) e k (c : Bool), stmtSyn C s = [.expr e c] → runE R false vs e = some (k, r.2) → Goes C R vs s r.2 := by
    intro s e k c hs he
    refine ⟨⟨if c then .copy else k, ?_⟩, fun rest hr => ?_⟩
    · rw [hs]
      cases c
      · rw [runS_last, he]; rfl
      · rw [runS_semi, he]; rfl
    · rw [hs, List.singleton_append, runS_cons hr, he]
      rfl
  cases check with
  | false => exact key (.expr e) _ _ true (by rw [stmtSyn]) h6
  | true =>
    have e1 : leave r.2 (.copy, ("e", .gone) :: r.2) = (.copy, r.2) := leave_append [("e", .gone)] r.2 .copy
    have e2 : leave r.2 (.copy, r.2) = (.copy, r.2) := leave_append [] r.2 .copy
    exact key (.tryS e) _ .copy false (by rw [stmtSyn]) (by
      simp [runE, h6, runArms, patternVars, names, runEs, runS, useVar, kindOf, take, e1, e2, merge_self, Free])

end Bf.Text
