import Verif.SpecMut
import Verif.SpecText

/-! # What the emitted code changes -/

namespace Bf.Text

open Rust Quote

variable {P : Printer} {C : Style} {T : String → Bool}

/-- The variables after statements. -/
def after (vs : Vars) : List SStmt → Vars
  | [] => vs
  | .letS x _ e mu :: ss => after ((x, e.held vs mu) :: vs) ss
  | .assign .. :: ss => after vs ss
  | .loop .. :: ss => after vs ss
  | .expr .. :: ss => after vs ss

theorem stmtsMut_append (a b : List SStmt) (vs : Vars) :
    stmtsMut T vs (a ++ b) = (stmtsMut T vs a && stmtsMut T (after vs a) b) := by
  induction a generalizing vs with
  | nil => simp [stmtsMut, after]
  | cons s ss ih => cases s <;> simp [stmtsMut, after, ih, Bool.and_assoc]

theorem after_append (a b : List SStmt) (vs : Vars) : after vs (a ++ b) = after (after vs a) b := by
  induction a generalizing vs with
  | nil => rfl
  | cons s ss ih => cases s <;> simp [after, ih]

/-- What `x` holds may be changed. -/
def Can (x : String) (vs : Vars) : Prop := holdOf x vs = some (.own true) ∨ holdOf x vs = some (.borrow true)

theorem Can.cons {x y : String} {h : Hold} {vs : Vars} (hc : Can x vs) (hn : y ≠ x) : Can x ((y, h) :: vs) := by
  simp only [Can, holdOf, hn, if_false]
  exact hc

/-- The statement changes only `x`, if that may be changed. -/
def Fine (T : String → Bool) (C : Style) (x : String) (s : Stmt) : Prop :=
  ∀ vs, Can x vs → stmtsMut T vs (stmtSyn C s) = true ∧ Can x (after vs (stmtSyn C s))

theorem Fine.skip {x : String} : Fine T C x .skip := fun _ h => ⟨rfl, h⟩

theorem Fine.seq {x : String} {a b : Stmt} (ha : Fine T C x a) (hb : Fine T C x b) : Fine T C x (.seq a b) := by
  intro vs h
  obtain ⟨h1, h2⟩ := ha vs h
  obtain ⟨h3, h4⟩ := hb _ h2
  rw [show stmtSyn C (.seq a b) = stmtSyn C a ++ stmtSyn C b by rw [stmtSyn], stmtsMut_append, after_append, h1, h3]
  exact ⟨rfl, h4⟩

theorem Fine.all {x : String} {ss : List Stmt} (h : ∀ s ∈ ss, Fine T C x s) : Fine T C x (.all ss) := by
  induction ss with
  | nil => exact Fine.skip
  | cons s ss ih => exact (h s (.head _)).seq (ih fun s hs => h s (.tail _ hs))

theorem exprsMut_bytes (bs : List (BitVec 8)) (vs : Vars) :
    exprsMut T vs (bs.map fun b => .int b.toNat "u8") = true := by
  induction bs with
  | nil => rfl
  | cons b bs ih => simp [exprsMut, exprMut, ih]

/-- The expression changes nothing. -/
def Pure (T : String → Bool) (C : Style) (e : Expr) : Prop := ∀ vs, exprMut T vs (exprSyn C e) = true

theorem thisSyn_mut (b : Bool) (vs : Vars) : exprMut T vs (thisSyn b) = true := by cases b <;> rfl

theorem innerSyn_mut (b : Bool) (vs : Vars) : exprMut T vs (innerSyn C b) = true := by
  unfold innerSyn
  split <;> simp [exprMut, thisSyn_mut]

/-- `this`, or in a builder `self` -/
def rootName (b : Bool) : String := if b then "self" else "this"

theorem innerSyn_root (b : Bool) : (innerSyn C b).root = some (rootName b) := by
  unfold innerSyn
  cases b <;> split <;> rfl

theorem innerSyn_var (b : Bool) : (innerSyn C b).isVariable = false := by
  unfold innerSyn
  split <;> rfl

theorem innerSyn_held (b mu : Bool) (vs : Vars) : (innerSyn C b).held vs mu = .own mu := by
  unfold innerSyn
  split <;> rfl

theorem inner_assignable {b : Bool} {vs : Vars} (h : Can (rootName b) vs) : (innerSyn C b).assignable vs = true := by
  rcases h with h | h <;> simp [SExpr.assignable, innerSyn_root, innerSyn_var, h]

theorem index_assignable {b : Bool} {vs : Vars} {i : SExpr} (h : Can (rootName b) vs) :
    (SExpr.index (innerSyn C b) i).assignable vs = true := by
  rcases h with h | h <;> simp [SExpr.assignable, SExpr.root, innerSyn_root, SExpr.isVariable, h]

theorem this_lendable {b : Bool} {vs : Vars} (h : Can (rootName b) vs) : (thisSyn b).lendable vs = true := by
  cases b <;> rcases h with h | h <;> simp only [rootName, Bool.false_eq_true, if_false, if_true] at h <;>
    simp [thisSyn, SExpr.lendable, SExpr.root, names, h]

/-- Computing the rule on what is written out. -/
macro "mt" "[" ts:Lean.Parser.Tactic.simpLemma,* "]" : tactic =>
  `(tactic| simp [stmtSyn, exprSyn, Stmt.all, stmtsMut, exprMut, exprsMut, fieldsMut, armsMut, after, names, holdOf,
      SExpr.root, SExpr.isVariable, SExpr.assignable, SExpr.lendable, SExpr.held, changes, innerSyn_mut, thisSyn_mut,
      innerSyn_held, exprsMut_bytes, incr, $ts,*])

theorem bits_pure (f : Field) (b : Bool) : Pure T C (bitsTok f b) := by
  intro vs
  unfold bitsTok
  split <;> mt []

theorem off_pure (f : Field) (b : Bool) : Pure T C (offTok f b) := by
  intro vs
  unfold offTok
  split <;> mt []

theorem source_pure (src : Source) (b : Bool) : Pure T C (sourceTok src b) := by
  intro vs
  cases src <;> mt [sourceTok]

theorem unpack_pure (val : String) (e : Expr) (len : Nat) (h : Pure T C e) : Pure T C (unpackTok val e len) := by
  intro vs
  have := h vs
  mt [unpackTok, byteTok, this]

theorem readArr_pure (s b o : Expr) (len : Nat) (inv : Bool) (hs : Pure T C s) (hb : Pure T C b) (ho : Pure T C o) :
    Pure T C (readArrTok s b o len inv) := by
  intro vs
  cases inv <;> mt [readArrTok, hs _, hb _, ho _]

theorem read_pure (s b o : Expr) (inv : Bool) (hs : Pure T C s) (hb : Pure T C b) (ho : Pure T C o) :
    Pure T C (readTok s b o inv) := by
  intro vs
  cases inv <;> mt [readTok, mask128Tok, hs _, hb _, ho _]

theorem pack_pure (w k : Nat) : Pure T C (packTok w k) := by
  intro vs
  cases hb : holdOf "bits" vs with
  | none => mt [packTok, hb]
  | some h => cases h <;> mt [packTok, hb]

/-- A `let` of something that changes nothing. -/
theorem Fine.letS {x y : String} {t : Option Ty} {e : Expr} {mu : Bool} (he : Pure T C e) (hn : y ≠ x) :
    Fine T C x (.letS y t e mu) := by
  intro vs h
  have h1 := he vs
  have h2 : ∃ t' e', stmtSyn C (.letS y t e mu) = [.letS y t' e' mu] ∧ exprMut T vs e' = true := by
    cases t with
    | none => exact ⟨none, _, rfl, h1⟩
    | some t =>
      by_cases hz : ∃ n k, t = .arr n ∧ e = .zeros k
      · obtain ⟨n, k, rfl, rfl⟩ := hz
        exact ⟨_, _, rfl, rfl⟩
      · refine ⟨if annotated y t then some (tySyn t) else none, exprSyn C e, ?_, h1⟩
        rw [stmtSyn]
        intro n k h3 h4
        exact hz ⟨n, k, h4, h3⟩
  obtain ⟨t', e', h2, h3⟩ := h2
  rw [h2]
  exact ⟨by simp [stmtsMut, h3], h.cons hn⟩

theorem Fine.expr {x : String} {e : Expr} (he : ∀ vs, Can x vs → exprMut T vs (exprSyn C e) = true) :
    Fine T C x (.expr e) := by
  intro vs h
  mt [he vs h, h]

theorem method_mut {b : Bool} {t : Tag} {e : Expr} (he : Pure T C e) {vs : Vars} (h : Can (rootName b) vs) :
    exprMut T vs (exprSyn C (.method b t e)) = true := by
  have := he vs
  have h2 := this_lendable h
  simp [exprSyn, exprMut, exprsMut, thisSyn_mut, this, h2]

theorem Fine.method {b : Bool} {t : Tag} {e : Expr} (he : Pure T C e) : Fine T C (rootName b) (.expr (.method b t e)) :=
  Fine.expr fun _ => method_mut he

theorem pure_cast {e : Expr} {t : Ty} (h : Pure T C e) : Pure T C (.cast e t) := fun vs => by mt [h vs]

theorem pure_infer {e : Expr} (h : Pure T C e) : Pure T C (.castInfer e) := fun vs => by mt [h vs]

theorem pure_var (x : String) : Pure T C (.var x) := fun vs => by mt []

theorem value_pure (f : Field) : Pure T C (valueTok f) := by
  intro vs
  unfold valueTok
  split <;> mt []

theorem return_pure (B : Bitfield) (f : Field) : Pure T C (returnTok B f) := by
  unfold returnTok
  split
  · intro vs; mt []
  · intro vs; mt []
  · intro vs; mt []
  · split
    · exact unpack_pure _ _ _ (pure_var _)
    · exact pure_var _

theorem zero_pure (B : Bitfield) (f : Field) : Pure T C (zeroTok B f) := by
  intro vs
  unfold zeroTok
  split
  · mt []
  · mt []
  · mt []
  · split <;> mt []

theorem Fine.setterCall {B : Bitfield} {f : Field} {e : Expr} {b : Bool} (he : Pure T C e) :
    Fine T C (rootName b) (setterCallTok B f e b) := by
  unfold setterCallTok
  split
  · exact .method he
  · exact .method (pure_infer he)
  · exact .method he
  · split
    · exact .method (unpack_pure _ _ _ he)
    · exact .method he

theorem rootName_ne {b : Bool} {y : String} (h1 : y ≠ "this") (h2 : y ≠ "self") : y ≠ rootName b := by
  cases b
  · exact h1
  · exact h2

theorem Fine.ite {x : String} {c : Expr} {a b : Stmt} (hc : Pure T C c) (ha : Fine T C x a) (hb : Fine T C x b) :
    Fine T C x (.ite c a b) := by
  intro vs h
  have h1 := hc vs
  have h2 := (ha vs h).1
  have h3 := (hb vs h).1
  by_cases hs : b = .skip
  · subst hs
    rw [stmtSyn]
    exact ⟨by simp [stmtsMut, exprMut, h1, h2], h⟩
  · rw [show stmtSyn C (.ite c a b) = [.expr (.ite (exprSyn C c) (stmtSyn C a) (some (stmtSyn C b))) false] by
      rw [stmtSyn]; exact hs]
    exact ⟨by simp [stmtsMut, exprMut, h1, h2, h3], h⟩

theorem Fine.assignInner {b : Bool} {op : Option BinOp} {e : Expr} (he : Pure T C e) :
    Fine T C (rootName b) (.assignInner b op e) := by
  intro vs h
  simp [stmtSyn, stmtsMut, after, innerSyn_mut, he vs, inner_assignable h, h]

theorem Fine.assignInnerElem {b : Bool} {op : Option BinOp} {i e : Expr} (hi : Pure T C i) (he : Pure T C e) :
    Fine T C (rootName b) (.assignInnerElem b i op e) := by
  intro vs h
  have := index_assignable (C := C) (i := exprSyn C i) h
  simp [stmtSyn, stmtsMut, exprMut, after, he vs, hi vs, innerSyn_mut, this, h]

theorem storeBit_fine {c o : Expr} {b : Bool} (hc : Pure T C c) (ho : Pure T C o) :
    Fine T C (rootName b) (storeBitTok c o b) :=
  .ite hc (.assignInner fun vs => by mt [ho _]) (.assignInner fun vs => by mt [ho _])

theorem storeByteBit_fine {c i k : Expr} {b : Bool} (hc : Pure T C c) (hi : Pure T C i) (hk : Pure T C k) :
    Fine T C (rootName b) (storeByteBitTok c i k b) :=
  .ite hc (.assignInnerElem hi fun vs => by mt [hk _]) (.assignInnerElem hi fun vs => by mt [hk _])

theorem after_storeByteBit {c i k : Expr} {b : Bool} (vs : Vars) : after vs (stmtSyn C (storeByteBitTok c i k b)) = vs := rfl

theorem Can.cons' {b : Bool} {y : String} {h : Hold} {vs : Vars} (hc : Can (rootName b) vs) (h1 : y ≠ "this")
    (h2 : y ≠ "self") : Can (rootName b) ((y, h) :: vs) := hc.cons (rootName_ne h1 h2)

macro "cn" : tactic => `(tactic| ((repeat' refine Can.cons' ?_ (by decide) (by decide)); assumption))

theorem mask_pure {w : Nat} {e : Expr} (h : Pure T C e) : Pure T C (maskTok w e) := fun vs => by mt [maskTok, h vs]

theorem mask128_pure {e : Expr} (h : Pure T C e) : Pure T C (mask128Tok e) := fun vs => by mt [mask128Tok, h vs]

theorem storeBits_fine {o : Expr} {b : Bool} (ho : Pure T C o) : Fine T C (rootName b) (storeBitsTok o b) :=
  .assignInner fun vs => by mt [ho _]

theorem Fine.direct {B : Bitfield} {f : Field} {e : Expr} {b : Bool} (he : Pure T C e) :
    Fine T C (rootName b) (directTok B f e b) := by
  have hb := bits_pure (T := T) (C := C) f b
  have ho := off_pure (T := T) (C := C) f b
  unfold directTok
  simp only []
  generalize bitsTok f b = bits at hb ⊢
  generalize offTok f b = off at ho ⊢
  have scalar : ∀ v, Pure T C v → Fine T C (rootName b) (.scope (.all
        [.letS "val_to_set" none v,
         .letS "i" (some (.u 32)) (.lit 0 none) true,
         .loop (.bin .lt (.var "i") bits) (.all
           [.letS "bit_index" none (.bin .add off (.var "i")),
            .letS "byte_idx" none (.bin .div (.var "bit_index") (.lit 8 none)),
            .letS "bit_in_byte" none (.bin .rem (.var "bit_index") (.lit 8 none)),
            .letS "bit_val" none (.bin .and (.bin .shr (.var "val_to_set") (.var "i")) (.lit 1 none)),
            storeByteBitTok (.bin .eq (.var "bit_val") (.lit 1 none)) (.cast (.var "byte_idx") .usize)
              (.var "bit_in_byte") b,
            incr "i"])])) := by
    intro v hv vs h
    have hs := fun vs => (storeByteBit_fine (T := T) (C := C) (b := b) (c := .bin .eq (.var "bit_val") (.lit 1 none))
      (i := .cast (.var "byte_idx") .usize) (k := .var "bit_in_byte") (fun vs => by mt []) (pure_cast (pure_var _))
      (pure_var _) vs · |>.1)
    refine ⟨?_, h⟩
    rw [show stmtSyn C (.scope _) = _ by rw [stmtSyn]]
    mt [hv _, hb _, ho _, stmtsMut_append, after_storeByteBit]
    exact hs _ (by cn)
  cases B.backing with
  | arr n =>
    cases hf : f.ty with
    | array len =>
      intro vs h
      have hs := fun vs => (storeByteBit_fine (T := T) (C := C) (b := b) (c := .bin .eq (.var "src_bit") (.lit 1 none))
        (i := .var "byte_idx") (k := .var "bit_in_byte") (fun vs => by mt []) (pure_var _) (pure_var _) vs · |>.1)
      refine ⟨?_, h⟩
      rw [show stmtSyn C (.scope _) = _ by rw [stmtSyn]]
      mt [he _, hb _, ho _, stmtsMut_append, after_storeByteBit]
      exact hs _ (by cn)
    | int t =>
      have hv : ∀ t : IntTy, Pure T C (match DataType.int t with
           | .int .bool => .ite e (.lit 1 (some (.u 128))) (.lit 0 (some (.u 128)))
           | .custom _ => .cast (.intoBits e) (.u 128)
           | _ => .cast e (.u 128)) := fun t => by
        intro vs
        cases t <;> mt [he _]
      exact scalar _ (hv t)
    | custom c => exact scalar (.cast (.intoBits e) (.u 128)) fun vs => by mt [he _]
  | int w =>
    have hm : Fine T C (rootName b) (.letS "mask" none (maskTok w bits)) :=
      .letS (mask_pure hb) (rootName_ne (by decide) (by decide))
    have hfb : ∀ t e, Pure T C e → Fine T C (rootName b) (.letS "field_bits" t e) := fun t e h =>
      .letS h (rootName_ne (by decide) (by decide))
    cases hf : f.ty with
    | array len => exact .all (by
        intro s hs
        simp only [List.mem_cons, List.not_mem_nil, or_false] at hs
        rcases hs with rfl | rfl | rfl
        · exact hm
        · exact hfb _ _ he
        · exact storeBits_fine ho)
    | custom c => exact .all (by
        intro s hs
        simp only [List.mem_cons, List.not_mem_nil, or_false] at hs
        rcases hs with rfl | rfl | rfl
        · exact hm
        · exact hfb _ _ fun vs => by mt [he vs]
        · exact storeBits_fine ho)
    | int t =>
      cases t with
      | bool => exact storeBit_fine he ho
      | _ => exact .all (by
        intro s hs
        simp only [List.mem_cons, List.not_mem_nil, or_false] at hs
        rcases hs with rfl | rfl | rfl
        · exact hm
        · exact hfb _ _ he
        · exact storeBits_fine ho)

/-! ## Statements that need no permission -/

/-- Variables that are declared once. -/
def constant : List String := ["this", "self", "debug"]

/-- The statement changes nothing that was there before, and does not declare `this`, `self` and `debug` again. -/
def Calm (T : String → Bool) (C : Style) (s : Stmt) : Prop :=
  ∀ vs, stmtsMut T vs (stmtSyn C s) = true ∧ ∀ x ∈ constant, holdOf x (after vs (stmtSyn C s)) = holdOf x vs

theorem rootName_mem (b : Bool) : rootName b ∈ constant := by cases b <;> decide

theorem Calm.fine {s : Stmt} {b : Bool} (h : Calm T C s) : Fine T C (rootName b) s := fun vs hc =>
  ⟨(h vs).1, by simp only [Can, (h vs).2 _ (rootName_mem b)]; exact hc⟩

theorem Calm.skip : Calm T C .skip := fun _ => ⟨rfl, fun _ _ => rfl⟩

theorem Calm.seq {a b : Stmt} (ha : Calm T C a) (hb : Calm T C b) : Calm T C (.seq a b) := by
  intro vs
  obtain ⟨h1, h2⟩ := ha vs
  obtain ⟨h3, h4⟩ := hb (after vs (stmtSyn C a))
  rw [show stmtSyn C (.seq a b) = stmtSyn C a ++ stmtSyn C b by rw [stmtSyn], stmtsMut_append, after_append, h1, h3]
  exact ⟨rfl, fun x hx => (h4 x hx).trans (h2 x hx)⟩

theorem Calm.all {ss : List Stmt} (h : ∀ s ∈ ss, Calm T C s) : Calm T C (.all ss) := by
  induction ss with
  | nil => exact Calm.skip
  | cons s ss ih => exact (h s (.head _)).seq (ih fun s hs => h s (.tail _ hs))

theorem Calm.all1 {a : Stmt} (ha : Calm T C a) : Calm T C (.all [a]) := ha.seq .skip

theorem Calm.all2 {a b : Stmt} (ha : Calm T C a) (hb : Calm T C b) : Calm T C (.all [a, b]) := ha.seq hb.all1

theorem Calm.all3 {a b c : Stmt} (ha : Calm T C a) (hb : Calm T C b) (hc : Calm T C c) : Calm T C (.all [a, b, c]) :=
  ha.seq (hb.all2 hc)

theorem Calm.letS {y : String} {t : Option Ty} {e : Expr} {mu : Bool} (he : Pure T C e) (hn : y ∉ constant) :
    Calm T C (.letS y t e mu) := by
  intro vs
  have h3 : ∃ t' e', stmtSyn C (.letS y t e mu) = [.letS y t' e' mu] ∧ exprMut T vs e' = true := by
    cases t with
    | none => exact ⟨none, _, rfl, he vs⟩
    | some t =>
      by_cases hz : ∃ n k, t = .arr n ∧ e = .zeros k
      · obtain ⟨n, k, rfl, rfl⟩ := hz
        exact ⟨_, _, rfl, rfl⟩
      · refine ⟨if annotated y t then some (tySyn t) else none, exprSyn C e, ?_, he vs⟩
        rw [stmtSyn]
        intro n k h3 h4
        exact hz ⟨n, k, h4, h3⟩
  obtain ⟨t', e', h3, h4⟩ := h3
  rw [h3]
  refine ⟨by simp [stmtsMut, h4], fun x hx => ?_⟩
  have : y ≠ x := fun h => hn (h ▸ hx)
  simp [after, holdOf, this]

theorem Calm.ite {c : Expr} {a b : Stmt} (hc : Pure T C c) (ha : Calm T C a) (hb : Calm T C b) : Calm T C (.ite c a b) := by
  intro vs
  have h1 := hc vs
  have h2 := (ha vs).1
  have h3 := (hb vs).1
  by_cases hs : b = .skip
  · subst hs
    rw [stmtSyn]
    exact ⟨by simp [stmtsMut, exprMut, h1, h2], fun _ _ => rfl⟩
  · rw [show stmtSyn C (.ite c a b) = [.expr (.ite (exprSyn C c) (stmtSyn C a) (some (stmtSyn C b))) false] by
      rw [stmtSyn]; exact hs]
    exact ⟨by simp [stmtsMut, exprMut, h1, h2, h3], fun _ _ => rfl⟩

theorem Calm.ret {e : Expr} (he : Pure T C e) : Calm T C (.ret e) := by
  intro vs
  have := he vs
  by_cases h1 : e = .unit
  · subst h1; exact ⟨rfl, fun _ _ => rfl⟩
  by_cases h2 : ∃ n, e = .zeros n
  · obtain ⟨n, rfl⟩ := h2; exact ⟨rfl, fun _ _ => rfl⟩
  rw [show stmtSyn C (.ret e) = [.expr (.ret (some (exprSyn C e))) true] by
    rw [stmtSyn]
    · exact h1
    · exact fun n h => h2 ⟨n, h⟩]
  exact ⟨by simp [stmtsMut, exprMut, this], fun _ _ => rfl⟩

theorem notIf_pure {i : Bool} {e : Expr} (h : Pure T C e) : Pure T C (notIf i e) := by
  intro vs
  cases i <;> mt [notIf, h vs]

theorem extract_calm (B : Bitfield) (f : Field) (src : Source) (cast inv b : Bool) :
    Calm T C (extractTok B f src cast inv b) := by
  have hb := bits_pure (T := T) (C := C) f b
  have ho := off_pure (T := T) (C := C) f b
  have hs := source_pure (T := T) (C := C) src b
  have hl : ∀ {y : String} {e : Expr}, Pure T C e → y ∉ constant → Calm T C (.letS y none e) :=
    fun h hn => .letS h hn
  unfold extractTok
  simp only []
  generalize bitsTok f b = bits at hb ⊢
  generalize offTok f b = off at ho ⊢
  generalize sourceTok src b = source at hs ⊢
  cases B.backing with
  | int w =>
    refine .all3 (hl (mask_pure hb) (by decide)) ?_ ?_
    · split
      · split
        · exact hl (fun vs => by mt []) (by decide)
        · exact hl (pack_pure _ _) (by decide)
        · exact hl (pure_cast (pure_var _)) (by decide)
      · exact .skip
    · have h1 := notIf_pure (i := inv) hs
      have h2 := notIf_pure (i := inv) (T := T) (C := C) (e := .bin .shr source off) fun vs => by mt [hs _, ho _]
      split
      · exact hl (fun vs => by mt [h1 vs]) (by decide)
      · exact hl (fun vs => by mt [h2 vs]) (by decide)
  | arr n =>
    have h1 : Pure T C (.block (.letS "val" none (.bin .and (.var "bits") (.var "mask"))) (notIf inv (.var "val"))) :=
      fun vs => by cases inv <;> mt [notIf]
    simp only []
    split
    · split
      · exact hl (pure_cast (pure_var _)) (by decide)
      · exact hl (pure_var _) (by decide)
      · refine .all3 (hl (y := "bits") (fun vs => by mt []) (by decide)) (hl (y := "mask") (mask128_pure hb) (by decide))
          (hl (y := "value") h1 (by decide))
      · refine .all2 (hl (y := "mask") (pure_cast (mask128_pure hb)) (by decide)) (hl (y := "value") h1 (by decide))
    · split
      · exact hl (readArr_pure _ _ _ _ _ hs hb ho) (by decide)
      · exact hl (read_pure _ _ _ _ hs hb ho) (by decide)

theorem check_calm : Calm T C checkTok := .ite (fun vs => by mt []) (.ret fun vs => by mt []) .skip

theorem signedCheck_calm (f : Field) : Calm T C (signedCheckTok f) := by
  unfold signedCheckTok
  split
  · split
    · exact .skip
    · exact .ite (fun vs => by mt []) (.ret fun vs => by mt []) .skip
  · exact .skip

theorem signExtend_calm (f : Field) : Calm T C (signExtendTok f) := by
  unfold signExtendTok
  split
  · exact .skip
  · split
    · exact .skip
    · split
      · exact .all3 (.letS (fun vs => by mt []) (by decide)) (.letS (fun vs => by mt []) (by decide))
          (.letS (fun vs => by mt []) (by decide))
      · exact .skip

theorem builderSet_fine (f : Field) (check : Bool) : Fine T C "self" (builderSetTok f check) := by
  intro vs h
  have hm : ∀ t e, Pure T C e → exprMut T vs (exprSyn C (.method true t e)) = true := fun t e he =>
    method_mut he (b := true) h
  have hi : Pure T C (.castInfer (.var "bits")) := pure_infer (pure_var _)
  have key : ∀ e, exprMut T vs (exprSyn C e) = true →
      stmtsMut T vs (stmtSyn C (if check then .tryS e else .expr e)) = true ∧
        Can "self" (after vs (stmtSyn C (if check then .tryS e else .expr e))) := by
    intro e he
    cases check <;> simp [stmtSyn, stmtsMut, exprMut, he, armsMut, exprsMut, names, after, h]
  unfold builderSetTok
  refine key _ ?_
  split
  · exact hm _ _ (pure_var _)
  · exact hm _ _ hi
  · exact hm _ _ (pure_var _)

theorem setFromVar_fine (B : Bitfield) (f : Field) (u c k b : Bool) : Fine T C (rootName b) (setFromVarTok B f u c k b) := by
  unfold setFromVarTok
  simp only []
  split
  · rename_i hb
    have : b = true := by cases b <;> simp_all
    subst this
    exact builderSet_fine f k
  · refine .seq ?_ (.seq (extract_calm B f .variable c false b).fine (.seq ?_ (.seq ?_ .skip)))
    · split
      · exact (signedCheck_calm f).fine
      · exact .skip
    · split
      · exact check_calm.fine
      · exact .skip
    · split
      · exact .setterCall (value_pure f)
      · exact .direct (value_pure f)

theorem setAll_fine (B : Bitfield) (p : Protection) : Fine T C "this" (setAllTok B p) := by
  refine .all fun s hs => ?_
  obtain ⟨f, -, rfl⟩ := List.mem_map.mp hs
  exact setFromVar_fine B f true false false false

/-- The defaults change nothing. -/
def QuietDefaults (T : String → Bool) (C : Style) (B : Bitfield) : Prop :=
  ∀ f ∈ B.fields, f.hasDefault = true → ∀ vs, exprMut T vs (C.user f.offset) = true

theorem setDefault_fine {B : Bitfield} (hu : QuietDefaults T C B) {f : Field} (hf : f ∈ B.fields) : Fine T C "this" (setDefaultTok B f) := by
  unfold setDefaultTok
  split
  · rename_i v hv
    have hp : Pure T C (.user f.offset f.ty v) := fun vs => by
      rw [exprSyn]
      exact hu f hf (by simp [Field.hasDefault, hv]) vs
    split
    · exact Fine.setterCall (b := false) hp
    · exact Fine.direct (b := false) hp
  · exact .skip

theorem setDefaults_fine {B : Bitfield} (hu : QuietDefaults T C B) : Fine T C "this" (setDefaultsTok B) := by
  refine .all fun s hs => ?_
  obtain ⟨f, hf, rfl⟩ := List.mem_map.mp hs
  exact setDefault_fine hu (List.mem_filter.mp hf).1

theorem setZero_fine (B : Bitfield) (f : Field) : Fine T C "this" (setZeroTok B f) := by
  unfold setZeroTok
  split
  · exact Fine.setterCall (b := false) (zero_pure B f)
  · exact Fine.direct (b := false) (zero_pure B f)

theorem setZeros_fine (B : Bitfield) (d : Bool) : Fine T C "this" (setZerosTok B d) := by
  refine .all fun s hs => ?_
  obtain ⟨f, -, rfl⟩ := List.mem_map.mp hs
  exact setZero_fine B f

end Bf.Text
