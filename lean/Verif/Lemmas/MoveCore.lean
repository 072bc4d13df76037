import Verif.Lemmas.Move

/-! # Parts of the emitted code give nothing away -/

namespace Bf.Text

open Rust Quote

variable {C : Style} {R : Facts} {S : List String} {B : Bitfield} {f : Field} {b : Bool}

/-- Variables that may be of types that are not `Copy`. -/
def looked : List String := ["this", "self", "__src", "slice", "debug", "f"]

/-- Variables that may be gone. -/
def dead (b : Bool) : List String := if b then ["field_bits"] else ["self", "field_bits"]

/-- The stored value is `Copy`. -/
def plainStore (B : Bitfield) : Bool :=
  match B.backing with
  | .int _ => true
  | .arr _ => !B.heap

/-- Offsets of fields with defaults. -/
def hasUser (B : Bitfield) (k : Nat) : Bool := B.fields.any fun f => f.hasDefault && decide (f.offset = k)

/-- The surroundings of the functions of a bitfield. -/
def Around (C : Style) (R : Facts) (B : Bitfield) (b : Bool) (S : List String) : Prop :=
  Setting C R looked (dead b) S (plainStore B) (hasUser B)

/-- The expression is quiet. -/
abbrev QE (B : Bitfield) (b : Bool) (S : List String) (e : Expr) : Prop :=
  quietE looked (dead b) S (plainStore B) (hasUser B) e = true

/-- The statement is quiet. -/
abbrev QS (B : Bitfield) (b : Bool) (S : List String) (s : Stmt) : Prop :=
  quietS looked (dead b) S (plainStore B) (hasUser B) s = true

/-- The statement gives nothing away. -/
def Moves (C : Style) (R : Facts) (b : Bool) (S : List String) (s : Stmt) : Prop :=
  ∀ vs, Ok looked (dead b) S vs → RunsS C R looked (dead b) S vs s

theorem Moves.of (hs : Around C R B b S) {s : Stmt} (h : QS B b S s) : Moves C R b S s := fun vs ho => quietS_runs hs s vs h ho

theorem Moves.skip : Moves C R b S .skip := fun _ ho =>
  ⟨[], .copy, ho, by simp only [stmtSyn, runS, List.nil_append], fun _ _ => by simp only [stmtSyn, List.nil_append]⟩

theorem Moves.seq {s t : Stmt} (h1 : Moves C R b S s) (h2 : Moves C R b S t) : Moves C R b S (.seq s t) := fun vs ho =>
  (h1 vs ho).seq h2

theorem Moves.all {ss : List Stmt} (h : ∀ s ∈ ss, Moves C R b S s) : Moves C R b S (.all ss) := by
  induction ss with
  | nil => exact .skip
  | cons s ss ih => exact (h s (.head _)).seq (ih fun s hs => h s (.tail _ hs))

theorem Moves.all1 {s : Stmt} (h : Moves C R b S s) : Moves C R b S (.all [s]) := h.seq .skip

theorem Moves.all2 {s t : Stmt} (h1 : Moves C R b S s) (h2 : Moves C R b S t) : Moves C R b S (.all [s, t]) := h1.seq h2.all1

theorem Moves.all3 {s t u : Stmt} (h1 : Moves C R b S s) (h2 : Moves C R b S t) (h3 : Moves C R b S u) :
    Moves C R b S (.all [s, t, u]) := h1.seq (h2.all2 h3)

theorem mem_looked {x : String} :
    x ∈ looked ↔ x = "this" ∨ x = "self" ∨ x = "__src" ∨ x = "slice" ∨ x = "debug" ∨ x = "f" := by simp [looked]

theorem mem_dead {x : String} : x ∈ dead b ↔ b = false ∧ x = "self" ∨ x = "field_bits" := by cases b <;> simp [dead]

theorem root_dead : rootName b ∉ dead b := by cases b <;> simp [dead, rootName]

theorem root_self : b = true ∨ ¬ rootName b = "self" := by cases b <;> simp [rootName]

theorem root_bits : ¬ rootName b = "field_bits" := by cases b <;> simp [rootName]

theorem see_var {D : List String} {x : String} : seeE D (.var x) = decide (x ∉ D) := rfl

theorem see_inner : seeE (dead b) (.inner b) = true := by simp [seeE, root_dead]

/-- Computing what is quiet. -/
macro "qt" "[" ts:Lean.Parser.Tactic.simpLemma,* "]" : tactic =>
  `(tactic| simp [QE, QS, quietS, quietE, see_var, see_inner, mem_looked, mem_dead, root_self, root_bits, copyK, bound, setTag, Stmt.all, incr, $ts,*])

theorem bits_quiet : QE B b S (bitsTok f b) := by
  unfold bitsTok
  split <;> qt []

theorem off_quiet : QE B b S (offTok f b) := by
  unfold offTok
  split <;> qt []

theorem mask_quiet {w : Nat} {e : Expr} (h : QE B b S e) : QE B b S (maskTok w e) := by qt [maskTok, h]

theorem mask128_quiet {e : Expr} (h : QE B b S e) : QE B b S (mask128Tok e) := by qt [mask128Tok, h]

theorem mask128_copy (e : Expr) : copyK (mask128Tok e) = true := by
  simp only [mask128Tok, copyK]
  decide +kernel

theorem unpack_quiet {x : String} {e : Expr} {n : Nat} (hx : x ∈ ["__val", "__int_val"]) (h : QE B b S e) : QE B b S (unpackTok x e n) := by
  simp only [List.mem_cons, List.not_mem_nil, or_false] at hx
  rcases hx with rfl | rfl <;> qt [unpackTok, byteTok, h]

theorem pack_quiet {w n : Nat} (h : "bits" ∈ S) : QE B b S (packTok w n) := by
  qt [packTok, h]

theorem readArr_quiet {s e o : Expr} {n : Nat} {inv : Bool} (h1 : seeE (dead b) s = true) (h2 : QE B b S e) (h3 : QE B b S o) :
    QE B b S (readArrTok s e o n inv) := by
  cases inv <;> qt [readArrTok, h1, h2, h3]

theorem read_quiet {s e o : Expr} {inv : Bool} (h1 : seeE (dead b) s = true) (h2 : QE B b S e) (h3 : QE B b S o) :
    QE B b S (readTok s e o inv) := by
  have := mask128_quiet h2
  cases inv <;> qt [readTok, h1, h2, h3, this]

theorem notIf_quiet {i : Bool} {e : Expr} (h : QE B b S e) : QE B b S (notIf i e) := by
  cases i <;> qt [notIf, h]

theorem value_quiet : QE B b S (valueTok f) := by
  unfold valueTok
  split <;> qt []

theorem return_quiet : QE B b S (returnTok B f) := by
  unfold returnTok
  split
  · qt []
  · qt []
  · qt []
  · split
    · exact unpack_quiet (by decide) (by qt [])
    · qt []

theorem zero_quiet : QE B b S (zeroTok B f) := by
  unfold zeroTok
  split
  · qt []
  · qt []
  · qt []
  · split <;> qt []

theorem setterCall_quiet {e : Expr} (h : QE B b S e) : QS B b S (setterCallTok B f e b) := by
  have hu := fun n => unpack_quiet (x := "__int_val") (n := n) (by decide) h
  unfold setterCallTok
  split
  · qt [h]
  · qt [h]
  · qt [h]
  · split
    · qt [hu]
    · qt [h]

theorem storeBit_quiet {c o : Expr} (hp : plainStore B = true) (hc : QE B b S c) (ho : QE B b S o) :
    QS B b S (storeBitTok c o b) := by
  simp only [QE, hp] at hc ho
  qt [storeBitTok, hc, ho, hp]

theorem storeByteBit_quiet {c i k : Expr} (hc : QE B b S c) (hi : QE B b S i) (hk : QE B b S k) :
    QS B b S (storeByteBitTok c i k b) := by
  qt [storeByteBitTok, hc, hi, hk]

/-- `field_bits` is used once. -/
theorem storeBits_run (hs : Around C R B b S) (hp : plainStore B = true) {o : Expr} (ho : QE B b S o) {vs : Kinds} {k : Kind}
    (hv : Ok looked (dead b) S vs) (hk : k ≠ .gone) :
    ∃ k', runE R false (("field_bits", k) :: vs) (exprSyn C (.bin .or
      (.bin .and (.inner b) (.not (.bin .shl (.var "mask") o))) (.bin .shl (.bin .and (.var "field_bits") (.var "mask")) o))) =
        some (.copy, ("field_bits", k') :: vs) := by
  have hd : "field_bits" ∈ dead b := by cases b <;> decide
  have hv' : ∀ k, Ok looked (dead b) S (("field_bits", k) :: vs) := fun k => hv.push (.inl hd)
  have h1 : ∀ k, ∃ k', runE R false (("field_bits", k) :: vs) (exprSyn C (.bin .and (.inner b) (.not (.bin .shl (.var "mask") o)))) =
      some (k', ("field_bits", k) :: vs) := fun k => by
    obtain ⟨k', -, -, h⟩ := quietE_runs hs (.bin .and (.inner b) (.not (.bin .shl (.var "mask") o))) _ (by
      simp only [QE, hp] at ho
      qt [ho, hp]) (hv' k)
    exact ⟨k', h⟩
  have h2 : ∀ k, ∃ k', runE R false (("field_bits", k) :: vs) (exprSyn C (.var "mask")) = some (k', ("field_bits", k) :: vs) := fun k => by
    obtain ⟨k', -, -, h⟩ := quietE_runs hs (.var "mask") _ (by qt []) (hv' k)
    exact ⟨k', h⟩
  have h3 : ∀ k, ∃ k', runE R false (("field_bits", k) :: vs) (exprSyn C o) = some (k', ("field_bits", k) :: vs) := fun k => by
    obtain ⟨k', -, -, h⟩ := quietE_runs hs o _ ho (hv' k)
    exact ⟨k', h⟩
  have h4 : ∃ k1 k2, runE R false (("field_bits", k) :: vs) (exprSyn C (.var "field_bits")) = some (k1, ("field_bits", k2) :: vs) := by
    cases k with
    | gone => exact absurd rfl hk
    | _ => exact ⟨_, _, by simp [exprSyn, names, runE, useVar, kindOf, take]; exact ⟨rfl, rfl⟩⟩
  obtain ⟨k1, h1⟩ := h1 k
  obtain ⟨k2, k3, h4⟩ := h4
  obtain ⟨k4, h2⟩ := h2 k3
  obtain ⟨k5, h3⟩ := h3 k3
  refine ⟨k3, ?_⟩
  rw [exprSyn, runE, h1, Option.bind_some]
  rw [exprSyn, runE, exprSyn, runE, h4, Option.bind_some, h2, Option.map_some, Option.bind_some, h3, Option.map_some,
    Option.map_some]

/-- `let field_bits = e; this.0 = ..` -/
theorem storeBits_moves (hs : Around C R B b S) (hp : plainStore B = true) {o e : Expr} {t : Option Ty} (ho : QE B b S o)
    (he : QE B b S e) (hn : ∀ n, e ≠ .zeros n) : Moves C R b S (.all [.letS "field_bits" t e, storeBitsTok o b]) := by
  intro vs hv
  have hd : "field_bits" ∈ dead b := by cases b <;> decide
  obtain ⟨k, h1, -, h2⟩ := quietE_runs hs e vs he hv
  rcases let_syn (C := C) "field_bits" t e false with ⟨n, m, rfl, rfl⟩ | ⟨t', ht⟩
  · exact absurd rfl (hn m)
  obtain ⟨k', h3⟩ := storeBits_run hs hp ho hv (heldKind_ne (vs := vs) (e := exprSyn C e) h1)
  have h4 : ∀ k, runE R true (("field_bits", k) :: vs) (innerSyn C b) = some (.copy, ("field_bits", k) :: vs) := fun k =>
    runE_inner hs (hv.push (.inl hd)) root_dead (.inl rfl)
  have e1 : stmtSyn C (.all [.letS "field_bits" t e, storeBitsTok o b]) =
      [.letS "field_bits" t' (exprSyn C e) false, .assign none (innerSyn C b) (exprSyn C (.bin .or
      (.bin .and (.inner b) (.not (.bin .shl (.var "mask") o))) (.bin .shl (.bin .and (.var "field_bits") (.var "mask")) o)))] := by
    rw [Stmt.all, stmtSyn, ht, Stmt.all, Stmt.all, stmtSyn, storeBitsTok, stmtSyn]
    simp only [stmtSyn, Option.map_none, List.append_nil, List.singleton_append]
  refine ⟨[("field_bits", k')], .copy, hv.push (.inl hd), ?_, fun rest _ => ?_⟩
  · rw [e1, runS, h2, Option.bind_some, runS, h3, Option.bind_some, h4, Option.bind_some, runS]; rfl
  · rw [e1, List.cons_append, List.cons_append, runS, h2, Option.bind_some, runS, h3, Option.bind_some, h4, Option.bind_some]; rfl

theorem Moves.direct (hs : Around C R B b S) {e : Expr} (he : QE B b S e) (hn : ∀ n, e ≠ .zeros n ∨ plainStore B = false ∨ (∃ n, B.backing = .arr n)) :
    Moves C R b S (directTok B f e b) := by
  have hb := bits_quiet (B := B) (b := b) (S := S) (f := f)
  have ho := off_quiet (B := B) (b := b) (S := S) (f := f)
  unfold directTok
  simp only []
  generalize bitsTok f b = bits at hb ⊢
  generalize offTok f b = off at ho ⊢
  cases hB : B.backing with
  | arr n =>
    have h1 := fun c i k h1 h2 h3 => storeByteBit_quiet (B := B) (b := b) (S := S) (c := c) (i := i) (k := k) h1 h2 h3
    cases hf : f.ty with
    | array len =>
      refine .of hs ?_
      have h1 := h1 (.bin .eq (.var "src_bit") (.lit 1 none)) (.var "byte_idx") (.var "bit_in_byte") (by qt []) (by qt []) (by qt [])
      qt [he, hb, ho, h1]
    | int t =>
      refine .of hs ?_
      have h1 := h1 (.bin .eq (.var "bit_val") (.lit 1 none)) (.cast (.var "byte_idx") .usize) (.var "bit_in_byte") (by qt []) (by qt []) (by qt [])
      cases t <;> qt [he, hb, ho, h1]
    | custom c =>
      refine .of hs ?_
      have h1 := h1 (.bin .eq (.var "bit_val") (.lit 1 none)) (.cast (.var "byte_idx") .usize) (.var "bit_in_byte") (by qt []) (by qt []) (by qt [])
      qt [he, hb, ho, h1]
  | int w =>
    have hp : plainStore B = true := by simp [plainStore, hB]
    have hm : Moves C R b S (.letS "mask" none (maskTok w bits)) := .of hs (by
      have := mask_quiet (w := w) hb
      simp only [maskTok] at this
      qt [this, maskTok, hb])
    have hn' : ∀ n, e ≠ .zeros n := fun n => by
      rcases hn n with h | h | ⟨n, h⟩
      · exact h
      · simp [hp] at h
      · simp [hB] at h
    cases hf : f.ty with
    | array len => exact hm.seq (storeBits_moves hs hp ho he hn')
    | custom c => exact hm.seq (storeBits_moves hs hp ho (e := .cast (.intoBits e) (.u w)) (by qt [he]) nofun)
    | int t =>
      cases t with
      | bool => exact .of hs (storeBit_quiet hp he ho)
      | _ => exact hm.seq (storeBits_moves hs hp ho he hn')

end Bf.Text
