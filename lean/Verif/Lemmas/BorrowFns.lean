import Verif.Lemmas.Borrow

/-! # What the emitted functions borrow -/

namespace Bf.Text

open Rust Quote

variable {P : Printer} {C : Style} {T : String → Bool} {H : Head} {tag : Tag} {B : Bitfield} {f : Field} {G : Gen}

/-- Computing the rule on what is written out, case by case. -/
macro "ld" "[" ts:Lean.Parser.Tactic.simpLemma,* "]" : tactic =>
  `(tactic| ((repeat' split) <;> simp [Stmt.all, incr, $ts,*]))

/-! ## The rule, constructor by constructor -/

@[simp] theorem lend_var {y : String} : lendE T C (.var y) = true := by rw [lendE]
@[simp] theorem touch_var {x : String} {y : String} : touchE C x (.var y) = decide (y = x) := by rw [touchE]
@[simp] theorem lend_inner {b : Bool} : lendE T C (.inner b) = true := by rw [lendE]
@[simp] theorem touch_inner {x : String} {b : Bool} : touchE C x (.inner b) = decide (rootName b = x) := by rw [touchE]
@[simp] theorem lend_whole {b : Bool} : lendE T C (.whole b) = true := by rw [lendE]
@[simp] theorem touch_whole {x : String} {b : Bool} : touchE C x (.whole b) = decide (rootName b = x) := by rw [touchE]
@[simp] theorem lend_lit {n : Nat} {t : Option Ty} : lendE T C (.lit n t) = true := by rw [lendE]
@[simp] theorem touch_lit {x : String} {n : Nat} {t : Option Ty} : touchE C x (.lit n t) = false := by rw [touchE]
@[simp] theorem lend_bool {b : Bool} : lendE T C (.bool b) = true := by rw [lendE]
@[simp] theorem touch_bool {x : String} {b : Bool} : touchE C x (.bool b) = false := by rw [touchE]
@[simp] theorem lend_const {b : Bool} {a : Accessor} {y : String} : lendE T C (.const b a y) = true := by rw [lendE]
@[simp] theorem touch_const {x : String} {b : Bool} {a : Accessor} {y : String} : touchE C x (.const b a y) = false := by rw [touchE]
@[simp] theorem lend_maxOf {w : Nat} : lendE T C (.maxOf w) = true := by rw [lendE]
@[simp] theorem touch_maxOf {x : String} {w : Nat} : touchE C x (.maxOf w) = false := by rw [touchE]
@[simp] theorem lend_bitsOf {w : Nat} : lendE T C (.bitsOf w) = true := by rw [lendE]
@[simp] theorem touch_bitsOf {x : String} {w : Nat} : touchE C x (.bitsOf w) = false := by rw [touchE]
@[simp] theorem lend_zeros {n : Nat} : lendE T C (.zeros n) = true := by rw [lendE]
@[simp] theorem touch_zeros {x : String} {n : Nat} : touchE C x (.zeros n) = false := by rw [touchE]
@[simp] theorem lend_bytes {l : List (BitVec 8)} : lendE T C (.bytes l) = true := by rw [lendE]
@[simp] theorem touch_bytes {x : String} {l : List (BitVec 8)} : touchE C x (.bytes l) = false := by rw [touchE]
@[simp] theorem lend_assoc {b : Bool} {t : Tag} : lendE T C (.assoc b t) = true := by rw [lendE]
@[simp] theorem touch_assoc {x : String} {b : Bool} {t : Tag} : touchE C x (.assoc b t) = false := by rw [touchE]
@[simp] theorem lend_unit : lendE T C (.unit) = true := by rw [lendE]
@[simp] theorem touch_unit {x : String} : touchE C x (.unit) = false := by rw [touchE]
@[simp] theorem lend_errE {m : String} : lendE T C (.errE m) = true := by rw [lendE]
@[simp] theorem touch_errE {x : String} {m : String} : touchE C x (.errE m) = false := by rw [touchE]
@[simp] theorem lend_not {e : Expr} : lendE T C (.not e) = lendE T C e := by rw [lendE]
@[simp] theorem touch_not {x : String} {e : Expr} : touchE C x (.not e) = touchE C x e := by rw [touchE]
@[simp] theorem lend_neg {e : Expr} : lendE T C (.neg e) = lendE T C e := by rw [lendE]
@[simp] theorem touch_neg {x : String} {e : Expr} : touchE C x (.neg e) = touchE C x e := by rw [touchE]
@[simp] theorem lend_castInfer {e : Expr} : lendE T C (.castInfer e) = lendE T C e := by rw [lendE]
@[simp] theorem touch_castInfer {x : String} {e : Expr} : touchE C x (.castInfer e) = touchE C x e := by rw [touchE]
@[simp] theorem lend_deref {e : Expr} : lendE T C (.deref e) = lendE T C e := by rw [lendE]
@[simp] theorem touch_deref {x : String} {e : Expr} : touchE C x (.deref e) = touchE C x e := by rw [touchE]
@[simp] theorem lend_boxNew {e : Expr} : lendE T C (.boxNew e) = lendE T C e := by rw [lendE]
@[simp] theorem touch_boxNew {x : String} {e : Expr} : touchE C x (.boxNew e) = touchE C x e := by rw [touchE]
@[simp] theorem lend_intoBits {e : Expr} : lendE T C (.intoBits e) = lendE T C e := by rw [lendE]
@[simp] theorem touch_intoBits {x : String} {e : Expr} : touchE C x (.intoBits e) = touchE C x e := by rw [touchE]
@[simp] theorem lend_swapBytes {e : Expr} : lendE T C (.swapBytes e) = lendE T C e := by rw [lendE]
@[simp] theorem touch_swapBytes {x : String} {e : Expr} : touchE C x (.swapBytes e) = touchE C x e := by rw [touchE]
@[simp] theorem lend_len {e : Expr} : lendE T C (.len e) = lendE T C e := by rw [lendE]
@[simp] theorem touch_len {x : String} {e : Expr} : touchE C x (.len e) = touchE C x e := by rw [touchE]
@[simp] theorem lend_okE {e : Expr} : lendE T C (.okE e) = lendE T C e := by rw [lendE]
@[simp] theorem touch_okE {x : String} {e : Expr} : touchE C x (.okE e) = touchE C x e := by rw [touchE]
@[simp] theorem lend_cast {e : Expr} {t : Ty} : lendE T C (.cast e t) = lendE T C e := by rw [lendE]
@[simp] theorem touch_cast {x : String} {e : Expr} {t : Ty} : touchE C x (.cast e t) = touchE C x e := by rw [touchE]
@[simp] theorem lend_fromBits {c : Codec} {e : Expr} : lendE T C (.fromBits c e) = lendE T C e := by rw [lendE]
@[simp] theorem touch_fromBits {x : String} {c : Codec} {e : Expr} : touchE C x (.fromBits c e) = touchE C x e := by rw [touchE]
@[simp] theorem lend_contains {m n : Nat} {e : Expr} : lendE T C (.contains m n e) = lendE T C e := by rw [lendE]
@[simp] theorem touch_contains {x : String} {m n : Nat} {e : Expr} : touchE C x (.contains m n e) = touchE C x e := by rw [touchE]
@[simp] theorem lend_orElse {a b : Expr} : lendE T C (.orElse a b) = (lendE T C a && lendE T C b) := by rw [lendE]
@[simp] theorem touch_orElse {x : String} {a b : Expr} : touchE C x (.orElse a b) = (touchE C x a || touchE C x b) := by rw [touchE]
@[simp] theorem lend_andAlso {a b : Expr} : lendE T C (.andAlso a b) = (lendE T C a && lendE T C b) := by rw [lendE]
@[simp] theorem touch_andAlso {x : String} {a b : Expr} : touchE C x (.andAlso a b) = (touchE C x a || touchE C x b) := by rw [touchE]
@[simp] theorem lend_index {a b : Expr} : lendE T C (.index a b) = (lendE T C a && lendE T C b) := by rw [lendE]
@[simp] theorem touch_index {x : String} {a b : Expr} : touchE C x (.index a b) = (touchE C x a || touchE C x b) := by rw [touchE]
@[simp] theorem lend_bin {op : BinOp} {a b : Expr} : lendE T C (.bin op a b) = (lendE T C a && lendE T C b) := by rw [lendE]
@[simp] theorem touch_bin {x : String} {op : BinOp} {a b : Expr} : touchE C x (.bin op a b) = (touchE C x a || touchE C x b) := by rw [touchE]
@[simp] theorem lend_ite {c a b : Expr} : lendE T C (.ite c a b) = (lendE T C c && lendE T C a && lendE T C b) := by rw [lendE]
@[simp] theorem touch_ite {x : String} {c a b : Expr} : touchE C x (.ite c a b) = (touchE C x c || touchE C x a || touchE C x b) := by rw [touchE]
@[simp] theorem lend_block {s : Stmt} {e : Expr} : lendE T C (.block s e) = (lendS T C s && lendE T C e) := by rw [lendE]
@[simp] theorem touch_block {x : String} {s : Stmt} {e : Expr} : touchE C x (.block s e) = (touchS C x s || touchE C x e) := by
  rw [touchE]
@[simp] theorem lend_method {b : Bool} {t : Tag} {e : Expr} :
    lendE T C (.method b t e) = (lendE T C e && !touchE C (rootName b) e) := by rw [lendE]
@[simp] theorem lend_skip : lendS T C (.skip) = true := by
  rw [lendS]
@[simp] theorem touch_skip {x : String} : touchS C x (.skip) = false := by
  rw [touchS]
@[simp] theorem lend_letThis : lendS T C (.letThis) = true := by
  rw [lendS]
@[simp] theorem touch_letThis {x : String} : touchS C x (.letThis) = decide ("self" = x) := by
  rw [touchS]
@[simp] theorem lend_moveThis {y : String} : lendS T C (.moveThis y) = true := by
  rw [lendS]
@[simp] theorem touch_moveThis {x : String} {y : String} : touchS C x (.moveThis y) = decide (y = x) := by
  rw [touchS]
@[simp] theorem lend_seq {a b : Stmt} : lendS T C (.seq a b) = (lendS T C a && lendS T C b) := by
  rw [lendS]
@[simp] theorem touch_seq {x : String} {a b : Stmt} : touchS C x (.seq a b) = (touchS C x a || touchS C x b) := by
  rw [touchS]
@[simp] theorem lend_let {y : String} {t : Option Ty} {e : Expr} {mu : Bool} : lendS T C (.letS y t e mu) = (lendE T C e && boundE T C e) := by
  rw [lendS]
@[simp] theorem touch_let {x : String} {y : String} {t : Option Ty} {e : Expr} {mu : Bool} : touchS C x (.letS y t e mu) = touchE C x e := by
  rw [touchS]
@[simp] theorem lend_init {b : Bool} {e : Expr} {mu : Bool} : lendS T C (.initThis b e mu) = (lendE T C e && fieldsLend T C.ignored) := by
  rw [lendS]
@[simp] theorem lend_ret {e : Expr} : lendS T C (.ret e) = lendE T C e := by
  rw [lendS]
@[simp] theorem touch_ret {x : String} {e : Expr} : touchS C x (.ret e) = touchE C x e := by
  rw [touchS]
@[simp] theorem lend_expr {e : Expr} : lendS T C (.expr e) = lendE T C e := by
  rw [lendS]
@[simp] theorem touch_expr {x : String} {e : Expr} : touchS C x (.expr e) = touchE C x e := by
  rw [touchS]
@[simp] theorem lend_try {e : Expr} : lendS T C (.tryS e) = lendE T C e := by
  rw [lendS]
@[simp] theorem lend_assign {y : String} {op : Option BinOp} {e : Expr} : lendS T C (.assign y op e) = lendE T C e := by
  rw [lendS]
@[simp] theorem touch_assign {x : String} {y : String} {op : Option BinOp} {e : Expr} : touchS C x (.assign y op e) = (decide (y = x) || touchE C x e) := by
  rw [touchS]
@[simp] theorem lend_assignInner {b : Bool} {op : Option BinOp} {e : Expr} : lendS T C (.assignInner b op e) = lendE T C e := by
  rw [lendS]
@[simp] theorem touch_assignInner {x : String} {b : Bool} {op : Option BinOp} {e : Expr} : touchS C x (.assignInner b op e) = (decide (rootName b = x) || touchE C x e) := by
  rw [touchS]
@[simp] theorem lend_assignElem {y : String} {op : Option BinOp} {i e : Expr} : lendS T C (.assignElem y i op e) = (lendE T C i && lendE T C e) := by
  rw [lendS]
@[simp] theorem touch_assignElem {x : String} {y : String} {op : Option BinOp} {i e : Expr} : touchS C x (.assignElem y i op e) = (decide (y = x) || touchE C x i || touchE C x e) := by
  rw [touchS]
@[simp] theorem lend_assignInnerElem {b : Bool} {op : Option BinOp} {i e : Expr} : lendS T C (.assignInnerElem b i op e) = (lendE T C i && lendE T C e) := by
  rw [lendS]
@[simp] theorem touch_assignInnerElem {x : String} {b : Bool} {op : Option BinOp} {i e : Expr} : touchS C x (.assignInnerElem b i op e) = (decide (rootName b = x) || touchE C x i || touchE C x e) := by
  rw [touchS]
@[simp] theorem lend_iteS {c : Expr} {a b : Stmt} : lendS T C (.ite c a b) = (lendE T C c && lendS T C a && lendS T C b) := by
  rw [lendS]
@[simp] theorem touch_iteS {x : String} {c : Expr} {a b : Stmt} : touchS C x (.ite c a b) = (touchE C x c || touchS C x a || touchS C x b) := by
  rw [touchS]
@[simp] theorem lend_loop {c : Expr} {s : Stmt} : lendS T C (.loop c s) = (lendE T C c && lendS T C s) := by
  rw [lendS]
@[simp] theorem touch_loop {x : String} {c : Expr} {s : Stmt} : touchS C x (.loop c s) = (touchE C x c || touchS C x s) := by
  rw [touchS]
@[simp] theorem lend_scope {s : Stmt} : lendS T C (.scope s) = lendS T C s := by
  rw [lendS]
@[simp] theorem touch_scope {x : String} {s : Stmt} : touchS C x (.scope s) = touchS C x s := by
  rw [touchS]
@[simp] theorem lend_debugField {y : String} {e : Expr} : lendS T C (.debugField y e) = (lendE T C e && !touchE C "debug" e) := by
  rw [lendS]
@[simp] theorem touch_debugField {x : String} {y : String} {e : Expr} : touchS C x (.debugField y e) = (decide ("debug" = x) || touchE C x e) := by
  rw [touchS]

@[simp] theorem root_self_lend : rootName true = "self" := (rfl)
@[simp] theorem root_this : rootName false = "this" := (rfl)

/-! ## What may be kept -/

@[simp] theorem bound_var {x : String} : boundE T C (.var x) = true := (rfl)
@[simp] theorem bound_inner {b : Bool} : boundE T C (.inner b) = true := (rfl)
@[simp] theorem bound_whole {b : Bool} : boundE T C (.whole b) = true := (rfl)
@[simp] theorem bound_lit {n : Nat} {t : Option Ty} : boundE T C (.lit n t) = true := (rfl)
@[simp] theorem bound_bool {b : Bool} : boundE T C (.bool b) = true := (rfl)
@[simp] theorem bound_not {e : Expr} : boundE T C (.not e) = true := (rfl)
@[simp] theorem bound_neg {e : Expr} : boundE T C (.neg e) = true := (rfl)
@[simp] theorem bound_bin {op : BinOp} {a b : Expr} : boundE T C (.bin op a b) = true := (rfl)
@[simp] theorem bound_orElse {a b : Expr} : boundE T C (.orElse a b) = true := (rfl)
@[simp] theorem bound_andAlso {a b : Expr} : boundE T C (.andAlso a b) = true := (rfl)
@[simp] theorem bound_cast {e : Expr} {t : Ty} : boundE T C (.cast e t) = true := (rfl)
@[simp] theorem bound_castInfer {e : Expr} : boundE T C (.castInfer e) = true := (rfl)
@[simp] theorem bound_index {a b : Expr} : boundE T C (.index a b) = true := (rfl)
@[simp] theorem bound_deref {e : Expr} : boundE T C (.deref e) = true := (rfl)
@[simp] theorem bound_zeros {n : Nat} : boundE T C (.zeros n) = true := (rfl)
@[simp] theorem bound_bytes {l : List (BitVec 8)} : boundE T C (.bytes l) = true := (rfl)
@[simp] theorem bound_ite {a b c : Expr} : boundE T C (.ite a b c) = true := (rfl)
@[simp] theorem bound_block {s : Stmt} {e : Expr} : boundE T C (.block s e) = true := (rfl)
@[simp] theorem bound_fromBits {c : Codec} {e : Expr} : boundE T C (.fromBits c e) = true := (rfl)
@[simp] theorem bound_intoBits {e : Expr} : boundE T C (.intoBits e) = true := (rfl)
@[simp] theorem bound_swapInner {b : Bool} : boundE T C (.swapBytes (.inner b)) = true := (rfl)
@[simp] theorem bound_assoc {b : Bool} {t : Tag} : boundE T C (.assoc b t) = true := (rfl)
@[simp] theorem bound_maxOf {w : Nat} : boundE T C (.maxOf w) = true := (rfl)
@[simp] theorem bound_const {b : Bool} {a : Accessor} {x : String} : boundE T C (.const b a x) = true := (rfl)
@[simp] theorem bound_swapBits : boundE T C (.swapBytes (.var "bits")) = true := (rfl)

/-! ## Expressions -/

@[simp] theorem bits_lend (b : Bool) : lendE T C (bitsTok f b) = true := by unfold bitsTok; ld []
@[simp] theorem off_lend (b : Bool) : lendE T C (offTok f b) = true := by unfold offTok; ld []
@[simp] theorem source_lend (s : Source) (b : Bool) : lendE T C (sourceTok s b) = true := by
  cases s <;> simp [sourceTok]
@[simp] theorem bits_touch (x : String) (b : Bool) : touchE C x (bitsTok f b) = false := by unfold bitsTok; ld []
@[simp] theorem off_touch (x : String) (b : Bool) : touchE C x (offTok f b) = false := by unfold offTok; ld []

@[simp] theorem mask_lend {w : Nat} {e : Expr} (h : lendE T C e = true) : lendE T C (maskTok w e) = true := by
  ld [maskTok, h]
@[simp] theorem mask_bound {w : Nat} {e : Expr} : boundE T C (maskTok w e) = true := by ld [maskTok]
@[simp] theorem mask128_lend {e : Expr} (h : lendE T C e = true) : lendE T C (mask128Tok e) = true := by
  ld [mask128Tok, h]
@[simp] theorem mask128_bound {e : Expr} : boundE T C (mask128Tok e) = true := by ld [mask128Tok]
@[simp] theorem unpack_lend {v : String} {e : Expr} {n : Nat} (h : lendE T C e = true) (hb : boundE T C e = true) :
    lendE T C (unpackTok v e n) = true := by ld [unpackTok, byteTok, h, hb]
@[simp] theorem pack_lend {w n : Nat} : lendE T C (packTok w n) = true := by ld [packTok]
@[simp] theorem pack_bound {w n : Nat} : boundE T C (packTok w n) = true := by ld [packTok]
@[simp] theorem readArr_lend {s b o : Expr} {n : Nat} {i : Bool} (hs : lendE T C s = true) (hb : lendE T C b = true)
    (ho : lendE T C o = true) : lendE T C (readArrTok s b o n i) = true := by cases i <;> ld [readArrTok, hs, hb, ho]
@[simp] theorem readArr_bound {s b o : Expr} {n : Nat} {i : Bool} : boundE T C (readArrTok s b o n i) = true := by
  cases i <;> ld [readArrTok]
@[simp] theorem read_lend {s b o : Expr} {i : Bool} (hs : lendE T C s = true) (hb : lendE T C b = true)
    (ho : lendE T C o = true) : lendE T C (readTok s b o i) = true := by cases i <;> ld [readTok, mask128Tok, hs, hb, ho]
@[simp] theorem read_bound {s b o : Expr} {i : Bool} : boundE T C (readTok s b o i) = true := by
  cases i <;> ld [readTok]
@[simp] theorem notIf_lend {i : Bool} {e : Expr} (h : lendE T C e = true) : lendE T C (notIf i e) = true := by
  cases i <;> ld [notIf, h]
@[simp] theorem notIf_touch {x : String} {i : Bool} {e : Expr} : touchE C x (notIf i e) = touchE C x e := by
  cases i <;> ld [notIf]
@[simp] theorem value_lend : lendE T C (valueTok f) = true := by unfold valueTok; ld []
@[simp] theorem value_bound : boundE T C (valueTok f) = true := by unfold valueTok; ld []
@[simp] theorem value_touch {x : String} (h : x = "this" ∨ x = "self") : touchE C x (valueTok f) = false := by
  unfold valueTok
  rcases h with rfl | rfl <;> ld []
@[simp] theorem return_lend : lendE T C (returnTok B f) = true := by unfold returnTok; ld []
@[simp] theorem unpack_touch {x v : String} {e : Expr} {n : Nat} (h : touchE C x e = false) (hx : x = "this" ∨ x = "self")
    (hv : v = "__int_val" ∨ v = "__val") : touchE C x (unpackTok v e n) = false := by
  rcases hx with rfl | rfl <;> rcases hv with rfl | rfl <;> ld [unpackTok, byteTok, h]
@[simp] theorem zero_lend : lendE T C (zeroTok B f) = true := by unfold zeroTok; ld []
@[simp] theorem zero_bound : boundE T C (zeroTok B f) = true := by unfold zeroTok; ld []
@[simp] theorem zero_touch {x : String} (h : x = "this" ∨ x = "self") : touchE C x (zeroTok B f) = false := by
  unfold zeroTok
  rcases h with rfl | rfl <;> ld []
@[simp] theorem return_touch {x : String} (h : x = "this" ∨ x = "self") : touchE C x (returnTok B f) = false := by
  unfold returnTok
  rcases h with rfl | rfl <;> ld []
@[simp] theorem size_lend : lendE T C (sizeTok B) = true := by unfold sizeTok; ld []
@[simp] theorem innerArr_lend : lendE T C (innerArrTok B) = true := by unfold innerArrTok; ld []
@[simp] theorem innerArr_kept : boundE T C (innerArrTok B) = true := by unfold innerArrTok; ld []
@[simp] theorem getBit_lend : lendE T C (getBitTok B) = true := by unfold getBitTok; ld []
@[simp] theorem copyLen_lend {n : Nat} : lendE T C (copyLenTok n) = true := by ld [copyLenTok]
@[simp] theorem copyLen_bound {n : Nat} : boundE T C (copyLenTok n) = true := by ld [copyLenTok]
@[simp] theorem bitSet_lend {a i k : Expr} (ha : lendE T C a = true) (hi : lendE T C i = true) (hk : lendE T C k = true) :
    lendE T C (bitSetTok a i k) = true := by ld [bitSetTok, ha, hi, hk]
@[simp] theorem bitSet_bound {a i k : Expr} : boundE T C (bitSetTok a i k) = true := by ld [bitSetTok]
@[simp] theorem traitConv_lend {e : Expr} {E : Endian} (h : lendE T C e = true) (hb : boundE T C e = true) :
    lendE T C (traitConvTok B e E) = true := by unfold traitConvTok; ld [h, hb]

/-! ## Statements -/

theorem all_lend {ss : List Stmt} (h : ∀ s ∈ ss, lendS T C s = true) : lendS T C (.all ss) = true := by
  induction ss with
  | nil => rfl
  | cons s ss ih => simp [Stmt.all, h s (.head _), ih fun s hs => h s (.tail _ hs)]

@[simp] theorem storeBit_lend {c o : Expr} {b : Bool} (hc : lendE T C c = true) (ho : lendE T C o = true) :
    lendS T C (storeBitTok c o b) = true := by ld [storeBitTok, hc, ho]
@[simp] theorem storeByteBit_lend {c i k : Expr} {b : Bool} (hc : lendE T C c = true) (hi : lendE T C i = true)
    (hk : lendE T C k = true) : lendS T C (storeByteBitTok c i k b) = true := by ld [storeByteBitTok, hc, hi, hk]
@[simp] theorem storeBits_lend {o : Expr} {b : Bool} (ho : lendE T C o = true) : lendS T C (storeBitsTok o b) = true := by
  ld [storeBitsTok, ho]

theorem direct_lend {e : Expr} {b : Bool} (he : lendE T C e = true) (hb : boundE T C e = true) :
    lendS T C (directTok B f e b) = true := by
  unfold directTok
  simp only []
  ld [he, hb]

theorem setterCall_lend {e : Expr} {b : Bool} (he : lendE T C e = true) (hb : boundE T C e = true)
    (ht : touchE C (rootName b) e = false) : lendS T C (setterCallTok B f e b) = true := by
  have hx : rootName b = "this" ∨ rootName b = "self" := by cases b <;> simp [rootName]
  unfold setterCallTok
  simp only []
  (repeat' split) <;> simp [he, hb, ht, hx]

@[simp] theorem extract_lend (s : Source) (c i b : Bool) : lendS T C (extractTok B f s c i b) = true := by
  unfold extractTok
  simp only []
  ld []

@[simp] theorem check_lend : lendS T C checkTok = true := by ld [checkTok]
@[simp] theorem signedCheck_lend : lendS T C (signedCheckTok f) = true := by unfold signedCheckTok; ld []
@[simp] theorem signExtend_lend : lendS T C (signExtendTok f) = true := by unfold signExtendTok; ld []
@[simp] theorem builderSet_lend {k : Bool} : lendS T C (builderSetTok f k) = true := by
  unfold builderSetTok
  simp only []
  cases k <;> ld []

@[simp] theorem setFromVar_lend (u c k b : Bool) : lendS T C (setFromVarTok B f u c k b) = true := by
  unfold setFromVarTok
  simp only []
  have h1 := setterCall_lend (T := T) (C := C) (B := B) (f := f) (b := b) (e := valueTok f) value_lend value_bound (value_touch (by cases b <;> simp))
  have h2 := direct_lend (T := T) (C := C) (B := B) (f := f) (b := b) (e := valueTok f) value_lend value_bound
  ld [h1, h2]

@[simp] theorem setAll_lend (p : Protection) : lendS T C (setAllTok B p) = true := by
  refine all_lend fun s hs => ?_
  obtain ⟨f, -, rfl⟩ := List.mem_map.mp hs
  simp

/-- What the defaults may be. -/
def LendDefaults (T : String → Bool) (C : Style) (B : Bitfield) : Prop :=
  ∀ f ∈ B.fields, f.hasDefault = true → ∀ t v, lendE T C (.user f.offset t v) = true ∧
    boundE T C (.user f.offset t v) = true ∧ exprUses "this" (C.user f.offset) = false

theorem setDefault_lend (hu : LendDefaults T C B) (hf : f ∈ B.fields) : lendS T C (setDefaultTok B f) = true := by
  unfold setDefaultTok
  split
  · rename_i v hv
    obtain ⟨h1, h2, h3⟩ := hu f hf (by simp [Field.hasDefault, hv]) f.ty v
    split
    · exact setterCall_lend h1 h2 h3
    · exact direct_lend h1 h2
  · rfl

theorem setDefaults_lend (hu : LendDefaults T C B) : lendS T C (setDefaultsTok B) = true := by
  refine all_lend fun s hs => ?_
  obtain ⟨f, hf, rfl⟩ := List.mem_map.mp hs
  exact setDefault_lend hu (List.mem_filter.mp hf).1

@[simp] theorem setZero_lend : lendS T C (setZeroTok B f) = true := by
  unfold setZeroTok
  split
  · exact setterCall_lend zero_lend zero_bound (zero_touch (.inl rfl))
  · exact direct_lend zero_lend zero_bound

@[simp] theorem setZeros_lend (d : Bool) : lendS T C (setZerosTok B d) = true := by
  refine all_lend fun s hs => ?_
  obtain ⟨f, -, rfl⟩ := List.mem_map.mp hs
  simp

theorem init_lend (hi : fieldsLend T C.ignored = true) (b mu : Bool) : lendS T C (initTok B b mu) = true := by
  unfold initTok
  ld [hi]

theorem new_lend (hu : LendDefaults T C B) (hi : fieldsLend T C.ignored = true) (d b e : Bool) :
    lendS T C (newTok B d b e) = true := by
  have h1 := setDefaults_lend hu
  have h2 := fun b mu => init_lend (B := B) (T := T) hi b mu
  have h3 : lendS T C (.all ((B.fields.filter fun f => f.reserved && f.hasDefault).map (setDefaultTok B))) = true := by
    refine all_lend fun s hs => ?_
    obtain ⟨f, hf, rfl⟩ := List.mem_map.mp hs
    exact setDefault_lend hu (List.mem_filter.mp hf).1
  unfold newTok
  simp only [Stmt.all, lend_seq, lend_skip, setZeros_lend, Bool.and_true, Bool.true_and, Bool.and_eq_true]
  refine ⟨?_, ?_, ?_⟩ <;> split <;> first | rfl | exact h1 | exact h2 _ _ | exact h3

@[simp] theorem prot_lend (p : Protection) : lendS T C (protTok B p) = true := by unfold protTok; ld []
@[simp] theorem xorLoop_lend {n : Nat} {s : Bool} : lendS T C (xorLoopTok n s) = true := by unfold xorLoopTok; ld []
@[simp] theorem intEndian_lend {e : Endian} : lendS T C (intEndianTok e) = true := by cases e <;> ld [intEndianTok]
@[simp] theorem fromConv_lend {e : Option Endian} : lendS T C (fromConvTok B e) = true := by unfold fromConvTok; ld []
@[simp] theorem copyLoop_lend {x y : String} {e : Expr} (h : lendE T C e = true) : lendS T C (copyLoopTok x y e) = true := by
  ld [copyLoopTok, h]
@[simp] theorem sliceCheck_lend {n : Nat} {m : String} : lendS T C (sliceCheckTok n m) = true := by ld [sliceCheckTok]
@[simp] theorem sliceEndian_lend {n : Nat} {e : Endian} : lendS T C (sliceEndianTok n e) = true := by
  cases e <;> ld [sliceEndianTok]
@[simp] theorem sliceBits_lend {n : Nat} {e : Endian} : lendS T C (sliceBitsTok B n e) = true := by
  cases e <;> ld [sliceBitsTok]
@[simp] theorem writeConv_lend {e : Endian} : lendS T C (writeConvTok B e) = true := by unfold writeConvTok; ld []
@[simp] theorem offsetGuard_lend {r : Stmt} (h : lendS T C r = true) : lendS T C (offsetGuardTok B r) = true := by
  ld [offsetGuardTok, h]
@[simp] theorem lengthGuard_lend {r : Stmt} (h : lendS T C r = true) : lendS T C (lengthGuardTok B r) = true := by
  ld [lengthGuardTok, h]
@[simp] theorem fieldGuard_lend {read : Bool} {r : Stmt} (h : lendS T C r = true) :
    lendS T C (fieldGuardTok G read r) = true := by
  refine all_lend fun s hs => ?_
  obtain ⟨f, -, rfl⟩ := List.mem_map.mp hs
  ld [h]
@[simp] theorem returnZero_lend : lendS T C (returnZeroTok B) = true := by unfold returnZeroTok; ld []
@[simp] theorem setBit_lend : lendS T C (setBitTok B) = true := by unfold setBitTok; ld []
@[simp] theorem bitIndex_lend : lendS T C (bitIndexTok B) = true := by unfold bitIndexTok; ld []
@[simp] theorem pos_lend {a b c : String} : lendS T C (posTok a b c) = true := by ld [posTok]
@[simp] theorem srcBit_lend : lendS T C srcBitTok = true := by ld [srcBitTok]
@[simp] theorem isProt_lend {a b : String} : lendS T C (isProtTok a b) = true := by ld [isProtTok]
@[simp] theorem upTo_lend {ss : List Stmt} (h : ∀ s ∈ ss, lendS T C s = true) : lendS T C (upToTok ss) = true := by
  have h1 : lendS T C (.all (ss ++ [incr "i"])) = true := by
    refine all_lend fun s hs => ?_
    rcases List.mem_append.mp hs with hs | hs
    · exact h s hs
    · cases List.mem_singleton.mp hs
      rfl
  simp only [upToTok, Stmt.all] at h1 ⊢
  simp [h1]
@[simp] theorem protLoop_lend {a b c m : String} : lendS T C (protLoopTok a b c m) = true := by ld [protLoopTok]

/-! ## Functions -/

/-- A function obeys the rule if its body and the expression at its end do. -/
theorem lendOk_of {fn : Fn} (hb : lendS T C fn.body = true) (ht : lendE T C fn.tail = true) :
    (fnSyn C H tag fn).lendOk T = true := by
  have h1 := lend_of _ ht
  refine stmts_lend_of _ hb _ ?_
  unfold tailSyn
  split
  · rfl
  · rfl
  · rfl
  · simp [stmtsLend, h1]

theorem lendDefaults_of (h : Fits P C) (hn : ∀ f ∈ P.B.fields, P.default f.offset ≠ [.ident "this"]) :
    LendDefaults T C P.B := by
  intro f hf hd t v
  have h1 := h.user f hf hd
  have h2 := hn f hf
  simp only [lendE, boundE]
  generalize C.user f.offset = e at h1 ⊢
  generalize P.default f.offset = ts at h1 h2
  generalize f.ty = t' at h1
  cases h1 with
  | name x =>
    refine ⟨rfl, rfl, ?_⟩
    simp only [names, List.map_cons, List.map_nil, exprUses, decide_eq_false_iff_not]
    rintro rfl
    exact h2 rfl
  | _ => exact ⟨rfl, rfl, rfl⟩

theorem lendIgnored_of (h : Fits P C) : fieldsLend T C.ignored = true := by
  rw [h.ignored]
  generalize P.ignored = l
  induction l with
  | nil => rfl
  | cons x l ih =>
    have : exprLend T (defaultSyn x.2.1) = true := by
      unfold defaultSyn
      split <;> rfl
    simp [fieldsLend, this, ih]

theorem members_lend (h : Fits P C) (hn : ∀ f ∈ P.B.fields, P.default f.offset ≠ [.ident "this"]) (F : Feature) :
    ∀ x ∈ P.fns F, (fnSyn C x.1 x.2.1 x.2.2).lendOk T = true := by
  have hu := lendDefaults_of (T := T) h hn
  have hi := lendIgnored_of (T := T) h
  have hd := setDefaults_lend hu
  have h0 := fun b mu => init_lend (B := P.B) hi b mu
  have hw := fun d b e => new_lend hu hi d b e
  have from_ok : ∀ {H tag} e d, (fnSyn C H tag (fromFn P.B e d)).lendOk T = true := by
    intro H tag e d
    refine lendOk_of ?_ ?_ <;> simp only [fromFn] <;> ld [h0, hd]
  have into_ok : ∀ {H tag} e, (fnSyn C H tag (intoFn P.B e)).lendOk T = true := by
    intro H tag e
    refine lendOk_of ?_ ?_ <;> simp only [intoFn] <;> ld []
  intro x hx
  cases F with
  | struct | fromTraits | debug | builder | default | constants => cases hx
  | new =>
    simp only [Printer.fns, List.mem_cons, List.not_mem_nil, or_false] at hx
    rcases hx with rfl | rfl <;> refine lendOk_of ?_ ?_ <;> simp [newFn, hw]
  | setters =>
    obtain ⟨f, -, hx⟩ := List.mem_flatMap.mp hx
    simp only [List.mem_cons, List.not_mem_nil, or_false] at hx
    rcases hx with rfl | rfl <;> refine lendOk_of ?_ ?_ <;> simp [setterFn, checkedSetterFn, Stmt.all]
  | getters =>
    obtain ⟨f, -, rfl⟩ := List.mem_map.mp hx
    refine lendOk_of ?_ ?_ <;> simp [getterFn, Stmt.all]
  | fromIntoBits =>
    simp only [Printer.fns] at hx
    split at hx
    · rcases List.mem_append.mp hx with hx | hx
      · obtain ⟨e, -, hx⟩ := List.mem_flatMap.mp hx
        simp only [List.mem_cons, List.not_mem_nil, or_false] at hx
        rcases hx with rfl | rfl <;> exact from_ok _ _
      · obtain ⟨f, -, rfl⟩ := List.mem_map.mp hx
        exact into_ok _
    · rcases List.mem_append.mp hx with hx | hx
      · rcases List.mem_append.mp hx with hx | hx
        · rcases List.mem_append.mp hx with hx | hx
          · obtain ⟨e, -, hx⟩ := List.mem_flatMap.mp hx
            simp only [List.mem_cons, List.not_mem_nil, or_false] at hx
            rcases hx with rfl | rfl <;> exact from_ok _ _
          · obtain ⟨e, -, hx⟩ := List.mem_flatMap.mp hx
            simp only [List.mem_cons, List.not_mem_nil, or_false] at hx
            rcases hx with rfl | rfl | rfl | rfl <;> refine lendOk_of ?_ ?_ <;>
              simp only [fromSliceFn, checkedFromSliceFn] <;> ld [h0, hd]
        · obtain ⟨f, -, rfl⟩ := List.mem_map.mp hx
          exact into_ok _
      · obtain ⟨e, -, hx⟩ := List.mem_flatMap.mp hx
        simp only [List.mem_cons, List.not_mem_nil, or_false] at hx
        rcases hx with rfl | rfl <;> refine lendOk_of ?_ ?_ <;> simp [intoSliceFn, checkedIntoSliceFn, Stmt.all]
  | writeBitOps =>
    rcases List.mem_append.mp hx with hx | hx
    · obtain ⟨e, -, hx⟩ := List.mem_flatMap.mp hx
      simp only [List.mem_cons, List.not_mem_nil, or_false] at hx
      rcases hx with rfl | rfl <;> refine lendOk_of ?_ ?_ <;> simp only [writeFn] <;> ld [hd]
    · cases List.mem_singleton.mp hx
      refine lendOk_of ?_ ?_ <;> simp [writeDefaultsFn, Stmt.all, hd]
  | setGetBitOps =>
    simp only [Printer.fns, List.mem_cons, List.not_mem_nil, or_false] at hx
    rcases hx with rfl | rfl | rfl | rfl | rfl | rfl | rfl | rfl <;> refine lendOk_of ?_ ?_ <;>
      simp only [setBitFn, checkedSetBitFn, setRangeFn, checkedSetRangeFn, getBitFn, checkedGetBitFn, getRangeFn,
        checkedGetRangeFn] <;> ld [resBitTok]
  | clearBitOps =>
    rcases List.mem_append.mp hx with hx | hx
    · rcases List.mem_append.mp hx with hx | hx
      · simp only [List.mem_cons, List.not_mem_nil, or_false] at hx
        rcases hx with rfl | rfl <;> refine lendOk_of ?_ ?_ <;> simp [clearFn, Stmt.all, hw]
      · obtain ⟨f, -, rfl⟩ := List.mem_map.mp hx
        refine lendOk_of ?_ ?_ <;> simp [clearFieldFn, Stmt.all]
    · obtain ⟨f, hf, rfl⟩ := List.mem_map.mp hx
      refine lendOk_of ?_ ?_ <;> simp [clearToDefaultFn, Stmt.all, setDefault_lend hu (List.mem_filter.mp hf).1]
  | invertBitOps =>
    rcases List.mem_append.mp hx with hx | hx
    · rcases List.mem_append.mp hx with hx | hx
      · cases List.mem_singleton.mp hx
        refine lendOk_of ?_ ?_ <;> simp only [invertFn] <;> ld []
      · obtain ⟨f, -, rfl⟩ := List.mem_map.mp hx
        refine lendOk_of ?_ ?_ <;> simp [invertFieldFn, Stmt.all]
    · obtain ⟨f, -, rfl⟩ := List.mem_map.mp hx
      refine lendOk_of ?_ ?_ <;> simp [invertedFn, Stmt.all]

theorem builder_lend (h : Fits P C) (hn : ∀ f ∈ P.B.fields, P.default f.offset ≠ [.ident "this"]) :
    ∀ x ∈ P.builderFns, (fnSyn C x.1 x.2.1 x.2.2).lendOk T = true := by
  have hw := fun d b e => new_lend (lendDefaults_of (T := T) h hn) (lendIgnored_of h) d b e
  intro x hx
  rcases List.mem_append.mp hx with hx | hx
  · simp only [List.mem_cons, List.not_mem_nil, or_false] at hx
    rcases hx with rfl | rfl <;> refine lendOk_of ?_ ?_ <;> simp only [builderNewFn] <;> ld [hw, Printer.G]
  · obtain ⟨f, -, hx⟩ := List.mem_flatMap.mp hx
    simp only [List.mem_cons, List.not_mem_nil, or_false] at hx
    rcases hx with rfl | rfl <;> refine lendOk_of ?_ ?_ <;> simp [withFn, checkedWithFn]

@[simp] theorem extract_unused (B : Bitfield) (f : Field) : touchS C "f" (extractTok B f .bitfield false false false) = false := by
  unfold extractTok
  simp only [sourceTok]
  ld [readTok, readArrTok, mask128Tok, maskTok, notIf, packTok]

theorem fmt_lend (P : Printer) : (P.fmtSyn C).lendOk T = true := by
  have h1 : ∀ l : List Field, touchS C "f" (.all (l.map fun f => .seq (extractTok P.B f .bitfield false false false)
      (.debugField f.name (.var "value")))) = false := by
    intro l
    induction l with
    | nil => rfl
    | cons f l ih => simpa [Stmt.all] using ih
  have h2 := stmts_use_of (C := C) (x := "f") (by decide) _ (h1 P.B.fields)
  have h3 : lendS T C (.all (P.B.fields.map fun f => .seq (extractTok P.B f .bitfield false false false)
      (.debugField f.name (.var "value")))) = true := by
    refine all_lend fun s hs => ?_
    obtain ⟨f, -, rfl⟩ := List.mem_map.mp hs
    simp
  have h4 := stmts_lend_of (T := T) _ h3 [.expr (.method (names ["debug"]) "finish" []) false] (by
    simp [stmtsLend, exprLend, argsLend, names, unusedIn_nil])
  simp only [SFn.lendOk, Printer.fmtSyn, debugFn, List.append_assoc]
  refine stmts_lend_of .letThis rfl _ ?_
  simp only [List.cons_append, List.nil_append, stmtsLend, h4, Bool.and_true]
  simp [exprLend, argsLend, names, unusedIn, keepable, SExpr.root, exprsUse, exprUses, SExpr.isRef, stmtsUse_append, h2,
    stmtsUse]

theorem items_lend (h : Fits P C) (hn : ∀ f ∈ P.B.fields, P.default f.offset ≠ [.ident "this"]) (F : Feature) :
    ∀ i ∈ P.items C F, ∀ g ∈ i.fns, g.lendOk T = true := by
  have hu := lendDefaults_of (T := T) h hn
  have hi := lendIgnored_of (T := T) h
  have hd := setDefaults_lend hu
  have h0 := fun b mu => init_lend (B := P.B) hi b mu
  intro i hx g hg
  obtain ⟨tr, ty, ms, rfl, hg'⟩ := mem_fns hg
  replace hg := hg'
  cases F with
  | constants | new | setters | getters | fromIntoBits | writeBitOps | setGetBitOps | clearBitOps | invertBitOps => cases hx
  | struct =>
    simp only [Printer.items] at hx
    split at hx <;> cases List.mem_singleton.mp hx
  | fromTraits =>
    simp only [Printer.items, List.mem_cons, List.not_mem_nil, or_false] at hx
    rcases hx with hx | hx <;> cases hx <;> cases List.mem_singleton.mp hg
    · refine lendOk_of ?_ ?_
      · have hp : boundE T C (.swapBytes (.var (paramTok P.B))) = true := by
          unfold paramTok
          split <;> rfl
        have hb : boundE T C (traitConvTok P.B (.var (paramTok P.B)) P.B.fromEndian) = true := by
          unfold traitConvTok
          split <;> simp [hp]
        simp [traitFromFn, Stmt.all, h0, hb]
      · simp [traitFromFn]
    · refine lendOk_of (H := traitHead .none P.name) (tag := .impl .intoBacking) (fn := traitIntoFn P.B) ?_ ?_
      · simp [traitIntoFn]
      · simp only [traitIntoFn]
        ld []
  | debug =>
    cases List.mem_singleton.mp hx
    cases List.mem_singleton.mp hg
    exact fmt_lend P
  | default =>
    cases List.mem_singleton.mp hx
    cases List.mem_singleton.mp hg
    refine lendOk_of ?_ ?_ <;> simp only [defaultFn] <;> ld [h0, hd, Printer.G]
  | builder =>
    simp only [Printer.items, List.mem_cons, List.not_mem_nil, or_false] at hx
    rcases hx with hx | hx | hx <;> cases hx
    · cases List.mem_singleton.mp hg
      refine lendOk_of ?_ ?_ <;> simp [builderDefaultFn]
    · rcases List.mem_append.mp hg with hg | hg
      · obtain ⟨x, hx, e⟩ := List.mem_map.mp hg
        cases e
        exact builder_lend h hn x hx
      · cases List.mem_singleton.mp hg
        rfl

theorem expansion_lend (h : Fits P C) (hn : ∀ f ∈ P.B.fields, P.default f.offset ≠ [.ident "this"]) :
    ∀ i ∈ P.expansion C, ∀ g ∈ i.fns, g.lendOk T = true := by
  intro i hx g hg
  rcases List.mem_append.mp hx with hx | hx
  · rcases List.mem_append.mp hx with hx | hx
    · obtain ⟨F, -, hx⟩ := List.mem_flatMap.mp hx
      exact items_lend h hn F i hx g hg
    · cases List.mem_singleton.mp hx
      obtain ⟨tr, ty, ms, e, hg⟩ := mem_fns hg
      cases e
      obtain ⟨F, -, hg⟩ := List.mem_flatMap.mp hg
      have hc : ∀ F' : Feature, SMember.fn g ∈ (P.fns F').map (fun x => SMember.fn (fnSyn C x.1 x.2.1 x.2.2)) →
          g.lendOk T = true := by
        intro F' hg
        obtain ⟨x, hx, e⟩ := List.mem_map.mp hg
        cases e
        exact members_lend h hn F' x hx
      cases F with
      | constants =>
        obtain ⟨f, -, hg⟩ := List.mem_flatMap.mp hg
        simp only [List.mem_cons, List.not_mem_nil, or_false, reduceCtorEq] at hg
      | _ => exact hc _ hg
  · obtain ⟨F, -, hx⟩ := List.mem_flatMap.mp hx
    exact items_lend h hn F i hx g hg

end Bf.Text
