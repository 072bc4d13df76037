import Verif.SpecScope
import Verif.SpecText

/-! # The names the emitted code uses: helper lemmas -/

namespace Bf.Text

open Rust Quote

/-- What is allowed outside: what the code may refer to anyway, and more. -/
def allow (n : String) (X : List Seg → Bool) (segs : List Seg) : Bool := outer n segs || X segs

variable {C : Style} {X : List Seg → Bool} {vs : List String}

section
variable {n : String} {r : List Seg}
@[simp] theorem allow_Self : allow n X (.name "Self" :: r) = true := by simp [allow, outer]
@[simp] theorem allow_infer : allow n X (.name "_" :: r) = true := by simp [allow, outer]
@[simp] theorem allow_true : allow n X (.name "true" :: r) = true := by simp [allow, outer]
@[simp] theorem allow_false : allow n X (.name "false" :: r) = true := by simp [allow, outer]
@[simp] theorem allow_Ok : allow n X (.name "Ok" :: r) = true := by simp [allow, outer]
@[simp] theorem allow_Err : allow n X (.name "Err" :: r) = true := by simp [allow, outer]
@[simp] theorem allow_Default : allow n X (.name "Default" :: r) = true := by simp [allow, outer]
@[simp] theorem allow_core : allow n X (.name "core" :: r) = true := by simp [allow, outer]
@[simp] theorem allow_custom {c : Codec} : allow n X (.custom c :: r) = true := rfl
@[simp] theorem allow_name : allow n X (.name n :: r) = true := by simp [allow, outer]
@[simp] theorem allow_builder : allow n X (.name (n ++ "Builder") :: r) = true := by simp [allow, outer]
@[simp] theorem allow_rooted_core : allow n X (.name "" :: .name "core" :: r) = true := by simp [allow, outer]
@[simp] theorem allow_rooted_std : allow n X (.name "" :: .name "std" :: r) = true := by simp [allow, outer]
@[simp] theorem allow_selfName {b : Bool} : allow C.name X (.name (selfName C b) :: r) = true := by cases b <;> simp [selfName]
@[simp] theorem allow_bool {b : Bool} : allow n X (.name (if b then "true" else "false") :: r) = true := by cases b <;> simp

theorem allow_primitive {x : String} (h : builtinName x = true) : allow n X (.name x :: r) = true := by simp [allow, outer, h]

theorem primitive_num {c : Char} (hc : c = 'u' ∨ c = 'i') (w : Nat) : builtinName (String.ofList [c] ++ toString w) = true := by
  have h1 : (String.ofList [c] ++ toString w).toList = c :: Nat.toDigits 10 w := by
    rw [String.toList_append, String.toList_ofList, show (toString w : String) = w.repr from rfl, Nat.toList_repr]
    rfl
  have h2 : (Nat.toDigits 10 w).all Char.isDigit = true := by
    rw [List.all_eq_true]
    exact fun c hc => Nat.isDigit_of_mem_toDigits (by decide) (by decide) hc
  have h3 : (Nat.toDigits 10 w).isEmpty = false := by
    cases h : Nat.toDigits 10 w with
    | nil => exact absurd h Nat.toDigits_ne_nil
    | cons => rfl
  unfold builtinName
  rw [h1]
  rcases hc with rfl | rfl <;> simp [h2, h3]

@[simp] theorem allow_u {w : Nat} : allow n X (.name (tyName (.u w)) :: r) = true := allow_primitive (primitive_num (.inl rfl) w)
@[simp] theorem allow_i {w : Nat} : allow n X (.name (tyName (.i w)) :: r) = true := allow_primitive (primitive_num (.inr rfl) w)

theorem allow_literal {x : String} (h : builtinName x = true) : typeScoped (allow n X) (namesTy [x]) = true := by
  simp [namesTy, typeScoped, typeScoped.typesScoped, allow_primitive h]

@[simp] theorem type_u8 : typeScoped (allow n X) (namesTy ["u8"]) = true := allow_literal (by decide)
@[simp] theorem type_u32 : typeScoped (allow n X) (namesTy ["u32"]) = true := allow_literal (by decide)
@[simp] theorem type_str : typeScoped (allow n X) (namesTy ["str"]) = true := allow_literal (by decide)
@[simp] theorem type_infer : typeScoped (allow n X) (namesTy ["_"]) = true := by
  simp [namesTy, typeScoped, typeScoped.typesScoped]
@[simp] theorem type_self : typeScoped (allow n X) (namesTy ["Self"]) = true := by
  simp [namesTy, typeScoped, typeScoped.typesScoped]
@[simp] theorem type_name : typeScoped (allow n X) (namesTy [n]) = true := by
  simp [namesTy, typeScoped, typeScoped.typesScoped]

/-- Types that have a name. -/
def Ty.named : Ty → Bool
  | .obj | .self | .result _ => false
  | _ => true

@[simp] theorem type_named {t : Ty} (h : Ty.named t = true) : typeScoped (allow n X) (tySyn t) = true := by
  cases t with
  | obj | self | result => cases h
  | u w => simp [tySyn, namesTy, typeScoped, typeScoped.typesScoped]
  | i w => simp [tySyn, namesTy, typeScoped, typeScoped.typesScoped]
  | usize => exact allow_literal (by decide)
  | bool => exact allow_literal (by decide)
  | arr n => simp [tySyn, typeScoped]
  | slice => simp [tySyn, typeScoped]
  | unit => rfl

theorem intTy_named (t : IntTy) : Ty.named (intTy t) = true := by cases t <;> rfl

theorem type_backing {b : Backing} : typeScoped (allow n X) (tySyn (backTy b)) = true := type_named (by cases b <;> rfl)

theorem type_data {t : DataType} : typeScoped (allow n X) (dataSyn t) = true := by
  cases t with
  | custom c => simp [dataSyn, typeScoped, typeScoped.typesScoped]
  | int t => exact type_named (intTy_named t)
  | array n => exact type_named (t := .arr n) rfl

theorem type_sig {H : Head} (ho : typeScoped (allow n X) H.obj = true) (hs : typeScoped (allow n X) H.self = true) (t : Ty) :
    typeScoped (allow n X) (sigSyn H t) = true := by
  induction t with
  | obj => exact ho
  | self => exact hs
  | slice => simp [sigSyn, typeScoped]
  | result t ih => simp [sigSyn, typeScoped, typeScoped.typesScoped, ih]
  | u w => exact type_named (t := .u w) rfl
  | i w => exact type_named (t := .i w) rfl
  | usize => exact type_named (t := .usize) rfl
  | bool => exact type_named (t := .bool) rfl
  | arr n => exact type_named (t := .arr n) rfl
  | unit => rfl

end

/-! ## Variables -/

@[simp] theorem local_self : "self" ∈ localNames := by decide +kernel
@[simp] theorem local_this : "this" ∈ localNames := by decide +kernel
@[simp] theorem local_f : "f" ∈ localNames := by decide +kernel
@[simp] theorem local_debug : "debug" ∈ localNames := by decide +kernel
@[simp] theorem local_e : "e" ∈ localNames := by decide +kernel
@[simp] theorem local_bits : "bits" ∈ localNames := by decide +kernel
@[simp] theorem local_bytes : "bytes" ∈ localNames := by decide +kernel
@[simp] theorem local_val : "val" ∈ localNames := by decide +kernel
@[simp] theorem local_value : "value" ∈ localNames := by decide +kernel
@[simp] theorem local_slice : "slice" ∈ localNames := by decide +kernel
@[simp] theorem local_offset : "offset" ∈ localNames := by decide +kernel
@[simp] theorem local_length : "length" ∈ localNames := by decide +kernel
@[simp] theorem local_bit : "bit" ∈ localNames := by decide +kernel
@[simp] theorem local_mask : "mask" ∈ localNames := by decide +kernel
@[simp] theorem local_i : "i" ∈ localNames := by decide +kernel
@[simp] theorem local_j : "j" ∈ localNames := by decide +kernel
@[simp] theorem local_shift : "shift" ∈ localNames := by decide +kernel
@[simp] theorem local_res : "res" ∈ localNames := by decide +kernel
@[simp] theorem local_temp : "temp" ∈ localNames := by decide +kernel
@[simp] theorem local_temp_bits : "temp_bits" ∈ localNames := by decide +kernel
@[simp] theorem local_copy_len : "copy_len" ∈ localNames := by decide +kernel
@[simp] theorem local_field_bits : "field_bits" ∈ localNames := by decide +kernel
@[simp] theorem local_val_to_set : "val_to_set" ∈ localNames := by decide +kernel
@[simp] theorem local_bit_index : "bit_index" ∈ localNames := by decide +kernel
@[simp] theorem local_byte_idx : "byte_idx" ∈ localNames := by decide +kernel
@[simp] theorem local_bit_in_byte : "bit_in_byte" ∈ localNames := by decide +kernel
@[simp] theorem local_bit_val : "bit_val" ∈ localNames := by decide +kernel
@[simp] theorem local_src_bit : "src_bit" ∈ localNames := by decide +kernel
@[simp] theorem local_src_byte : "src_byte" ∈ localNames := by decide +kernel
@[simp] theorem local_src_bit_in_byte : "src_bit_in_byte" ∈ localNames := by decide +kernel
@[simp] theorem local_dst_bit : "dst_bit" ∈ localNames := by decide +kernel
@[simp] theorem local_dst_byte : "dst_byte" ∈ localNames := by decide +kernel
@[simp] theorem local_dst_byte_idx : "dst_byte_idx" ∈ localNames := by decide +kernel
@[simp] theorem local_dst_bit_in_byte : "dst_bit_in_byte" ∈ localNames := by decide +kernel
@[simp] theorem local_is_protected : "is_protected" ∈ localNames := by decide +kernel
@[simp] theorem local_protected_mask : "protected_mask" ∈ localNames := by decide +kernel
@[simp] theorem local_range_mask : "range_mask" ∈ localNames := by decide +kernel
@[simp] theorem local_readable_mask : "readable_mask" ∈ localNames := by decide +kernel
@[simp] theorem local_writable_mask : "writable_mask" ∈ localNames := by decide +kernel
@[simp] theorem local_shifted_protected_mask : "shifted_protected_mask" ∈ localNames := by decide +kernel
@[simp] theorem local___arr : "__arr" ∈ localNames := by decide +kernel
@[simp] theorem local___i : "__i" ∈ localNames := by decide +kernel
@[simp] theorem local___v : "__v" ∈ localNames := by decide +kernel
@[simp] theorem local___src : "__src" ∈ localNames := by decide +kernel
@[simp] theorem local___val : "__val" ∈ localNames := by decide +kernel
@[simp] theorem local___int_val : "__int_val" ∈ localNames := by decide +kernel

/-- The variables after statements. -/
def declared (vs : List String) : List SStmt → List String
  | [] => vs
  | .letS x _ _ _ :: ss => declared (x :: vs) ss
  | .assign .. :: ss | .loop .. :: ss | .expr .. :: ss => declared vs ss

theorem stmtsScoped_append {O : List Seg → Bool} (a b : List SStmt) (vs : List String) :
    stmtsScoped O vs (a ++ b) = (stmtsScoped O vs a && stmtsScoped O (declared vs a) b) := by
  induction a generalizing vs with
  | nil => simp [stmtsScoped, declared]
  | cons s ss ih => cases s <;> simp [stmtsScoped, declared, ih, Bool.and_assoc]

theorem declared_append (a b : List SStmt) (vs : List String) : declared vs (a ++ b) = declared (declared vs a) b := by
  induction a generalizing vs with
  | nil => rfl
  | cons s ss ih => cases s <;> simp [declared, ih]

theorem declared_sub (a : List SStmt) {vs : List String} {x : String} (h : x ∈ vs) : x ∈ declared vs a := by
  induction a generalizing vs with
  | nil => exact h
  | cons s ss ih =>
    cases s with
    | letS => exact ih (.tail _ h)
    | assign => exact ih h
    | loop => exact ih h
    | expr => exact ih h

@[simp] theorem scoped_name {O : List Seg → Bool} {x : String} :
    exprScoped O vs (names [x]) = (decide (x ∈ vs) || O [.name x]) := rfl

@[simp] theorem scoped_path {O : List Seg → Bool} {x y : String} {r : List String} :
    exprScoped O vs (names (x :: y :: r)) = O (.name x :: .name y :: r.map .name) := rfl

/-- `this`, or in a builder `self` -/
def base (b : Bool) : String := if b then "self" else "this"

@[simp] theorem base_false : base false = "this" := rfl
@[simp] theorem base_true : base true = "self" := rfl

theorem this_scoped {O : List Seg → Bool} {b : Bool} (h : base b ∈ vs) : exprScoped O vs (thisSyn b) = true := by
  cases b <;> simp only [base] at h <;> simp [thisSyn, exprScoped] <;> exact .inl h

theorem inner_scoped {O : List Seg → Bool} {b : Bool} (h : base b ∈ vs) : exprScoped O vs (innerSyn C b) = true := by
  unfold innerSyn
  split <;> simp [exprScoped, this_scoped h]

theorem bytes_scoped {O : List Seg → Bool} (bs : List (BitVec 8)) : exprsScoped O vs (bs.map fun b => .int b.toNat "u8") = true := by
  induction bs with
  | nil => rfl
  | cons b bs ih => simp [exprsScoped, exprScoped, ih]

/-- The variables `need` are all the expression uses. -/
def SE (X : List Seg → Bool) (C : Style) (need : List String) (e : Expr) : Prop :=
  ∀ vs, (∀ x ∈ need, x ∈ vs) → exprScoped (allow C.name X) vs (exprSyn C e) = true

/-- The variables `need` are all the statement uses, and it declares `give`. -/
def SS (X : List Seg → Bool) (C : Style) (need give : List String) (s : Stmt) : Prop :=
  ∀ vs, (∀ x ∈ need, x ∈ vs) → stmtsScoped (allow C.name X) vs (stmtSyn C s) = true ∧ ∀ x ∈ give, x ∈ declared vs (stmtSyn C s)

/-- Computing what is written out. -/
macro "sc" "[" ts:Lean.Parser.Tactic.simpLemma,* "]" : tactic =>
  `(tactic| simp [stmtSyn, exprSyn, Stmt.all, stmtsScoped, exprScoped, exprsScoped, fieldsScoped, armsScoped, declared,
      patternScoped, boundBy, incr, annotated, inner_scoped, this_scoped, bytes_scoped, $ts,*])

theorem SE.mono {need need' : List String} {e : Expr} (h : SE X C need e) (hn : ∀ x ∈ need, x ∈ need') : SE X C need' e :=
  fun vs hv => h vs fun x hx => hv x (hn x hx)

theorem SS.mono {need need' give give' : List String} {s : Stmt} (h : SS X C need give s) (hn : ∀ x ∈ need, x ∈ need')
    (hg : ∀ x ∈ give', x ∈ give) : SS X C need' give' s :=
  fun vs hv => ⟨(h vs fun x hx => hv x (hn x hx)).1, fun x hx => (h vs fun x hx => hv x (hn x hx)).2 x (hg x hx)⟩

theorem SS.skip {need : List String} : SS X C need [] .skip := fun _ _ => ⟨rfl, fun _ h => by cases h⟩

theorem SS.seq {need g1 g2 : List String} {a b : Stmt} (ha : SS X C need g1 a) (hb : SS X C (g1 ++ need) g2 b) :
    SS X C need (g2 ++ g1) (.seq a b) := by
  intro vs hv
  obtain ⟨h1, h2⟩ := ha vs hv
  have h5 : ∀ x ∈ g1 ++ need, x ∈ declared vs (stmtSyn C a) := fun x hx => by
    rcases List.mem_append.mp hx with hx | hx
    · exact h2 x hx
    · exact declared_sub _ (hv x hx)
  obtain ⟨h3, h4⟩ := hb _ h5
  rw [show stmtSyn C (.seq a b) = stmtSyn C a ++ stmtSyn C b by rw [stmtSyn], stmtsScoped_append, declared_append, h1, h3]
  refine ⟨rfl, fun x hx => ?_⟩
  rcases List.mem_append.mp hx with hx | hx
  · exact h4 x hx
  · exact declared_sub _ (h2 x hx)

theorem SS.drop {need give : List String} {s : Stmt} (h : SS X C need give s) : SS X C need [] s :=
  h.mono (fun _ h => h) (fun _ h => by cases h)

theorem SS.all {need : List String} {ss : List Stmt} (h : ∀ s ∈ ss, SS X C need [] s) : SS X C need [] (.all ss) := by
  induction ss with
  | nil => exact SS.skip
  | cons s ss ih => exact (h s (.head _)).seq (ih fun s hs => h s (.tail _ hs))

theorem letSyn (y : String) (t : Option Ty) (e : Expr) (mu : Bool) :
    (∃ n k, t = some (.arr n) ∧ e = .zeros k ∧
      stmtSyn C (.letS y t e mu) = [.letS y (some (tySyn (.arr n))) (.repeated (.int 0 "") (.int k "usize")) mu]) ∨
    stmtSyn C (.letS y t e mu) =
      [.letS y (t.bind fun t => if annotated y t then some (tySyn t) else none) (exprSyn C e) mu] := by
  cases t with
  | none => exact .inr rfl
  | some t =>
    by_cases hz : ∃ n k, t = .arr n ∧ e = .zeros k
    · obtain ⟨n, k, rfl, rfl⟩ := hz
      exact .inl ⟨n, k, rfl, rfl, rfl⟩
    · refine .inr ?_
      rw [stmtSyn]
      · rfl
      · intro n k h3 h4
        exact hz ⟨n, k, h4, h3⟩

theorem SS.letS {need : List String} {y : String} {t : Option Ty} {e : Expr} {mu : Bool} (he : SE X C need e)
    (hy : y ∈ localNames) (ht : ∀ u, t = some u → Ty.named u = true) : SS X C need [y] (.letS y t e mu) := by
  intro vs hv
  have h1 := he vs hv
  rcases letSyn (C := C) y t e mu with ⟨n, k, rfl, rfl, h⟩ | h <;> rw [h]
  · have := type_named (n := C.name) (X := X) (t := .arr n) rfl
    sc [hy, this]
  · refine ⟨?_, by simp [declared]⟩
    simp only [stmtsScoped, hy, h1, decide_true, Bool.true_and, Bool.and_true]
    cases t with
    | none => rfl
    | some t =>
      have := ht t rfl
      cases ha : annotated y t <;> simp [ha, this]

theorem SS.let' {need : List String} {y : String} {e : Expr} {mu : Bool} (he : SE X C need e)
    (hy : y ∈ localNames) : SS X C need [y] (.letS y none e mu) := .letS he hy fun _ h => by cases h

theorem SS.expr {need : List String} {e : Expr} (he : SE X C need e) : SS X C need [] (.expr e) := fun vs hv =>
  ⟨by simp [stmtSyn, stmtsScoped, he vs hv], fun _ h => by cases h⟩

theorem SS.ite {need g1 g2 : List String} {c : Expr} {a b : Stmt} (hc : SE X C need c) (ha : SS X C need g1 a)
    (hb : SS X C need g2 b) : SS X C need [] (.ite c a b) := by
  intro vs hv
  have h1 := hc vs hv
  have h2 := (ha vs hv).1
  have h3 := (hb vs hv).1
  refine ⟨?_, fun _ h => by cases h⟩
  by_cases hs : b = .skip
  · subst hs
    rw [stmtSyn]
    simp [stmtsScoped, exprScoped, h1, h2]
  · rw [show stmtSyn C (.ite c a b) = [.expr (.ite (exprSyn C c) (stmtSyn C a) (some (stmtSyn C b))) false] by
      rw [stmtSyn]; exact hs]
    simp [stmtsScoped, exprScoped, h1, h2, h3]

theorem SS.loop {need g : List String} {c : Expr} {a : Stmt} (hc : SE X C need c) (ha : SS X C need g a) :
    SS X C need [] (.loop c a) := fun vs hv =>
  ⟨by simp [stmtSyn, stmtsScoped, hc vs hv, (ha vs hv).1], fun _ h => by cases h⟩

theorem SS.scope {need g : List String} {a : Stmt} (ha : SS X C need g a) : SS X C need [] (.scope a) := fun vs hv =>
  ⟨by simp [stmtSyn, stmtsScoped, exprScoped, (ha vs hv).1], fun _ h => by cases h⟩

theorem SS.ret {need : List String} {e : Expr} (he : SE X C need e) : SS X C need [] (.ret e) := by
  intro vs hv
  have := he vs hv
  refine ⟨?_, fun _ h => by cases h⟩
  by_cases h1 : e = .unit
  · subst h1; rfl
  by_cases h2 : ∃ n, e = .zeros n
  · obtain ⟨n, rfl⟩ := h2; rfl
  rw [show stmtSyn C (.ret e) = [.expr (.ret (some (exprSyn C e))) true] by
    rw [stmtSyn]
    · exact h1
    · exact fun n h => h2 ⟨n, h⟩]
  simp [stmtsScoped, exprScoped, this]

theorem SS.assignInner {need : List String} {b : Bool} {op : Option BinOp} {e : Expr} (hb : base b ∈ need) (he : SE X C need e) :
    SS X C need [] (.assignInner b op e) := fun vs hv =>
  ⟨by simp [stmtSyn, stmtsScoped, he vs hv, inner_scoped (hv _ hb)], fun _ h => by cases h⟩

theorem SS.assignInnerElem {need : List String} {b : Bool} {op : Option BinOp} {i e : Expr} (hb : base b ∈ need)
    (hi : SE X C need i) (he : SE X C need e) : SS X C need [] (.assignInnerElem b i op e) := fun vs hv =>
  ⟨by simp [stmtSyn, stmtsScoped, exprScoped, he vs hv, hi vs hv, inner_scoped (hv _ hb)], fun _ h => by cases h⟩

theorem SS.assign {need : List String} {x : String} {op : Option BinOp} {e : Expr} (hx : x ∈ need) (he : SE X C need e) :
    SS X C need [] (.assign x op e) := fun vs hv =>
  ⟨by simp [stmtSyn, stmtsScoped, he vs hv, hv _ hx], fun _ h => by cases h⟩

theorem SS.assignElem {need : List String} {x : String} {op : Option BinOp} {i e : Expr} (hx : x ∈ need)
    (hi : SE X C need i) (he : SE X C need e) : SS X C need [] (.assignElem x i op e) := fun vs hv =>
  ⟨by simp [stmtSyn, stmtsScoped, exprScoped, he vs hv, hi vs hv, hv _ hx], fun _ h => by cases h⟩

theorem SS.tryS {need : List String} {e : Expr} (he : SE X C need e) : SS X C need [] (.tryS e) := fun vs hv =>
  ⟨by simp [stmtSyn, stmtsScoped, exprScoped, exprsScoped, armsScoped, names, patternScoped, boundBy, he vs hv],
   fun _ h => by cases h⟩

/-! ## Expressions -/

section
variable {need : List String} {a b c : Expr}

theorem SE.var {x : String} (h : x ∈ need) : SE X C need (.var x) := fun vs hv => by sc [hv _ h]
theorem SE.inner {b : Bool} (h : base b ∈ need) : SE X C need (.inner b) := fun vs hv => by
  rw [exprSyn]; exact inner_scoped (hv _ h)
theorem SE.whole {b : Bool} (h : base b ∈ need) : SE X C need (.whole b) := fun vs hv => by
  have := hv _ h
  cases b <;> simp only [base] at this <;> sc [] <;> exact .inl this
theorem SE.lit {n : Nat} {s : Option Ty} : SE X C need (.lit n s) := fun vs _ => by cases s <;> rfl
theorem SE.bool {b : Bool} : SE X C need (.bool b) := fun vs _ => by cases b <;> sc []
theorem SE.const {b : Bool} {a : Accessor} {f : String} : SE X C need (.const b a f) := fun vs _ => by sc []
theorem SE.maxOf {w : Nat} : SE X C need (.maxOf w) := fun vs _ => by sc []
theorem SE.bitsOf {w : Nat} : SE X C need (.bitsOf w) := fun vs _ => by sc []
theorem SE.zeros {n : Nat} : SE X C need (.zeros n) := fun _ _ => rfl
theorem SE.bytes {bs : List (BitVec 8)} : SE X C need (.bytes bs) := fun vs _ => by sc []
theorem SE.unit : SE X C need .unit := fun _ _ => rfl
theorem SE.errE {m : String} : SE X C need (.errE m) := fun vs _ => by sc []
theorem SE.assoc {b : Bool} {t : Tag} : SE X C need (.assoc b t) := fun vs _ => by sc []
theorem SE.not (h : SE X C need a) : SE X C need (.not a) := fun vs hv => by sc [h vs hv]
theorem SE.neg (h : SE X C need a) : SE X C need (.neg a) := fun vs hv => by sc [h vs hv]
theorem SE.bin {op : BinOp} (h : SE X C need a) (h' : SE X C need b) : SE X C need (.bin op a b) := fun vs hv => by
  sc [h vs hv, h' vs hv]
theorem SE.orElse (h : SE X C need a) (h' : SE X C need b) : SE X C need (.orElse a b) := fun vs hv => by
  sc [h vs hv, h' vs hv]
theorem SE.andAlso (h : SE X C need a) (h' : SE X C need b) : SE X C need (.andAlso a b) := fun vs hv => by
  sc [h vs hv, h' vs hv]
theorem SE.index (h : SE X C need a) (h' : SE X C need b) : SE X C need (.index a b) := fun vs hv => by
  sc [h vs hv, h' vs hv]
theorem SE.cast {t : Ty} (h : SE X C need a) (ht : Ty.named t = true) : SE X C need (.cast a t) := fun vs hv => by
  sc [h vs hv, ht]
theorem SE.castInfer (h : SE X C need a) : SE X C need (.castInfer a) := fun vs hv => by sc [h vs hv]
theorem SE.deref (h : SE X C need a) : SE X C need (.deref a) := fun vs hv => by sc [h vs hv]
theorem SE.boxNew (h : SE X C need a) : SE X C need (.boxNew a) := fun vs hv => by sc [h vs hv]
theorem SE.intoBits (h : SE X C need a) : SE X C need (.intoBits a) := fun vs hv => by sc [h vs hv]
theorem SE.swapBytes (h : SE X C need a) : SE X C need (.swapBytes a) := fun vs hv => by sc [h vs hv]
theorem SE.len (h : SE X C need a) : SE X C need (.len a) := fun vs hv => by sc [h vs hv]
theorem SE.okE (h : SE X C need a) : SE X C need (.okE a) := fun vs hv => by sc [h vs hv]
theorem SE.contains {lo hi : Nat} (h : SE X C need a) : SE X C need (.contains lo hi a) := fun vs hv => by sc [h vs hv]
theorem SE.method {b : Bool} {t : Tag} (hb : base b ∈ need) (h : SE X C need a) : SE X C need (.method b t a) := fun vs hv => by
  sc [h vs hv, this_scoped (hv _ hb)]
theorem SE.ite (h : SE X C need c) (h' : SE X C need a) (h'' : SE X C need b) : SE X C need (.ite c a b) := fun vs hv => by
  sc [h vs hv, h' vs hv, h'' vs hv]
theorem SE.fromBits {c : Codec} (h : SE X C need a) : SE X C need (.fromBits c a) := fun vs hv => by
  have h1 := h vs hv
  by_cases hl : ∃ n t, a = .lit n t
  · obtain ⟨n, t, rfl⟩ := hl
    sc [h1]
  · rw [exprSyn]
    · sc [h1]
    · exact fun n t h => hl ⟨n, t, h⟩
theorem SE.block {s : Stmt} {g : List String} (hs : SS X C need g s) (h : SE X C (g ++ need) a) : SE X C need (.block s a) := by
  intro vs hv
  obtain ⟨h1, h2⟩ := hs vs hv
  have h3 := h (declared vs (stmtSyn C s)) fun x hx => by
    rcases List.mem_append.mp hx with hx | hx
    · exact h2 x hx
    · exact declared_sub _ (hv x hx)
  sc [stmtsScoped_append, h1, h3]
end

attribute [irreducible] SE SS

/-- The variables `need`, and maybe more, are enough. -/
def Enough (X : List Seg → Bool) (C : Style) (need : List String) (e : Expr) : Prop :=
  ∀ need', (∀ x ∈ need, x ∈ need') → SE X C need' e

theorem SE.enough {need : List String} {e : Expr} (h : SE X C need e) : Enough X C need e := fun _ hn => h.mono hn

/-- Membership. -/
macro "mm" : tactic => `(tactic| first | (simp; done) | (simp [*]; done))

/-- One step into code. -/
macro "st" : tactic => `(tactic| first
  | with_reducible first
    | assumption
    | apply_assumption -exfalso -symm
    | exact SE.lit | exact SE.bool | exact SE.const | exact SE.maxOf | exact SE.bitsOf | exact SE.zeros | exact SE.bytes
    | exact SE.unit | exact SE.errE | exact SE.assoc
    | refine SE.var ?_ | refine SE.inner ?_ | refine SE.whole ?_
    | refine SE.bin ?_ ?_ | refine SE.not ?_ | refine SE.neg ?_ | refine SE.orElse ?_ ?_ | refine SE.andAlso ?_ ?_
    | refine SE.index ?_ ?_ | refine SE.cast ?_ ?_
    | refine SE.castInfer ?_ | refine SE.deref ?_ | refine SE.boxNew ?_ | refine SE.intoBits ?_ | refine SE.swapBytes ?_
    | refine SE.len ?_ | refine SE.okE ?_
    | refine SE.contains ?_ | refine SE.method ?_ ?_ | refine SE.ite ?_ ?_ ?_ | refine SE.fromBits ?_ | apply SE.block
    | exact SS.skip | apply SS.seq
    | refine SS.expr ?_ | apply SS.ite | apply SS.loop | apply SS.scope | refine SS.ret ?_
    | refine SS.assignInner ?_ ?_ | refine SS.assignInnerElem ?_ ?_ ?_
    | refine SS.assign ?_ ?_ | refine SS.assignElem ?_ ?_ ?_ | refine SS.tryS ?_
    | exact intTy_named _
  | refine SS.let' ?_ (by simp) | refine SS.letS ?_ (by simp) (fun _ h => by cases h; rfl)
  | exact (rfl : Ty.named _ = true)
  | mm
  | (intro x hx; simp [hx]; done))

/-- All the code. -/
macro "sw" : tactic => `(tactic| ((try simp only [Stmt.all, incr]); repeat' st))

end Bf.Text
