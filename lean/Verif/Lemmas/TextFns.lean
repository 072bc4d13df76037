import Verif.Lemmas.TextSig

/-!
# Reading the functions for fields
-/

namespace Bf.Text

open Rust Quote

variable {P : Printer} {C : Style}

theorem splice_list (l : List Tok) : Splice.splice l = l := rfl

theorem splice_tok (t : Tok) : Splice.splice t = [t] := rfl

theorem stmtSyn_all_cons (C : Style) (s : Stmt) (ss : List Stmt) (t : List SStmt) :
    stmtSyn C (.all (s :: ss)) ++ t = stmtSyn C s ++ (stmtSyn C (.all ss) ++ t) := List.append_assoc _ _ _

theorem stmtSyn_all_nil (C : Style) (t : List SStmt) : stmtSyn C (.all []) ++ t = t := rfl

theorem Mem.cast {a b : List Tok} {A B : List SMember} (h : Mem a A) (e : a = b) (e' : A = B) : Mem b B := e ▸ e' ▸ h

theorem Mem.joinedMap {α : Type} (xs : List α) (f : α → List Tok) (g : α → SMember)
    (h : ∀ x ∈ xs, Mem (f x) [g x]) : Mem (Text.joined (xs.map f)) (xs.map g) := by
  rw [List.map_eq_flatMap (f := g)]
  exact Mem.joined xs f _ h

theorem Body.cast {a b : List Tok} {A B : List SStmt} (h : Body a A) (e : a = b) (e' : A = B) : Body b B := e ▸ e' ▸ h

/-- Tokens in the order of the template. -/
macro "toks" "[" xs:Lean.Parser.Tactic.simpLemma,* "]" : tactic => `(tactic| simp only [$xs,*, splice_list, splice_tok, List.append_assoc,
  List.cons_append, List.nil_append, List.append_nil])

theorem seq_letThis (C : Style) : Seq (quote! "let this = self;") (stmtSyn C .letThis) := by seq 1 20

theorem ret_field (H : Head) (t : DataType) (h : H.obj = dataSyn t) : retSyn H (fieldTy t) = some (dataSyn t) := by
  cases t with
  | int t => cases t <;> rfl
  | array n => rfl
  | custom c => exact congrArg some h

/-! ## Constants -/

theorem mem_constants : Mem (constantsTokens P) P.constsSyn := by
  refine Mem.joined _ _ _ fun f _ => ?_
  have h1 : ∀ (d : String) (x : String) (k : Nat), Mem (let d := Tok.str d; let v := Tok.vis (P.fieldVis f.offset)
      let x := Tok.ident x; let k := u32 k; quote! "#[doc = #d] #v const #x: u32 = #k;")
      [.const (some (P.fieldVis f.offset)) x (namesTy ["u32"]) (.int k "u32")] :=
    fun d x k => Mem.const 20 fun n r => by krfl
  exact (h1 _ _ _).append (h1 _ _ _)

/-! ## Getters and setters -/

theorem body_okUnit (C : Style) : Body (quote! "Ok(())") (tailSyn C false (.okE .unit)) :=
  Body.mk 20 (fun _ _ => by krfl) (fun _ => trivial)

theorem body_return (h : Fits P C) (f : Field) :
    Body (returnTokens P f) [.expr (exprSyn C (returnTok P.B f)) false] := by
  open_style h
  clear huser
  unfold returnTokens returnTok
  cases hty : f.ty with
  | int t => cases t <;> exact Body.mk 30 (fun _ _ => by krfl) (fun _ => trivial)
  | custom c => exact Body.mk 30 (fun _ _ => by krfl) (fun _ => trivial)
  | array k => cases bk <;> exact Body.mk 60 (fun _ _ => by krfl) (fun _ => trivial)

theorem tail_unit (C : Style) (b : Bool) : tailSyn C b .unit = [] := by cases b <;> rfl

theorem tail_plain (C : Style) {e : Expr} (h : e ≠ .unit) : tailSyn C false e = [.expr (exprSyn C e) false] := by
  cases e <;> first | rfl | exact absurd rfl h | (rename_i b _; cases b <;> rfl) | (rename_i b; cases b <;> rfl)

theorem returnTok_ne (B : Bitfield) (f : Field) : returnTok B f ≠ .unit := by
  unfold returnTok unpackTok
  split <;> try split
  all_goals intro h; cases h

macro "fn" "[" xs:Lean.Parser.Tactic.simpLemma,* "]" : tactic => `(tactic| simp only [$xs,*, fnSyn, stmtSyn_all_cons,
  stmtSyn_all_nil, List.map, tail_unit, List.nil_append])

theorem mem_getter (h : Fits P C) (f : Field) :
    Mem (getterTokens P f) [.fn (fnSyn C (P.fieldHead f .ref) (.acc .get f.name) (getterFn P.B f))] := by
  refine (Mem.pub (P := P) (P.fieldVis f.offset) (Accessor.doc P.args.order f .get) (Accessor.get.ident f.name)
    (sg_getter f.ty) ((seq_letThis C).body ((seq_extract_bitfield h f false).body
      ((seq_signExtend (C := C) f).body (body_return h f))))).cast ?_ ?_
  · toks [getterTokens, nameTok]
  · fn [getterFn, tail_plain C (returnTok_ne P.B f), ret_field (P.fieldHead f .ref) f.ty rfl]
    rfl

theorem mem_getters (h : Fits P C) : Mem (gettersTokens P) (P.members C .getters) := by
  refine (Mem.joinedMap (P.B.fields.filter Field.hasGetter) _ _ fun f _ => mem_getter h f).cast rfl ?_
  simp only [Printer.members, Printer.fns, List.map_map, Function.comp_def]

theorem mem_setter (h : Fits P C) (f : Field) :
    Mem (settersTokens1 P f)
      [.fn (fnSyn C (P.fieldHead f .refMut) (.acc .set f.name) (setterFn P.B f)),
       .fn (fnSyn C (P.fieldHead f .refMut) (.acc .checkedSet f.name) (checkedSetterFn P.B f))] := by
  have h1 := Mem.pub (P := P) (P.fieldVis f.offset) (Accessor.doc P.args.order f .set) (Accessor.set.ident f.name)
    (sg_setter f.ty) ((seq_letThis C).body ((seq_setFromVar h f false false true false (by simp)).body Body.nil))
  have h2 := Mem.pub (P := P) (P.fieldVis f.offset) (Accessor.doc P.args.order f .checkedSet)
    (Accessor.checkedSet.ident f.name) (sg_checked f.ty)
    ((seq_letThis C).body ((seq_setFromVar h f false true true false (by simp)).body (body_okUnit C)))
  refine (h1.append h2).cast ?_ ?_
  · toks [settersTokens1, nameTok]
  · fn [setterFn, checkedSetterFn, sig_field (P.fieldHead f .refMut) f.ty rfl]
    rfl

theorem mem_setters (h : Fits P C) : Mem (settersTokens P) (P.members C .setters) := by
  refine (Mem.joined (P.B.fields.filter Field.hasSetter) _ _ fun f _ => mem_setter h f).cast rfl ?_
  simp only [Printer.members, Printer.fns, List.map_flatMap, List.map]

/-! ## Clearing -/

theorem mem_clearField (h : Fits P C) (f : Field) :
    Mem (clearFieldTokens P f) [.fn (fnSyn C (P.opHead f .refMut) (.acc .clear f.name) (clearFieldFn P.B f))] := by
  refine (Mem.pub (P := P) P.vis (Accessor.doc P.args.order f .clear) (Accessor.clear.ident f.name)
    sg_op ((seq_letThis C).body ((seq_zero h f).body Body.nil))).cast ?_ ?_
  · toks [clearFieldTokens, nameTok]
  · fn [clearFieldFn]
    rfl

theorem mem_clearToDefault (h : Fits P C) (f : Field) (hf : f ∈ P.B.fields) :
    Mem (clearToDefaultTokens P f)
      [.fn (fnSyn C (P.opHead f .refMut) (.acc .clearToDefault f.name) (clearToDefaultFn P.B f))] := by
  refine (Mem.pub (P := P) P.vis (Accessor.doc P.args.order f .clearToDefault) (Accessor.clearToDefault.ident f.name)
    sg_op ((seq_letThis C).body ((seq_default h f hf).body Body.nil))).cast ?_ ?_
  · toks [clearToDefaultTokens, nameTok]
  · fn [clearToDefaultFn]
    rfl

theorem mem_clearAll (h : Fits P C) :
    Mem (clearAllTokens P)
      [.fn (fnSyn C (P.head .refMut) (.fn ("clear_" ++ paramTok P.B)) (clearFn P.B false)),
       .fn (fnSyn C (P.head .refMut) (.fn ("clear_" ++ paramTok P.B ++ "_with_defaults")) (clearFn P.B true))] := by
  have h1 := fun doc name d => Mem.pub (P := P) P.vis doc name sg_op
    ((seq_letThis C).body ((seq_new h d false true).body Body.nil))
  refine ((h1 ("Clears all " ++ bob P ++ " in the bitfield.") ("clear_" ++ bob P) false).append
    (h1 ("Clears all " ++ bob P ++ " in the bitfield and set field defaults.")
      ("clear_" ++ bob P ++ "_with_defaults") true)).cast ?_ ?_
  · toks [clearAllTokens]
  · fn [clearFn]
    rfl

theorem mem_clear (h : Fits P C) : Mem (clearTokens P) (P.members C .clearBitOps) := by
  refine ((mem_clearAll h).append ((Mem.joinedMap (P.B.fields.filter Field.hasSetter) _ _ fun f _ =>
    mem_clearField h f).append (Mem.joinedMap (P.B.fields.filter fun f => f.hasSetter && f.hasDefault) _ _ fun f hf =>
      mem_clearToDefault h f (List.mem_filter.mp hf).1))).cast rfl ?_
  simp only [Printer.members, Printer.fns, List.map_append, List.map_map, Function.comp_def, List.map, List.append_assoc,
    List.cons_append, List.nil_append]

/-! ## Construction -/

theorem body_this (C : Style) : Body (quote! "this") (tailSyn C false (.whole false)) :=
  Body.mk 20 (fun _ _ => by krfl) (fun _ => trivial)

theorem mem_newFns (h : Fits P C) : Mem (newFnsTokens P) (P.members C .new) := by
  have h1 := fun doc name d => Mem.pub (P := P) P.vis doc name sg_new ((seq_new h d false false).body (body_this C))
  refine ((h1 "Creates a new bitfield instance." "new" true).append
    (h1 "Creates a new bitfield instance without respecting default values." "new_without_defaults" false)).cast ?_ ?_
  · toks [newFnsTokens, newFnTokens, newWithoutFnTokens]
  · simp only [Printer.members, Printer.fns]
    fn [newFn]
    rfl

/-! ## Inverting -/

theorem toField_eq (P : Printer) (f : Field) : toFieldTokens P f = returnTokens P f := by
  unfold toFieldTokens returnTokens
  cases f.ty with
  | int t => cases t <;> rfl
  | custom c => rfl
  | array n => rfl

theorem mem_inverted (h : Fits P C) (f : Field) :
    Mem (invertedTokens P f) [.fn (fnSyn C (P.opHead f .ref) (.acc .inverted f.name) (invertedFn P.B f))] := by
  refine (Mem.pub (P := P) P.vis (Accessor.doc P.args.order f .inverted) (Accessor.inverted.ident f.name)
    (sg_getter f.ty) ((seq_letThis C).body ((seq_extract_bitfield h f true).body (body_return h f)))).cast ?_ ?_
  · toks [invertedTokens, nameTok, toField_eq]
  · fn [invertedFn, tail_plain C (returnTok_ne P.B f), ret_field (P.opHead f .ref) f.ty rfl]
    rfl

theorem seq_invertSet (h : Fits P C) (f : Field) :
    Seq (let s := nameTok .set f; let v := toFieldTokens P f; quote! "this.#s(#v);")
      (stmtSyn C (.expr (.method false (.acc .set f.name) (returnTok P.B f)))) := by
  rw [toField_eq]
  open_style h
  clear huser
  unfold returnTokens returnTok
  cases hty : f.ty with
  | int t => cases t <;> seq 1 30
  | custom c => seq 1 30
  | array k => cases bk <;> seq 1 60

theorem mem_invertField (h : Fits P C) (f : Field) :
    Mem (invertFieldTokens P f) [.fn (fnSyn C (P.opHead f .refMut) (.acc .invert f.name) (invertFieldFn P.B f))] := by
  refine (Mem.pub (P := P) P.vis (Accessor.doc P.args.order f .invert) (Accessor.invert.ident f.name)
    sg_op ((seq_letThis C).body ((seq_extract_bitfield h f true).body ((seq_invertSet h f).body Body.nil)))).cast ?_ ?_
  · toks [invertFieldTokens, nameTok]
  · fn [invertFieldFn]
    rfl

theorem seq_letBits (h : Fits P C) : Seq (let i := innerTokens P false; quote! "let bits = #i;")
    (stmtSyn C (.letS "bits" none (.inner false))) := by
  open_style h
  cases ig <;> seq 1 20

theorem seq_letBitsArr (h : Fits P C) : Seq (let i := innerTokens P false
    if P.B.heap then quote! "let mut bits = *#i;" else quote! "let mut bits = #i;")
    (stmtSyn C (.letS "bits" none (innerArrTok P.B) true)) := by
  open_style h
  cases ig <;> cases hp <;> seq 1 20

theorem mem_invertAll (h : Fits P C) : Mem (invertAllTokens P)
    [.fn (fnSyn C (P.head .refMut) (.fn ("invert_" ++ paramTok P.B)) (invertFn P.B))] := by
  cases hB : P.B.backing with
  | int w =>
    have h1 : Seq (quote! "let bits = (!bits & !protected_mask) | (bits & protected_mask);")
        (stmtSyn C (.letS "bits" none (.bin .or (.bin .and (.not (.var "bits")) (.not (.var "protected_mask")))
          (.bin .and (.var "bits") (.var "protected_mask"))))) := by seq 1 30
    refine (Mem.pub (P := P) P.vis ("Inverts all writable " ++ bob P ++ " in the bitfield.") ("invert_" ++ bob P)
      sg_op ((seq_letThis C).body ((seq_letBits h).body ((seq_prot (P := P) (C := C) .readOnly).body (h1.body
        ((seq_setAll h .none).body Body.nil)))))).cast ?_ ?_
    · toks [invertAllTokens, hB]
    · fn [invertFn, hB]
      rfl
  | arr n =>
    have h1 : Seq (let array_len := usize n; quote! "let mut i = 0usize;
          while i < #array_len {
              bits[i] = (!bits[i] & !protected_mask[i]) | (bits[i] & protected_mask[i]);
              i += 1;
          }")
        (stmtSyn C (.letS "i" none (.lit 0 (some .usize)) true) ++
          stmtSyn C (.loop (.bin .lt (.var "i") (.lit n (some .usize))) (.all
           [.assignElem "bits" (.var "i") none
             (.bin .or (.bin .and (.not (.index (.var "bits") (.var "i"))) (.not (.index (.var "protected_mask") (.var "i"))))
              (.bin .and (.index (.var "bits") (.var "i")) (.index (.var "protected_mask") (.var "i")))),
            incr "i"]))) := by seq 2 40
    refine (Mem.pub (P := P) P.vis ("Inverts all writable " ++ bob P ++ " in the bitfield.") ("invert_" ++ bob P)
      sg_op ((seq_letThis C).body ((seq_letBitsArr h).body ((seq_prot (P := P) (C := C) .readOnly).body (h1.body
        ((seq_setAll h .none).body Body.nil)))))).cast ?_ ?_
    · toks [invertAllTokens, hB]
    · fn [invertFn, hB, List.append_assoc]
      rfl

theorem mem_invert (h : Fits P C) : Mem (invertTokens P) (P.members C .invertBitOps) := by
  refine ((mem_invertAll h).append ((Mem.joinedMap (P.B.fields.filter Field.hasSetter) _ _ fun f _ =>
    mem_invertField h f).append (Mem.joinedMap (P.B.fields.filter Field.hasGetter) _ _ fun f _ =>
      mem_inverted h f))).cast rfl ?_
  simp only [Printer.members, Printer.fns, List.map_append, List.map_map, Function.comp_def, List.map, List.append_assoc,
    List.cons_append, List.nil_append]

end Bf.Text
