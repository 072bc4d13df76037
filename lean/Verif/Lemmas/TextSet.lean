import Verif.Lemmas.TextHelper

/-!
# Reading what generator_helper.rs prints: checks, defaults and constructors
-/

namespace Bf.Text

open Rust Quote

variable {P : Printer} {C : Style}

theorem Seq.last {a : List Tok} {A : List SStmt} (h : Seq a A) : Seq a (A ++ []) := by rwa [List.append_nil]

/-! ## Checks -/

theorem seq_check : Seq checkTokens (stmtSyn C checkTok) := by seqIf 1 30

theorem seq_signedCheck (f : Field) : Seq (signedCheckTokens f) (stmtSyn C (signedCheckTok f)) := by
  unfold signedCheckTokens signedCheckTok
  cases hty : f.ty with
  | int t =>
    by_cases hb : f.bits ≥ t.bitSize
    · simp only [hb, if_true]; exact Seq.nil
    · simp only [hb, if_false]
      rw [text_intTy]
      seqIf 1 30
  | _ => exact Seq.nil

theorem seq_builderSet (f : Field) (check : Bool) : Seq (builderSetTokens f check) (stmtSyn C (builderSetTok f check)) := by
  unfold builderSetTokens builderSetTok
  cases check <;> cases hty : f.ty with
  | int t => cases t <;> seq 1 40
  | _ => seq 1 40

theorem seq_setFromVar (h : Fits P C) (f : Field) (useSetter check : Bool) (cast builder : Bool)
    (hb : builder = true → cast = true) :
    Seq (setFromVarTokens P f useSetter cast check builder)
      (stmtSyn C (setFromVarTok P.B f useSetter cast check builder)) := by
  have he : Seq (extractTokens P f .variable cast false builder)
      (stmtSyn C (extractTok P.B f .variable cast false builder)) := by
    cases cast with
    | true => exact seq_extract_cast h f builder
    | false =>
      cases builder with
      | true => exact absurd (hb rfl) (by decide)
      | false => exact seq_extract_variable h f
  have h1 : ∀ c : Bool, Seq (Splice.splice (if c then some (signedCheckTokens f) else none))
      (stmtSyn C (if c then signedCheckTok f else .skip)) := by
    intro c; cases c
    · exact Seq.nil
    · exact seq_signedCheck f
  have h2 : ∀ c : Bool, Seq (Splice.splice (if c then some checkTokens else none))
      (stmtSyn C (if c then checkTok else .skip)) := by
    intro c; cases c
    · exact Seq.nil
    · exact seq_check
  have h3 : ∀ c : Bool, Seq (if c then setterCallTokens P f (valueTokens f) builder
        else directTokens P f (valueTokens f) builder)
      (stmtSyn C (if c then setterCallTok P.B f (valueTok f) builder else directTok P.B f (valueTok f) builder)) := by
    intro c; cases c
    · exact seq_direct_value h f builder
    · exact seq_setter_value h f builder
  unfold setFromVarTokens setFromVarTok
  cases hu : builder && (f.hasSetter && useSetter) with
  | true => simp only [hu, if_true]; exact seq_builderSet f check
  | false =>
    simp only [hu, Bool.false_eq_true, if_false]
    exact (h1 _).append (he.append ((h2 _).append (h3 _).last))

theorem seq_setAll (h : Fits P C) (p : Protection) : Seq (setAllTokens P p) (stmtSyn C (setAllTok P.B p)) :=
  Seq.joined _ _ _ C fun f _ => seq_setFromVar h f true false false false (by decide)

/-! ## Defaults and zeros -/

theorem stmtSyn_setter (n : String) (i : List (String × SExpr)) (cu : Nat → SExpr) (B : Bitfield) (f : Field) (k : Nat)
    (ty : DataType) (v : Val) :
    stmtSyn ⟨n, i, cu⟩ (setterCallTok B f (.user k ty v) false) =
      stmtSyn ⟨n, i, fun _ => cu k⟩ (setterCallTok B f (.user k ty v) false) := by
  unfold setterCallTok
  cases f.ty with
  | int t => cases t <;> rfl
  | array len => cases B.backing <;> rfl
  | custom c => rfl

theorem stmtSyn_direct (n : String) (i : List (String × SExpr)) (cu : Nat → SExpr) (B : Bitfield) (f : Field) (k : Nat)
    (ty : DataType) (v : Val) :
    stmtSyn ⟨n, i, cu⟩ (directTok B f (.user k ty v) false) =
      stmtSyn ⟨n, i, fun _ => cu k⟩ (directTok B f (.user k ty v) false) := by
  unfold directTok
  cases hc : f.hasConstants <;> simp only [bitsTok, offTok, hc, if_true, if_false, Bool.false_eq_true] <;>
  cases B.backing with
  | int w =>
    cases f.ty with
    | int t => cases t <;> krfl
    | _ => krfl
  | arr k =>
    cases f.ty with
    | int t => cases t <;> krfl
    | _ => krfl

theorem seq_default (h : Fits P C) (f : Field) (hf : f ∈ P.B.fields) :
    Seq (setDefaultTokens P f) (stmtSyn C (setDefaultTok P.B f)) := by
  unfold setDefaultTokens setDefaultTok
  cases hd : f.default with
  | none => exact Seq.nil
  | some v =>
    have hs := h.user f hf (by rw [Field.hasDefault, hd]; rfl)
    have hi : C.ignored = [] ↔ P.ignored = [] := by rw [h.ignored]; simp
    obtain ⟨cn, ci, cu⟩ := C
    dsimp only at hs hi ⊢
    cases f.hasSetter with
    | true =>
      simp only [if_true]
      rw [stmtSyn_setter]
      exact seq_setter_default f cn ci _ _ hs _ _
    | false =>
      simp only [if_false, Bool.false_eq_true]
      rw [stmtSyn_direct]
      exact seq_direct_default f cn ci _ _ hi hs _ _ _

theorem seq_defaults (h : Fits P C) :
    Seq (joined (setDefaultsTokens P)) (stmtSyn C (setDefaultsTok P.B)) :=
  Seq.joined _ _ _ C fun f hf => seq_default h f (List.mem_filter.mp hf).1

theorem seq_zeros (h : Fits P C) (skip : Bool) :
    Seq (joined (setZerosTokens P skip)) (stmtSyn C (setZerosTok P.B skip)) :=
  Seq.joined _ _ _ C fun f _ => seq_zero h f

theorem seq_signExtend (f : Field) : Seq (signExtendTokens f) (stmtSyn C (signExtendTok f)) := by
  unfold signExtendTokens signExtendTok
  cases hty : f.ty with
  | int t => cases t <;> first | exact Seq.nil | seq 3 30
  | _ => exact Seq.nil

end Bf.Text
