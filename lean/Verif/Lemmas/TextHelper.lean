import Verif.Lemmas.TextCore

/-!
# Reading what generator_helper.rs prints
-/

namespace Bf.Text

open Rust Quote

variable {P : Printer} {C : Style}

theorem text_intTy (t : IntTy) : t.text = tyName (intTy t) := by cases t <;> decide

set_option hygiene false in
macro "open_style " h:ident : tactic => `(tactic| (
  obtain ⟨⟨bk, flds, fe, ie, we, hp⟩, nm, vs, ats, ig, args, df, fv, cm⟩ := P
  obtain ⟨cn, ci, cu⟩ := C
  obtain ⟨hname, hig, huser, hna⟩ := $h
  cases hname; cases hig))

macro "seq" j:num k:num : tactic => `(tactic| exact Seq.mk $j $k (fun _ _ _ => by krfl) (fun _ _ => trivial))

/-- For statements that end with an `if` without `else`. -/
macro "seqIf" j:num k:num : tactic => `(tactic| exact Seq.mk $j $k (fun _ r hr => by
  cases r with
  | nil => krfl
  | cons t r =>
    cases t with
    | kw k => cases k <;> first | exact False.elim hr | krfl
    | _ => krfl) (fun _ _ => trivial))

/-! ## Reading bits -/

theorem seq_extract_bitfield (h : Fits P C) (f : Field) (inv : Bool) :
    Seq (extractTokens P f .bitfield false inv false) (stmtSyn C (extractTok P.B f .bitfield false inv false)) := by
  open_style h
  unfold extractTokens extractTok
  cases bk with
  | int w =>
    cases ig <;> cases inv <;> cases hc : f.hasConstants <;>
      simp only [bitsTokens, offsetTokens, bitsTok, offTok, hc, if_true, if_false, Bool.false_eq_true] <;> seq 2 30
  | arr k =>
    cases hty : f.ty <;> cases ig <;> cases inv <;> cases hc : f.hasConstants <;>
      simp only [bitsTokens, offsetTokens, bitsTok, offTok, hc, if_true, if_false, Bool.false_eq_true] <;> seq 1 60

theorem seq_extract_variable (h : Fits P C) (f : Field) :
    Seq (extractTokens P f .variable false false false)
      (stmtSyn C (extractTok P.B f .variable false false false)) := by
  open_style h
  unfold extractTokens extractTok
  cases bk with
  | int w =>
    cases hc : f.hasConstants <;>
      simp only [bitsTokens, offsetTokens, bitsTok, offTok, hc, if_true, if_false, Bool.false_eq_true] <;> seq 2 30
  | arr k =>
    cases hty : f.ty <;> cases hc : f.hasConstants <;>
      simp only [bitsTokens, offsetTokens, bitsTok, offTok, hc, if_true, if_false, Bool.false_eq_true] <;> seq 1 60

theorem seq_extract_cast (h : Fits P C) (f : Field) (builder : Bool) :
    Seq (extractTokens P f .variable true false builder)
      (stmtSyn C (extractTok P.B f .variable true false builder)) := by
  open_style h
  unfold extractTokens extractTok
  cases bk with
  | int w =>
    cases hty : f.ty with
    | custom c =>
      cases hc : f.hasConstants <;> cases builder <;>
        simp only [bitsTokens, offsetTokens, bitsTok, offTok, hc, if_true, if_false, Bool.false_eq_true] <;> seq 4 30
    | _ =>
      cases hc : f.hasConstants <;> cases builder <;>
        simp only [bitsTokens, offsetTokens, bitsTok, offTok, hc, if_true, if_false, Bool.false_eq_true] <;> seq 3 40
  | arr k =>
    cases hty : f.ty with
    | int t =>
      cases t with
      | bool => seq 1 30
      | _ =>
        cases hc : f.hasConstants <;> cases builder <;>
          simp only [bitsTokens, offsetTokens, bitsTok, offTok, hc, if_true, if_false, Bool.false_eq_true] <;> seq 2 30
    | array len => seq 1 30
    | custom c =>
      cases hc : f.hasConstants <;> cases builder <;>
        simp only [bitsTokens, offsetTokens, bitsTok, offTok, hc, if_true, if_false, Bool.false_eq_true] <;> seq 3 30

/-! ## Storing bits -/

macro "unfold_consts" hc:ident : tactic =>
  `(tactic| simp only [bitsTokens, offsetTokens, bitsTok, offTok, $hc:ident, if_true, if_false, Bool.false_eq_true])

/-- Which integer type it is does not matter, except for `bool`. -/
theorem direct_u8 (f : Field) (t : IntTy) (ht : f.ty = .int t) (hb : t ≠ .bool) (ts : List Tok) (e : Expr) (b : Bool) :
    directTokens P f ts b = directTokens P { f with ty := .int .u8 } ts b ∧
      directTok P.B f e b = directTok P.B { f with ty := .int .u8 } e b := by
  unfold directTokens directTok
  rw [ht]
  cases t with
  | bool => exact absurd rfl hb
  | _ => cases P.B.backing <;> exact ⟨rfl, rfl⟩

theorem simple_u8 {t : IntTy} {ts : List Tok} {u : SExpr} (h : Simple (.int t) ts u) : Simple (.int .u8) ts u := by
  cases h with
  | user => exact .user _ _
  | int => exact .int _ _ _
  | neg => exact .neg _ _ _
  | name => exact .name _ _
  | path => exact .path _ _ _
  | call0 => exact .call0 _ _ _
  | call1 => exact .call1 _ _ _ _ _
  | repeated => exact .repeated _ _ _ _ _

theorem seq_setter_value (h : Fits P C) (f : Field) (builder : Bool) :
    Seq (setterCallTokens P f (valueTokens f) builder)
      (stmtSyn C (setterCallTok P.B f (valueTok f) builder)) := by
  open_style h
  unfold setterCallTokens setterCallTok valueTokens valueTok
  cases hty : f.ty with
  | int t => cases t <;> cases builder <;> seq 1 30
  | array len => cases bk <;> cases builder <;> seq 1 60
  | custom c => cases builder <;> seq 1 30

theorem seq_direct_value (h : Fits P C) (f : Field) (builder : Bool) :
    Seq (directTokens P f (valueTokens f) builder) (stmtSyn C (directTok P.B f (valueTok f) builder)) := by
  have key : ∀ f : Field, (∀ t, f.ty = .int t → t = .bool ∨ t = .u8) →
      Seq (directTokens P f (valueTokens f) builder) (stmtSyn C (directTok P.B f (valueTok f) builder)) := by
    intro f ht
    open_style h
    unfold directTokens directTok valueTokens valueTok
    cases bk with
    | int w =>
      cases hty : f.ty with
      | int t =>
        rcases ht t hty with rfl | rfl
        · cases ig <;> cases builder <;> cases hc : f.hasConstants <;> unfold_consts hc <;> seq 1 50
        · cases ig <;> cases builder <;> cases hc : f.hasConstants <;> unfold_consts hc <;> seq 3 50
      | array len => cases ig <;> cases builder <;> cases hc : f.hasConstants <;> unfold_consts hc <;> seq 3 50
      | custom c => cases ig <;> cases builder <;> cases hc : f.hasConstants <;> unfold_consts hc <;> seq 4 50
    | arr k =>
      cases hty : f.ty with
      | int t =>
        rcases ht t hty with rfl | rfl <;> cases ig <;> cases builder <;> cases hc : f.hasConstants <;>
          unfold_consts hc <;> seq 1 80
      | _ => cases ig <;> cases builder <;> cases hc : f.hasConstants <;> unfold_consts hc <;> seq 1 80
  cases hty : f.ty with
  | int t =>
    by_cases hb : t = .bool
    · exact key f fun t' e => .inl (by rw [hty] at e; cases e; exact hb)
    · have e1 : valueTokens f = valueTokens { f with ty := .int .u8 } := by
        unfold valueTokens; rw [hty]; cases t <;> first | exact absurd rfl hb | rfl
      have e2 : valueTok f = valueTok { f with ty := .int .u8 } := by
        unfold valueTok; rw [hty]; cases t <;> first | exact absurd rfl hb | rfl
      obtain ⟨d1, d2⟩ := direct_u8 (P := P) f t hty hb (valueTokens f) (valueTok f) builder
      rw [d1, d2, e1, e2]
      exact key _ fun t' e => .inr (by cases e; rfl)
  | _ => exact key f fun t' e => by rw [hty] at e; cases e

theorem seq_zero (h : Fits P C) (f : Field) : Seq (setZeroTokens P f) (stmtSyn C (setZeroTok P.B f)) := by
  open_style h
  unfold setZeroTokens setZeroTok
  cases f.hasSetter with
  | true =>
    simp only [if_true]
    unfold setterCallTokens setterCallTok zeroTok
    cases hty : f.ty with
    | int t => cases t <;> seq 1 30
    | array len => cases bk <;> seq 1 60
    | custom c => seq 1 30
  | false =>
    simp only [if_false, Bool.false_eq_true]
    unfold directTokens directTok zeroTok
    cases bk with
    | int w =>
      cases hty : f.ty with
      | int t =>
        cases t with
        | bool => cases ig <;> cases hc : f.hasConstants <;> unfold_consts hc <;> seq 1 50
        | _ => cases ig <;> cases hc : f.hasConstants <;> unfold_consts hc <;> seq 3 50
      | array len => cases ig <;> cases hc : f.hasConstants <;> unfold_consts hc <;> seq 3 50
      | custom c => cases ig <;> cases hc : f.hasConstants <;> unfold_consts hc <;> seq 4 50
    | arr k =>
      cases hty : f.ty with
      | int t => cases t <;> cases ig <;> cases hc : f.hasConstants <;> unfold_consts hc <;> seq 1 80
      | _ => cases ig <;> cases hc : f.hasConstants <;> unfold_consts hc <;> seq 1 80

theorem seq_setter_default (f : Field) (n : String) (i : List (String × SExpr)) (ts : List Tok) (u : SExpr)
    (hs : Simple f.ty ts u) (k : Nat) (v : Val) :
    Seq (setterCallTokens P f ts false)
      (stmtSyn ⟨n, i, fun _ => u⟩ (setterCallTok P.B f (.user k f.ty v) false)) := by
  obtain ⟨⟨bk, flds, _, _, _, hp⟩, nm, vs, ats, ig, args, df, fv, cm⟩ := P
  unfold setterCallTokens setterCallTok
  cases hty : f.ty with
  | int t => rw [hty] at hs; cases t <;> cases hs <;> seq 1 30
  | array len => rw [hty] at hs; cases hs <;> cases bk <;> seq 1 60
  | custom c => rw [hty] at hs; cases hs <;> seq 1 30

theorem seq_direct_default (f : Field) (n : String) (i : List (String × SExpr)) (ts : List Tok) (u : SExpr)
    (he : i = [] ↔ P.ignored = []) (hs : Simple f.ty ts u) (k : Nat) (ty : DataType) (v : Val) :
    Seq (directTokens P f ts false) (stmtSyn ⟨n, i, fun _ => u⟩ (directTok P.B f (.user k ty v) false)) := by
  have hi : (i = [] ∧ P.ignored = []) ∨ (∃ x xs, i = x :: xs) ∧ ∃ y ys, P.ignored = y :: ys := by
    cases i with
    | nil => exact .inl ⟨rfl, he.mp rfl⟩
    | cons x xs =>
      cases e : P.ignored with
      | nil => exact absurd (he.mpr e) (by simp)
      | cons y ys => exact .inr ⟨⟨_, _, rfl⟩, _, _, rfl⟩
  clear he
  have key : ∀ f : Field, Simple f.ty ts u → (∀ t, f.ty = .int t → t = .bool ∨ t = .u8) →
      Seq (directTokens P f ts false) (stmtSyn ⟨n, i, fun _ => u⟩ (directTok P.B f (.user k ty v) false)) := by
    intro f hs ht
    obtain ⟨⟨bk, flds, _, _, _, hp⟩, nm, vs, ats, ig, args, df, fv, cm⟩ := P
    dsimp only at hi
    unfold directTokens directTok
    cases bk with
    | int w =>
      cases hty : f.ty with
      | int t =>
        rw [hty] at hs
        rcases ht t hty with rfl | rfl
        · rcases hi with ⟨rfl, rfl⟩ | ⟨⟨_, _, rfl⟩, _, _, rfl⟩ <;> cases hs <;> cases hc : f.hasConstants <;>
            unfold_consts hc <;> seq 1 50
        · rcases hi with ⟨rfl, rfl⟩ | ⟨⟨_, _, rfl⟩, _, _, rfl⟩ <;> cases hs <;> cases hc : f.hasConstants <;>
            unfold_consts hc <;> seq 3 50
      | array len =>
        rw [hty] at hs
        rcases hi with ⟨rfl, rfl⟩ | ⟨⟨_, _, rfl⟩, _, _, rfl⟩ <;> cases hs <;> cases hc : f.hasConstants <;>
          unfold_consts hc <;> seq 3 50
      | custom c =>
        rw [hty] at hs
        rcases hi with ⟨rfl, rfl⟩ | ⟨⟨_, _, rfl⟩, _, _, rfl⟩ <;> cases hs <;> cases hc : f.hasConstants <;>
          unfold_consts hc <;> seq 4 50
    | arr k =>
      cases hty : f.ty with
      | int t =>
        rw [hty] at hs
        rcases ht t hty with rfl | rfl <;> rcases hi with ⟨rfl, rfl⟩ | ⟨⟨_, _, rfl⟩, _, _, rfl⟩ <;> cases hs <;>
          cases hc : f.hasConstants <;> unfold_consts hc <;> seq 1 80
      | _ =>
        rw [hty] at hs
        rcases hi with ⟨rfl, rfl⟩ | ⟨⟨_, _, rfl⟩, _, _, rfl⟩ <;> cases hs <;> cases hc : f.hasConstants <;>
          unfold_consts hc <;> seq 1 80
  cases hty : f.ty with
  | int t =>
    by_cases hb : t = .bool
    · exact key f hs fun t' e => .inl (by rw [hty] at e; cases e; exact hb)
    · obtain ⟨d1, d2⟩ := direct_u8 (P := P) f t hty hb ts (.user k ty v) false
      rw [d1, d2]
      rw [hty] at hs
      exact key _ (simple_u8 hs) fun t' e => .inr (by cases e; rfl)
  | _ => exact key f hs fun t' e => by rw [hty] at e; cases e

end Bf.Text
