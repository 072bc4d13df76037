import Verif.Lemmas.Scope

/-! # The names the emitted functions use -/

namespace Bf.Text

open Rust Quote

variable {C : Style} {X : List Seg → Bool}

/-! ## Pieces of code -/

section
variable {need : List String} {B : Bitfield} {f : Field}

theorem bits_scoped (f : Field) (b : Bool) {need : List String} : SE X C need (bitsTok f b) := by
  unfold bitsTok
  split <;> sw

theorem off_scoped (f : Field) (b : Bool) {need : List String} : SE X C need (offTok f b) := by
  unfold offTok
  split <;> sw

theorem mask_scoped {w : Nat} {e : Expr} (h : SE X C need e) : SE X C need (maskTok w e) := by
  unfold maskTok; sw

theorem mask128_scoped {e : Expr} (h : SE X C need e) : SE X C need (mask128Tok e) := by
  unfold mask128Tok; sw

theorem notIf_scoped {i : Bool} {e : Expr} (h : SE X C need e) : SE X C need (notIf i e) := by
  cases i <;> simp only [notIf, if_true, if_false, Bool.false_eq_true] <;> sw

theorem unpack_scoped {v : String} {e : Expr} {len : Nat} (hv : v ∈ localNames) (h : SE X C need e) :
    SE X C need (unpackTok v e len) := by
  unfold unpackTok byteTok
  simp only [Stmt.all, incr]
  apply SE.block
  · apply SS.seq
    · exact SS.let' (by sw) hv
    · sw
  · sw

theorem pack_scoped {w k : Nat} (h : "bits" ∈ need) : SE X C need (packTok w k) := by
  unfold packTok
  sw

theorem readArr_scoped {s b o : Expr} {len : Nat} {inv : Bool} (hs : SE X C need s)
    (hb : ∀ need, SE X C need b) (ho : ∀ need, SE X C need o) : SE X C need (readArrTok s b o len inv) := by
  have hs := hs.enough
  unfold Enough at hs
  unfold readArrTok
  cases inv <;> simp only [if_true, if_false, Bool.false_eq_true] <;> sw

theorem read_scoped {s b o : Expr} {inv : Bool} (hs : SE X C need s)
    (hb : ∀ need, SE X C need b) (ho : ∀ need, SE X C need o) : SE X C need (readTok s b o inv) := by
  have hs := hs.enough
  unfold Enough at hs
  unfold readTok mask128Tok
  cases inv <;> simp only [if_true, if_false, Bool.false_eq_true] <;> sw

/-- The variable the bits come from. -/
def sourceName (src : Source) (b : Bool) : String :=
  match src with
  | .bitfield => base b
  | .variable => "bits"

theorem source_scoped {src : Source} {b : Bool} (h : sourceName src b ∈ need) : SE X C need (sourceTok src b) := by
  cases src
  · exact SE.inner h
  · exact SE.var h

theorem SS.give {g g' : List String} {s : Stmt} (h : SS X C need g s) (hg : ∀ x ∈ g', x ∈ g) : SS X C need g' s :=
  h.mono (fun _ h => h) hg

theorem SS.enough {g : List String} {s : Stmt} (h : SS X C need g s) {need' : List String} (hn : ∀ x ∈ need, x ∈ need') :
    SS X C need' g s := h.mono hn fun _ h => h

set_option maxHeartbeats 1000000 in
theorem extract_scoped {src : Source} {cast inv b : Bool} (h : sourceName src b ∈ need) :
    SS X C need ["value"] (extractTok B f src cast inv b) := by
  have hb := fun need => bits_scoped (X := X) (C := C) f b (need := need)
  have ho := fun need => off_scoped (X := X) (C := C) f b (need := need)
  have hs := fun need h => source_scoped (X := X) (C := C) (src := src) (b := b) (need := need) h
  have hn := fun need e h => notIf_scoped (X := X) (C := C) (i := inv) (need := need) (e := e) h
  have hv : (src = .variable && cast) = true → "bits" ∈ need := fun e => by
    simp only [Bool.and_eq_true, decide_eq_true_eq] at e
    rw [e.1] at h
    exact h
  have hm := fun need w => mask_scoped (X := X) (C := C) (w := w) (hb need)
  have hm' := fun need => mask128_scoped (X := X) (C := C) (hb need)
  have hp := fun need w k => pack_scoped (X := X) (C := C) (need := need) (w := w) (k := k)
  have hr := fun len i => readArr_scoped (len := len) (inv := i) (source_scoped (X := X) (C := C) h) hb ho
  have hr' := fun i => read_scoped (inv := i) (source_scoped (X := X) (C := C) h) hb ho
  unfold extractTok
  simp only []
  generalize bitsTok f b = bits at hb hm hm' hr hr' ⊢
  generalize offTok f b = off at ho hr hr' ⊢
  generalize sourceTok src b = source at hs hr hr' ⊢
  by_cases hc : (src = .variable && cast) = true
  · have hv := hv hc
    simp only [hc, if_true]
    cases B.backing with
    | int w =>
      cases f.ty with
      | custom c => apply SS.give <;> sw
      | array k => apply SS.give <;> sw
      | int t => apply SS.give <;> sw
    | arr n =>
      cases f.ty with
      | custom c => apply SS.give <;> sw
      | array k => apply SS.give <;> sw
      | int t =>
        have hi : ∀ t, SS X C need ["value"] (.all
          [.letS "mask" none (.cast (mask128Tok bits) (intTy t)),
           .letS "value" none (.block (.letS "val" none (.bin .and (.var "bits") (.var "mask"))) (notIf inv (.var "val")))]) := by
          intro t
          apply SS.give <;> sw
        cases t with
        | bool => apply SS.give <;> sw
        | _ => exact hi _
  · simp only [hc, if_false, Bool.false_eq_true]
    cases B.backing with
    | int w => apply SS.give <;> sw
    | arr n =>
      cases f.ty with
      | array k => apply SS.give <;> sw
      | _ => apply SS.give <;> sw

/-- A sequence of statements, and what it declares beyond what is asked for. -/
macro "gv" : tactic => `(tactic| (apply SS.give <;> sw))

theorem extract_mask {cast : Bool} {b : Bool} (hc : cast = true) (h : "bits" ∈ need) (ht : f.ty.isBool = false) (ht' : f.ty.isArray = false) :
    SS X C need ["value", "mask"] (extractTok B f .variable cast false b) := by
  have hb := fun need => bits_scoped (X := X) (C := C) f b (need := need)
  have hm := fun need w => mask_scoped (X := X) (C := C) (w := w) (hb need)
  have hm' := fun need => mask128_scoped (X := X) (C := C) (hb need)
  subst hc
  unfold extractTok
  simp only [sourceTok, notIf, Bool.and_true, decide_true, if_true, if_false, Bool.false_eq_true]
  generalize bitsTok f b = bits at hb hm hm' ⊢
  cases B.backing with
  | int w =>
    cases hf : f.ty with
    | custom c => gv
    | array k => rw [hf] at ht'; cases ht'
    | int t => gv
  | arr n =>
    cases hf : f.ty with
    | custom c => gv
    | array k => rw [hf] at ht'; cases ht'
    | int t =>
      have hi : ∀ t, SS X C need ["value", "mask"] (.all
          [.letS "mask" none (.cast (mask128Tok bits) (intTy t)),
           .letS "value" none (.block (.letS "val" none (.bin .and (.var "bits") (.var "mask"))) (.var "val"))]) := by
        intro t
        gv
      cases t with
      | bool => rw [hf] at ht; cases ht
      | _ => exact hi _

theorem value_scoped (h : "value" ∈ need) : SE X C need (valueTok f) := by
  unfold valueTok
  split <;> sw

theorem setterCall_scoped {v : Expr} {b : Bool} (hb : base b ∈ need) (hv : SE X C need v) :
    SS X C need [] (setterCallTok B f v b) := by
  have hu := fun len => unpack_scoped (len := len) (v := "__int_val") (by simp) hv
  unfold setterCallTok
  simp only []
  repeat' split
  all_goals gv

theorem storeBits_scoped {o : Expr} {b : Bool} (hb : base b ∈ need) (hm : "mask" ∈ need) (hf : "field_bits" ∈ need)
    (ho : SE X C need o) : SS X C need [] (storeBitsTok o b) := by
  unfold storeBitsTok
  gv

theorem storeBit_scoped {c o : Expr} {b : Bool} (hb : base b ∈ need) (hc : SE X C need c)
    (ho : SE X C need o) : SS X C need [] (storeBitTok c o b) := by
  unfold storeBitTok
  gv

theorem storeByteBit_scoped {c i k : Expr} {b : Bool} (hb : base b ∈ need) (hc : SE X C need c)
    (hi : SE X C need i) (hk : SE X C need k) : SS X C need [] (storeByteBitTok c i k b) := by
  unfold storeByteBitTok
  gv

theorem direct_scoped {v : Expr} {b : Bool} (hb : base b ∈ need) (hv : SE X C need v) :
    SS X C need [] (directTok B f v b) := by
  have hs := fun need o hb => storeBits_scoped (X := X) (C := C) (b := b) (need := need) (o := o) hb
  have hs' := fun need c o hb => storeBit_scoped (X := X) (C := C) (b := b) (need := need) (c := c) (o := o) hb
  have hs'' := fun need c i k hb => storeByteBit_scoped (X := X) (C := C) (b := b) (need := need) (c := c) (i := i) (k := k) hb
  have h1 := fun need => bits_scoped (X := X) (C := C) f b (need := need)
  have ho := fun need => off_scoped (X := X) (C := C) f b (need := need)
  have hm := fun need w => mask_scoped (X := X) (C := C) (w := w) (h1 need)
  have hv := hv.enough
  unfold Enough at hv
  unfold directTok
  simp only []
  generalize bitsTok f b = bits at h1 hm ⊢
  generalize offTok f b = off at ho ⊢
  split
  · split
    · gv
    · split <;> gv
  · split <;> gv

theorem check_scoped (hb : "bits" ∈ need) (hm : "mask" ∈ need) : SS X C need [] checkTok := by
  unfold checkTok
  gv

theorem signedCheck_scoped (hb : "bits" ∈ need) : SS X C need [] (signedCheckTok f) := by
  unfold signedCheckTok
  split
  · split
    · exact SS.skip
    · gv
  · exact SS.skip

theorem builderSet_scoped {c : Bool} (hb : "bits" ∈ need) (hs : "self" ∈ need) : SS X C need [] (builderSetTok f c) := by
  have hs : base true ∈ need := hs
  unfold builderSetTok
  simp only []
  cases c <;> simp only [if_true, if_false, Bool.false_eq_true] <;> split <;> gv

end

end Bf.Text
