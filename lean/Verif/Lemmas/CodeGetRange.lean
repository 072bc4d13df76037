import Verif.Lemmas.CodeRangeFn

/-!
# Running generated functions: reading a range
-/

namespace Bf

open Rust Quote

set_option linter.unusedSimpArgs false

section
variable {cx : Ctx} {B : Bitfield} {s : Store} {l sh : List (String × V)} {th : Bool}

/-- Copying one bit into the result. -/
def resBit (bs : List (BitVec 8)) (src i : Nat) (res : List (BitVec 8)) : R (List (BitVec 8)) := do
  let b ← getB bs (src / 8)
  let bv := (b >>> (src % 8)) &&& 1#8
  let r ← getB res (i / 8)
  setB res (i / 8) (r ||| (bv <<< (i % 8)))

/-- The loop of `get_bytes_range` in the model. -/
def getLoop (m : Mode) (bs prot : List (BitVec 8)) (o n : Nat) (res : List (BitVec 8)) : R (List (BitVec 8)) :=
  forUpTo n (fun i res => do
    let src ← addU32 m o i
    let p ← bitAt prot src
    if !p then resBit bs src i res else return res) res

/-- The loop of `checked_get_bytes_range` in the model. -/
def getLoopAll (m : Mode) (bs : List (BitVec 8)) (o n : Nat) (res : List (BitVec 8)) : R (List (BitVec 8)) :=
  forUpTo n (fun i res => do
    let src ← addU32 m o i
    resBit bs src i res) res

theorem resBit_length {bs res res' : List (BitVec 8)} {src i : Nat} (h : resBit bs src i res = .ok res') :
    res'.length = res.length := by
  simp only [resBit] at h
  cases h1 : getB bs (src / 8) with
  | error p => rw [h1] at h; cases h
  | ok b =>
    cases h2 : getB res (i / 8) with
    | error p => rw [h1, h2] at h; cases h
    | ok r => rw [h1, h2] at h; exact setB_length h

theorem getLoop_length {m : Mode} {bs prot res res' : List (BitVec 8)} {o n : Nat}
    (h : getLoop m bs prot o n res = .ok res') : res'.length = res.length := by
  refine forUpTo_inv (P := fun b => b.length = res.length) rfl ?_ h
  intro i a b ha hab
  cases h1 : addU32 m o i with
  | error p => rw [h1] at hab; cases hab
  | ok src =>
    rw [h1, ebind_ok] at hab
    cases h2 : bitAt prot src with
    | error p => rw [h2] at hab; cases hab
    | ok p =>
      rw [h2, ebind_ok] at hab
      cases p with
      | true =>
        simp only [Bool.not_true, Bool.false_eq_true, if_false] at hab
        cases hab
        exact ha
      | false =>
        simp only [Bool.not_false, if_true] at hab
        rw [resBit_length hab, ha]

theorem getLoopAll_length {m : Mode} {bs res res' : List (BitVec 8)} {o n : Nat}
    (h : getLoopAll m bs o n res = .ok res') : res'.length = res.length := by
  refine forUpTo_inv (P := fun b => b.length = res.length) rfl ?_ h
  intro i a b ha hab
  cases h1 : addU32 m o i with
  | error p => rw [h1] at hab; cases hab
  | ok src =>
    rw [h1, ebind_ok] at hab
    rw [resBit_length hab, ha]

theorem exec_resBit {bs res : List (BitVec 8)} {d i : Nat} {rest : Stmt} (hi32 : i < 2 ^ 32) (h1 : look "src_byte" l = some (.usize (d / 8)))
    (h2 : look "src_bit_in_byte" l = some (.u 32 (d % 8))) (h3 : look "i" l = some (.u 32 i))
    (h4 : look "res" l = some (.arr res)) :
    exec cx (.seq (.letS "bit_val" none
    (.bin .and (.bin .shr (.index (.inner false) (.var "src_byte")) (.var "src_bit_in_byte")) (.lit 1 none)))
   (.seq (.letS "dst_byte" none (.cast (.bin .div (.var "i") (.lit 8 none)) .usize))
   (.seq (.letS "dst_bit_in_byte" none (.bin .rem (.var "i") (.lit 8 none)))
   (.seq (.assignElem "res" (.var "dst_byte") (some .or) (.bin .shl (.var "bit_val") (.var "dst_bit_in_byte"))) rest))))
      ⟨l, true, .arr bs, sh⟩ =
      liftE (getB bs (d / 8)) >>= fun b =>
        liftE (getB res (i / 8)) >>= fun r =>
          liftE (setB res (i / 8) (r ||| (((b >>> (d % 8)) &&& 1#8) <<< (i % 8)))) >>= fun res' =>
            exec cx rest ⟨("dst_bit_in_byte", .u 32 (i % 8)) :: ("dst_byte", .usize (i / 8)) ::
              ("bit_val", bv ((b >>> (d % 8)) &&& 1#8)) :: update "res" (.arr res') l, true, .arr bs, sh⟩ := by
  have hd : d % 8 < 8 := by omega
  have hi : i % 8 < 8 := by omega
  have hc := castV_usize (show i / 8 < 2 ^ 32 by omega)
  cases c1 : getB bs (d / 8) with
  | error p =>
    run [Ctx.hasInner, h1, h2, c1]
  | ok b =>
    cases c2 : getB res (i / 8) with
    | error p => run [Ctx.hasInner, h1, h2, h3, h4, c1, c2, shr_ok _ _ hd, shl_ok _ _ hi, hc]
    | ok r =>
      cases c3 : setB res (i / 8) (r ||| (((b >>> (d % 8)) &&& 1#8) <<< (i % 8))) with
      | error p => run [Ctx.hasInner, h1, h2, h3, h4, c1, c2, c3, shr_ok _ _ hd, shl_ok _ _ hi, hc]
      | ok res' => run [Ctx.hasInner, h1, h2, h3, h4, c1, c2, c3, shr_ok _ _ hd, shl_ok _ _ hi, hc]

theorem exec_resBit_ite {bs res : List (BitVec 8)} {d i : Nat} (hi32 : i < 2 ^ 32) (h1 : look "src_byte" l = some (.usize (d / 8)))
    (h2 : look "src_bit_in_byte" l = some (.u 32 (d % 8))) (h3 : look "i" l = some (.u 32 i))
    (h4 : look "res" l = some (.arr res)) (h5 : look "is_protected" l = some (.bool false)) :
    exec cx (.ite (.not (.var "is_protected")) (.all resBitTok) .skip) ⟨l, true, .arr bs, sh⟩ =
      (liftE (resBit bs d i res)).map fun res' => .next ⟨update "res" (.arr res') l, true, .arr bs, sh⟩ := by
  have e3 := exec_resBit (cx := cx) (bs := bs) (rest := .skip) (sh := sh) hi32 h1 h2 h3 h4
  have hc : eval cx (.not (.var "is_protected")) (some .bool) ⟨l, true, .arr bs, sh⟩ =
      .ok (.bool true, ⟨l, true, .arr bs, sh⟩) := by
    run [h5, notV, Bool.not_false]
  rw [exec.eq_12, hc]
  simp only [ebind_ok, Stmt.all, resBitTok]
  rw [e3]
  simp only [resBit]
  cases c1 : getB bs (d / 8) with
  | error p => simp only [liftE_ok, liftE_err, ebind_ok, ebind_error, emap_error]
  | ok b =>
    cases c2 : getB res (i / 8) with
    | error p => simp only [liftE_ok, liftE_err, ebind_ok, ebind_error, emap_error]
    | ok r =>
      simp only [liftE_ok, ebind_ok]
      cases c3 : setB res (i / 8) (r ||| (((b >>> (d % 8)) &&& 1#8) <<< (i % 8))) with
      | error p => simp only [liftE_ok, liftE_err, ebind_ok, ebind_error, emap_error]
      | ok r =>
        simp only [liftE_ok, ebind_ok, emap_ok, epure, exec.eq_1]
        simp only [Env.leave, List.length_cons, update_length]
        congr 3
        rw [show l.length + 1 + 1 + 1 - l.length = 3 by omega]
        rfl

set_option maxHeartbeats 1000000 in
theorem exec_getLoop {p bs res : List (BitVec 8)} {o n : Nat} (hf : n < cx.fuel) (hn : n < 2 ^ 32)
    (ho : look "offset" l = some (.u 32 o)) (hlen : look "length" l = some (.u 32 n))
    (hp : look "protected_mask" l = some (.arr p)) :
    exec cx (upToTok
            [posTok "src_bit" "src_byte" "src_bit_in_byte", isProtTok "src_byte" "src_bit_in_byte",
             .ite (.not (.var "is_protected")) (.all resBitTok) .skip]) ⟨("res", .arr res) :: l, true, .arr bs, sh⟩ =
      (liftE (getLoop cx.mode bs p o n res)).map fun res' =>
        .next ⟨("i", .u 32 n) :: ("res", .arr res') :: l, true, .arr bs, sh⟩ := by
  refine exec_upTo (fun i res => ⟨("i", .u 32 i) :: ("res", .arr res) :: l, true, .arr bs, sh⟩) (by run []) rfl hf
    (by intro i st; run [hlen]) ?_
  intro i a hi
  have hi1 := addU32_succ cx.mode (show i + 1 < 2 ^ 32 by omega)
  rw [List.cons_append, Stmt.all, List.cons_append, Stmt.all]
  have e1 := exec_posTok (cx := cx) (s := .arr bs) (sh := sh) (th := true)
    (l := ("i", .u 32 i) :: ("res", .arr a) :: l)
    (bit := "src_bit") (byte := "src_byte") (inByte := "src_bit_in_byte") (o := o) (i := i) (by decide)
    (by run [ho]) (by run [])
  cases ha : addU32 cx.mode o i with
  | error q =>
    rw [ha] at e1
    simp only [liftE_err, emap_error] at e1
    rw [exec_seq_error e1]
    run []
  | ok d =>
  rw [ha] at e1
  simp only [liftE_ok, emap_ok] at e1
  rw [exec_seq_next e1, ebind_ok]
  have e2 := exec_isProt (cx := cx) (s := .arr bs) (sh := sh) (th := true) (d := d) (p := p)
    (bit := "src_bit") (byte := "src_byte") (inByte := "src_bit_in_byte")
    (l := ("i", .u 32 i) :: ("res", .arr a) :: l) (by decide) (by decide) (by decide) (by decide) (by run [hp])
  cases hq : bitAt p d with
  | error q =>
    rw [hq] at e2
    simp only [liftE_err, emap_error] at e2
    rw [exec_seq_error e2]
    run []
  | ok b =>
  rw [hq] at e2
  simp only [liftE_ok, emap_ok] at e2
  rw [exec_seq_next e2, ebind_ok]
  simp only [posVars, List.cons_append, List.nil_append]
  cases b with
  | true =>
    have hc : eval cx (.not (.var "is_protected")) (some .bool) ⟨("is_protected", .bool true) ::
          ("src_bit_in_byte", .u 32 (d % 8)) :: ("src_byte", .usize (d / 8)) ::
          ("src_bit", .u 32 d) :: ("i", .u 32 i) :: ("res", .arr a) :: l, true, .arr bs, sh⟩ =
        .ok (.bool false, ⟨("is_protected", .bool true) :: ("src_bit_in_byte", .u 32 (d % 8)) ::
          ("src_byte", .usize (d / 8)) :: ("src_bit", .u 32 d) :: ("i", .u 32 i) :: ("res", .arr a) :: l,
          true, .arr bs, sh⟩) := by
      run [notV, Bool.not_true]
    rw [Stmt.all, exec.eq_2, exec.eq_12, hc]
    run [hi1]
  | false =>
    have e3 := exec_resBit_ite (cx := cx) (bs := bs) (res := a) (d := d) (i := i) (sh := sh)
      (l := ("is_protected", .bool false) :: ("src_bit_in_byte", .u 32 (d % 8)) :: ("src_byte", .usize (d / 8)) ::
          ("src_bit", .u 32 d) :: ("i", .u 32 i) :: ("res", .arr a) :: l) (by omega) (by run []) (by run []) (by run [])
          (by run []) (by run [])
    simp only [Bool.not_false, if_true]
    rw [Stmt.all, exec.eq_2, e3]
    cases resBit bs d i a with
    | error q => run []
    | ok a' => run [hi1]

set_option maxHeartbeats 1000000 in
theorem exec_getLoopAll {bs res : List (BitVec 8)} {o n : Nat} (hf : n < cx.fuel) (hn : n < 2 ^ 32)
    (ho : look "offset" l = some (.u 32 o)) (hlen : look "length" l = some (.u 32 n)) :
    exec cx (upToTok (posTok "src_bit" "src_byte" "src_bit_in_byte" :: resBitTok))
        ⟨("res", .arr res) :: l, true, .arr bs, sh⟩ =
      (liftE (getLoopAll cx.mode bs o n res)).map fun res' =>
        .next ⟨("i", .u 32 n) :: ("res", .arr res') :: l, true, .arr bs, sh⟩ := by
  refine exec_upTo (fun i res => ⟨("i", .u 32 i) :: ("res", .arr res) :: l, true, .arr bs, sh⟩) (by run []) rfl hf
    (by intro i st; run [hlen]) ?_
  intro i a hi
  have hi1 := addU32_succ cx.mode (show i + 1 < 2 ^ 32 by omega)
  rw [List.cons_append, Stmt.all]
  have e1 := exec_posTok (cx := cx) (s := .arr bs) (sh := sh) (th := true)
    (l := ("i", .u 32 i) :: ("res", .arr a) :: l)
    (bit := "src_bit") (byte := "src_byte") (inByte := "src_bit_in_byte") (o := o) (i := i) (by decide)
    (by run [ho]) (by run [])
  cases ha : addU32 cx.mode o i with
  | error q =>
    rw [ha] at e1
    simp only [liftE_err, emap_error] at e1
    rw [exec_seq_error e1]
    run []
  | ok d =>
  rw [ha] at e1
  simp only [liftE_ok, emap_ok] at e1
  rw [exec_seq_next e1, ebind_ok]
  simp only [posVars, List.cons_append, List.nil_append, resBitTok, Stmt.all]
  rw [exec_resBit (d := d) (i := i) (res := a) (by omega) (by run []) (by run []) (by run []) (by run [])]
  simp only [resBit]
  cases c1 : getB bs (d / 8) with
  | error p => simp only [liftE_ok, liftE_err, ebind_ok, ebind_error, emap_error]
  | ok b =>
    cases c2 : getB a (i / 8) with
    | error p => simp only [liftE_ok, liftE_err, ebind_ok, ebind_error, emap_error]
    | ok r =>
      simp only [liftE_ok, ebind_ok]
      cases c3 : setB a (i / 8) (r ||| (((b >>> (d % 8)) &&& 1#8) <<< (i % 8))) with
      | error p => simp only [liftE_ok, liftE_err, ebind_ok, ebind_error, emap_error]
      | ok r => run [hi1]

end

end Bf
