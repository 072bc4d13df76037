import Verif.Lemmas.Code
import Verif.Spec

/-!
# Running generated code: fragments
-/

namespace Bf

open Rust Quote

set_option linter.unusedSimpArgs false

/-! ## Masks -/

theorem eval_maskTok {cx : Ctx} {bits : Expr} {nb w : Nat} {env : Env} {exp : Option Ty}
    (hb : ∀ exp, eval cx bits exp env = .ok (.u 32 nb, env)) :
    eval cx (maskTok w bits) exp env = (liftE (intMask cx.mode w nb)).map fun x => (bv x, env) := by
  run [maskTok, hb, intMask]
  cases subU32 cx.mode w nb with
  | error e => run []
  | ok k =>
    run []
    cases shr cx.mode (maxOf w) k <;> run []

theorem eval_mask128 {cx : Ctx} {bits : Expr} {nb : Nat} {env : Env} {exp : Option Ty}
    (hb : ∀ exp, eval cx bits exp env = .ok (.u 32 nb, env)) :
    eval cx (mask128Tok bits) exp env = (liftE (mask128 cx.mode nb)).map fun x => (bv x, env) := by
  have he : binV cx.mode .eq (.u 32 nb) (.u 32 128) = .ok (.bool (decide (nb = 128))) := by
    simp only [binV, Rust.compare, u_ty, u_num, if_true]
    exact congrArg (fun x => Except.ok (V.bool x)) (by simp; omega)
  run [mask128Tok, hb, he, mask128, maxOf]
  by_cases h : nb = 128
  · run [h, decide_true]
  · run [h, decide_false]
    cases hs : shl cx.mode 1#128 nb with
    | error e => run []
    | ok x =>
      have : ∃ k, k < 128 ∧ x = 1#128 <<< k := by
        unfold shl at hs
        split at hs
        · cases hs; exact ⟨_, by assumption, rfl⟩
        · cases hm : cx.mode <;> rw [hm] at hs <;> cases hs
          exact ⟨_, Nat.mod_lt _ (by decide), rfl⟩
      obtain ⟨k, hk, rfl⟩ := this
      run []
      rw [sub_bv]
      · run []
      · simp only [BitVec.toNat_shiftLeft, BitVec.toNat_ofNat, Nat.shiftLeft_eq]
        have : 2 ^ k < 2 ^ 128 := Nat.pow_lt_pow_right (by decide) hk
        have h1 : 0 < 2 ^ k := Nat.pow_pos (by decide)
        rw [show 1 % 2 ^ 128 = 1 from rfl, Nat.one_mul, Nat.mod_eq_of_lt this]
        exact h1

/-! ## Reading a field out of a byte array -/

section
variable {cx : Ctx} {source bits off : Expr} {nb no : Nat} {l : List (String × V)} {th : Bool} {c : Store}
  {sh : List (String × V)} {bs : List (BitVec 8)} {inv bx : Bool} {exp : Option Ty}

theorem eval_readTok
    (hb : ∀ exp env, eval cx bits exp env = .ok (.u 32 nb, env))
    (ho : ∀ exp env, eval cx off exp env = .ok (.u 32 no, env))
    (hs : ∀ l' exp, look "bits" l' = look "bits" l →
      eval cx source exp ⟨l', th, c, sh⟩ = .ok (innerV bx (.arr bs), ⟨l', th, c, sh⟩))
    (hf : nb < cx.fuel) (hn : nb < 2 ^ 32) :
    eval cx (readTok source bits off inv) exp ⟨l, th, c, sh⟩ =
      (liftE (do
        let val ← readU128 cx.mode bs no nb
        if inv then
          let mask ← mask128 cx.mode nb
          return ~~~val &&& mask
        else return val)).map fun x => (bv x, ⟨l, th, c, sh⟩) := by
  run [readTok]
  rw [exec_loopM
    (rep := fun i (val : BitVec 128) => ⟨("i", .u 32 i) :: ("val", bv val) :: l, th, c, sh⟩)
    (hM := (rfl : readU128 cx.mode bs no nb = _)) (hf := hf)
    (hc := by intro i val; run [hb])
    (hb := by
      intro i val hi
      cases ha : addU32 cx.mode no i with
      | error e => run [ho, ha]
      | ok bi =>
        have h := addU32_lt ha
        have hm : bi % 8 < 8 := Nat.mod_lt _ (by decide)
        have hd : bi / 8 < 2 ^ 32 := by omega
        have hi' : addU32 cx.mode i 1 = .ok (i + 1) := addU32_ok _ (by omega)
        run [ho, ha, hs, castV_usize hd, shr_ok _ _ hm, hi']
        cases hg : getB bs (bi / 8) with
        | error e => run []
        | ok b =>
          run [shr_ok _ _ hm]
          cases hh : shl cx.mode (BitVec.setWidth 128 ((b >>> (bi % 8)) &&& 1#8)) i with
          | error e => run [hi']
          | ok x => run [hi'])]
  cases h : readU128 cx.mode bs no nb with
  | error e => run []
  | ok x =>
    cases inv
    · run []
    · run [eval_mask128 fun exp => hb exp _]
      cases mask128 cx.mode nb <;> run []

theorem eval_readArrTok {len : Nat}
    (hb : ∀ exp env, eval cx bits exp env = .ok (.u 32 nb, env))
    (ho : ∀ exp env, eval cx off exp env = .ok (.u 32 no, env))
    (hs : ∀ l' exp, look "bits" l' = look "bits" l →
      eval cx source exp ⟨l', th, c, sh⟩ = .ok (innerV bx (.arr bs), ⟨l', th, c, sh⟩))
    (hf : nb < cx.fuel) (hn : nb < 2 ^ 32) :
    eval cx (readArrTok source bits off len inv) exp ⟨l, th, c, sh⟩ =
      (liftE (readArr cx.mode inv bs no nb len)).map fun x => (.arr x, ⟨l, th, c, sh⟩) := by
  run [readArrTok]
  rw [exec_loopM
    (rep := fun i (val : List (BitVec 8)) => ⟨("__i", .u 32 i) :: ("__arr", .arr val) :: l, th, c, sh⟩)
    (hM := (rfl : readArr cx.mode inv bs no nb len = _)) (hf := hf)
    (hc := by intro i val; run [hb])
    (hb := by
      intro i val hi
      cases ha : addU32 cx.mode no i with
      | error e => run [ho, ha]
      | ok bi =>
        have h := addU32_lt ha
        have hm : bi % 8 < 8 := Nat.mod_lt _ (by decide)
        have hm' : i % 8 < 8 := Nat.mod_lt _ (by decide)
        have hd : bi / 8 < 2 ^ 32 := by omega
        have hd' : i / 8 < 2 ^ 32 := by omega
        have hi' : addU32 cx.mode i 1 = .ok (i + 1) := addU32_ok _ (by omega)
        run [ho, ha]
        cases hg : getB bs (bi / 8) with
        | error e => cases inv <;> run [hs, castV_usize hd, hg]
        | ok b =>
          cases hg' : getB val (i / 8) with
          | error e => cases inv <;> run [hs, castV_usize hd, castV_usize hd', hg, hg', shr_ok _ _ hm, shl_ok _ _ hm']
          | ok a =>
            cases inv <;> run [hs, castV_usize hd, castV_usize hd', hg, hg', shr_ok _ _ hm, shl_ok _ _ hm']
            · cases setB val (i / 8) (a ||| (b >>> (bi % 8) &&& 1#8) <<< (i % 8)) <;> run [hi']
            · cases setB val (i / 8) (a ||| ((b >>> (bi % 8) &&& 1#8) ^^^ 1#8) <<< (i % 8)) <;> run [hi'])]
  cases h : readArr cx.mode inv bs no nb len <;> run []

end

theorem readArr_length {m : Mode} {inv : Bool} {bs a : List (BitVec 8)} {no nb len : Nat}
    (h : readArr m inv bs no nb len = .ok a) : a.length = len := by
  refine forUpTo_inv (P := fun x : List (BitVec 8) => x.length = len) (by simp) ?_ h
  intro i s s' hs h
  cases ha : addU32 m no i with
  | error e => rw [ha] at h; cases h
  | ok bi =>
    cases hb : getB bs (bi / 8) with
    | error e => simp only [ha, hb, ebind_ok, ebind_error, reduceCtorEq] at h
    | ok b =>
      cases hc : getB s (i / 8) with
      | error e => simp only [ha, hb, hc, ebind_ok, ebind_error, reduceCtorEq] at h
      | ok b' =>
        simp only [ha, hb, hc, ebind_ok] at h
        rw [setB_length h, hs]

/-! ## Packing and unpacking -/

section
variable {cx : Ctx} {l : List (String × V)} {th : Bool} {c : Store} {sh : List (String × V)} {exp : Option Ty}

theorem unpack_length {m : Mode} {len : Nat} {v : BitVec 128} {a : List (BitVec 8)}
    (h : unpack m len v = .ok a) : a.length = len := by
  refine forUpTo_inv (P := fun x : List (BitVec 8) => x.length = len) (by simp) ?_ h
  intro i s s' hs h
  cases ha : shr m v (i * 8) with
  | error e => rw [ha] at h; cases h
  | ok bi =>
    simp only [ha, ebind_ok] at h
    rw [setB_length h, hs]

theorem eval_unpackTok {val : String} {e : Expr} {len : Nat} {V : V} {x : BitVec 128}
    (hval : val = "__int_val" ∨ val = "__val")
    (he : eval cx e (some (.u 128)) ⟨l, th, c, sh⟩ = .ok (V, ⟨l, th, c, sh⟩)) (hx : castV V (.u 128) = .ok (bv x))
    (hf : len < cx.fuel) (hn : len < 2 ^ 60) :
    eval cx (unpackTok val e len) exp ⟨l, th, c, sh⟩ =
      (liftE (unpack cx.mode len x)).map fun a => (.arr a, ⟨l, th, c, sh⟩) := by
  have key : ∀ val, val = "__int_val" ∨ val = "__val" → ("__arr" = val) = False ∧ ("__i" = val) = False ∧
      (val = "__arr") = False ∧ (val = "__i") = False := by
    rintro _ (rfl | rfl) <;> simp
  obtain ⟨h1, h2, h3, h4⟩ := key val hval
  run [unpackTok, he, hx]
  rw [exec_loopM
    (rep := fun i (a : List (BitVec 8)) => ⟨("__i", .usize i) :: ("__arr", .arr a) :: (val, bv x) :: l, th, c, sh⟩)
    (hM := (rfl : unpack cx.mode len x = _)) (hf := hf)
    (hc := by intro i val; run [])
    (hb := by
      intro i a hi
      run [byteTok, h1, h2, h3, h4, mul_usize _ (show i * 8 < 2 ^ 64 by omega)]
      cases hs : shr cx.mode x (i * 8) with
      | error e => run []
      | ok y =>
        run [show (0xFF : Nat) = 255 from rfl]
        cases hg : getB a i with
        | error e => run [getB_error_setB hg]
        | ok b =>
          run []
          cases setB a i (BitVec.setWidth 8 (y &&& 255#128)) with
          | error e => run []
          | ok a' => run [add_usize _ (show i + 1 < 2 ^ 64 by omega)])]
  cases h : unpack cx.mode len x <;> run []

theorem eval_packTok {w n : Nat} {a : List (BitVec 8)} (ha : look "bits" l = some (.arr a))
    (hf : n < cx.fuel) (hn : n < 2 ^ 60) :
    eval cx (packTok w n) exp ⟨l, th, c, sh⟩ =
      (liftE (packBytes cx.mode w a n)).map fun x => (bv x, ⟨l, th, c, sh⟩) := by
  run [packTok, ha]
  rw [exec_loopM
    (rep := fun i (x : BitVec w) => ⟨("__i", .usize i) :: ("__v", bv x) :: ("__arr", .arr a) :: l, th, c, sh⟩)
    (hM := (rfl : packBytes cx.mode w a n = _)) (hf := hf)
    (hc := by intro i val; run [])
    (hb := by
      intro i x hi
      run [mul_usize _ (show i * 8 < 2 ^ 64 by omega)]
      cases hg : getB a i with
      | error e => run []
      | ok b =>
        run [mul_usize _ (show i * 8 < 2 ^ 64 by omega)]
        cases shl cx.mode (BitVec.setWidth w b) (i * 8) with
        | error e => run []
        | ok y => run [add_usize _ (show i + 1 < 2 ^ 64 by omega)])]
  cases h : packBytes cx.mode w a n <;> run []

end

end Bf
