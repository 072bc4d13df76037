import Verif.Lemmas.CodeGetRange

/-!
# Running generated functions: the functions that read a range
-/

namespace Bf

open Rust Quote

set_option linter.unusedSimpArgs false

section
variable {cx : Ctx} {B : Bitfield} {s : Store} {l sh : List (String × V)} {th : Bool}

theorem finish_next {f : Fn} {v v' : V} {env env' : Env} (h : eval cx f.tail (some f.ret) env = .ok (v, env'))
    (hv : coerce v f.ret = .ok v') : finish cx f (.ok (.next env)) = .ok (v', env') := by
  simp only [finish, ebind_ok, h, hv, epure]

theorem finish_next_error {f : Fn} {p : Panic} {env : Env} (h : eval cx f.tail (some f.ret) env = .error (stopOf p)) :
    finish cx f (.ok (.next env)) = .error (stopOf p) := by
  simp only [finish, ebind_ok, h, ebind_error]

/-- `get_bits_range` after the guards. -/
def getRangeInt (m : Mode) (B : Bitfield) {w : Nat} (v : BitVec w) (o n : Nat) : R Store := do
  let mask ← intMask m w n
  let prot := (protMask128 (protectedFields B .writeOnly)).setWidth w
  let sp ← shr m prot o
  let sp := sp &&& mask
  let readable := mask &&& ~~~sp
  let x ← shr m v o
  return .int w ((x &&& mask) &&& readable)

theorem apiGetRange_int {w : Nat} (m : Mode) (v : BitVec w) (o n : Nat) (hB : B.backing = .int w) :
    apiGetRange m B (.int w v) o n = (if o ≥ B.backing.size then .ok (zeroStore B)
      else addU32 m o n >>= fun sum => if sum > B.backing.size then .ok (zeroStore B) else getRangeInt m B v o n) := by
  simp only [apiGetRange, hB, getRangeInt, intMask, bind_assoc]
  rfl

theorem apiGetRange_arr {k : Nat} (m : Mode) (bs : List (BitVec 8)) (o n : Nat) (hB : B.backing = .arr k) :
    apiGetRange m B (.arr bs) o n = (if o ≥ B.backing.size then .ok (zeroStore B)
      else addU32 m o n >>= fun sum => if sum > B.backing.size then .ok (zeroStore B)
        else getLoop m bs (protMaskBytes (protectedFields B .writeOnly) k) o n (List.replicate k 0#8) >>=
          fun res => pure (.arr res)) := by
  simp only [apiGetRange, hB, getLoop, resBit]
  rfl

/-- `checked_get_bits_range` after the guards. -/
def checkedGetRangeInt (m : Mode) (B : Bitfield) {w : Nat} (v : BitVec w) (o n : Nat) : R (Except String Store) := do
  let mask ← intMask m w n
  let prot := (protMask128 (protectedFields B .writeOnly)).setWidth w
  let range ← shl m mask o
  if (range &&& prot) ≠ 0#w then return .error errRead
  else
    let x ← shr m v o
    return .ok (.int w (x &&& mask))

theorem apiCheckedGetRange_int {w : Nat} (m : Mode) (v : BitVec w) (o n : Nat) (hB : B.backing = .int w) :
    apiCheckedGetRange m B (.int w v) o n = (if o ≥ B.backing.size then .ok (.error errOffset)
      else addU32 m o n >>= fun sum => if sum > B.backing.size then .ok (.error errLength)
        else checkedGetRangeInt m B v o n) := by
  simp only [apiCheckedGetRange, hB, checkedGetRangeInt, intMask, bind_assoc]
  rfl

/-- `checked_get_bytes_range` after the guards. -/
def checkedGetRangeArr (m : Mode) (p bs : List (BitVec 8)) (k o n : Nat) : R (Except String Store) :=
  anyProtected m p o n >>= fun found =>
    if found then .ok (.error errRead)
    else getLoopAll m bs o n (List.replicate k 0#8) >>= fun res => .ok (.ok (.arr res))

theorem apiCheckedGetRange_arr {k : Nat} (m : Mode) (bs : List (BitVec 8)) (o n : Nat) (hB : B.backing = .arr k) :
    apiCheckedGetRange m B (.arr bs) o n = (if o ≥ B.backing.size then .ok (.error errOffset)
      else addU32 m o n >>= fun sum => if sum > B.backing.size then .ok (.error errLength)
        else checkedGetRangeArr m (protMaskBytes (protectedFields B .writeOnly) k) bs k o n) := by
  simp only [apiCheckedGetRange, hB, checkedGetRangeArr, getLoopAll, resBit]
  rfl

set_option maxHeartbeats 1000000 in
theorem finish_getRangeInt {G : Gen} {w : Nat} {v : BitVec w} {o n : Nat} (hB : G.B.backing = .int w) :
    Returns (finish (inside cx false (getRangeFn G).ret) (getRangeFn G) (exec (inside cx false (getRangeFn G).ret) (.all
         [.letS "mask" none (maskTok w (.var "length")),
          protTok G.B .writeOnly,
          .letS "shifted_protected_mask" none
            (.bin .and (.bin .shr (.var "protected_mask") (.var "offset")) (.var "mask")),
          .letS "readable_mask" none (.bin .and (.var "mask") (.not (.var "shifted_protected_mask")))])
        ⟨[("offset", .u 32 o), ("length", .u 32 n)], true, .int w v, []⟩))
      (getRangeInt cx.mode G.B v o n) fun x v' env => v' = ofStore x ∧ env.cell = .int w v := by
  have ht : (getRangeFn G).tail = .bin .and (.bin .and (.bin .shr (.inner false) (.var "offset")) (.var "mask"))
        (.var "readable_mask") := by simp only [getRangeFn, hB]
  have hr : (getRangeFn G).ret = .u w := by simp only [getRangeFn, hB, backTy]
  generalize getRangeFn G = f at ht hr ⊢
  have hm := eval_maskTok (cx := inside cx false f.ret) (w := w) (nb := n) (bits := .var "length") (exp := none)
    (env := ⟨[("offset", .u 32 o), ("length", .u 32 n)], true, .int w v, []⟩) (by intro exp; run [])
  change _ = (liftE (intMask cx.mode w n)).map _ at hm
  have hp := fun (r : BitVec w) => exec_protInt (cx := inside cx false f.ret) (B := G.B) (p := .writeOnly) (s := .int w v)
    (l := [("mask", bv r), ("offset", .u 32 o), ("length", .u 32 n)]) (th := true) (sh := []) hB
  simp only [getRangeInt]
  generalize (protMask128 (protectedFields G.B .writeOnly)).setWidth w = p at hp ⊢
  cases h1 : intMask cx.mode w n with
  | error q =>
    rw [h1] at hm
    simp only [liftE_err, emap_error] at hm
    refine returns_finish_error ?_
    run [hm]
  | ok r =>
    rw [h1] at hm
    simp only [liftE_ok, emap_ok] at hm
    have e1 : exec (inside cx false f.ret) (.letS "mask" none (maskTok w (.var "length")))
        ⟨[("offset", .u 32 o), ("length", .u 32 n)], true, .int w v, []⟩ = .ok (.next
        ⟨[("mask", bv r), ("offset", .u 32 o), ("length", .u 32 n)], true, .int w v, []⟩) := by
      run [hm]
    rw [ebind_ok, Stmt.all, exec_seq_next e1, Stmt.all, exec_seq_next (hp r)]
    cases h2 : shr cx.mode p o with
    | error q =>
      refine returns_finish_error ?_
      run [h2]
    | ok sp =>
      rw [ebind_ok]
      have e2 : exec (inside cx false f.ret) (.letS "shifted_protected_mask" none
            (.bin .and (.bin .shr (.var "protected_mask") (.var "offset")) (.var "mask")))
          ⟨[("protected_mask", bv p), ("mask", bv r), ("offset", .u 32 o), ("length", .u 32 n)], true, .int w v, []⟩ =
          .ok (.next ⟨[("shifted_protected_mask", bv (sp &&& r)), ("protected_mask", bv p), ("mask", bv r),
            ("offset", .u 32 o), ("length", .u 32 n)], true, .int w v, []⟩) := by
        run [h2]
      generalize sp &&& r = q at e2 ⊢
      have e3 : exec (inside cx false f.ret) (.letS "readable_mask" none
            (.bin .and (.var "mask") (.not (.var "shifted_protected_mask"))))
          ⟨[("shifted_protected_mask", bv q), ("protected_mask", bv p), ("mask", bv r),
            ("offset", .u 32 o), ("length", .u 32 n)], true, .int w v, []⟩ =
          .ok (.next ⟨[("readable_mask", bv (r &&& ~~~q)), ("shifted_protected_mask", bv q),
            ("protected_mask", bv p), ("mask", bv r), ("offset", .u 32 o), ("length", .u 32 n)], true, .int w v, []⟩) := by
        run []
      rw [Stmt.all, exec_seq_next e2, Stmt.all, exec_seq_next e3, Stmt.all, exec.eq_1]
      cases h3 : shr cx.mode v o with
      | error q =>
        refine finish_next_error ?_
        rw [ht]
        run [h3, Ctx.hasInner]
      | ok x =>
        rw [ebind_ok]
        refine ⟨_, _, finish_next (v := bv ((x &&& r) &&& (r &&& ~~~q)))
          (env' := ⟨[("readable_mask", bv (r &&& ~~~q)), ("shifted_protected_mask", bv q),
            ("protected_mask", bv p), ("mask", bv r), ("offset", .u 32 o), ("length", .u 32 n)], true, .int w v, []⟩)
          ?_ ?_, rfl, rfl⟩
        · rw [ht, hr]
          run [h3, Ctx.hasInner]
        · rw [hr]
          exact coerce_bv _

theorem finish_getRangeArr {G : Gen} {k : Nat} {bs : List (BitVec 8)} {o n : Nat} (g : Base cx G.B) (hn : n < 2 ^ 32)
    (hB : G.B.backing = .arr k) :
    Returns (finish (inside cx false (getRangeFn G).ret) (getRangeFn G) (exec (inside cx false (getRangeFn G).ret) (.all
         [protTok G.B .writeOnly,
          .letS "res" (some (.arr k)) (.zeros k) true,
          upToTok
            [posTok "src_bit" "src_byte" "src_bit_in_byte", isProtTok "src_byte" "src_bit_in_byte",
             .ite (.not (.var "is_protected")) (.all resBitTok) .skip]])
        ⟨[("offset", .u 32 o), ("length", .u 32 n)], true, .arr bs, []⟩))
      (getLoop cx.mode bs (protMaskBytes (protectedFields G.B .writeOnly) k) o n (List.replicate k 0#8) >>=
          fun res => pure (.arr res)) fun x v' env => v' = ofStore x ∧ env.cell = .arr bs := by
  have ht : (getRangeFn G).tail = .var "res" := by simp only [getRangeFn, hB]
  have hr : (getRangeFn G).ret = backTy G.B.backing := rfl
  have hf := g.fuel
  generalize getRangeFn G = f at ht hr ⊢
  rw [Stmt.all, exec_seq_next (exec_protArr hB)]
  generalize protMaskBytes (protectedFields G.B .writeOnly) k = p
  have e1 : exec (inside cx false f.ret) (.letS "res" (some (.arr k)) (.zeros k) true)
      ⟨[("protected_mask", .arr p), ("offset", .u 32 o), ("length", .u 32 n)], true, .arr bs, []⟩ = .ok (.next
      ⟨[("res", .arr (List.replicate k 0#8)), ("protected_mask", .arr p), ("offset", .u 32 o), ("length", .u 32 n)],
        true, .arr bs, []⟩) := by
    run [coerce, List.length_replicate]
  have h := exec_getLoop (cx := inside cx false f.ret) (p := p) (bs := bs) (res := List.replicate k 0#8) (o := o) (n := n)
    (l := [("protected_mask", .arr p), ("offset", .u 32 o), ("length", .u 32 n)]) (sh := [])
    (show n < cx.fuel by omega) hn (by run []) (by run []) (by run [])
  change _ = (liftE (getLoop cx.mode bs p o n _)).map _ at h
  rw [Stmt.all, exec_seq_next e1, Stmt.all, Stmt.all]
  cases hx : getLoop cx.mode bs p o n (List.replicate k 0#8) with
  | error q =>
    rw [hx] at h; simp only [liftE_err, emap_error] at h
    exact returns_finish_error (exec_seq_error h)
  | ok res =>
    rw [hx] at h; simp only [liftE_ok, emap_ok] at h
    rw [exec_seq_next h, exec.eq_1]
    refine ⟨_, _, finish_next (v := .arr res) (env' := ⟨[("i", .u 32 n), ("res", .arr res), ("protected_mask", .arr p),
      ("offset", .u 32 o), ("length", .u 32 n)], true, .arr bs, []⟩) ?_ ?_, rfl, rfl⟩
    · rw [ht]; run []
    · rw [hr]
      refine coerce_store (x := .arr res) ?_
      have := getLoop_length hx
      rw [List.length_replicate] at this
      rw [hB]; exact this

theorem returns_getRange {G : Gen} {o n : Nat} (g : Base cx G.B) (hn : n < 2 ^ 32) (hs : s.HasBacking G.B.backing) :
    Returns ((getRangeFn G).run cx [.u 32 o, .u 32 n] s) (apiGetRange cx.mode G.B s o n) fun x v env =>
      v = ofStore x ∧ env.cell = s := by
  cases hB : G.B.backing with
  | int w =>
    cases s with
    | arr bs => rw [hB] at hs; exact absurd hs id
    | int w' v =>
      obtain rfl : w' = w := by rw [hB] at hs; exact hs
      rw [apiGetRange_int _ _ _ _ hB]
      have hr : (getRangeFn G).ret = .u w' := by simp only [getRangeFn, hB, backTy]
      have hz : coerce (bv 0#w') (getRangeFn G).ret = .ok (ofStore (zeroStore G.B)) := by
        simp only [hr, zeroStore, initStore, hB]
        exact coerce_bv _
      refine returns_range (f := getRangeFn G) (e1 := .lit 0 none) (e2 := .lit 0 none)
          (v1 := bv 0#w') (v2 := bv 0#w') (l := [("offset", .u 32 o), ("length", .u 32 n)]) g.back rfl
          (by simp only [getRangeFn, hB, returnZeroTok]) rfl (by run []) (by run []) (by rw [hr]; run []) (by rw [hr]; run [])
          hz hz ⟨rfl, rfl⟩ ⟨rfl, rfl⟩ (finish_getRangeInt hB)
  | arr k =>
    cases s with
    | int w v => rw [hB] at hs; exact absurd hs id
    | arr bs =>
      rw [apiGetRange_arr _ _ _ _ hB]
      have hz : coerce (.arr (List.replicate k 0#8)) (getRangeFn G).ret = .ok (ofStore (zeroStore G.B)) := by
        have : zeroStore G.B = .arr (List.replicate k 0#8) := by simp only [zeroStore, initStore, hB]
        rw [this]
        exact coerce_store (B := G.B) (x := .arr _) (by rw [hB]; exact List.length_replicate)
      refine returns_range (f := getRangeFn G) (e1 := .zeros k) (e2 := .zeros k)
          (v1 := .arr (List.replicate k 0#8)) (v2 := .arr (List.replicate k 0#8))
          (l := [("offset", .u 32 o), ("length", .u 32 n)]) g.back rfl
          (by simp only [getRangeFn, hB, returnZeroTok]) rfl (by run []) (by run []) (by run []) (by run [])
          hz hz ⟨rfl, rfl⟩ ⟨rfl, rfl⟩ (finish_getRangeArr g hn hB)

/-- The result of a checked function that reads a value. -/
def CheckedReadIs (s : Store) (r : Except String Store) (v : V) (env : Env) : Prop :=
  env.cell = s ∧
    v = match r with
      | .ok x => .ok (ofStore x)
      | .error msg => .err msg

set_option maxHeartbeats 1000000 in
theorem finish_checkedGetRangeInt {G : Gen} {w : Nat} {v : BitVec w} {o n : Nat} (hB : G.B.backing = .int w) :
    Returns (finish (inside cx false (checkedGetRangeFn G).ret) (checkedGetRangeFn G)
      (exec (inside cx false (checkedGetRangeFn G).ret) (.all
         [.letS "mask" none (maskTok w (.var "length")),
          protTok G.B .writeOnly,
          .letS "range_mask" none (.bin .shl (.var "mask") (.var "offset")),
          .ite (.bin .ne (.bin .and (.var "range_mask") (.var "protected_mask")) (.lit 0 none))
            (.ret (.errE errRead)) .skip])
        ⟨[("offset", .u 32 o), ("length", .u 32 n)], true, .int w v, []⟩))
      (checkedGetRangeInt cx.mode G.B v o n) (CheckedReadIs (.int w v)) := by
  have ht : (checkedGetRangeFn G).tail =
      .okE (.bin .and (.bin .shr (.inner false) (.var "offset")) (.var "mask")) := by
    simp only [checkedGetRangeFn, hB]
  have hr : (checkedGetRangeFn G).ret = .result (.u w) := by simp only [checkedGetRangeFn, hB, backTy]
  generalize checkedGetRangeFn G = f at ht hr ⊢
  have hm := eval_maskTok (cx := inside cx false f.ret) (w := w) (nb := n) (bits := .var "length") (exp := none)
    (env := ⟨[("offset", .u 32 o), ("length", .u 32 n)], true, .int w v, []⟩) (by intro exp; run [])
  change _ = (liftE (intMask cx.mode w n)).map _ at hm
  have hp := fun (r : BitVec w) => exec_protInt (cx := inside cx false f.ret) (B := G.B) (p := .writeOnly) (s := .int w v)
    (l := [("mask", bv r), ("offset", .u 32 o), ("length", .u 32 n)]) (th := true) (sh := []) hB
  simp only [checkedGetRangeInt]
  generalize (protMask128 (protectedFields G.B .writeOnly)).setWidth w = p at hp ⊢
  cases h1 : intMask cx.mode w n with
  | error q =>
    rw [h1] at hm
    simp only [liftE_err, emap_error] at hm
    refine returns_finish_error ?_
    run [hm]
  | ok r =>
    rw [h1] at hm
    simp only [liftE_ok, emap_ok] at hm
    have e1 : exec (inside cx false f.ret) (.letS "mask" none (maskTok w (.var "length")))
        ⟨[("offset", .u 32 o), ("length", .u 32 n)], true, .int w v, []⟩ = .ok (.next
        ⟨[("mask", bv r), ("offset", .u 32 o), ("length", .u 32 n)], true, .int w v, []⟩) := by
      run [hm]
    rw [ebind_ok, Stmt.all, exec_seq_next e1, Stmt.all, exec_seq_next (hp r)]
    cases h2 : shl cx.mode r o with
    | error q =>
      refine returns_finish_error ?_
      run [h2]
    | ok range =>
      rw [ebind_ok]
      by_cases h3 : range &&& p = 0#w
      · rw [if_neg (by simpa using h3)]
        have hb : (range &&& p != 0#w) = false := by rw [h3]; exact bne_self_eq_false _
        have e3 : exec (inside cx false f.ret) (.all [.letS "range_mask" none (.bin .shl (.var "mask") (.var "offset")),
          .ite (.bin .ne (.bin .and (.var "range_mask") (.var "protected_mask")) (.lit 0 none))
            (.ret (.errE errRead)) .skip])
            ⟨[("protected_mask", bv p), ("mask", bv r), ("offset", .u 32 o), ("length", .u 32 n)], true, .int w v, []⟩ =
            .ok (.next ⟨[("range_mask", bv range), ("protected_mask", bv p), ("mask", bv r), ("offset", .u 32 o),
              ("length", .u 32 n)], true, .int w v, []⟩) := by
          run [h2, hb]
        rw [e3]
        cases h4 : shr cx.mode v o with
        | error q =>
          refine finish_next_error ?_
          rw [ht, hr]
          run [h4, Ctx.hasInner]
        | ok x =>
          rw [ebind_ok]
          refine ⟨_, _, finish_next (v := .ok (bv (x &&& r))) (v' := .ok (bv (x &&& r)))
            (env' := ⟨[("range_mask", bv range), ("protected_mask", bv p), ("mask", bv r), ("offset", .u 32 o),
              ("length", .u 32 n)], true, .int w v, []⟩) ?_ ?_, rfl, rfl⟩
          · rw [ht, hr]
            run [h4, Ctx.hasInner]
          · rw [hr]
            run []
      · rw [if_pos (by simpa using h3)]
        have hb : (range &&& p != 0#w) = true := bne_iff_ne.2 h3
        have e3 : exec (inside cx false f.ret) (.all [.letS "range_mask" none (.bin .shl (.var "mask") (.var "offset")),
          .ite (.bin .ne (.bin .and (.var "range_mask") (.var "protected_mask")) (.lit 0 none))
            (.ret (.errE errRead)) .skip])
            ⟨[("protected_mask", bv p), ("mask", bv r), ("offset", .u 32 o), ("length", .u 32 n)], true, .int w v, []⟩ =
            .ok (.ret (.err errRead) ⟨[("range_mask", bv range), ("protected_mask", bv p), ("mask", bv r),
              ("offset", .u 32 o), ("length", .u 32 n)], true, .int w v, []⟩) := by
          rw [hr]
          run [h2, hb]
        rw [e3]
        exact ⟨.err errRead, _, finish_ret (by rw [hr]; rfl), rfl, rfl⟩

theorem finish_checkedGetRangeArr {G : Gen} {k : Nat} {bs : List (BitVec 8)} {o n : Nat} (g : Base cx G.B) (hn : n < 2 ^ 32)
    (hB : G.B.backing = .arr k) :
    Returns (finish (inside cx false (checkedGetRangeFn G).ret) (checkedGetRangeFn G)
      (exec (inside cx false (checkedGetRangeFn G).ret) (.all
         [protTok G.B .writeOnly,
          protLoopTok "src_bit" "src_byte" "src_bit_in_byte" errRead,
          .letS "res" (some (.arr k)) (.zeros k) true,
          upToTok (posTok "src_bit" "src_byte" "src_bit_in_byte" :: resBitTok)])
        ⟨[("offset", .u 32 o), ("length", .u 32 n)], true, .arr bs, []⟩))
      (checkedGetRangeArr cx.mode (protMaskBytes (protectedFields G.B .writeOnly) k) bs k o n) (CheckedReadIs (.arr bs)) := by
  have ht : (checkedGetRangeFn G).tail = .okE (.var "res") := by simp only [checkedGetRangeFn, hB]
  have hr : (checkedGetRangeFn G).ret = .result (backTy G.B.backing) := rfl
  have hf := g.fuel
  generalize checkedGetRangeFn G = f at ht hr ⊢
  rw [Stmt.all, exec_seq_next (exec_protArr hB)]
  generalize protMaskBytes (protectedFields G.B .writeOnly) k = p
  have h1 := exec_protLoop (cx := inside cx false f.ret) (bit := "src_bit") (byte := "src_byte")
    (inByte := "src_bit_in_byte") (msg := errRead) (p := p) (o := o) (n := n) (th := true) (s := .arr bs) (sh := [])
    (l := [("protected_mask", .arr p), ("offset", .u 32 o), ("length", .u 32 n)])
    (by decide) (by decide) (by decide) (by decide) (by decide) (by decide) (by decide) (by decide)
    (show n < cx.fuel by omega) hn (by run []) (by run []) (by run [])
  change Found _ (anyProtected cx.mode p o n) _ _ _ at h1
  simp only [checkedGetRangeArr]
  rw [Stmt.all]
  cases hx : anyProtected cx.mode p o n with
  | error q =>
    rw [hx] at h1
    exact returns_finish_error (exec_seq_error h1)
  | ok b =>
    rw [hx] at h1
    cases b with
    | true =>
      obtain ⟨env, h1, h2⟩ := h1
      rw [ebind_ok, if_pos rfl, exec_seq_ret h1]
      exact ⟨.err errRead, _, finish_ret (by rw [hr]; rfl), h2, rfl⟩
    | false =>
      rw [ebind_ok, if_neg (by decide), exec_seq_next h1]
      have e1 : exec (inside cx false f.ret) (.letS "res" (some (.arr k)) (.zeros k) true)
          ⟨[("i", .u 32 n), ("protected_mask", .arr p), ("offset", .u 32 o), ("length", .u 32 n)], true, .arr bs, []⟩ =
          .ok (.next ⟨[("res", .arr (List.replicate k 0#8)), ("i", .u 32 n), ("protected_mask", .arr p),
            ("offset", .u 32 o), ("length", .u 32 n)], true, .arr bs, []⟩) := by
        run [coerce, List.length_replicate]
      have h := exec_getLoopAll (cx := inside cx false f.ret) (bs := bs) (res := List.replicate k 0#8) (o := o) (n := n)
        (l := [("i", .u 32 n), ("protected_mask", .arr p), ("offset", .u 32 o), ("length", .u 32 n)]) (sh := [])
        (show n < cx.fuel by omega) hn (by run []) (by run [])
      change _ = (liftE (getLoopAll cx.mode bs o n _)).map _ at h
      rw [Stmt.all, exec_seq_next e1, Stmt.all, Stmt.all]
      cases hx : getLoopAll cx.mode bs o n (List.replicate k 0#8) with
      | error q =>
        rw [hx] at h; simp only [liftE_err, emap_error] at h
        exact returns_finish_error (exec_seq_error h)
      | ok res =>
        rw [hx] at h; simp only [liftE_ok, emap_ok] at h
        rw [exec_seq_next h, exec.eq_1]
        have hc : coerce (.arr res) (backTy G.B.backing) = .ok (.arr res) := by
          refine coerce_store (x := .arr res) ?_
          have := getLoopAll_length hx
          rw [List.length_replicate] at this
          rw [hB]; exact this
        refine ⟨_, _, finish_next (v := .ok (.arr res)) (v' := .ok (.arr res))
          (env' := ⟨[("i", .u 32 n), ("res", .arr res), ("i", .u 32 n), ("protected_mask", .arr p),
          ("offset", .u 32 o), ("length", .u 32 n)], true, .arr bs, []⟩) ?_ ?_, rfl, rfl⟩
        · rw [ht, hr]; run []
        · rw [hr]
          simp only [coerce, hc, ebind_ok, epure]

theorem returns_checkedGetRange {G : Gen} {o n : Nat} (g : Base cx G.B) (hn : n < 2 ^ 32) (hs : s.HasBacking G.B.backing) :
    Returns ((checkedGetRangeFn G).run cx [.u 32 o, .u 32 n] s) (apiCheckedGetRange cx.mode G.B s o n)
      (CheckedReadIs s) := by
  cases hB : G.B.backing with
  | int w =>
    cases s with
    | arr bs => rw [hB] at hs; exact absurd hs id
    | int w' v =>
      obtain rfl : w' = w := by rw [hB] at hs; exact hs
      rw [apiCheckedGetRange_int _ _ _ _ hB]
      refine returns_range (f := checkedGetRangeFn G) (e1 := .errE errOffset) (e2 := .errE errLength)
          (v1 := .err errOffset) (v2 := .err errLength) (l := [("offset", .u 32 o), ("length", .u 32 n)]) g.back rfl
          (by simp only [checkedGetRangeFn, hB]) rfl (by run []) (by run []) (by simp only [checkedGetRangeFn]; run [])
          (by simp only [checkedGetRangeFn]; run [])
          rfl rfl ⟨rfl, rfl⟩ ⟨rfl, rfl⟩ (finish_checkedGetRangeInt hB)
  | arr k =>
    cases s with
    | int w v => rw [hB] at hs; exact absurd hs id
    | arr bs =>
      rw [apiCheckedGetRange_arr _ _ _ _ hB]
      refine returns_range (f := checkedGetRangeFn G) (e1 := .errE errOffset) (e2 := .errE errLength)
          (v1 := .err errOffset) (v2 := .err errLength) (l := [("offset", .u 32 o), ("length", .u 32 n)]) g.back rfl
          (by simp only [checkedGetRangeFn, hB]) rfl (by run []) (by run []) (by simp only [checkedGetRangeFn]; run [])
          (by simp only [checkedGetRangeFn]; run [])
          rfl rfl ⟨rfl, rfl⟩ ⟨rfl, rfl⟩ (finish_checkedGetRangeArr g hn hB)

end

end Bf
