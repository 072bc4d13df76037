import Verif.Lemmas.CodeRange

/-!
# Running generated functions: range operations
-/

namespace Bf

open Rust Quote

set_option linter.unusedSimpArgs false

section
variable {cx : Ctx} {B : Bitfield} {s : Store} {l sh : List (String × V)} {th : Bool}

theorem storeAs_int (b : Bool) {w : Nat} (v y : BitVec w) : storeAs b (.int w v) (bv y) = .ok (.int w y) := by
  simp only [storeAs, bv, if_true, BitVec.ofNat_toNat, BitVec.setWidth_eq]

/-! ## Writing a range -/

/-- `set_bits_range` after the guards. -/
def setRangeInt (m : Mode) (B : Bitfield) {w : Nat} (v x : BitVec w) (o n : Nat) : R Store := do
  let r ← intMask m w n
  let range ← shl m r o
  let prot := (protMask128 (protectedFields B .readOnly)).setWidth w
  let writable := range &&& ~~~prot
  let sh ← shl m x o
  return .int w ((v &&& ~~~writable) ||| (sh &&& writable))

theorem apiSetRange_int {w : Nat} (m : Mode) (v x : BitVec w) (o n : Nat) (hB : B.backing = .int w) :
    apiSetRange m B (.int w v) o n (.int w x) = (if o ≥ B.backing.size then .ok (.int w v)
      else addU32 m o n >>= fun sum => if sum > B.backing.size then .ok (.int w v) else setRangeInt m B v x o n) := by
  simp only [apiSetRange, hB, dite_true, setRangeInt, intMask, bind_assoc]
  rfl

theorem apiSetRange_arr {k : Nat} (m : Mode) (bs x : List (BitVec 8)) (o n : Nat) (hB : B.backing = .arr k) :
    apiSetRange m B (.arr bs) o n (.arr x) = (if o ≥ B.backing.size then .ok (.arr bs)
      else addU32 m o n >>= fun sum => if sum > B.backing.size then .ok (.arr bs)
        else setLoop m x (protMaskBytes (protectedFields B .readOnly) k) o n bs >>= fun bs => pure (.arr bs)) := by
  simp only [apiSetRange, hB, setLoop]
  rfl

theorem bindArgs_range {x : Store} {o n : Nat} (hx : x.HasBacking B.backing) :
    bindArgs [("offset", .u 32), ("length", .u 32), ("value", backTy B.backing)] [.u 32 o, .u 32 n, ofStore x] =
      .ok [("offset", .u 32 o), ("length", .u 32 n), ("value", ofStore x)] := by
  simp only [bindArgs, coerce_u32, coerce_store hx, ebind_ok, epure]

theorem ends_setRangeInt {w : Nat} {v x : BitVec w} {o n : Nat} {t : Ty} (hB : B.backing = .int w) :
    Ends (exec (inside cx false t) (.all
         [.letS "range_mask" none (.bin .shl (maskTok w (.var "length")) (.var "offset")),
          protTok B .readOnly,
          .letS "writable_mask" none (.bin .and (.var "range_mask") (.not (.var "protected_mask"))),
          .assignInner false none
            (.bin .or (.bin .and (.inner false) (.not (.var "writable_mask")))
              (.bin .and (.bin .shl (.var "value") (.var "offset")) (.var "writable_mask")))])
        ⟨[("offset", .u 32 o), ("length", .u 32 n), ("value", bv x)], true, .int w v, []⟩)
      (setRangeInt cx.mode B v x o n) fun s' env => env.cell = s' := by
  have hm := eval_maskTok (cx := inside cx false t) (w := w) (nb := n) (bits := .var "length") (exp := none)
    (env := ⟨[("offset", .u 32 o), ("length", .u 32 n), ("value", bv x)], true, .int w v, []⟩) (by intro exp; run [])
  change _ = (liftE (intMask cx.mode w n)).map _ at hm
  have hp := fun (r : BitVec w) => exec_protInt (cx := inside cx false t) (B := B) (p := .readOnly) (s := .int w v)
    (l := [("range_mask", bv r), ("offset", .u 32 o), ("length", .u 32 n), ("value", bv x)]) (th := true) (sh := []) hB
  simp only [setRangeInt]
  generalize (protMask128 (protectedFields B .readOnly)).setWidth w = p at hp ⊢
  cases h1 : intMask cx.mode w n with
  | error q =>
    rw [h1] at hm
    simp only [liftE_err, emap_error] at hm
    simp only [Ends, ebind_error]
    run [hm]
  | ok r =>
    rw [h1] at hm
    simp only [liftE_ok, emap_ok] at hm
    cases h2 : shl cx.mode r o with
    | error q =>
      simp only [Ends, ebind_error, ebind_ok, h2]
      run [hm, h2]
    | ok range =>
      have e1 : exec (inside cx false t) (.letS "range_mask" none (.bin .shl (maskTok w (.var "length")) (.var "offset")))
          ⟨[("offset", .u 32 o), ("length", .u 32 n), ("value", bv x)], true, .int w v, []⟩ = .ok (.next
          ⟨[("range_mask", bv range), ("offset", .u 32 o), ("length", .u 32 n), ("value", bv x)], true, .int w v, []⟩) := by
        run [hm, h2]
      simp only [ebind_ok, h2]
      rw [Stmt.all, exec_seq_next e1, Stmt.all, exec_seq_next (hp range)]
      cases h3 : shl cx.mode x o with
      | error q =>
        simp only [Ends, ebind_error]
        run [h3, Ctx.hasInner, storeTy]
      | ok sx =>
        refine ⟨⟨[("writable_mask", bv (range &&& ~~~p)), ("protected_mask", bv p), ("range_mask", bv range),
          ("offset", .u 32 o), ("length", .u 32 n), ("value", bv x)], true,
          .int w ((v &&& ~~~(range &&& ~~~p)) ||| (sx &&& (range &&& ~~~p))), []⟩, ?_, rfl⟩
        run [h3, Ctx.hasInner, storeTy, storeAs_int]

theorem ends_setLoop {k : Nat} {bs x : List (BitVec 8)} {o n : Nat} {t : Ty} (g : Base cx B) (hn : n < 2 ^ 32)
    (hB : B.backing = .arr k) :
    Ends (exec (inside cx false t) (.all
         [protTok B .readOnly,
          upToTok
            [srcBitTok, posTok "dst_bit" "dst_byte_idx" "dst_bit_in_byte",
             isProtTok "dst_byte_idx" "dst_bit_in_byte",
             .ite (.not (.var "is_protected"))
               (storeByteBitTok (.var "bit_val") (.var "dst_byte_idx") (.var "dst_bit_in_byte") false)
               .skip]])
        ⟨[("offset", .u 32 o), ("length", .u 32 n), ("value", .arr x)], true, .arr bs, []⟩)
      (setLoop cx.mode x (protMaskBytes (protectedFields B .readOnly) k) o n bs >>= fun bs => pure (.arr bs))
      fun s' env => env.cell = s' := by
  have hf := g.fuel
  rw [Stmt.all, exec_seq_next (exec_protArr hB), Stmt.all, Stmt.all]
  refine seq_skip_right ?_
  generalize protMaskBytes (protectedFields B .readOnly) k = p
  have h := exec_setLoop (cx := inside cx false t) (x := x) (p := p) (bs := bs) (o := o) (n := n) (th := true) (sh := [])
    (l := [("protected_mask", .arr p), ("offset", .u 32 o), ("length", .u 32 n), ("value", .arr x)]) rfl
    (show n < cx.fuel by omega) hn (by run []) (by run []) (by run []) (by run [])
  change _ = (liftE (setLoop cx.mode x p o n bs)).map _ at h
  cases hx : setLoop cx.mode x p o n bs with
  | error q => rw [hx] at h; simp only [liftE_err, emap_error] at h; exact h
  | ok bs' => rw [hx] at h; exact ⟨_, h, rfl⟩

theorem returns_setRange {G : Gen} {o n : Nat} {x : Store} (g : Base cx G.B) (hn : n < 2 ^ 32)
    (hs : s.HasBacking G.B.backing) (hx : x.HasBacking G.B.backing) :
    Returns ((setRangeFn G).run cx [.u 32 o, .u 32 n, ofStore x] s) (apiSetRange cx.mode G.B s o n x) fun s' v env =>
      v = .unit ∧ env.cell = s' := by
  have fin : ∀ {M : R Store} {X : Stmt} {s : Store},
      Ends (exec (inside cx false .unit) X ⟨[("offset", .u 32 o), ("length", .u 32 n), ("value", ofStore x)], true, s, []⟩) M
        (fun s' env => env.cell = s') →
      (setRangeFn G).body = .all [.letThis, offsetGuardTok G.B (.ret .unit), lengthGuardTok G.B (.ret .unit), X] →
      Returns ((setRangeFn G).run cx [.u 32 o, .u 32 n, ofStore x] s) (if o ≥ G.B.backing.size then .ok s
        else addU32 cx.mode o n >>= fun sum => if sum > G.B.backing.size then .ok s else M) fun s' v env =>
        v = .unit ∧ env.cell = s' := by
    intro M X s h hb
    refine returns_range (f := setRangeFn G) (v1 := .unit) (v2 := .unit) g.back (bindArgs_range hx) hb rfl (by run [])
      (by run []) (by run []) (by run []) rfl rfl ⟨rfl, rfl⟩ ⟨rfl, rfl⟩ ?_
    have := finish_ends (cx := inside cx false .unit) (f := setRangeFn G) (m2 := fun s => .ok s)
      (Q2 := fun s' v env => v = V.unit ∧ env.cell = s') h (by
      rintro s' env rfl
      exact ⟨.unit, .unit, env, by simp only [setRangeFn]; run [], rfl, rfl, rfl⟩)
    cases M with
    | error p => exact this
    | ok x => exact this
  cases hB : G.B.backing with
  | int w =>
    cases s with
    | arr bs => rw [hB] at hs; exact absurd hs id
    | int w' v =>
      obtain rfl : w' = w := by rw [hB] at hs; exact hs
      cases x with
      | arr bs => rw [hB] at hx; exact absurd hx id
      | int w2 x =>
        obtain rfl : w2 = w' := by rw [hB] at hx; exact hx
        rw [apiSetRange_int _ _ _ _ _ hB]
        exact fin (ends_setRangeInt hB) (by simp only [setRangeFn, hB])
  | arr k =>
    cases s with
    | int w v => rw [hB] at hs; exact absurd hs id
    | arr bs =>
      cases x with
      | int w v => rw [hB] at hx; exact absurd hx id
      | arr x =>
        rw [apiSetRange_arr _ _ _ _ _ hB]
        exact fin (ends_setLoop g hn hB) (by simp only [setRangeFn, hB])

/-- `checked_set_bits_range` after the guards. -/
def checkedSetRangeInt (m : Mode) (B : Bitfield) {w : Nat} (v x : BitVec w) (o n : Nat) :
    R (Except String Unit × Store) := do
  let mask ← intMask m w n
  let prot := (protMask128 (protectedFields B .readOnly)).setWidth w
  let range ← shl m mask o
  if (range &&& prot) ≠ 0#w then return (.error errWrite, .int w v)
  else
    let a ← shl m mask o
    let b ← shl m (x &&& mask) o
    return (.ok (), .int w ((v &&& ~~~a) ||| b))

theorem apiCheckedSetRange_int {w : Nat} (m : Mode) (v x : BitVec w) (o n : Nat) (hB : B.backing = .int w) :
    apiCheckedSetRange m B (.int w v) o n (.int w x) = (if o ≥ B.backing.size then .ok (.error errOffset, .int w v)
      else addU32 m o n >>= fun sum => if sum > B.backing.size then .ok (.error errLength, .int w v)
        else checkedSetRangeInt m B v x o n) := by
  simp only [apiCheckedSetRange, hB, dite_true, checkedSetRangeInt, intMask, bind_assoc]
  rfl

/-- `checked_set_bytes_range` after the guards. -/
def checkedSetRangeArr (m : Mode) (p x bs : List (BitVec 8)) (o n : Nat) : R (Except String Unit × Store) :=
  anyProtected m p o n >>= fun found =>
    if found then .ok (.error errWrite, .arr bs)
    else setLoopAll m x o n bs >>= fun bs => .ok (.ok (), .arr bs)

theorem apiCheckedSetRange_arr {k : Nat} (m : Mode) (bs x : List (BitVec 8)) (o n : Nat) (hB : B.backing = .arr k) :
    apiCheckedSetRange m B (.arr bs) o n (.arr x) = (if o ≥ B.backing.size then .ok (.error errOffset, .arr bs)
      else addU32 m o n >>= fun sum => if sum > B.backing.size then .ok (.error errLength, .arr bs)
        else checkedSetRangeArr m (protMaskBytes (protectedFields B .readOnly) k) x bs o n) := by
  simp only [apiCheckedSetRange, hB, checkedSetRangeArr, setLoopAll]
  rfl

/-- The result of a checked function that changes the bitfield. -/
def CheckedIs (r : Except String Unit × Store) (v : V) (env : Env) : Prop :=
  env.cell = r.2 ∧
    v = match r.1 with
      | .ok () => .ok .unit
      | .error msg => .err msg

theorem returns_okUnit {f : Fn} {r : E Flow} {s' : Store} {env : Env} (ht : f.tail = .okE .unit)
    (hr : f.ret = .result .unit) (h : r = .ok (.next env)) (hc : env.cell = s') :
    Returns (finish (inside cx false f.ret) f r) (.ok (.ok (), s')) CheckedIs := by
  subst h
  refine ⟨.ok .unit, env, ?_, hc, rfl⟩
  simp only [finish, ebind_ok, ht, hr]
  run []

theorem returns_errUnit {f : Fn} {r : E Flow} {s' : Store} {msg : String} {env : Env} (hr : f.ret = .result .unit)
    (h : r = .ok (.ret (.err msg) env)) (hc : env.cell = s') :
    Returns (finish (inside cx false f.ret) f r) (.ok (.error msg, s')) CheckedIs := by
  subst h
  refine ⟨.err msg, env, ?_, hc, rfl⟩
  simp only [finish, ebind_ok, hr]
  run []

theorem returns_finish_error {α : Type} {f : Fn} {r : E Flow} {p : Panic} {Q : α → V → Env → Prop}
    (h : r = .error (stopOf p)) : Returns (finish cx f r) (.error p) Q := by
  subst h
  rfl

set_option maxHeartbeats 1000000 in
theorem finish_checkedSetRangeInt {w : Nat} {v x : BitVec w} {o n : Nat} {f : Fn} (ht : f.tail = .okE .unit)
    (hr : f.ret = .result .unit) (hB : B.backing = .int w) :
    Returns (finish (inside cx false f.ret) f (exec (inside cx false f.ret) (.all
         [.letS "mask" none (maskTok w (.var "length")),
          protTok B .readOnly,
          .letS "range_mask" none (.bin .shl (.var "mask") (.var "offset")),
          .ite (.bin .ne (.bin .and (.var "range_mask") (.var "protected_mask")) (.lit 0 none))
            (.ret (.errE errWrite)) .skip,
          .assignInner false none
            (.bin .or (.bin .and (.inner false) (.not (.bin .shl (.var "mask") (.var "offset"))))
              (.bin .shl (.bin .and (.var "value") (.var "mask")) (.var "offset")))])
        ⟨[("offset", .u 32 o), ("length", .u 32 n), ("value", bv x)], true, .int w v, []⟩))
      (checkedSetRangeInt cx.mode B v x o n) CheckedIs := by
  have hm := eval_maskTok (cx := inside cx false f.ret) (w := w) (nb := n) (bits := .var "length") (exp := none)
    (env := ⟨[("offset", .u 32 o), ("length", .u 32 n), ("value", bv x)], true, .int w v, []⟩) (by intro exp; run [])
  change _ = (liftE (intMask cx.mode w n)).map _ at hm
  have hp := fun (r : BitVec w) => exec_protInt (cx := inside cx false f.ret) (B := B) (p := .readOnly) (s := .int w v)
    (l := [("mask", bv r), ("offset", .u 32 o), ("length", .u 32 n), ("value", bv x)]) (th := true) (sh := []) hB
  simp only [checkedSetRangeInt]
  generalize (protMask128 (protectedFields B .readOnly)).setWidth w = p at hp ⊢
  cases h1 : intMask cx.mode w n with
  | error q =>
    rw [h1] at hm
    simp only [liftE_err, emap_error] at hm
    refine returns_finish_error ?_
    run [hm]
  | ok r =>
    rw [h1] at hm
    simp only [liftE_ok, emap_ok] at hm
    have e1 : exec (inside cx false f.ret) (.letS "mask" none (maskTok w (.var "length")))
        ⟨[("offset", .u 32 o), ("length", .u 32 n), ("value", bv x)], true, .int w v, []⟩ = .ok (.next
        ⟨[("mask", bv r), ("offset", .u 32 o), ("length", .u 32 n), ("value", bv x)], true, .int w v, []⟩) := by
      run [hm]
    rw [ebind_ok, Stmt.all, exec_seq_next e1, Stmt.all, exec_seq_next (hp r)]
    cases h2 : shl cx.mode r o with
    | error q =>
      refine returns_finish_error ?_
      run [h2]
    | ok range =>
      rw [ebind_ok]
      by_cases h3 : range &&& p = 0#w
      · rw [if_neg (by simpa using h3), ebind_ok]
        have hb : (range &&& p != 0#w) = false := by rw [h3]; exact bne_self_eq_false _
        cases h4 : shl cx.mode (x &&& r) o with
        | error q =>
          refine returns_finish_error ?_
          run [h2, hb, h4, Ctx.hasInner, storeTy]
        | ok b =>
          rw [ebind_ok]
          refine returns_okUnit ht hr (env := ⟨[("range_mask", bv range), ("protected_mask", bv p), ("mask", bv r),
            ("offset", .u 32 o), ("length", .u 32 n), ("value", bv x)], true, .int w ((v &&& ~~~range) ||| b), []⟩) ?_ rfl
          run [h2, hb, h4, Ctx.hasInner, storeTy, storeAs_int]
      · rw [if_pos (by simpa using h3)]
        have hb : (range &&& p != 0#w) = true := bne_iff_ne.2 h3
        refine returns_errUnit hr (env := ⟨[("range_mask", bv range), ("protected_mask", bv p), ("mask", bv r),
            ("offset", .u 32 o), ("length", .u 32 n), ("value", bv x)], true, .int w v, []⟩) ?_ rfl
        run [h2, hb]

theorem finish_checkedSetRangeArr {k : Nat} {bs x : List (BitVec 8)} {o n : Nat} {f : Fn} (g : Base cx B) (hn : n < 2 ^ 32)
    (ht : f.tail = .okE .unit) (hr : f.ret = .result .unit) (hB : B.backing = .arr k) :
    Returns (finish (inside cx false f.ret) f (exec (inside cx false f.ret) (.all
         [protTok B .readOnly,
          protLoopTok "dst_bit" "dst_byte_idx" "dst_bit_in_byte" errWrite,
          upToTok
            [srcBitTok, posTok "dst_bit" "dst_byte_idx" "dst_bit_in_byte",
             storeByteBitTok (.var "bit_val") (.var "dst_byte_idx") (.var "dst_bit_in_byte") false]])
        ⟨[("offset", .u 32 o), ("length", .u 32 n), ("value", .arr x)], true, .arr bs, []⟩))
      (checkedSetRangeArr cx.mode (protMaskBytes (protectedFields B .readOnly) k) x bs o n) CheckedIs := by
  have hf := g.fuel
  rw [Stmt.all, exec_seq_next (exec_protArr hB), Stmt.all, Stmt.all, Stmt.all]
  generalize protMaskBytes (protectedFields B .readOnly) k = p
  have h1 := exec_protLoop (cx := inside cx false f.ret) (bit := "dst_bit") (byte := "dst_byte_idx")
    (inByte := "dst_bit_in_byte") (msg := errWrite) (p := p) (o := o) (n := n) (th := true) (s := .arr bs) (sh := [])
    (l := [("protected_mask", .arr p), ("offset", .u 32 o), ("length", .u 32 n), ("value", .arr x)])
    (by decide) (by decide) (by decide) (by decide) (by decide) (by decide) (by decide) (by decide)
    (show n < cx.fuel by omega) hn (by run []) (by run []) (by run [])
  change Found _ (anyProtected cx.mode p o n) _ _ _ at h1
  simp only [checkedSetRangeArr]
  cases hx : anyProtected cx.mode p o n with
  | error q =>
    rw [hx] at h1
    exact returns_finish_error (exec_seq_error h1)
  | ok b =>
    rw [hx] at h1
    cases b with
    | true =>
      obtain ⟨env, h1, h2⟩ := h1
      rw [ebind_ok, if_pos rfl]
      exact returns_errUnit hr (exec_seq_ret h1) h2
    | false =>
      rw [ebind_ok, if_neg (by decide), exec_seq_next h1]
      have h := exec_setLoopAll (cx := inside cx false f.ret) (x := x) (bs := bs) (o := o) (n := n) (th := true) (sh := [])
        (l := [("i", .u 32 n), ("protected_mask", .arr p), ("offset", .u 32 o), ("length", .u 32 n), ("value", .arr x)]) rfl
        (show n < cx.fuel by omega) hn (by run []) (by run []) (by run [])
      change _ = (liftE (setLoopAll cx.mode x o n bs)).map _ at h
      cases hx : setLoopAll cx.mode x o n bs with
      | error q =>
        rw [hx] at h; simp only [liftE_err, emap_error] at h
        exact returns_finish_error (exec_seq_error h)
      | ok bs' =>
        rw [hx] at h
        simp only [liftE_ok, emap_ok] at h
        rw [exec_seq_next h]
        exact returns_okUnit ht hr (by rw [exec]) rfl

theorem returns_checkedSetRange {G : Gen} {o n : Nat} {x : Store} (g : Base cx G.B) (hn : n < 2 ^ 32)
    (hs : s.HasBacking G.B.backing) (hx : x.HasBacking G.B.backing) :
    Returns ((checkedSetRangeFn G).run cx [.u 32 o, .u 32 n, ofStore x] s) (apiCheckedSetRange cx.mode G.B s o n x)
      CheckedIs := by
  cases hB : G.B.backing with
  | int w =>
    cases s with
    | arr bs => rw [hB] at hs; exact absurd hs id
    | int w' v =>
      obtain rfl : w' = w := by rw [hB] at hs; exact hs
      cases x with
      | arr bs => rw [hB] at hx; exact absurd hx id
      | int w2 x =>
        obtain rfl : w2 = w' := by rw [hB] at hx; exact hx
        rw [apiCheckedSetRange_int _ _ _ _ _ hB]
        refine returns_range (f := checkedSetRangeFn G) (e1 := .errE errOffset) (e2 := .errE errLength)
          (v1 := .err errOffset) (v2 := .err errLength) g.back (bindArgs_range hx)
          (by simp only [checkedSetRangeFn, hB]) rfl (by run []) (by run []) (by run []) (by run []) rfl rfl
          ⟨rfl, rfl⟩ ⟨rfl, rfl⟩ (finish_checkedSetRangeInt rfl rfl hB)
  | arr k =>
    cases s with
    | int w v => rw [hB] at hs; exact absurd hs id
    | arr bs =>
      cases x with
      | int w v => rw [hB] at hx; exact absurd hx id
      | arr x =>
        rw [apiCheckedSetRange_arr _ _ _ _ _ hB]
        refine returns_range (f := checkedSetRangeFn G) (e1 := .errE errOffset) (e2 := .errE errLength)
          (v1 := .err errOffset) (v2 := .err errLength) g.back (bindArgs_range hx)
          (by simp only [checkedSetRangeFn, hB]) rfl (by run []) (by run []) (by run []) (by run []) rfl rfl
          ⟨rfl, rfl⟩ ⟨rfl, rfl⟩ (finish_checkedSetRangeArr g hn rfl rfl hB)

end

end Bf
