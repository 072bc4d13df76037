import Verif.Lemmas.CodeWrite

/-!
# Running generated functions: bit and range operations
-/

namespace Bf

open Rust Quote

set_option linter.unusedSimpArgs false

section
variable {cx : Ctx} {B : Bitfield} {s : Store} {l sh : List (String × V)} {th : Bool}

/-! ## Guards -/

/-- `if c { return e; }` -/
theorem exec_guard {c e : Expr} {b : Bool} {v : V}
    (hc : eval cx c (some .bool) ⟨l, th, s, sh⟩ = .ok (.bool b, ⟨l, th, s, sh⟩))
    (he : eval cx e (some cx.ret) ⟨l, th, s, sh⟩ = .ok (v, ⟨l, th, s, sh⟩)) :
    exec cx (.ite c (.ret e) .skip) ⟨l, th, s, sh⟩ =
      .ok (if b then .ret v ⟨l, th, s, sh⟩ else .next ⟨l, th, s, sh⟩) := by
  run [hc]
  cases b <;> run [he]

theorem eval_sizeTok {exp : Option Ty} {env : Env} (h : B.backing.OK) :
    eval cx (sizeTok B) exp env = .ok (.u 32 B.backing.size, env) := by
  have hs := size_lt h
  cases hB : B.backing with
  | int w => simp only [sizeTok, hB]; run [Backing.size]
  | arr n =>
    rw [hB] at hs
    simp only [Backing.size] at hs
    simp only [sizeTok, hB]
    run [Backing.size, bv32_lit (show n * 8 < 2 ^ 32 by omega), Nat.mul_comm]

theorem exec_offsetGuard {e : Expr} {v : V} {o : Nat} (h : B.backing.OK) (ho : look "offset" l = some (.u 32 o))
    (he : eval cx e (some cx.ret) ⟨l, th, s, sh⟩ = .ok (v, ⟨l, th, s, sh⟩)) :
    exec cx (offsetGuardTok B (.ret e)) ⟨l, th, s, sh⟩ =
      .ok (if o ≥ B.backing.size then .ret v ⟨l, th, s, sh⟩ else .next ⟨l, th, s, sh⟩) := by
  rw [offsetGuardTok, exec_guard (b := decide (o ≥ B.backing.size)) (by run [ho, eval_sizeTok h]) he]
  simp only [decide_eq_true_eq]

theorem exec_lengthGuard {e : Expr} {v : V} {o n : Nat} (h : B.backing.OK) (ho : look "offset" l = some (.u 32 o))
    (hn : look "length" l = some (.u 32 n))
    (he : eval cx e (some cx.ret) ⟨l, th, s, sh⟩ = .ok (v, ⟨l, th, s, sh⟩)) :
    exec cx (lengthGuardTok B (.ret e)) ⟨l, th, s, sh⟩ = (liftE (addU32 cx.mode o n)).map fun sum =>
      if sum > B.backing.size then .ret v ⟨l, th, s, sh⟩ else .next ⟨l, th, s, sh⟩ := by
  rw [lengthGuardTok]
  cases ha : addU32 cx.mode o n with
  | error p => run [ho, hn, ha]
  | ok sum =>
    rw [exec_guard (b := decide (sum > B.backing.size)) (by run [ho, hn, ha, eval_sizeTok h]) he]
    simp only [decide_eq_true_eq, liftE_ok, emap_ok]

theorem exec_fieldGuards {G : Gen} {e : Expr} {v : V} {o : Nat} (ho : look "offset" l = some (.u 32 o))
    (he : eval cx e (some cx.ret) ⟨l, th, s, sh⟩ = .ok (v, ⟨l, th, s, sh⟩)) :
    ∀ fs : List Field, (∀ f ∈ fs, f.offset + f.bits < 2 ^ 32) →
    exec cx (.all (fs.map fun f =>
      if G.ignored then .ite (.contains f.offset (f.offset + f.bits) (.var "offset")) (.ret e) .skip
      else .ite (.andAlso (.bin .ge (.var "offset") (.lit f.offset (some (.u 32))))
        (.bin .lt (.var "offset") (.lit (f.offset + f.bits) (some (.u 32))))) (.ret e) .skip)) ⟨l, th, s, sh⟩ =
      .ok (if fieldGuard fs o then .ret v ⟨l, th, s, sh⟩ else .next ⟨l, th, s, sh⟩) := by
  intro fs
  induction fs with
  | nil => intro _; rfl
  | cons f fs ih =>
    intro hfs
    have hb := hfs f (by simp)
    have h1 : exec cx (if G.ignored then .ite (.contains f.offset (f.offset + f.bits) (.var "offset")) (.ret e) .skip
      else .ite (.andAlso (.bin .ge (.var "offset") (.lit f.offset (some (.u 32))))
        (.bin .lt (.var "offset") (.lit (f.offset + f.bits) (some (.u 32))))) (.ret e) .skip) ⟨l, th, s, sh⟩ =
        .ok (if decide (f.offset ≤ o) && decide (o < f.offset + f.bits) then .ret v ⟨l, th, s, sh⟩
          else .next ⟨l, th, s, sh⟩) := by
      split
      · exact exec_guard (by run [ho]) he
      · refine exec_guard ?_ he
        run [ho, bv32_lit (show f.offset < 2 ^ 32 by omega), bv32_lit hb]
        cases decide (f.offset ≤ o) <;> run []
    rw [List.map_cons, Stmt.all]
    cases hg : decide (f.offset ≤ o) && decide (o < f.offset + f.bits) with
    | true =>
      simp only [hg, if_true] at h1
      rw [exec_seq_ret h1]
      simp only [fieldGuard, List.any_cons, hg, Bool.true_or, if_true]
    | false =>
      simp only [hg, Bool.false_eq_true, if_false] at h1
      rw [exec_seq_next h1, ih fun f hf => hfs f (by simp [hf])]
      have : fieldGuard (f :: fs) o = fieldGuard fs o := by
        simp only [fieldGuard, List.any_cons, hg, Bool.false_or]
      rw [this]

theorem exec_fieldGuard {G : Gen} {e : Expr} {v : V} {o : Nat} {read : Bool} (g : Base cx G.B)
    (ho : look "offset" l = some (.u 32 o)) {t : Ty}
    (he : eval (inside cx false t) e (some t) ⟨l, th, s, sh⟩ = .ok (v, ⟨l, th, s, sh⟩)) :
    exec (inside cx false t) (fieldGuardTok G read (.ret e)) ⟨l, th, s, sh⟩ =
      .ok (if fieldGuard (G.B.fields.filter fun f => if read then !f.hasReadAccess else !f.hasSetter) o
        then .ret v ⟨l, th, s, sh⟩ else .next ⟨l, th, s, sh⟩) := by
  refine exec_fieldGuards (cx := inside cx false t) ho he _ ?_
  intro f hf
  have h1 := (g.ok f (List.mem_filter.1 hf).1).fits
  have h2 := size_lt g.back
  omega

/-! ## Single bits -/

theorem putStoreBit_arr_eq (m : Mode) (bs : List (BitVec 8)) (o : Nat) (b : Bool) :
    putStoreBit m (.arr bs) o b = (do
      let x ← getB bs (o / 8)
      setB bs (o / 8) (putBit x (o % 8) b)) >>= fun bs => pure (.arr bs) := by
  simp only [putStoreBit, bind_assoc]

theorem ends_setBit {o : Nat} {b : Bool} (ho32 : o < 2 ^ 32) (ho : look "offset" l = some (.u 32 o))
    (hb : look "bit" l = some (.bool b)) (hs : s.HasBacking B.backing) (hth : th = true) :
    Ends (exec cx (setBitTok B) ⟨l, th, s, sh⟩) (putStoreBit cx.mode s o b) fun s' env => env.cell = s' := by
  subst hth
  cases hB : B.backing with
  | int w =>
    rw [hB] at hs
    cases s with
    | arr bs => exact absurd hs id
    | int w' v =>
      have h := exec_storeBit (cx := cx) (builder := false) (cnd := .var "bit") (off := .var "offset") (v := v) (no := o)
        (x := b) (l := l) (th := true) (sh := sh) rfl (by run [hb]) (by intro exp; run [ho])
      simp only [setBitTok, hB, putStoreBit]
      cases hx : intSetBit cx.mode v o b with
      | error p => rw [hx] at h; simp only [liftE_err, emap_error] at h; exact h
      | ok v' => rw [hx] at h; exact ⟨_, h, rfl⟩
  | arr n =>
    rw [hB] at hs
    cases s with
    | int w v => exact absurd hs id
    | arr bs =>
      have h := exec_storeByteBit (cx := cx) (builder := false) (cnd := .var "bit") (i := .cast (.var "byte_idx") .usize)
        (k := .var "bit_in_byte") (bs := bs) (ni := o / 8) (nk := o % 8) (x := b)
        (l := ("bit_in_byte", .u 32 (o % 8)) :: ("byte_idx", .u 32 (o / 8)) :: l) (th := true) (sh := sh) rfl
        (by run [hb]) (by intro exp; run [castV_usize (show o / 8 < 2 ^ 32 by omega)]) (by intro exp; run []) (by omega)
      simp only [setBitTok, hB, Stmt.all]
      have h1 : exec cx (.letS "byte_idx" none (.bin .div (.var "offset") (.lit 8 none))) ⟨l, true, .arr bs, sh⟩ =
          .ok (.next ⟨("byte_idx", .u 32 (o / 8)) :: l, true, .arr bs, sh⟩) := by run [ho]
      have h2 : exec cx (.letS "bit_in_byte" none (.bin .rem (.var "offset") (.lit 8 none)))
          ⟨("byte_idx", .u 32 (o / 8)) :: l, true, .arr bs, sh⟩ =
          .ok (.next ⟨("bit_in_byte", .u 32 (o % 8)) :: ("byte_idx", .u 32 (o / 8)) :: l, true, .arr bs, sh⟩) := by
        run [ho]
      rw [exec_seq_next h1, exec_seq_next h2]
      refine seq_skip_right ?_
      rw [putStoreBit_arr_eq]
      generalize (do
        let x ← getB bs (o / 8)
        setB bs (o / 8) (putBit x (o % 8) b) : R _) = m at h ⊢
      cases m with
      | error p => simp only [liftE_err, emap_error] at h; exact h
      | ok bs' => exact ⟨_, h, rfl⟩

theorem returns_setBit {G : Gen} {o : Nat} {b : Bool} (g : Base cx G.B) (ho : o < 2 ^ 32)
    (hs : s.HasBacking G.B.backing) :
    Returns ((setBitFn G).run cx [.u 32 o, .bool b] s) (apiSetBit cx.mode G.B s o b) fun s' v env =>
      v = .unit ∧ env.cell = s' := by
  have hl : bindArgs (setBitFn G).params [.u 32 o, .bool b] = .ok [("offset", .u 32 o), ("bit", .bool b)] := rfl
  have h1 := exec_offsetGuard (cx := inside cx false .unit) (B := G.B) (e := .unit) (v := .unit) (o := o)
    (l := [("offset", .u 32 o), ("bit", .bool b)]) (th := true) (s := s) (sh := []) g.back (by run []) (by run [])
  have h2 := exec_fieldGuard (cx := cx) (G := G) (e := .unit) (v := .unit) (o := o) (read := false) (t := .unit)
    (l := [("offset", .u 32 o), ("bit", .bool b)]) (th := true) (s := s) (sh := []) g (by run []) (by run [])
  simp only [Bool.false_eq_true, if_false] at h2
  simp only [apiSetBit]
  split
  · rename_i hc
    rw [if_pos hc] at h1
    refine ⟨.unit, ⟨[("offset", .u 32 o), ("bit", .bool b)], true, s, []⟩, run_ret (f := setBitFn G) hl (v := .unit) ?_ rfl, rfl, rfl⟩
    simp only [setBitFn, Stmt.all, exec_letThis]
    exact exec_seq_ret h1
  · rename_i hc
    rw [if_neg hc] at h1
    split
    · rename_i hc
      rw [if_pos hc] at h2
      refine ⟨.unit, ⟨[("offset", .u 32 o), ("bit", .bool b)], true, s, []⟩, run_ret (f := setBitFn G) hl (v := .unit) ?_ rfl, rfl, rfl⟩
      simp only [setBitFn, Stmt.all, exec_letThis]
      rw [exec_seq_next h1]
      exact exec_seq_ret h2
    · rename_i hc
      rw [if_neg hc] at h2
      refine returns_unit (f := setBitFn G) (Q := fun s' env => env.cell = s') hl rfl rfl ?_
      simp only [setBitFn, Stmt.all, exec_letThis]
      rw [exec_seq_next h1, exec_seq_next h2]
      exact seq_skip_right (ends_setBit (cx := inside cx false .unit) ho (by run []) (by run []) hs rfl)

theorem returns_checkedSetBit {G : Gen} {o : Nat} {b : Bool} (g : Base cx G.B) (ho : o < 2 ^ 32)
    (hs : s.HasBacking G.B.backing) :
    Returns ((checkedSetBitFn G).run cx [.u 32 o, .bool b] s) (apiCheckedSetBit cx.mode G.B s o b) fun r v env =>
      env.cell = r.2 ∧
      v = match r.1 with
        | .ok () => .ok .unit
        | .error msg => .err msg := by
  have hl : bindArgs (checkedSetBitFn G).params [.u 32 o, .bool b] = .ok [("offset", .u 32 o), ("bit", .bool b)] := rfl
  have h1 := exec_offsetGuard (cx := inside cx false (.result .unit)) (B := G.B) (e := .errE errOffset) (v := .err errOffset) (o := o)
    (l := [("offset", .u 32 o), ("bit", .bool b)]) (th := true) (s := s) (sh := []) g.back (by run []) (by run [])
  have h2 := exec_fieldGuard (cx := cx) (G := G) (e := .errE errWrite) (v := .err errWrite) (o := o) (read := false) (t := .result .unit)
    (l := [("offset", .u 32 o), ("bit", .bool b)]) (th := true) (s := s) (sh := []) g (by run []) (by run [])
  simp only [Bool.false_eq_true, if_false] at h2
  simp only [apiCheckedSetBit]
  split
  · rename_i hc
    rw [if_pos hc] at h1
    refine ⟨.err errOffset, ⟨[("offset", .u 32 o), ("bit", .bool b)], true, s, []⟩, run_ret (f := checkedSetBitFn G) hl (v := .err errOffset) ?_ rfl, rfl, rfl⟩
    simp only [checkedSetBitFn, Stmt.all, exec_letThis]
    exact exec_seq_ret h1
  · rename_i hc
    rw [if_neg hc] at h1
    split
    · rename_i hc
      rw [if_pos hc] at h2
      refine ⟨.err errWrite, ⟨[("offset", .u 32 o), ("bit", .bool b)], true, s, []⟩, run_ret (f := checkedSetBitFn G) hl (v := .err errWrite) ?_ rfl, rfl, rfl⟩
      simp only [checkedSetBitFn, Stmt.all, exec_letThis]
      rw [exec_seq_next h1]
      exact exec_seq_ret h2
    · rename_i hc
      rw [if_neg hc] at h2
      refine returns_run (cx := cx) (f := checkedSetBitFn G) (m2 := fun s => (pure (.ok (), s) : R (Except String Unit × Store)))
        (Q1 := fun s' env => env.cell = s') hl ?_ ?_
      · simp only [checkedSetBitFn, Stmt.all, exec_letThis]
        rw [exec_seq_next h1, exec_seq_next h2]
        exact seq_skip_right (ends_setBit (cx := inside cx false (.result .unit)) ho (by run []) (by run []) hs rfl)
      · rintro s' env rfl
        exact ⟨.ok .unit, .ok .unit, env, by simp only [checkedSetBitFn]; run [], rfl, rfl, rfl⟩

theorem eval_bitSet {a i k : Expr} {bs : List (BitVec 8)} {ni nk : Nat} {bx : Bool} {exp : Option Ty} {env : Env}
    (ha : ∀ exp, eval cx a exp env = .ok (innerV bx (.arr bs), env)) (hi : ∀ exp, eval cx i exp env = .ok (.usize ni, env))
    (hk : ∀ exp, eval cx k exp env = .ok (.u 32 nk, env)) (hn : nk < 8) :
    eval cx (bitSetTok a i k) exp env =
      (liftE (getB bs ni)).map fun b => (.bool (((b >>> nk) &&& 1#8) != 0#8), env) := by
  simp only [bitSetTok]
  run [ha, hi, hk]
  cases getB bs ni with
  | error p => run []
  | ok b => run [hk, shr_ok _ _ hn]

theorem tail_getBit {o : Nat} {t : Ty} (ho32 : o < 2 ^ 32) (ho : look "offset" l = some (.u 32 o))
    (hs : s.HasBacking B.backing) :
    ∃ l', exec (inside cx false t) (bitIndexTok B) ⟨l, true, s, sh⟩ = .ok (.next ⟨l', true, s, sh⟩) ∧
      ∀ exp, eval (inside cx false t) (getBitTok B) exp ⟨l', true, s, sh⟩ =
        (liftE (readStoreBit cx.mode s o)).map fun b => (.bool b, ⟨l', true, s, sh⟩) := by
  cases hB : B.backing with
  | int w =>
    rw [hB] at hs
    cases s with
    | arr bs => exact absurd hs id
    | int w' v =>
      refine ⟨l, by simp only [bitIndexTok, hB]; run [], ?_⟩
      intro exp
      simp only [getBitTok, hB, readStoreBit]
      run [Ctx.hasInner, ho]
      cases shr cx.mode v o with
      | error p => run []
      | ok x => run []
  | arr n =>
    rw [hB] at hs
    cases s with
    | int w v => exact absurd hs id
    | arr bs =>
      refine ⟨("bit_in_byte", .u 32 (o % 8)) :: ("byte_idx", .u 32 (o / 8)) :: l, ?_, ?_⟩
      · simp only [bitIndexTok, hB]
        run [ho]
      · intro exp
        have := eval_bitSet (cx := inside cx false t) (a := .inner false) (i := .cast (.var "byte_idx") .usize)
          (k := .var "bit_in_byte") (bs := bs) (ni := o / 8) (nk := o % 8) (exp := exp)
          (env := ⟨("bit_in_byte", .u 32 (o % 8)) :: ("byte_idx", .u 32 (o / 8)) :: l, true, .arr bs, sh⟩)
          (by intro exp; run [Ctx.hasInner]; rfl) (by intro exp; run [castV_usize (show o / 8 < 2 ^ 32 by omega)])
          (by intro exp; run []) (by omega)
        simp only [getBitTok, hB, readStoreBit]
        rw [bitSetTok] at this
        rw [this]
        cases getB bs (o / 8) with
        | error p => run []
        | ok b => rfl

theorem returns_getBit {G : Gen} {o : Nat} (g : Base cx G.B) (ho : o < 2 ^ 32) (hs : s.HasBacking G.B.backing) :
    Returns ((getBitFn G).run cx [.u 32 o] s) (apiGetBit cx.mode G.B s o) fun b v env =>
      v = .bool b ∧ env.cell = s := by
  have hl : bindArgs (getBitFn G).params [.u 32 o] = .ok [("offset", .u 32 o)] := rfl
  have h1 := exec_offsetGuard (cx := inside cx false .bool) (B := G.B) (e := .bool false) (v := .bool false) (o := o)
    (l := [("offset", .u 32 o)]) (th := true) (s := s) (sh := []) g.back (by run []) (by run [])
  have h2 := exec_fieldGuard (cx := cx) (G := G) (e := .bool false) (v := .bool false) (o := o) (read := true) (t := .bool)
    (l := [("offset", .u 32 o)]) (th := true) (s := s) (sh := []) g (by run []) (by run [])
  simp only [if_true] at h2
  simp only [apiGetBit]
  split
  · rename_i hc
    rw [if_pos hc] at h1
    refine ⟨.bool false, ⟨[("offset", .u 32 o)], true, s, []⟩, run_ret (f := getBitFn G) hl (v := .bool false) ?_ rfl, rfl, rfl⟩
    simp only [getBitFn, Stmt.all, exec_letThis]
    exact exec_seq_ret h1
  · rename_i hc
    rw [if_neg hc] at h1
    split
    · rename_i hc
      rw [if_pos hc] at h2
      refine ⟨.bool false, ⟨[("offset", .u 32 o)], true, s, []⟩, run_ret (f := getBitFn G) hl (v := .bool false) ?_ rfl, rfl, rfl⟩
      simp only [getBitFn, Stmt.all, exec_letThis]
      rw [exec_seq_next h1]
      exact exec_seq_ret h2
    · rename_i hc
      rw [if_neg hc] at h2
      obtain ⟨l', h3, h4⟩ := tail_getBit (cx := cx) (t := .bool) (sh := []) (l := [("offset", .u 32 o)]) ho (by run []) hs
      refine returns_run (cx := cx) (f := getBitFn G) (m1 := .ok ()) (m2 := fun _ => readStoreBit cx.mode s o)
        (Q1 := fun _ env => env = ⟨l', true, s, []⟩) hl ?_ ?_
      · refine ⟨_, ?_, rfl⟩
        simp only [getBitFn, Stmt.all, exec_letThis]
        rw [exec_seq_next h1, exec_seq_next h2, exec_seq_next h3]
        run []
      · rintro _ env rfl
        have h4 := h4 (some .bool)
        simp only [getBitFn]
        cases hr : readStoreBit cx.mode s o with
        | error p => rw [hr] at h4; simp only [liftE_err, emap_error] at h4; exact h4
        | ok b => rw [hr] at h4; exact ⟨_, _, _, h4, rfl, rfl, rfl⟩

theorem returns_checkedGetBit {G : Gen} {o : Nat} (g : Base cx G.B) (ho : o < 2 ^ 32) (hs : s.HasBacking G.B.backing) :
    Returns ((checkedGetBitFn G).run cx [.u 32 o] s) (apiCheckedGetBit cx.mode G.B s o) fun r v env =>
      env.cell = s ∧
      v = match r with
        | .ok b => .ok (.bool b)
        | .error msg => .err msg := by
  have hl : bindArgs (checkedGetBitFn G).params [.u 32 o] = .ok [("offset", .u 32 o)] := rfl
  have h1 := exec_offsetGuard (cx := inside cx false (.result .bool)) (B := G.B) (e := .errE errOffset) (v := .err errOffset) (o := o)
    (l := [("offset", .u 32 o)]) (th := true) (s := s) (sh := []) g.back (by run []) (by run [])
  have h2 := exec_fieldGuard (cx := cx) (G := G) (e := .errE errRead) (v := .err errRead) (o := o) (read := true) (t := .result .bool)
    (l := [("offset", .u 32 o)]) (th := true) (s := s) (sh := []) g (by run []) (by run [])
  simp only [if_true] at h2
  simp only [apiCheckedGetBit]
  split
  · rename_i hc
    rw [if_pos hc] at h1
    refine ⟨.err errOffset, ⟨[("offset", .u 32 o)], true, s, []⟩, run_ret (f := checkedGetBitFn G) hl (v := .err errOffset) ?_ rfl, rfl, rfl⟩
    simp only [checkedGetBitFn, Stmt.all, exec_letThis]
    exact exec_seq_ret h1
  · rename_i hc
    rw [if_neg hc] at h1
    split
    · rename_i hc
      rw [if_pos hc] at h2
      refine ⟨.err errRead, ⟨[("offset", .u 32 o)], true, s, []⟩, run_ret (f := checkedGetBitFn G) hl (v := .err errRead) ?_ rfl, rfl, rfl⟩
      simp only [checkedGetBitFn, Stmt.all, exec_letThis]
      rw [exec_seq_next h1]
      exact exec_seq_ret h2
    · rename_i hc
      rw [if_neg hc] at h2
      obtain ⟨l', h3, h4⟩ := tail_getBit (cx := cx) (t := .result .bool) (sh := []) (l := [("offset", .u 32 o)]) ho (by run []) hs
      refine returns_run (cx := cx) (f := checkedGetBitFn G) (m1 := .ok ())
        (m2 := fun _ => (readStoreBit cx.mode s o >>= fun b => pure (.ok b) : R (Except String Bool)))
        (Q1 := fun _ env => env = ⟨l', true, s, []⟩) hl ?_ ?_
      · refine ⟨_, ?_, rfl⟩
        simp only [checkedGetBitFn, Stmt.all, exec_letThis]
        rw [exec_seq_next h1, exec_seq_next h2, exec_seq_next h3]
        run []
      · rintro _ env rfl
        have h4 := h4 (some .bool)
        simp only [checkedGetBitFn]
        cases hr : readStoreBit cx.mode s o with
        | error p =>
          rw [hr] at h4; simp only [liftE_err, emap_error] at h4
          simp only [Tail, ebind_error]
          rw [eval]
          simp only [h4, ebind_error]
        | ok b =>
          rw [hr] at h4
          simp only [liftE_ok, emap_ok] at h4
          refine ⟨.ok (.bool b), .ok (.bool b), ⟨l', true, s, []⟩, ?_, rfl, rfl, rfl⟩
          rw [eval]
          simp only [h4, ebind_ok, epure]

end

end Bf
