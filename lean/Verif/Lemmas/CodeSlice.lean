import Verif.Lemmas.CodeWhole

/-!
# Running generated functions: slices, write, clear, invert, debug
-/

namespace Bf

open Rust Quote

set_option linter.unusedSimpArgs false

section
variable {cx : Ctx} {B : Bitfield} {s : Store}

/-- A function that returns early. -/
theorem run_ret {f : Fn} {args : List V} {cell : Store} {l : List (String × V)} {v v' : V} {env : Env}
    (hl : bindArgs f.params args = .ok l)
    (h : exec (inside cx f.builder f.ret) f.body ⟨l, false, cell, []⟩ = .ok (.ret v env))
    (hv : coerce v f.ret = .ok v') : f.run cx args cell = .ok (v', env) := by
  simp only [Fn.run, hl, ebind_ok, h, hv, epure]

/-! ## Slices -/

/-- The bytes in the order of the stored array. -/
def orient (n : Nat) (e : Endian) (bs : List (BitVec 8)) : R (List (BitVec 8)) :=
  match e with
  | .little => .ok bs
  | .big => xorReverse n bs

theorem apiIntoSlice_eq {n : Nat} (e : Endian) (bs sl : List (BitVec 8)) (hB : B.backing = .arr n) :
    apiIntoSlice B e (.arr bs) sl = orient n e bs >>= fun bits =>
      copyToSlice (if sl.length < n then sl.length else n) bits sl := by
  cases e <;> simp only [apiIntoSlice, hB, orient, ebind_ok]

theorem apiCheckedIntoSlice_eq {n : Nat} (e : Endian) (bs sl : List (BitVec 8)) (hB : B.backing = .arr n)
    (h : ¬ sl.length < n) :
    apiCheckedIntoSlice B e (.arr bs) sl = orient n e bs >>= fun bits =>
      copyToSlice n bits sl >>= fun sl' => pure (.ok (), sl') := by
  cases e <;> simp only [apiCheckedIntoSlice, hB, orient, ebind_ok, if_neg h]

theorem ends_sliceBits {n : Nat} {e : Endian} {bs sl : List (BitVec 8)} {t : Ty} (hf : 2 ^ 32 ≤ cx.fuel)
    (hn : n < 2 ^ 32) (hx : cx.boxed = B.heap) :
    Ends (exec (inside cx false t) (sliceBitsTok B n e) ⟨[("slice", .arr sl)], true, .arr bs, []⟩) (orient n e bs)
      fun bits env => ∃ l', env = ⟨l', true, .arr bs, []⟩ ∧ look "bits" l' = some (.arr bits) ∧
        look "slice" l' = some (.arr sl) := by
  have h1 : ∀ mu, exec (inside cx false t) (.letS "bits" none (innerArrTok B) mu) ⟨[("slice", .arr sl)], true, .arr bs, []⟩ =
      .ok (.next ⟨[("bits", .arr bs), ("slice", .arr sl)], true, .arr bs, []⟩) := by
    intro mu
    run [eval_innerArr (cx := inside cx false t) hx]
  cases e with
  | little => exact ⟨_, h1 _, _, rfl, by run [], by run []⟩
  | big =>
    simp only [sliceBitsTok, Stmt.all, orient]
    rw [exec_seq_next (h1 _)]
    refine seq_skip_right ?_
    have h := exec_xorLoop (cx := inside cx false t) (suffix := true) (c := .arr bs) (sh := []) (th := true) (n := n)
      (l := [("bits", .arr bs), ("slice", .arr sl)]) (bs := bs) (by run []) (show n < cx.fuel by omega) hn
    cases hx : xorReverse n bs with
    | error p => rw [hx] at h; simp only [liftE_err, emap_error] at h; exact h
    | ok bs' => rw [hx] at h; exact ⟨_, h, _, rfl, by run [], by run []⟩

theorem returns_intoSlice {n : Nat} {e : Option Endian} {sl : List (BitVec 8)} (g : Base cx B) (hB : B.backing = .arr n)
    (hs : s.HasBacking B.backing) :
    Returns ((intoSliceFn B n e).run cx [.arr sl] s) (apiIntoSlice B (e.getD B.intoEndian) s sl) fun sl' v env =>
      v = .unit ∧ env.cell = s ∧ look "slice" env.locals = some (.arr sl') := by
  have hf := g.fuel
  have hn := arr_lt g.back hB
  cases s with
  | int w v => rw [hB] at hs; exact absurd hs id
  | arr bs =>
    rw [apiIntoSlice_eq _ _ _ hB]
    refine returns_unit (f := intoSliceFn B n e) (l := [("slice", .arr sl)])
      (Q := fun sl' env => env.cell = .arr bs ∧ look "slice" env.locals = some (.arr sl')) rfl rfl rfl ?_
    simp only [intoSliceFn, Stmt.all, exec_letThis]
    refine ends_seq (ends_sliceBits (show 2 ^ 32 ≤ cx.fuel by omega) hn g.box) ?_
    rintro bits env ⟨l', rfl, hb, hsl⟩
    have h1 : exec (inside cx false .unit) (.letS "copy_len" none (copyLenTok n)) ⟨l', true, .arr bs, []⟩ =
        .ok (.next ⟨("copy_len", .usize (if sl.length < n then sl.length else n)) :: l', true, .arr bs, []⟩) := by
      rw [exec, eval_copyLen hsl]; rfl
    rw [exec_seq_next h1]
    refine seq_skip_right ?_
    have hle : (if sl.length < n then sl.length else n) ≤ n := by split <;> omega
    generalize hN : (if sl.length < n then sl.length else n) = N at hle
    have h2 := exec_copyLoop (cx := inside cx false .unit) (dst := "slice") (src := "bits") (bound := .var "copy_len")
      (N := N) (a := sl) (b := bits) (l := ("copy_len", .usize N) :: l') (th := true) (c := .arr bs) (sh := [])
      (by decide) (by decide) (by decide) (by run [hsl]) (by run [hb]) (show N < cx.fuel by omega) (by omega)
      (by intro i a'; run [])
    cases hx : copyToSlice N bits sl with
    | error p => rw [hx] at h2; simp only [liftE_err, emap_error] at h2; exact h2
    | ok sl' => rw [hx] at h2; exact ⟨_, h2, rfl, by run []; exact look_update_same hsl⟩

theorem exec_sliceCheck {n : Nat} {msg : String} {sl : List (BitVec 8)} {l sh : List (String × V)} {th : Bool}
    (hsl : look "slice" l = some (.arr sl)) :
    exec cx (sliceCheckTok n msg) ⟨l, th, s, sh⟩ =
      .ok (if sl.length < n then .ret (.err msg) ⟨l, th, s, sh⟩ else .next ⟨l, th, s, sh⟩) := by
  simp only [sliceCheckTok]
  run [hsl]
  by_cases h : sl.length < n
  · simp only [h, decide_true, if_true]
  · simp only [h, decide_false, if_false]

theorem returns_checkedIntoSlice {n : Nat} {e : Option Endian} {sl : List (BitVec 8)} (g : Base cx B)
    (hB : B.backing = .arr n) (hs : s.HasBacking B.backing) :
    Returns ((checkedIntoSliceFn B n e).run cx [.arr sl] s) (apiCheckedIntoSlice B (e.getD B.intoEndian) s sl)
      fun r v env => env.cell = s ∧ look "slice" env.locals = some (.arr r.2) ∧
        v = match r.1 with
          | .ok () => .ok .unit
          | .error msg => .err msg := by
  have hf := g.fuel
  have hn := arr_lt g.back hB
  cases s with
  | int w v => rw [hB] at hs; exact absurd hs id
  | arr bs =>
    by_cases hlen : sl.length < n
    · have c1 : apiCheckedIntoSlice B (e.getD B.intoEndian) (.arr bs) sl = .ok (.error errSliceHold, sl) := by
        simp only [apiCheckedIntoSlice, hB, if_pos hlen]
      rw [c1]
      refine ⟨.err errSliceHold, ⟨[("slice", .arr sl)], true, .arr bs, []⟩,
        run_ret (f := checkedIntoSliceFn B n e) (l := [("slice", .arr sl)]) (v := .err errSliceHold) rfl ?_ rfl,
        rfl, by run [], rfl⟩
      simp only [checkedIntoSliceFn, Stmt.all, exec_letThis]
      rw [exec_seq_ret (env' := ⟨[("slice", .arr sl)], true, .arr bs, []⟩) (v := .err errSliceHold)]
      rw [exec_sliceCheck (sl := sl) (by run []), if_pos hlen]
    · rw [apiCheckedIntoSlice_eq _ _ _ hB hlen, ← bind_assoc]
      refine returns_run (cx := cx) (f := checkedIntoSliceFn B n e) (l := [("slice", .arr sl)]) (args := [.arr sl])
        (m2 := fun sl' => (pure (.ok (), sl') : R (Except String Unit × List (BitVec 8))))
        (Q1 := fun sl' env => env.cell = .arr bs ∧ look "slice" env.locals = some (.arr sl')) rfl ?_ ?_
      · simp only [checkedIntoSliceFn, Stmt.all, exec_letThis]
        rw [exec_seq_next (env' := ⟨[("slice", .arr sl)], true, .arr bs, []⟩)
          (by rw [exec_sliceCheck (sl := sl) (by run []), if_neg hlen])]
        refine ends_seq (ends_sliceBits (show 2 ^ 32 ≤ cx.fuel by omega) hn g.box) ?_
        rintro bits env ⟨l', rfl, hb, hsl⟩
        refine seq_skip_right ?_
        have h2 := exec_copyLoop (cx := inside cx false (.result .unit)) (dst := "slice") (src := "bits")
          (bound := .lit n (some .usize)) (N := n) (a := sl) (b := bits) (l := l') (th := true) (c := .arr bs) (sh := [])
          (by decide) (by decide) (by decide) hsl hb (show n < cx.fuel by omega) (by omega)
          (by intro i a'; run [])
        cases hx : copyToSlice n bits sl with
        | error p => rw [hx] at h2; simp only [liftE_err, emap_error] at h2; exact h2
        | ok sl' => rw [hx] at h2; exact ⟨_, h2, rfl, by run []; exact look_update_same hsl⟩
      · rintro sl' env ⟨h1, h2⟩
        exact ⟨.ok .unit, .ok .unit, env, by simp only [checkedIntoSliceFn]; run [], rfl, h1, h2, rfl⟩

theorem apiFromSlice_eq {n : Nat} (m : Mode) (e : Endian) (d : Bool) (sl : List (BitVec 8)) (hB : B.backing = .arr n) :
    apiFromSlice m B e d sl = copyFromSlice n (if sl.length < n then sl.length else n) sl >>= fun bits =>
      orient n e bits >>= fun bits => (do
        let s ← setAllFromSource m B .none (.arr bits) (initStore B)
        if d then setDefaults m B s else return s) := by
  cases e <;> simp only [apiFromSlice, hB, orient, ebind_ok] <;> rfl

theorem apiCheckedFromSlice_eq {n : Nat} (m : Mode) (e : Endian) (d : Bool) (sl : List (BitVec 8))
    (hB : B.backing = .arr n) (h : ¬ sl.length < n) :
    apiCheckedFromSlice m B e d sl = (copyFromSlice n n sl >>= fun bits =>
      orient n e bits >>= fun bits => (do
        let s ← setAllFromSource m B .none (.arr bits) (initStore B)
        if d then setDefaults m B s else return s)) >>= fun s => pure (.ok s) := by
  cases e <;> cases d <;> simp only [apiCheckedFromSlice, hB, orient, ebind_ok, if_neg h, bind_assoc, pure_bind,
    if_true, Bool.false_eq_true, if_false]

theorem copyToSlice_length {len : Nat} {bits sl sl' : List (BitVec 8)} (h : copyToSlice len bits sl = .ok sl') :
    sl'.length = sl.length := by
  refine forUpTo_inv (P := fun b => b.length = sl.length) rfl ?_ h
  intro i s s' hs h
  cases h1 : getB bits i with
  | error p => simp only [h1] at h; cases h
  | ok a1 => simp only [h1, ebind_ok] at h; rw [setB_length h, hs]

theorem ends_orient {n : Nat} {e : Endian} {bs : List (BitVec 8)} {l sh : List (String × V)} {th : Bool}
    (hf : 2 ^ 32 ≤ cx.fuel) (hb : look "bits" l = some (.arr bs)) (hn : n < 2 ^ 32) (hlen : bs.length = n) :
    Ends (exec cx (sliceEndianTok n e) ⟨l, th, s, sh⟩) (orient n e bs) fun bits env =>
      bits.length = n ∧ ∃ l', env = ⟨l', th, s, sh⟩ ∧ look "bits" l' = some (.arr bits) := by
  cases e with
  | little => exact ends_skip ⟨hlen, _, rfl, hb⟩
  | big =>
    have h := exec_xorLoop (cx := cx) (suffix := true) (c := s) (sh := sh) (th := th) hb (by omega) hn
    simp only [orient, sliceEndianTok]
    cases hx : xorReverse n bs with
    | error p => rw [hx] at h; simp only [liftE_err, emap_error] at h; exact h
    | ok bs' =>
      rw [hx] at h
      exact ⟨_, h, (xorReverse_length hx).trans hlen, _, rfl, by run []; exact look_update_same hb⟩

/-- From the copy loop to the end of the functions that make a bitfield from a slice. -/
theorem ends_slice {n N : Nat} {e : Endian} {d : Bool} {sl : List (BitVec 8)} {l : List (String × V)} {bound : Expr}
    {t : Ty} (g : Surround cx B) (hB : B.backing = .arr n) (hs : s.HasBacking B.backing) (hN : N ≤ n)
    (hl : look "bits" l = some (.arr (List.replicate n 0#8))) (hsl : look "slice" l = some (.arr sl))
    (hbound : ∀ i a', eval (inside cx false t) bound (some .usize) ⟨("i", .usize i) :: update "bits" (.arr a') l, false, s, []⟩ =
      .ok (.usize N, ⟨("i", .usize i) :: update "bits" (.arr a') l, false, s, []⟩)) :
    Ends (exec (inside cx false t) (.seq (copyLoopTok "bits" "slice" bound) (.seq (sliceEndianTok n e)
        (.seq (initTok B false) (.seq (setAllTok B .none) (.seq (if d then setDefaultsTok B else .skip) .skip)))))
        ⟨l, false, s, []⟩)
      (copyFromSlice n N sl >>= fun bits => orient n e bits >>= fun bits => (do
        let s ← setAllFromSource cx.mode B .none (.arr bits) (initStore B)
        if d then setDefaults cx.mode B s else return s))
      fun s' env => s'.HasBacking B.backing ∧ ∃ l', env = ⟨l', true, s', []⟩ := by
  have hf := g.fuel
  have hn := arr_lt g.back hB
  refine ends_seq (Q1 := fun bits env => bits.length = n ∧ ∃ l', env = ⟨l', false, s, []⟩ ∧
    look "bits" l' = some (.arr bits)) ?_ ?_
  · have h2 := exec_copyLoop (cx := inside cx false t) (dst := "bits") (src := "slice") (bound := bound)
      (N := N) (a := List.replicate n 0#8) (b := sl) (l := l) (th := false) (c := s) (sh := [])
      (by decide) (by decide) (by decide) hl hsl (show N < cx.fuel by omega) (by omega) hbound
    rw [copyFromSlice_copy]
    cases hx : copyToSlice N sl (List.replicate n 0#8) with
    | error p => rw [hx] at h2; simp only [liftE_err, emap_error] at h2; exact h2
    | ok bs =>
      rw [hx] at h2
      exact ⟨_, h2, (copyToSlice_length hx).trans List.length_replicate, _, rfl, by run []; exact look_update_same hl⟩
  · rintro bits env ⟨hlen, l', rfl, hb⟩
    refine ends_seq (ends_orient (cx := inside cx false t) (show 2 ^ 32 ≤ cx.fuel by omega) hb hn hlen) ?_
    rintro bits env ⟨hlen, l', rfl, hb⟩
    exact ends_fill (cx := inside cx false t) (x := .arr bits) g.bodyCtx g.fieldCtxs rfl hs (by rw [hB]; exact hlen) hb

theorem returns_fromSlice {n : Nat} {e : Option Endian} {d : Bool} {sl : List (BitVec 8)} (g : Surround cx B)
    (hB : B.backing = .arr n) (hs : s.HasBacking B.backing) :
    Returns ((fromSliceFn B n e d).run cx [.arr sl] s) (apiFromSlice cx.mode B (e.getD B.fromEndian) d sl)
      fun s' v env => v = .self s' ∧ env.cell = s' := by
  rw [apiFromSlice_eq _ _ _ _ hB]
  refine returns_self (b := false) (l := [("slice", .arr sl)])
    (Q := fun s' env => s'.HasBacking B.backing ∧ ∃ l', env = ⟨l', true, s', []⟩) rfl rfl rfl ?_ ?_
  · simp only [fromSliceFn]
    have h1 : exec (inside cx false .self) (.letS "bits" (some (.arr n)) (.zeros n) true) ⟨[("slice", .arr sl)], false, s, []⟩ =
        .ok (.next ⟨[("bits", .arr (List.replicate n 0#8)), ("slice", .arr sl)], false, s, []⟩) := by
      run [coerce, List.length_replicate]
    have h2 : exec (inside cx false .self) (.letS "copy_len" none (copyLenTok n))
        ⟨[("bits", .arr (List.replicate n 0#8)), ("slice", .arr sl)], false, s, []⟩ =
        .ok (.next ⟨[("copy_len", .usize (if sl.length < n then sl.length else n)),
          ("bits", .arr (List.replicate n 0#8)), ("slice", .arr sl)], false, s, []⟩) := by
      rw [exec, eval_copyLen (sl := sl) (by run [])]; rfl
    simp only [Stmt.all]
    rw [exec_seq_next h1, exec_seq_next h2]
    exact ends_slice g hB hs (by split <;> omega) (by run []) (by run []) (by intro i a'; run [])
  · rintro s' env ⟨_, l', rfl⟩
    exact ⟨rfl, rfl⟩

theorem returns_checkedFromSlice {n : Nat} {e : Option Endian} {d : Bool} {sl : List (BitVec 8)} (g : Surround cx B)
    (hB : B.backing = .arr n) (hs : s.HasBacking B.backing) :
    Returns ((checkedFromSliceFn B n e d).run cx [.arr sl] s) (apiCheckedFromSlice cx.mode B (e.getD B.fromEndian) d sl)
      fun r v env => match r with
        | .ok s' => v = .ok (.self s') ∧ env.cell = s'
        | .error msg => v = .err msg := by
  by_cases hlen : sl.length < n
  · have c1 : apiCheckedFromSlice cx.mode B (e.getD B.fromEndian) d sl = .ok (.error errSliceFill) := by
      simp only [apiCheckedFromSlice, hB, if_pos hlen]
    rw [c1]
    refine ⟨.err errSliceFill, ⟨[("slice", .arr sl)], false, s, []⟩,
      run_ret (f := checkedFromSliceFn B n e d) (l := [("slice", .arr sl)]) (v := .err errSliceFill) rfl ?_ rfl, rfl⟩
    simp only [checkedFromSliceFn, Stmt.all]
    rw [exec_seq_ret (env' := ⟨[("slice", .arr sl)], false, s, []⟩) (v := .err errSliceFill)]
    rw [exec_sliceCheck (sl := sl) (by run []), if_pos hlen]
  · rw [apiCheckedFromSlice_eq _ _ _ _ hB hlen]
    refine returns_run (cx := cx) (f := checkedFromSliceFn B n e d) (l := [("slice", .arr sl)])
      (args := [.arr sl]) (m2 := fun s => (pure (.ok s) : R (Except String Store)))
      (Q1 := fun s' env => s'.HasBacking B.backing ∧ ∃ l', env = ⟨l', true, s', []⟩) rfl ?_ ?_
    · simp only [checkedFromSliceFn, Stmt.all]
      have h1 : exec (inside cx false (.result .self)) (.letS "bits" (some (.arr n)) (.zeros n) true) ⟨[("slice", .arr sl)], false, s, []⟩ =
          .ok (.next ⟨[("bits", .arr (List.replicate n 0#8)), ("slice", .arr sl)], false, s, []⟩) := by
        run [coerce, List.length_replicate]
      rw [exec_seq_next (env' := ⟨[("slice", .arr sl)], false, s, []⟩)
          (by rw [exec_sliceCheck (sl := sl) (by run []), if_neg hlen]), exec_seq_next h1]
      exact ends_slice g hB hs (Nat.le_refl n) (by run []) (by run []) (by intro i a'; run [])
    · rintro s' env ⟨_, l', rfl⟩
      exact ⟨.ok (.self s'), .ok (.self s'), ⟨l', true, s', []⟩, by simp only [checkedFromSliceFn]; run [Ctx.hasInner], rfl, rfl, rfl⟩

end

end Bf
