import Verif.Lemmas.CodeSlice
import Verif.Lemmas.BitOps

/-!
# Running generated functions: write, clear, invert, debug
-/

namespace Bf

open Rust Quote

set_option linter.unusedSimpArgs false

section
variable {cx : Ctx} {B : Bitfield} {s : Store}

theorem After.cell {l sh : List (String × V)} {th : Bool} {s' : Store} {env : Env} (h : After B l th sh s' env) :
    env.cell = s' := by
  obtain ⟨_, l', rfl, _⟩ := h; rfl

/-! ## Write and clear -/

theorem ends_writeConv {x : Store} {l sh : List (String × V)} {th : Bool} {e : Endian} (hf : 2 ^ 32 ≤ cx.fuel)
    (hok : B.backing.OK) (hx : x.HasBacking B.backing) (hl : look "bits" l = some (ofStore x)) :
    Ends (exec cx (writeConvTok B e) ⟨l, th, s, sh⟩) (writeConv B e x) (Holds B th s sh) := by
  cases hB : B.backing with
  | int w =>
    cases x with
    | arr bs => rw [hB] at hx; exact absurd hx id
    | int w' v =>
      cases e with
      | little =>
        have c1 : writeConv B .little (.int w' v) = .ok (.int w' (swapBytes v)) := by simp only [writeConv, hB]
        rw [c1]
        simp only [writeConvTok, hB]
        rw [hB] at hx
        exact ⟨_, exec_letSwap hl, by rw [hB]; exact hx, _, rfl, by run []⟩
      | big =>
        have c1 : writeConv B .big (.int w' v) = .ok (.int w' v) := by simp only [writeConv, hB]
        rw [c1]
        exact ends_skip ⟨hx, _, rfl, hl⟩
  | arr n =>
    cases x with
    | int w v => rw [hB] at hx; exact absurd hx id
    | arr bs =>
      cases e with
      | little =>
        simp only [writeConvTok, hB, Stmt.all, writeConv]
        have h1 : exec cx (.letS "bits" none (.var "bits") true) ⟨l, th, s, sh⟩ =
            .ok (.next ⟨("bits", .arr bs) :: l, th, s, sh⟩) := by run [hl]
        rw [exec_seq_next h1]
        rw [hB] at hx
        exact seq_skip_right (ends_xorLoop hf (by run []) (arr_lt hok hB) hB hx)
      | big =>
        have c1 : writeConv B .big (.arr bs) = .ok (.arr bs) := by simp only [writeConv, hB]
        rw [c1]
        exact ends_skip ⟨hx, _, rfl, hl⟩

theorem returns_write {x : Store} {e : Option Endian} {d : Bool} (g : Surround cx B) (hs : s.HasBacking B.backing)
    (hx : x.HasBacking B.backing) :
    Returns ((writeFn B e d).run cx [ofStore x] s) (do
        let bits ← writeConv B (e.getD B.writeEndian) x
        let s ← setAllFromSource cx.mode B .readOnly bits s
        if d then setDefaults cx.mode B s else return s) fun s' v env => v = .unit ∧ env.cell = s' := by
  have hf := g.fuel
  refine returns_unit (f := writeFn B e d) (Q := fun s' env => env.cell = s') (bindArgs_store hx) rfl rfl ?_
  simp only [writeFn, Stmt.all, exec_letThis]
  have h1 : exec (inside cx false .unit) (.letS "bits" none (.var (paramTok B))) ⟨[(paramTok B, ofStore x)], true, s, []⟩ =
      .ok (.next ⟨[("bits", ofStore x), (paramTok B, ofStore x)], true, s, []⟩) := by run []
  rw [exec_seq_next h1]
  refine ends_seq (ends_writeConv (cx := inside cx false .unit) (show 2 ^ 32 ≤ cx.fuel by omega) g.back hx (by run [])) ?_
  rintro x' env ⟨hx', l', rfl, hl⟩
  refine ends_seq (ends_setAll (cx := inside cx false .unit) g.bodyCtx g.fieldCtxs rfl hs hl hx') ?_
  rintro s' env ⟨hs', l', rfl, _⟩
  cases d
  · exact seq_skip_right (ends_skip rfl)
  · exact (seq_skip_right (ends_setDefaults (cx := inside cx false .unit) g.bodyCtx rfl hs')).weaken fun _ _ h => h.cell

theorem returns_writeDefaults (g : Surround cx B) (hs : s.HasBacking B.backing) :
    Returns ((writeDefaultsFn B).run cx [] s) (setDefaults cx.mode B s) fun s' v env => v = .unit ∧ env.cell = s' := by
  refine returns_unit (f := writeDefaultsFn B) (l := []) (Q := fun s' env => env.cell = s') rfl rfl rfl ?_
  simp only [writeDefaultsFn, Stmt.all, exec_letThis]
  exact (seq_skip_right (ends_setDefaults (cx := inside cx false .unit) g.bodyCtx rfl hs)).weaken fun _ _ h => h.cell

theorem returns_clear {d : Bool} (g : Surround cx B) (hs : s.HasBacking B.backing) :
    Returns ((clearFn B d).run cx [] s) (newBody cx.mode B d s) fun s' v env => v = .unit ∧ env.cell = s' := by
  refine returns_unit (f := clearFn B d) (l := []) (Q := fun s' env => env.cell = s') rfl rfl rfl ?_
  simp only [clearFn]
  rw [Stmt.all, exec_letThis, Stmt.all, Stmt.all]
  exact (seq_skip_right (ends_newBody (cx := inside cx false .unit) g.bodyCtx rfl hs)).weaken fun _ _ h => h.cell

/-! ## Invert -/

theorem protMaskBytes_length (fs : List Field) (n : Nat) : (protMaskBytes fs n).length = n := by
  rw [protMaskBytes_eq, length_bytesOf]

theorem exec_protInt {w : Nat} {p : Protection} {l sh : List (String × V)} {th : Bool} (hB : B.backing = .int w) :
    exec cx (protTok B p) ⟨l, th, s, sh⟩ = .ok (.next ⟨("protected_mask",
      bv ((protMask128 (protectedFields B p)).setWidth w)) :: l, th, s, sh⟩) := by
  simp only [protTok, hB]
  run [BitVec.ofNat_toNat, BitVec.setWidth_eq]

theorem exec_protArr {n : Nat} {p : Protection} {l sh : List (String × V)} {th : Bool} (hB : B.backing = .arr n) :
    exec cx (protTok B p) ⟨l, th, s, sh⟩ = .ok (.next ⟨("protected_mask",
      .arr (protMaskBytes (protectedFields B p) n)) :: l, th, s, sh⟩) := by
  simp only [protTok, hB]
  run [coerce, protMaskBytes_length]

theorem invertLoop_length {n : Nat} {prot bs bs' : List (BitVec 8)} (h : invertLoop n prot bs = .ok bs') :
    bs'.length = bs.length := by
  refine forUpTo_inv (P := fun b => b.length = bs.length) rfl ?_ h
  intro i s s' hs h
  cases h1 : getB s i with
  | error p => simp only [h1] at h; cases h
  | ok a1 =>
  cases h2 : getB prot i with
  | error p => simp only [h1, h2, ebind_ok] at h; cases h
  | ok a2 => simp only [h1, h2, ebind_ok] at h; rw [setB_length h, hs]

theorem exec_invertLoop {n : Nat} {prot bs : List (BitVec 8)} {l sh : List (String × V)} {th : Bool}
    (hl : look "bits" l = some (.arr bs)) (hp : look "protected_mask" l = some (.arr prot)) (hf : n < cx.fuel)
    (hn : n < 2 ^ 32) :
    exec cx (.seq (.letS "i" none (.lit 0 (some .usize)) true)
         (.seq (.loop (.bin .lt (.var "i") (.lit n (some .usize))) (.all
           [.assignElem "bits" (.var "i") none
              (.bin .or (.bin .and (.not (.index (.var "bits") (.var "i"))) (.not (.index (.var "protected_mask") (.var "i"))))
                (.bin .and (.index (.var "bits") (.var "i")) (.index (.var "protected_mask") (.var "i")))),
            incr "i"])) .skip)) ⟨l, th, s, sh⟩ =
      (liftE (invertLoop n prot bs)).map fun bs' => .next ⟨("i", .usize n) :: update "bits" (.arr bs') l, th, s, sh⟩ := by
  have h0 : exec cx (.letS "i" none (.lit 0 (some .usize)) true) ⟨l, th, s, sh⟩ =
      .ok (.next ⟨("i", .usize 0) :: update "bits" (.arr bs) l, th, s, sh⟩) := by
    run [update_self hl]
  rw [exec_seq_next h0]
  have hw := exec_loopM (cx := cx) (N := n) (s := bs) (c := .bin .lt (.var "i") (.lit n (some .usize)))
    (body := .all
           [.assignElem "bits" (.var "i") none
              (.bin .or (.bin .and (.not (.index (.var "bits") (.var "i"))) (.not (.index (.var "protected_mask") (.var "i"))))
                (.bin .and (.index (.var "bits") (.var "i")) (.index (.var "protected_mask") (.var "i")))),
            incr "i"])
    (fun i bs => ⟨("i", .usize i) :: update "bits" (.arr bs) l, th, s, sh⟩) (M := invertLoop n prot bs) rfl hf
    (by intro i bs; run [])
    (by
      intro i a hi
      have hb : look "bits" (update "bits" (.arr a) l) = some (.arr a) := look_update_same hl
      have hq : look "protected_mask" (update "bits" (.arr a) l) = some (.arr prot) := by
        rw [look_update_other (by decide), hp]
      cases h1 : getB a i with
      | error p =>
        have := getB_index h1
        subst this
        run [hb, hq, h1]
      | ok x =>
        cases h2 : getB prot i with
        | error p =>
          have := getB_index h2
          subst this
          run [hb, hq, h1, h2]
        | ok y =>
          cases h3 : setB a i ((~~~x &&& ~~~y) ||| (x &&& y)) with
          | error p => rw [setB] at h3; rw [getB] at h1; split at h3 <;> simp_all
          | ok a' => run [hb, hq, h1, h2, h3, update_update, add_usize cx.mode (show i + 1 < 2 ^ 64 by omega), update_length])
  cases hx : invertLoop n prot bs with
  | error p =>
    rw [hx] at hw
    simp only [liftE_err, emap_error] at hw ⊢
    exact exec_seq_error hw
  | ok bs' =>
    rw [hx] at hw
    simp only [liftE_ok, emap_ok] at hw ⊢
    rw [exec_seq_next hw]
    run []

theorem returns_invert (g : Surround cx B) (hs : s.HasBacking B.backing) :
    Returns ((invertFn B).run cx [] s) (apiInvert cx.mode B s) fun s' v env => v = .unit ∧ env.cell = s' := by
  have hf := g.fuel
  refine returns_unit (f := invertFn B) (l := []) (Q := fun s' env => env.cell = s') rfl rfl rfl ?_
  cases hB : B.backing with
  | int w =>
    cases s with
    | arr bs => rw [hB] at hs; exact absurd hs id
    | int w' v =>
      obtain rfl : w' = w := by rw [hB] at hs; exact hs
      simp only [invertFn, hB, Stmt.all, exec_letThis, apiInvert]
      have h1 : exec (inside cx false .unit) (.letS "bits" none (.inner false)) ⟨[], true, .int w' v, []⟩ =
          .ok (.next ⟨[("bits", bv v)], true, .int w' v, []⟩) := by run [Ctx.hasInner]
      rw [exec_seq_next h1, exec_seq_next (exec_protInt hB)]
      generalize (protMask128 (protectedFields B .readOnly)).setWidth w' = p
      have h2 : exec (inside cx false .unit) (.letS "bits" none (.bin .or (.bin .and (.not (.var "bits")) (.not (.var "protected_mask")))
            (.bin .and (.var "bits") (.var "protected_mask"))))
          ⟨[("protected_mask", bv p), ("bits", bv v)], true, .int w' v, []⟩ =
          .ok (.next ⟨[("bits", bv ((~~~v &&& ~~~p) ||| (v &&& p))), ("protected_mask", bv p), ("bits", bv v)], true, .int w' v, []⟩) := by
        run []
      rw [exec_seq_next h2]
      refine (seq_skip_right (ends_setAll (cx := inside cx false .unit) (src := .int w' ((~~~v &&& ~~~p) ||| (v &&& p)))
        g.bodyCtx g.fieldCtxs rfl hs (by run []) (by rw [hB]; rfl))).weaken fun _ _ h => h.cell
  | arr n =>
    have hn := arr_lt g.back hB
    cases s with
    | int w v => rw [hB] at hs; exact absurd hs id
    | arr bs =>
      have hlen : bs.length = n := by rw [hB] at hs; exact hs
      simp only [invertFn, hB]
      rw [Stmt.all, exec_letThis, Stmt.all, Stmt.all]
      have h1 : exec (inside cx false .unit) (.letS "bits" none (innerArrTok B) true) ⟨[], true, .arr bs, []⟩ =
          .ok (.next ⟨[("bits", .arr bs)], true, .arr bs, []⟩) := by
        run [eval_innerArr (cx := inside cx false .unit) g.box]
      rw [exec_seq_next h1, exec_seq_next (exec_protArr hB)]
      simp only [apiInvert, hB]
      generalize protMaskBytes (protectedFields B .readOnly) n = p
      have h2 := exec_invertLoop (cx := inside cx false .unit) (prot := p) (bs := bs) (s := .arr bs)
        (l := [("protected_mask", .arr p), ("bits", .arr bs)]) (sh := []) (th := true) (by run []) (by run [])
        (show n < cx.fuel by omega) hn
      rw [Stmt.all, Stmt.all]
      have assoc : ∀ (a b c : Stmt) (env : Env), exec (inside cx false .unit) (.seq a (.seq b c)) env =
          exec (inside cx false .unit) (.seq (.seq a (.seq b .skip)) c) env := by
        intro a b c env
        simp only [exec.eq_2, exec.eq_1]
        cases exec (inside cx false .unit) a env with
        | error e => rfl
        | ok r =>
          cases r with
          | ret v e => rfl
          | next e =>
            simp only [ebind_ok]
            cases exec (inside cx false .unit) b e with
            | error e => rfl
            | ok r => cases r <;> rfl
      rw [assoc]
      refine ends_seq (Q1 := fun a env => a.length = n ∧ ∃ l', env = ⟨l', true, .arr bs, []⟩ ∧ look "bits" l' = some (.arr a)) ?_ ?_
      · cases hx : invertLoop n p bs with
        | error q => rw [hx] at h2; simp only [liftE_err, emap_error] at h2; exact h2
        | ok bs' =>
          rw [hx] at h2
          exact ⟨_, h2, (invertLoop_length hx).trans hlen, _, rfl, by run []⟩
      · rintro a env ⟨ha, l', rfl, hl'⟩
        rw [Stmt.all, Stmt.all]
        exact (seq_skip_right (ends_setAll (cx := inside cx false .unit) (src := .arr a)
          g.bodyCtx g.fieldCtxs rfl hs hl' (by rw [hB]; exact ha))).weaken fun _ _ h => h.cell

/-! ## Debug -/

theorem seenVal_valued {b : Backing} {f : Field} {v : Val} {V : V} (h : Valued b f v V) : seenVal V = some v := by
  cases v with
  | int n =>
    have h := h.1
    cases V <;> simp only [V.num, reduceCtorEq, Option.some.injEq] at h <;> simp only [seenVal, h]
  | arr a => rw [h.1]; rfl
  | bool x => exact absurd h id
  | custom x => exact absurd h id

theorem ends_debug {t : Ty} (g : Base cx B) (hs : s.HasBacking B.backing) : ∀ (fs : List Field), (∀ f ∈ fs, f ∈ B.fields) →
    ∀ (l sh : List (String × V)),
    Ends (exec (inside cx false t) (.all (fs.map fun f =>
        .seq (extractTok B f .bitfield false false false) (.debugField f.name (.var "value")))) ⟨l, true, s, sh⟩)
      (fs.mapM fun f => do
        let v ← extract cx.mode f false s
        return (f.name, v)) fun r env => ∃ l' sh', env = ⟨l', true, s, sh ++ sh'⟩ ∧
          (sh'.mapM fun x => (seenVal x.2).map fun v => (x.1, v)) = some r := by
  intro fs
  induction fs with
  | nil => intro _ l sh; exact ends_skip ⟨l, [], by rw [List.append_nil], rfl⟩
  | cons f fs ih =>
    intro hfs l sh
    rw [List.map_cons, Stmt.all, List.mapM_cons, bind_assoc]
    have hx := exec_extractTok (cx := inside cx false t) (B := B) (f := f) (src := .bitfield) (builder := false) (st := s)
      (l := l) (th := true) (c := s) (sh := sh) (inv := false) (g.fieldCtx (hfs f (by simp))) ⟨rfl, rfl⟩ hs
    refine ends_seq (Q1 := fun v env => ∃ l' V, env = ⟨l', true, s, sh ++ [(f.name, V)]⟩ ∧ seenVal V = some v) ?_ ?_
    · change Ends _ (extract cx.mode f false s) _ at hx
      cases he : extract cx.mode f false s with
      | error p => rw [he] at hx; exact exec_seq_error hx
      | ok v =>
        rw [he] at hx
        obtain ⟨env, h1, l', V, rfl, _, hv, _⟩ := hx
        refine ⟨⟨("value", V) :: l', true, s, sh ++ [(f.name, V)]⟩, ?_, _, V, rfl, seenVal_valued hv⟩
        rw [exec_seq_next h1]
        run []
    · rintro v env ⟨l', V, rfl, hv⟩
      rw [pure_bind]
      have h2 := ih (fun f hf => hfs f (by simp [hf])) l' (sh ++ [(f.name, V)])
      generalize (fs.mapM fun f => (do
        let v ← extract cx.mode f false s
        return (f.name, v) : R (String × Val))) = m at h2 ⊢
      cases m with
      | error p => exact h2
      | ok r =>
        obtain ⟨env, h1, l'', sh'', rfl, h3⟩ := h2
        refine ⟨_, h1, l'', (f.name, V) :: sh'', by rw [List.append_assoc]; rfl, ?_⟩
        rw [List.mapM_cons, h3]
        simp only [hv]
        rfl

theorem returns_debug (g : Base cx B) (hs : s.HasBacking B.backing) :
    Returns ((debugFn B).run cx [] s) (apiDebug cx.mode B s) fun r v env => v = .unit ∧ env.cell = s ∧
      (env.shown.mapM fun x => (seenVal x.2).map fun v => (x.1, v)) = some r := by
  refine returns_unit (f := debugFn B) (l := []) (Q := fun r env => env.cell = s ∧
      (env.shown.mapM fun x => (seenVal x.2).map fun v => (x.1, v)) = some r) rfl rfl rfl ?_
  simp only [debugFn, exec_letThis]
  refine (ends_debug g hs B.fields (fun _ h => h) [] []).weaken ?_
  rintro r env ⟨l', sh', rfl, h⟩
  exact ⟨rfl, h⟩

end

end Bf
