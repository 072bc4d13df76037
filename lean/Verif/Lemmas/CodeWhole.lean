import Verif.Lemmas.CodeConv
import Verif.Lemmas.Endian

/-!
# Running generated functions: construction, conversion, write, clear, invert, debug
-/

namespace Bf

open Rust Quote

set_option linter.unusedSimpArgs false

section
variable {cx : Ctx} {B : Bitfield} {s : Store}

/-- A function that ends with the bitfield. -/
theorem returns_self {cx : Ctx} {f : Fn} {args : List V} {cell : Store} {l : List (String × V)} {b : Bool}
    {m : R Store} {Q : Store → Env → Prop} (hl : bindArgs f.params args = .ok l) (ht : f.tail = .whole b)
    (hr : f.ret = .self) (h1 : Ends (exec (inside cx f.builder f.ret) f.body ⟨l, false, cell, []⟩) m Q)
    (hq : ∀ s env, Q s env → (if b = true then f.builder else env.this) = true ∧ env.cell = s) :
    Returns (f.run cx args cell) m fun s' v env => v = .self s' ∧ env.cell = s' := by
  have := returns_run (m2 := fun a => .ok a) (Q2 := fun s' v env => v = .self s' ∧ env.cell = s') hl h1 (by
    intro a env hq'
    obtain ⟨h2, rfl⟩ := hq a env hq'
    rw [ht, hr]
    exact ⟨.self env.cell, .self env.cell, env, by run [Ctx.hasInner, h2], rfl, rfl, rfl⟩)
  cases m with
  | error p => exact this
  | ok x => exact this

theorem Surround.fieldCtxs {t : Ty} (g : Surround cx B) :
    ∀ f ∈ B.fields, FieldCtx (inside cx false t) B.backing f false := fun _ hf => g.fieldCtx hf

theorem initStore_backing (B : Bitfield) : (initStore B).HasBacking B.backing := by
  simp only [initStore]
  cases B.backing with
  | int w => rfl
  | arr n => exact List.length_replicate

/-! ## Construction -/

theorem newTok_eq (B : Bitfield) (d b ex : Bool) : newTok B d b ex =
    .seq (if ex then .skip else initTok B b (thisMut B d)) (.seq (setZerosTok B d)
      (.seq (if d then setDefaultsTok B else .skip) (.seq (if d then .skip
       else .all ((B.fields.filter fun f => f.reserved && f.hasDefault).map (setDefaultTok B))) .skip))) := rfl

theorem ends_newTok {l sh : List (String × V)} {th d b : Bool} (g : BodyCtx cx B) (hb : (b || !cx.builder) = true)
    (hs : s.HasBacking B.backing) :
    Ends (exec cx (newTok B d b false) ⟨l, th, s, sh⟩) (newBody cx.mode B d (initStore B)) (After B l true sh) := by
  have h := ends_newBody (d := d) (l := l) (sh := sh) g rfl (initStore_backing B)
  rw [newTok_eq] at h ⊢
  simp only [if_true, Bool.false_eq_true, if_false] at h ⊢
  rw [seq_skip_left] at h
  rwa [exec_seq_next (exec_init g.box hb hs)]

theorem returns_new {d : Bool} (g : Surround cx B) (hs : s.HasBacking B.backing) :
    Returns ((newFn B d).run cx [] s) (newBody cx.mode B d (initStore B)) fun s' v env =>
      v = .self s' ∧ env.cell = s' := by
  refine returns_self (l := []) (b := false) rfl rfl rfl (ends_newTok g.bodyCtx rfl hs) ?_
  rintro s' env ⟨_, l', rfl, _⟩
  exact ⟨rfl, rfl⟩

/-- `default()` when `new` is not generated. -/
theorem returns_default {G : Gen} (hn : G.new = false) (g : Surround cx G.B) (hs : s.HasBacking G.B.backing) :
    Returns ((defaultFn G).run cx [] s) (setDefaults cx.mode G.B (initStore G.B)) fun s' v env =>
      v = .self s' ∧ env.cell = s' := by
  refine returns_self (l := []) (b := false) (Q := After G.B [] true []) rfl (by simp only [defaultFn, hn, Bool.false_eq_true, if_false]) rfl ?_ ?_
  · simp only [defaultFn, hn, Bool.false_eq_true, if_false, Stmt.all]
    rw [exec_seq_next (exec_init (cx := inside cx false .self) g.box rfl hs)]
    exact seq_skip_right (ends_setDefaults g.bodyCtx rfl (initStore_backing _))
  · rintro s' env ⟨_, l', rfl, _⟩
    exact ⟨rfl, rfl⟩

/-- A function that calls an associated function. -/
theorem returns_assoc {f : Fn} {m : R Store} {byName : Bool} {t : Tag} {run : E V} (hp : f.params = [])
    (hb : f.body = .skip) (ht : f.tail = .assoc byName t) (hr : f.ret = .self)
    (hres : (inside cx f.builder f.ret).resolves byName t = true) (hm : cx.assoc t = some run)
    (hrun : run = (liftE m).map fun s' => .self s') :
    Returns (f.run cx [] s) m fun s' v env => v = .self s' := by
  have h1 : Ends (exec (inside cx f.builder f.ret) f.body ⟨[], false, s, []⟩) (.ok ()) fun _ _ => True := by
    rw [hb]; exact ends_skip trivial
  exact returns_run (cx := cx) (f := f) (args := []) (m2 := fun _ => m) (Q2 := fun s' v env => v = .self s')
    (by rw [hp]; rfl) h1 (by
      rintro _ env -
      rw [ht, hr]
      subst hrun
      cases m with
      | error p => simp only [Tail]; rw [eval]; rw [hr] at hres; simp only [hres, hm, if_true, liftE_err, emap_error, ebind_error]
      | ok x =>
        refine ⟨.self x, .self x, env, ?_, rfl, rfl⟩
        rw [eval]; rw [hr] at hres; simp only [hres, hm, if_true, liftE_ok, emap_ok, ebind_ok, epure])

/-! ## Conversions from the backing type -/

theorem eval_swapBytes {e : Expr} {exp : Option Ty} {env env' : Env} {w : Nat} {x : BitVec w}
    (h : eval cx e exp env = .ok (bv x, env')) : eval cx (.swapBytes e) exp env = .ok (bv (swapBytes x), env') := by
  rw [eval, h]
  simp only [ebind_ok, bv, BitVec.ofNat_toNat, BitVec.setWidth_eq, epure]

theorem exec_letSwap {l sh : List (String × V)} {th : Bool} {w : Nat} {v : BitVec w}
    (hl : look "bits" l = some (bv v)) :
    exec cx (.letS "bits" none (.swapBytes (.var "bits"))) ⟨l, th, s, sh⟩ =
      .ok (.next ⟨("bits", bv (swapBytes v)) :: l, th, s, sh⟩) := by
  rw [exec, eval_swapBytes (x := v) (env' := ⟨l, th, s, sh⟩) (by run [hl])]
  rfl

/-- The variable `bits` holds the converted argument. -/
def Holds (B : Bitfield) (th : Bool) (c : Store) (sh : List (String × V)) (x : Store) (env : Env) : Prop :=
  x.HasBacking B.backing ∧ ∃ l', env = ⟨l', th, c, sh⟩ ∧ look "bits" l' = some (ofStore x)

theorem xorReverse_length {n : Nat} {bs bs' : List (BitVec 8)} (h : xorReverse n bs = .ok bs') :
    bs'.length = bs.length := by
  refine forUpTo_inv (P := fun b => b.length = bs.length) rfl ?_ h
  intro i s s' hs h
  cases h1 : getB s i with
  | error p => simp only [h1] at h; cases h
  | ok a1 =>
  cases h2 : getB s (n - 1 - i) with
  | error p => simp only [h1, h2] at h; cases h
  | ok a2 =>
  cases h3 : setB s i (a1 ^^^ a2) with
  | error p => simp only [h1, h2, h3, ebind_ok] at h; cases h
  | ok s1 =>
  cases h4 : getB s1 i with
  | error p => simp only [h1, h2, h3, h4, ebind_ok] at h; cases h
  | ok a3 =>
  cases h5 : getB s1 (n - 1 - i) with
  | error p => simp only [h1, h2, h3, h4, h5, ebind_ok] at h; cases h
  | ok a4 =>
  cases h6 : setB s1 (n - 1 - i) (a4 ^^^ a3) with
  | error p => simp only [h1, h2, h3, h4, h5, h6, ebind_ok] at h; cases h
  | ok s2 =>
  cases h7 : getB s2 i with
  | error p => simp only [h1, h2, h3, h4, h5, h6, h7, ebind_ok] at h; cases h
  | ok a5 =>
  cases h8 : getB s2 (n - 1 - i) with
  | error p => simp only [h1, h2, h3, h4, h5, h6, h7, h8, ebind_ok] at h; cases h
  | ok a6 =>
    simp only [h1, h2, h3, h4, h5, h6, h7, h8, ebind_ok] at h
    rw [setB_length h, setB_length h6, setB_length h3, hs]

/-- Reversing the variable `bits`. -/
theorem ends_xorLoop {l sh : List (String × V)} {th suffix : Bool} {n : Nat} {bs : List (BitVec 8)} (hf : 2 ^ 32 ≤ cx.fuel)
    (hb : look "bits" l = some (.arr bs)) (hn : n < 2 ^ 32) (hB : B.backing = .arr n) (hlen : bs.length = n) :
    Ends (exec cx (xorLoopTok n suffix) ⟨l, th, s, sh⟩) (do return .arr (← xorReverse n bs)) (Holds B th s sh) := by
  have h := exec_xorLoop (cx := cx) (suffix := suffix) (c := s) (sh := sh) (th := th) hb (by omega) hn
  cases hx : xorReverse n bs with
  | error p => rw [hx] at h; simp only [liftE_err, emap_error] at h; exact h
  | ok bs' =>
    rw [hx] at h
    refine ⟨_, h, ?_, _, rfl, ?_⟩
    · rw [hB]; exact (xorReverse_length hx).trans hlen
    · run []
      exact look_update_same hb

theorem arr_lt {n : Nat} {b : Backing} (h : b.OK) (hB : b = .arr n) : n < 2 ^ 32 := by
  subst hB
  have := size_lt h
  simp only [Backing.size] at this
  omega

theorem ends_fromConv {x : Store} {sh : List (String × V)} {th : Bool} {e : Option Endian} (hf : 2 ^ 32 ≤ cx.fuel)
    (hok : B.backing.OK) (hx : x.HasBacking B.backing) :
    Ends (exec cx (fromConvTok B e) ⟨[(paramTok B, ofStore x)], th, s, sh⟩) (fromConv B (e.getD B.fromEndian) x)
      (Holds B th s sh) := by
  cases hB : B.backing with
  | int w =>
    rw [hB] at hx
    cases x with
    | arr bs => exact absurd hx id
    | int w' v =>
      have hold : ∀ v' : BitVec w', Holds B th s sh (.int w' v') ⟨[("bits", bv v'), ("bits", bv v)], th, s, sh⟩ :=
        fun v' => ⟨by rw [hB]; exact hx, _, rfl, by run []⟩
      have hold2 : ∀ v' v'' : BitVec w', Holds B th s sh (.int w' v')
          ⟨[("bits", bv v'), ("bits", bv v''), ("bits", bv v)], th, s, sh⟩ :=
        fun v' v'' => ⟨by rw [hB]; exact hx, _, rfl, by run []⟩
      have c1 : fromConv B .little (.int w' v) = .ok (.int w' (swapBytes v)) := by simp only [fromConv, hB]
      have c2 : fromConv B .big (.int w' v) = .ok (.int w' v) := by simp only [fromConv, hB]
      simp only [fromConvTok, hB, paramTok]
      match e with
      | none =>
        simp only [Option.getD_none]
        cases B.fromEndian with
        | little =>
          rw [c1]
          refine ⟨_, ?_, hold2 (swapBytes v) v⟩
          simp only [intEndianTok, Stmt.all]
          have h1 : exec cx (.letS "bits" none (.var "bits")) ⟨[("bits", ofStore (.int w' v))], th, s, sh⟩ =
            .ok (.next ⟨[("bits", bv v), ("bits", bv v)], th, s, sh⟩) := by run []
          rw [exec_seq_next h1, exec_seq_next (exec_letSwap (v := v) (by run []))]
          run []
        | big =>
          rw [c2]
          refine ⟨_, ?_, hold v⟩
          simp only [intEndianTok]
          run []
      | some .little =>
        rw [Option.getD_some, c1]
        refine ⟨_, ?_, hold (swapBytes v)⟩
        exact exec_letSwap (v := v) (by run [])
      | some .big =>
        rw [Option.getD_some, c2]
        refine ⟨_, ?_, hold v⟩
        run []
  | arr n =>
    rw [hB] at hx
    cases x with
    | int w v => exact absurd hx id
    | arr bs =>
      have hn : n < 2 ^ 32 := arr_lt hok hB
      simp only [fromConvTok, hB, paramTok]
      cases e.getD B.fromEndian with
      | little =>
        have c1 : fromConv B .little (.arr bs) = .ok (.arr bs) := by simp only [fromConv, hB]
        rw [c1]
        refine ⟨_, ?_, by rw [hB]; exact hx, [("bits", .arr bs), ("bytes", .arr bs)], rfl, by run []⟩
        run []
      | big =>
        simp only [Stmt.all]
        have h1 : exec cx (.letS "bits" none (.var "bytes") true) ⟨[("bytes", ofStore (.arr bs))], th, s, sh⟩ =
            .ok (.next ⟨[("bits", .arr bs), ("bytes", .arr bs)], th, s, sh⟩) := by run []
        rw [exec_seq_next h1]
        simp only [fromConv, hB]
        exact seq_skip_right (ends_xorLoop hf (by run []) hn hB hx)

/-- The end of the functions that make a bitfield from data. -/
theorem ends_fill {x : Store} {l sh : List (String × V)} {th d : Bool} (g : BodyCtx cx B)
    (gc : ∀ f ∈ B.fields, FieldCtx cx B.backing f false) (hb : cx.builder = false) (hs : s.HasBacking B.backing)
    (hx : x.HasBacking B.backing) (hl : look "bits" l = some (ofStore x)) :
    Ends (exec cx (.seq (initTok B false) (.seq (setAllTok B .none) (.seq (if d then setDefaultsTok B else .skip) .skip)))
        ⟨l, th, s, sh⟩)
      (do
        let s ← setAllFromSource cx.mode B .none x (initStore B)
        if d then setDefaults cx.mode B s else return s) fun s' env =>
      s'.HasBacking B.backing ∧ ∃ l', env = ⟨l', true, s', sh⟩ := by
  rw [exec_seq_next (exec_init g.box (by rw [hb]; rfl) hs)]
  refine ends_seq (ends_setAll g gc rfl (initStore_backing B) hl hx) ?_
  rintro s' env ⟨hs', l', rfl, _⟩
  cases d
  · exact seq_skip_right (ends_skip ⟨hs', l', rfl⟩)
  · refine (seq_skip_right (ends_setDefaults g rfl hs')).weaken ?_
    rintro s' env ⟨hs', l', rfl, _⟩
    exact ⟨hs', l', rfl⟩

theorem bindArgs_store {x : Store} (hx : x.HasBacking B.backing) :
    bindArgs [(paramTok B, backTy B.backing)] [ofStore x] = .ok [(paramTok B, ofStore x)] := by
  have : coerce (ofStore x) (backTy B.backing) = .ok (ofStore x) := by
    cases hB : B.backing with
    | int w =>
      rw [hB] at hx
      cases x with
      | arr bs => exact absurd hx id
      | int w' v => obtain rfl : w' = w := hx; exact coerce_bv v
    | arr n =>
      rw [hB] at hx
      cases x with
      | int w v => exact absurd hx id
      | arr bs =>
        have hx : bs.length = n := hx
        simp [coerce, ofStore, backTy, hx]
  simp only [bindArgs, this, ebind_ok, epure]

theorem returns_from {x : Store} {e : Option Endian} {d : Bool} (g : Surround cx B) (hs : s.HasBacking B.backing)
    (hx : x.HasBacking B.backing) :
    Returns ((fromFn B e d).run cx [ofStore x] s) (do
        let bits ← fromConv B (e.getD B.fromEndian) x
        let s ← setAllFromSource cx.mode B .none bits (initStore B)
        if d then setDefaults cx.mode B s else return s) fun s' v env =>
      v = .self s' ∧ env.cell = s' := by
  have hf := g.fuel
  refine returns_self (b := false) (Q := fun s' env => s'.HasBacking B.backing ∧ ∃ l', env = ⟨l', true, s', []⟩)
    (bindArgs_store hx) rfl rfl ?_ ?_
  · simp only [fromFn, Stmt.all]
    refine ends_seq (ends_fromConv (show 2 ^ 32 ≤ cx.fuel by omega) g.back hx) ?_
    rintro x' env ⟨hx', l', rfl, hl⟩
    exact ends_fill (cx := inside cx false .self) g.bodyCtx g.fieldCtxs rfl hs hx' hl
  · rintro s' env ⟨_, l', rfl⟩
    exact ⟨rfl, rfl⟩

/-! ## Conversions to the backing type -/

theorem coerce_store {x : Store} (hx : x.HasBacking B.backing) :
    coerce (ofStore x) (backTy B.backing) = .ok (ofStore x) := by
  have h := bindArgs_store (B := B) hx
  simp only [bindArgs] at h
  cases hc : coerce (ofStore x) (backTy B.backing) with
  | error p => rw [hc] at h; cases h
  | ok v => rw [hc] at h; cases h; rfl

theorem returns_into {e : Option Endian} (g : Base cx B) (hs : s.HasBacking B.backing) :
    Returns ((intoFn B e).run cx [] s) (intoConv B (e.getD B.intoEndian) s) fun x v env =>
      v = ofStore x ∧ env.cell = s := by
  have hf := g.fuel
  have tail : ∀ (t : Ty) (x : Store) (env : Env), t = backTy B.backing → Holds B true s [] x env →
      Tail (eval (inside cx false t) (.var "bits") (some t) env) t (.ok x) fun x v env =>
        v = ofStore x ∧ env.cell = s := by
    rintro t x env rfl ⟨hx, l', rfl, hl⟩
    exact ⟨ofStore x, ofStore x, ⟨l', true, s, []⟩, by run [hl], coerce_store hx, rfl, rfl⟩
  have fin : ∀ {m : R Store},
      Ends (exec (inside cx false (backTy B.backing)) (intoFn B e).body ⟨[], false, s, []⟩) m (Holds B true s []) →
      (intoFn B e).tail = .var "bits" →
      Returns ((intoFn B e).run cx [] s) m fun x v env => v = ofStore x ∧ env.cell = s := by
    intro m h ht
    have := returns_run (cx := cx) (f := intoFn B e) (args := []) (m2 := fun x => .ok x)
      (Q2 := fun x v env => v = ofStore x ∧ env.cell = s) rfl h (by
        intro x env hq
        rw [ht]
        exact tail _ x env rfl hq)
    cases m with
    | error p => exact this
    | ok x => exact this
  cases hB : B.backing with
  | int w =>
    cases s with
    | arr bs => rw [hB] at hs; exact absurd hs id
    | int w' v =>
      refine fin ?_ (by simp only [intoFn, hB])
      simp only [intoFn, hB, Stmt.all, exec_letThis]
      have h1 : exec (inside cx false (backTy (.int w))) (.letS "bits" none (.inner false))
          ⟨[], true, .int w' v, []⟩ = .ok (.next ⟨[("bits", bv v)], true, .int w' v, []⟩) := by
        run [Ctx.hasInner]
      rw [exec_seq_next h1]
      cases e.getD B.intoEndian with
      | little =>
        have c1 : intoConv B .little (.int w' v) = .ok (.int w' (swapBytes v)) := by simp only [intoConv, hB]
        rw [c1]
        simp only [intEndianTok]
        rw [exec_seq_next (exec_letSwap (v := v) (by run []))]
        exact ends_skip ⟨show Store.HasBacking (.int w' _) B.backing from hB ▸ (hB ▸ hs : Store.HasBacking (.int w' v) (.int w)), _, rfl, by run []⟩
      | big =>
        have c1 : intoConv B .big (.int w' v) = .ok (.int w' v) := by simp only [intoConv, hB]
        rw [c1]
        simp only [intEndianTok]
        exact seq_skip_right (ends_skip ⟨hs, _, rfl, by run []⟩)
  | arr n =>
    cases s with
    | int w v => rw [hB] at hs; exact absurd hs id
    | arr bs =>
      have hn : n < 2 ^ 32 := arr_lt g.back hB
      cases he : e.getD B.intoEndian with
      | little =>
        have c1 : intoConv B .little (.arr bs) = .ok (.arr bs) := by simp only [intoConv, hB]
        rw [c1]
        refine returns_run (cx := cx) (f := intoFn B e) (args := []) (m1 := .ok (Store.arr bs)) (m2 := fun x => .ok x)
          (Q1 := fun x env => x = Store.arr bs ∧ env = ⟨[], true, .arr bs, []⟩) rfl ?_ ?_
        · simp only [intoFn, hB, he]
          exact ⟨_, by run [], rfl, rfl⟩
        · rintro x env ⟨rfl, rfl⟩
          have hc := coerce_store hs
          simp only [intoFn, hB, he]
          rw [hB] at hc
          exact ⟨.arr bs, .arr bs, ⟨[], true, .arr bs, []⟩, eval_innerArr (cx := inside cx false (backTy (.arr n))) g.box, hc, rfl, rfl⟩
      | big =>
        refine fin ?_ (by simp only [intoFn, hB, he])
        simp only [intoFn, hB, he, Stmt.all, exec_letThis]
        have h1 : exec (inside cx false (backTy (.arr n))) (.letS "bits" none (innerArrTok B) true)
            ⟨[], true, .arr bs, []⟩ = .ok (.next ⟨[("bits", .arr bs)], true, .arr bs, []⟩) := by
          run [eval_innerArr (cx := inside cx false (backTy (.arr n))) g.box]
        rw [exec_seq_next h1]
        simp only [intoConv, hB]
        rw [hB] at hs
        exact seq_skip_right (ends_xorLoop (show 2 ^ 32 ≤ cx.fuel by omega) (by run []) hn hB hs)

/-! ## The `From` implementations -/

theorem eval_traitConv {l sh : List (String × V)} {th : Bool} {x : Store} {source : Expr} {exp : Option Ty} {e : Endian}
    (hf : 2 ^ 32 ≤ cx.fuel) (hok : B.backing.OK) (hx : x.HasBacking B.backing)
    (hsrc : ∀ exp, eval cx source exp ⟨l, th, s, sh⟩ = .ok (ofStore x, ⟨l, th, s, sh⟩)) :
    eval cx (traitConvTok B source e) exp ⟨l, th, s, sh⟩ =
      (liftE (traitConv B e x)).map fun x' => (ofStore x', ⟨l, th, s, sh⟩) := by
  cases hB : B.backing with
  | int w =>
    rw [hB] at hx
    cases x with
    | arr bs => exact absurd hx id
    | int w' v =>
      cases e with
      | little =>
        simp only [traitConvTok, traitConv, hB]
        exact eval_swapBytes (hsrc exp)
      | big =>
        simp only [traitConvTok, traitConv, hB]
        exact hsrc exp
  | arr n =>
    have hn := arr_lt hok hB
    rw [hB] at hx
    cases x with
    | int w v => exact absurd hx id
    | arr bs =>
      have hx : bs.length = n := hx
      cases e with
      | little =>
        simp only [traitConvTok, traitConv, hB]
        exact hsrc exp
      | big =>
        simp only [traitConvTok, traitConv, hB]
        rw [eval_tempReverse hf (by omega) (hsrc none)]
        cases tempReverse bs with
        | error p => simp only [liftE_err, emap_error, ebind_error]
        | ok bs' => rfl

theorem traitConv_backing {e : Endian} {x x' : Store} (hx : x.HasBacking B.backing) (h : traitConv B e x = .ok x') :
    x'.HasBacking B.backing := by
  cases hB : B.backing with
  | int w =>
    rw [hB] at hx
    cases x with
    | arr bs => exact absurd hx id
    | int w' v => cases e <;> (simp only [traitConv, hB] at h; cases h; exact hx)
  | arr n =>
    rw [hB] at hx
    cases x with
    | int w v => exact absurd hx id
    | arr bs =>
      cases e with
      | little => simp only [traitConv, hB] at h; cases h; exact hx
      | big =>
        simp only [traitConv, hB, tempReverse_eq] at h; cases h
        exact List.length_reverse.trans hx

theorem returns_traitFrom {x : Store} (g : Surround cx B) (hs : s.HasBacking B.backing) (hx : x.HasBacking B.backing) :
    Returns ((traitFromFn B).run cx [ofStore x] s) (apiTraitFrom cx.mode B x) fun s' v env =>
      v = .self s' ∧ env.cell = s' := by
  have hf := g.fuel
  refine returns_self (b := false) (Q := After B [("bits", .unit)] true [] |> fun _ => fun s' env => ∃ l', env = ⟨l', true, s', []⟩)
    (bindArgs_store hx) rfl rfl ?_ ?_
  · simp only [traitFromFn, Stmt.all]
    rw [exec_seq_next (exec_init (cx := inside cx false .self) g.box rfl hs)]
    have h1 := eval_traitConv (cx := inside cx false .self) (s := initStore B) (l := [(paramTok B, ofStore x)]) (sh := [])
      (th := true) (source := .var (paramTok B)) (exp := none) (e := B.fromEndian) (show 2 ^ 32 ≤ cx.fuel by omega)
      g.back hx (by intro exp; run [])
    simp only [apiTraitFrom]
    cases hc : traitConv B B.fromEndian x with
    | error p =>
      rw [hc] at h1
      simp only [liftE_err, emap_error] at h1
      have h2 : exec (inside cx false .self) (.letS "bits" none (traitConvTok B (.var (paramTok B)) B.fromEndian))
          ⟨[(paramTok B, ofStore x)], true, initStore B, []⟩ = .error (stopOf p) := by
        rw [exec, h1]; rfl
      exact exec_seq_error h2
    | ok x' =>
      rw [hc] at h1
      rw [ebind_ok]
      have h2 : exec (inside cx false .self) (.letS "bits" none (traitConvTok B (.var (paramTok B)) B.fromEndian))
          ⟨[(paramTok B, ofStore x)], true, initStore B, []⟩ =
          .ok (.next ⟨[("bits", ofStore x'), (paramTok B, ofStore x)], true, initStore B, []⟩) := by
        rw [exec, h1]; rfl
      rw [exec_seq_next h2]
      refine (seq_skip_right (ends_setAll (cx := inside cx false .self) g.bodyCtx g.fieldCtxs rfl (initStore_backing B)
        (by run []) (traitConv_backing hx hc))).weaken ?_
      rintro s' env ⟨_, l', rfl, _⟩
      exact ⟨l', rfl⟩
  · rintro s' env ⟨l', rfl⟩
    exact ⟨rfl, rfl⟩

theorem returns_traitInto (g : Base cx B) (hs : s.HasBacking B.backing) :
    Returns ((traitIntoFn B).run cx [.self s] s) (apiTraitInto B s) fun x v env => v = ofStore x ∧ env.cell = s := by
  have hf := g.fuel
  have h1 := eval_traitConv (cx := inside cx false (backTy B.backing)) (s := s) (l := [("val", .self s)]) (sh := [])
      (th := true) (source := match B.backing with | .int _ => .inner false | .arr _ => innerArrTok B)
      (exp := some (backTy B.backing)) (e := B.intoEndian)
      (show 2 ^ 32 ≤ cx.fuel by omega) g.back hs (by
        intro exp
        cases hB : B.backing with
        | int w =>
          rw [hB] at hs
          cases s with
          | arr bs => exact absurd hs id
          | int w' v => run [Ctx.hasInner]
        | arr n =>
          rw [hB] at hs
          cases s with
          | int w' v => exact absurd hs id
          | arr bs => exact eval_innerArr (cx := inside cx false (backTy (.arr n))) g.box)
  have hb : bindArgs (traitIntoFn B).params [.self s] = .ok [("val", .self s)] := rfl
  refine returns_run (cx := cx) (f := traitIntoFn B) (m1 := .ok ()) (m2 := fun _ => apiTraitInto B s)
    (Q1 := fun _ env => env = ⟨[("val", .self s)], true, s, []⟩) hb ?_ ?_
  · simp only [traitIntoFn]
    exact ⟨_, by run [], rfl⟩
  · rintro _ env rfl
    simp only [traitIntoFn, apiTraitInto]
    cases hc : traitConv B B.intoEndian s with
    | error p =>
      rw [hc] at h1
      simp only [liftE_err, emap_error] at h1
      simp only [Tail]
      exact h1
    | ok x =>
      rw [hc] at h1
      exact ⟨_, _, _, h1, coerce_store (traitConv_backing hs hc), rfl, rfl⟩

end

end Bf
