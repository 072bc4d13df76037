import Verif.Lemmas.CodeBits

/-!
# Running generated functions: range operations
-/

namespace Bf

open Rust Quote

set_option linter.unusedSimpArgs false

/-- The end of a function, after its statements. -/
def finish (cx : Ctx) (f : Fn) (r : E Flow) : E (V × Env) := do
  match ← r with
  | .next env' =>
    let (v, env') ← eval cx f.tail (some f.ret) env'
    return (← coerce v f.ret, env')
  | .ret v env' => return (← coerce v f.ret, env')

section
variable {cx : Ctx} {B : Bitfield} {s : Store} {l sh : List (String × V)} {th : Bool} {f : Fn}

theorem run_finish {args : List V} (hl : bindArgs f.params args = .ok l) :
    f.run cx args s = finish (inside cx f.builder f.ret) f (exec (inside cx f.builder f.ret) f.body ⟨l, false, s, []⟩) := by
  simp only [Fn.run, hl, ebind_ok, finish]
  rfl

theorem finish_error {p : Panic} : finish cx f (.error (stopOf p)) = .error (stopOf p) := rfl

theorem finish_ret {v v' : V} {env : Env} (h : coerce v f.ret = .ok v') : finish cx f (.ok (.ret v env)) = .ok (v', env) := by
  simp only [finish, ebind_ok, h, epure]

theorem finish_ends {α β : Type} {r : E Flow} {m1 : R α} {m2 : α → R β} {Q1 : α → Env → Prop} {Q2 : β → V → Env → Prop}
    (h1 : Ends r m1 Q1) (h2 : ∀ a env, Q1 a env → Tail (eval cx f.tail (some f.ret) env) f.ret (m2 a) Q2) :
    Returns (finish cx f r) (m1 >>= m2) Q2 := by
  cases m1 with
  | error p =>
    simp only [Ends] at h1
    simp only [Returns, ebind_error, h1, finish]
  | ok a =>
    obtain ⟨env, he, hq⟩ := h1
    have h2 := h2 a env hq
    rw [he, ebind_ok, finish, ebind_ok]
    cases hm : m2 a with
    | error p =>
      rw [hm] at h2
      simp only [Tail] at h2
      simp only [Returns, h2, ebind_error]
    | ok x =>
      rw [hm] at h2
      obtain ⟨v, v', env', h3, h4, h5⟩ := h2
      exact ⟨v', env', by simp only [h3, h4, ebind_ok, epure], h5⟩

/-- The two guards of the range functions. -/
theorem returns_range {α : Type} {args : List V} {e1 e2 : Expr} {v1 v2 v1' v2' : V} {X : Stmt} {o n : Nat} {a1 a2 : α}
    {M : R α} {Q : α → V → Env → Prop} (hok : B.backing.OK) (hl : bindArgs f.params args = .ok l)
    (hbody : f.body = .all [.letThis, offsetGuardTok B (.ret e1), lengthGuardTok B (.ret e2), X])
    (hb : f.builder = false) (ho : look "offset" l = some (.u 32 o)) (hn : look "length" l = some (.u 32 n))
    (he1 : eval (inside cx false f.ret) e1 (some f.ret) ⟨l, true, s, []⟩ = .ok (v1, ⟨l, true, s, []⟩))
    (he2 : eval (inside cx false f.ret) e2 (some f.ret) ⟨l, true, s, []⟩ = .ok (v2, ⟨l, true, s, []⟩))
    (hv1 : coerce v1 f.ret = .ok v1') (hv2 : coerce v2 f.ret = .ok v2')
    (hq1 : Q a1 v1' ⟨l, true, s, []⟩) (hq2 : Q a2 v2' ⟨l, true, s, []⟩)
    (h : Returns (finish (inside cx false f.ret) f (exec (inside cx false f.ret) X ⟨l, true, s, []⟩)) M Q) :
    Returns (f.run cx args s) (if o ≥ B.backing.size then .ok a1
      else addU32 cx.mode o n >>= fun sum => if sum > B.backing.size then .ok a2 else M) Q := by
  rw [run_finish hl, hb, hbody]
  simp only [Stmt.all, exec_letThis]
  have h1 := exec_offsetGuard (cx := inside cx false f.ret) (B := B) (sh := []) hok ho he1
  have h2 := exec_lengthGuard (cx := inside cx false f.ret) (B := B) (sh := []) hok ho hn he2
  split
  · rename_i hc
    rw [if_pos hc] at h1
    exact ⟨v1', _, by rw [exec_seq_ret h1, finish_ret hv1], hq1⟩
  · rename_i hc
    rw [if_neg hc] at h1
    rw [exec_seq_next h1]
    change exec (inside cx false f.ret) _ _ = (liftE (addU32 cx.mode o n)).map _ at h2
    cases ha : addU32 cx.mode o n with
    | error p =>
      rw [ha] at h2
      simp only [liftE_err, emap_error] at h2
      rw [exec_seq_error h2]
      rfl
    | ok sum =>
      rw [ha] at h2
      simp only [liftE_ok, emap_ok] at h2
      rw [ebind_ok]
      split
      · rename_i hc
        rw [if_pos hc] at h2
        exact ⟨v2', _, by rw [exec_seq_ret h2, finish_ret hv2], hq2⟩
      · rename_i hc
        rw [if_neg hc] at h2
        rw [exec_seq_next h2]
        have : exec (inside cx false f.ret) (.seq X .skip) ⟨l, true, s, []⟩ =
            exec (inside cx false f.ret) X ⟨l, true, s, []⟩ := by
          run []
          cases exec (inside cx false f.ret) X ⟨l, true, s, []⟩ with
          | error e => rfl
          | ok r => cases r <;> rfl
        rwa [this]

/-! ## Loops that return early -/

theorem forUpTo_true (find : Nat → R Bool) : ∀ n,
    forUpTo n (fun i (found : Bool) => if found then pure true else find i) true = .ok true := by
  intro n
  induction n with
  | zero => rfl
  | succ n ih => rw [forUpTo, ih]; rfl

/-- How a loop that returns early ends. -/
def Found (r : E Flow) (m : R Bool) (v : V) (c : Store) (env : Env) : Prop :=
  match m with
  | .error p => r = .error (stopOf p)
  | .ok true => ∃ env', r = .ok (.ret v env') ∧ env'.cell = c
  | .ok false => r = .ok (.next env)

theorem loopN_find {cond : Env → E (V × Env)} {body : Env → E Flow} {v : V} {c : Store} (rep : Nat → Env)
    (find : Nat → R Bool) (N : Nat)
    (hc : ∀ i, cond (rep i) = .ok (.bool (decide (i < N)), rep i))
    (hb : ∀ i, i < N → Found ((body (rep i)).map (Flow.leave (rep i))) (find i) v c (rep (i + 1))) :
    ∀ n i fuel, i + n = N → n < fuel →
      Found (loopN fuel cond body (rep i))
        (forUpTo n (fun j (found : Bool) => if found then pure true else find (i + j)) false) v c (rep N) := by
  intro n
  induction n with
  | zero =>
    intro i fuel hi hf
    obtain ⟨k, rfl⟩ : ∃ k, fuel = k + 1 := ⟨fuel - 1, by omega⟩
    have : ¬ i < N := by omega
    simp only [loopN, hc, this, decide_false, ebind_ok, forUpTo, Found]
    subst hi
    rfl
  | succ n ih =>
    intro i fuel hi hf
    obtain ⟨k, rfl⟩ : ∃ k, fuel = k + 1 := ⟨fuel - 1, by omega⟩
    have hlt : i < N := by omega
    simp only [loopN, hc, hlt, decide_true, ebind_ok]
    have h := hb i hlt
    rw [forUpTo_succ_left]
    simp only [Bool.false_eq_true, if_false, Nat.add_zero]
    have e : (fun (j : Nat) (found : Bool) => if found = true then (pure true : R Bool) else find (i + (j + 1))) =
        fun j found => if found = true then pure true else find (i + 1 + j) := by
      funext j found; rw [show i + (j + 1) = i + 1 + j by omega]
    rw [e]
    cases hs : find i with
    | error p =>
      rw [hs] at h
      cases hr : body (rep i) with
      | error e => rw [hr] at h; simp only [Found, emap_error] at h; rw [h]; rfl
      | ok fl => rw [hr] at h; simp [Found] at h
    | ok b =>
      rw [hs] at h
      cases b with
      | true =>
        rw [ebind_ok, forUpTo_true]
        cases hr : body (rep i) with
        | error e => rw [hr] at h; simp [Found] at h
        | ok fl =>
          rw [hr] at h
          obtain ⟨env', h1, h2⟩ := h
          cases fl with
          | next e => simp [Flow.leave] at h1
          | ret v' e =>
            simp only [emap_ok, Except.ok.injEq, Flow.leave, Flow.ret.injEq] at h1
            obtain ⟨rfl, rfl⟩ := h1
            exact ⟨_, rfl, h2⟩
      | false =>
        rw [ebind_ok]
        cases hr : body (rep i) with
        | error e => rw [hr] at h; simp [Found] at h
        | ok fl =>
          rw [hr] at h
          cases fl with
          | ret v' e => simp [Found, Flow.leave] at h
          | next e =>
            simp only [Found, emap_ok, Except.ok.injEq, Flow.leave, Flow.next.injEq] at h
            simp only [ebind_ok, h]
            exact ih (i + 1) k (by omega) (by omega)

/-! ## Bits of byte arrays -/

theorem bitAt_eq (bs : List (BitVec 8)) (i : Nat) :
    bitAt bs i = (getB bs (i / 8)).map fun (b : BitVec 8) => ((b >>> (i % 8)) &&& 1#8) != 0#8 := by
  simp only [bitAt]
  cases getB bs (i / 8) <;> rfl

theorem eval_bitAt {a i k : Expr} {bs : List (BitVec 8)} {d : Nat} {exp : Option Ty} {env : Env}
    (ha : ∀ exp, eval cx a exp env = .ok (.arr bs, env)) (hi : ∀ exp, eval cx i exp env = .ok (.usize (d / 8), env))
    (hk : ∀ exp, eval cx k exp env = .ok (.u 32 (d % 8), env)) :
    eval cx (bitSetTok a i k) exp env = (liftE (bitAt bs d)).map fun b => (.bool b, env) := by
  rw [eval_bitSet (bx := false) ha hi hk (by omega), bitAt_eq, liftE_map]
  cases liftE (getB bs (d / 8)) <;> rfl

theorem addU32_succ (m : Mode) {i : Nat} (h : i + 1 < 2 ^ 32) : addU32 m i 1 = .ok (i + 1) := by
  unfold addU32
  exact if_pos h

/-- The variables declared by `posTok`. -/
def posVars (bit byte inByte : String) (d : Nat) : List (String × V) :=
  [(inByte, .u 32 (d % 8)), (byte, .usize (d / 8)), (bit, .u 32 d)]

theorem exec_posTok {bit byte inByte : String} {o i : Nat} (hne : byte ≠ bit) (ho : look "offset" l = some (.u 32 o))
    (hi : look "i" l = some (.u 32 i)) :
    exec cx (posTok bit byte inByte) ⟨l, th, s, sh⟩ =
      (liftE (addU32 cx.mode o i)).map fun d => .next ⟨posVars bit byte inByte d ++ l, th, s, sh⟩ := by
  simp only [posTok]
  cases ha : addU32 cx.mode o i with
  | error p => run [ho, hi, ha]
  | ok d =>
    have hd := addU32_lt ha
    run [ho, hi, ha, castV_usize (show d / 8 < 2 ^ 32 by omega), if_neg hne, posVars, List.cons_append, List.nil_append]

theorem exec_srcBit {x : List (BitVec 8)} {i : Nat} (h32 : i < 2 ^ 32) (hi : look "i" l = some (.u 32 i))
    (hx : look "value" l = some (.arr x)) :
    exec cx srcBitTok ⟨l, th, s, sh⟩ =
      (liftE (bitAt x i)).map fun b => .next ⟨("bit_val", .bool b) :: l, th, s, sh⟩ := by
  have h := eval_bitAt (cx := cx) (a := .var "value") (i := .cast (.bin .div (.var "i") (.lit 8 none)) .usize)
    (k := .bin .rem (.var "i") (.lit 8 none)) (bs := x) (d := i) (exp := none) (env := ⟨l, th, s, sh⟩)
    (by intro exp; run [hx]) (by intro exp; run [hi, castV_usize (show i / 8 < 2 ^ 32 by omega)])
    (by intro exp; run [hi])
  rw [srcBitTok, exec, h]
  cases bitAt x i <;> run []

theorem exec_isProt {bit byte inByte : String} {p : List (BitVec 8)} {d : Nat} (h1 : inByte ≠ byte)
    (h2 : inByte ≠ "protected_mask") (h3 : byte ≠ "protected_mask") (h4 : bit ≠ "protected_mask")
    (hp : look "protected_mask" l = some (.arr p)) :
    exec cx (isProtTok byte inByte) ⟨posVars bit byte inByte d ++ l, th, s, sh⟩ =
      (liftE (bitAt p d)).map fun b =>
        .next ⟨("is_protected", .bool b) :: (posVars bit byte inByte d ++ l), th, s, sh⟩ := by
  have h := eval_bitAt (cx := cx) (a := .var "protected_mask") (i := .var byte) (k := .var inByte) (bs := p) (d := d)
    (exp := none) (env := ⟨posVars bit byte inByte d ++ l, th, s, sh⟩)
    (by intro exp; run [posVars, List.cons_append, List.nil_append, if_neg h2, if_neg h3, if_neg h4, hp])
    (by intro exp; run [posVars, List.cons_append, List.nil_append, if_neg h1])
    (by intro exp; run [posVars, List.cons_append, List.nil_append])
  rw [isProtTok, exec, h]
  cases bitAt p d <;> run []

/-- The loop that returns an error at a protected bit. -/
theorem exec_protLoop {bit byte inByte msg : String} {p : List (BitVec 8)} {o n : Nat} (hne : byte ≠ bit)
    (h1 : inByte ≠ byte) (h2 : inByte ≠ "protected_mask") (h3 : byte ≠ "protected_mask") (h4 : bit ≠ "protected_mask")
    (h5 : bit ≠ "i") (h6 : byte ≠ "i") (h7 : inByte ≠ "i")
    (hf : n < cx.fuel) (hn : n < 2 ^ 32)
    (ho : look "offset" l = some (.u 32 o)) (hlen : look "length" l = some (.u 32 n))
    (hp : look "protected_mask" l = some (.arr p)) :
    Found (exec cx (protLoopTok bit byte inByte msg) ⟨l, th, s, sh⟩) (anyProtected cx.mode p o n) (.err msg) s
      ⟨("i", .u 32 n) :: l, th, s, sh⟩ := by
  have h0 : exec cx (.letS "i" none (.lit 0 (some (.u 32))) true) ⟨l, th, s, sh⟩ =
      .ok (.next ⟨("i", .u 32 0) :: l, th, s, sh⟩) := by run []
  simp only [protLoopTok, upToTok]
  rw [Stmt.all, exec_seq_next h0, Stmt.all, Stmt.all]
  have hw := loopN_find (v := .err msg) (c := s)
    (cond := eval cx (.bin .lt (.var "i") (.var "length")) (some .bool))
    (body := exec cx (.all ([posTok bit byte inByte, isProtTok byte inByte,
     .ite (.var "is_protected") (.ret (.errE msg)) .skip] ++ [incr "i"])))
    (fun i => ⟨("i", .u 32 i) :: l, th, s, sh⟩)
    (fun i => addU32 cx.mode o i >>= fun dst => bitAt p dst) n
    (by intro i; run [hlen])
    (by
      intro i hi
      rw [List.cons_append, Stmt.all, List.cons_append, Stmt.all]
      have e1 := exec_posTok (cx := cx) (s := s) (sh := sh) (th := th) (l := ("i", .u 32 i) :: l) (inByte := inByte) (o := o) (i := i)
        hne (by run [ho]) (by run [])
      cases ha : addU32 cx.mode o i with
      | error q =>
        rw [ha] at e1
        simp only [liftE_err, emap_error] at e1
        rw [exec_seq_error e1]
        rfl
      | ok d =>
        rw [ha] at e1
        simp only [liftE_ok, emap_ok] at e1
        rw [exec_seq_next e1, ebind_ok]
        have e2 := exec_isProt (cx := cx) (s := s) (sh := sh) (th := th) (d := d) (bit := bit) (p := p)
          (l := ("i", .u 32 i) :: l) h1 h2 h3 h4 (by run [hp])
        cases hb : bitAt p d with
        | error q =>
          rw [hb] at e2
          simp only [liftE_err, emap_error] at e2
          rw [exec_seq_error e2]
          rfl
        | ok b =>
          rw [hb] at e2
          simp only [liftE_ok, emap_ok] at e2
          rw [exec_seq_next e2]
          cases b with
          | true =>
            refine ⟨⟨("is_protected", .bool true) :: (posVars bit byte inByte d ++ ("i", .u 32 i) :: l), th, s, sh⟩, ?_, rfl⟩
            run [List.cons_append, List.nil_append]
          | false =>
            have hi1 := addU32_succ cx.mode (show i + 1 < 2 ^ 32 by omega)
            simp only [Found]
            run [List.cons_append, List.nil_append, posVars, if_neg h5, if_neg h6, if_neg h7, hi1])
    n 0 cx.fuel (by omega) hf
  simp only [Nat.zero_add] at hw
  change Found _ (anyProtected cx.mode p o n) _ _ _ at hw
  have e3 : exec cx (.seq (.loop (.bin .lt (.var "i") (.var "length")) (.all ([posTok bit byte inByte, isProtTok byte inByte,
     .ite (.var "is_protected") (.ret (.errE msg)) .skip] ++ [incr "i"]))) .skip) ⟨("i", .u 32 0) :: l, th, s, sh⟩ =
    loopN cx.fuel (eval cx (.bin .lt (.var "i") (.var "length")) (some .bool))
      (exec cx (.all ([posTok bit byte inByte, isProtTok byte inByte,
     .ite (.var "is_protected") (.ret (.errE msg)) .skip] ++ [incr "i"]))) ⟨("i", .u 32 0) :: l, th, s, sh⟩ := by
    rw [exec.eq_2, exec.eq_13]
    generalize loopN _ _ _ _ = r
    cases r with
    | error e => rfl
    | ok r => cases r <;> rfl
  rw [e3]
  exact hw

/-! ## Writing a range -/

/-- The loop of `set_bytes_range` in the model. -/
def setLoop (m : Mode) (x prot : List (BitVec 8)) (o n : Nat) (bs : List (BitVec 8)) : R (List (BitVec 8)) :=
  forUpTo n (fun i bs => do
    let bv ← bitAt x i
    let dst ← addU32 m o i
    let p ← bitAt prot dst
    if !p then do
      let b ← getB bs (dst / 8)
      setB bs (dst / 8) (putBit b (dst % 8) bv)
    else return bs) bs

/-- The loop of `checked_set_bytes_range` in the model. -/
def setLoopAll (m : Mode) (x : List (BitVec 8)) (o n : Nat) (bs : List (BitVec 8)) : R (List (BitVec 8)) :=
  forUpTo n (fun i bs => do
    let bv ← bitAt x i
    let dst ← addU32 m o i
    let b ← getB bs (dst / 8)
    setB bs (dst / 8) (putBit b (dst % 8) bv)) bs

theorem exec_upTo {σ : Type} {body : List Stmt} {step : Nat → σ → R σ} {n : Nat} {st : σ} {M : R σ}
    (rep : Nat → σ → Env) (hrep : exec cx (.letS "i" none (.lit 0 (some (.u 32))) true) ⟨l, th, s, sh⟩ = .ok (.next (rep 0 st)))
    (hM : M = forUpTo n step st) (hf : n < cx.fuel)
    (hc : ∀ i st, eval cx (.bin .lt (.var "i") (.var "length")) (some .bool) (rep i st) =
      .ok (.bool (decide (i < n)), rep i st))
    (hb : ∀ i st, i < n → (exec cx (.all (body ++ [incr "i"])) (rep i st)).map (Flow.leave (rep i st)) =
      (liftE (step i st)).map fun s' => .next (rep (i + 1) s')) :
    exec cx (upToTok body) ⟨l, th, s, sh⟩ = (liftE M).map fun s' => .next (rep n s') := by
  have hw := exec_loopM rep hM hf hc hb
  simp only [upToTok]
  rw [Stmt.all, exec_seq_next hrep, Stmt.all, Stmt.all]
  cases hx : M with
  | error p =>
    rw [hx] at hw
    simp only [liftE_err, emap_error] at hw ⊢
    exact exec_seq_error hw
  | ok s' =>
    rw [hx] at hw
    simp only [liftE_ok, emap_ok] at hw ⊢
    rw [exec_seq_next hw, exec]

set_option maxHeartbeats 1000000 in
theorem exec_setLoop {x p bs : List (BitVec 8)} {o n : Nat} (hth : th = true) (hf : n < cx.fuel) (hn : n < 2 ^ 32)
    (ho : look "offset" l = some (.u 32 o)) (hlen : look "length" l = some (.u 32 n))
    (hx : look "value" l = some (.arr x)) (hp : look "protected_mask" l = some (.arr p)) :
    exec cx (upToTok
            [srcBitTok, posTok "dst_bit" "dst_byte_idx" "dst_bit_in_byte",
             isProtTok "dst_byte_idx" "dst_bit_in_byte",
             .ite (.not (.var "is_protected"))
               (storeByteBitTok (.var "bit_val") (.var "dst_byte_idx") (.var "dst_bit_in_byte") false)
               .skip]) ⟨l, th, .arr bs, sh⟩ =
      (liftE (setLoop cx.mode x p o n bs)).map fun bs' => .next ⟨("i", .u 32 n) :: l, th, .arr bs', sh⟩ := by
  subst hth
  refine exec_upTo (fun i bs => ⟨("i", .u 32 i) :: l, true, .arr bs, sh⟩) (by run []) rfl hf
    (by intro i st; run [hlen]) ?_
  intro i a hi
  have hi1 := addU32_succ cx.mode (show i + 1 < 2 ^ 32 by omega)
  have e0 := exec_srcBit (cx := cx) (s := .arr a) (sh := sh) (th := true) (l := ("i", .u 32 i) :: l) (x := x) (i := i)
    (by omega) (by run []) (by run [hx])
  rw [List.cons_append, Stmt.all, List.cons_append, Stmt.all, List.cons_append, Stmt.all]
  cases hb : bitAt x i with
  | error q =>
    rw [hb] at e0
    simp only [liftE_err, emap_error] at e0
    rw [exec_seq_error e0]
    run []
  | ok b =>
  rw [hb] at e0
  simp only [liftE_ok, emap_ok] at e0
  rw [exec_seq_next e0, ebind_ok]
  have e1 := exec_posTok (cx := cx) (s := .arr a) (sh := sh) (th := true) (l := ("bit_val", .bool b) :: ("i", .u 32 i) :: l)
    (bit := "dst_bit") (byte := "dst_byte_idx") (inByte := "dst_bit_in_byte") (o := o) (i := i) (by decide)
    (by run [ho]) (by run [])
  cases ha : addU32 cx.mode o i with
  | error q =>
    rw [ha] at e1
    simp only [liftE_err, emap_error] at e1
    rw [exec_seq_error e1]
    run []
  | ok d =>
  rw [ha] at e1
  simp only [liftE_ok, emap_ok] at e1
  rw [exec_seq_next e1, ebind_ok]
  have e2 := exec_isProt (cx := cx) (s := .arr a) (sh := sh) (th := true) (d := d) (p := p)
    (bit := "dst_bit") (byte := "dst_byte_idx") (inByte := "dst_bit_in_byte")
    (l := ("bit_val", .bool b) :: ("i", .u 32 i) :: l) (by decide) (by decide) (by decide) (by decide) (by run [hp])
  cases hq : bitAt p d with
  | error q =>
    rw [hq] at e2
    simp only [liftE_err, emap_error] at e2
    rw [exec_seq_error e2]
    run []
  | ok q =>
  rw [hq] at e2
  simp only [liftE_ok, emap_ok] at e2
  rw [exec_seq_next e2, ebind_ok]
  simp only [posVars, List.cons_append, List.nil_append]
  cases q with
  | true => run [notV, hi1]
  | false =>
    have e3 := exec_storeByteBit (cx := cx) (builder := false) (cnd := .var "bit_val") (i := .var "dst_byte_idx")
        (k := .var "dst_bit_in_byte") (bs := a) (ni := d / 8) (nk := d % 8) (x := b)
        (l := ("is_protected", .bool false) :: ("dst_bit_in_byte", .u 32 (d % 8)) :: ("dst_byte_idx", .usize (d / 8)) ::
          ("dst_bit", .u 32 d) :: ("bit_val", .bool b) :: ("i", .u 32 i) :: l) (th := true) (sh := sh) rfl
        (by run []) (by intro exp; run []) (by intro exp; run []) (by omega)
    simp only [Bool.not_false, if_true]
    generalize (do
      let b' ← getB a (d / 8)
      setB a (d / 8) (putBit b' (d % 8) b) : R _) = M at e3 ⊢
    cases M with
    | error q => run [notV, e3]
    | ok a' => run [notV, e3, hi1]

theorem exec_setLoopAll {x bs : List (BitVec 8)} {o n : Nat} (hth : th = true) (hf : n < cx.fuel) (hn : n < 2 ^ 32)
    (ho : look "offset" l = some (.u 32 o)) (hlen : look "length" l = some (.u 32 n))
    (hx : look "value" l = some (.arr x)) :
    exec cx (upToTok
            [srcBitTok, posTok "dst_bit" "dst_byte_idx" "dst_bit_in_byte",
             storeByteBitTok (.var "bit_val") (.var "dst_byte_idx") (.var "dst_bit_in_byte") false]) ⟨l, th, .arr bs, sh⟩ =
      (liftE (setLoopAll cx.mode x o n bs)).map fun bs' => .next ⟨("i", .u 32 n) :: l, th, .arr bs', sh⟩ := by
  subst hth
  refine exec_upTo (fun i bs => ⟨("i", .u 32 i) :: l, true, .arr bs, sh⟩) (by run []) rfl hf
    (by intro i st; run [hlen]) ?_
  intro i a hi
  have hi1 := addU32_succ cx.mode (show i + 1 < 2 ^ 32 by omega)
  have e0 := exec_srcBit (cx := cx) (s := .arr a) (sh := sh) (th := true) (l := ("i", .u 32 i) :: l) (x := x) (i := i)
    (by omega) (by run []) (by run [hx])
  rw [List.cons_append, Stmt.all, List.cons_append, Stmt.all]
  cases hb : bitAt x i with
  | error q =>
    rw [hb] at e0
    simp only [liftE_err, emap_error] at e0
    rw [exec_seq_error e0]
    run []
  | ok b =>
  rw [hb] at e0
  simp only [liftE_ok, emap_ok] at e0
  rw [exec_seq_next e0, ebind_ok]
  have e1 := exec_posTok (cx := cx) (s := .arr a) (sh := sh) (th := true) (l := ("bit_val", .bool b) :: ("i", .u 32 i) :: l)
    (bit := "dst_bit") (byte := "dst_byte_idx") (inByte := "dst_bit_in_byte") (o := o) (i := i) (by decide)
    (by run [ho]) (by run [])
  cases ha : addU32 cx.mode o i with
  | error q =>
    rw [ha] at e1
    simp only [liftE_err, emap_error] at e1
    rw [exec_seq_error e1]
    run []
  | ok d =>
  rw [ha] at e1
  simp only [liftE_ok, emap_ok] at e1
  rw [exec_seq_next e1, ebind_ok]
  simp only [posVars, List.cons_append, List.nil_append]
  have e3 := exec_storeByteBit (cx := cx) (builder := false) (cnd := .var "bit_val") (i := .var "dst_byte_idx")
        (k := .var "dst_bit_in_byte") (bs := a) (ni := d / 8) (nk := d % 8) (x := b)
        (l := ("dst_bit_in_byte", .u 32 (d % 8)) :: ("dst_byte_idx", .usize (d / 8)) ::
          ("dst_bit", .u 32 d) :: ("bit_val", .bool b) :: ("i", .u 32 i) :: l) (th := true) (sh := sh) rfl
        (by run []) (by intro exp; run []) (by intro exp; run []) (by omega)
  generalize (do
      let b' ← getB a (d / 8)
      setB a (d / 8) (putBit b' (d % 8) b) : R _) = M at e3 ⊢
  cases M with
  | error q => run [e3]
  | ok a' => run [e3, hi1]

end

end Bf
