import Verif.Lemmas.CodeFn

/-!
# Running generated code: reversing and copying bytes
-/

namespace Bf

open Rust Quote

set_option linter.unusedSimpArgs false

/-! ## Assignments to a variable -/

theorem look_update_same {x : String} {v w : V} : ∀ {l : List (String × V)}, look x l = some w →
    look x (update x v l) = some v := by
  intro l
  induction l with
  | nil => intro h; cases h
  | cons p l ih =>
    obtain ⟨y, u⟩ := p
    intro h
    by_cases hy : y = x
    · simp only [update, hy, if_true, look]
    · simp only [look, hy, if_false] at h
      simp only [update, hy, if_false, look, ih h]

theorem look_update_other {x y : String} {v : V} (hxy : y ≠ x) : ∀ (l : List (String × V)),
    look y (update x v l) = look y l := by
  intro l
  induction l with
  | nil => rfl
  | cons p l ih =>
    obtain ⟨z, u⟩ := p
    by_cases hz : z = x
    · subst hz
      simp only [update, if_true, look, Ne.symm hxy, if_false]
    · simp only [update, hz, if_false, look, ih]

theorem update_update {x : String} {v w : V} : ∀ (l : List (String × V)), update x v (update x w l) = update x v l := by
  intro l
  induction l with
  | nil => rfl
  | cons p l ih =>
    obtain ⟨y, u⟩ := p
    by_cases hy : y = x
    · simp only [update, hy, if_true]
    · simp only [update, hy, if_false, ih]

theorem update_self {x : String} {v : V} : ∀ {l : List (String × V)}, look x l = some v → update x v l = l := by
  intro l
  induction l with
  | nil => intro h; rfl
  | cons p l ih =>
    obtain ⟨y, u⟩ := p
    intro h
    by_cases hy : y = x
    · simp only [look, hy, if_true, Option.some.injEq] at h
      simp only [update, hy, if_true, h]
    · simp only [look, hy, if_false] at h
      simp only [update, hy, if_false, ih h]

theorem update_length {x : String} {v : V} : ∀ (l : List (String × V)), (update x v l).length = l.length := by
  intro l
  induction l with
  | nil => rfl
  | cons p l ih =>
    obtain ⟨y, u⟩ := p
    by_cases hy : y = x
    · simp only [update, hy, if_true, List.length_cons]
    · simp only [update, hy, if_false, List.length_cons, ih]

theorem getB_index {bs : List (BitVec 8)} {i : Nat} {p : Panic} (h : getB bs i = .error p) : p = .index := by
  unfold getB at h
  split at h
  · cases h
  · cases h; rfl

theorem setB_index {bs : List (BitVec 8)} {i : Nat} {b : BitVec 8} {p : Panic} (h : setB bs i b = .error p) :
    p = .index := by
  unfold setB at h
  split at h
  · cases h
  · cases h; rfl

theorem emap_bind {ε α β γ : Type} (x : Except ε α) (f : α → β) (g : β → Except ε γ) :
    (x.map f >>= g) = x >>= fun a => g (f a) := by cases x <;> rfl

theorem ebind_map {ε α β γ : Type} (x : Except ε α) (f : α → Except ε β) (g : β → γ) :
    (x >>= f).map g = x >>= fun a => (f a).map g := by cases x <;> rfl

theorem emap_eq_bind {ε α β : Type} (x : Except ε α) (f : α → β) : x.map f = x >>= fun a => .ok (f a) := by
  cases x <;> rfl

/-! ## Loops with an invariant -/

theorem loopN_inv_aux {σ : Type} {cond : Env → E (V × Env)} {body : Env → E Flow} (rep : Nat → σ → Env)
    (P : σ → Prop) (step : Nat → σ → R σ) (N : Nat)
    (hP : ∀ i s s', P s → step i s = .ok s' → P s')
    (hc : ∀ i s, P s → cond (rep i s) = .ok (.bool (decide (i < N)), rep i s))
    (hb : ∀ i s, i < N → P s →
      (body (rep i s)).map (Flow.leave (rep i s)) = (liftE (step i s)).map fun s' => .next (rep (i + 1) s')) :
    ∀ n i fuel s, i + n = N → n < fuel → P s →
      loopN fuel cond body (rep i s) =
        (liftE (forUpTo n (fun j => step (i + j)) s)).map fun s' => .next (rep N s') := by
  intro n
  induction n with
  | zero =>
    intro i fuel s hi hf hs
    obtain ⟨k, rfl⟩ : ∃ k, fuel = k + 1 := ⟨fuel - 1, by omega⟩
    have : ¬ i < N := by omega
    simp only [loopN, hc i s hs, this, decide_false, ebind_ok, forUpTo, liftE_ok, emap_ok]
    subst hi
    rfl
  | succ n ih =>
    intro i fuel s hi hf hp
    obtain ⟨k, rfl⟩ : ∃ k, fuel = k + 1 := ⟨fuel - 1, by omega⟩
    have hlt : i < N := by omega
    simp only [loopN, hc i s hp, hlt, decide_true, ebind_ok]
    have h := hb i s hlt hp
    rw [forUpTo_succ_left]
    have e : (fun j => step (i + (j + 1))) = fun j => step (i + 1 + j) := by
      funext j; rw [show i + (j + 1) = i + 1 + j by omega]
    rw [e, Nat.add_zero]
    cases hs : step i s with
    | error p =>
      rw [hs] at h
      cases hr : body (rep i s) with
      | error e => rw [hr] at h; simpa using h
      | ok fl => rw [hr] at h; simp at h
    | ok s' =>
      rw [hs] at h
      cases hr : body (rep i s) with
      | error e => rw [hr] at h; simp at h
      | ok fl =>
        rw [hr] at h
        cases fl with
        | next e =>
          simp only [liftE_ok, emap_ok, Except.ok.injEq, Flow.leave, Flow.next.injEq] at h
          simp only [ebind_ok, h]
          exact ih (i + 1) k s' (by omega) (by omega) (hP i s s' hp hs)
        | ret v e => simp [Flow.leave] at h

/-- A loop that counts from `0` to `N` and keeps `P`. -/
theorem exec_loopI {σ : Type} {cx : Ctx} {c : Expr} {body : Stmt} {step : Nat → σ → R σ} {N : Nat} {s : σ} {M : R σ}
    (rep : Nat → σ → Env) (P : σ → Prop) (hM : M = forUpTo N step s) (hf : N < cx.fuel) (h0 : P s)
    (hP : ∀ i s s', P s → step i s = .ok s' → P s')
    (hc : ∀ i s, P s → eval cx c (some .bool) (rep i s) = .ok (.bool (decide (i < N)), rep i s))
    (hb : ∀ i s, i < N → P s →
      (exec cx body (rep i s)).map (Flow.leave (rep i s)) = (liftE (step i s)).map fun s' => .next (rep (i + 1) s')) :
    exec cx (.loop c body) (rep 0 s) = (liftE M).map fun s' => .next (rep N s') := by
  have := loopN_inv_aux rep P step N hP hc hb N 0 cx.fuel s (by omega) hf h0
  simp only [Nat.zero_add] at this
  rw [exec, this, hM]

/-! ## Reversing -/

section
variable {cx : Ctx} {c : Store} {l sh : List (String × V)} {th : Bool}

/-- `bits[i] ^= bits[j];` -/
theorem exec_xorElem {a b : String} {i j : Nat} {bs : List (BitVec 8)} (hb : look "bits" l = some (.arr bs))
    (hi : look a l = some (.usize i)) (hj : look b l = some (.usize j)) :
    exec cx (.assignElem "bits" (.var a) (some .xor) (.index (.var "bits") (.var b))) ⟨l, th, c, sh⟩ =
      (liftE (do
        let x ← getB bs i
        let y ← getB bs j
        setB bs i (x ^^^ y))).map fun bs' => .next ⟨update "bits" (.arr bs') l, th, c, sh⟩ := by
  cases h1 : getB bs i with
  | error p =>
    cases h2 : getB bs j with
    | error p' =>
      rw [getB_index h1, getB_index h2.symm.symm]
      run [hb, hi, hj, h1, h2, getB_index h1, getB_index h2]
    | ok y => run [hb, hi, hj, h1, h2]
  | ok x =>
    cases h2 : getB bs j with
    | error p' => run [hb, hi, hj, h1, h2]
    | ok y =>
      cases h3 : setB bs i (x ^^^ y) with
      | error p => run [hb, hi, hj, h1, h2, h3]
      | ok bs' => run [hb, hi, hj, h1, h2, h3]

theorem exec_xorLoop {n : Nat} {suffix : Bool} {bs : List (BitVec 8)} (hb : look "bits" l = some (.arr bs)) (hf : n < cx.fuel)
    (hn : n < 2 ^ 32) :
    exec cx (xorLoopTok n suffix) ⟨l, th, c, sh⟩ =
      (liftE (xorReverse n bs)).map fun bs' =>
        .next ⟨("i", .usize (n / 2)) :: update "bits" (.arr bs') l, th, c, sh⟩ := by
  have hlook : ∀ (bs' : List (BitVec 8)), look "bits" (update "bits" (.arr bs') l) = some (.arr bs') :=
    fun bs' => look_update_same hb
  have hloop := exec_loopM (cx := cx) (M := xorReverse n bs) (s := bs)
    (c := .bin .lt (.var "i") (.lit (n / 2) (some .usize)))
    (body := .all
       [.letS "j" none (.bin .sub (.lit (n - 1) (some .usize)) (.var "i")),
        .assignElem "bits" (.var "i") (some .xor) (.index (.var "bits") (.var "j")),
        .assignElem "bits" (.var "j") (some .xor) (.index (.var "bits") (.var "i")),
        .assignElem "bits" (.var "i") (some .xor) (.index (.var "bits") (.var "j")),
        incr "i"])
    (fun i bs' => ⟨("i", .usize i) :: update "bits" (.arr bs') l, th, c, sh⟩) rfl (by omega)
    (by intro i s; run [])
    (by
      intro i s hi
      have hsub : binV cx.mode .sub (.usize (n - 1)) (.usize i) = .ok (.usize (n - 1 - i)) := sub_usize _ (by omega)
      have hadd : binV cx.mode .add (.usize i) (.usize 1) = .ok (.usize (i + 1)) := add_usize _ (by omega)
      have e1 : exec cx (.letS "j" none (.bin .sub (.lit (n - 1) (some .usize)) (.var "i")))
          ⟨("i", .usize i) :: update "bits" (.arr s) l, th, c, sh⟩ =
          .ok (.next ⟨("j", .usize (n - 1 - i)) :: ("i", .usize i) :: update "bits" (.arr s) l, th, c, sh⟩) := by
        run [hsub]
      have e2 : ∀ (a b : String) (i' j' : Nat) (s : List (BitVec 8)),
          look a (("j", .usize (n - 1 - i)) :: ("i", .usize i) :: update "bits" (.arr s) l) = some (.usize i') →
          look b (("j", .usize (n - 1 - i)) :: ("i", .usize i) :: update "bits" (.arr s) l) = some (.usize j') →
          exec cx (.assignElem "bits" (.var a) (some .xor) (.index (.var "bits") (.var b)))
            ⟨("j", .usize (n - 1 - i)) :: ("i", .usize i) :: update "bits" (.arr s) l, th, c, sh⟩ =
          (liftE (do
            let x ← getB s i'
            let y ← getB s j'
            setB s i' (x ^^^ y))).map fun bs' =>
              .next ⟨("j", .usize (n - 1 - i)) :: ("i", .usize i) :: update "bits" (.arr bs') l, th, c, sh⟩ := by
        intro a b i' j' s ha hb'
        rw [exec_xorElem (bs := s) (by run [hlook]) ha hb']
        run [update_update]
      simp only [Stmt.all]
      rw [exec_seq_next e1]
      -- the three assignments
      have e3 : ∀ (s : List (BitVec 8)) (rest : Stmt),
          exec cx (.seq (.assignElem "bits" (.var "i") (some .xor) (.index (.var "bits") (.var "j"))) rest)
            ⟨("j", .usize (n - 1 - i)) :: ("i", .usize i) :: update "bits" (.arr s) l, th, c, sh⟩ =
          liftE (do
            let x ← getB s i
            let y ← getB s (n - 1 - i)
            setB s i (x ^^^ y)) >>= fun bs' => exec cx rest
              ⟨("j", .usize (n - 1 - i)) :: ("i", .usize i) :: update "bits" (.arr bs') l, th, c, sh⟩ := by
        intro s rest
        rw [exec.eq_2, e2 "i" "j" i (n - 1 - i) s (by run []) (by run []), emap_bind]
      have e4 : ∀ (s : List (BitVec 8)) (rest : Stmt),
          exec cx (.seq (.assignElem "bits" (.var "j") (some .xor) (.index (.var "bits") (.var "i"))) rest)
            ⟨("j", .usize (n - 1 - i)) :: ("i", .usize i) :: update "bits" (.arr s) l, th, c, sh⟩ =
          liftE (do
            let x ← getB s (n - 1 - i)
            let y ← getB s i
            setB s (n - 1 - i) (x ^^^ y)) >>= fun bs' => exec cx rest
              ⟨("j", .usize (n - 1 - i)) :: ("i", .usize i) :: update "bits" (.arr bs') l, th, c, sh⟩ := by
        intro s rest
        rw [exec.eq_2, e2 "j" "i" (n - 1 - i) i s (by run []) (by run []), emap_bind]
      simp only [e3, e4]
      have e5 : ∀ s : List (BitVec 8), exec cx (.seq (incr "i") .skip)
          ⟨("j", .usize (n - 1 - i)) :: ("i", .usize i) :: update "bits" (.arr s) l, th, c, sh⟩ =
          .ok (.next ⟨("j", .usize (n - 1 - i)) :: ("i", .usize (i + 1)) :: update "bits" (.arr s) l, th, c, sh⟩) := by
        intro s; run [hadd]
      simp only [e5]
      -- the same in the model
      have swap : ∀ s : List (BitVec 8), (do
            let x ← getB s (n - 1 - i)
            let y ← getB s i
            setB s (n - 1 - i) (x ^^^ y)) = (do
            let y ← getB s i
            let x ← getB s (n - 1 - i)
            setB s (n - 1 - i) (x ^^^ y)) := by
        intro s
        cases h1 : getB s i with
        | error p =>
          cases h2 : getB s (n - 1 - i) with
          | error p' => rw [getB_index h1, getB_index h2]; rfl
          | ok y => rfl
        | ok x => rfl
      simp only [swap]
      simp only [liftE_bind, ebind_map, bind_assoc, emap_ok, ebind_ok, leave_next, List.length_cons, update_length, sub_1,
        List.drop_succ_cons, List.drop_zero, emap_eq_bind]
      )
  have e0 : exec cx (if suffix then .letS "i" none (.lit 0 (some .usize)) true else .letS "i" (some .usize) (.lit 0 none) true)
      ⟨l, th, c, sh⟩ = .ok (.next ⟨("i", .usize 0) :: l, th, c, sh⟩) := by cases suffix <;> run []
  rw [xorLoopTok, Stmt.all, exec_seq_next e0, Stmt.all, exec.eq_2]
  have h0 : (⟨("i", .usize 0) :: l, th, c, sh⟩ : Env) = ⟨("i", .usize 0) :: update "bits" (.arr bs) l, th, c, sh⟩ := by
    rw [update_self hb]
  rw [h0, hloop, emap_bind, Stmt.all]
  cases xorReverse n bs with
  | error p => rfl
  | ok bs' => run []

/-! ## Copying -/

/-- `while i < N { dst[i] = src[i]; i += 1; }` -/
theorem exec_copyLoop {dst src : String} {bound : Expr} {N : Nat} {a b : List (BitVec 8)}
    (hne : src ≠ dst) (hd : dst ≠ "i") (hs : src ≠ "i") (ha : look dst l = some (.arr a))
    (hb : look src l = some (.arr b)) (hf : N < cx.fuel) (hN : N < 2 ^ 32)
    (hbound : ∀ i a', eval cx bound (some .usize) ⟨("i", .usize i) :: update dst (.arr a') l, th, c, sh⟩ =
      .ok (.usize N, ⟨("i", .usize i) :: update dst (.arr a') l, th, c, sh⟩)) :
    exec cx (copyLoopTok dst src bound) ⟨l, th, c, sh⟩ =
      (liftE (copyToSlice N b a)).map fun a' =>
        .next ⟨("i", .usize N) :: update dst (.arr a') l, th, c, sh⟩ := by
  have hdst : ∀ a', look dst (update dst (.arr a') l) = some (.arr a') := fun a' => look_update_same ha
  have hsrc : ∀ a', look src (update dst (.arr a') l) = some (.arr b) := fun a' => by
    rw [look_update_other hne, hb]
  have hd' : ¬ "i" = dst := fun h => hd h.symm
  have hs' : ¬ "i" = src := fun h => hs h.symm
  have hloop := exec_loopM (cx := cx) (M := copyToSlice N b a) (s := a)
    (c := .bin .lt (.var "i") bound)
    (body := .all [.assignElem dst (.var "i") none (.index (.var src) (.var "i")), incr "i"])
    (fun i a' => ⟨("i", .usize i) :: update dst (.arr a') l, th, c, sh⟩) rfl hf
    (by intro i s; run [hbound])
    (by
      intro i s hi
      have hadd : binV cx.mode .add (.usize i) (.usize 1) = .ok (.usize (i + 1)) := add_usize _ (by omega)
      cases h1 : getB b i with
      | error p => run [hd', hs', hdst, hsrc, h1]
      | ok x =>
        cases h2 : getB s i with
        | error p => run [hd', hs', hdst, hsrc, h1, h2, getB_error_setB h2 x]
        | ok y =>
          cases h3 : setB s i x with
          | error p => run [hd', hs', hdst, hsrc, h1, h2, h3]
          | ok s' => run [hd', hs', hdst, hsrc, h1, h2, h3, update_update, hadd, update_length])
  have e0 : exec cx (.letS "i" none (.lit 0 (some .usize)) true) ⟨l, th, c, sh⟩ =
      .ok (.next ⟨("i", .usize 0) :: l, th, c, sh⟩) := by run []
  rw [copyLoopTok, Stmt.all, exec_seq_next e0, Stmt.all, exec.eq_2]
  have h0 : (⟨("i", .usize 0) :: l, th, c, sh⟩ : Env) = ⟨("i", .usize 0) :: update dst (.arr a) l, th, c, sh⟩ := by
    rw [update_self ha]
  rw [h0, hloop, emap_bind, Stmt.all]
  cases copyToSlice N b a with
  | error p => rfl
  | ok bs' => run []

theorem copyFromSlice_copy (n len : Nat) (slice : List (BitVec 8)) :
    copyFromSlice n len slice = copyToSlice len slice (List.replicate n 0#8) := rfl

/-- `if slice.len() < N { slice.len() } else { N }` -/
theorem eval_copyLen {n : Nat} {sl : List (BitVec 8)} {exp : Option Ty} (hs : look "slice" l = some (.arr sl)) :
    eval cx (copyLenTok n) exp ⟨l, th, c, sh⟩ =
      .ok (.usize (if sl.length < n then sl.length else n), ⟨l, th, c, sh⟩) := by
  simp only [copyLenTok]
  by_cases h : sl.length < n
  · run [hs, h, decide_true]
  · run [hs, h, decide_false]

/-! ## Reversing with a temporary -/

theorem div_usize (m : Mode) {a b : Nat} (h : b ≠ 0) : binV m .div (.usize a) (.usize b) = .ok (.usize (a / b)) := by
  simp [binV, arith, h]

theorem eval_tempReverse {source : Expr} {exp : Option Ty} {bs : List (BitVec 8)} (hf : 2 ^ 32 ≤ cx.fuel)
    (hlen : bs.length < 2 ^ 32) (hsrc : eval cx source none ⟨l, th, c, sh⟩ = .ok (.arr bs, ⟨l, th, c, sh⟩)) :
    eval cx (.block (.all
      [.letS "temp_bits" none source true,
       .letS "i" (some .usize) (.lit 0 none) true,
       .loop (.bin .lt (.var "i") (.bin .div (.len (.var "temp_bits")) (.lit 2 none))) (.all
         [.letS "temp" none (.index (.var "temp_bits") (.var "i")),
          .assignElem "temp_bits" (.var "i") none (.index (.var "temp_bits")
            (.bin .sub (.bin .sub (.len (.var "temp_bits")) (.lit 1 none)) (.var "i"))),
          .assignElem "temp_bits" (.bin .sub (.bin .sub (.len (.var "temp_bits")) (.lit 1 none)) (.var "i")) none
            (.var "temp"),
          incr "i"])])
      (.var "temp_bits")) exp ⟨l, th, c, sh⟩ =
      (liftE (tempReverse bs)).map fun bs' => (.arr bs', ⟨l, th, c, sh⟩) := by
  have hloop := exec_loopI (cx := cx) (M := tempReverse bs) (s := bs)
    (c := .bin .lt (.var "i") (.bin .div (.len (.var "temp_bits")) (.lit 2 none)))
    (body := .all
         [.letS "temp" none (.index (.var "temp_bits") (.var "i")),
          .assignElem "temp_bits" (.var "i") none (.index (.var "temp_bits")
            (.bin .sub (.bin .sub (.len (.var "temp_bits")) (.lit 1 none)) (.var "i"))),
          .assignElem "temp_bits" (.bin .sub (.bin .sub (.len (.var "temp_bits")) (.lit 1 none)) (.var "i")) none
            (.var "temp"),
          incr "i"])
    (fun i a' => ⟨("i", .usize i) :: ("temp_bits", .arr a') :: l, th, c, sh⟩) (fun a => a.length = bs.length) rfl
    (by omega) rfl
    (by
      intro i s s' hs h
      cases h1 : getB s i with
      | error p => rw [h1] at h; cases h
      | ok x =>
        rw [h1, ebind_ok] at h
        cases h2 : getB s (s.length - 1 - i) with
        | error p => rw [h2] at h; cases h
        | ok y =>
          rw [h2, ebind_ok] at h
          cases h3 : setB s i y with
          | error p => rw [h3] at h; cases h
          | ok s1 =>
            rw [h3, ebind_ok] at h
            rw [setB_length h, setB_length h3, hs])
    (by intro i s hs; run [div_usize _ (show 2 ≠ 0 by decide), hs])
    (by
      intro i s hi hs
      have hadd : binV cx.mode .add (.usize i) (.usize 1) = .ok (.usize (i + 1)) := add_usize _ (by omega)
      have hsub1 : ∀ n, n = bs.length → binV cx.mode .sub (.usize n) (.usize 1) = .ok (.usize (n - 1)) :=
        fun n hn => sub_usize _ (by omega)
      have hsub2 : ∀ n, n = bs.length → binV cx.mode .sub (.usize (n - 1)) (.usize i) = .ok (.usize (n - 1 - i)) :=
        fun n hn => sub_usize _ (by omega)
      cases h1 : getB s i with
      | error p => run [h1]
      | ok x =>
        cases h2 : getB s (s.length - 1 - i) with
        | error p => run [h1, h2, hsub1 _ hs, hsub2 _ hs]
        | ok y =>
          cases h3 : setB s i y with
          | error p => run [h1, h2, h3, hsub1 _ hs, hsub2 _ hs]
          | ok s1 =>
            have hs1 : s1.length = bs.length := by rw [setB_length h3, hs]
            cases h4 : getB s1 (s1.length - 1 - i) with
            | error p =>
              run [h1, h2, h3, hsub1 _ hs, hsub2 _ hs, hsub1 _ hs1, hsub2 _ hs1, h4, getB_error_setB h4 x]
            | ok z =>
              cases h5 : setB s1 (s1.length - 1 - i) x with
              | error p => run [h1, h2, h3, hsub1 _ hs, hsub2 _ hs, hsub1 _ hs1, hsub2 _ hs1, h4, h5]
              | ok s2 => run [h1, h2, h3, hsub1 _ hs, hsub2 _ hs, hsub1 _ hs1, hsub2 _ hs1, h4, h5, hadd])
  simp only [Stmt.all, incr] at hloop ⊢
  cases ht : tempReverse bs with
  | error p =>
    rw [ht] at hloop
    run [hsrc, hloop]
  | ok bs' =>
    rw [ht] at hloop
    run [hsrc, hloop]

end

end Bf
