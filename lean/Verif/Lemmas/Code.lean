import Verif.SpecCode
import Verif.Lemmas.Store

/-!
# Running generated code: operators and loops
-/

namespace Bf

open Rust Quote

set_option linter.unusedSimpArgs false

/-- An integer value of type `u<w>`. -/
def bv {w : Nat} (x : BitVec w) : V := .u w x.toNat

/-! ## Outcomes -/

@[simp] theorem liftE_ok {α : Type} (a : α) : liftE (.ok a : R α) = .ok a := rfl

@[simp] theorem ebind_ok {ε α β : Type} (a : α) (f : α → Except ε β) : (Except.ok a >>= f) = f a := rfl
@[simp] theorem ebind_error {ε α β : Type} (e : ε) (f : α → Except ε β) :
    ((Except.error e : Except ε α) >>= f) = .error e := rfl
@[simp] theorem emap_ok {ε α β : Type} (a : α) (f : α → β) : (Except.ok a : Except ε α).map f = .ok (f a) := rfl
@[simp] theorem emap_error {ε α β : Type} (e : ε) (f : α → β) :
    ((Except.error e : Except ε α)).map f = .error e := rfl
@[simp] theorem epure {ε α : Type} (a : α) : (pure a : Except ε α) = .ok a := rfl

theorem liftE_error {α : Type} (p : Panic) : ∃ e, liftE (.error p : R α) = .error e := by
  cases p <;> exact ⟨_, rfl⟩

/-- The stop a panic of the model corresponds to. -/
def stopOf : Panic → Stop
  | .rejected => .illTyped
  | p => .panic p

@[simp] theorem liftE_err {α : Type} (p : Panic) : liftE (.error p : R α) = .error (stopOf p) := by
  cases p <;> rfl

theorem liftE_bind {α β : Type} (x : R α) (f : α → R β) : liftE (x >>= f) = liftE x >>= fun a => liftE (f a) := by
  cases x <;> simp

theorem liftE_map {α β : Type} (x : R α) (f : α → β) : liftE (x.map f) = (liftE x).map f := by
  cases x <;> simp

/-! ## Values -/

@[simp] theorem bv_ty {w : Nat} (x : BitVec w) : (bv x).ty = some (.u w) := rfl
@[simp] theorem bv_num {w : Nat} (x : BitVec w) : (bv x).num = some (x.toNat : Int) := rfl
@[simp] theorem u_ty {w n : Nat} : (V.u w n).ty = some (.u w) := rfl
@[simp] theorem u_num {w n : Nat} : (V.u w n).num = some (n : Int) := rfl
@[simp] theorem usize_ty {n : Nat} : (V.usize n).ty = some .usize := rfl
@[simp] theorem usize_num {n : Nat} : (V.usize n).num = some (n : Int) := rfl
@[simp] theorem arr_ty {bs : List (BitVec 8)} : (V.arr bs).ty = none := rfl
@[simp] theorem arr_num {bs : List (BitVec 8)} : (V.arr bs).num = none := rfl
@[simp] theorem bool_ty {b : Bool} : (V.bool b).ty = some .bool := rfl
@[simp] theorem bool_num {b : Bool} : (V.bool b).num = none := rfl

@[simp] theorem ofNat_bv {w : Nat} (x : BitVec w) : V.u w x.toNat = bv x := rfl

theorem litV_u (w n : Nat) : litV n (.u w) = .ok (bv (BitVec.ofNat w n)) := rfl

theorem litV_u32 {n : Nat} (h : n < 2 ^ 32) : litV n (.u 32) = .ok (.u 32 n) := by
  simp [litV, -ofNat_bv, Nat.mod_eq_of_lt h]

@[simp] theorem litV_usize (n : Nat) : litV n .usize = .ok (.usize n) := rfl

/-! ## Operators -/

@[simp] theorem notV_bv {w : Nat} (x : BitVec w) : notV (bv x) = .ok (bv (~~~x)) := by
  simp only [bv, notV, BitVec.ofNat_toNat, BitVec.setWidth_eq]

@[simp] theorem and_bv (m : Mode) {w : Nat} (x y : BitVec w) : binV m .and (bv x) (bv y) = .ok (bv (x &&& y)) := by
  simp only [bv, binV, bitwise, BitVec.ofNat_toNat, BitVec.setWidth_eq, if_true]; rfl

@[simp] theorem or_bv (m : Mode) {w : Nat} (x y : BitVec w) : binV m .or (bv x) (bv y) = .ok (bv (x ||| y)) := by
  simp only [bv, binV, bitwise, BitVec.ofNat_toNat, BitVec.setWidth_eq, if_true]; rfl

@[simp] theorem xor_bv (m : Mode) {w : Nat} (x y : BitVec w) : binV m .xor (bv x) (bv y) = .ok (bv (x ^^^ y)) := by
  simp only [bv, binV, bitwise, BitVec.ofNat_toNat, BitVec.setWidth_eq, if_true]; rfl

theorem shiftV_shl (m : Mode) {w : Nat} (x : BitVec w) (k : Nat) :
    shiftV m .shl (bv x) (k : Int) = (liftE (shl m x k)).map bv := by
  have h : ¬ (k : Int) < 0 := by omega
  simp only [shiftV, bv, h, if_false, Int.toNat_natCast, BitVec.ofNat_toNat, BitVec.setWidth_eq, if_true, shl]
  by_cases hk : k < w
  · simp only [hk, if_true]; rfl
  · cases m <;> simp only [hk, if_false, overflow] <;> rfl

theorem shiftV_shr (m : Mode) {w : Nat} (x : BitVec w) (k : Nat) :
    shiftV m .shr (bv x) (k : Int) = (liftE (shr m x k)).map bv := by
  have h : ¬ (k : Int) < 0 := by omega
  simp only [shiftV, bv, h, if_false, Int.toNat_natCast, BitVec.ofNat_toNat, BitVec.setWidth_eq, shr]
  by_cases hk : k < w
  · simp only [hk, if_true]; rfl
  · cases m <;> simp only [hk, if_false, overflow] <;> rfl

@[simp] theorem shl_u32 (m : Mode) {w : Nat} (x : BitVec w) (k : Nat) :
    binV m .shl (bv x) (.u 32 k) = (liftE (shl m x k)).map bv := shiftV_shl m x k

@[simp] theorem shr_u32 (m : Mode) {w : Nat} (x : BitVec w) (k : Nat) :
    binV m .shr (bv x) (.u 32 k) = (liftE (shr m x k)).map bv := shiftV_shr m x k

@[simp] theorem shl_usize (m : Mode) {w : Nat} (x : BitVec w) (k : Nat) :
    binV m .shl (bv x) (.usize k) = (liftE (shl m x k)).map bv := shiftV_shl m x k

@[simp] theorem shr_usize (m : Mode) {w : Nat} (x : BitVec w) (k : Nat) :
    binV m .shr (bv x) (.usize k) = (liftE (shr m x k)).map bv := shiftV_shr m x k

@[simp] theorem sub_u32 (m : Mode) (a b : Nat) :
    binV m .sub (.u 32 a) (.u 32 b) = (liftE (subU32 m a b)).map (.u 32) := by
  simp only [binV, arith, subU32, if_true]
  by_cases h : b ≤ a
  · simp [h]
  · cases m <;> simp [h, overflow, stopOf]

@[simp] theorem add_u32 (m : Mode) (a b : Nat) :
    binV m .add (.u 32 a) (.u 32 b) = (liftE (addU32 m a b)).map (.u 32) := by
  simp only [binV, arith, addU32, if_true]
  by_cases h : a + b < 2 ^ 32
  · simp [h]
  · cases m <;> simp [h, overflow, stopOf]


@[simp] theorem lt_u32 (m : Mode) (a b : Nat) : binV m .lt (.u 32 a) (.u 32 b) = .ok (.bool (decide (a < b))) := by
  simp [binV, Rust.compare]

@[simp] theorem lt_usize (m : Mode) (a b : Nat) :
    binV m .lt (.usize a) (.usize b) = .ok (.bool (decide (a < b))) := by
  simp [binV, Rust.compare]

@[simp] theorem ge_u32 (m : Mode) (a b : Nat) : binV m .ge (.u 32 a) (.u 32 b) = .ok (.bool (decide (b ≤ a))) := by
  simp [binV, Rust.compare]

@[simp] theorem gt_u32 (m : Mode) (a b : Nat) : binV m .gt (.u 32 a) (.u 32 b) = .ok (.bool (decide (b < a))) := by
  simp [binV, Rust.compare]

@[simp] theorem eq_bv (m : Mode) {w : Nat} (x y : BitVec w) : binV m .eq (bv x) (bv y) = .ok (.bool (x == y)) := by
  simp only [binV, Rust.compare, bv_ty, bv_num, if_true, Int.natCast_inj, BitVec.toNat_inj]
  rfl

@[simp] theorem ne_bv (m : Mode) {w : Nat} (x y : BitVec w) : binV m .ne (bv x) (bv y) = .ok (.bool (x != y)) := by
  simp only [binV, Rust.compare, bv_ty, bv_num, if_true, Int.natCast_inj, BitVec.toNat_inj, ne_eq, bne]
  by_cases h : x = y <;> simp [h]

@[simp] theorem gt_bv (m : Mode) {w : Nat} (x y : BitVec w) :
    binV m .gt (bv x) (bv y) = .ok (.bool (decide (y < x))) := by
  simp only [binV, Rust.compare, bv_ty, bv_num, if_true, Int.ofNat_lt, BitVec.lt_def]
  rfl

@[simp] theorem div_u32 (m : Mode) (a b : Nat) : binV m .div (.u 32 a) (.u 32 (b + 1)) = .ok (.u 32 (a / (b + 1))) := by
  simp [binV, arith]

@[simp] theorem rem_u32 (m : Mode) (a b : Nat) : binV m .rem (.u 32 a) (.u 32 (b + 1)) = .ok (.u 32 (a % (b + 1))) := by
  simp [binV, arith]

theorem sub_bv (m : Mode) {w : Nat} (x y : BitVec w) (h : y.toNat ≤ x.toNat) :
    binV m .sub (bv x) (bv y) = .ok (bv (x - y)) := by
  simp only [binV, arith, bv, h, if_true, ebind_ok, epure]
  rw [BitVec.toNat_sub_of_le h]

theorem add_usize (m : Mode) {a b : Nat} (h : a + b < 2 ^ 64) :
    binV m .add (.usize a) (.usize b) = .ok (.usize (a + b)) := by
  simp [binV, arith, h]

theorem mul_usize (m : Mode) {a b : Nat} (h : a * b < 2 ^ 64) :
    binV m .mul (.usize a) (.usize b) = .ok (.usize (a * b)) := by
  simp [binV, arith, h]

theorem sub_usize (m : Mode) {a b : Nat} (h : b ≤ a) :
    binV m .sub (.usize a) (.usize b) = .ok (.usize (a - b)) := by
  simp [binV, arith, h]

/-! ## Casts, indexing -/

@[simp] theorem castV_bv {w : Nat} (x : BitVec w) (w' : Nat) : castV (bv x) (.u w') = .ok (bv (x.setWidth w')) := by
  have : BitVec.ofInt w' (x.toNat : Int) = x.setWidth w' := by
    rw [BitVec.ofInt_natCast, BitVec.ofNat_toNat]
  simp only [castV, bv, V.num, castNum, this]

theorem castV_usize {n : Nat} (h : n < 2 ^ 32) : castV (.u 32 n) .usize = .ok (.usize n) := by
  have : (BitVec.ofInt 64 (n : Int)).toNat = n := by
    rw [BitVec.ofInt_natCast, BitVec.toNat_ofNat, Nat.mod_eq_of_lt (by omega)]
  simp only [castV, V.num, castNum, this]

@[simp] theorem castV_i (w w' : Nat) (n : Int) : castV (.i w n) (.u w') = .ok (bv (BitVec.ofInt w' n)) := rfl
@[simp] theorem castV_any (w' : Nat) (n : Int) : castV (.any n) (.u w') = .ok (bv (BitVec.ofInt w' n)) := rfl
@[simp] theorem castV_bool (w' : Nat) (b : Bool) :
    castV (.bool b) (.u w') = .ok (bv (BitVec.ofInt w' (if b then 1 else 0))) := rfl

@[simp] theorem indexV_arr (bs : List (BitVec 8)) (k : Nat) :
    indexV (.arr bs) (.usize k) = (liftE (getB bs k)).map bv := by
  simp only [indexV, getB]
  cases bs[k]? <;> rfl

theorem indexV_inner (b : Bool) (bs : List (BitVec 8)) (k : Nat) :
    indexV (innerV b (.arr bs)) (.usize k) = (liftE (getB bs k)).map bv := by
  cases b <;> simp only [innerV, indexV, getB, if_true, Bool.false_eq_true, if_false] <;> cases bs[k]? <;> rfl

theorem innerV_int (b : Bool) {w : Nat} (v : BitVec w) : innerV b (.int w v) = .u w v.toNat := rfl

@[simp] theorem setIndex_bv (bs : List (BitVec 8)) (k : Nat) (b : BitVec 8) :
    setIndex bs (.usize k) (bv b) = liftE (setB bs k b) := by
  simp only [setIndex, bv, setB, BitVec.ofNat_toNat, BitVec.setWidth_eq]
  split <;> rfl

/-! ## Loops -/

theorem forUpTo_succ_left {σ : Type} (n : Nat) (step : Nat → σ → R σ) (s : σ) :
    forUpTo (n + 1) step s = step 0 s >>= forUpTo n (fun i => step (i + 1)) := by
  induction n generalizing s with
  | zero =>
    simp only [forUpTo, ebind_ok]
    cases step 0 s <;> rfl
  | succ n ih =>
    rw [forUpTo, ih]
    cases step 0 s <;> rfl

/-- The end of a block: the variables declared in it go out of scope. -/
def Rust.Flow.leave (env : Env) : Flow → Flow
  | .next env' => .next (env.leave env')
  | .ret v env' => .ret v env'

theorem loopN_forUpTo_aux {σ : Type} {cond : Env → E (V × Env)} {body : Env → E Flow} (rep : Nat → σ → Env)
    (step : Nat → σ → R σ) (N : Nat)
    (hc : ∀ i s, cond (rep i s) = .ok (.bool (decide (i < N)), rep i s))
    (hb : ∀ i s, i < N →
      (body (rep i s)).map (Flow.leave (rep i s)) = (liftE (step i s)).map fun s' => .next (rep (i + 1) s')) :
    ∀ n i fuel s, i + n = N → n < fuel →
      loopN fuel cond body (rep i s) =
        (liftE (forUpTo n (fun j => step (i + j)) s)).map fun s' => .next (rep N s') := by
  intro n
  induction n with
  | zero =>
    intro i fuel s hi hf
    obtain ⟨k, rfl⟩ : ∃ k, fuel = k + 1 := ⟨fuel - 1, by omega⟩
    have : ¬ i < N := by omega
    simp only [loopN, hc, this, decide_false, ebind_ok, forUpTo, liftE_ok, emap_ok]
    subst hi
    rfl
  | succ n ih =>
    intro i fuel s hi hf
    obtain ⟨k, rfl⟩ : ∃ k, fuel = k + 1 := ⟨fuel - 1, by omega⟩
    have hlt : i < N := by omega
    simp only [loopN, hc, hlt, decide_true, ebind_ok]
    have h := hb i s hlt
    rw [forUpTo_succ_left]
    have e : (fun j => step (i + (j + 1))) = fun j => step (i + 1 + j) := by
      funext j; rw [show i + (j + 1) = i + 1 + j by omega]
    rw [e, Nat.add_zero]
    cases hs : step i s with
    | error p =>
      rw [hs] at h
      cases hr : body (rep i s) with
      | error e => rw [hr] at h; simpa using h
      | ok fl => rw [hr] at h; simp at h
    | ok s' =>
      rw [hs] at h
      cases hr : body (rep i s) with
      | error e => rw [hr] at h; simp at h
      | ok fl =>
        rw [hr] at h
        cases fl with
        | next e =>
          simp only [liftE_ok, emap_ok, Except.ok.injEq, Flow.leave, Flow.next.injEq] at h
          simp only [ebind_ok, h]
          exact ih (i + 1) k s' (by omega) (by omega)
        | ret v e => simp [Flow.leave] at h

/-- A loop that counts from `0` to `N`. -/
theorem exec_loop {σ : Type} {cx : Ctx} {c : Expr} {body : Stmt} (rep : Nat → σ → Env)
    (step : Nat → σ → R σ) (N : Nat) (s : σ) (hf : N < cx.fuel)
    (hc : ∀ i s, eval cx c (some .bool) (rep i s) = .ok (.bool (decide (i < N)), rep i s))
    (hb : ∀ i s, i < N →
      (exec cx body (rep i s)).map (Flow.leave (rep i s)) = (liftE (step i s)).map fun s' => .next (rep (i + 1) s')) :
    exec cx (.loop c body) (rep 0 s) = (liftE (forUpTo N step s)).map fun s' => .next (rep N s') := by
  have := loopN_forUpTo_aux rep step N hc hb N 0 cx.fuel s (by omega) hf
  simp only [Nat.zero_add] at this
  rw [exec, this]

/-- `exec_loop` with the loop of the model given by name. -/
theorem exec_loopM {σ : Type} {cx : Ctx} {c : Expr} {body : Stmt} {step : Nat → σ → R σ} {N : Nat} {s : σ} {M : R σ}
    (rep : Nat → σ → Env) (hM : M = forUpTo N step s) (hf : N < cx.fuel)
    (hc : ∀ i s, eval cx c (some .bool) (rep i s) = .ok (.bool (decide (i < N)), rep i s))
    (hb : ∀ i s, i < N →
      (exec cx body (rep i s)).map (Flow.leave (rep i s)) = (liftE (step i s)).map fun s' => .next (rep (i + 1) s')) :
    exec cx (.loop c body) (rep 0 s) = (liftE M).map fun s' => .next (rep N s') := by
  rw [hM]; exact exec_loop rep step N s hf hc hb

theorem forUpTo_inv {σ : Type} {P : σ → Prop} {step : Nat → σ → R σ} {s : σ} (h0 : P s)
    (hs : ∀ i s s', P s → step i s = .ok s' → P s') : ∀ {n : Nat} {s' : σ}, forUpTo n step s = .ok s' → P s' := by
  intro n
  induction n with
  | zero => intro s' h; cases h; exact h0
  | succ n ih =>
    intro s' h
    simp only [forUpTo] at h
    cases hn : forUpTo n step s with
    | error p => rw [hn] at h; cases h
    | ok x => rw [hn] at h; exact hs n x s' (ih hn) h

theorem setB_length {bs bs' : List (BitVec 8)} {i : Nat} {b : BitVec 8} (h : setB bs i b = .ok bs') :
    bs'.length = bs.length := by
  unfold setB at h
  split at h
  · cases h; exact List.length_set
  · cases h

theorem getB_error_setB {bs : List (BitVec 8)} {i : Nat} {e : Panic} (h : getB bs i = .error e) (b : BitVec 8) :
    setB bs i b = .error e := by
  unfold getB at h
  split at h
  · cases h
  · cases h
    rename_i hn
    have : bs.length ≤ i := by simpa using hn
    rw [setB, if_neg (by omega)]

/-! ## Evaluating concrete code -/

theorem addU32_lt {m : Mode} {a b c : Nat} (h : addU32 m a b = .ok c) : c < 2 ^ 32 := by
  unfold addU32 at h
  split at h
  · cases h; assumption
  · cases m
    · cases h
    · cases h; exact Nat.mod_lt _ (by decide)

theorem bv32_0 : bv 0#32 = .u 32 0 := rfl
theorem bv32_1 : bv 1#32 = .u 32 1 := rfl
theorem bv32_8 : bv 8#32 = .u 32 8 := rfl
theorem bv32_128 : bv 128#32 = .u 32 128 := rfl
theorem div8_u32 (m : Mode) (a : Nat) : binV m .div (.u 32 a) (.u 32 8) = .ok (.u 32 (a / 8)) := div_u32 m a 7
theorem rem8_u32 (m : Mode) (a : Nat) : binV m .rem (.u 32 a) (.u 32 8) = .ok (.u 32 (a % 8)) := rem_u32 m a 7

theorem leave_next (l l' : List (String × V)) (t t' : Bool) (c c' : Store) (s s' : List (String × V)) :
    Flow.leave ⟨l, t, c, s⟩ (.next ⟨l', t', c', s'⟩) = .next ⟨l'.drop (l'.length - l.length), t, c', s'⟩ := rfl
theorem leave_ret (e e' : Env) (v : V) : Flow.leave e (.ret v e') = .ret v e' := rfl
theorem sub_1 (n : Nat) : n + 1 - n = 1 := by omega
theorem sub_2 (n : Nat) : n + 1 + 1 - n = 2 := by omega
theorem sub_3 (n : Nat) : n + 1 + 1 + 1 - n = 3 := by omega
theorem sub_4 (n : Nat) : n + 1 + 1 + 1 + 1 - n = 4 := by omega
theorem sub_5 (n : Nat) : n + 1 + 1 + 1 + 1 + 1 - n = 5 := by omega
theorem sub_6 (n : Nat) : n + 1 + 1 + 1 + 1 + 1 + 1 - n = 6 := by omega
theorem sub_7 (n : Nat) : n + 1 + 1 + 1 + 1 + 1 + 1 + 1 - n = 7 := by omega
theorem sub_8 (n : Nat) : n + 1 + 1 + 1 + 1 + 1 + 1 + 1 + 1 - n = 8 := by omega

theorem coerce_u32 (n : Nat) : coerce (.u 32 n) (.u 32) = .ok (.u 32 n) := rfl
theorem coerce_bv {w : Nat} (x : BitVec w) : coerce (bv x) (.u w) = .ok (bv x) := by
  simp only [coerce, bv, if_true]
theorem coerce_usize (n : Nat) : coerce (.usize n) .usize = .ok (.usize n) := rfl
theorem coerce_bool (b : Bool) : coerce (.bool b) .bool = .ok (.bool b) := rfl
theorem coerce_unit : coerce .unit .unit = .ok .unit := rfl
theorem coerce_self (s : Store) : coerce (.self s) .self = .ok (.self s) := rfl
theorem coerce_okV (v : V) (t : Ty) : coerce (.ok v) (.result t) = .ok (.ok v) := rfl
theorem coerce_errV (e : String) (t : Ty) : coerce (.err e) (.result t) = .ok (.err e) := rfl
theorem coerce_obj (c : Codec) (n : Nat) : coerce (.obj c n) .obj = .ok (.obj c n) := rfl
theorem coerce_slice (bs : List (BitVec 8)) : coerce (.arr bs) .slice = .ok (.arr bs) := rfl
theorem coerce_i (w : Nat) (n : Int) : coerce (.i w n) (.i w) = .ok (.i w n) := by simp [coerce]

theorem env_leave (l l' : List (String × V)) (t t' : Bool) (c c' : Store) (s s' : List (String × V)) :
    Env.leave ⟨l, t, c, s⟩ ⟨l', t', c', s'⟩ = ⟨l'.drop (l'.length - l.length), t, c', s'⟩ := rfl

/-! Not proved by `rfl`, so that `simp` does not compare strings by reduction. -/
theorem look_nil (x : String) : look x [] = none := by simp only [look]
theorem look_cons (x y : String) (v : V) (l : List (String × V)) :
    look x ((y, v) :: l) = if y = x then some v else look x l := by simp only [look]
theorem update_nil (x : String) (v : V) : update x v [] = [] := by simp only [update]
theorem update_cons (x y : String) (v w : V) (l : List (String × V)) :
    update x v ((y, w) :: l) = if y = x then (y, v) :: l else (y, w) :: update x v l := by simp only [update]

open Lean.Parser.Tactic in
/-- Running concrete code with the given facts. -/
syntax "run" " [" (simpStar <|> simpErase <|> simpLemma),* "]" : tactic

macro_rules
  | `(tactic| run [$ts,*]) => `(tactic| simp only [Stmt.all, exec.eq_1, exec.eq_2, exec.eq_3, exec.eq_4, exec.eq_5, exec.eq_6, exec.eq_7, exec.eq_8, exec.eq_9, exec.eq_10, exec.eq_11, exec.eq_12, exec.eq_14, exec.eq_15, exec.eq_16, exec.eq_17,
      eval, look_nil, look_cons, update_nil, update_cons, incr, operandTy, rightTy, assignOp,
      ebind_ok, ebind_error, emap_ok, emap_error, epure, liftE_ok, liftE_err, notIf, ofStore,
      bv_ty, bv_num, u_ty, u_num, usize_ty, usize_num, arr_ty, arr_num, bool_ty, bool_num, ofNat_bv, litV_u, litV_usize,
      notV_bv, and_bv, or_bv, xor_bv, shl_u32, shr_u32, shl_usize, shr_usize, sub_u32, add_u32, lt_u32, lt_usize, ge_u32,
      gt_u32, eq_bv, ne_bv, gt_bv, div8_u32, rem8_u32, castV_bv, castV_i, castV_any, castV_bool, indexV_arr, indexV_inner, innerV_int,
      setIndex_bv, bv32_0, bv32_1, bv32_8, bv32_128, leave_next, leave_ret, env_leave, sub_1, sub_2, sub_3,
      sub_4, sub_5, sub_6, sub_7, sub_8, coerce_u32, coerce_bv, coerce_usize, coerce_bool, coerce_unit, coerce_self,
      coerce_okV, coerce_errV, coerce_obj, coerce_slice, coerce_i,
      Option.none_or, Option.some_or, Option.getD_some, Option.getD_none, String.reduceEq, if_true, if_false,
      Bool.false_eq_true, Bool.not_true, Bool.not_false, Bool.or_true, Bool.true_or, Bool.or_false, Bool.false_or,
      Bool.and_true, Bool.true_and, Bool.and_false, Bool.false_and,
      reduceCtorEq, List.length_cons, List.length_nil, List.drop_succ_cons, List.drop_zero, Nat.add_sub_add_right,
      Nat.add_sub_cancel_left, Nat.sub_self, Nat.reduceSubDiff, Nat.reduceAdd, Nat.sub_zero, Nat.add_zero, Nat.zero_add,
      $ts,*])

end Bf
