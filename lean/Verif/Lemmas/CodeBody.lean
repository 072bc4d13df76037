import Verif.Lemmas.CodeCall

/-!
# Running generated code: the bodies of setters and the statements that set fields
-/

namespace Bf

open Rust Quote

set_option linter.unusedSimpArgs false

theorem Ends.known {α : Type} {r : E Flow} {m : R α} {Q : α → Env → Prop} (h : Ends r m Q) :
    Ends r m fun a env => m = .ok a ∧ Q a env := by
  cases m with
  | error p => exact h
  | ok x => obtain ⟨env, he, h⟩ := h; exact ⟨env, he, rfl, h⟩

theorem valueVar_int {f : Field} {t : IntTy} (hty : f.ty = .int t) (ht : t ≠ .bool) (n : Int) :
    valueVar f (.int n) = .ok (.int n) := by
  simp only [valueVar, hty]
  cases t <;> first | exact absurd rfl ht | rfl

/-! ## Values read from a field have the form the code expects -/

theorem shaped_extract {m : Mode} {f : Field} {inv : Bool} {st : Store} {b : Backing} {v x : Val}
    (hst : st.HasBacking b) (h : extract m f inv st = .ok v) (hx : valueVar f v = .ok x) : Shaped b f.ty x := by
  cases b with
  | int w =>
    cases st with
    | arr bs => exact absurd hst id
    | int w' s =>
      have hv : ∃ n, v = .int n := by
        simp only [extract] at h
        cases h1 : intMask m w' f.bits with
        | error p => rw [h1] at h; cases h
        | ok k =>
          rw [h1, ebind_ok] at h
          cases h2 : shr m s f.offset with
          | error p => rw [h2] at h; cases h
          | ok y => rw [h2, ebind_ok] at h; cases h; exact ⟨_, rfl⟩
      obtain ⟨n, rfl⟩ := hv
      cases hty : f.ty with
      | custom c =>
        simp only [valueVar, hty] at hx
        cases hc : c.fromBits n.toNat with
        | error p => rw [hc] at hx; cases hx
        | ok code => rw [hc] at hx; cases hx; trivial
      | array len =>
        simp only [valueVar, hty] at hx
        cases hx; exact ⟨w, rfl⟩
      | int t =>
        by_cases ht : t = .bool
        · subst ht
          simp only [valueVar, hty] at hx
          cases hx; trivial
        · rw [valueVar_int hty ht] at hx
          cases hx
          cases t <;> first | exact absurd rfl ht | trivial
  | arr n =>
    cases st with
    | int w bs => exact absurd hst id
    | arr bs =>
      cases hty : f.ty with
      | array len =>
        simp only [extract, hty] at h
        cases h1 : readArr m inv bs f.offset f.bits len with
        | error p => rw [h1] at h; cases h
        | ok a =>
          rw [h1] at h; cases h
          simp only [valueVar, hty] at hx
          cases hx
          exact ⟨⟨n, rfl⟩, readArr_length h1⟩
      | custom c =>
        simp only [valueVar, hty] at hx
        cases v <;> simp only [reduceCtorEq] at hx
        rename_i k
        cases hc : c.fromBits k.toNat with
        | error p => rw [hc] at hx; cases hx
        | ok code => rw [hc] at hx; cases hx; trivial
      | int t =>
        have hv : ∃ n, v = .int n := by
          simp only [extract, hty] at h
          cases h1 : readU128 m bs f.offset f.bits with
          | error p => rw [h1] at h; cases h
          | ok y =>
            rw [h1, ebind_ok] at h
            cases inv
            · cases h; exact ⟨_, rfl⟩
            · simp only [if_true] at h
              cases h2 : mask128 m f.bits with
              | error p => rw [h2] at h; cases h
              | ok y => rw [h2, ebind_ok] at h; cases h; exact ⟨_, rfl⟩
        obtain ⟨k, rfl⟩ := hv
        by_cases ht : t = .bool
        · subst ht
          simp only [valueVar, hty] at hx
          cases hx; trivial
        · rw [valueVar_int hty ht] at hx
          cases hx
          cases t <;> first | exact absurd rfl ht | trivial

theorem shaped_extractCast {m : Mode} {f : Field} {st : Store} {b : Backing} {v x : Val} {r : Bool × Val}
    (hst : st.HasBacking b) (hv : HasType f.ty v) (h : extractCast m f st v = .ok r) (hx : valueVar f r.2 = .ok x) :
    Shaped b f.ty x := by
  cases b with
  | int w =>
    cases st with
    | arr bs => exact absurd hst id
    | int w' s =>
      have hv : ∃ n, r.2 = .int n := by
        simp only [extractCast] at h
        cases h1 : intMask m w' f.bits with
        | error p => rw [h1] at h; cases h
        | ok k =>
          rw [h1, ebind_ok] at h
          split at h
          · cases h; exact ⟨_, rfl⟩
          · cases h2 : packBytes m w' _ _ with
            | error p => rw [h2] at h; cases h
            | ok y => rw [h2] at h; cases h; exact ⟨_, rfl⟩
          · cases h; exact ⟨_, rfl⟩
          · cases h; exact ⟨_, rfl⟩
          · cases h
      obtain ⟨n, hr⟩ := hv
      rw [hr] at hx
      cases hty : f.ty with
      | custom c =>
        simp only [valueVar, hty] at hx
        cases hc : c.fromBits n.toNat with
        | error p => rw [hc] at hx; cases hx
        | ok code => rw [hc] at hx; cases hx; trivial
      | array len =>
        simp only [valueVar, hty] at hx
        cases hx; exact ⟨w, rfl⟩
      | int t =>
        by_cases ht : t = .bool
        · subst ht
          simp only [valueVar, hty] at hx
          cases hx; trivial
        · rw [valueVar_int hty ht] at hx
          cases hx
          cases t <;> first | exact absurd rfl ht | trivial
  | arr n =>
    cases st with
    | int w bs => exact absurd hst id
    | arr bs =>
      cases hty : f.ty with
      | array len =>
        rw [hty] at hv
        cases v <;> first | exact absurd hv id | skip
        simp only [extractCast, hty] at h
        cases h
        simp only [valueVar, hty] at hx
        cases hx
        exact ⟨⟨n, rfl⟩, hv⟩
      | custom c =>
        simp only [valueVar, hty] at hx
        generalize r.2 = y at hx
        cases y <;> simp only [reduceCtorEq] at hx
        rename_i k
        cases hc : c.fromBits k.toNat with
        | error p => rw [hc] at hx; cases hx
        | ok code => rw [hc] at hx; cases hx; trivial
      | int t =>
        by_cases ht : t = .bool
        · subst ht
          rw [hty] at hv
          cases v <;> first | exact absurd hv id | skip
          simp only [extractCast, hty] at h
          cases h
          simp only [valueVar, hty] at hx
          cases hx; trivial
        · rw [hty] at hv
          have hk : ∃ k, v = .int k := by
            cases v with
            | int n => exact ⟨n, rfl⟩
            | _ => cases t <;> first | exact absurd rfl ht | exact absurd hv id
          obtain ⟨k, rfl⟩ := hk
          simp only [extractCast, hty] at h
          cases h2 : mask128 m f.bits with
          | error p => rw [h2] at h; cases h
          | ok y =>
            rw [h2, ebind_ok] at h
            cases h
            rw [valueVar_int hty ht] at hx
            cases hx
            cases t <;> first | exact absurd rfl ht | trivial

/-! ## Statements that may return an error -/

/-- The statement ends as the computation `m` of the model does: with an error message it returns `Err`. -/
def EndsR {α : Type} (r : E Flow) (m : R (Except String α × Store)) (Q : α → Store → Env → Prop) : Prop :=
  match m with
  | .ok (.ok a, s) => ∃ env, r = .ok (.next env) ∧ Q a s env
  | .ok (.error msg, s) => ∃ env, r = .ok (.ret (.err msg) env) ∧ env.cell = s
  | .error p => r = .error (stopOf p)

section
variable {cx : Ctx} {B : Bitfield} {f : Field} {builder : Bool} {c : Store} {l sh : List (String × V)} {th : Bool}

theorem exec_seq_ret {a b : Stmt} {env env' : Env} {v : V} (h : exec cx a env = .ok (.ret v env')) :
    exec cx (.seq a b) env = .ok (.ret v env') := by run [h]

theorem exec_seq_error {a b : Stmt} {env : Env} {e : Stop} (h : exec cx a env = .error e) :
    exec cx (.seq a b) env = .error e := by run [h]

theorem gt_i (m : Mode) (w : Nat) (a b : Int) : binV m .gt (.i w a) (.i w b) = .ok (.bool (decide (b < a))) := by
  simp [binV, Rust.compare, V.ty, V.num]

theorem lt_i (m : Mode) (w : Nat) (a b : Int) : binV m .lt (.i w a) (.i w b) = .ok (.bool (decide (a < b))) := by
  simp [binV, Rust.compare, V.ty, V.num]

theorem litV_i {n w : Nat} (h : n < 2 ^ (w - 1)) (hw : 1 ≤ w) : litV n (.i w) = .ok (.i w n) := by
  have h2 : 2 ^ w = 2 * 2 ^ (w - 1) := by
    obtain ⟨k, rfl⟩ : ∃ k, w = k + 1 := ⟨w - 1, by omega⟩
    simp [Nat.pow_succ]; omega
  have : (BitVec.ofNat w n).toInt = n := by
    rw [BitVec.toInt_eq_toNat_of_lt]
    · rw [BitVec.toNat_ofNat, Nat.mod_eq_of_lt (by omega)]
    · rw [BitVec.toNat_ofNat, Nat.mod_eq_of_lt (by omega)]; omega
  simp only [litV, this]

/-- The check of signed fields. -/
theorem exec_signedCheck {v : Val} (hf : FieldOK B.backing f) (hu : f.ty.unsigned = false) (hv : HasType f.ty v)
    (hb : look "bits" l = some (argV f.ty v)) :
    exec cx (signedCheckTok f) ⟨l, th, c, sh⟩ =
      if signedTooBig f v = true then .ok (.ret (.err errTooBig) ⟨l, th, c, sh⟩) else .ok (.next ⟨l, th, c, sh⟩) := by
  have hpos := hf.pos
  cases hty : f.ty with
  | custom cd => rw [hty] at hu; cases hu
  | array len => rw [hty] at hu; cases hu
  | int t =>
    rw [hty] at hu hv hb
    have hu : t.unsigned = false := hu
    have ht : t ≠ .bool := by rintro rfl; cases hu
    have hk : ∃ k, v = .int k := by
      cases v with
      | int n => exact ⟨n, rfl⟩
      | _ => cases t <;> first | exact absurd rfl ht | exact absurd hv id
    obtain ⟨n, rfl⟩ := hk
    rw [argV_i hu] at hb
    have h1 : intTy t = .i t.bitSize := by cases t <;> first | rfl | exact absurd hu (by decide)
    simp only [signedCheckTok, signedTooBig, hty]
    by_cases hge : f.bits ≥ t.bitSize
    · rw [if_pos hge, if_pos hge]; run []
    · rw [if_neg hge, if_neg hge]
      have hp : 0 < 2 ^ (f.bits - 1) := Nat.two_pow_pos _
      have hlt : 2 ^ (f.bits - 1) < 2 ^ (t.bitSize - 1) := Nat.pow_lt_pow_right (by decide) (by omega)
      have hcast : ((2 ^ (f.bits - 1) : Nat) : Int) = (2 : Int) ^ (f.bits - 1) := by simp
      have hcast2 : ((2 ^ (t.bitSize - 1) : Nat) : Int) = (2 : Int) ^ (t.bitSize - 1) := by simp
      have hmax : ((2 ^ (f.bits - 1) - 1 : Nat) : Int) = 2 ^ (f.bits - 1) - 1 := by omega
      have hmax1 : ((2 ^ (f.bits - 1) - 1 + 1 : Nat) : Int) = 2 ^ (f.bits - 1) := by omega
      have hl1 := litV_i (w := t.bitSize) (n := 2 ^ (f.bits - 1) - 1) (by omega) (by omega)
      have hl2 := litV_i (w := t.bitSize) (n := 2 ^ (f.bits - 1) - 1 + 1) (by omega) (by omega)
      rw [hmax] at hl1
      rw [hmax1] at hl2
      have hneg : negV cx.mode (.i t.bitSize (2 ^ (f.bits - 1))) = .ok (.i t.bitSize (-(2 ^ (f.bits - 1)))) := by
        rw [negV, if_pos (by omega)]
      run [hb, h1, hl1, hl2, gt_i, lt_i, hneg, V.ty]
      by_cases c1 : (2 ^ (f.bits - 1) - 1 : Int) < n
      · have : n > 2 ^ (f.bits - 1) - 1 := c1
        run [c1, this, decide_true]
      · have : ¬ n > 2 ^ (f.bits - 1) - 1 := c1
        run [c1, this, decide_false, hb, h1, hl1, hl2, gt_i, lt_i, hneg, V.ty]
        by_cases c2 : n < -(2 ^ (f.bits - 1) : Int)
        · run [c2, decide_true]
        · run [c2, decide_false]

theorem seq_skip_left (a : Stmt) (env : Env) : exec cx (.seq .skip a) env = exec cx a env := by run []

theorem seq_skip_right {α : Type} {a : Stmt} {env : Env} {m : R α} {Q : α → Env → Prop}
    (h : Ends (exec cx a env) m Q) : Ends (exec cx (.seq a .skip) env) m Q := by
  have := ends_seq (b := .skip) (m2 := fun x => .ok x) (Q2 := Q) h (fun x env' hq => ends_skip hq)
  cases m with
  | error p => exact this
  | ok x => exact this

/-- The part of a setter after the signed check: `let value = ..`, the check of unsigned fields, the assignment. -/
theorem ends_setRest {v : Val} (check : Bool) (g : FieldCtx cx B.backing f builder)
    (hin : (if builder = true then cx.builder else th) = true) (hc : c.HasBacking B.backing)
    (hv : HasType f.ty v) (hb : look "bits" l = some (argV f.ty v)) :
    EndsR (exec cx (.all [extractTok B f .variable true false builder,
        if check && f.ty.unsigned && !f.ty.isBool && !f.ty.isArray then checkTok else .skip,
        directTok B f (valueTok f) builder]) ⟨l, th, c, sh⟩)
      (do
        let (gt, value) ← extractCast cx.mode f c v
        if check && f.ty.unsigned && !f.ty.isBool && !f.ty.isArray && gt then
          return (.error errTooBig, c)
        let x ← valueVar f value
        let s' ← directSet cx.mode f c x
        return (.ok (), s')) fun _ s' env =>
      s'.HasBacking B.backing ∧ ∃ l', env = ⟨l', th, s', sh⟩ := by
  have h1 := (ends_extractCast (sh := sh) (th := th) g hc hv hb).known
  simp only [Stmt.all]
  cases he : extractCast cx.mode f c v with
  | error p =>
    rw [he] at h1
    simp only [EndsR, ebind_error]
    exact exec_seq_error h1
  | ok r =>
    rw [he] at h1
    obtain ⟨env, hx, _, l', V, rfl, hval, hgt⟩ := h1
    rw [exec_seq_next hx, ebind_ok]
    -- the assignment
    have rest : EndsR (exec cx (.seq (directTok B f (valueTok f) builder) .skip) ⟨("value", V) :: l', th, c, sh⟩)
        (do
          let x ← valueVar f r.2
          let s' ← directSet cx.mode f c x
          return (.ok (), s')) fun _ s' env => s'.HasBacking B.backing ∧ ∃ l', env = ⟨l', th, s', sh⟩ := by
      have hd := seq_skip_right (ends_directTok (l := ("value", V) :: l') (sh := sh) g hin hc
        (fun l'' hl => yields_valueTok (by rw [hl]; run []) hval)
        (fun x hx => shaped_extractCast hc hv he hx))
      cases hv : valueVar f r.2 with
      | error p => rw [hv] at hd; exact hd
      | ok x =>
        rw [hv, ebind_ok] at hd
        rw [ebind_ok]
        cases hs : directSet cx.mode f c x with
        | error p => rw [hs] at hd; exact hd
        | ok s' =>
          rw [hs] at hd
          obtain ⟨env, he, hq, l'', rfl, _⟩ := hd
          exact ⟨_, he, hq, l'', rfl⟩
    by_cases hk : (check && f.ty.unsigned && !f.ty.isBool && !f.ty.isArray) = true
    · simp only [Bool.and_eq_true, Bool.not_eq_true'] at hk
      obtain ⟨⟨⟨rfl, hu⟩, hnb⟩, hna⟩ := hk
      obtain ⟨w, x, y, hlx, hly, hr⟩ := hgt hu hnb hna
      simp only [hu, hnb, hna, Bool.not_false, Bool.and_self, if_true, Bool.true_and, checkTok, hr]
      by_cases hlt : y < x
      · simp only [hlt, decide_true, if_true, epure]
        exact ⟨⟨("value", V) :: l', th, c, sh⟩, exec_seq_ret (by run [hlx, hly, hlt, decide_true]), rfl⟩
      · simp only [hlt, decide_false, Bool.false_eq_true, if_false]
        rw [exec_seq_next (env' := ⟨("value", V) :: l', th, c, sh⟩) (by run [hlx, hly, hlt, decide_false])]
        exact rest
    · have hk' : (check && f.ty.unsigned && !f.ty.isBool && !f.ty.isArray) = false := by simpa using hk
      simp only [hk', Bool.false_and, Bool.false_eq_true, if_false]
      rw [seq_skip_left]
      exact rest

/-- The body of `set_x` and `checked_set_x`, also where the builder has it inline. -/
theorem ends_setBody {v : Val} {use check : Bool} (hn : (f.hasSetter && use) = false)
    (g : FieldCtx cx B.backing f builder)
    (hin : (if builder = true then cx.builder else th) = true) (hc : c.HasBacking B.backing)
    (hv : HasType f.ty v) (hb : look "bits" l = some (argV f.ty v)) :
    EndsR (exec cx (setFromVarTok B f use true check builder) ⟨l, th, c, sh⟩) (setImpl cx.mode check f c v)
      fun _ s' env => s'.HasBacking B.backing ∧ ∃ l', env = ⟨l', th, s', sh⟩ := by
  have hr := ends_setRest (sh := sh) check g hin hc hv hb
  simp only [setFromVarTok, hn, Bool.and_false, Bool.false_eq_true, if_false, Bool.not_false, Bool.true_and, Bool.not_not]
  simp only [setImpl]
  rw [Stmt.all]
  by_cases hs : (check && !f.ty.unsigned) = true
  · simp only [Bool.and_eq_true, Bool.not_eq_true'] at hs
    obtain ⟨rfl, hu⟩ := hs
    have hck := exec_signedCheck (cx := cx) (th := th) (c := c) (sh := sh) g.ok hu hv hb
    simp only [hu, Bool.not_false, Bool.and_self, if_true, Bool.true_and] at hr ⊢
    by_cases hb : signedTooBig f v = true
    · rw [if_pos hb] at hck
      simp only [hb, if_true, epure]
      exact ⟨_, exec_seq_ret hck, rfl⟩
    · rw [if_neg hb] at hck
      simp only [hb, Bool.false_eq_true, if_false]
      rw [exec_seq_next hck]
      exact hr
  · have hs' : (check && !f.ty.unsigned) = false := by simpa using hs
    simp only [hs', Bool.false_and, Bool.false_eq_true, if_false]
    rw [seq_skip_left]
    exact hr

/-! ## Setting a field from the variable `bits`, to its default, to zero -/

/-- What running code for field `f` needs, including its setter if it has one. -/
structure FieldRun (cx : Ctx) (B : Bitfield) (f : Field) (builder : Bool) : Prop where
  len : ∀ len, f.ty = .array len → (∃ w, B.backing = .int w) → len < cx.fuel ∧ len < 2 ^ 60
  direct : f.hasSetter = false → FieldCtx cx B.backing f builder
  setter : f.hasSetter = true → SetterIs cx B.backing f

/-- The state after setting fields: `bits` is still there. -/
def After (B : Bitfield) (l : List (String × V)) (th : Bool) (sh : List (String × V)) (s' : Store) (env : Env) : Prop :=
  s'.HasBacking B.backing ∧ ∃ l', env = ⟨l', th, s', sh⟩ ∧ look "bits" l' = look "bits" l

/-- `this.set_x(e)` or the assignment in its place. -/
theorem ends_assign {e : Expr} {vm : R Val} (g : FieldRun cx B f builder)
    (hin : (if builder = true then cx.builder else th) = true) (hc : c.HasBacking B.backing)
    (hy : ∀ l', look "value" l' = look "value" l → Yields cx e B.backing f.ty vm ⟨l', th, c, sh⟩)
    (hsh : ∀ v, vm = .ok v → Shaped B.backing f.ty v) :
    Ends (exec cx (if f.hasSetter then setterCallTok B f e builder else directTok B f e builder) ⟨l, th, c, sh⟩)
      (vm >>= fun x => if f.hasSetter then setterCall cx.mode f c x else directSet cx.mode f c x)
      (After B l th sh) := by
  cases hset : f.hasSetter
  · simp only [Bool.false_eq_true, if_false]
    exact ends_directTok (g.direct hset) hin hc hy hsh
  · simp only [if_true]
    refine (ends_setterCallTok g.len hin hc (g.setter hset) (hy l rfl) hsh).weaken ?_
    rintro s' env ⟨h1, rfl⟩
    exact ⟨h1, l, rfl, rfl⟩

theorem ends_setFromSource {src : Store} (g : FieldRun cx B f false) (gc : FieldCtx cx B.backing f false) (hth : th = true) (hc : c.HasBacking B.backing)
    (hb : look "bits" l = some (ofStore src)) (hsrc : src.HasBacking B.backing) :
    Ends (exec cx (setFromVarTok B f true false false false) ⟨l, th, c, sh⟩) (setFromSource cx.mode f src c)
      (After B l th sh) := by
  have h1 := (exec_extractTok (builder := false) (inv := false) (sh := sh) (th := th) (c := c) (src := .variable)
    gc hb hsrc).known
  have e : setFromVarTok B f true false false false = .all [.skip, extractTok B f .variable false false false, .skip,
      if f.hasSetter then setterCallTok B f (valueTok f) false else directTok B f (valueTok f) false] := by
    simp [setFromVarTok]
  rw [e]
  simp only [Stmt.all, seq_skip_left, setFromSource]
  refine ends_seq h1 ?_
  rintro v env ⟨hv, l', V, rfl, hl, hval, -⟩
  rw [seq_skip_left]
  refine (seq_skip_right (ends_assign (l := ("value", V) :: l') g hth hc
    (fun l'' hl => yields_valueTok (by rw [hl]; run []) hval) (fun x hx => shaped_extract hsrc hv hx))).weaken ?_
  rintro s' env ⟨h1, l2, rfl, h2⟩
  refine ⟨h1, l2, rfl, h2.trans ?_⟩
  run [hl]

theorem ends_setDefault (g : FieldRun cx B f false) (hth : th = true) (hc : c.HasBacking B.backing)
    (hd : f.hasDefault = true) (hs : ∀ v, f.default = some v → Shaped B.backing f.ty v) :
    Ends (exec cx (setDefaultTok B f) ⟨l, th, c, sh⟩) (setDefault cx.mode f c) (After B l th sh) := by
  cases hv : f.default with
  | none => simp [Field.hasDefault, hv] at hd
  | some v =>
    simp only [setDefaultTok, setDefault, hv]
    exact ends_assign (vm := .ok v) g hth hc (fun l' _ => yields_user (hs v hv)) (by rintro x ⟨⟩; exact hs _ hv)

theorem shaped_zeroVal {b : Backing} {s : Store} {v : Val} (hs : s.HasBacking b) (h : zeroVal f s = .ok v) :
    Shaped b f.ty v := by
  cases hty : f.ty with
  | custom c =>
    simp only [zeroVal, hty] at h
    cases hc : c.fromBits 0 with
    | error p => rw [hc] at h; cases h
    | ok code => rw [hc] at h; cases h; trivial
  | array len =>
    simp only [zeroVal, hty] at h
    cases s with
    | int w x =>
      cases b with
      | int w' => cases h; exact ⟨w', rfl⟩
      | arr n => exact absurd hs id
    | arr bs =>
      cases b with
      | int w' => exact absurd hs id
      | arr n => cases h; exact ⟨⟨n, rfl⟩, by simp⟩
  | int t =>
    simp only [zeroVal, hty] at h
    cases t <;> (cases h; trivial)

theorem ends_setZero (g : FieldRun cx B f false) (hth : th = true) (hc : c.HasBacking B.backing) :
    Ends (exec cx (setZeroTok B f) ⟨l, th, c, sh⟩) (setZero cx.mode f c) (After B l th sh) := by
  simp only [setZeroTok, setZero]
  exact ends_assign g hth hc (fun l' _ => yields_zeroTok hc) (fun x hx => shaped_zeroVal hc hx)

/-- The statements of several fields, one after the other. -/
theorem ends_forFields {tok : Field → Stmt} {body : Field → Store → R Store} :
    ∀ (fs : List Field) {l : List (String × V)} {c : Store}, c.HasBacking B.backing →
    (∀ f ∈ fs, ∀ l' c', c'.HasBacking B.backing → look "bits" l' = look "bits" l →
      Ends (exec cx (tok f) ⟨l', th, c', sh⟩) (body f c') (After B l' th sh)) →
    Ends (exec cx (.all (fs.map tok)) ⟨l, th, c, sh⟩) (forFields fs body c) (After B l th sh) := by
  intro fs
  induction fs with
  | nil =>
    intro l c hc _
    exact ends_skip ⟨hc, l, rfl, rfl⟩
  | cons f fs ih =>
    intro l c hc h
    have e : forFields (f :: fs) body c = body f c >>= forFields fs body := by
      simp only [forFields, List.foldlM_cons]; rfl
    rw [e]
    simp only [List.map_cons, Stmt.all]
    refine ends_seq (h f (by simp) l c hc rfl) ?_
    rintro s env ⟨hs, l', rfl, hl⟩
    refine (ih hs fun f' hf' l2 c2 hc2 hl2 => h f' (by simp [hf']) l2 c2 hc2 (hl2.trans hl)).weaken ?_
    rintro s' env ⟨hs', l2, rfl, hl2⟩
    exact ⟨hs', l2, rfl, hl2.trans hl⟩

end

/-! ## All fields -/

/-- What running code for all fields needs. -/
structure BodyCtx (cx : Ctx) (B : Bitfield) : Prop where
  field : ∀ f ∈ B.fields, FieldRun cx B f false
  default : ∀ f ∈ B.fields, ∀ v, f.default = some v → Shaped B.backing f.ty v
  box : cx.boxed = B.heap

section
variable {cx : Ctx} {B : Bitfield} {c : Store} {l sh : List (String × V)} {th : Bool}

theorem ends_setAll {src : Store} {p : Protection} (g : BodyCtx cx B)
    (gc : ∀ f ∈ B.fields, FieldCtx cx B.backing f false) (hth : th = true) (hc : c.HasBacking B.backing)
    (hb : look "bits" l = some (ofStore src)) (hsrc : src.HasBacking B.backing) :
    Ends (exec cx (setAllTok B p) ⟨l, th, c, sh⟩) (setAllFromSource cx.mode B p src c) (After B l th sh) := by
  refine ends_forFields _ hc ?_
  intro f hf l' c' hc' hl'
  exact ends_setFromSource (g.field f (List.mem_filter.1 hf).1) (gc f (List.mem_filter.1 hf).1) hth hc' (hl'.trans hb) hsrc

theorem ends_setDefaults (g : BodyCtx cx B) (hth : th = true) (hc : c.HasBacking B.backing) :
    Ends (exec cx (setDefaultsTok B) ⟨l, th, c, sh⟩) (setDefaults cx.mode B c) (After B l th sh) := by
  refine ends_forFields _ hc ?_
  intro f hf l' c' hc' hl'
  have hf := List.mem_filter.1 hf
  exact ends_setDefault (g.field f hf.1) hth hc' hf.2 (g.default f hf.1)

theorem ends_newBody {d : Bool} (g : BodyCtx cx B) (hth : th = true) (hc : c.HasBacking B.backing) :
    Ends (exec cx (newTok B d false true) ⟨l, th, c, sh⟩) (newBody cx.mode B d c) (After B l th sh) := by
  have e : newTok B d false true = .seq .skip (.seq (setZerosTok B d)
      (.seq (if d then setDefaultsTok B else .skip) (.seq (if d then .skip
       else .all ((B.fields.filter fun f => f.reserved && f.hasDefault).map (setDefaultTok B))) .skip))) := rfl
  rw [e, seq_skip_left]
  simp only [newBody]
  refine ends_seq (m1 := setZeros cx.mode B d c) (Q1 := After B l th sh) (ends_forFields _ hc ?_) ?_
  · intro f hf l' c' hc' hl'
    exact ends_setZero (g.field f (List.mem_filter.1 hf).1) hth hc'
  · rintro s env ⟨hs, l', rfl, hl⟩
    cases d
    · simp only [Bool.false_eq_true, if_false]
      rw [seq_skip_left]
      refine (seq_skip_right (ends_forFields (sh := sh) (th := th) _ hs ?_)).weaken ?_
      · intro f hf l' c' hc' hl'
        have hf := List.mem_filter.1 hf
        simp only [Bool.and_eq_true] at hf
        exact ends_setDefault (g.field f hf.1) hth hc' hf.2.2 (g.default f hf.1)
      · rintro s' env ⟨hs', l2, rfl, hl2⟩
        exact ⟨hs', l2, rfl, hl2.trans hl⟩
    · simp only [if_true]
      have h2 := seq_skip_right (seq_skip_right (ends_setDefaults (l := l') (sh := sh) g hth hs))
      have h3 : ∀ env, exec cx (.seq (setDefaultsTok B) (.seq .skip .skip)) env =
          exec cx (.seq (.seq (setDefaultsTok B) .skip) .skip) env := by
        intro env
        run []
        cases exec cx (setDefaultsTok B) env with
        | error e => rfl
        | ok fl => cases fl <;> rfl
      rw [h3]
      refine h2.weaken ?_
      rintro s' env ⟨hs', l2, rfl, hl2⟩
      exact ⟨hs', l2, rfl, hl2.trans hl⟩

/-- `let mut this = Self(0);` -/
theorem exec_init {l : List (String × V)} {b mu : Bool} (hx : cx.boxed = B.heap) (hcx : (b || !cx.builder) = true)
    (hc : c.HasBacking B.backing) :
    exec cx (initTok B b mu) ⟨l, th, c, sh⟩ = .ok (.next ⟨l, true, initStore B, sh⟩) := by
  simp only [initTok, initStore]
  cases hB : B.backing with
  | int w =>
    rw [hB] at hc
    cases c with
    | arr bs => exact absurd hc id
    | int w' s =>
      obtain rfl : w' = w := hc
      run [hcx, storeTy, storeAs]
      simp only [bv, BitVec.ofNat_toNat, BitVec.setWidth_eq, if_true, ebind_ok]
  | arr n =>
    rw [hB] at hc
    cases c with
    | int w bs => exact absurd hc id
    | arr bs =>
      have : bs.length = n := hc
      cases hh : B.heap <;>
      run [hcx, storeTy, storeAs, this, hx, hh, boxV, List.length_replicate, decide_true]

/-- The stored array. -/
theorem eval_innerArr {bs : List (BitVec 8)} {exp : Option Ty} (hx : cx.boxed = B.heap) :
    eval cx (innerArrTok B) exp ⟨l, true, .arr bs, sh⟩ = .ok (.arr bs, ⟨l, true, .arr bs, sh⟩) := by
  cases hh : B.heap <;> run [innerArrTok, hh, Ctx.hasInner, innerV, hx, derefV]

end

end Bf
