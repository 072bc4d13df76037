import Verif.Lemmas.CodeBody

/-!
# Running generated functions: getters, setters and the functions of one field
-/

namespace Bf

open Rust Quote

set_option linter.unusedSimpArgs false

/-! ## Surroundings -/

/-- The surroundings in which the code of bitfield `B` runs, without the setters. -/
structure Base (cx : Ctx) (B : Bitfield) : Prop where
  bits : ∀ f ∈ B.fields, f.hasConstants = true → cx.const .bitsConst f.name = some f.bits
  off : ∀ f ∈ B.fields, f.hasConstants = true → cx.const .offsetConst f.name = some f.offset
  fuel : 2 ^ 64 ≤ cx.fuel
  ok : ∀ f ∈ B.fields, FieldOK B.backing f
  back : B.backing.OK
  len : ∀ f ∈ B.fields, ∀ len, f.ty = .array len → (∃ w, B.backing = .int w) → len < 2 ^ 60
  default : ∀ f ∈ B.fields, ∀ v, f.default = some v → Shaped B.backing f.ty v
  box : cx.boxed = B.heap

/-- The surroundings in which the code of bitfield `B` runs. -/
structure Surround (cx : Ctx) (B : Bitfield) : Prop extends Base cx B where
  setter : ∀ f ∈ B.fields, f.hasSetter = true → SetterIs cx B.backing f

/-- The surroundings inside a function. -/
abbrev inside (cx : Ctx) (builder : Bool) (t : Ty) : Ctx := { cx with builder := builder, ret := t }

theorem bv32_lit {n : Nat} (h : n < 2 ^ 32) : bv (BitVec.ofNat 32 n) = .u 32 n := by
  rw [bv, BitVec.toNat_ofNat, Nat.mod_eq_of_lt h]

theorem size_lt {b : Backing} (h : b.OK) : b.size < 2 ^ 32 := by
  cases b with
  | int w => simp only [Backing.OK, Backing.size] at *; omega
  | arr n => simp only [Backing.OK, Backing.size] at *; omega

section
variable {cx : Ctx} {B : Bitfield} {f : Field} {c : Store} {l sh : List (String × V)} {th : Bool} {t : Ty} {b : Bool}

theorem Base.fieldCtx (g : Base cx B) (hf : f ∈ B.fields) : FieldCtx (inside cx b t) B.backing f b := by
  have hok := g.ok f hf
  have hfits := hok.fits
  have hsz := size_lt g.back
  have hfuel := g.fuel
  refine ⟨?_, ?_, ?_, ?_, hok, g.back⟩
  · intro exp env
    simp only [bitsTok]
    split
    · rename_i h
      simp only [eval, g.bits f hf h]
      cases b <;> rfl
    · run [bv32_lit (show f.bits < 2 ^ 32 by omega)]
  · intro exp env
    simp only [offTok]
    split
    · rename_i h
      simp only [eval, g.off f hf h]
      cases b <;> rfl
    · run [bv32_lit (show f.offset < 2 ^ 32 by omega)]
  · show f.bits < cx.fuel
    omega
  · intro len hty hw
    have := g.len f hf len hty hw
    exact ⟨show len < cx.fuel by omega, this⟩

theorem SetterIs.inside (h : SetterIs cx B.backing f) : SetterIs (inside cx b t) B.backing f := h

theorem Surround.bodyCtx (g : Surround cx B) : BodyCtx (inside cx false t) B where
  field f hf := ⟨(g.toBase.fieldCtx (b := false) (t := t) hf).len, fun _ => g.fieldCtx hf, fun h => g.setter f hf h⟩
  default := g.default
  box := g.box

end

/-! ## Calling a function -/

/-- The call ends as the computation `m` of the model does. -/
def Returns {α : Type} (r : E (V × Env)) (m : R α) (Q : α → V → Env → Prop) : Prop :=
  match m with
  | .ok a => ∃ v env, r = .ok (v, env) ∧ Q a v env
  | .error p => r = .error (stopOf p)

/-- The expression at the end of a function, of type `t`, ends as the computation `m` of the model does. -/
def Tail {α : Type} (r : E (V × Env)) (t : Ty) (m : R α) (Q : α → V → Env → Prop) : Prop :=
  match m with
  | .ok a => ∃ v v' env, r = .ok (v, env) ∧ coerce v t = .ok v' ∧ Q a v' env
  | .error p => r = .error (stopOf p)

theorem Returns.weaken {α : Type} {r : E (V × Env)} {m : R α} {Q Q' : α → V → Env → Prop} (h : Returns r m Q)
    (hq : ∀ a v env, Q a v env → Q' a v env) : Returns r m Q' := by
  cases m with
  | error p => exact h
  | ok x => obtain ⟨v, env, he, h⟩ := h; exact ⟨v, env, he, hq _ _ _ h⟩

theorem Returns.map {α β : Type} {r : E (V × Env)} {m : R α} {g : α → β} {Q : β → V → Env → Prop}
    (h : Returns r m fun a v env => Q (g a) v env) : Returns r (m >>= fun a => pure (g a)) Q := by
  cases m with
  | error p => exact h
  | ok x => exact h

theorem returns_run {α β : Type} {cx : Ctx} {f : Fn} {args : List V} {cell : Store} {l : List (String × V)}
    {m1 : R α} {m2 : α → R β} {Q1 : α → Env → Prop} {Q2 : β → V → Env → Prop}
    (hl : bindArgs f.params args = .ok l)
    (h1 : Ends (exec (inside cx f.builder f.ret) f.body ⟨l, false, cell, []⟩) m1 Q1)
    (h2 : ∀ a env, Q1 a env → Tail (eval (inside cx f.builder f.ret) f.tail (some f.ret) env) f.ret (m2 a) Q2) :
    Returns (f.run cx args cell) (m1 >>= m2) Q2 := by
  simp only [Fn.run, hl, ebind_ok]
  cases m1 with
  | error p =>
    simp only [Ends] at h1
    simp only [Returns, ebind_error, h1]
  | ok a =>
    obtain ⟨env, he, hq⟩ := h1
    have h2 := h2 a env hq
    rw [he, ebind_ok, ebind_ok]
    cases hm : m2 a with
    | error p =>
      rw [hm] at h2
      simp only [Tail] at h2
      simp only [Returns, h2, ebind_error]
    | ok x =>
      rw [hm] at h2
      obtain ⟨v, v', env', h3, h4, h5⟩ := h2
      exact ⟨v', env', by simp only [h3, h4, ebind_ok, epure], h5⟩

/-- A function that ends with `()`. -/
theorem returns_unit {α : Type} {cx : Ctx} {f : Fn} {args : List V} {cell : Store} {l : List (String × V)}
    {m : R α} {Q : α → Env → Prop} (hl : bindArgs f.params args = .ok l) (ht : f.tail = .unit) (hr : f.ret = .unit)
    (h1 : Ends (exec (inside cx f.builder f.ret) f.body ⟨l, false, cell, []⟩) m Q) :
    Returns (f.run cx args cell) m fun a v env => v = .unit ∧ Q a env := by
  have := returns_run (m2 := fun a => .ok a) (Q2 := fun a v env => v = .unit ∧ Q a env) hl h1 (by
    intro a env hq
    rw [ht, hr]
    exact ⟨.unit, .unit, env, by run [], rfl, rfl, hq⟩)
  cases m with
  | error p => exact this
  | ok x => exact this

/-- A function that ends with `Ok(())`. -/
theorem returns_checked {cx : Ctx} {f : Fn} {args : List V} {cell : Store} {l : List (String × V)}
    {m : R (Except String Unit × Store)} {Q : Unit → Store → Env → Prop} (hl : bindArgs f.params args = .ok l)
    (ht : f.tail = .okE .unit) (hr : f.ret = .result .unit)
    (h1 : EndsR (exec (inside cx f.builder f.ret) f.body ⟨l, false, cell, []⟩) m Q)
    (hq : ∀ s env, Q () s env → env.cell = s) :
    Returns (f.run cx args cell) m fun r v env => env.cell = r.2 ∧
      v = match r.1 with
        | .ok () => .ok .unit
        | .error msg => .err msg := by
  simp only [Fn.run, hl, ebind_ok]
  cases m with
  | error p =>
    simp only [EndsR] at h1
    simp only [Returns, ebind_error, h1]
  | ok r =>
    obtain ⟨r, s⟩ := r
    cases r with
    | error msg =>
      obtain ⟨env, he, hc⟩ := h1
      exact ⟨.err msg, env, by rw [he, hr]; run [], hc, rfl⟩
    | ok u =>
      obtain ⟨env, he, hc⟩ := h1
      refine ⟨.ok .unit, env, ?_, hq _ _ hc, rfl⟩
      rw [he, ht, hr]; run []

/-- Running the statements after `let this = self;`. -/
theorem exec_letThis {cx : Ctx} {a : Stmt} {l sh : List (String × V)} {c : Store} {t : Ty} {th : Bool} :
    exec (inside cx false t) (.seq .letThis a) ⟨l, th, c, sh⟩ = exec (inside cx false t) a ⟨l, true, c, sh⟩ := by
  run []

/-! ## The value of a field -/

/-- `V` is the field's value `v` as the variable `value` holds it before it is returned. -/
def RetV (b : Backing) (f : Field) (v : Val) (V : V) : Prop :=
  match v with
  | .int n => V.num = some n ∧ (f.ty.isBool = true → ∃ (w : Nat) (x : BitVec w), V = bv x) ∧
      (f.ty.isArray = true → ∃ w, b = .int w)
  | .arr a => V = .arr a ∧ f.ty = .array a.length ∧ ∃ n, b = .arr n
  | _ => False

section
variable {cx : Ctx} {B : Bitfield} {f : Field} {c : Store} {l sh : List (String × V)} {th : Bool} {b : Bool}

theorem extract_arr_int {m : Mode} {inv : Bool} {st : Store} {n : Int} {b : Backing} (hst : st.HasBacking b)
    (h : extract m f inv st = .ok (.int n)) (ha : f.ty.isArray = true) : ∃ w, b = .int w := by
  cases b with
  | int w => exact ⟨w, rfl⟩
  | arr k =>
    cases st with
    | int w s => exact absurd hst id
    | arr bs =>
      cases hty : f.ty with
      | array len =>
        simp only [extract, hty] at h
        cases h1 : readArr m inv bs f.offset f.bits len with
        | error p => rw [h1] at h; cases h
        | ok a => rw [h1] at h; cases h
      | int t => rw [hty] at ha; cases ha
      | custom c => rw [hty] at ha; cases ha

theorem retV_of_valued {m : Mode} {inv : Bool} {st : Store} {v : Val} {V : V} {b : Backing} (hst : st.HasBacking b)
    (h : extract m f inv st = .ok v) (hv : Valued b f v V) : RetV b f v V := by
  cases v with
  | int n => exact ⟨hv.1, hv.2.2, fun ha => extract_arr_int hst h ha⟩
  | arr a => exact hv
  | bool x => exact hv
  | custom x => exact hv

theorem valueToField_type {m : Mode} {b : Backing} {v x : Val} {V : V} (hr : RetV b f v V)
    (h : valueToField m f v = .ok x) : HasType f.ty x := by
  cases hty : f.ty with
  | custom cd =>
    cases v <;> simp only [valueToField, hty, reduceCtorEq] at h
    rename_i n
    cases hc : cd.fromBits n.toNat with
    | error p => rw [hc] at h; cases h
    | ok code => rw [hc] at h; cases h; trivial
  | array len =>
    cases v <;> simp only [valueToField, hty, reduceCtorEq] at h
    · rename_i n
      cases hu : unpack m len (BitVec.ofInt 128 n) with
      | error p => rw [hu] at h; cases h
      | ok a => rw [hu] at h; cases h; exact unpack_length hu
    · cases h
      have := hr.2.1
      rw [hty] at this
      cases this
      rfl
  | int t =>
    by_cases ht : t = .bool
    · subst ht
      cases v <;> simp only [valueToField, hty, reduceCtorEq] at h
      cases h; trivial
    · have : ∃ n, v = .int n := by
        cases v with
        | int n => exact ⟨n, rfl⟩
        | arr a => have := hr.2.1; rw [hty] at this; cases this
        | bool x => exact absurd hr id
        | custom x => exact absurd hr id
      obtain ⟨n, rfl⟩ := this
      have e : valueToField m f (.int n) = .ok (.int (t.cast n)) := by
        simp only [valueToField, hty]
      rw [e] at h; cases h
      exact IntTy.cast_range t ht n

/-- The expression a getter returns. -/
theorem eval_returnTok {v : Val} {V : V} (g : FieldCtx cx B.backing f b) (hv : look "value" l = some V)
    (hr : RetV B.backing f v V) :
    eval cx (returnTok B f) (some (fieldTy f.ty)) ⟨l, th, c, sh⟩ =
      (liftE (valueToField cx.mode f v)).map fun x => (argV f.ty x, ⟨l, th, c, sh⟩) := by
  cases v with
  | bool x => exact absurd hr id
  | custom x => exact absurd hr id
  | arr a =>
    obtain ⟨rfl, hty, n, hB⟩ := hr
    simp only [returnTok, hty, hB, valueToField]
    run [hv, argV]
  | int n =>
    obtain ⟨hnum, hbool, harr⟩ := hr
    cases hty : f.ty with
    | custom cd =>
      simp only [returnTok, hty, valueToField]
      run [hv, hnum]
      cases cd.fromBits n.toNat with
      | error p => cases p <;> rfl
      | ok code => simp only [userCall, ebind_ok, emap_ok, epure, liftE_ok, argV]
    | array len =>
      obtain ⟨w, hB⟩ := harr (by rw [hty]; rfl)
      obtain ⟨hl1, hl2⟩ := g.len len hty ⟨w, hB⟩
      simp only [returnTok, hty, hB, valueToField]
      rw [eval_unpackTok (V := V) (x := BitVec.ofInt 128 n) (.inr rfl) (by run [hv]) (castV_num hnum 128) hl1 hl2]
      cases unpack cx.mode len (BitVec.ofInt 128 n) with
      | error p => simp only [ebind_error, liftE_err, emap_error]
      | ok a => simp only [liftE_ok, emap_ok, ebind_ok, epure, argV]
    | int t =>
      by_cases ht : t = .bool
      · subst ht
        obtain ⟨w, x, rfl⟩ := hbool (by rw [hty]; rfl)
        simp only [returnTok, hty, valueToField]
        cases hnum
        run [hv, argV, bne_toNat]
      · have e1 : returnTok B f = .castInfer (.var "value") := by
          simp only [returnTok, hty]
        have e2 : valueToField cx.mode f (.int n) = .ok (.int (t.cast n)) := by
          simp only [valueToField, hty]
        rw [e1, e2]
        run [hv, fieldTy, castV_intTy hnum ht]

theorem i_ty {w : Nat} {n : Int} : (V.i w n).ty = some (.i w) := rfl

theorem shl_i (m : Mode) {w : Nat} (x : BitVec w) (k : Nat) :
    binV m .shl (.i w x.toInt) (.u 32 k) = (liftE (shl m x k)).map fun y => .i w y.toInt := by
  have h : ¬ (k : Int) < 0 := by omega
  simp only [binV, u_num, shiftV, h, if_false, Int.toNat_natCast, BitVec.ofInt_toInt, if_true, shl]
  by_cases hk : k < w
  · simp only [hk, if_true]; rfl
  · cases m <;> simp only [hk, if_false, overflow] <;> rfl

theorem shr_i (m : Mode) {w : Nat} (x : BitVec w) (k : Nat) :
    binV m .shr (.i w x.toInt) (.u 32 k) = (liftE (sshr m x k)).map fun y => .i w y.toInt := by
  have h : ¬ (k : Int) < 0 := by omega
  simp only [binV, u_num, shiftV, h, if_false, Int.toNat_natCast, BitVec.ofInt_toInt, sshr]
  by_cases hk : k < w
  · simp only [hk, if_true]; rfl
  · cases m <;> simp only [hk, if_false, overflow] <;> rfl

/-- Sign extension in a getter. -/
theorem ends_signExtend {v : Val} {V : V} (g : FieldCtx cx B.backing f b) (hv : look "value" l = some V)
    (hr : RetV B.backing f v V) :
    Ends (exec cx (signExtendTok f) ⟨l, th, c, sh⟩) (signExtendVal cx.mode f v) fun v' env =>
      ∃ l' V', env = ⟨l', th, c, sh⟩ ∧ look "value" l' = some V' ∧ RetV B.backing f v' V' := by
  have stay : Ends (exec cx .skip ⟨l, th, c, sh⟩) (.ok v) fun v' env =>
      ∃ l' V', env = ⟨l', th, c, sh⟩ ∧ look "value" l' = some V' ∧ RetV B.backing f v' V' :=
    ends_skip ⟨l, V, rfl, hv, hr⟩
  have hlt := g.bits_lt
  cases hty : f.ty with
  | custom cd =>
    have e : signExtendVal cx.mode f v = .ok v := by simp only [signExtendVal, hty]
    rw [e, signExtendTok, hty]
    exact stay
  | array len =>
    have e : signExtendVal cx.mode f v = .ok v := by simp only [signExtendVal, hty]
    have e2 : signExtendTok f = .skip := by simp only [signExtendTok, hty, DataType.unsigned, if_true]
    rw [e, e2]
    exact stay
  | int t =>
    have : ∃ n, v = .int n := by
      cases v with
      | int n => exact ⟨n, rfl⟩
      | arr a => have := hr.2.1; rw [hty] at this; cases this
      | bool x => exact absurd hr id
      | custom x => exact absurd hr id
    obtain ⟨n, rfl⟩ := this
    cases hu : t.unsigned
    · have h1 : intTy t = .i t.bitSize := by cases t <;> first | rfl | exact absurd hu (by decide)
      have h2 : castV V (.i t.bitSize) = .ok (.i t.bitSize (BitVec.ofInt t.bitSize n).toInt) := by
        have hn := hr.1
        cases V <;> simp only [V.num, reduceCtorEq, Option.some.injEq] at hn <;> subst hn <;> rfl
      have h3 : (DataType.int t).unsigned = false := hu
      have hsz : t.bitSize < 2 ^ 32 := by cases t <;> decide
      simp only [signExtendTok, signExtendVal, hty, h3, hu, Bool.false_eq_true, if_false]
      cases hs : subU32 cx.mode t.bitSize f.bits with
      | error p =>
        simp only [Ends, ebind_error]
        run [bv32_lit hsz, bv32_lit (show f.bits < 2 ^ 32 by omega), hs]
      | ok k =>
        simp only [ebind_ok]
        cases hx : shl cx.mode (BitVec.ofInt t.bitSize n) k with
        | error p =>
          simp only [Ends, ebind_error]
          run [bv32_lit hsz, bv32_lit (show f.bits < 2 ^ 32 by omega), hs, hv, h1, h2, shl_i, hx, i_ty]
        | ok x =>
          simp only [ebind_ok]
          cases hy : sshr cx.mode x k with
          | error p =>
            simp only [Ends, ebind_error]
            run [bv32_lit hsz, bv32_lit (show f.bits < 2 ^ 32 by omega), hs, hv, h1, h2, shl_i, hx, shr_i, hy, i_ty]
          | ok y =>
            refine ⟨⟨("value", .i t.bitSize y.toInt) :: ("value", .i t.bitSize (BitVec.ofInt t.bitSize n).toInt) ::
              ("shift", .u 32 k) :: l, th, c, sh⟩, ?_, _, .i t.bitSize y.toInt, rfl, by run [], rfl, ?_, ?_⟩
            · run [bv32_lit hsz, bv32_lit (show f.bits < 2 ^ 32 by omega), hs, hv, h1, h2, shl_i, hx, shr_i, hy, i_ty]
            · rw [hty]; intro h; exfalso; cases t <;> first | exact absurd h (by decide) | exact absurd hu (by decide)
            · rw [hty]; intro h; cases h
    · have e : signExtendVal cx.mode f (.int n) = .ok (.int n) := by simp only [signExtendVal, hty, hu, if_true]
      have h3 : (DataType.int t).unsigned = true := hu
      have e2 : signExtendTok f = .skip := by simp only [signExtendTok, hty, h3, if_true]
      rw [e, e2]
      exact stay

end

/-! ## Functions of one field -/

section
variable {cx : Ctx} {B : Bitfield} {f : Field} {s : Store}

/-- The expression a getter returns, as the end of a function. -/
theorem tail_returnTok {l sh : List (String × V)} {th : Bool} {v : Val} {V : V} {t : Ty} {b : Bool}
    (g : FieldCtx (inside cx b t) B.backing f b) (ht : t = fieldTy f.ty) (hv : look "value" l = some V)
    (hr : RetV B.backing f v V) :
    Tail (eval (inside cx b t) (returnTok B f) (some t) ⟨l, th, s, sh⟩) t (valueToField cx.mode f v)
      fun x r env => r = argV f.ty x ∧ env = ⟨l, th, s, sh⟩ ∧ HasType f.ty x := by
  subst ht
  rw [eval_returnTok g hv hr]
  cases hx : valueToField cx.mode f v with
  | error p => simp only [Tail, liftE_err, emap_error]
  | ok x =>
    exact ⟨_, _, _, rfl, coerce_argV (valueToField_type hr hx), rfl, rfl, valueToField_type hr hx⟩

theorem returns_getter (g : Base cx B) (hf : f ∈ B.fields) (hs : s.HasBacking B.backing) :
    Returns ((getterFn B f).run cx [] s) (getX cx.mode f s) fun x v env =>
      v = argV f.ty x ∧ env.cell = s ∧ HasType f.ty x := by
  have gc : FieldCtx (inside cx false (fieldTy f.ty)) B.backing f false := g.fieldCtx hf
  have h1 := (exec_extractTok (src := .bitfield) (inv := false) (sh := []) (th := true) (c := s) (st := s) (l := [])
    gc ⟨rfl, rfl⟩ hs).known
  have hE : Ends (exec (inside cx false (fieldTy f.ty)) (getterFn B f).body ⟨[], false, s, []⟩)
      (extract cx.mode f false s >>= signExtendVal cx.mode f) fun v env =>
      ∃ l' V', env = ⟨l', true, s, []⟩ ∧ look "value" l' = some V' ∧ RetV B.backing f v V' := by
    simp only [getterFn, Stmt.all, exec_letThis]
    refine ends_seq h1 ?_
    rintro v env ⟨hv, l', V, rfl, _, hval, -⟩
    exact seq_skip_right (ends_signExtend gc (by run []) (retV_of_valued hs hv hval))
  have := returns_run (cx := cx) (f := getterFn B f) (args := []) (m2 := valueToField cx.mode f)
    (Q2 := fun x v env => v = argV f.ty x ∧ env.cell = s ∧ HasType f.ty x) rfl hE (by
      rintro v env ⟨l', V', rfl, hl, hr⟩
      have := tail_returnTok (sh := []) (th := true) (s := s) gc rfl hl hr
      cases hx : valueToField cx.mode f v with
      | error p => rw [hx] at this; exact this
      | ok x =>
        rw [hx] at this
        obtain ⟨v, v', env, h1, h2, h3, rfl, h4⟩ := this
        exact ⟨v, v', _, h1, h2, h3, rfl, h4⟩)
  simp only [getX]
  cases he : extract cx.mode f false s with
  | error p => rw [he] at this; exact this
  | ok v => rw [he] at this; exact this

theorem returns_inverted (g : Base cx B) (hf : f ∈ B.fields) (hs : s.HasBacking B.backing) :
    Returns ((invertedFn B f).run cx [] s) (invertedX cx.mode f s) fun x v env =>
      v = argV f.ty x ∧ env.cell = s ∧ HasType f.ty x := by
  have gc : FieldCtx (inside cx false (fieldTy f.ty)) B.backing f false := g.fieldCtx hf
  have h1 := (exec_extractTok (src := .bitfield) (inv := true) (sh := []) (th := true) (c := s) (st := s) (l := [])
    gc ⟨rfl, rfl⟩ hs).known
  have hE : Ends (exec (inside cx false (fieldTy f.ty)) (invertedFn B f).body ⟨[], false, s, []⟩)
      (extract cx.mode f true s) fun v env =>
      ∃ l' V', env = ⟨l', true, s, []⟩ ∧ look "value" l' = some V' ∧ RetV B.backing f v V' := by
    simp only [invertedFn, Stmt.all, exec_letThis]
    refine (seq_skip_right h1).weaken ?_
    rintro v env ⟨hv, l', V, rfl, _, hval, -⟩
    exact ⟨_, V, rfl, by run [], retV_of_valued hs hv hval⟩
  exact returns_run (cx := cx) (f := invertedFn B f) (args := []) (m2 := valueToField cx.mode f)
    (Q2 := fun x v env => v = argV f.ty x ∧ env.cell = s ∧ HasType f.ty x) rfl hE (by
      rintro v env ⟨l', V', rfl, hl, hr⟩
      have := tail_returnTok (sh := []) (th := true) (s := s) gc rfl hl hr
      cases hx : valueToField cx.mode f v with
      | error p => rw [hx] at this; exact this
      | ok x =>
        rw [hx] at this
        obtain ⟨v, v', env, h1, h2, h3, rfl, h4⟩ := this
        exact ⟨v, v', _, h1, h2, h3, rfl, h4⟩)

theorem bindArgs_one {t : DataType} {v : Val} (hv : HasType t v) :
    bindArgs [("bits", fieldTy t)] [argV t v] = .ok [("bits", argV t v)] := by
  simp only [bindArgs, coerce_argV hv, ebind_ok, epure]

theorem returns_setter {v : Val} (g : Base cx B) (hf : f ∈ B.fields) (hs : s.HasBacking B.backing)
    (hv : HasType f.ty v) :
    Returns ((setterFn B f).run cx [argV f.ty v] s) (setX cx.mode f s v) fun s' v env => v = .unit ∧ env.cell = s' := by
  have gc : FieldCtx (inside cx false .unit) B.backing f false := g.fieldCtx hf
  have h1 := ends_setBody (use := false) (check := false) (l := [("bits", argV f.ty v)]) (sh := []) (th := true)
    (by simp) gc rfl hs hv (by run [])
  refine returns_unit (bindArgs_one hv) rfl rfl ?_
  simp only [setterFn, Stmt.all, exec_letThis]
  refine seq_skip_right ?_
  simp only [setX]
  show Ends _ (setImpl (inside cx false .unit).mode false f s v >>= _) _
  cases hx : setImpl (inside cx false .unit).mode false f s v with
  | error p => rw [hx] at h1; exact h1
  | ok r =>
    obtain ⟨r, s'⟩ := r
    cases r with
    | ok u =>
      rw [hx] at h1
      obtain ⟨env, he, hb, l', rfl⟩ := h1
      exact ⟨_, he, rfl⟩
    | error msg =>
      exfalso
      simp only [setImpl, Bool.false_and, Bool.false_eq_true, if_false] at hx
      cases h2 : extractCast (inside cx false .unit).mode f s v with
      | error p => rw [h2] at hx; cases hx
      | ok r =>
        rw [h2, ebind_ok] at hx
        cases h3 : valueVar f r.2 with
        | error p => rw [h3] at hx; cases hx
        | ok x =>
          rw [h3, ebind_ok] at hx
          cases h4 : directSet (inside cx false .unit).mode f s x with
          | error p => rw [h4] at hx; cases hx
          | ok x => rw [h4, ebind_ok] at hx; cases hx

theorem returns_checkedSetter {v : Val} (g : Base cx B) (hf : f ∈ B.fields) (hs : s.HasBacking B.backing)
    (hv : HasType f.ty v) :
    Returns ((checkedSetterFn B f).run cx [argV f.ty v] s) (setImpl cx.mode true f s v) fun r v env =>
      env.cell = r.2 ∧ v = match r.1 with
        | .ok () => .ok .unit
        | .error msg => .err msg := by
  have gc : FieldCtx (inside cx false (.result .unit)) B.backing f false := g.fieldCtx hf
  have h1 := ends_setBody (use := false) (check := true) (l := [("bits", argV f.ty v)]) (sh := []) (th := true)
    (by simp) gc rfl hs hv (by run [])
  refine returns_checked (bindArgs_one hv) rfl rfl (Q := fun _ s' env => s'.HasBacking B.backing ∧
    ∃ l', env = ⟨l', true, s', []⟩) ?_ ?_
  · simp only [checkedSetterFn, Stmt.all, exec_letThis]
    change EndsR _ (setImpl (inside cx false (.result .unit)).mode true f s v) _
    cases hx : setImpl (inside cx false (.result .unit)).mode true f s v with
    | error p => rw [hx] at h1; exact exec_seq_error h1
    | ok r =>
      obtain ⟨r, s'⟩ := r
      rw [hx] at h1
      cases r with
      | ok u =>
        obtain ⟨env, he, hb, l', rfl⟩ := h1
        exact ⟨_, (exec_seq_next he).trans (by run []), hb, l', rfl⟩
      | error msg =>
        obtain ⟨env, he, hc⟩ := h1
        exact ⟨_, exec_seq_ret he, hc⟩
  · rintro s' env ⟨_, l', rfl⟩
    rfl

theorem returns_clearField (g : Surround cx B) (hf : f ∈ B.fields) (hs : s.HasBacking B.backing) :
    Returns ((clearFieldFn B f).run cx [] s) (setZero cx.mode f s) fun s' v env => v = .unit ∧ env.cell = s' := by
  refine returns_unit (l := []) rfl rfl rfl ?_
  simp only [clearFieldFn, Stmt.all, exec_letThis]
  refine (seq_skip_right (ends_setZero (sh := []) (l := []) (g.bodyCtx.field f hf) rfl hs)).weaken ?_
  rintro s' env ⟨_, l', rfl, _⟩
  rfl

theorem returns_clearToDefault (g : Surround cx B) (hf : f ∈ B.fields) (hs : s.HasBacking B.backing)
    (hd : f.hasDefault = true) :
    Returns ((clearToDefaultFn B f).run cx [] s) (setDefault cx.mode f s) fun s' v env =>
      v = .unit ∧ env.cell = s' := by
  refine returns_unit (l := []) rfl rfl rfl ?_
  simp only [clearToDefaultFn, Stmt.all, exec_letThis]
  refine (seq_skip_right (ends_setDefault (sh := []) (l := []) (g.bodyCtx.field f hf) rfl hs hd
    (g.default f hf))).weaken ?_
  rintro s' env ⟨_, l', rfl, _⟩
  rfl

theorem returns_invertField (g : Surround cx B) (hf : f ∈ B.fields) (hs : s.HasBacking B.backing)
    (hset : f.hasSetter = true) :
    Returns ((invertFieldFn B f).run cx [] s) (invertX cx.mode f s) fun s' v env => v = .unit ∧ env.cell = s' := by
  have gc : FieldCtx (inside cx false .unit) B.backing f false := g.fieldCtx hf
  have h1 := (exec_extractTok (src := .bitfield) (inv := true) (sh := []) (th := true) (c := s) (st := s) (l := [])
    gc ⟨rfl, rfl⟩ hs).known
  refine returns_unit (l := []) rfl rfl rfl ?_
  simp only [invertFieldFn, Stmt.all, exec_letThis, invertX]
  refine ends_seq h1 ?_
  rintro v env ⟨hv, l', V, rfl, _, hval, -⟩
  have hr := retV_of_valued hs hv hval
  have he := eval_returnTok (l := ("value", V) :: l') (th := true) (c := s) (sh := []) gc (by run []) hr
  refine seq_skip_right ?_
  have hset' : SetterIs (inside cx false .unit) B.backing f := g.setter f hf hset
  change Ends _ (valueToField (inside cx false .unit).mode f v >>= _) _
  cases hx : valueToField (inside cx false .unit).mode f v with
  | error p =>
    rw [hx] at he
    obtain ⟨run, hm, _⟩ := hset'
    have hm : cx.method (.acc .set f.name) = _ := hm
    simp only [Ends, ebind_error]
    run [Ctx.hasInner, hm, he]
  | ok x =>
    rw [hx] at he
    refine (ends_method (B := B) rfl hs hset' (valueToField_type hr hx) he).weaken ?_
    rintro s' env ⟨_, rfl⟩
    rfl

end

end Bf
