import Verif.Lemmas.CodeTok

/-!
# Running generated code: one field
-/

namespace Bf

open Rust Quote

set_option linter.unusedSimpArgs false

/-- The statement ends as the computation `m` of the model does, in a state described by `Q`. -/
def Ends {α : Type} (r : E Flow) (m : R α) (Q : α → Env → Prop) : Prop :=
  match m with
  | .ok a => ∃ env, r = .ok (.next env) ∧ Q a env
  | .error p => r = .error (stopOf p)

theorem ends_seq {α β : Type} {cx : Ctx} {a b : Stmt} {env : Env} {m1 : R α} {m2 : α → R β} {Q1 : α → Env → Prop}
    {Q2 : β → Env → Prop} (h1 : Ends (exec cx a env) m1 Q1)
    (h2 : ∀ x env', Q1 x env' → Ends (exec cx b env') (m2 x) Q2) : Ends (exec cx (.seq a b) env) (m1 >>= m2) Q2 := by
  cases m1 with
  | error p => simp only [Ends, ebind_error] at h1 ⊢; run [h1]
  | ok x =>
    obtain ⟨env', he, hq⟩ := h1
    have := h2 x env' hq
    run [he]
    exact this

theorem ends_skip {α : Type} {cx : Ctx} {env : Env} {a : α} {Q : α → Env → Prop} (h : Q a env) :
    Ends (exec cx .skip env) (.ok a) Q := ⟨env, by run [], h⟩

theorem Ends.weaken {α : Type} {r : E Flow} {m : R α} {Q Q' : α → Env → Prop} (h : Ends r m Q)
    (hq : ∀ a env, Q a env → Q' a env) : Ends r m Q' := by
  cases m with
  | error p => exact h
  | ok x => obtain ⟨env, he, h⟩ := h; exact ⟨env, he, hq _ _ h⟩

/-- What running code for a field needs from its surroundings. -/
structure FieldCtx (cx : Ctx) (b : Backing) (f : Field) (builder : Bool) : Prop where
  bits : ∀ exp env, eval cx (bitsTok f builder) exp env = .ok (.u 32 f.bits, env)
  off : ∀ exp env, eval cx (offTok f builder) exp env = .ok (.u 32 f.offset, env)
  fuel : f.bits < cx.fuel
  len : ∀ len, f.ty = .array len → (∃ w, b = .int w) → len < cx.fuel ∧ len < 2 ^ 60
  ok : FieldOK b f
  back : b.OK

theorem FieldCtx.bits_lt {cx : Ctx} {b : Backing} {f : Field} {builder : Bool} (h : FieldCtx cx b f builder) :
    f.offset + f.bits < 2 ^ 32 := by
  have h1 := h.ok.fits
  have h2 := h.back
  cases b with
  | int w => simp only [Backing.OK, Backing.size] at *; omega
  | arr n => simp only [Backing.OK, Backing.size] at *; omega

theorem intMask_ok (m : Mode) {w bits : Nat} (h1 : 1 ≤ bits) (h2 : bits ≤ w) :
    intMask m w bits = .ok (maxOf w >>> (w - bits)) := by
  rw [intMask, subU32_ok _ h2, ebind_ok, shr_ok _ _ (by omega)]

/-! ## `let value = ..` -/

/-- `this.0`, respectively `bits`, holds `st`. -/
def SourceIs (cx : Ctx) (src : Source) (builder : Bool) (st : Store) (l : List (String × V)) (th : Bool) (c : Store) :
    Prop :=
  match src with
  | .bitfield => (if builder then cx.builder else th) = true ∧ c = st
  | .variable => look "bits" l = some (ofStore st)

theorem innerV_false (s : Store) : innerV false s = ofStore s := by cases s <;> rfl

theorem eval_source {cx : Ctx} {src : Source} {builder : Bool} {st : Store} {l : List (String × V)} {th : Bool}
    {c : Store} (h : SourceIs cx src builder st l th c) {l' : List (String × V)} {exp : Option Ty}
    {sh : List (String × V)} (hl : look "bits" l' = look "bits" l) :
    eval cx (sourceTok src builder) exp ⟨l', th, c, sh⟩ =
      .ok (innerV (cx.boxed && src = .bitfield) st, ⟨l', th, c, sh⟩) := by
  cases src with
  | bitfield =>
    obtain ⟨h, rfl⟩ := h
    simp only [sourceTok, eval, Ctx.hasInner]
    rw [if_pos h]
    simp only [decide_true, Bool.and_true]
  | «variable» =>
    simp only [SourceIs] at h
    simp only [sourceTok, eval, hl, h, reduceCtorEq, decide_false, Bool.and_false, innerV_false]

/-- `V` is a legal content of the variable `value` for `v`. -/
def Valued (b : Backing) (f : Field) (v : Val) (V : V) : Prop :=
  match v with
  | .int n => V.num = some n ∧ (∀ w, b = .int w → ∃ x : BitVec w, V = bv x) ∧
      (f.ty.isBool = true → ∃ (w : Nat) (x : BitVec w), V = bv x)
  | .arr a => V = .arr a ∧ f.ty = .array a.length ∧ ∃ n, b = .arr n
  | _ => False

section
variable {cx : Ctx} {B : Bitfield} {f : Field} {src : Source} {builder inv : Bool} {st c : Store}
  {l sh : List (String × V)} {th : Bool}

theorem exec_extractTok (g : FieldCtx cx B.backing f builder) (hs : SourceIs cx src builder st l th c)
    (hst : st.HasBacking B.backing) :
    Ends (exec cx (extractTok B f src false inv builder) ⟨l, th, c, sh⟩) (extract cx.mode f inv st) fun v env =>
      ∃ l' V, env = ⟨("value", V) :: l', th, c, sh⟩ ∧ look "bits" l' = look "bits" l ∧ Valued B.backing f v V ∧
        ∃ (w : Nat) (x : BitVec w), (∀ n, v = .int n → V = bv x) := by
  have hlt := g.bits_lt
  have hfit := g.ok.fits
  have hpos := g.ok.pos
  cases hB : B.backing with
  | int w =>
    rw [hB] at hst hfit
    cases st with
    | arr bs => exact absurd hst (by simp [Store.HasBacking])
    | int w' v =>
      obtain rfl : w' = w := hst
      simp only [Backing.size] at hfit
      have hsrc := fun V (exp : Option Ty) => eval_source (sh := sh) (exp := exp) hs
        (show look "bits" (("mask", V) :: l) = look "bits" l by run [])
      simp only [innerV_int] at hsrc
      simp only [extract, extractTok, hB]
      rw [intMask_ok _ hpos (by omega)]
      rw [shr_ok _ _ (show f.offset < w' by omega)]
      refine ⟨⟨("value", bv ((if inv then ~~~(v >>> f.offset) else v >>> f.offset) &&& maxOf w' >>> (w' - f.bits))) ::
        ("mask", bv (maxOf w' >>> (w' - f.bits))) :: l, th, c, sh⟩, ?_, _, _, rfl, ?_, ⟨rfl, ?_, ?_⟩, w', _, fun _ _ => rfl⟩
      · cases inv <;>
        run [eval_maskTok fun exp => g.bits exp _, intMask_ok _ hpos (show f.bits ≤ w' by omega), hsrc, g.off,
          shr_ok _ _ (show f.offset < w' by omega)] <;> rfl
      · run []
      · intro w hw; cases hw; exact ⟨_, rfl⟩
      · intro _; exact ⟨_, _, rfl⟩
  | arr n =>
    rw [hB] at hst hfit
    cases st with
    | int w bs => exact absurd hst (by simp [Store.HasBacking])
    | arr bs =>
      have hsrc := fun l' exp hl => eval_source (sh := sh) (l' := l') (exp := exp) hs hl
      have scalar : ∀ ty, f.ty = ty → (∀ len, ty ≠ .array len) →
          Ends (exec cx (.letS "value" none (readTok (sourceTok src builder) (bitsTok f builder) (offTok f builder) inv))
            ⟨l, th, c, sh⟩) (do
              let val ← readU128 cx.mode bs f.offset f.bits
              if inv then
                let mask ← mask128 cx.mode f.bits
                return .int (((~~~val) &&& mask).toNat : Int)
              else return .int (val.toNat : Int)) fun v env =>
            ∃ l' V, env = ⟨("value", V) :: l', th, c, sh⟩ ∧ look "bits" l' = look "bits" l ∧ Valued (.arr n) f v V ∧
              ∃ (w : Nat) (x : BitVec w), (∀ n, v = .int n → V = bv x) := by
        intro ty hty hna
        run [eval_readTok g.bits g.off hsrc g.fuel (by omega)]
        cases readU128 cx.mode bs f.offset f.bits with
        | error p => simp only [Ends, ebind_error]; run []
        | ok x =>
          cases inv
          · run []
            exact ⟨_, rfl, _, _, rfl, rfl, ⟨rfl, (fun w h => by cases h), fun _ => ⟨_, _, rfl⟩⟩, _, x, fun _ _ => rfl⟩
          · run []
            cases mask128 cx.mode f.bits with
            | error p => simp only [Ends]; run []
            | ok k =>
              run []
              exact ⟨_, rfl, _, _, rfl, rfl, ⟨rfl, (fun w h => by cases h), fun _ => ⟨_, _, rfl⟩⟩, _, _, fun _ _ => rfl⟩
      cases hty : f.ty with
      | array len =>
        simp only [extract, extractTok, hB, hty, Bool.and_false, Bool.false_eq_true, if_false]
        run [eval_readArrTok g.bits g.off hsrc g.fuel (by omega)]
        cases ha : readArr cx.mode inv bs f.offset f.bits len with
        | error p => simp only [Ends, ebind_error]; run []
        | ok a =>
          exact ⟨_, by run [], _, _, rfl, rfl, ⟨rfl, by rw [hty, readArr_length ha], n, rfl⟩, 0, 0#0,
            fun _ h => by cases h⟩
      | int t =>
        simp only [extract, extractTok, hB, hty, Bool.and_false, Bool.false_eq_true, if_false]
        exact scalar _ hty (by intro len h; cases h)
      | custom cd =>
        simp only [extract, extractTok, hB, hty, Bool.and_false, Bool.false_eq_true, if_false]
        exact scalar _ hty (by intro len h; cases h)

end

/-! ## Value expressions -/

/-- `V` is the value `v` of a field of type `t`. -/
def ValRep (t : DataType) (V : V) : Val → Prop
  | .int n => V.num = some n
  | .bool b => V = .bool b
  | .arr a => V = .arr a
  | .custom code => ∃ c, t = .custom c ∧ V = .obj c code

theorem castV_num {V : V} {n : Int} (h : V.num = some n) (w : Nat) :
    castV V (.u w) = .ok (bv (BitVec.ofInt w n)) := by
  cases V <;> simp only [V.num, reduceCtorEq, Option.some.injEq] at h <;> subst h <;> rfl

/-- The expression evaluates to the value `vm` of the model, also where an integer of the backing type is
expected. -/
def Yields (cx : Ctx) (e : Expr) (b : Backing) (t : DataType) (vm : R Val) (env : Env) : Prop :=
  match vm with
  | .error p => ∀ exp, eval cx e exp env = .error (stopOf p)
  | .ok v => ∀ exp, (∀ n, v = .int n → exp = none ∨ ∃ w, exp = some (.u w)) →
      ∃ V, eval cx e exp env = .ok (V, env) ∧ ValRep t V v ∧
        ∀ w n, exp = some (.u w) → b = .int w → v = .int n →
          coerce V (.u w) = if 0 ≤ n ∧ n < 2 ^ w then .ok (bv (BitVec.ofInt w n)) else .error .illTyped

theorem coerce_in {w : Nat} (x : BitVec w) :
    coerce (bv x) (.u w) = if 0 ≤ (x.toNat : Int) ∧ (x.toNat : Int) < 2 ^ w then
      .ok (bv (BitVec.ofInt w (x.toNat : Int))) else .error .illTyped := by
  have h : (0 : Int) ≤ (x.toNat : Int) ∧ (x.toNat : Int) < 2 ^ w := by
    have := x.isLt
    refine ⟨by omega, ?_⟩
    have h2 : ((2 ^ w : Nat) : Int) = (2 : Int) ^ w := by simp
    omega
  rw [if_pos h, coerce_bv, BitVec.ofInt_natCast, BitVec.ofNat_toNat, BitVec.setWidth_eq]

theorem ofInt_toNat {w : Nat} {n : Int} (h : 0 ≤ n ∧ n < 2 ^ w) : (BitVec.ofInt w n).toNat = n.toNat := by
  rw [BitVec.toNat_ofInt]
  have h2 : ((2 ^ w : Nat) : Int) = (2 : Int) ^ w := by simp
  rw [h2, Int.emod_eq_of_lt h.1 h.2]

theorem bne_toNat {w : Nat} (x : BitVec w) : ((x.toNat : Int) != 0) = (x != 0#w) := by
  by_cases h : x = 0#w
  · subst h; simp
  · have : x.toNat ≠ 0 := fun hx => h (BitVec.eq_of_toNat_eq (by simpa using hx))
    have h1 : ((x.toNat : Int) != 0) = true := by simp; omega
    have h2 : (x != 0#w) = true := by simp [h]
    rw [h1, h2]

theorem yields_valueTok {cx : Ctx} {b : Backing} {f : Field} {v : Val} {V : V} {env : Env}
    (hv : look "value" env.locals = some V) (h : Valued b f v V) : Yields cx (valueTok f) b f.ty (valueVar f v) env := by
  cases v with
  | bool x => exact absurd h id
  | custom x => exact absurd h id
  | arr a =>
    obtain ⟨rfl, ht, n, rfl⟩ := h
    simp only [valueVar, valueTok, ht, Yields]
    intro exp _
    refine ⟨.arr a, by run [hv], rfl, ?_⟩
    intro w n _ h; cases h
  | int n =>
    obtain ⟨hn, hint, hbool⟩ := h
    cases hty : f.ty with
    | custom c =>
      simp only [valueVar, valueTok, hty]
      cases hc : c.fromBits n.toNat with
      | error p =>
        simp only [Yields, ebind_error]
        intro exp
        run [hv, hn, hc]
        cases p <;> rfl
      | ok code =>
        simp only [Yields, ebind_ok, epure]
        intro exp _
        refine ⟨.obj c code, by run [hv, hn, hc, userCall], ⟨c, rfl, rfl⟩, ?_⟩
        intro w n _ _ h; cases h
    | array len =>
      simp only [valueVar, valueTok, hty, Yields]
      intro exp _
      refine ⟨V, by run [hv], hn, ?_⟩
      rintro w n' _ hb h
      cases h
      obtain ⟨x, rfl⟩ := hint w hb
      cases hn
      exact coerce_in x
    | int t =>
      by_cases ht : t = .bool
      · subst ht
        obtain ⟨w, x, rfl⟩ := hbool (by rw [hty]; rfl)
        cases hn
        simp only [valueVar, valueTok, hty, Yields]
        intro exp _
        refine ⟨.bool (x != 0#w), by run [hv], by rw [ValRep, bne_toNat], ?_⟩
        intro w n _ _ h; cases h
      · have e1 : valueVar f (.int n) = .ok (.int n) := by
          unfold valueVar; rw [hty]; cases t <;> first | rfl | exact absurd rfl ht
        have e2 : valueTok f = .var "value" := by
          unfold valueTok; rw [hty]; cases t <;> first | rfl | exact absurd rfl ht
        rw [e1, e2]
        simp only [Yields]
        intro exp _
        refine ⟨V, by run [hv], hn, ?_⟩
        rintro w n' _ hb h
        cases h
        obtain ⟨x, rfl⟩ := hint w hb
        cases hn
        exact coerce_in x

theorem yields_user {cx : Ctx} {o : Nat} {b : Backing} {t : DataType} {v : Val} {env : Env} (h : Shaped b t v) :
    Yields cx (.user o t v) b t (.ok v) env := by
  simp only [Yields]
  intro exp _
  cases v with
  | int n =>
    refine ⟨.any n, by run [userV], rfl, ?_⟩
    rintro w _ _ _ ⟨⟩
    simp only [coerce]
    split
    · rename_i h; rw [bv, ofInt_toNat h]
    · rfl
  | bool x => exact ⟨.bool x, by run [userV], rfl, by intro w n _ _ h; cases h⟩
  | arr x => exact ⟨.arr x, by run [userV], rfl, by intro w n _ _ h; cases h⟩
  | custom code =>
    cases t with
    | custom c => exact ⟨.obj c code, by run [userV], ⟨c, rfl, rfl⟩, by intro w n _ _ h; cases h⟩
    | int t => exact absurd h (by cases t <;> exact id)
    | array len => exact absurd h id

theorem yields_zeroTok {cx : Ctx} {B : Bitfield} {f : Field} {s : Store} {env : Env} (hs : s.HasBacking B.backing) :
    Yields cx (zeroTok B f) B.backing f.ty (zeroVal f s) env := by
  have lit : ∀ t, Yields cx (.lit 0 none) B.backing t (.ok (.int 0)) env := by
    intro t
    simp only [Yields]
    intro exp hexp
    rcases hexp 0 rfl with rfl | ⟨w, rfl⟩
    · exact ⟨.i 32 0, rfl, rfl, by intro w n h; cases h⟩
    · refine ⟨bv 0#w, by run [], ?_, ?_⟩
      · simp only [ValRep, bv_num]; simp
      · rintro w' _ ⟨⟩ _ ⟨⟩
        have := coerce_in (0#w)
        simpa using this
  cases hty : f.ty with
  | custom c =>
    simp only [zeroTok, zeroVal, hty]
    have e : ∀ exp, eval cx (.fromBits c (.lit 0 none)) exp env =
        (userCall (c.fromBits 0)).map fun code => (.obj c code, env) := by
      intro exp
      simp only [eval, Option.none_or, Option.getD_none, litV, ebind_ok, epure, V.num]
      show (userCall (c.fromBits 0) >>= _) = _
      cases userCall (c.fromBits 0) <;> rfl
    cases hc : c.fromBits 0 with
    | error p =>
      simp only [Yields, ebind_error]
      intro exp
      rw [e, hc]
      cases p <;> rfl
    | ok code =>
      simp only [Yields, ebind_ok, epure]
      intro exp _
      exact ⟨.obj c code, by rw [e, hc]; rfl, ⟨c, rfl, rfl⟩, by intro w n _ _ h; cases h⟩
  | array len =>
    cases hB : B.backing with
    | int w =>
      cases s with
      | arr bs => rw [hB] at hs; exact absurd hs id
      | int w v =>
        simp only [zeroTok, zeroVal, hty, hB]
        rw [← hB]; exact lit _
    | arr n =>
      cases s with
      | int w v => rw [hB] at hs; exact absurd hs id
      | arr bs =>
        simp only [zeroTok, zeroVal, hty, hB]
        simp only [Yields]
        intro exp _
        exact ⟨_, by run [], rfl, by intro w n _ h; cases h⟩
  | int t =>
    by_cases ht : t = .bool
    · subst ht
      simp only [zeroTok, zeroVal, hty, Yields]
      intro exp _
      exact ⟨_, by run [], rfl, by intro w n _ _ h; cases h⟩
    · have e1 : zeroVal f s = .ok (.int 0) := by
        unfold zeroVal; rw [hty]; cases t <;> first | rfl | exact absurd rfl ht
      have e2 : zeroTok B f = .lit 0 none := by
        unfold zeroTok; rw [hty]; cases t <;> first | rfl | exact absurd rfl ht
      rw [e1, e2]
      exact lit _

end Bf
