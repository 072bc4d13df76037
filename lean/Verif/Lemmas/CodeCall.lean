import Verif.Lemmas.CodeSet
import Verif.Lemmas.Assign

/-!
# Running generated code: calls of setters, setter bodies
-/

namespace Bf

open Rust Quote

set_option linter.unusedSimpArgs false

/-! ## The stored value keeps its type -/

theorem directSet_backing {m : Mode} {f : Field} {s s' : Store} {v : Val} {b : Backing} (hs : s.HasBacking b)
    (h : directSet m f s v = .ok s') : s'.HasBacking b := by
  unfold directSet at h
  split at h
  · rename_i bs
    cases b with
    | int w => exact absurd hs id
    | arr n =>
      have hl : bs.length = n := hs
      split at h
      · cases hw : writeArr m bs f.offset f.bits _ with
        | error p => rw [hw] at h; cases h
        | ok x => rw [hw] at h; cases h; exact (writeArr_length hw).trans hl
      all_goals first
        | cases h; done
        | skip
      all_goals
        rename_i x _ _
        revert h
        generalize hw : writeU128 m bs f.offset f.bits _ = r
        cases r with
        | error p => intro h; cases h
        | ok x => intro h; cases h; exact (writeU128_length hw).trans hl
  · rename_i w x
    cases b with
    | arr n => exact absurd hs id
    | int w' =>
      have hl : w = w' := hs
      have key : ∀ {r : R (BitVec w)} , (r >>= fun y => pure (Store.int w y)) = .ok s' → s'.HasBacking (.int w') := by
        intro r hr
        cases r with
        | error p => cases hr
        | ok y => cases hr; exact hl
      split at h
      · exact key h
      · cases hm : intMask m w f.bits with
        | error p => rw [hm] at h; cases h
        | ok y => rw [hm] at h; exact key h
      · cases h
      · split at h
        · cases hm : intMask m w f.bits with
          | error p => rw [hm] at h; cases h
          | ok y => rw [hm] at h; exact key h
        · cases h
      · split at h
        · cases hm : intMask m w f.bits with
          | error p => rw [hm] at h; cases h
          | ok y => rw [hm] at h; exact key h
        · cases h
      · cases h

theorem setImpl_backing {m : Mode} {check : Bool} {f : Field} {s s' : Store} {v : Val} {b : Backing}
    {r : Except String Unit} (hs : s.HasBacking b) (h : setImpl m check f s v = .ok (r, s')) : s'.HasBacking b := by
  unfold setImpl at h
  split at h
  · cases h; exact hs
  · cases he : extractCast m f s v with
    | error p => rw [he] at h; cases h
    | ok x =>
      rw [he, ebind_ok] at h
      dsimp only at h
      split at h
      · cases h; exact hs
      · cases hv : valueVar f x.2 with
        | error p => rw [hv] at h; cases h
        | ok y =>
          rw [hv, ebind_ok] at h
          cases hd : directSet m f s y with
          | error p => rw [hd] at h; cases h
          | ok z => rw [hd] at h; cases h; exact directSet_backing hs hd

theorem setX_backing {m : Mode} {f : Field} {s s' : Store} {v : Val} {b : Backing}
    (hs : s.HasBacking b) (h : setX m f s v = .ok s') : s'.HasBacking b := by
  unfold setX at h
  cases hi : setImpl m false f s v with
  | error p => rw [hi] at h; cases h
  | ok x => rw [hi] at h; cases h; exact setImpl_backing hs hi

/-! ## Calls of `set_x` -/

theorem castV_intTy {V : V} {n : Int} (h : V.num = some n) {t : IntTy} (ht : t ≠ .bool) :
    castV V (intTy t) = .ok (argV (.int t) (.int (t.cast n))) := by
  cases V <;> simp only [V.num, reduceCtorEq, Option.some.injEq] at h <;> subst h <;>
    cases t <;> first | exact absurd rfl ht | rfl

theorem coerce_argV {t : DataType} {v : Val} (h : HasType t v) : coerce (argV t v) (fieldTy t) = .ok (argV t v) := by
  cases t with
  | custom c => cases v <;> first | exact absurd h id | rfl
  | array len =>
    cases v <;> first | exact absurd h id | skip
    have h : _ = len := h
    simp only [argV, fieldTy, coerce, h, if_true]
  | int t =>
    by_cases ht : t = .bool
    · subst ht; cases v <;> first | exact absurd h id | rfl
    · cases v <;> first
        | (cases t <;> first | exact absurd rfl ht | exact absurd h id)
        | (cases t <;> first | exact absurd rfl ht | rfl)

/-- `this.set_x(v)` does what `setX` does. -/
def SetterIs (cx : Ctx) (b : Backing) (f : Field) : Prop :=
  ∃ run, cx.method (.acc .set f.name) = some (fieldTy f.ty, run) ∧
    ∀ v s, HasType f.ty v → s.HasBacking b →
      run (argV f.ty v) s = (liftE (setX cx.mode f s v)).map fun s' => (V.unit, s')

section
variable {cx : Ctx} {B : Bitfield} {f : Field} {builder : Bool} {c : Store} {l sh : List (String × V)} {th : Bool}

theorem ends_method {e : Expr} {v : Val} (hin : (if builder = true then cx.builder else th) = true)
    (hc : c.HasBacking B.backing) (hm : SetterIs cx B.backing f) (hv : HasType f.ty v)
    (he : eval cx e (some (fieldTy f.ty)) ⟨l, th, c, sh⟩ = .ok (argV f.ty v, ⟨l, th, c, sh⟩)) :
    Ends (exec cx (.expr (.method builder (.acc .set f.name) e)) ⟨l, th, c, sh⟩) (setX cx.mode f c v) fun s' env =>
      s'.HasBacking B.backing ∧ env = ⟨l, th, s', sh⟩ := by
  obtain ⟨f', hm, hr⟩ := hm
  run [Ctx.hasInner, hin, hm, he, coerce_argV hv, hr v c hv hc]
  cases hx : setX cx.mode f c v with
  | error p => simp only [Ends]; run []
  | ok s' => exact ⟨_, by run [], setX_backing hc hx, rfl⟩

theorem ends_setterCallTok {e : Expr} {vm : R Val}
    (hlen : ∀ len, f.ty = .array len → (∃ w, B.backing = .int w) → len < cx.fuel ∧ len < 2 ^ 60)
    (hin : (if builder = true then cx.builder else th) = true) (hc : c.HasBacking B.backing)
    (hm : SetterIs cx B.backing f)
    (hy : Yields cx e B.backing f.ty vm ⟨l, th, c, sh⟩)
    (hsh : ∀ v, vm = .ok v → Shaped B.backing f.ty v) :
    Ends (exec cx (setterCallTok B f e builder) ⟨l, th, c, sh⟩) (vm >>= setterCall cx.mode f c) fun s' env =>
      s'.HasBacking B.backing ∧ env = ⟨l, th, s', sh⟩ := by
  cases hvm : vm with
  | error p =>
    rw [hvm] at hy
    simp only [Yields] at hy
    simp only [Ends, ebind_error]
    obtain ⟨f', hm, hr⟩ := hm
    cases hty : f.ty with
    | int t => cases t <;> (simp only [setterCallTok, hty]; run [Ctx.hasInner, hin, hm, hy])
    | custom c => simp only [setterCallTok, hty]; run [Ctx.hasInner, hin, hm, hy]
    | array len =>
      cases hB : B.backing
      · simp only [setterCallTok, hty, hB]; run [Ctx.hasInner, hin, hm, unpackTok, hy]
      · simp only [setterCallTok, hty, hB]; run [Ctx.hasInner, hin, hm, hy]
  | ok v =>
    have hs := hsh v hvm
    rw [hvm] at hy
    rw [ebind_ok]
    cases hty : f.ty with
    | custom cd =>
      rw [hty] at hs hy
      cases v with
      | custom code =>
        simp only [setterCallTok, setterCall, hty]
        apply ends_method hin hc hm (by rw [hty]; exact trivial)
        obtain ⟨V, h1, ⟨_, hcd, rfl⟩, -⟩ := hy (some (fieldTy (.custom cd))) (by intro n h; cases h)
        cases hcd
        rw [hty]
        exact h1
      | int n => exact absurd hs id
      | bool n => exact absurd hs id
      | arr n => exact absurd hs id
    | array len =>
      rw [hty] at hs hy
      cases hB : B.backing with
      | int w =>
        rw [hB] at hs
        cases v with
        | int n =>
          obtain ⟨hl1, hl2⟩ := hlen len hty ⟨w, hB⟩
          cases c with
          | arr bs => rw [hB] at hc; exact absurd hc id
          | int w' x =>
            obtain ⟨V, h1, hV, -⟩ := hy (some (.u 128)) (fun _ _ => .inr ⟨_, rfl⟩)
            have hu := fun exp => eval_unpackTok (exp := exp) (.inl rfl) h1 (castV_num hV 128) hl1 hl2
            simp only [setterCallTok, setterCall, hty, hB]
            cases ha : unpack cx.mode len (BitVec.ofInt 128 n) with
            | error p =>
              obtain ⟨f', hm, hr⟩ := hm
              simp only [ebind_error, Ends]
              run [Ctx.hasInner, hin, hm, hu, ha]
            | ok a =>
              rw [ebind_ok, ← hB]
              apply ends_method hin hc hm (by rw [hty]; exact unpack_length ha)
              rw [hu, ha, hty]
              rfl
        | custom n => exact absurd hs id
        | bool n => exact absurd hs id
        | arr n => obtain ⟨⟨m, hm⟩, -⟩ := hs; cases hm
      | arr n =>
        rw [hB] at hs
        cases v with
        | arr a =>
          cases c with
          | int w x => rw [hB] at hc; exact absurd hc id
          | arr bs =>
            simp only [setterCallTok, setterCall, hty, hB]
            rw [← hB]
            apply ends_method hin hc hm (by rw [hty]; exact hs.2)
            obtain ⟨V, h1, rfl, -⟩ := hy (some (fieldTy (.array len))) (by intro n h; cases h)
            rw [hty]
            exact h1
        | custom n => exact absurd hs id
        | bool n => exact absurd hs id
        | int k => obtain ⟨m, hm⟩ := hs; cases hm
    | int t =>
      rw [hty] at hs hy
      by_cases ht : t = .bool
      · subst ht
        cases v with
        | bool x =>
          simp only [setterCallTok, setterCall, hty]
          apply ends_method hin hc hm (by rw [hty]; exact trivial)
          obtain ⟨V, h1, rfl, -⟩ := hy (some (fieldTy (.int .bool))) (by intro n h; cases h)
          rw [hty]
          exact h1
        | int n => exact absurd hs id
        | custom n => exact absurd hs id
        | arr n => exact absurd hs id
      · have hx : ∃ n, v = .int n := by
          cases v with
          | int n => exact ⟨n, rfl⟩
          | _ => cases t <;> first | exact absurd rfl ht | exact absurd hs id
        obtain ⟨n, rfl⟩ := hx
        have e1 : setterCallTok B f e builder = .expr (.method builder (.acc .set f.name) (.castInfer e)) := by
          simp only [setterCallTok, hty]
        have e2 : setterCall cx.mode f c (.int n) = setX cx.mode f c (.int (t.cast n)) := by
          simp only [setterCall, hty]
        rw [e1, e2]
        apply ends_method hin hc hm (by rw [hty]; exact IntTy.cast_range t ht n)
        obtain ⟨V, h1, hV, -⟩ := hy none (fun _ _ => .inl rfl)
        rw [hty]
        run [h1, fieldTy, castV_intTy hV ht]

/-! ## The body of a setter -/

theorem argV_u {t : IntTy} {n : Int} (ht : t ≠ .bool) (hu : t.unsigned = true) (h : HasType (.int t) (.int n)) :
    argV (.int t) (.int n) = bv (BitVec.ofInt t.bitSize n) := by
  have hr : 0 ≤ n ∧ n < 2 ^ t.bitSize := by
    cases t <;> first | exact absurd rfl ht | exact absurd hu (by decide) | exact h
  rw [bv, ofInt_toNat hr]
  cases t <;> first | exact absurd rfl ht | exact absurd hu (by decide) | rfl

theorem argV_i {t : IntTy} {n : Int} (hu : t.unsigned = false) : argV (.int t) (.int n) = .i t.bitSize n := by
  cases t <;> first | exact absurd hu (by decide) | rfl

theorem castV_argV_int {t : IntTy} {n : Int} (ht : t ≠ .bool) (h : HasType (.int t) (.int n)) (w : Nat) :
    castV (argV (.int t) (.int n)) (.u w) = .ok (bv (BitVec.ofInt w n)) := by
  apply castV_num
  cases hu : t.unsigned
  · rw [argV_i hu]; rfl
  · have hr : 0 ≤ n ∧ n < 2 ^ t.bitSize := by
      cases t <;> first | exact absurd rfl ht | exact absurd hu (by decide) | exact h
    rw [argV_u ht hu h, bv_num, ofInt_toNat hr]
    exact congrArg some (Int.toNat_of_nonneg hr.1)

theorem num_bool (w : Nat) (hw : 0 < w) (x : Bool) :
    ((BitVec.ofInt w (if x = true then 1 else 0)).toNat : Int) = if x = true then 1 else 0 := by
  cases x
  · simp
  · have : (1 : Int) < 2 ^ w ∨ w = 0 := by
      rcases Nat.eq_zero_or_pos w with h | h
      · exact .inr h
      · left
        have h1 : 2 ^ 1 ≤ 2 ^ w := Nat.pow_le_pow_right (by decide) h
        have h2 : ((2 ^ w : Nat) : Int) = (2 : Int) ^ w := by simp
        omega
    have h : (0 : Int) ≤ 1 ∧ (1 : Int) < 2 ^ w := ⟨by decide, by rcases this with h | h <;> omega⟩
    simp only [if_true]
    rw [ofInt_toNat h]; rfl

/-- `let value = ..` from the argument of a setter. -/
theorem ends_extractCast {v : Val} (g : FieldCtx cx B.backing f builder) (hc : c.HasBacking B.backing)
    (hv : HasType f.ty v) (hb : look "bits" l = some (argV f.ty v)) :
    Ends (exec cx (extractTok B f .variable true false builder) ⟨l, th, c, sh⟩) (extractCast cx.mode f c v)
      fun r env => ∃ l' V, env = ⟨("value", V) :: l', th, c, sh⟩ ∧ Valued B.backing f r.2 V ∧
        (f.ty.unsigned = true → f.ty.isBool = false → f.ty.isArray = false →
          ∃ (w : Nat) (x y : BitVec w), look "bits" l' = some (bv x) ∧ look "mask" l' = some (bv y) ∧
            r.1 = decide (y < x)) := by
  have hlt := g.bits_lt
  have hfit := g.ok.fits
  have hpos := g.ok.pos
  cases hB : B.backing with
  | int w =>
    rw [hB] at hc hfit
    cases c with
    | arr bs => exact absurd hc id
    | int w' s =>
      obtain rfl : w' = w := hc
      simp only [Backing.size] at hfit
      have hmask : ∀ exp env, eval cx (maskTok w' (bitsTok f builder)) exp env =
          .ok (bv (maxOf w' >>> (w' - f.bits)), env) := by
        intro exp env
        rw [eval_maskTok (fun exp => g.bits exp env), intMask_ok _ hpos (by omega)]; rfl
      have key : ∀ (e' : Expr) (r : R (BitVec w')),
          (∀ exp l', look "bits" l' = look "bits" l → eval cx e' exp ⟨l', th, .int w' s, sh⟩ =
            (liftE r).map fun x => (bv x, ⟨l', th, .int w' s, sh⟩)) →
          Ends (exec cx (.all [.letS "mask" none (maskTok w' (bitsTok f builder)), .letS "bits" none e',
              .letS "value" none (.bin .and (.var "bits") (.var "mask"))]) ⟨l, th, .int w' s, sh⟩)
            (do
              let mask ← intMask cx.mode w' f.bits
              let bits ← r
              return (decide (mask < bits), Val.int ((bits &&& mask).toNat : Int)))
            fun r env => ∃ l' V, env = ⟨("value", V) :: l', th, .int w' s, sh⟩ ∧ Valued (.int w') f r.2 V ∧
              (f.ty.unsigned = true → f.ty.isBool = false → f.ty.isArray = false →
                ∃ (w : Nat) (x y : BitVec w), look "bits" l' = some (bv x) ∧ look "mask" l' = some (bv y) ∧
                  r.1 = decide (y < x)) := by
        intro e' r h
        have h := fun exp V => h exp (("mask", V) :: l) (by run [])
        rw [intMask_ok _ hpos (by omega), ebind_ok]
        cases r with
        | error p => simp only [Ends, ebind_error]; run [hmask, h]
        | ok x =>
          refine ⟨⟨("value", bv (x &&& maxOf w' >>> (w' - f.bits))) :: ("bits", bv x) ::
            ("mask", bv (maxOf w' >>> (w' - f.bits))) :: l, th, .int w' s, sh⟩, by run [hmask, h], _, _, rfl,
            ⟨rfl, fun w hw => ?_, fun _ => ⟨_, _, rfl⟩⟩, fun _ _ _ => ⟨w', x, _, by run [], by run [], rfl⟩⟩
          cases hw; exact ⟨_, rfl⟩
      cases hty : f.ty with
      | custom cd =>
        rw [hty] at hv hb
        cases v with
        | custom code =>
          have := key (.cast (.intoBits (.var "bits")) (.u w')) (.ok (BitVec.ofInt w' (cd.intoBits code)))
            (by intro exp l' hl'; rw [hb] at hl'; run [hl', argV])
          rw [hty] at this
          simpa [extractTok, hB, hty, extractCast, sourceTok, notIf] using this
        | int n => exact absurd hv id
        | bool n => exact absurd hv id
        | arr n => exact absurd hv id
      | array len =>
        obtain ⟨hl1, hl2⟩ := g.len len hty ⟨w', hB⟩
        rw [hty] at hv hb
        cases v with
        | arr a =>
          have := key (packTok w' (min (f.bits / 8) len)) (packBytes cx.mode w' a (min (f.bits / 8) len))
            (by intro exp l' hl'; rw [hb] at hl'; exact eval_packTok hl' (by omega) (by omega))
          rw [hty] at this
          simpa [extractTok, hB, hty, extractCast, sourceTok, notIf] using this
        | int n => exact absurd hv id
        | bool n => exact absurd hv id
        | custom n => exact absurd hv id
      | int t =>
        rw [hty] at hv hb
        by_cases ht : t = .bool
        · subst ht
          cases v with
          | bool x =>
            have := key (.cast (.var "bits") (.u w')) (.ok (BitVec.ofInt w' (if x then 1 else 0)))
              (by intro exp l' hl'; rw [hb] at hl'; run [hl', argV])
            rw [hty] at this
            simpa [extractTok, hB, hty, extractCast, sourceTok, notIf] using this
          | int n => exact absurd hv id
          | custom n => exact absurd hv id
          | arr n => exact absurd hv id
        · have hx : ∃ n, v = .int n := by
            cases v with
            | int n => exact ⟨n, rfl⟩
            | _ => cases t <;> first | exact absurd rfl ht | exact absurd hv id
          obtain ⟨n, rfl⟩ := hx
          have := key (.cast (.var "bits") (.u w')) (.ok (BitVec.ofInt w' n))
            (by intro exp l' hl'; rw [hb] at hl'; run [hl', castV_argV_int ht hv])
          rw [hty] at this
          cases t <;> first | exact absurd rfl ht |
            simpa [extractTok, hB, hty, extractCast, sourceTok, notIf] using this
  | arr n =>
    rw [hB] at hc
    cases c with
    | int w bs => exact absurd hc id
    | arr bs =>
      have hmask : ∀ exp env, eval cx (mask128Tok (bitsTok f builder)) exp env =
          (liftE (mask128 cx.mode f.bits)).map fun x => (bv x, env) := by
        intro exp env
        exact eval_mask128 (fun exp => g.bits exp env)
      cases hty : f.ty with
      | custom cd =>
        rw [hty] at hv hb
        cases v with
        | custom code =>
          simp only [extractTok, extractCast, hB, hty, decide_true, Bool.and_self, if_true]
          have hb1 : eval cx (.cast (.intoBits (.var "bits")) (.u 128)) none ⟨l, th, .arr bs, sh⟩ =
              .ok (bv (BitVec.ofInt 128 (cd.intoBits code)), ⟨l, th, .arr bs, sh⟩) := by run [hb, argV]
          cases hm : mask128 cx.mode f.bits with
          | error p => simp only [Ends, ebind_error]; run [hb, argV, hmask, hm]
          | ok k =>
            refine ⟨⟨("value", bv (BitVec.ofInt 128 (cd.intoBits code) &&& k)) :: ("mask", bv k) ::
              ("bits", bv (BitVec.ofInt 128 (cd.intoBits code))) :: l, th, .arr bs, sh⟩, ?_, _, _, rfl,
              ⟨rfl, (fun w h => by cases h), fun _ => ⟨_, _, rfl⟩⟩, fun _ _ _ => ⟨128, _, k, by run [], by run [], rfl⟩⟩
            run [hb, argV, hmask, hm]
        | int n => exact absurd hv id
        | bool n => exact absurd hv id
        | arr n => exact absurd hv id
      | array len =>
        rw [hty] at hv hb
        cases v with
        | arr a =>
          simp only [extractTok, extractCast, hB, hty, decide_true, Bool.and_self, if_true]
          have hl : a.length = len := hv
          refine ⟨⟨("value", .arr a) :: l, th, .arr bs, sh⟩, by run [hb, argV], _, _, rfl,
            ⟨rfl, by rw [hty, hl], n, rfl⟩, fun _ _ h => by cases h⟩
        | int n => exact absurd hv id
        | bool n => exact absurd hv id
        | custom n => exact absurd hv id
      | int t =>
        rw [hty] at hv hb
        by_cases ht : t = .bool
        · subst ht
          cases v with
          | bool x =>
            simp only [extractTok, extractCast, hB, hty, decide_true, Bool.and_self, if_true]
            refine ⟨⟨("value", bv (BitVec.ofInt 128 (if x = true then 1 else 0))) :: l, th, .arr bs, sh⟩,
              by run [hb, argV], _, _, rfl, ⟨?_, (fun w h => by cases h), fun _ => ⟨_, _, rfl⟩⟩,
              fun _ h _ => by cases h⟩
            rw [bv_num, num_bool 128 (by decide)]
          | int n => exact absurd hv id
          | custom n => exact absurd hv id
          | arr n => exact absurd hv id
        · have hx : ∃ n, v = .int n := by
            cases v with
            | int n => exact ⟨n, rfl⟩
            | _ => cases t <;> first | exact absurd rfl ht | exact absurd hv id
          obtain ⟨n, rfl⟩ := hx
          have e1 : extractTok B f .variable true false builder = .all
              [.letS "mask" none (.cast (mask128Tok (bitsTok f builder)) (intTy t)),
               .letS "value" none (.block (.letS "val" none (.bin .and (.var "bits") (.var "mask"))) (.var "val"))] := by
            simp only [extractTok, hB, hty]; cases t <;> first | rfl | exact absurd rfl ht
          have e2 : extractCast cx.mode f (.arr bs) (.int n) = (do
              let mask ← mask128 cx.mode f.bits
              let mask := mask.setWidth t.bitSize
              let bits := BitVec.ofInt t.bitSize n
              let val := bits &&& mask
              return (decide (mask < bits), .int (if t.unsigned then (val.toNat : Int) else val.toInt))) := by
            simp only [extractCast, hty]
          rw [e1, e2]
          cases hm : mask128 cx.mode f.bits with
          | error p => simp only [Ends, ebind_error]; run [hmask, hm]
          | ok k =>
            simp only [ebind_ok, epure]
            have hnb : (DataType.int t).isBool = false := by cases t <;> first | rfl | exact absurd rfl ht
            cases hu : t.unsigned
            · have h1 : intTy t = .i t.bitSize := by cases t <;> first | rfl | exact absurd hu (by decide)
              have h2 : castV (bv k) (.i t.bitSize) = .ok (.i t.bitSize (k.setWidth t.bitSize).toInt) := by
                simp only [castV, bv_num, bv, castNum]
                rw [V.num]
                simp only [BitVec.ofInt_natCast, BitVec.ofNat_toNat]
              have h3 : binV cx.mode .and (.i t.bitSize n) (.i t.bitSize (k.setWidth t.bitSize).toInt) =
                  .ok (.i t.bitSize (BitVec.ofInt t.bitSize n &&& k.setWidth t.bitSize).toInt) := by
                simp only [binV, if_true, bitwise, ebind_ok, epure, BitVec.ofInt_toInt]
              rw [argV_i hu] at hb
              refine ⟨⟨("value", .i t.bitSize (BitVec.ofInt t.bitSize n &&& k.setWidth t.bitSize).toInt) ::
                ("mask", .i t.bitSize (k.setWidth t.bitSize).toInt) :: l, th, .arr bs, sh⟩,
                by run [hmask, hm, h1, h2, hb, h3], _, _, rfl, ⟨rfl, (fun w h => by cases h), ?_⟩, ?_⟩
              · rw [hty, hnb]; intro h; cases h
              · intro h; rw [DataType.unsigned, hu] at h; cases h
            · have h1 : intTy t = .u t.bitSize := by
                cases t <;> first | rfl | exact absurd hu (by decide) | exact absurd rfl ht
              rw [argV_u ht hu hv] at hb
              refine ⟨⟨("value", bv (BitVec.ofInt t.bitSize n &&& k.setWidth t.bitSize)) ::
                ("mask", bv (k.setWidth t.bitSize)) :: l, th, .arr bs, sh⟩,
                by run [hmask, hm, h1, hb], _, _, rfl, ⟨rfl, (fun w h => by cases h), fun _ => ⟨_, _, rfl⟩⟩, ?_⟩
              intro _ _ _
              exact ⟨_, _, _, by run [hb], by run [], rfl⟩

end

end Bf
