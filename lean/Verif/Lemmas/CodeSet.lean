import Verif.Lemmas.CodeField

/-!
# Running generated code: storing a field
-/

namespace Bf

open Rust Quote

set_option linter.unusedSimpArgs false

section
variable {cx : Ctx} {l sh : List (String × V)} {th builder : Bool}

theorem exec_storeByteBit {cnd i k : Expr} {bs : List (BitVec 8)} {ni nk : Nat} {x : Bool}
    (hin : (if builder = true then cx.builder else th) = true)
    (hc : eval cx cnd (some .bool) ⟨l, th, .arr bs, sh⟩ = .ok (.bool x, ⟨l, th, .arr bs, sh⟩))
    (hi : ∀ exp, eval cx i exp ⟨l, th, .arr bs, sh⟩ = .ok (.usize ni, ⟨l, th, .arr bs, sh⟩))
    (hk : ∀ exp, eval cx k exp ⟨l, th, .arr bs, sh⟩ = .ok (.u 32 nk, ⟨l, th, .arr bs, sh⟩)) (hn : nk < 8) :
    exec cx (storeByteBitTok cnd i k builder) ⟨l, th, .arr bs, sh⟩ =
      (liftE (do
        let b ← getB bs ni
        setB bs ni (putBit b nk x))).map fun bs' => .next ⟨l, th, .arr bs', sh⟩ := by
  run [storeByteBitTok, hc]
  cases x
  · run [Ctx.hasInner, hin, hk, hi, shl_ok _ _ hn, putBit]
    cases getB bs ni with
    | error p => run []
    | ok b =>
      run []
      cases setB bs ni (b &&& ~~~(1#8 <<< nk)) <;> run []
  · run [Ctx.hasInner, hin, hk, hi, shl_ok _ _ hn, putBit]
    cases getB bs ni with
    | error p => run []
    | ok b =>
      run []
      cases setB bs ni (b ||| (1#8 <<< nk)) <;> run []

theorem exec_storeBit {cnd off : Expr} {w : Nat} {v : BitVec w} {no : Nat} {x : Bool}
    (hin : (if builder = true then cx.builder else th) = true)
    (hc : eval cx cnd (some .bool) ⟨l, th, .int w v, sh⟩ = .ok (.bool x, ⟨l, th, .int w v, sh⟩))
    (ho : ∀ exp, eval cx off exp ⟨l, th, .int w v, sh⟩ = .ok (.u 32 no, ⟨l, th, .int w v, sh⟩)) :
    exec cx (storeBitTok cnd off builder) ⟨l, th, .int w v, sh⟩ =
      (liftE (intSetBit cx.mode v no x)).map fun v' => .next ⟨l, th, .int w v', sh⟩ := by
  have hst : ∀ y : BitVec w, storeAs cx.boxed (.int w v) (bv y) = .ok (.int w y) := by
    intro y; simp only [storeAs, bv, if_true, BitVec.ofNat_toNat, BitVec.setWidth_eq]
  run [storeBitTok, hc, intSetBit]
  cases x
  · run [Ctx.hasInner, hin, ho, storeTy]
    cases hs : shl cx.mode 1#w no with
    | error p => run []
    | ok b => run [ho, hs, hst]
  · run [Ctx.hasInner, hin, ho, storeTy]
    cases hs : shl cx.mode 1#w no with
    | error p => run []
    | ok b => run [ho, hs, hst]

theorem exec_storeBits {off : Expr} {w : Nat} {v mask fb : BitVec w} {no : Nat}
    (hin : (if builder = true then cx.builder else th) = true)
    (ho : ∀ exp env, eval cx off exp env = .ok (.u 32 no, env)) :
    exec cx (storeBitsTok off builder) ⟨("field_bits", bv fb) :: ("mask", bv mask) :: l, th, .int w v, sh⟩ =
      (liftE (intSetBits cx.mode v mask fb no)).map fun v' =>
        .next ⟨("field_bits", bv fb) :: ("mask", bv mask) :: l, th, .int w v', sh⟩ := by
  have hst : ∀ y : BitVec w, storeAs cx.boxed (.int w v) (bv y) = .ok (.int w y) := by
    intro y; simp only [storeAs, bv, if_true, BitVec.ofNat_toNat, BitVec.setWidth_eq]
  run [storeBitsTok, intSetBits, Ctx.hasInner, hin, ho, storeTy]
  cases shl cx.mode mask no with
  | error p => run []
  | ok a =>
    run []
    cases shl cx.mode (fb &&& mask) no with
    | error p => run []
    | ok b => run [hst]

end

theorem exec_seq_next {cx : Ctx} {a b : Stmt} {env env' : Env} (h : exec cx a env = .ok (.next env')) :
    exec cx (.seq a b) env = exec cx b env' := by run [h]

theorem writeU128_length {m : Mode} {bs a : List (BitVec 8)} {no nb : Nat} {v : BitVec 128}
    (h : writeU128 m bs no nb v = .ok a) : a.length = bs.length := by
  refine forUpTo_inv (P := fun x : List (BitVec 8) => x.length = bs.length) rfl ?_ h
  intro i s s' hs h
  cases ha : addU32 m no i with
  | error e => rw [ha] at h; cases h
  | ok bi =>
    cases hb : shr m v i with
    | error e => simp only [ha, hb, ebind_ok, ebind_error, reduceCtorEq] at h
    | ok b =>
      cases hc : getB s (bi / 8) with
      | error e => simp only [ha, hb, hc, ebind_ok, ebind_error, reduceCtorEq] at h
      | ok b' =>
        simp only [ha, hb, hc, ebind_ok] at h
        rw [setB_length h, hs]

theorem writeArr_length {m : Mode} {bs a src : List (BitVec 8)} {no nb : Nat}
    (h : writeArr m bs no nb src = .ok a) : a.length = bs.length := by
  refine forUpTo_inv (P := fun x : List (BitVec 8) => x.length = bs.length) rfl ?_ h
  intro i s s' hs h
  cases ha : addU32 m no i with
  | error e => rw [ha] at h; cases h
  | ok bi =>
    cases hb : getB src (i / 8) with
    | error e => simp only [ha, hb, ebind_ok, ebind_error, reduceCtorEq] at h
    | ok b =>
      cases hc : getB s (bi / 8) with
      | error e => simp only [ha, hb, hc, ebind_ok, ebind_error, reduceCtorEq] at h
      | ok b' =>
        simp only [ha, hb, hc, ebind_ok] at h
        rw [setB_length h, hs]

section
variable {cx : Ctx} {B : Bitfield} {f : Field} {builder : Bool} {c : Store} {l sh : List (String × V)} {th : Bool}

theorem exec_writeLoop (g : FieldCtx cx B.backing f builder)
    (hin : (if builder = true then cx.builder else th) = true) {bs : List (BitVec 8)} {val : BitVec 128} :
    exec cx (.loop (.bin .lt (.var "i") (bitsTok f builder)) (.all
      [.letS "bit_index" none (.bin .add (offTok f builder) (.var "i")),
       .letS "byte_idx" none (.bin .div (.var "bit_index") (.lit 8 none)),
       .letS "bit_in_byte" none (.bin .rem (.var "bit_index") (.lit 8 none)),
       .letS "bit_val" none (.bin .and (.bin .shr (.var "val_to_set") (.var "i")) (.lit 1 none)),
       storeByteBitTok (.bin .eq (.var "bit_val") (.lit 1 none)) (.cast (.var "byte_idx") .usize)
         (.var "bit_in_byte") builder,
       incr "i"])) ⟨("i", .u 32 0) :: ("val_to_set", bv val) :: l, th, .arr bs, sh⟩ =
      (liftE (writeU128 cx.mode bs f.offset f.bits val)).map fun bs' =>
        .next ⟨("i", .u 32 f.bits) :: ("val_to_set", bv val) :: l, th, .arr bs', sh⟩ := by
  have hlt := g.bits_lt
  exact exec_loopM
    (rep := fun i (x : List (BitVec 8)) => ⟨("i", .u 32 i) :: ("val_to_set", bv val) :: l, th, .arr x, sh⟩)
    (hM := (rfl : writeU128 cx.mode bs f.offset f.bits val = _)) (hf := g.fuel)
    (hc := by intro i x; run [g.bits])
    (hb := by
      intro i x hi
      cases ha : addU32 cx.mode f.offset i with
      | error e => run [g.off, ha]
      | ok bi =>
        have h := addU32_lt ha
        have hm : bi % 8 < 8 := Nat.mod_lt _ (by decide)
        have hd : bi / 8 < 2 ^ 32 := by omega
        have hi' : addU32 cx.mode i 1 = .ok (i + 1) := addU32_ok _ (by omega)
        run [g.off, ha]
        cases hs : shr cx.mode val i with
        | error p => run []
        | ok y =>
          run []
          rw [exec_storeByteBit hin (ni := bi / 8) (nk := bi % 8) (hc := by run []; rfl)
            (hi := by intro exp; run [castV_usize hd]) (hk := by intro exp; run []) (hn := hm)]
          cases hg : getB x (bi / 8) with
          | error p => run []
          | ok b =>
            run []
            cases setB x (bi / 8) (putBit b (bi % 8) (y &&& 1#128 == 1#128)) with
            | error p => run []
            | ok z => run [hi'])

theorem exec_writeArrLoop (g : FieldCtx cx B.backing f builder)
    (hin : (if builder = true then cx.builder else th) = true) {bs a : List (BitVec 8)} :
    exec cx (.loop (.bin .lt (.var "__i") (bitsTok f builder)) (.all
      [.letS "bit_index" none (.bin .add (offTok f builder) (.var "__i")),
       .letS "byte_idx" none (.cast (.bin .div (.var "bit_index") (.lit 8 none)) .usize),
       .letS "bit_in_byte" none (.bin .rem (.var "bit_index") (.lit 8 none)),
       .letS "src_bit" none
         (.bin .and (.bin .shr (.index (.var "__src") (.cast (.bin .div (.var "__i") (.lit 8 none)) .usize))
           (.bin .rem (.var "__i") (.lit 8 none))) (.lit 1 none)),
       storeByteBitTok (.bin .eq (.var "src_bit") (.lit 1 none)) (.var "byte_idx") (.var "bit_in_byte") builder,
       incr "__i"])) ⟨("__i", .u 32 0) :: ("__src", .arr a) :: l, th, .arr bs, sh⟩ =
      (liftE (writeArr cx.mode bs f.offset f.bits a)).map fun bs' =>
        .next ⟨("__i", .u 32 f.bits) :: ("__src", .arr a) :: l, th, .arr bs', sh⟩ := by
  have hlt := g.bits_lt
  exact exec_loopM
    (rep := fun i (x : List (BitVec 8)) => ⟨("__i", .u 32 i) :: ("__src", .arr a) :: l, th, .arr x, sh⟩)
    (hM := (rfl : writeArr cx.mode bs f.offset f.bits a = _)) (hf := g.fuel)
    (hc := by intro i x; run [g.bits])
    (hb := by
      intro i x hi
      cases ha : addU32 cx.mode f.offset i with
      | error e => run [g.off, ha]
      | ok bi =>
        have h := addU32_lt ha
        have hm : bi % 8 < 8 := Nat.mod_lt _ (by decide)
        have hm' : i % 8 < 8 := Nat.mod_lt _ (by decide)
        have hd : bi / 8 < 2 ^ 32 := by omega
        have hd' : i / 8 < 2 ^ 32 := by omega
        have hi' : addU32 cx.mode i 1 = .ok (i + 1) := addU32_ok _ (by omega)
        run [g.off, ha, castV_usize hd, castV_usize hd']
        cases hs : getB a (i / 8) with
        | error p => run []
        | ok y =>
          run [shr_ok _ _ hm']
          rw [exec_storeByteBit hin (ni := bi / 8) (nk := bi % 8) (hc := by run []; rfl)
            (hi := by intro exp; run []) (hk := by intro exp; run []) (hn := hm)]
          cases hg : getB x (bi / 8) with
          | error p => run []
          | ok b =>
            run []
            cases setB x (bi / 8) (putBit b (bi % 8) (y >>> (i % 8) &&& 1#8 == 1#8)) with
            | error p => run []
            | ok z => run [hi'])

/-- `generate_setting_field_without_setter_tokens` does what `directSet` does. -/
theorem ends_directTok {e : Expr} {vm : R Val} (g : FieldCtx cx B.backing f builder)
    (hin : (if builder = true then cx.builder else th) = true) (hc : c.HasBacking B.backing)
    (hy : ∀ l', look "value" l' = look "value" l → Yields cx e B.backing f.ty vm ⟨l', th, c, sh⟩)
    (hsh : ∀ v, vm = .ok v → Shaped B.backing f.ty v) :
    Ends (exec cx (directTok B f e builder) ⟨l, th, c, sh⟩) (vm >>= directSet cx.mode f c) fun s' env =>
      s'.HasBacking B.backing ∧ ∃ l', env = ⟨l', th, s', sh⟩ ∧ look "bits" l' = look "bits" l := by
  have hlt := g.bits_lt
  have hfit := g.ok.fits
  have hpos := g.ok.pos
  cases hB : B.backing with
  | int w =>
    rw [hB] at hc hfit
    cases c with
    | arr bs => exact absurd hc id
    | int w' v =>
      obtain rfl : w' = w := hc
      simp only [Backing.size] at hfit
      have hmask : ∀ exp env, eval cx (maskTok w' (bitsTok f builder)) exp env =
          .ok (bv (maxOf w' >>> (w' - f.bits)), env) := by
        intro exp env
        rw [eval_maskTok (fun exp => g.bits exp env), intMask_ok _ hpos (by omega)]; rfl
      -- the two cases with a mask
      have masked : ∀ {t : Option Ty} {e' : Expr} {fb : BitVec w'},
          (exec cx (.letS "field_bits" t e') ⟨("mask", bv (maxOf w' >>> (w' - f.bits))) :: l, th, .int w' v, sh⟩ =
            .ok (.next ⟨("field_bits", bv fb) :: ("mask", bv (maxOf w' >>> (w' - f.bits))) :: l, th, .int w' v, sh⟩)) →
          Ends (exec cx (.all [.letS "mask" none (maskTok w' (bitsTok f builder)), .letS "field_bits" t e',
              storeBitsTok (offTok f builder) builder]) ⟨l, th, .int w' v, sh⟩)
            (do
              let mask ← intMask cx.mode w' f.bits
              return .int w' (← intSetBits cx.mode v mask fb f.offset)) fun s' env =>
            s'.HasBacking (.int w') ∧ ∃ l', env = ⟨l', th, s', sh⟩ ∧ look "bits" l' = look "bits" l := by
        intro t e' fb h
        rw [intMask_ok _ hpos (by omega)]
        have h0 : exec cx (.letS "mask" none (maskTok w' (bitsTok f builder))) ⟨l, th, .int w' v, sh⟩ =
            .ok (.next ⟨("mask", bv (maxOf w' >>> (w' - f.bits))) :: l, th, .int w' v, sh⟩) := by run [hmask]
        rw [Stmt.all, Stmt.all, Stmt.all, exec_seq_next h0, exec_seq_next h]
        run [exec_storeBits hin g.off]
        cases intSetBits cx.mode v (maxOf w' >>> (w' - f.bits)) fb f.offset with
        | error p => simp only [Ends, ebind_error]; run []
        | ok y => exact ⟨_, by run []; rfl, rfl, _, rfl, by run []⟩
      have hlook : look "value" (("mask", bv (maxOf w' >>> (w' - f.bits))) :: l) = look "value" l := by run []
      cases hvm : vm with
      | error p =>
        rw [hvm] at hy
        simp only [ebind_error, Ends]
        have h1 := hy l rfl
        have h2 := hy _ hlook
        simp only [Yields] at h1 h2
        cases hty : f.ty with
        | int t =>
          cases t <;> simp only [directTok, hB, hty] <;> first
            | (run [storeBitTok, h1]; done)
            | (run [hmask, h2]; done)
        | custom cd => simp only [directTok, hB, hty]; run [hmask, h2]
        | array len => simp only [directTok, hB, hty]; run [hmask, h2]
      | ok x =>
        have hs := hsh x hvm
        rw [hvm] at hy
        rw [ebind_ok]
        cases hty : f.ty with
        | custom cd =>
          rw [hty] at hs hy
          cases x with
          | custom code =>
            simp only [directTok, directSet, hB, hty]
            apply masked
            obtain ⟨V, h1, ⟨_, hcd, rfl⟩, -⟩ := hy _ hlook none (by intro n h; cases h)
            cases hcd
            run [h1]
          | int n => exact absurd hs id
          | bool n => exact absurd hs id
          | arr n => exact absurd hs id
        | array len =>
          rw [hty] at hs hy
          cases x with
          | int n =>
            simp only [directTok, directSet, hB, hty]
            obtain ⟨V, h1, hV, h2⟩ := hy _ hlook (some (.u w')) (fun _ _ => .inr ⟨_, rfl⟩)
            have h3 := h2 w' n rfl hB rfl
            split
            · rename_i hr
              rw [if_pos hr] at h3
              apply masked
              run [h1, h3]
            · rename_i hr
              rw [if_neg hr] at h3
              simp only [Ends]
              run [hmask, h1, h3]
              rfl
          | custom n => exact absurd hs id
          | bool n => exact absurd hs id
          | arr n => obtain ⟨⟨m, hm⟩, -⟩ := hs; rw [hB] at hm; cases hm
        | int t =>
          rw [hty] at hs hy
          by_cases ht : t = .bool
          · subst ht
            cases x with
            | bool y =>
              simp only [directTok, directSet, hB, hty]
              obtain ⟨V, h1, rfl, -⟩ := hy _ rfl (some .bool) (by intro n h; cases h)
              rw [exec_storeBit hin h1 (fun exp => g.off exp _)]
              cases intSetBit cx.mode v f.offset y with
              | error p => simp only [Ends, ebind_error]; run []
              | ok z => exact ⟨_, rfl, rfl, _, rfl, rfl⟩
            | int n => exact absurd hs id
            | custom n => exact absurd hs id
            | arr n => exact absurd hs id
          · have hx : ∃ n, x = .int n := by
              cases x with
              | int n => exact ⟨n, rfl⟩
              | _ => cases t <;> first | exact absurd rfl ht | exact absurd hs id
            obtain ⟨n, rfl⟩ := hx
            have e1 : directTok B f e builder = .all [.letS "mask" none (maskTok w' (bitsTok f builder)),
                .letS "field_bits" (some (.u w')) e, storeBitsTok (offTok f builder) builder] := by
              simp only [directTok, hB, hty]; cases t <;> first | rfl | exact absurd rfl ht
            have e2 : directSet cx.mode f (.int w' v) (.int n) = if 0 ≤ n ∧ n < 2 ^ w' then do
                let mask ← intMask cx.mode w' f.bits
                return .int w' (← intSetBits cx.mode v mask (BitVec.ofInt w' n) f.offset)
              else .error .rejected := by
              simp only [directSet, hty]
            rw [e1, e2]
            obtain ⟨V, h1, hV, h2⟩ := hy _ hlook (some (.u w')) (fun _ _ => .inr ⟨_, rfl⟩)
            have h3 := h2 w' n rfl hB rfl
            split
            · rename_i hr
              rw [if_pos hr] at h3
              apply masked
              run [h1, h3]
            · rename_i hr
              rw [if_neg hr] at h3
              simp only [Ends]
              run [hmask, h1, h3]
              rfl
  | arr n =>
    rw [hB] at hc hfit
    cases c with
    | int w bs => exact absurd hc id
    | arr bs =>
      have hlen : bs.length = n := hc
      have scalar : ∀ {e' : Expr} {val : BitVec 128},
          (∀ exp, eval cx e' exp ⟨l, th, .arr bs, sh⟩ = .ok (bv val, ⟨l, th, .arr bs, sh⟩)) →
          Ends (exec cx (.scope (.all
            [.letS "val_to_set" none e',
             .letS "i" (some (.u 32)) (.lit 0 none) true,
             .loop (.bin .lt (.var "i") (bitsTok f builder)) (.all
               [.letS "bit_index" none (.bin .add (offTok f builder) (.var "i")),
                .letS "byte_idx" none (.bin .div (.var "bit_index") (.lit 8 none)),
                .letS "bit_in_byte" none (.bin .rem (.var "bit_index") (.lit 8 none)),
                .letS "bit_val" none (.bin .and (.bin .shr (.var "val_to_set") (.var "i")) (.lit 1 none)),
                storeByteBitTok (.bin .eq (.var "bit_val") (.lit 1 none)) (.cast (.var "byte_idx") .usize)
                  (.var "bit_in_byte") builder,
                incr "i"])])) ⟨l, th, .arr bs, sh⟩)
            (do return .arr (← writeU128 cx.mode bs f.offset f.bits val)) fun s' env =>
            s'.HasBacking (.arr n) ∧ ∃ l', env = ⟨l', th, s', sh⟩ ∧ look "bits" l' = look "bits" l := by
        intro e' val h
        have hw := exec_writeLoop (l := l) (sh := sh) (bs := bs) (val := val) g hin
        simp only [Stmt.all, incr] at hw ⊢
        run [h]
        rw [hw]
        cases hr : writeU128 cx.mode bs f.offset f.bits val with
        | error p => simp only [Ends, ebind_error]; run []
        | ok bs' =>
          refine ⟨_, by run [], ?_, _, rfl, rfl⟩
          exact (writeU128_length hr).trans hlen
      have stop : ∀ {e' : Expr} {p : Panic} {rest : List Stmt} {t : String},
          (∀ exp, eval cx e' exp ⟨l, th, .arr bs, sh⟩ = .error (stopOf p)) →
          exec cx (.scope (.all (.letS t none e' :: rest))) ⟨l, th, .arr bs, sh⟩ = .error (stopOf p) := by
        intro e' p rest t h
        run [h]
      cases hvm : vm with
      | error p =>
        rw [hvm] at hy
        simp only [ebind_error, Ends]
        have h1 := hy l rfl
        simp only [Yields] at h1
        cases hty : f.ty with
        | int t =>
          cases t <;> simp only [directTok, hB, hty] <;> (apply stop; intro exp; run [h1])
        | custom cd => simp only [directTok, hB, hty]; apply stop; intro exp; run [h1]
        | array len => simp only [directTok, hB, hty]; apply stop; intro exp; run [h1]
      | ok x =>
        have hs := hsh x hvm
        rw [hvm] at hy
        rw [ebind_ok]
        cases hty : f.ty with
        | custom cd =>
          rw [hty] at hs hy
          cases x with
          | custom code =>
            simp only [directTok, directSet, hB, hty]
            apply scalar
            intro exp
            obtain ⟨V, h1, ⟨_, hcd, rfl⟩, -⟩ := hy _ rfl none (by intro n h; cases h)
            cases hcd
            run [h1]
          | int n => exact absurd hs id
          | bool n => exact absurd hs id
          | arr n => exact absurd hs id
        | array len =>
          rw [hty] at hs hy
          cases x with
          | arr a =>
            simp only [directTok, directSet, hB, hty]
            obtain ⟨V, h1, rfl, -⟩ := hy _ rfl none (by intro n h; cases h)
            have hw := exec_writeArrLoop (l := l) (sh := sh) (bs := bs) (a := a) g hin
            simp only [Stmt.all, incr] at hw ⊢
            run [h1]
            rw [hw]
            cases hr : writeArr cx.mode bs f.offset f.bits a with
            | error p => simp only [Ends, ebind_error]; run []
            | ok bs' =>
              refine ⟨_, by run [], ?_, _, rfl, rfl⟩
              exact (writeArr_length hr).trans hlen
          | custom n => exact absurd hs id
          | bool n => exact absurd hs id
          | int n => obtain ⟨m, hm⟩ := hs; rw [hB] at hm; cases hm
        | int t =>
          rw [hty] at hs hy
          by_cases ht : t = .bool
          · subst ht
            cases x with
            | bool y =>
              simp only [directTok, directSet, hB, hty]
              obtain ⟨V, h1, rfl, -⟩ := hy _ rfl (some .bool) (by intro n h; cases h)
              apply scalar
              intro exp
              cases y <;> run [h1]
            | int n => exact absurd hs id
            | custom n => exact absurd hs id
            | arr n => exact absurd hs id
          · have hx : ∃ n, x = .int n := by
              cases x with
              | int n => exact ⟨n, rfl⟩
              | _ => cases t <;> first | exact absurd rfl ht | exact absurd hs id
            obtain ⟨k, rfl⟩ := hx
            have e2 : directSet cx.mode f (.arr bs) (.int k) = do
                return .arr (← writeU128 cx.mode bs f.offset f.bits (BitVec.ofInt 128 k)) := by
              simp only [directSet, hty]
            rw [e2]
            obtain ⟨V, h1, hV, -⟩ := hy _ rfl (some (.u 128)) (fun _ _ => .inr ⟨_, rfl⟩)
            cases t <;> first | exact absurd rfl ht | skip
            all_goals
              simp only [directTok, hB, hty]
              apply scalar
              intro exp
              run [h1, castV_num hV]

end

end Bf
