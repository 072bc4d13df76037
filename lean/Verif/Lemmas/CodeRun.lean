import Verif.Lemmas.CodeProgram

/-!
# Running generated functions: calls on the program
-/

namespace Bf

open Rust Quote

set_option linter.unusedSimpArgs false

/-! ## What the caller sees -/

theorem seenVal_argV {t : DataType} {x : Val} (h : HasType t x) : seenVal (argV t x) = some x := by
  cases t with
  | custom c => cases x <;> first | exact absurd h id | rfl
  | array len => cases x <;> first | exact absurd h id | rfl
  | int t =>
    by_cases ht : t = .bool
    · subst ht; cases x <;> first | exact absurd h id | rfl
    · cases x with
      | int n =>
        cases hu : t.unsigned with
        | true =>
          have hr : 0 ≤ n := by
            cases t <;> first | exact absurd rfl ht | exact absurd hu (by decide) | exact h.1
          have e : argV (.int t) (.int n) = .u t.bitSize n.toNat := by
            cases t <;> first | exact absurd rfl ht | exact absurd hu (by decide) | rfl
          rw [e]
          simp only [seenVal]
          rw [Int.toNat_of_nonneg hr]
        | false => rw [argV_i hu]; rfl
      | _ => cases t <;> first | exact absurd rfl ht | exact absurd h id

theorem seenStore_ofStore (s : Store) : seenStore (ofStore s) = some s := by
  cases s with
  | int w x =>
    show some (Store.int w (BitVec.ofNat w x.toNat)) = _
    rw [BitVec.ofNat_toNat, BitVec.setWidth_eq]
  | arr bs => rfl

/-! ## Calls -/

theorem call_of_returns {P : Program} {B : Bitfield} {m : Mode} {fuel : Nat} {c : Call} {s : Store} {F : Fn}
    (hfn : P.fn (c.tag (paramTok B)) = some F)
    (h : Returns (F.run (P.ctx m fuel s 3) (c.args s) s) (call m B c s) fun r v env =>
      c.seen v env = some r.1 ∧ env.cell = r.2) : P.call B m fuel c s = liftE (call m B c s) := by
  simp only [Program.call, hfn]
  cases hx : call m B c s with
  | error p =>
    rw [hx] at h
    simp only [Returns] at h
    rw [h, liftE_err, ebind_error]
  | ok r =>
    rw [hx] at h
    obtain ⟨v, env, h1, h2, h3⟩ := h
    simp only [h1, ebind_ok, h2, h3, epure, liftE_ok]

theorem call_of_map {P : Program} {B : Bitfield} {m : Mode} {fuel : Nat} {c : Call} {s : Store} {F : Fn} {α : Type}
    {M : R α} {k : α → Out × Store} (hfn : P.fn (c.tag (paramTok B)) = some F)
    (hM : call m B c s = M >>= fun a => pure (k a))
    (h : Returns (F.run (P.ctx m fuel s 3) (c.args s) s) M fun a v env =>
      c.seen v env = some (k a).1 ∧ env.cell = (k a).2) : P.call B m fuel c s = liftE (call m B c s) := by
  refine call_of_returns hfn ?_
  rw [hM]
  exact Returns.map (g := k) (Q := fun r v env => c.seen v env = some r.1 ∧ env.cell = r.2) h

variable {G : Gen} {en : Feature → Bool} {m : Mode} {fuel : Nat} {s : Store}

theorem tag_unique {t : Tag} {F : Fn} (h : ((assemble G en).fn t).isSome = true)
    (h1 : ∀ w, G.B.backing = .int w → ∀ feat F', (t, F') ∈ featureFns G feat → F' = F)
    (h2 : ∀ n, G.B.backing = .arr n → ∀ feat F', (t, F') ∈ featureFns G feat → F' = F) :
    (assemble G en).fn t = some F := by
  refine fn_unique ?_ h
  cases hB : G.B.backing with
  | int w => exact h1 w hB
  | arr n => exact h2 n hB

/-- Find the function with a fixed name. -/
macro "named" h:term : tactic => `(tactic|
  (refine tag_unique $h ?_ ?_ <;>
   (intro n hB feat F' h;
    cases feat <;>
      simp [featureFns, endians, endianInfix, hB, paramTok, Call.tag, Origin.tag] at h <;> assumption)))

/-- Find the function with a fixed name, for a known storage. -/
macro "namedB" hB:term "," h:term : tactic => `(tactic|
  (refine fn_unique ?_ $h;
   intro feat F' h;
   cases feat <;>
      simp [featureFns, endians, endianInfix, $hB:term, paramTok, Call.tag, Origin.tag] at h <;> assumption))

set_option maxHeartbeats 1000000 in
theorem call_eq (g : Generable G.B) (he : en .setters = true) (hf : 2 ^ 64 ≤ fuel) (hs : s.HasBacking G.B.backing)
    {c : Call} (hc : c.Typed G.B) (hp : ((assemble G en).fn (c.tag (paramTok G.B))).isSome = true) :
    (assemble G en).call G.B m fuel c s = liftE (call m G.B c s) := by
  have sur := ctx_surround (m := m) g he hf s 2
  have bas := sur.toBase
  cases c with
  | get f =>
    obtain ⟨h1, h2, h3⟩ := hc
    refine call_of_returns (fn_get g h1 h2 hp) ?_
    refine Returns.map (g := fun x => (Out.val x, s)) ((returns_getter bas h1 hs).weaken ?_)
    rintro x v env ⟨rfl, rfl, ht⟩
    exact ⟨by simp only [Call.seen, seenVal_argV ht, Option.map_some], rfl⟩
  | inverted f =>
    obtain ⟨h1, h2, h3⟩ := hc
    refine call_of_returns (fn_inverted g h1 h2 hp) ?_
    refine Returns.map (g := fun x => (Out.val x, s)) ((returns_inverted bas h1 hs).weaken ?_)
    rintro x v env ⟨rfl, rfl, ht⟩
    exact ⟨by simp only [Call.seen, seenVal_argV ht, Option.map_some], rfl⟩
  | set f x =>
    obtain ⟨h1, h2, h3⟩ := hc
    rw [← hasSetter_eq] at h2
    refine call_of_returns (fn_set g h1 (setter_open h2) hp) ?_
    refine Returns.map (g := fun x => (Out.unit, x)) ((returns_setter bas h1 hs h3).weaken ?_)
    rintro x v env ⟨rfl, rfl⟩
    exact ⟨rfl, rfl⟩
  | checkedSet f x =>
    obtain ⟨h1, h2, h3⟩ := hc
    rw [← hasSetter_eq] at h2
    refine call_of_returns (fn_checkedSet g h1 (setter_open h2) hp) ?_
    refine Returns.map (g := outRes) ((returns_checkedSetter bas h1 hs h3).weaken ?_)
    rintro ⟨r, s'⟩ v env ⟨rfl, rfl⟩
    cases r <;> exact ⟨rfl, rfl⟩
  | clearField f =>
    obtain ⟨h1, h2⟩ := hc
    rw [← hasSetter_eq] at h2
    refine call_of_returns (fn_clear g h1 (setter_open h2) hp) ?_
    refine Returns.map (g := fun x => (Out.unit, x)) ((returns_clearField sur h1 hs).weaken ?_)
    rintro x v env ⟨rfl, rfl⟩
    exact ⟨rfl, rfl⟩
  | clearFieldToDefault f =>
    obtain ⟨h1, h2, h3⟩ := hc
    rw [← hasSetter_eq] at h2
    refine call_of_returns (fn_clearToDefault g h1 (setter_open h2) hp) ?_
    refine Returns.map (g := fun x => (Out.unit, x)) ((returns_clearToDefault sur h1 hs h3).weaken ?_)
    rintro x v env ⟨rfl, rfl⟩
    exact ⟨rfl, rfl⟩
  | invertField f =>
    obtain ⟨h1, h2⟩ := hc
    rw [← hasSetter_eq] at h2
    refine call_of_returns (fn_invertField g h1 (setter_open h2) hp) ?_
    refine Returns.map (g := fun x => (Out.unit, x)) ((returns_invertField sur h1 hs h2).weaken ?_)
    rintro x v env ⟨rfl, rfl⟩
    exact ⟨rfl, rfl⟩
  | getBit o =>
    refine call_of_returns (F := getBitFn G) (by named hp) ?_
    refine Returns.map (g := fun x => (Out.flag x, s)) ((returns_getBit bas hc hs).weaken ?_)
    rintro x v env ⟨rfl, rfl⟩
    exact ⟨rfl, rfl⟩
  | checkedGetBit o =>
    refine call_of_returns (F := checkedGetBitFn G) (by named hp) ?_
    have h := returns_checkedGetBit bas hc hs
    rw [ctx_mode] at h
    simp only [call]
    cases hx : apiCheckedGetBit m G.B s o with
    | error p => rw [hx] at h; exact h
    | ok r =>
      rw [hx] at h
      obtain ⟨v, env, h1, h2, h3⟩ := h
      cases r <;> exact ⟨v, env, h1, by rw [h3]; rfl, h2⟩
  | setBit o b =>
    refine call_of_returns (F := setBitFn G) (by named hp) ?_
    refine Returns.map (g := fun x => (Out.unit, x)) ((returns_setBit bas hc hs).weaken ?_)
    rintro x v env ⟨rfl, rfl⟩
    exact ⟨rfl, rfl⟩
  | checkedSetBit o b =>
    refine call_of_returns (F := checkedSetBitFn G) (by named hp) ?_
    refine Returns.map (g := outRes) ((returns_checkedSetBit bas hc hs).weaken ?_)
    rintro ⟨r, s'⟩ v env ⟨rfl, rfl⟩
    cases r <;> exact ⟨rfl, rfl⟩
  | getRange o l =>
    refine call_of_returns (F := getRangeFn G) (by named hp) ?_
    refine Returns.map (g := fun x => (Out.store x, s)) ((returns_getRange bas hc.2 hs).weaken ?_)
    rintro x v env ⟨rfl, rfl⟩
    exact ⟨by simp only [Call.seen, seenStore_ofStore, Option.map_some], rfl⟩
  | checkedGetRange o l =>
    refine call_of_returns (F := checkedGetRangeFn G) (by named hp) ?_
    have h := returns_checkedGetRange (o := o) bas hc.2 hs
    rw [ctx_mode] at h
    simp only [call]
    cases hx : apiCheckedGetRange m G.B s o l with
    | error p => rw [hx] at h; exact h
    | ok r =>
      rw [hx] at h
      obtain ⟨v, env, h1, h2, h3⟩ := h
      cases r with
      | error e => exact ⟨v, env, h1, by rw [h3]; rfl, h2⟩
      | ok x => exact ⟨v, env, h1, by rw [h3]; simp only [Call.seen, seenStore_ofStore, Option.map_some], h2⟩
  | setRange o l x =>
    refine call_of_returns (F := setRangeFn G) (by named hp) ?_
    refine Returns.map (g := fun x => (Out.unit, x)) ((returns_setRange bas hc.2.1 hs hc.2.2).weaken ?_)
    rintro x v env ⟨rfl, rfl⟩
    exact ⟨rfl, rfl⟩
  | checkedSetRange o l x =>
    refine call_of_returns (F := checkedSetRangeFn G) (by named hp) ?_
    refine Returns.map (g := outRes) ((returns_checkedSetRange bas hc.2.1 hs hc.2.2).weaken ?_)
    rintro ⟨r, s'⟩ v env ⟨rfl, rfl⟩
    cases r <;> exact ⟨rfl, rfl⟩
  | into e =>
    have h := (returns_into (e := e) bas hs).weaken (Q' := fun x v env =>
      (Call.into e).seen v env = some (Out.store x, s).1 ∧ env.cell = s) (by
        rintro x v env ⟨rfl, rfl⟩
        exact ⟨by simp only [Call.seen, seenStore_ofStore, Option.map_some], rfl⟩)
    rcases e with _ | _ | _
    · exact call_of_map (k := fun x => (Out.store x, s)) (F := intoFn G.B none) (by named hp) rfl h
    · exact call_of_map (k := fun x => (Out.store x, s)) (F := intoFn G.B (some .little)) (by named hp) rfl h
    · exact call_of_map (k := fun x => (Out.store x, s)) (F := intoFn G.B (some .big)) (by named hp) rfl h
  | intoTrait =>
    refine call_of_returns (F := traitIntoFn G.B) (by named hp) ?_
    refine Returns.map (g := fun x => (Out.store x, s)) ((returns_traitInto bas hs).weaken ?_)
    rintro x v env ⟨rfl, rfl⟩
    exact ⟨by simp only [Call.seen, seenStore_ofStore, Option.map_some], rfl⟩
  | intoSlice e sl =>
    obtain ⟨n, hB⟩ := hc
    have h := (returns_intoSlice (e := e) (sl := sl) bas hB hs).weaken (Q' := fun x v env =>
      (Call.intoSlice e sl).seen v env = some (Out.bytes x, s).1 ∧ env.cell = s) (by
        rintro x v env ⟨rfl, rfl, h⟩
        exact ⟨by simp only [Call.seen, seenSlice, h, Option.map_some], rfl⟩)
    rcases e with _ | _ | _
    · exact call_of_map (k := fun x => (Out.bytes x, s)) (F := intoSliceFn G.B n none) (by namedB hB, hp) rfl h
    · exact call_of_map (k := fun x => (Out.bytes x, s)) (F := intoSliceFn G.B n (some .little)) (by namedB hB, hp) rfl h
    · exact call_of_map (k := fun x => (Out.bytes x, s)) (F := intoSliceFn G.B n (some .big)) (by namedB hB, hp) rfl h
  | checkedIntoSlice e sl =>
    obtain ⟨n, hB⟩ := hc
    have h := returns_checkedIntoSlice (e := e) (sl := sl) bas hB hs
    have h : Returns ((checkedIntoSliceFn G.B n e).run ((assemble G en).ctx m fuel s 3) [.arr sl] s)
        (call m G.B (.checkedIntoSlice e sl) s) fun r v env =>
          (Call.checkedIntoSlice e sl).seen v env = some r.1 ∧ env.cell = r.2 := by
      simp only [call]
      cases hx : apiCheckedIntoSlice G.B (e.getD G.B.intoEndian) s sl with
      | error p => rw [hx] at h; exact h
      | ok r =>
        rw [hx] at h
        obtain ⟨v, env, h1, h2, h3, h4⟩ := h
        obtain ⟨r, sl'⟩ := r
        cases r with
        | error e => exact ⟨v, env, h1, by rw [h4]; simp only [Call.seen, seenSlice, h3, Option.map_some], h2⟩
        | ok x => exact ⟨v, env, h1, by rw [h4]; simp only [Call.seen, seenSlice, h3, Option.map_some], h2⟩
    rcases e with _ | _ | _
    · exact call_of_returns (F := checkedIntoSliceFn G.B n none) (by namedB hB, hp) h
    · exact call_of_returns (F := checkedIntoSliceFn G.B n (some .little)) (by namedB hB, hp) h
    · exact call_of_returns (F := checkedIntoSliceFn G.B n (some .big)) (by namedB hB, hp) h
  | write e d x =>
    have h := (returns_write (e := e) (d := d) sur hs hc).weaken (Q' := fun x' v env =>
      (Call.write e d x).seen v env = some (Out.unit, x').1 ∧ env.cell = x') (by
        rintro x v env ⟨rfl, rfl⟩
        exact ⟨rfl, rfl⟩)
    rcases e with _ | _ | _ <;> cases d
    · refine call_of_map (k := fun x => (Out.unit, x)) (F := writeFn G.B none false) (by named hp) ?_ h
      rw [ctx_mode]; simp only [call, apiWrite, apiWriteE, apiWriteDefaultsBits, apiWriteEDefaults, Option.getD, if_true, Bool.false_eq_true, if_false, bind_pure]
    · refine call_of_map (k := fun x => (Out.unit, x)) (F := writeFn G.B none true) (by named hp) ?_ h
      rw [ctx_mode]; simp only [call, apiWrite, apiWriteE, apiWriteDefaultsBits, apiWriteEDefaults, Option.getD, if_true, Bool.false_eq_true, if_false, bind_pure]
    · refine call_of_map (k := fun x => (Out.unit, x)) (F := writeFn G.B (some .little) false) (by named hp) ?_ h
      rw [ctx_mode]; simp only [call, apiWrite, apiWriteE, apiWriteDefaultsBits, apiWriteEDefaults, Option.getD, if_true, Bool.false_eq_true, if_false, bind_pure]
    · refine call_of_map (k := fun x => (Out.unit, x)) (F := writeFn G.B (some .little) true) (by named hp) ?_ h
      rw [ctx_mode]; simp only [call, apiWrite, apiWriteE, apiWriteDefaultsBits, apiWriteEDefaults, Option.getD, if_true, Bool.false_eq_true, if_false, bind_pure]
    · refine call_of_map (k := fun x => (Out.unit, x)) (F := writeFn G.B (some .big) false) (by named hp) ?_ h
      rw [ctx_mode]; simp only [call, apiWrite, apiWriteE, apiWriteDefaultsBits, apiWriteEDefaults, Option.getD, if_true, Bool.false_eq_true, if_false, bind_pure]
    · refine call_of_map (k := fun x => (Out.unit, x)) (F := writeFn G.B (some .big) true) (by named hp) ?_ h
      rw [ctx_mode]; simp only [call, apiWrite, apiWriteE, apiWriteDefaultsBits, apiWriteEDefaults, Option.getD, if_true, Bool.false_eq_true, if_false, bind_pure]
  | writeDefaults =>
    refine call_of_returns (F := writeDefaultsFn G.B) (by named hp) ?_
    refine Returns.map (g := fun x => (Out.unit, x)) ((returns_writeDefaults sur hs).weaken ?_)
    rintro x v env ⟨rfl, rfl⟩
    exact ⟨rfl, rfl⟩
  | clear d =>
    have h := (returns_clear (d := d) sur hs).weaken (Q' := fun x v env =>
      (Call.clear d).seen v env = some (Out.unit, x).1 ∧ env.cell = x) (by
        rintro x v env ⟨rfl, rfl⟩
        exact ⟨rfl, rfl⟩)
    cases d
    · exact call_of_map (k := fun x => (Out.unit, x)) (F := clearFn G.B false) (by named hp) rfl h
    · exact call_of_map (k := fun x => (Out.unit, x)) (F := clearFn G.B true) (by named hp) rfl h
  | invert =>
    refine call_of_returns (F := invertFn G.B) (by named hp) ?_
    refine Returns.map (g := fun x => (Out.unit, x)) ((returns_invert sur hs).weaken ?_)
    rintro x v env ⟨rfl, rfl⟩
    exact ⟨rfl, rfl⟩
  | debug =>
    refine call_of_returns (F := debugFn G.B) (by named hp) ?_
    refine Returns.map (g := fun x => (Out.fields x, s)) ((returns_debug bas hs).weaken ?_)
    rintro x v env ⟨rfl, rfl, h⟩
    exact ⟨by simp only [Call.seen, h, Option.map_some], rfl⟩

end Bf
