import Verif.SpecTypes

/-!
# The emitted functions are well typed: helper lemmas
-/

namespace Bf.Quote

open Rust

/-- What a function of a bitfield can refer to. -/
structure Declares (S : Sig) (B : Bitfield) : Prop where
  inner : S.inner = innerTy B
  const : ∀ f ∈ B.fields, f.hasConstants = true → S.const .bitsConst f.name = true ∧ S.const .offsetConst f.name = true
  set : ∀ f ∈ B.fields, f.hasSetter = true → S.method (.acc .set f.name) = some (fieldTy f.ty, .unit)
  checkedSet : ∀ f ∈ B.fields, f.hasSetter = true →
    S.method (.acc .checkedSet f.name) = some (fieldTy f.ty, .result .unit)

section
variable {w n : Nat} {t : Ty}
@[simp] theorem castable_u : (STy.ty (.u w)).castable = true := rfl
@[simp] theorem castable_i : (STy.ty (.i w)).castable = true := rfl
@[simp] theorem castable_usize : (STy.ty .usize).castable = true := rfl
@[simp] theorem castable_bool : (STy.ty .bool).castable = true := rfl
@[simp] theorem castable_user : STy.userInt.castable = true := rfl
@[simp] theorem isInt_u : (Ty.u w).isInt = true := rfl
@[simp] theorem isInt_i : (Ty.i w).isInt = true := rfl
@[simp] theorem isInt_usize : Ty.usize.isInt = true := rfl
@[simp] theorem indexable_arr : (STy.ty (.arr n)).indexable = true := rfl
@[simp] theorem indexable_slice : (STy.ty .slice).indexable = true := rfl
@[simp] theorem indexable_box : (STy.box n).indexable = true := rfl
end

macro "ty" "[" ls:Lean.Parser.Tactic.simpLemma,* "]" : tactic =>
  `(tactic| simp [Stmt.typ, Expr.typ, Stmt.all, findVar, binTy, rightSTy, operandTy, STy.ty?, $ls,*])

variable {S : Sig} {B : Bitfield} {f : Field} {N : Names}

theorem bits_typ (h : Declares S B) (hf : f ∈ B.fields) {b : Bool} (hb : f.hasConstants = true → S.builder = b) (e : Option Ty) :
    (bitsTok f b).typ S e N = some (.ty (.u 32)) := by
  unfold bitsTok
  split
  · rename_i hc; have hb := hb hc; cases b <;> ty [(h.const f hf hc).1, hb]
  · ty []

theorem off_typ (h : Declares S B) (hf : f ∈ B.fields) {b : Bool} (hb : f.hasConstants = true → S.builder = b) (e : Option Ty) :
    (offTok f b).typ S e N = some (.ty (.u 32)) := by
  unfold offTok
  split
  · rename_i hc; have hb := hb hc; cases b <;> ty [(h.const f hf hc).2, hb]
  · ty []

theorem mask_typ {w : Nat} {bits : Expr} (hb : ∀ e, bits.typ S e N = some (.ty (.u 32))) (e : Option Ty) :
    (maskTok w bits).typ S e N = some (.ty (.u w)) := by
  ty [maskTok, hb]

theorem mask128_typ {bits : Expr} (hb : ∀ e, bits.typ S e N = some (.ty (.u 32))) (e : Option Ty) :
    (mask128Tok bits).typ S e N = some (.ty (.u 128)) := by
  ty [mask128Tok, hb]

theorem notIf_typ {w : Nat} {inv : Bool} {a : Expr} {e : Option Ty} (h : a.typ S e N = some (.ty (.u w))) :
    (notIf inv a).typ S e N = some (.ty (.u w)) := by
  cases inv <;> ty [notIf, h]

theorem unpack_typ {v : String} {a : Expr} {n : Nat} {x : STy} {e : Option Ty} (hv : v ≠ "__arr" ∧ v ≠ "__i")
    (h : a.typ S (some (.u 128)) N = some x) (hx : x.castable = true) :
    (unpackTok v a n).typ S e N = some (.ty (.arr n)) := by
  have h1 : ¬ "__arr" = v := fun e => hv.1 e.symm
  have h2 : ¬ "__i" = v := fun e => hv.2 e.symm
  ty [unpackTok, byteTok, incr, h, hx, h1, h2]

theorem pack_typ {w n len : Nat} {e : Option Ty} (h : findVar "bits" N.vars = some (.ty (.arr len))) :
    (packTok w n).typ S e N = some (.ty (.u w)) := by
  ty [packTok, incr, h]

/-- The source of the bits has the type `x`. -/
def SourceTy (S : Sig) (N : Names) (src : Source) (b : Bool) (x : STy) : Prop :=
  match src with
  | .bitfield => S.inner = x ∧ S.hasInner b N = true
  | .variable => findVar "bits" N.vars = some x

theorem source_typ {src : Source} {b : Bool} {x : STy} (h : SourceTy S N src b x) (e : Option Ty) :
    (sourceTok src b).typ S e N = some x := by
  cases src with
  | bitfield => obtain ⟨h1, h2⟩ := h; ty [sourceTok, h1, h2]
  | «variable» => simp only [SourceTy] at h; ty [sourceTok, h]

theorem readArr_typ {src : Source} {b inv : Bool} {x : STy} {bits off : Expr} {n : Nat} {e : Option Ty}
    (h : SourceTy S N src b x) (hx : x.indexable = true) (hb : ∀ e N, bits.typ S e N = some (.ty (.u 32)))
    (ho : ∀ e N, off.typ S e N = some (.ty (.u 32))) :
    (readArrTok (sourceTok src b) bits off n inv).typ S e N = some (.ty (.arr n)) := by
  cases src with
  | bitfield =>
    obtain ⟨h1, h2⟩ := h
    simp only [Sig.hasInner] at h2
    cases inv <;> ty [readArrTok, sourceTok, incr, hb, ho, h1, h2, hx, Sig.hasInner]
  | «variable» =>
    simp only [SourceTy] at h
    cases inv <;> ty [readArrTok, sourceTok, incr, hb, ho, h, hx]

theorem read_typ {src : Source} {b inv : Bool} {x : STy} {bits off : Expr} {e : Option Ty}
    (h : SourceTy S N src b x) (hx : x.indexable = true) (hb : ∀ e N, bits.typ S e N = some (.ty (.u 32)))
    (ho : ∀ e N, off.typ S e N = some (.ty (.u 32))) :
    (readTok (sourceTok src b) bits off inv).typ S e N = some (.ty (.u 128)) := by
  cases src with
  | bitfield =>
    obtain ⟨h1, h2⟩ := h
    simp only [Sig.hasInner] at h2
    cases inv <;> ty [readTok, sourceTok, incr, mask128Tok, hb, ho, h1, h2, hx, Sig.hasInner]
  | «variable» =>
    simp only [SourceTy] at h
    cases inv <;> ty [readTok, sourceTok, incr, mask128Tok, hb, ho, h, hx]

/-- The type of `value` after the bits have been read. -/
def readTy (b : Backing) (t : DataType) : Ty :=
  match b, t with
  | .int w, _ => .u w
  | .arr _, .array len => .arr len
  | .arr _, _ => .u 128

/-- Reading a field out of the bitfield, or out of the variable `bits` of the storage type. -/
theorem extract_typ (h : Declares S B) (hf : f ∈ B.fields) {b inv : Bool} (hb : f.hasConstants = true → S.builder = b) {src : Source} {x : STy}
    (hs : SourceTy S N src b x) (hx : x = innerTy B ∨ x = .ty (backTy B.backing)) :
    ∃ N', (extractTok B f src false inv b).typ S N = some N' ∧ N'.this = N.this ∧
      findVar "value" N'.vars = some (.ty (readTy B.backing f.ty)) ∧ findVar "bits" N'.vars = findVar "bits" N.vars := by
  have h1 : ∀ e N, (bitsTok f b).typ S e N = some (.ty (.u 32)) := fun e N => bits_typ h hf hb e
  have h2 : ∀ e N, (offTok f b).typ S e N = some (.ty (.u 32)) := fun e N => off_typ h hf hb e
  unfold extractTok
  cases hB : B.backing with
  | int w =>
    have hx : x = .ty (.u w) := by simpa [innerTy, backTy, hB] using hx
    subst hx
    dsimp only
    cases src with
    | bitfield =>
      obtain ⟨h3, h4⟩ := hs
      simp only [Sig.hasInner] at h4
      cases inv <;> ty [notIf, maskTok, sourceTok, h1, h2, h3, h4, Sig.hasInner, readTy]
    | «variable» =>
      simp only [SourceTy] at hs
      cases inv <;> ty [notIf, maskTok, sourceTok, h1, h2, hs, readTy]
  | arr n =>
    have hx : x.indexable = true := by
      rcases hx with rfl | rfl <;> simp only [innerTy, backTy, hB]
      · split <;> rfl
      · rfl
    have h3 := @readArr_typ S N src b inv x (bitsTok f b) (offTok f b)
    have h4 := @read_typ S N src b inv x (bitsTok f b) (offTok f b) none hs hx h1 h2
    cases hty : f.ty with
    | array len => ty [h3 hs hx h1 h2, readTy]
    | int t => ty [h4, readTy]
    | custom c => ty [h4, readTy]

/-- The type of `value` after an argument has been read. -/
def argTy (b : Backing) (t : DataType) : Ty :=
  match b, t with
  | .int w, _ => .u w
  | .arr _, .int .bool => .u 128
  | .arr _, .custom _ => .u 128
  | .arr _, t => fieldTy t

theorem intTy_isInt {t : IntTy} (h : t ≠ .bool) : (intTy t).isInt = true := by
  cases t <;> first | rfl | exact absurd rfl h

theorem intTy_castable (t : IntTy) : (STy.ty (intTy t)).castable = true := by
  cases t <;> rfl

/-- Reading the argument `bits` of a setter. -/
theorem extractArg_typ (h : Declares S B) (hf : f ∈ B.fields) {b : Bool} (hb : f.hasConstants = true → S.builder = b)
    (hs : findVar "bits" N.vars = some (.ty (fieldTy f.ty))) :
    ∃ N', (extractTok B f .variable true false b).typ S N = some N' ∧ N'.this = N.this ∧
      findVar "value" N'.vars = some (.ty (argTy B.backing f.ty)) ∧
      (f.ty.isBool = false → f.ty.isArray = false →
        ∃ t, findVar "bits" N'.vars = some (.ty t) ∧ findVar "mask" N'.vars = some (.ty t) ∧ t.isInt = true) := by
  have h1 : ∀ e N, (bitsTok f b).typ S e N = some (.ty (.u 32)) := fun e N => bits_typ h hf hb e
  have h2 : ∀ e N, (offTok f b).typ S e N = some (.ty (.u 32)) := fun e N => off_typ h hf hb e
  unfold extractTok
  cases hB : B.backing with
  | int w =>
    cases hty : f.ty with
    | int t =>
      rw [hty] at hs
      have hc := intTy_castable t
      ty [notIf, maskTok, sourceTok, h1, hs, fieldTy, hc, argTy]
    | array len =>
      rw [hty] at hs
      have := fun N => @pack_typ S N w (min (f.bits / 8) len) len none
      ty [notIf, maskTok, sourceTok, h1, hs, fieldTy, this, argTy, DataType.isArray]
    | custom c =>
      rw [hty] at hs
      ty [notIf, maskTok, sourceTok, h1, hs, fieldTy, argTy]
  | arr n =>
    cases hty : f.ty with
    | int t =>
      rw [hty] at hs
      have hc := intTy_castable t
      have h3 := fun N => @mask128_typ S N (bitsTok f b) (fun e => h1 e N)
      by_cases ht : t = .bool
      · subst ht
        ty [hs, fieldTy, intTy, argTy, DataType.isBool]
      · have hi := intTy_isInt ht
        have hbool : intTy t ≠ .bool := by intro e; rw [e] at hi; cases hi
        cases t <;> first | exact absurd rfl ht | ty [notIf, h3, hs, fieldTy, hc, hi, argTy, hbool]
    | array len =>
      rw [hty] at hs
      ty [hs, fieldTy, argTy, DataType.isArray]
    | custom c =>
      rw [hty] at hs
      have h3 := fun N => @mask128_typ S N (bitsTok f b) (fun e => h1 e N)
      ty [notIf, hs, h3, fieldTy, argTy]

theorem value_typ {t : Ty} (h : findVar "value" N.vars = some (.ty t))
    (ht : t = readTy B.backing f.ty ∨ t = argTy B.backing f.ty) (setter : Bool) :
    Accepts B.backing f.ty setter fun e => (valueTok f).typ S e N := by
  cases hB : B.backing with
  | int w =>
    have ht : t = .u w := by simpa [readTy, argTy, hB] using ht
    subst ht
    cases hty : f.ty with
    | int it => cases it <;> cases setter <;> ty [Accepts, valueTok, hty, h]
    | array len => cases setter <;> ty [Accepts, valueTok, hty, h]
    | custom c => cases setter <;> ty [Accepts, valueTok, hty, h]
  | arr n =>
    cases hty : f.ty with
    | int it =>
      rcases ht with rfl | rfl <;> rw [hB, hty] at h <;> cases it <;> cases setter <;>
        ty [Accepts, valueTok, hty, h, readTy, argTy, fieldTy, intTy_castable]
    | array len =>
      have ht : t = .arr len := by simpa [readTy, argTy, hB, hty, fieldTy] using ht
      subst ht
      cases setter <;> ty [Accepts, valueTok, hty, h]
    | custom c =>
      have ht : t = .u 128 := by simpa [readTy, argTy, hB, hty] using ht
      subst ht
      cases setter <;> ty [Accepts, valueTok, hty, h]

theorem zero_typ (setter : Bool) : Accepts B.backing f.ty setter fun e => (zeroTok B f).typ S e N := by
  cases hty : f.ty with
  | int it => cases it <;> cases setter <;> cases hB : B.backing <;> ty [Accepts, zeroTok, hty]
  | array len => cases setter <;> cases hB : B.backing <;> ty [Accepts, zeroTok, hty, hB]
  | custom c => cases setter <;> ty [Accepts, zeroTok, hty]

theorem setterCall_typ (h : Declares S B) (hf : f ∈ B.fields) (hs : f.hasSetter = true) {b : Bool}
    (hi : S.hasInner b N = true) {a : Expr} (ha : Accepts B.backing f.ty true fun e => a.typ S e N) :
    (setterCallTok B f a b).typ S N = some N := by
  have h1 := h.set f hf hs
  unfold setterCallTok
  cases hty : f.ty with
  | int it =>
    rw [hty] at ha h1
    by_cases ht : it = .bool
    · subst ht
      simp only [Accepts] at ha
      ty [h1, hi, fieldTy, intTy, ha]
    · have hI := intTy_isInt ht
      have ha : ∃ x, a.typ S none N = some x ∧ x.castable = true := by
        cases it <;> first | exact absurd rfl ht | exact ha
      obtain ⟨x, h2, h3⟩ := ha
      cases it <;> first | exact absurd rfl ht | ty [h1, hi, fieldTy, h2, h3, hI]
  | array len =>
    rw [hty] at ha h1
    cases hB : B.backing with
    | int w =>
      rw [hB] at ha
      obtain ⟨x, h2, h3⟩ := ha
      have h4 := @unpack_typ S N "__int_val" a len x (some (.arr len)) (by decide) h2 h3
      ty [h1, hi, fieldTy, h4]
    | arr n =>
      rw [hB] at ha
      simp only [Accepts] at ha
      ty [h1, hi, fieldTy, ha]
  | custom c =>
    rw [hty] at ha h1
    simp only [Accepts] at ha
    ty [h1, hi, fieldTy, ha]

theorem storeBit_typ {w : Nat} {b : Bool} {c off : Expr} (hin : S.inner = .ty (.u w)) (hi : S.hasInner b N = true)
    (hc : c.typ S (some .bool) N = some (.ty .bool)) (ho : ∀ e N, off.typ S e N = some (.ty (.u 32))) :
    (storeBitTok c off b).typ S N = some N := by
  ty [storeBitTok, hin, hi, hc, ho, Sig.expected]

/-- Storing a value without the setter. -/
theorem direct_typ (h : Declares S B) (hf : f ∈ B.fields) {b : Bool} (hb : f.hasConstants = true → S.builder = b)
    (hi : S.hasInner b N = true) {a : Expr} (ha : Accepts B.backing f.ty false fun e => a.typ S e N)
    (hm : ∀ t e, a.typ S e { N with vars := ("mask", t) :: N.vars } = a.typ S e N) :
    ∃ N', (directTok B f a b).typ S N = some N' ∧ N'.this = N.this ∧
      findVar "bits" N'.vars = findVar "bits" N.vars := by
  have h1 : ∀ e N, (bitsTok f b).typ S e N = some (.ty (.u 32)) := fun e N => bits_typ h hf hb e
  have h2 : ∀ e N, (offTok f b).typ S e N = some (.ty (.u 32)) := fun e N => off_typ h hf hb e
  have hin := h.inner
  simp only [Sig.hasInner] at hi
  unfold directTok
  cases hB : B.backing with
  | int w =>
    rw [hB] at ha
    have hin : S.inner = .ty (.u w) := by simpa [innerTy, hB] using hin
    cases hty : f.ty with
    | int it =>
      rw [hty] at ha
      by_cases ht : it = .bool
      · subst ht
        simp only [Accepts] at ha
        exact ⟨N, storeBit_typ hin hi ha h2, rfl, rfl⟩
      · have h3 : a.typ S (some (.u w)) N = some (.ty (.u w)) := by
          cases it <;> first | exact absurd rfl ht | exact ha
        clear ha
        cases it <;> first | exact absurd rfl ht | ty [storeBitsTok, maskTok, hm, h3, h1, h2, hin, hi, Sig.expected, Sig.hasInner]
    | array len =>
      rw [hty] at ha
      simp only [Accepts] at ha
      ty [storeBitsTok, maskTok, hm, ha, h1, h2, hin, hi, Sig.expected, Sig.hasInner]
    | custom c =>
      rw [hty] at ha
      simp only [Accepts] at ha
      ty [storeBitsTok, maskTok, hm, ha, h1, h2, hin, hi, Sig.expected, Sig.hasInner]
  | arr n =>
    rw [hB] at ha
    have hx : S.inner.indexable = true := by
      rw [hin]; simp only [innerTy, hB]; split <;> rfl
    cases hty : f.ty with
    | int it =>
      rw [hty] at ha
      by_cases ht : it = .bool
      · subst ht
        simp only [Accepts] at ha
        ty [storeByteBitTok, incr, ha, h1, h2, hx, hi, Sig.hasInner]
      · have ha : ∃ x, a.typ S (some (.u 128)) N = some x ∧ x.castable = true := by
          cases it <;> first | exact absurd rfl ht | exact ha
        obtain ⟨x, h3, h4⟩ := ha
        cases it <;> first | exact absurd rfl ht | ty [storeByteBitTok, incr, h3, h4, h1, h2, hx, hi, Sig.hasInner]
    | array len =>
      rw [hty] at ha
      obtain ⟨x, h3, h4⟩ := ha
      ty [storeByteBitTok, incr, h3, h4, h1, h2, hx, hi, Sig.hasInner]
    | custom c =>
      rw [hty] at ha
      simp only [Accepts] at ha
      ty [storeByteBitTok, incr, ha, h1, h2, hx, hi, Sig.hasInner]

theorem signedCheck_typ {t : Ty} (hr : S.ret = .result t) (hs : findVar "bits" N.vars = some (.ty (fieldTy f.ty)))
    (hu : f.ty.unsigned = false) : (signedCheckTok f).typ S N = some N := by
  unfold signedCheckTok
  split
  · rename_i it hty
    rw [hty] at hs hu
    split
    · ty []
    · dsimp only
      cases it <;> first | exact absurd hu (by decide) | ty [hs, hr, fieldTy, intTy, IntTy.unsigned, IntTy.bitSize]
  · ty []

theorem builderSet_typ (h : Declares S B) (hf : f ∈ B.fields) (hs : f.hasSetter = true) {check : Bool} {t : Ty}
    (hr : check = true → S.ret = .result t) (hb : S.builder = true)
    (hv : findVar "bits" N.vars = some (.ty (fieldTy f.ty))) : (builderSetTok f check).typ S N = some N := by
  have h1 := h.set f hf hs
  have h2 := h.checkedSet f hf hs
  unfold builderSetTok
  cases hty : f.ty with
  | int it =>
    rw [hty] at h1 h2 hv
    have hc := intTy_castable it
    cases check
    · cases it <;> ty [h1, h2, hv, fieldTy, intTy, hb, Sig.hasInner, IntTy.unsigned]
    · cases it <;> ty [h1, h2, hv, fieldTy, intTy, hb, Sig.hasInner, IntTy.unsigned, hr rfl]
  | array len =>
    rw [hty] at h1 h2 hv
    cases check
    · ty [h1, h2, hv, fieldTy, hb, Sig.hasInner]
    · ty [h1, h2, hv, fieldTy, hb, Sig.hasInner, hr rfl]
  | custom c =>
    rw [hty] at h1 h2 hv
    cases check
    · ty [h1, h2, hv, fieldTy, hb, Sig.hasInner]
    · ty [h1, h2, hv, fieldTy, hb, Sig.hasInner, hr rfl]

theorem seq_typ {a b : Stmt} {N₁ : Names} {Q : Names → Prop} (h1 : a.typ S N = some N₁)
    (h2 : ∃ N₂, b.typ S N₁ = some N₂ ∧ Q N₂) : ∃ N₂, (Stmt.seq a b).typ S N = some N₂ ∧ Q N₂ := by
  obtain ⟨N₂, h2, h3⟩ := h2
  exact ⟨N₂, by simp only [Stmt.typ, h1, h2], h3⟩

theorem hasInner_congr {b : Bool} {N' : Names} (h : N'.this = N.this) : S.hasInner b N' = S.hasInner b N := by
  simp only [Sig.hasInner, h]

theorem valueTok_mask (t : STy) (e : Option Ty) :
    (valueTok f).typ S e { N with vars := ("mask", t) :: N.vars } = (valueTok f).typ S e N := by
  unfold valueTok
  split <;> ty []

/-- The statements after the value has been read. -/
theorem store_typ (h : Declares S B) (hf : f ∈ B.fields) {b us : Bool} (hb : us = false → f.hasConstants = true → S.builder = b)
    (hus : us = true → f.hasSetter = true) (hi : S.hasInner b N = true) {t : Ty} (hv : findVar "value" N.vars = some (.ty t))
    (ht : t = readTy B.backing f.ty ∨ t = argTy B.backing f.ty) :
    ∃ N', (if us then setterCallTok B f (valueTok f) b else directTok B f (valueTok f) b).typ S N = some N' ∧
      N'.this = N.this ∧ findVar "bits" N'.vars = findVar "bits" N.vars := by
  cases us with
  | true => exact ⟨N, setterCall_typ h hf (hus rfl) hi (value_typ hv ht true), rfl, rfl⟩
  | false => exact direct_typ h hf (hb rfl) hi (value_typ hv ht false) valueTok_mask

/-- Setting a field to the argument `bits`, which has the field's type. -/
theorem setArg_typ (h : Declares S B) (hf : f ∈ B.fields) {b us check : Bool} (hb : S.builder = b) {t : Ty}
    (hr : check = true → S.ret = .result t) (hi : S.hasInner b N = true)
    (hv : findVar "bits" N.vars = some (.ty (fieldTy f.ty))) :
    ∃ N', (setFromVarTok B f us true check b).typ S N = some N' ∧ N'.this = N.this := by
  unfold setFromVarTok
  dsimp only
  split
  · rename_i hx
    simp only [Bool.and_eq_true] at hx
    exact ⟨N, builderSet_typ h hf hx.2.1 hr (hb.trans hx.1) hv, rfl⟩
  · have h1 : (if !(f.hasSetter && us) && check && !f.ty.unsigned then signedCheckTok f else .skip).typ S N = some N := by
      split
      · rename_i hx
        simp only [Bool.and_eq_true, Bool.not_eq_true'] at hx
        exact signedCheck_typ (hr hx.1.2) hv hx.2
      · ty []
    obtain ⟨N', h2, h3, h4, h5⟩ := extractArg_typ h hf (fun _ => hb) hv
    simp only [Stmt.all]
    refine seq_typ h1 (seq_typ h2 ?_)
    have h6 : (if !(f.hasSetter && us) && check && !(!f.ty.unsigned) && !f.ty.isBool && !f.ty.isArray then checkTok
        else .skip).typ S N' = some N' := by
      split
      · rename_i hx
        simp only [Bool.and_eq_true, Bool.not_eq_true'] at hx
        obtain ⟨t', h7, h8, h9⟩ := h5 hx.1.2 hx.2
        have h10 : (STy.ty t').castable = true := by simp [STy.castable, h9]
        ty [checkTok, h7, h8, h10, hr hx.1.1.1.2]
      · ty []
    refine seq_typ h6 ?_
    obtain ⟨N'', h7, h8, -⟩ := store_typ h hf (us := f.hasSetter && us) (fun _ _ => hb)
      (fun hx => by simp only [Bool.and_eq_true] at hx; exact hx.1) ((hasInner_congr h3).trans hi) h4 (.inr rfl)
    exact seq_typ h7 ⟨N'', by ty [], h8.trans h3⟩

/-- Setting a field to its part of the variable `bits`, which has the storage type. -/
theorem setPart_typ (h : Declares S B) (hf : f ∈ B.fields) (hb : S.builder = false)
    (hi : N.this = true) (hv : findVar "bits" N.vars = some (.ty (backTy B.backing))) :
    ∃ N', (setFromVarTok B f true false false false).typ S N = some N' ∧ N'.this = N.this ∧
      findVar "bits" N'.vars = findVar "bits" N.vars := by
  unfold setFromVarTok
  simp only [Bool.false_and, Bool.and_false, Bool.false_eq_true, if_false, Bool.and_true, Stmt.all]
  obtain ⟨N', h2, h3, h4, h5⟩ := extract_typ (inv := false) h hf (fun _ => hb) (N := N) (src := .variable) hv (.inr rfl)
  refine seq_typ (N₁ := N) (by ty []) (seq_typ h2 (seq_typ (N₁ := N') (by ty []) ?_))
  obtain ⟨N'', h7, h8, h9⟩ := store_typ h hf (b := false) (us := f.hasSetter) (fun _ _ => hb) id
    (by simpa [Sig.hasInner, h3] using hi) h4 (.inl rfl)
  exact seq_typ h7 ⟨N'', by ty [], h8.trans h3, h9.trans h5⟩

theorem all_typ {l : List Field} {g : Field → Stmt} {I : Names → Prop}
    (h : ∀ f ∈ l, ∀ N, I N → ∃ N', (g f).typ S N = some N' ∧ I N') (hN : I N) :
    ∃ N', (Stmt.all (l.map g)).typ S N = some N' ∧ I N' := by
  induction l generalizing N with
  | nil => exact ⟨N, by ty [], hN⟩
  | cons f l ih =>
    obtain ⟨N', h1, h2⟩ := h f (by simp) N hN
    exact seq_typ h1 (ih (fun f hf => h f (by simp [hf])) h2)

/-- `this` is declared and `bits` has the type `x`. -/
def Inside (x : Option STy) (N : Names) : Prop := N.this = true ∧ findVar "bits" N.vars = x

theorem setAll_typ (h : Declares S B) (hb : S.builder = false) (p : Protection)
    (hN : Inside (some (.ty (backTy B.backing))) N) :
    ∃ N', (setAllTok B p).typ S N = some N' ∧ Inside (some (.ty (backTy B.backing))) N' := by
  refine all_typ (fun f hf N hN => ?_) hN
  obtain ⟨N', h1, h2, h3⟩ := setPart_typ h (List.mem_filter.mp hf).1 hb hN.1 hN.2
  exact ⟨N', h1, h2.trans hN.1, h3.trans hN.2⟩

/-- The default expressions have types that fit their fields. -/
def DefaultsOk (S : Sig) (B : Bitfield) : Prop :=
  ∀ f ∈ B.fields, ∀ v, f.default = some v → Accepts B.backing f.ty f.hasSetter (S.user f.offset)

/-- Every field that is stored without a setter has no constants, or constants are reachable by `Self::`. -/
def Reaches (S : Sig) (B : Bitfield) : Prop :=
  S.builder = true → ∀ f ∈ B.fields, f.hasConstants = true → f.hasSetter = true

theorem setDefault_typ (h : Declares S B) (hd : DefaultsOk S B) (hr : Reaches S B) (hf : f ∈ B.fields) {x : Option STy}
    (hN : Inside x N) : ∃ N', (setDefaultTok B f).typ S N = some N' ∧ Inside x N' := by
  unfold setDefaultTok
  split
  · rename_i v hv
    have ha := hd f hf v hv
    have hi : S.hasInner false N = true := by simp [Sig.hasInner, hN.1]
    split
    · rename_i hs
      rw [hs] at ha
      exact ⟨N, setterCall_typ h hf hs hi (by simpa [Expr.typ] using ha), hN⟩
    · rename_i hs
      rw [Bool.eq_false_iff.mpr hs] at ha
      obtain ⟨N', h1, h2, h3⟩ := direct_typ h hf (b := false) (a := .user f.offset f.ty v) (N := N)
        (fun hc => Bool.eq_false_iff.mpr fun hx => hs (hr hx f hf hc)) hi (by simpa [Expr.typ] using ha)
        (fun t e => by simp only [Expr.typ])
      exact ⟨N', h1, h2.trans hN.1, h3.trans hN.2⟩
  · exact ⟨N, by ty [], hN⟩

theorem setDefaults_typ (h : Declares S B) (hd : DefaultsOk S B) (hr : Reaches S B) {x : Option STy} (hN : Inside x N) :
    ∃ N', (setDefaultsTok B).typ S N = some N' ∧ Inside x N' :=
  all_typ (fun _ hf _ hN => setDefault_typ h hd hr (List.mem_filter.mp hf).1 hN) hN

theorem zeroTok_mask (t : STy) (e : Option Ty) :
    (zeroTok B f).typ S e { N with vars := ("mask", t) :: N.vars } = (zeroTok B f).typ S e N := by
  unfold zeroTok
  split <;> try split
  all_goals ty []

theorem setZero_typ (h : Declares S B) (hr : Reaches S B) (hf : f ∈ B.fields) {x : Option STy} (hN : Inside x N) :
    ∃ N', (setZeroTok B f).typ S N = some N' ∧ Inside x N' := by
  have hi : S.hasInner false N = true := by simp [Sig.hasInner, hN.1]
  unfold setZeroTok
  split
  · rename_i hs
    exact ⟨N, setterCall_typ h hf hs hi (zero_typ true), hN⟩
  · rename_i hs
    obtain ⟨N', h1, h2, h3⟩ := direct_typ h hf (b := false) (N := N)
      (fun hc => Bool.eq_false_iff.mpr fun hx => hs (hr hx f hf hc)) hi (zero_typ false) zeroTok_mask
    exact ⟨N', h1, h2.trans hN.1, h3.trans hN.2⟩

theorem init_typ (h : Declares S B) {b mu : Bool} (hb : S.builder = b) : (initTok B b mu).typ S N = some { N with this := true } := by
  have hin := h.inner
  unfold initTok
  cases hB : B.backing with
  | int w =>
    have hin : S.inner = .ty (.u w) := by simpa [innerTy, hB] using hin
    cases b <;> ty [hb, hin, Sig.expected]
  | arr n =>
    simp only [innerTy, hB] at hin
    cases hh : B.heap <;> rw [hh] at hin <;> cases b <;> ty [hb, hin, Sig.expected]

theorem new_typ (h : Declares S B) (hd : DefaultsOk S B) (hr : Reaches S B) {d b e : Bool} (hb : e = false → S.builder = b)
    {x : Option STy} (hv : findVar "bits" N.vars = x) (hN : e = true → N.this = true) :
    ∃ N', (newTok B d b e).typ S N = some N' ∧ Inside x N' := by
  unfold newTok
  simp only [Stmt.all]
  have h1 : ∃ N₁, (if e then Stmt.skip else initTok B b (thisMut B d)).typ S N = some N₁ ∧ Inside x N₁ := by
    cases e with
    | true => exact ⟨N, by ty [], hN rfl, hv⟩
    | false => exact ⟨_, init_typ h (hb rfl), rfl, hv⟩
  obtain ⟨N₁, h1, i1⟩ := h1
  obtain ⟨N₂, h2, i2⟩ := all_typ (g := setZeroTok B) (I := Inside x)
    (fun f hf N hN => setZero_typ h hr (List.mem_filter.mp hf).1 hN) (l := B.fields.filter fun f => !(d && f.hasDefault)) i1
  refine seq_typ h1 (seq_typ h2 ?_)
  cases d with
  | true =>
    obtain ⟨N₃, h3, i3⟩ := setDefaults_typ h hd hr i2
    exact seq_typ h3 (seq_typ (N₁ := N₃) (by ty []) ⟨N₃, by ty [], i3⟩)
  | false =>
    obtain ⟨N₃, h3, i3⟩ := all_typ (g := setDefaultTok B) (I := Inside x)
      (fun f hf N hN => setDefault_typ h hd hr (List.mem_filter.mp hf).1 hN)
      (l := B.fields.filter fun f => f.reserved && f.hasDefault) i2
    exact seq_typ (N₁ := N₂) (by ty []) (seq_typ h3 ⟨N₃, by ty [], i3⟩)

end Bf.Quote
