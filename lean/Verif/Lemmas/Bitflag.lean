import Verif.SpecFlag
import Verif.Lemmas.Surface
import Verif.Lemmas.Endian

/-!
# Lemmas: bitflag enums
-/

namespace Bf

/-! ## Arguments -/

def FlagArgSpec.arg : FlagArgSpec → Arg
  | .from e => ⟨"from_endian", e.text, .bool false⟩
  | .into e => ⟨"into_endian", e.text, .bool false⟩
  | .copy b => ⟨"copy", boolText b, .bool b⟩

theorem FlagArgSpec.tokens_eq (a : FlagArgSpec) :
    a.tokens = [.ident a.arg.key, .eq, .expr a.arg.text a.arg.value] := by cases a <;> rfl

theorem FlagArgSpec.key_mem (a : FlagArgSpec) : a.arg.key ∈ bitflagKeys := by
  cases a <;> simp [FlagArgSpec.arg, bitflagKeys]

theorem argsLoop_bitflag (as : List FlagArgSpec) :
    argsLoop bitflagKeys (skipComma (as.flatMap fun a => .comma :: a.tokens)) =
      .ok (as.map FlagArgSpec.arg) := by
  induction as with
  | nil => rfl
  | cons a as ih =>
    simp only [List.flatMap_cons, List.cons_append, skipComma, FlagArgSpec.tokens_eq] at ih ⊢
    have hk := a.key_mem
    cases as with
    | nil => simp [argsLoop, hk]
    | cons a' as' =>
      simp only [List.flatMap_cons, List.cons_append, List.nil_append, List.map_cons] at ih ⊢
      conv => lhs; unfold argsLoop
      simp only [hk, not_true_eq_false, if_false]
      rw [ih]

/-- The arguments after those of the list. -/
def flagArgs (r : BitflagArgs) (as : List FlagArgSpec) : BitflagArgs where
  fromEndian := (lastArg (fun | .from e => some e | _ => none) as).getD r.fromEndian
  intoEndian := (lastArg (fun | .into e => some e | _ => none) as).getD r.intoEndian
  copy := (lastArg (fun | .copy b => some b | _ => none) as).getD r.copy

theorem foldlM_bitflag (as : List FlagArgSpec) :
    ∀ r, (as.map FlagArgSpec.arg).foldlM applyBitflagArg r = .ok (flagArgs r as) := by
  induction as with
  | nil => intro r; rfl
  | cons a as ih =>
    intro r
    have h1 : applyBitflagArg r a.arg = .ok (flagArgs r [a]) := by
      cases a with
      | «from» e =>
        simp only [applyBitflagArg, FlagArgSpec.arg, if_true, endianOf_text]; rfl
      | into e =>
        simp only [applyBitflagArg, FlagArgSpec.arg, String.reduceEq, if_true, if_false,
          endianOf_text]; rfl
      | copy b =>
        simp only [applyBitflagArg, FlagArgSpec.arg, String.reduceEq, if_true, if_false,
          parseBool_text b]; rfl
    rw [List.map_cons, List.foldlM_cons, h1]
    refine (ih _).trans ?_
    simp only [flagArgs, lastArg_cons]
    congr 2
    · cases lastArg _ as <;> simp [lastArg]
    · cases lastArg _ as <;> simp [lastArg]
    · cases lastArg _ as <;> simp [lastArg]

theorem parseBitflagArgs_tokens (cfg : String → Bool) (as : List FlagArgSpec) :
    parseBitflagArgs cfg (as.flatMap fun a => .comma :: a.tokens) =
      .ok (flagArgs (defaultBitflagArgs cfg) as) := by
  simp only [parseBitflagArgs, parseAttributeArguments, argsLoop_bitflag]
  exact foldlM_bitflag as _

theorem EnumSpec.args_eq (s : EnumSpec) (cfg : String → Bool) :
    flagArgs (defaultBitflagArgs cfg) s.args = ⟨s.fromEndian cfg, s.intoEndian cfg, s.copies cfg⟩ := by
  have k1 : ∀ l b, resolveEndian l b .big = if l && !b then .little else .big := by decide
  have k2 : ∀ l b, resolveBool l b = (l || !b) := by decide
  simp only [flagArgs, defaultBitflagArgs, k1, k2]
  rfl

/-! ## Variants -/

def VariantSpec.flag (v : VariantSpec) : FlagVariant where
  name := v.name
  attrs := v.attrs.filter (· != "base")
  value := (v.value.map Prod.snd).getD 0
  base := v.attrs.any (· == "base")
  default := v.attrs.any (· == "default")

theorem VariantSpec.flag_base (v : VariantSpec) : v.flag.base = true ↔ v.IsBase := by
  simp [VariantSpec.flag, VariantSpec.IsBase]

theorem VariantSpec.flag_default (v : VariantSpec) : v.flag.default = true ↔ v.IsDefault := by
  simp [VariantSpec.flag, VariantSpec.IsDefault]

/-- The message for a variant without a value. -/
def noValue (name : String) : String :=
  "Bitflag variant '" ++ name ++ "' must have an explicit value (e.g. `" ++ name ++ " = 0b0001`)."

theorem parseVariant_decl {v : VariantSpec} (h : ∀ d n, v.value = some (d, n) → d.Supported) :
    parseVariant v.decl = if v.value.isSome then .ok v.flag else .error (.error (noValue v.name)) := by
  obtain ⟨name, attrs, value⟩ := v
  cases value with
  | none => rfl
  | some dn =>
    have := constExpr_text dn.1 (h dn.1 dn.2 rfl)
    simp [parseVariant, VariantSpec.decl, this, VariantSpec.flag]

theorem parseVariants_decl {vs : List VariantSpec}
    (h : ∀ v ∈ vs, ∀ d n, v.value = some (d, n) → d.Supported) (hv : ∀ v ∈ vs, v.value.isSome = true) :
    parseVariants (vs.map VariantSpec.decl) = .ok (vs.map VariantSpec.flag) := by
  induction vs with
  | nil => rfl
  | cons v vs ih =>
    have h1 := parseVariant_decl (h v (List.mem_cons_self ..))
    have ih := ih (fun u hu => h u (List.mem_cons_of_mem _ hu)) fun u hu => hv u (List.mem_cons_of_mem _ hu)
    rw [if_pos (hv v (List.mem_cons_self ..))] at h1
    simp only [List.map_cons, parseVariants, h1, ih]

theorem parseVariants_none {vs : List VariantSpec}
    (h : ∀ v ∈ vs, ∀ d n, v.value = some (d, n) → d.Supported) (hv : ¬ ∀ v ∈ vs, v.value.isSome = true) :
    ∃ v ∈ vs, v.value = none ∧ parseVariants (vs.map VariantSpec.decl) = .error (.error (noValue v.name)) := by
  induction vs with
  | nil => exact absurd (by simp) hv
  | cons v vs ih =>
    have h1 := parseVariant_decl (h v (List.mem_cons_self ..))
    cases hx : v.value with
    | none =>
      rw [hx] at h1
      exact ⟨v, by simp, hx, by simp only [List.map_cons, parseVariants, h1]; rfl⟩
    | some x =>
      rw [hx] at h1
      obtain ⟨u, hu, h2, h3⟩ := ih (fun u hu => h u (List.mem_cons_of_mem _ hu)) (by
        intro hall
        refine hv fun u hu => ?_
        rcases List.mem_cons.mp hu with rfl | hu
        · rw [hx]; rfl
        · exact hall u hu)
      exact ⟨u, by simp [hu], h2, by simp only [List.map_cons, parseVariants, h1, h3]; rfl⟩

/-! ## Acceptance -/

theorem checkBase_ok {vs : List FlagVariant} :
    checkBase vs = .ok () ↔ (vs.filter FlagVariant.base).length ≤ 1 ∧
      ∃ v ∈ vs, v.base = true ∨ v.default = true := by
  simp only [checkBase]
  by_cases h1 : (vs.filter FlagVariant.base).length > 1
  · rw [if_pos h1]
    constructor
    · intro h; cases h
    · intro h; omega
  · rw [if_neg h1]
    by_cases h2 : (vs.any fun v => v.base || v.default) = true
    · rw [if_pos h2]
      simp only [true_iff]
      refine ⟨by omega, ?_⟩
      simpa using h2
    · rw [if_neg h2]
      constructor
      · intro h; cases h
      · rintro ⟨-, v, hv, h⟩
        refine absurd ?_ h2
        simp only [List.any_eq_true, Bool.or_eq_true]
        exact ⟨v, hv, h⟩

theorem checkBase_error {vs : List FlagVariant} {e : Reject} (h : checkBase vs = .error e) :
    ∃ msg, e = .error msg := by
  simp only [checkBase] at h
  split at h
  · cases h; exact ⟨_, rfl⟩
  · split at h
    · cases h
    · cases h; exact ⟨_, rfl⟩

/-- The type an enum may have: what the macro checks. -/
def flagType (d : DataType) : Bool :=
  match d with
  | .custom _ => false
  | d => d.unsigned

theorem parseBitflagAttr_spec (cfg : String → Bool) (s : EnumSpec) :
    (∃ d, s.ty.syntax.dataType = .ok d ∧ flagType d = true ∧
      parseBitflagAttr cfg s.attr = .ok ⟨d, ⟨s.fromEndian cfg, s.intoEndian cfg, s.copies cfg⟩⟩) ∨
    ((∀ d, s.ty.syntax.dataType = .ok d → flagType d = false) ∧
      ∃ msg, parseBitflagAttr cfg s.attr = .error (.error msg)) := by
  have key : parseBitflagArgs cfg s.attr.rest =
      .ok ⟨s.fromEndian cfg, s.intoEndian cfg, s.copies cfg⟩ := by
    rw [← EnumSpec.args_eq]
    exact parseBitflagArgs_tokens cfg s.args
  cases hd : s.ty.syntax.dataType with
  | error e =>
    refine .inr ⟨?_, flagTypeError e, ?_⟩
    · intro d h; cases h
    · simp only [parseBitflagAttr, EnumSpec.attr, hd]
  | ok d =>
    cases d with
    | custom c =>
      refine .inr ⟨?_, unsupportedFlag s.ty.syntax, ?_⟩
      · intro d h; cases h; rfl
      · simp only [parseBitflagAttr, EnumSpec.attr, hd]
    | int t =>
      cases hu : t.unsigned with
      | true =>
        refine .inl ⟨_, rfl, by simp [flagType, DataType.unsigned, hu], ?_⟩
        have : parseBitflagAttr cfg s.attr =
            (do return { ty := .int t, args := ← parseBitflagArgs cfg s.attr.rest }) := by
          simp only [parseBitflagAttr, EnumSpec.attr, hd, DataType.unsigned, hu, if_true]
        rw [this, key]
        rfl
      | false =>
        refine .inr ⟨?_, unsupportedFlag s.ty.syntax, ?_⟩
        · intro d h; cases h; simp [flagType, DataType.unsigned, hu]
        · simp [parseBitflagAttr, EnumSpec.attr, hd, DataType.unsigned, hu]
    | array n =>
      refine .inl ⟨_, rfl, rfl, ?_⟩
      have : parseBitflagAttr cfg s.attr =
          (do return { ty := .array n, args := ← parseBitflagArgs cfg s.attr.rest }) := by
        simp only [parseBitflagAttr, EnumSpec.attr, hd, DataType.unsigned, if_true]
      rw [this, key]
      rfl

theorem matchCases_ok {F : Bitflag} (h : checkBase F.variants = .ok ()) :
    ∃ w, (F.variants.find? FlagVariant.base).or (F.variants.find? FlagVariant.default) = some w ∧
      matchCases F = .ok
        ⟨(F.variants.filter fun v => !v.base).map fun v => (v.value, v.name), w.name⟩ := by
  obtain ⟨-, v, hv, h⟩ := checkBase_ok.mp h
  cases hw : (F.variants.find? FlagVariant.base).or (F.variants.find? FlagVariant.default) with
  | some w =>
    refine ⟨w, rfl, ?_⟩
    simp only [matchCases, hw]
  | none =>
    rw [Option.or_eq_none_iff] at hw
    rcases h with h | h
    · exact absurd h (List.find?_eq_none.mp hw.1 v hv)
    · exact absurd h (List.find?_eq_none.mp hw.2 v hv)

/-- What the macro generates for an accepted enum. -/
structure EnumSpec.Code (s : EnumSpec) (cfg : String → Bool) (c : FlagCode) : Prop where
  repr : s.ty.syntax.dataType = .ok c.repr
  ty : flagType c.repr = true
  value : ∀ v ∈ s.variants, v.value.isSome = true
  base : ((s.variants.map VariantSpec.flag).filter FlagVariant.base).length ≤ 1
  fallback : ∃ v ∈ s.variants, v.IsBase ∨ v.IsDefault
  copy : c.copy = s.copies cfg
  vis : c.vis = s.vis
  variants : c.variants = s.variants.map fun v => (v.name, v.flag.attrs, v.flag.value)
  arms : c.cases.arms =
    ((s.variants.map VariantSpec.flag).filter fun v => !v.base).map fun v => (v.value, v.name)
  wildcard : ∃ w, ((s.variants.map VariantSpec.flag).find? FlagVariant.base).or
    ((s.variants.map VariantSpec.flag).find? FlagVariant.default) = some w ∧ c.cases.wildcard = w.name
  fromE : c.fromEndian = s.fromEndian cfg
  intoE : c.intoEndian = s.intoEndian cfg

theorem exists_flag {vs : List VariantSpec} :
    (∃ v ∈ vs.map VariantSpec.flag, v.base = true ∨ v.default = true) ↔
      ∃ v ∈ vs, v.IsBase ∨ v.IsDefault := by
  constructor
  · rintro ⟨v, hv, h⟩
    obtain ⟨u, hu, rfl⟩ := List.mem_map.mp hv
    exact ⟨u, hu, h.imp u.flag_base.mp u.flag_default.mp⟩
  · rintro ⟨u, hu, h⟩
    exact ⟨_, List.mem_map_of_mem hu, h.imp u.flag_base.mpr u.flag_default.mpr⟩

/-- The macro either generates code, or reports an error; it does not panic. -/
theorem expandBitflag_spec {s : EnumSpec} (hr : s.Readable) (cfg : String → Bool) :
    (∃ c, expandBitflag cfg s.attr s.decl = .ok c ∧ s.Code cfg c) ∨
    ((∃ msg, expandBitflag cfg s.attr s.decl = .error (.error msg)) ∧
      ¬ ((∃ d, s.ty.syntax.dataType = .ok d ∧ flagType d = true) ∧
        (∀ v ∈ s.variants, v.value.isSome = true) ∧
        ((s.variants.map VariantSpec.flag).filter FlagVariant.base).length ≤ 1 ∧
        ∃ v ∈ s.variants, v.IsBase ∨ v.IsDefault)) := by
  rcases parseBitflagAttr_spec cfg s with ⟨d, hd, ht, ha⟩ | ⟨hn, msg, ha⟩
  · by_cases hall' : ∀ v ∈ s.variants, v.value.isSome = true
    · have hv := parseVariants_decl hr.value hall'
      cases hc : checkBase (s.variants.map VariantSpec.flag) with
      | ok u =>
        obtain ⟨w, hw, hm⟩ := matchCases_ok (F := ⟨d, s.vis, s.variants.map VariantSpec.flag,
          ⟨s.fromEndian cfg, s.intoEndian cfg, s.copies cfg⟩⟩) hc
        obtain ⟨h1, h2⟩ := checkBase_ok.mp hc
        refine .inl ⟨{
          repr := d, copy := s.copies cfg, vis := s.vis
          variants := (s.variants.map VariantSpec.flag).map fun v => (v.name, v.attrs, v.value)
          cases := ⟨((s.variants.map VariantSpec.flag).filter fun v => !v.base).map
            fun v => (v.value, v.name), w.name⟩
          fromEndian := s.fromEndian cfg, intoEndian := s.intoEndian cfg }, ?_, ?_⟩
        · simp only [expandBitflag, parseBitflag, ha, EnumSpec.decl, hv, bind, Except.bind, hc, pure,
            Except.pure, generateBitflag, hm]
        · exact {
            repr := hd, ty := ht, value := hall', base := h1, fallback := exists_flag.mp h2
            copy := rfl, vis := rfl, variants := by rw [List.map_map]; rfl
            arms := rfl, wildcard := ⟨w, hw, rfl⟩, fromE := rfl, intoE := rfl }
      | error e =>
        obtain ⟨msg, rfl⟩ := checkBase_error hc
        refine .inr ⟨⟨msg, ?_⟩, ?_⟩
        · simp only [expandBitflag, parseBitflag, ha, EnumSpec.decl, hv, bind, Except.bind, hc]
        · rintro ⟨-, -, h1, h2⟩
          rw [checkBase_ok.mpr ⟨h1, exists_flag.mpr h2⟩] at hc
          cases hc
    · obtain ⟨v, -, -, hv⟩ := parseVariants_none hr.value hall'
      refine .inr ⟨⟨noValue v.name, ?_⟩, ?_⟩
      · simp only [expandBitflag, parseBitflag, ha, EnumSpec.decl, hv, bind, Except.bind]
      · rintro ⟨-, h, -⟩
        exact hall' h
  · refine .inr ⟨⟨msg, ?_⟩, ?_⟩
    · simp only [expandBitflag, parseBitflag, ha, bind, Except.bind]
    · rintro ⟨⟨d, h1, h2⟩, -⟩
      rw [hn d h1] at h2
      cases h2

/-- At most one element satisfies `q`. -/
theorem length_filter_le_one {α : Type} {q : α → Bool} {l : List α} :
    (l.filter q).length ≤ 1 ↔ ∀ (i j : Nat) v w, l[i]? = some v → l[j]? = some w → q v = true →
      q w = true → i = j := by
  induction l with
  | nil => simp
  | cons a l ih =>
    by_cases ha : q a = true
    · rw [List.filter_cons_of_pos ha]
      simp only [List.length_cons]
      constructor
      · intro h i j v w hi hj hv hw
        have hnil : l.filter q = [] := List.length_eq_zero_iff.mp (by omega)
        have hno : ∀ x ∈ l, ¬ q x = true := by
          simpa [List.filter_eq_nil_iff] using hnil
        cases i with
        | zero =>
          cases j with
          | zero => rfl
          | succ j => exact absurd hw (hno w (List.mem_of_getElem? (by simpa using hj)))
        | succ i => exact absurd hv (hno v (List.mem_of_getElem? (by simpa using hi)))
      · intro h
        have : l.filter q = [] := by
          rw [List.filter_eq_nil_iff]
          intro x hx hq
          obtain ⟨k, hk⟩ := List.getElem?_of_mem hx
          have := h 0 (k + 1) a x (by simp) (by simpa using hk) ha hq
          omega
        simp [this]
    · rw [List.filter_cons_of_neg ha, ih]
      constructor
      · intro h i j v w hi hj hv hw
        cases i with
        | zero => simp only [List.getElem?_cons_zero, Option.some.injEq] at hi; subst hi; contradiction
        | succ i =>
          cases j with
          | zero =>
            simp only [List.getElem?_cons_zero, Option.some.injEq] at hj; subst hj; contradiction
          | succ j =>
            have := h i j v w (by simpa using hi) (by simpa using hj) hv hw
            omega
      · intro h i j v w hi hj hv hw
        have := h (i + 1) (j + 1) v w (by simpa using hi) (by simpa using hj) hv hw
        omega

theorem base_unique {vs : List VariantSpec} :
    ((vs.map VariantSpec.flag).filter FlagVariant.base).length ≤ 1 ↔
      ∀ (i j : Nat) v w, vs[i]? = some v → vs[j]? = some w → v.IsBase → w.IsBase → i = j := by
  rw [List.filter_map, List.length_map, length_filter_le_one]
  simp only [Function.comp_apply, VariantSpec.flag_base]

/-! ## Conversions -/

theorem bitsConv_toNat (e : Endian) {w : Nat} (h8 : w % 8 = 0) (x : BitVec w) :
    (bitsConv e x).toNat = numberIn e x := by
  cases e with
  | big => rfl
  | little =>
    have h := swapBytes_ofBits h8 x.getLsbD
    rw [ofBits_getLsbD] at h
    show (swapBytes x).toNat = _
    rw [h, toNat_eq_natOf]
    refine natOf_congr fun i hi => ?_
    rw [getLsbD_ofBits]
    simp [hi, revBytes]

theorem bitsConv_bitsConv (e : Endian) {w : Nat} (h8 : w % 8 = 0) (x : BitVec w) :
    bitsConv e (bitsConv e x) = x := by
  cases e with
  | big => rfl
  | little =>
    have h := swapBytes_ofBits h8 x.getLsbD
    rw [ofBits_getLsbD] at h
    show swapBytes (swapBytes x) = x
    rw [h, swapBytes_ofBits h8]
    conv => rhs; rw [← ofBits_getLsbD x]
    apply ofBits_congr
    intro i hi
    exact revBytes_revBytes _ (by omega)

theorem bitsConv_eq_ofNat {e : Endian} {w n : Nat} (h8 : w % 8 = 0) {x : BitVec w}
    (h : numberIn e x = n) : bitsConv e x = BitVec.ofNat w n := by
  apply BitVec.eq_of_toNat_eq
  rw [bitsConv_toNat e h8, h, BitVec.toNat_ofNat, Nat.mod_eq_of_lt]
  rw [← h, ← bitsConv_toNat e h8]
  exact (bitsConv e x).isLt

theorem find?_unique {α : Type} {q : α → Bool} {l : List α} {a : α} (ha : a ∈ l) (hq : q a = true)
    (hu : ∀ x ∈ l, q x = true → x = a) : l.find? q = some a := by
  cases h : l.find? q with
  | none => exact absurd hq (List.find?_eq_none.mp h a ha)
  | some x =>
    rw [hu x (List.mem_of_find?_eq_some h) (List.find?_some h)]

theorem EnumSpec.Compiles.mod {s : EnumSpec} {w : Nat} (h : s.Compiles w) : w % 8 = 0 := by
  obtain ⟨t, -, ht, rfl⟩ := h.ty
  cases t <;> first | rfl | contradiction

theorem EnumSpec.Compiles.name_eq {s : EnumSpec} {w : Nat} (h : s.Compiles w) {v u : VariantSpec}
    (hv : v ∈ s.variants) (hu : u ∈ s.variants) (e : v.name = u.name) : v = u := by
  obtain ⟨i, hi⟩ := List.getElem?_of_mem hv
  obtain ⟨j, hj⟩ := List.getElem?_of_mem hu
  have := h.name i j v u hi hj e
  subst this
  exact Option.some.inj (hi.symm.trans hj)

theorem EnumSpec.Compiles.value_eq {s : EnumSpec} {w : Nat} (h : s.Compiles w) {v u : VariantSpec}
    (hv : v ∈ s.variants) (hu : u ∈ s.variants) {d d' : DefaultSpec} {n : Nat}
    (e1 : v.value = some (d, n)) (e2 : u.value = some (d', n)) : v = u := by
  obtain ⟨i, hi⟩ := List.getElem?_of_mem hv
  obtain ⟨j, hj⟩ := List.getElem?_of_mem hu
  have := h.value i j v u d d' n hi hj e1 e2
  subst this
  exact Option.some.inj (hi.symm.trans hj)

/-- The variant of a value. -/
theorem EnumSpec.Code.run_variant {s : EnumSpec} {cfg : String → Bool} {c : FlagCode} {w : Nat}
    (h : s.Code cfg c) (hc : s.Compiles w) {v : VariantSpec} (hv : v ∈ s.variants)
    {d : DefaultSpec} {n : Nat} (hn : v.value = some (d, n)) :
    c.cases.run (BitVec.ofNat w n) = v.name := by
  have hlt := hc.fits v hv d n hn
  have hval : v.flag.value = n := by simp [VariantSpec.flag, hn]
  -- an arm with these bits belongs to the variant
  have huniq : ∀ arm ∈ c.cases.arms, (BitVec.ofNat w arm.1 == BitVec.ofNat w n) = true →
      arm = (n, v.name) := by
    intro arm ha he
    rw [h.arms] at ha
    obtain ⟨x, hx, rfl⟩ := List.mem_map.mp ha
    obtain ⟨u, hu, rfl⟩ := List.mem_map.mp (List.mem_filter.mp hx).1
    obtain ⟨⟨d', n'⟩, hn'⟩ := Option.isSome_iff_exists.mp (h.value u hu)
    have hlt' := hc.fits u hu d' n' hn'
    have hval' : u.flag.value = n' := by simp [VariantSpec.flag, hn']
    simp only [hval', beq_iff_eq] at he
    have := congrArg BitVec.toNat he
    simp only [BitVec.toNat_ofNat, Nat.mod_eq_of_lt hlt, Nat.mod_eq_of_lt hlt'] at this
    subst this
    rw [hc.value_eq hv hu hn hn', hval']
    rfl
  by_cases hb : v.IsBase
  · have hnone : (c.cases.arms.find? fun arm => BitVec.ofNat w arm.1 == BitVec.ofNat w n) = none := by
      rw [List.find?_eq_none]
      intro arm ha he
      have hx := huniq arm ha he
      rw [h.arms] at ha
      obtain ⟨x, hx1, hx2⟩ := List.mem_map.mp ha
      obtain ⟨hx3, hx4⟩ := List.mem_filter.mp hx1
      obtain ⟨u, hu, rfl⟩ := List.mem_map.mp hx3
      have hname : u.name = v.name := by
        have := hx2.trans hx
        exact congrArg Prod.snd this
      have := hc.name_eq hu hv hname
      subst this
      rw [u.flag_base.mpr hb] at hx4
      cases hx4
    obtain ⟨x, hx, hwild⟩ := h.wildcard
    simp only [FlagMatch.run, hnone, hwild]
    have : (s.variants.map VariantSpec.flag).find? FlagVariant.base = some v.flag := by
      refine find?_unique (List.mem_map_of_mem hv) (v.flag_base.mpr hb) ?_
      intro y hy hyb
      obtain ⟨u, hu, rfl⟩ := List.mem_map.mp hy
      obtain ⟨i, hi⟩ := List.getElem?_of_mem hu
      obtain ⟨j, hj⟩ := List.getElem?_of_mem hv
      have := base_unique.mp h.base i j u v hi hj (u.flag_base.mp hyb) hb
      subst this
      rw [hi] at hj
      cases hj
      rfl
    rw [this] at hx
    cases hx
    rfl
  · have : (c.cases.arms.find? fun arm => BitVec.ofNat w arm.1 == BitVec.ofNat w n) =
        some (n, v.name) := by
      refine find?_unique ?_ (by simp) huniq
      rw [h.arms]
      refine List.mem_map.mpr ⟨v.flag, List.mem_filter.mpr ⟨List.mem_map_of_mem hv, ?_⟩, ?_⟩
      · cases hvb : v.flag.base with
        | false => rfl
        | true => exact absurd (v.flag_base.mp hvb) hb
      · rw [hval]; rfl
    simp only [FlagMatch.run, this]

/-- Other bits. -/
theorem EnumSpec.Code.run_other {s : EnumSpec} {cfg : String → Bool} {c : FlagCode} {w : Nat}
    (h : s.Code cfg c) (hc : s.Compiles w) {x : BitVec w}
    (hx : ∀ v ∈ s.variants, ∀ d n, v.value = some (d, n) → n ≠ x.toNat) :
    c.cases.run x = c.cases.wildcard := by
  have : (c.cases.arms.find? fun arm => BitVec.ofNat w arm.1 == x) = none := by
    rw [List.find?_eq_none]
    intro arm ha he
    rw [h.arms] at ha
    obtain ⟨y, hy, rfl⟩ := List.mem_map.mp ha
    obtain ⟨u, hu, rfl⟩ := List.mem_map.mp (List.mem_filter.mp hy).1
    obtain ⟨⟨d', n'⟩, hn'⟩ := Option.isSome_iff_exists.mp (h.value u hu)
    have hval' : u.flag.value = n' := by simp [VariantSpec.flag, hn']
    simp only [hval', beq_iff_eq] at he
    have := congrArg BitVec.toNat he
    rw [BitVec.toNat_ofNat, Nat.mod_eq_of_lt (hc.fits u hu d' n' hn')] at this
    exact hx u hu d' n' hn' this
  simp only [FlagMatch.run, this]

theorem EnumSpec.Code.into {s : EnumSpec} {cfg : String → Bool} {c : FlagCode} {w : Nat}
    (h : s.Code cfg c) (hc : s.Compiles w) {v : VariantSpec} (hv : v ∈ s.variants)
    {d : DefaultSpec} {n : Nat} (hn : v.value = some (d, n)) :
    flagIntoBits c w v.name = bitsConv (s.intoEndian cfg) (BitVec.ofNat w n) := by
  have hval : v.flag.value = n := by simp [VariantSpec.flag, hn]
  have : (c.variants.find? fun x => x.1 == v.name) = some (v.name, v.flag.attrs, n) := by
    refine find?_unique ?_ (by simp) ?_
    · rw [h.variants]
      exact List.mem_map.mpr ⟨v, hv, by rw [hval]⟩
    · intro x hx he
      rw [h.variants] at hx
      obtain ⟨u, hu, rfl⟩ := List.mem_map.mp hx
      have := hc.name_eq hu hv (by simpa using he)
      subst this
      rw [hval]
  simp only [flagIntoBits, this, h.intoE]

end Bf
