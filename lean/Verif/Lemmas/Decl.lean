import Verif.Lemmas.Literal
import Verif.Lemmas.Fields

/-!
# Lemmas: how written declarations are read
-/

namespace Bf

/-! ## Types -/

theorem dataType_syntax {t : TypeSpec} {d : DataType} :
    t.syntax.dataType = .ok d ↔ match t with
      | .int it => d = .int it
      | .bytes n => 1 ≤ n ∧ n < 2 ^ 32 ∧ d = .array n
      | .custom name c => name ∉ ["f32", "f64", "usize", "isize"] ∧
          (.path name c : SynType).dataType = .ok d := by
  cases t with
  | int it =>
    cases it <;>
      simp [TypeSpec.syntax, SynType.dataType, IntTy.name, eq_comm]
  | bytes n =>
    simp only [TypeSpec.syntax, SynType.dataType]
    by_cases h : n < 2 ^ 32
    · by_cases h0 : n = 0
      · simp [h0]
      · simp [h, h0, eq_comm]
        omega
    · simp [h]
  | custom name c =>
    simp only [TypeSpec.syntax]
    constructor
    · intro h
      refine ⟨?_, h⟩
      intro hm
      simp only [List.mem_cons, List.not_mem_nil, or_false] at hm
      rcases hm with rfl | rfl | rfl | rfl <;> simp [SynType.dataType] at h
    · exact fun h => h.2

theorem dataType_custom {name : String} {c : Codec} (h : name ∉ builtinNames) :
    (.path name c : SynType).dataType = .ok (.custom c) := by
  simp only [builtinNames, List.mem_cons, List.not_mem_nil, or_false, not_or] at h
  simp [SynType.dataType, h]

/-- The data type of a supported type. -/
def TypeSpec.data : TypeSpec → DataType
  | .int t => .int t
  | .bytes n => .array n
  | .custom _ c => .custom c

theorem dataType_supported {t : TypeSpec} (h : t.Supported) : t.syntax.dataType = .ok t.data := by
  cases t with
  | int it => exact dataType_syntax.mpr rfl
  | bytes n => exact dataType_syntax.mpr ⟨h.1, h.2, rfl⟩
  | custom name c => exact dataType_custom h

theorem size_data (t : TypeSpec) : sizeOf? t.data = t.size := by cases t <;> rfl

/-! ## Arguments -/

/-- The argument as parsed. -/
def BitsArgSpec.arg : BitsArgSpec → Arg
  | .access a => ⟨"access", a.text, .bool false⟩
  | .ignore b => ⟨"ignore", boolText b, .bool b⟩
  | .default d v => ⟨"default", d.text, v⟩

theorem argsLoop_cons (a : BitsArgSpec) (ts : List Tok) :
    argsLoop bitsKeys (a.tokens ++ .comma :: ts) =
      match argsLoop bitsKeys ts with
      | .ok as => .ok (a.arg :: as)
      | .error e => .error e := by
  cases a <;> simp [BitsArgSpec.tokens, argsLoop, bitsKeys, BitsArgSpec.arg] <;>
    cases argsLoop ["access", "ignore", "default"] ts <;> rfl

theorem argsLoop_one (a : BitsArgSpec) : argsLoop bitsKeys a.tokens = .ok [a.arg] := by
  cases a <;> simp [BitsArgSpec.tokens, argsLoop, bitsKeys, BitsArgSpec.arg]

theorem argsLoop_tokens (as : List BitsArgSpec) :
    argsLoop bitsKeys (argTokens as) = .ok (as.map BitsArgSpec.arg) := by
  induction as with
  | nil => rfl
  | cons a as ih =>
    cases as with
    | nil => exact argsLoop_one a
    | cons b bs =>
      show argsLoop bitsKeys (a.tokens ++ .comma :: argTokens (b :: bs)) = _
      rw [argsLoop_cons, ih]
      rfl

/-- The tokens of arguments begin with an identifier. -/
theorem argTokens_head (as : List BitsArgSpec) :
    argTokens as = [] ∨ ∃ s ts, argTokens as = .ident s :: ts := by
  cases as with
  | nil => exact .inl rfl
  | cons a as =>
    right
    cases as with
    | nil => cases a <;> exact ⟨_, _, rfl⟩
    | cons b bs => cases a <;> exact ⟨_, _, rfl⟩

theorem skipComma_args (as : List BitsArgSpec) : skipComma (argTokens as) = argTokens as := by
  rcases argTokens_head as with h | ⟨s, ts, h⟩ <;> rw [h] <;> rfl

/-- What the macro makes of a supported default. -/
def DefaultSpec.const : DefaultSpec → ConstExpr
  | .int l => .literal l.magnitude l.neg
  | .bool b => .literal (if b then 1 else 0) false
  | .expr _ => .path

theorem lastArg_cons {α β : Type} (g : α → Option β) (a : α) (as : List α) :
    lastArg g (a :: as) = (lastArg g as).or (g a) := by
  simp [lastArg, List.findSome?_append]

theorem accessOf_text (a : Access) : accessOf a.text = .ok a := by cases a <;> rfl

theorem parseBool_text (b : Bool) (k : String) (v : Val) : parseBool ⟨k, boolText b, v⟩ = .ok b := by
  cases b <;> rfl

/-- The parsed arguments, starting from `r`. -/
def readArgs (r : BitsArgs) (as : List BitsArgSpec) : BitsArgs where
  access := (lastArg (fun | .access a => some a | _ => none) as).getD r.access
  userSetAccess := r.userSetAccess ||
    (lastArg (fun | .access a => some a | _ => none) as).isSome
  ignored := (lastArg (fun | .ignore b => some b | _ => none) as).getD r.ignored
  default := ((lastArg (fun | .default d v => some (d, v) | _ => none) as).map
    fun dv => (dv.1.const, dv.2)).or r.default

theorem foldlM_args (hc : ∀ d : DefaultSpec, d.Supported → constExpr d.text = .ok d.const)
    (as : List BitsArgSpec) :
    ∀ r, (∀ d v, BitsArgSpec.default d v ∈ as → d.Supported) →
      (as.map BitsArgSpec.arg).foldlM applyBitsArg r = .ok (readArgs r as) := by
  induction as with
  | nil =>
    intro r _
    simp [readArgs, lastArg, pure, Except.pure]
  | cons a as ih =>
    intro r h
    have ih := fun r => ih r fun d v hm => h d v (List.mem_cons_of_mem _ hm)
    rw [List.map_cons, List.foldlM_cons]
    cases a with
    | access x =>
      have e : applyBitsArg r (BitsArgSpec.access x).arg =
          .ok { r with access := x, userSetAccess := true } := by
        simp only [applyBitsArg, BitsArgSpec.arg, if_true, accessOf_text]
        rfl
      rw [e]
      show (as.map BitsArgSpec.arg).foldlM applyBitsArg { r with access := x, userSetAccess := true } = _
      rw [ih]
      simp only [readArgs, lastArg_cons]
      simp only [Option.or_none, Bool.true_or]
      cases lastArg (fun x => match x with | .access a => some a | _ => none) as <;> simp
    | ignore b =>
      have e : applyBitsArg r (BitsArgSpec.ignore b).arg = .ok { r with ignored := b } := by
        have h1 : ¬ ("ignore" = "access") := by decide
        simp only [applyBitsArg, BitsArgSpec.arg, h1, if_false, if_true, parseBool_text]
        rfl
      rw [e]
      show (as.map BitsArgSpec.arg).foldlM applyBitsArg { r with ignored := b } = _
      rw [ih]
      simp only [readArgs, lastArg_cons]
      simp only [Option.or_none]
      cases lastArg (fun x => match x with | .ignore b => some b | _ => none) as <;> simp
    | default d v =>
      have e : applyBitsArg r (BitsArgSpec.default d v).arg =
          .ok { r with default := some (d.const, v) } := by
        have h1 : ¬ ("default" = "access") := by decide
        have h2 : ¬ ("default" = "ignore") := by decide
        simp only [applyBitsArg, BitsArgSpec.arg, h1, h2, if_false, if_true,
          hc d (h d v List.mem_cons_self)]
        rfl
      rw [e]
      show (as.map BitsArgSpec.arg).foldlM applyBitsArg { r with default := some (d.const, v) } = _
      rw [ih]
      simp only [readArgs, lastArg_cons]
      simp only [Option.or_none]
      cases lastArg (fun x => match x with | .default d v => some (d, v) | _ => none) as <;> simp

theorem parseBitsArgs_tokens (hc : ∀ d : DefaultSpec, d.Supported → constExpr d.text = .ok d.const)
    {as : List BitsArgSpec} (h : ∀ d v, BitsArgSpec.default d v ∈ as → d.Supported) :
    parseBitsArgs (argTokens as) = .ok (readArgs {} as) := by
  simp only [parseBitsArgs, parseAttributeArguments, skipComma_args, argsLoop_tokens]
  exact foldlM_args hc as {} h

theorem parseBits_none (as : List BitsArgSpec) :
    parseBits (argTokens as) = .ok (none, argTokens as) := by
  simp only [parseBits, skipComma_args]
  rcases argTokens_head as with h | ⟨s, ts, h⟩ <;> rw [h]

theorem parseBitsAttr_tokens (hc : ∀ d : DefaultSpec, d.Supported → constExpr d.text = .ok d.const)
    {b : BitsSpec} (h : ∀ d v, BitsArgSpec.default d v ∈ b.args → d.Supported)
    (hw : ∀ n, b.width = some n → n < 2 ^ 32) :
    parseBitsAttr b.tokens = .ok ⟨b.width, readArgs {} b.args⟩ := by
  simp only [parseBitsAttr, BitsSpec.tokens]
  cases hb : b.width with
  | none =>
    simp only []
    rw [parseBits_none]
    show (do return ({ bits := none, args := ← parseBitsArgs (argTokens b.args) } : BitsAttr)) = _
    rw [parseBitsArgs_tokens hc h]
    rfl
  | some n =>
    simp only []
    have e : parseBits (.int n false :: if b.args.isEmpty then [] else .comma :: argTokens b.args) =
        .ok (some n, argTokens b.args) := by
      simp only [parseBits, skipComma, Bool.false_eq_true, if_false]
      rw [if_pos (hw n hb)]
      cases hargs : b.args with
      | nil => rfl
      | cons a as => rfl
    rw [e]
    show (do return ({ bits := some n, args := ← parseBitsArgs (argTokens b.args) } : BitsAttr)) = _
    rw [parseBitsArgs_tokens hc h]
    rfl

theorem parseBitsAttr_too_wide {b : BitsSpec} {n : Nat} (hb : b.width = some n)
    (hw : ¬ n < 2 ^ 32) : ∀ x, parseBitsAttr b.tokens ≠ .ok x := by
  intro x h
  simp only [parseBitsAttr, BitsSpec.tokens, hb, parseBits, skipComma, Bool.false_eq_true,
    if_false, if_neg hw] at h
  cases h

/-- The attribute of a field as parsed. -/
def FieldSpec.attr (f : FieldSpec) : Option BitsAttr :=
  f.bits.map fun b => ⟨b.width, readArgs {} b.args⟩

/-- What the parser learns from a field. -/
def FieldSpec.info (f : FieldSpec) : Info := ⟨f.decl, f.attr, f.ty.data⟩

theorem getBitsAttribute_decl
    (hc : ∀ d : DefaultSpec, d.Supported → constExpr d.text = .ok d.const) {f : FieldSpec}
    (h : f.Readable) (hw : ∀ n, f.bits.bind BitsSpec.width = some n → n < 2 ^ 32) :
    getBitsAttribute f.decl = .ok f.attr := by
  simp only [getBitsAttribute, FieldSpec.decl, FieldSpec.attr]
  cases hb : f.bits with
  | none => rfl
  | some b =>
    simp only [List.find?, Bool.and_self, Option.map_some]
    have hr : ∀ d v, BitsArgSpec.default d v ∈ b.args → d.Supported := by
      intro d v hm
      exact h d v (by simpa [FieldSpec.args, hb] using hm)
    rw [parseBitsAttr_tokens hc hr (by simpa [hb] using hw)]
    rfl

theorem getBitsAttribute_width {f : FieldSpec} {x : Option BitsAttr}
    (h : getBitsAttribute f.decl = .ok x) :
    ∀ n, f.bits.bind BitsSpec.width = some n → n < 2 ^ 32 := by
  intro n hn
  cases hb : f.bits with
  | none => rw [hb] at hn; cases hn
  | some b =>
    rw [hb] at hn
    simp only [Option.bind_some] at hn
    apply Decidable.byContradiction
    intro hw
    simp only [getBitsAttribute, FieldSpec.decl, hb, List.find?, Bool.and_self] at h
    cases hp : parseBitsAttr b.tokens with
    | error e => rw [hp] at h; cases h
    | ok y => exact parseBitsAttr_too_wide hn hw y hp

/-! ## Conditions on fields -/

theorem FieldSpec.info_ignored (f : FieldSpec) : f.info.ignored = f.ignored := by
  simp only [Info.ignored, FieldSpec.info, FieldSpec.attr, FieldSpec.ignored, FieldSpec.args]
  cases f.bits with
  | none => rfl
  | some b =>
    simp only [isIgnored, readArgs, Option.map_some]
    rfl

theorem FieldSpec.info_reserved (f : FieldSpec) : f.info.reserved = f.reserved := by
  simp only [Info.reserved, FieldSpec.info, FieldSpec.decl, isReservedName, FieldSpec.reserved]
  rw [Bool.eq_iff_iff]
  simp

theorem FieldSpec.info_widthOf (f : FieldSpec) : widthOf f.info.attr f.info.ty = f.width? := by
  simp only [widthOf, FieldSpec.info, FieldSpec.attr, FieldSpec.width?, size_data]
  cases f.bits with
  | none => rfl
  | some b => cases hb : b.width <;> simp [hb]

theorem FieldSpec.info_width (f : FieldSpec) : f.info.width = f.width := by
  simp only [Info.width, FieldSpec.width, FieldSpec.info_ignored, FieldSpec.info_widthOf]

theorem FieldSpec.info_states (f : FieldSpec) : statesAccess f.info.attr = f.access?.isSome := by
  simp only [FieldSpec.info, FieldSpec.attr, FieldSpec.access?, FieldSpec.args]
  cases f.bits with
  | none => rfl
  | some b =>
    simp only [statesAccess, readArgs, Option.map_some, Bool.false_or]
    rfl

theorem FieldSpec.info_default (f : FieldSpec) :
    f.info.attr.bind (fun a => a.args.default) = f.default?.map fun dv => (dv.1.const, dv.2) := by
  simp only [FieldSpec.info, FieldSpec.attr, FieldSpec.default?, FieldSpec.args]
  cases f.bits with
  | none => rfl
  | some b =>
    simp only [readArgs, Option.map_some, Option.bind_some, Option.or_none]
    rfl

theorem DefaultSpec.fits_iff {d : DefaultSpec} {t : IntTy} {w : Nat} :
    LiteralFits t w d.const ↔ d.Fits t w := by
  cases d with
  | int l =>
    simp only [DefaultSpec.const, DefaultSpec.Fits]
    cases l.neg <;> simp [LiteralFits]
  | bool b => rfl
  | expr t => rfl

theorem lastArg_mem {α β : Type} {g : α → Option β} {as : List α} {b : β}
    (h : lastArg g as = some b) : ∃ a ∈ as, g a = some b := by
  obtain ⟨a, ha, hb⟩ := List.exists_of_findSome?_eq_some h
  exact ⟨a, by simpa using ha, hb⟩

theorem FieldSpec.info_literals {f : FieldSpec} (h : f.Readable) : f.info.LiteralsOK := by
  intro n neg v hd
  rw [FieldSpec.info_default] at hd
  rw [Option.map_eq_some_iff] at hd
  obtain ⟨⟨d, v'⟩, hd, e⟩ := hd
  obtain ⟨a, ha, hg⟩ := lastArg_mem hd
  have hs : d.Supported := by
    cases a with
    | access x => cases hg
    | ignore x => cases hg
    | default d' v'' => cases hg; exact h _ _ ha
  cases d with
  | int l =>
    simp only [DefaultSpec.const, Prod.mk.injEq, ConstExpr.literal.injEq] at e
    obtain ⟨⟨rfl, rfl⟩, -⟩ := e
    exact ⟨hs.2.1, hs.2.2.2⟩
  | bool b =>
    simp only [DefaultSpec.const, Prod.mk.injEq, ConstExpr.literal.injEq] at e
    obtain ⟨⟨rfl, rfl⟩, -⟩ := e
    refine ⟨?_, by simp⟩
    cases b <;> decide
  | expr t => simp [DefaultSpec.const] at e

theorem FieldSpec.info_legal {f : FieldSpec} (ht : f.ty.Supported)
    (hs : ∀ n, f.bits.bind BitsSpec.width = some n → n < 2 ^ 32) :
    f.info.Legal ↔ f.Legal := by
  have hty : ∀ t, f.info.ty = .int t ↔ f.ty = .int t := by
    intro t
    simp only [FieldSpec.info]
    cases f.ty <;> simp [TypeSpec.data]
  constructor
  · intro h
    have hw : f.ignored = false → ∃ w, f.width? = some w ∧ 1 ≤ w ∧ f.width = w ∧
        (∀ t, f.ty = .int t → w ≤ t.bitSize ∧
          ∀ e v, f.info.attr.bind (fun a => a.args.default) = some (e, v) → LiteralFits t w e) ∧
        (f.reserved = true → statesAccess f.info.attr = false) := by
      intro hi
      obtain ⟨w, h1, h2, h3, h4⟩ := h (by rw [FieldSpec.info_ignored]; exact hi)
      rw [FieldSpec.info_widthOf] at h1
      refine ⟨w, h1, h2, by simp [FieldSpec.width, hi, h1], fun t ht => h3 t ((hty t).mpr ht), ?_⟩
      rw [FieldSpec.info_reserved] at h4
      exact h4
    refine ⟨ht, hs, ?_, ?_, ?_, ?_⟩
    · intro hi
      obtain ⟨w, h1, h2, _⟩ := hw hi
      exact ⟨w, h1, h2⟩
    · intro hi t ht
      obtain ⟨w, _, _, h3, h4, _⟩ := hw hi
      rw [h3]
      exact (h4 t ht).1
    · intro hi t ht d v hd
      obtain ⟨w, _, _, h3, h4, _⟩ := hw hi
      rw [h3]
      refine DefaultSpec.fits_iff.mp ((h4 t ht).2 d.const v ?_)
      rw [FieldSpec.info_default, hd]
      rfl
    · intro hi hr
      obtain ⟨w, _, _, _, _, h5⟩ := hw hi
      have := h5 hr
      rw [FieldSpec.info_states] at this
      simpa using this
  · intro h hi
    rw [FieldSpec.info_ignored] at hi
    obtain ⟨w, h1, h2⟩ := h.width hi
    have hw : f.width = w := by simp [FieldSpec.width, hi, h1]
    refine ⟨w, by rw [FieldSpec.info_widthOf]; exact h1, h2, ?_, ?_⟩
    · intro t ht
      rw [hty] at ht
      refine ⟨hw ▸ h.holds hi t ht, ?_⟩
      intro e v hd
      rw [FieldSpec.info_default, Option.map_eq_some_iff] at hd
      obtain ⟨⟨d, v'⟩, hd, e'⟩ := hd
      cases e'
      exact DefaultSpec.fits_iff.mpr (hw ▸ h.default hi t ht d v' hd)
    · intro hr
      rw [FieldSpec.info_reserved] at hr
      rw [FieldSpec.info_states, h.access hi hr]
      rfl

end Bf
