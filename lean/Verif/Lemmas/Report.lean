import Verif.SpecReport
import Verif.Lemmas.Form
import Verif.Lemmas.Accept
import Verif.Lemmas.Ident
import Verif.Lemmas.Bitflag

/-!
# The parser reports errors
-/

namespace Bf

variable {m : Mode} {cfg : String → Bool}

theorem Reports.liftR {α : Type} {x : R α} (h : ∃ a, x = .ok a) : Reports (liftR x) := by
  obtain ⟨a, rfl⟩ := h
  exact .ok _

theorem Reports.bind' {α β : Type} {x : P α} {f : α → P β} (h : Reports x) (hf : ∀ a, x = .ok a → Reports (f a)) :
    Reports (x >>= f) := by
  intro e he
  cases x with
  | error e' => cases he; exact h _ rfl
  | ok a => exact hf a rfl e he

theorem digit_facts {c : Char} (h : c.isDigit = true) : (c != ' ' && c != '_') = true ∧ c.toLower = c ∧
    c.isWhitespace = false ∧ c ≠ 'x' := by
  simp only [Char.isDigit, Bool.and_eq_true, decide_eq_true_eq, ge_iff_le, UInt32.le_iff_toNat_le] at h
  have h1 : 48 ≤ c.val.toNat := h.1
  have h2 : c.val.toNat ≤ 57 := h.2
  have hne : ∀ d : Char, (d.val.toNat < 48 ∨ 57 < d.val.toNat) → c ≠ d := by
    rintro d hd rfl; omega
  refine ⟨?_, ?_, ?_, hne 'x' (by decide)⟩
  · simp [hne ' ' (by decide), hne '_' (by decide)]
  · unfold Char.toLower
    rw [dif_neg]
    intro hc
    have : 65 ≤ c.val.toNat := hc.1
    omega
  · simp [Char.isWhitespace, hne ' ' (by decide), hne '\t' (by decide), hne '\r' (by decide), hne '\n' (by decide)]

theorem compact_digits {s : List Char} (h : ∀ c ∈ s, c.isDigit = true) : compact s = s := by
  unfold compact
  rw [List.filter_eq_self.mpr fun c hc => (digit_facts (h c hc)).1]
  exact (List.map_congr_left fun c hc => (digit_facts (h c hc)).2.1).trans (List.map_id _)

theorem constExpr_float {text : List Char} (h : FloatText text) : constExpr text = .error (.error "Float are not supported.") := by
  obtain ⟨sign, whole, rest, hs, hw, hd, e⟩ := h.form
  have hn : normalize text = compact text := by
    refine normalize_eq_compact (fun c hc => ?_) h.last
    rw [e] at hc
    simp only [List.mem_cons, List.not_mem_nil, or_false] at hs
    rcases hs with rfl | rfl
    · cases whole with
      | nil => contradiction
      | cons x xs => cases hc; exact (digit_facts (hd _ (by simp))).2.2.1
    · cases hc; decide
  have hc : compact text = sign ++ whole ++ '.' :: compact rest := by
    rw [e]
    unfold compact
    rw [List.filter_append, List.map_append, List.filter_append, List.map_append, ← compact, ← compact, compact_digits hd,
      List.filter_cons]
    simp only [List.mem_cons, List.not_mem_nil, or_false] at hs
    rcases hs with rfl | rfl <;> rfl
  have hx : (['0', 'x'].isPrefixOf (compact text)) = false := by
    rw [hc]
    simp only [List.mem_cons, List.not_mem_nil, or_false] at hs
    rcases hs with rfl | rfl
    · match whole, hw with
      | [x], _ => simp [List.isPrefixOf]
      | x :: y :: ys, _ =>
        have := (digit_facts (hd y (by simp))).2.2.2
        simp [List.isPrefixOf, Ne.symm this]
    · simp [List.isPrefixOf]
  have hdot : (compact text).contains '.' = true := by rw [hc]; simp
  unfold constExpr checkFloat
  simp only [hn, hx, hdot, Bool.true_or, if_true, Bool.false_eq_true, if_false]

theorem constExpr_reports {text : List Char} (h : ReadableText text) : Reports (constExpr text) := by
  rcases h with ⟨D, h1, rfl⟩ | h
  · rw [constExpr_text D h1]; exact .ok _
  · rw [constExpr_float h]; exact .err _

theorem constExpr_readable {text : List Char} (h : ReadableText text) {x : ConstExpr} (hx : constExpr text = .ok x) :
    ∃ D : DefaultSpec, D.Supported ∧ D.const = x := by
  rcases h with ⟨D, h1, rfl⟩ | h
  · rw [constExpr_text D h1] at hx; cases hx; exact ⟨D, h1, rfl⟩
  · rw [constExpr_float h] at hx; cases hx

theorem accessOf_reports (t : List Char) : Reports (accessOf t) :=
  .ite (.ok _) (.ite (.ok _) (.ite (.ok _) (.ite (.ok _) (.err _))))

theorem applyBitsArg_reports {w : Arg} (hk : w.key ∈ bitsKeys)
    (hd : w.key = "default" → ReadableText w.text) (r : BitsArgs) :
    Reports (applyBitsArg r w) := by
  simp only [bitsKeys, List.mem_cons, List.not_mem_nil, or_false] at hk
  unfold applyBitsArg
  rcases hk with hk | hk | hk <;> simp only [hk, String.reduceEq, if_true, if_false]
  · exact (accessOf_reports _).bind fun _ => .ok _
  · exact (parseBool_reports _).bind fun _ => .ok _
  · exact (constExpr_reports (hd hk)).bind fun _ => .ok _

theorem parseBitsArgs_reports {ts : List Tok}
    (hd : ∀ text, HasDefault ts text → ReadableText text) : Reports (parseBitsArgs ts) := by
  unfold parseBitsArgs
  cases hp : parseAttributeArguments bitsKeys ts with
  | error e =>
    intro e' he
    cases he
    exact argsLoop_err _ _ _ hp
  | ok ws =>
    refine foldlM_reports _ fun w hw r => applyBitsArg_reports ((parseAttributeArguments_ok hp).2 w hw) (fun hk => ?_) r
    obtain ⟨⟨n, t, hn, e⟩, -⟩ := parseAttributeArguments_ok hp
    refine hd _ ⟨w.value, ?_⟩
    rw [e, ← hk]
    exact (listed_infix t w hw).trans (List.suffix_append _ _).isInfix

/-- What the arguments say comes from the tokens. -/
theorem foldlM_bits {ws : List Arg} : ∀ {r x : BitsArgs}, ws.foldlM applyBitsArg r = .ok x →
    (x.ignored = true → r.ignored = true ∨ ∃ w ∈ ws, w.key = "ignore" ∧ w.text = boolText true) ∧
    (∀ c v, x.default = some (c, v) → r.default = some (c, v) ∨
      ∃ w ∈ ws, w.key = "default" ∧ constExpr w.text = .ok c) := by
  induction ws with
  | nil => intro r x h; cases h; exact ⟨.inl, fun c v h => .inl h⟩
  | cons w ws ih =>
    intro r x h
    rw [List.foldlM_cons] at h
    obtain ⟨y, hy, h⟩ := bind_ok.mp h
    obtain ⟨h1, h2⟩ := ih h
    unfold applyBitsArg at hy
    refine ⟨fun hx => ?_, fun c v hx => ?_⟩
    · rcases h1 hx with h1 | ⟨w', hw', h1⟩
      · split at hy
        · obtain ⟨a, _, hy⟩ := bind_ok.mp hy; cases hy; exact .inl h1
        split at hy
        · rename_i hk
          obtain ⟨b, hb, hy⟩ := bind_ok.mp hy
          cases hy
          obtain rfl : b = true := h1
          exact .inr ⟨w, by simp, hk, parseBool_iff.mp hb⟩
        split at hy
        · obtain ⟨a, _, hy⟩ := bind_ok.mp hy; cases hy; exact .inl h1
        · cases hy
      · exact .inr ⟨w', by simp [hw'], h1⟩
    · rcases h2 c v hx with h1 | ⟨w', hw', h1⟩
      · split at hy
        · obtain ⟨a, _, hy⟩ := bind_ok.mp hy; cases hy; exact .inl h1
        split at hy
        · obtain ⟨a, _, hy⟩ := bind_ok.mp hy; cases hy; exact .inl h1
        split at hy
        · rename_i hk
          obtain ⟨b, hb, hy⟩ := bind_ok.mp hy
          cases hy
          cases h1
          exact .inr ⟨w, by simp, hk, hb⟩
        · cases hy
      · exact .inr ⟨w', by simp [hw'], h1⟩

theorem parseBitsArgs_says {ts : List Tok} {x : BitsArgs} (h : parseBitsArgs ts = .ok x) :
    (x.ignored = true → HasFlag ts "ignore") ∧
    (∀ c v, x.default = some (c, v) → ∃ text, HasDefault ts text ∧ constExpr text = .ok c) := by
  unfold parseBitsArgs at h
  obtain ⟨ws, hp, h⟩ := bind_ok.mp h
  obtain ⟨⟨n, t, hn, e⟩, -⟩ := parseAttributeArguments_ok hp
  have hin : ∀ w ∈ ws, w.tokens <:+: ts := fun w hw => by
    rw [e]
    exact (listed_infix t w hw).trans (List.suffix_append _ _).isInfix
  obtain ⟨h1, h2⟩ := foldlM_bits h
  refine ⟨fun hx => ?_, fun c v hx => ?_⟩
  · rcases h1 hx with h | ⟨w, hw, hk, ht⟩
    · cases h
    · exact ⟨w.value, by rw [← hk, ← ht]; exact hin w hw⟩
  · rcases h2 c v hx with h | ⟨w, hw, hk, ht⟩
    · cases h
    · exact ⟨w.text, ⟨w.value, by rw [← hk]; exact hin w hw⟩, ht⟩

theorem parseBits_reports (ts : List Tok) : Reports (parseBits ts) := by
  unfold parseBits
  split
  · exact .err _
  · exact .ite (.err _) (.ite (.ok _) (.err _))
  · exact .ok _

theorem parseBits_suffix {ts rest : List Tok} {bits : Option Nat} (h : parseBits ts = .ok (bits, rest)) :
    rest <:+ ts ∧ ∀ n, bits = some n → n < 2 ^ 32 ∧ ∃ b, .int n b ∈ ts := by
  unfold parseBits at h
  split at h
  · cases h
  · rename_i n s r e
    split at h
    · cases h
    split at h
    · cases h
      refine ⟨((skipComma_suffix r).trans (List.suffix_cons _ _)).trans (e ▸ skipComma_suffix ts), ?_⟩
      rename_i hk
      intro k e'
      cases e'
      refine ⟨hk, s, (skipComma_suffix ts).subset ?_⟩
      rw [e]; simp
    · cases h
  · cases h
    exact ⟨skipComma_suffix ts, by nofun⟩

theorem HasFlag.mono {ts us : List Tok} {k : String} (h : HasFlag ts k) (hs : ts <:+ us) : HasFlag us k := by
  obtain ⟨v, h⟩ := h
  exact ⟨v, h.trans hs.isInfix⟩

theorem parseBitsAttr_reports {ts : List Tok}
    (hd : ∀ text, HasDefault ts text → ReadableText text) : Reports (parseBitsAttr ts) := by
  unfold parseBitsAttr
  refine (parseBits_reports ts).bind' fun x hx => ?_
  obtain ⟨bits, rest⟩ := x
  obtain ⟨hs, -⟩ := parseBits_suffix hx
  exact (parseBitsArgs_reports fun text ht => hd text (ht.mono hs)).bind fun _ => .ok _

/-- What the attribute of a field says comes from its tokens. -/
structure Says (d : FieldDecl) (a : BitsAttr) : Prop where
  tokens : ∃ ts, d.HasTokens ts ∧
    (a.args.ignored = true → HasFlag ts "ignore") ∧
    (∀ c v, a.args.default = some (c, v) → ∃ text, HasDefault ts text ∧ constExpr text = .ok c) ∧
    ∀ n, a.bits = some n → n < 2 ^ 32 ∧ ∃ b, .int n b ∈ ts

theorem getBitsAttribute_says {d : FieldDecl} {a : BitsAttr} (h : getBitsAttribute d = .ok (some a)) : Says d a := by
  unfold getBitsAttribute at h
  split at h
  · cases h
  · rename_i x hx
    split at h
    · cases h
    · rename_i ts hts
      cases hp : parseBitsAttr ts with
      | error e => rw [hp] at h; cases h
      | ok a' =>
        rw [hp] at h
        cases h
        unfold parseBitsAttr at hp
        obtain ⟨⟨bits, rest⟩, hb, hp⟩ := bind_ok.mp hp
        obtain ⟨r, hr, hp⟩ := bind_ok.mp hp
        cases hp
        obtain ⟨hs, hn⟩ := parseBits_suffix hb
        obtain ⟨h1, h2⟩ := parseBitsArgs_says hr
        exact ⟨ts, ⟨x, List.mem_of_find?_eq_some hx, hts⟩, fun h => (h1 h).mono hs,
          fun c v h => by obtain ⟨t, ht, hc⟩ := h2 c v h; exact ⟨t, ht.mono hs, hc⟩, hn⟩

theorem getBitsAttribute_reports {d : FieldDecl} (h : d.Reportable) : Reports (getBitsAttribute d) := by
  unfold getBitsAttribute
  split
  · exact .ok _
  · rename_i x hx
    split
    · exact .err _
    · rename_i ts hts
      have hr := parseBitsAttr_reports (h.default ts ⟨x, List.mem_of_find?_eq_some hx, hts⟩)
      intro e he
      cases hp : parseBitsAttr ts with
      | error e' => rw [hp] at he; cases he; exact hr _ hp
      | ok a => rw [hp] at he; cases he

theorem Known.dataType {t : SynType} (h : t.Known) : ∃ d, t.dataType = .ok d := by
  obtain ⟨s, hs, hy⟩ := h
  exact ⟨s.data, by rw [dataType_spelled hy]; exact dataType_supported hs⟩

theorem path_of_int {t : SynType} {i : IntTy} (h : t.dataType = .ok (.int i)) : ∃ name c, t = .path name c := by
  obtain ⟨s, hs, hy⟩ := spelled_of_dataType h
  cases t with
  | path name c => exact ⟨name, c, rfl⟩
  | other => cases h
  | array e len =>
    unfold SynType.dataType at h
    grind

theorem atMost_size {t : SynType} {d : DataType} {s : Nat} (h : t.dataType = .ok d) (hs : sizeOf? d = some s) :
    s ≤ t.atMost := by
  cases d with
  | int i =>
    obtain ⟨name, c, rfl⟩ := path_of_int h
    cases hs
    cases i <;> simp [SynType.atMost, IntTy.bitSize]
  | custom c => cases hs
  | array n =>
    cases hs
    cases t with
    | other => cases h
    | path name c => unfold SynType.dataType at h; grind (splits := 20)
    | array e len =>
      unfold SynType.dataType at h
      cases len <;> grind [SynType.atMost]

/-- The bits of a field. -/
theorem getFieldBits_reports {d : FieldDecl} {n : Nat} (hn : d.AtMost n) (hl : n < 2 ^ 32) {a : Option BitsAttr} {t : DataType}
    (ha : getBitsAttribute d = .ok a) (ht : d.ty.dataType = .ok t) :
    Reports (getFieldBits m a t) ∧ ∀ w, getFieldBits m a t = .ok w → w ≤ n ∧
      (a.bind BitsAttr.bits = some w ∨ a.bind BitsAttr.bits = none ∧ sizeOf? t = some w) := by
  unfold getFieldBits
  split
  · rename_i k hk
    refine ⟨.ok _, fun w hw => ?_⟩
    cases hw
    cases a with
    | none => cases hk
    | some a =>
      obtain ⟨ts, h1, -, -, h2⟩ := (getBitsAttribute_says ha).tokens
      obtain ⟨b, hb⟩ := (h2 k hk).2
      exact ⟨hn.attrs ts h1 k b hb, .inl hk⟩
  · rename_i hk
    split
    · exact ⟨.err _, nofun⟩
    · rename_i hc
      obtain ⟨s, hs⟩ : ∃ s, sizeOf? t = some s := by
        cases t with
        | int i => exact ⟨_, rfl⟩
        | array k => exact ⟨_, rfl⟩
        | custom c => exact absurd rfl (hc c)
      have hle := Nat.le_trans (atMost_size ht hs) hn.type
      rw [bitSize_of_lt hs (by omega)]
      refine ⟨.ok _, fun w hw => ?_⟩
      cases hw
      exact ⟨hle, .inr ⟨hk, hs⟩⟩

theorem sizeOf?_pos {t : SynType} {d : DataType} {s : Nat} (h : t.dataType = .ok d) (hs : sizeOf? d = some s) : s ≠ 0 := by
  cases d with
  | int i => cases hs; cases i <;> decide
  | custom c => cases hs
  | array n => cases hs; have := dataType_array h; omega

theorem checkBits_reports {a : Option BitsAttr} {w : Nat} (h : a.bind BitsAttr.bits ≠ none ∨ w ≠ 0) :
    Reports (checkBits a w) := by
  unfold checkBits
  split
  · split
    · exact .err _
    · rcases h with h | h
      · contradiction
      · contradiction
  · exact .ok _

theorem minMax_ok {w : Nat} (h : w ≤ 128) : ∃ x, minMaxForBits m w = .ok x := by
  by_cases hw : w = 128
  · exact ⟨_, by unfold minMaxForBits; rw [if_pos hw]⟩
  · exact ⟨_, minMax_of_lt (by omega)⟩

theorem checkDefault_reports {a : Option BitsAttr} {w : Nat} {t : DataType}
    (h : ∀ x v, a.bind (fun a => a.args.default) = some (x, v) → w ≤ 128 ∧ ∃ D : DefaultSpec, D.Supported ∧ D.const = x) :
    Reports (checkDefault m a w t) := by
  unfold checkDefault
  split
  · rename_i number negative v hd
    obtain ⟨hw, D, hD, hx⟩ := h _ _ hd
    obtain ⟨⟨lo, hi⟩, hmm⟩ := minMax_ok (m := m) hw
    refine .ite (.err _) ?_
    rw [hmm]
    by_cases hn : negative = true
    · change Reports (if negative = true then _ else _)
      rw [if_pos hn, if_neg]
      · exact .ite (.err _) (.ok _)
      · have hlt : number < 2 ^ 127 := by
          cases D with
          | int l => cases hx; exact hD.2.2.2 hn
          | bool b => cases hx; cases hn
          | expr t => cases hx
        intro e
        have := congrArg BitVec.toNat e
        rw [BitVec.toNat_ofNat, Nat.mod_eq_of_lt (by omega)] at this
        change number = 2 ^ 127 at this
        omega
    · change Reports (if negative = true then _ else _)
      rw [if_neg hn]
      exact .ite (.err _) (.ok _)
  · exact .ok _

theorem checkCanHold_reports {a : Option BitsAttr} {w : Nat} {i : IntTy}
    (h : a.bind BitsAttr.bits ≠ none ∨ sizeOf? (.int i) = some w) : Reports (checkCanHold m a w (.int i)) := by
  unfold checkCanHold
  split
  · exact .ok _
  · change Reports (if _ then _ else _)
    split
    · split
      · exact .err _
      · rename_i hlt _ hb
        rcases h with h | h
        · exact absurd hb h
        · cases h; omega
    · exact .ok _

theorem fieldOffset_reports {A : BitfieldAttr} {w size : Nat} {prev : List PField} (hs : A.ty.bitSize m = .ok size)
    (hl : widths prev + w < 2 ^ 32) : Reports (fieldOffset m A w prev) := by
  unfold fieldOffset
  rw [sumBits_of_lt (by omega), hs]
  change Reports (match A.args.order with | .lsb => _ | .msb => _)
  split
  · exact .ok _
  · rw [addU32_of_lt hl]
    change Reports (if _ then _ else _)
    split
    · rename_i h
      refine .liftR ?_
      rw [subU32_ok m (by omega)]
      change ∃ a, subU32 m (size - w) (widths prev) = .ok a
      exact ⟨_, subU32_ok m (by omega)⟩
    · exact .err _

theorem fieldAccess_reports (a : Option BitsAttr) (r : Bool) : Reports (fieldAccess a r) := by
  unfold fieldAccess
  split
  · exact .ok _
  · exact .ite (.err _) (.ite (.ok _) (.ok _))

theorem ok_bind {α β : Type} (a : α) (f : α → P β) : ((.ok a : P α) >>= f) = f a := rfl
theorem err_bind {α β : Type} (e : Reject) (f : α → P β) : ((.error e : P α) >>= f) = .error e := rfl

theorem err_ne {α : Type} {e : Reject} {a : α} (h : (.error e : P α) = .ok a) : False := by cases h

theorem parseField_reports {A : BitfieldAttr} {size n : Nat} {v : Vis} {d : FieldDecl} {prev : List PField}
    (h : d.Reportable) (hn : d.AtMost n) (hs : A.ty.bitSize m = .ok size) (hl : widths prev + n < 2 ^ 32) :
    Reports (parseField m A v d prev) ∧ ∀ p, parseField m A v d prev = .ok p → p.field.bits ≤ n := by
  unfold parseField
  cases ha : getBitsAttribute d with
  | error e => exact ⟨fun e' he => by cases he; exact getBitsAttribute_reports h _ ha, nofun⟩
  | ok a =>
    rw [ok_bind]
    split
    · rename_i hi
      cases a with
      | none => cases hi
      | some a =>
        obtain ⟨ts, h1, h2, -⟩ := (getBitsAttribute_says ha).tokens
        obtain ⟨t, ht⟩ := Known.dataType (h.ignore ts h1 (h2 hi))
        unfold parseIgnored
        rw [ht]
        exact ⟨.ok _, fun p hp => by cases hp; exact Nat.zero_le _⟩
    · cases ht : d.ty.dataType with
      | error e =>
        have hf : fieldDataType d = .error (.error (fieldTypeError e)) := by simp only [fieldDataType, ht]
        rw [hf, err_bind]
        exact ⟨.err _, fun p hp => (err_ne hp).elim⟩
      | ok t =>
        have hf : fieldDataType d = .ok t := by simp only [fieldDataType, ht]
        rw [hf, ok_bind]
        obtain ⟨hb, hw⟩ := getFieldBits_reports (m := m) hn (by omega) ha ht
        refine ⟨hb.bind' fun w hw' => ?_, fun p hp => ?_⟩
        · obtain ⟨hle, hor⟩ := hw w hw'
          refine (checkBits_reports ?_).bind fun _ => ?_
          · rcases hor with hor | ⟨_, hor⟩
            · exact .inl (by rw [hor]; nofun)
            · exact .inr (sizeOf?_pos ht hor)
          · have hrest : Reports (fieldOffset m A w prev >>= fun offset => fieldAccess a (isReservedName d.name) >>=
                fun access => (.ok {
                  field := ⟨d.name, t, w, offset, access, isReservedName d.name,
                    (a.bind fun a => a.args.default).map (·.2)⟩
                  vis := fieldVis v d.vis
                  ignored := false } : P PField)) :=
              (fieldOffset_reports hs (by omega)).bind fun _ => (fieldAccess_reports _ _).bind fun _ => .ok _
            cases t with
            | int i =>
              refine Reports.bind (x := checkDefault m a w (.int i)) (checkDefault_reports fun x v hx => ?_) fun _ =>
                Reports.bind (x := checkCanHold m a w (.int i)) (checkCanHold_reports ?_) fun _ => hrest
              · cases a with
                | none => cases hx
                | some a =>
                  obtain ⟨ts, h1, -, h2, h3⟩ := (getBitsAttribute_says ha).tokens
                  obtain ⟨text, hd, hc⟩ := h2 x v hx
                  refine ⟨?_, constExpr_readable (h.default ts h1 text hd) hc⟩
                  · rcases hor with hor | ⟨_, hor⟩
                    · obtain ⟨b, hb⟩ := (h3 w hor).2
                      obtain ⟨name, c, hp⟩ := path_of_int ht
                      exact h.width name c hp ts h1 text hd w b hb
                    · cases hor; exact i.bitSize_le
              · rcases hor with hor | ⟨_, hor⟩
                · exact .inl (by rw [hor]; nofun)
                · exact .inr hor
            | array k => exact hrest
            | custom c => exact hrest
        · obtain ⟨w, hw', hp⟩ := bind_ok.mp hp
          obtain ⟨hle, -⟩ := hw w hw'
          obtain ⟨_, _, hp⟩ := bind_ok.mp hp
          have hrest : ∀ x : PField, (fieldOffset m A w prev >>= fun offset => fieldAccess a (isReservedName d.name) >>=
                fun access => (.ok {
                  field := ⟨d.name, t, w, offset, access, isReservedName d.name,
                    (a.bind fun a => a.args.default).map (·.2)⟩
                  vis := fieldVis v d.vis
                  ignored := false } : P PField)) = .ok x → x.field.bits ≤ n := by
            intro x hx
            obtain ⟨_, _, hx⟩ := bind_ok.mp hx
            obtain ⟨_, _, hx⟩ := bind_ok.mp hx
            cases hx
            exact hle
          cases t with
          | int i =>
            obtain ⟨_, _, hp⟩ := (bind_ok (x := checkDefault m a w (.int i))).mp hp
            obtain ⟨_, _, hp⟩ := (bind_ok (x := checkCanHold m a w (.int i))).mp hp
            exact hrest p hp
          | array k => exact hrest p hp
          | custom c => exact hrest p hp

theorem parseFields_reports {A : BitfieldAttr} {size : Nat} {v : Vis} (hs : A.ty.bitSize m = .ok size) :
    ∀ {ds : List FieldDecl} {ws : List Nat} (seen : List String) (fs is : List PField), Each FieldDecl.AtMost ds ws →
    (∀ d ∈ ds, d.Reportable) → widths fs + ws.sum < 2 ^ 32 →
    Reports (parseFields m A v ds seen fs is) ∧ ∀ x, parseFields m A v ds seen fs is = .ok x → widths x.1 < 2 ^ 32
  | [], _, _, fs, is, _, _, hl => ⟨.ok _, fun x hx => by cases hx; exact Nat.lt_of_le_of_lt (Nat.le_add_right _ _) hl⟩
  | d :: ds, _, seen, fs, is, .cons (b := n) (bs := ws) hd hds, hr, hl => by
    rw [List.sum_cons] at hl
    unfold parseFields
    split
    · exact ⟨.err _, nofun⟩
    · obtain ⟨h1, h2⟩ := parseField_reports (m := m) (v := v) (prev := fs) (hr d (by simp)) hd hs (by omega)
      cases hp : parseField m A v d fs with
      | error e => exact ⟨fun e' he => by cases he; exact h1 _ hp, nofun⟩
      | ok p =>
        have hle := h2 p hp
        have hr' : ∀ d ∈ ds, d.Reportable := fun d hd => hr d (by simp [hd])
        rw [ok_bind]
        dsimp only
        by_cases hi : p.ignored = true
        · simp only [hi, if_true]
          exact parseFields_reports hs _ fs _ hds hr' (by omega)
        · simp only [hi, if_false, Bool.false_eq_true]
          exact parseFields_reports hs _ (fs ++ [p]) _ hds hr' (by simp [widths] at hl ⊢; omega)

theorem checkFit_reports {A : BitfieldAttr} {size : Nat} {fs : List PField} (hs : A.ty.bitSize m = .ok size)
    (hl : widths fs < 2 ^ 32) : Reports (checkFit m A fs) := by
  unfold checkFit
  rw [sumBits_of_lt hl, hs]
  exact .ite (.err _) (.ite (.err _) (.ok _))

theorem parseBitfieldAttr_size {attr : AttrInput} {A : BitfieldAttr} (h : parseBitfieldAttr cfg attr = .ok A)
    (hl : ∀ t, attr.ty = some t → t.atMost < 2 ^ 32) :
    (∃ size, A.ty.bitSize m = .ok size) ∧ parseBitfieldArgs cfg attr.rest = .ok A.args := by
  unfold parseBitfieldAttr at h
  split at h
  · cases h
  · rename_i t ht
    split at h
    · cases h
    · cases h
    · rename_i d hc hd
      split at h
      · obtain ⟨r, hr, h⟩ := bind_ok.mp h
        cases h
        refine ⟨?_, hr⟩
        obtain ⟨s, hs⟩ : ∃ s, sizeOf? d = some s := by
          cases d with
          | int i => exact ⟨_, rfl⟩
          | array k => exact ⟨_, rfl⟩
          | custom c => exact absurd rfl (hc c)
        exact ⟨s, bitSize_of_lt hs (Nat.lt_of_le_of_lt (atMost_size hd hs) (hl t ht))⟩
      · cases h

theorem parseBitfield_reports {attr : AttrInput} {d : StructDecl} (h : Reportable attr d) :
    Reports (parseBitfield m cfg attr d) := by
  unfold parseBitfield
  refine (parseBitfieldAttr_reports cfg attr).bind' fun A hA => ?_
  obtain ⟨⟨size, hs⟩, -⟩ := parseBitfieldAttr_size (m := m) hA h.storage
  split
  · exact .err _
  · rename_i ds hds
    obtain ⟨ws, hws, hl⟩ := h.total ds hds
    obtain ⟨h1, h2⟩ := parseFields_reports (m := m) (v := d.vis) hs [] [] [] hws (h.field ds hds) (by simpa using hl)
    refine h1.bind' fun x hx => ?_
    exact (checkFit_reports hs (h2 x hx)).bind fun _ => .ok _

theorem foldlM_panic {ws : List Arg} : ∀ {r x : BitfieldArgs}, ws.foldlM applyArg r = .ok x → x.forcePanic = true →
    r.forcePanic = true ∨ ∃ w ∈ ws, w.key = "force_panic" ∧ w.text = boolText true := by
  induction ws with
  | nil => intro r x h hx; cases h; exact .inl hx
  | cons w ws ih =>
    intro r x h hx
    rw [List.foldlM_cons] at h
    obtain ⟨y, hy, h⟩ := bind_ok.mp h
    rcases ih h hx with h1 | ⟨w', hw', h1⟩
    · obtain ⟨a, ha⟩ := applyArg_ok hy
      rw [applyArg_spelled a w ha r] at hy
      obtain ⟨r1, hr1, hf⟩ := applyArg_arg r a
      rw [hr1] at hy
      cases hy
      have hf := hf.flag .forcePanic
      change y.forcePanic = (stated [a] .forcePanic).getD r.forcePanic at hf
      rw [h1] at hf
      cases hst : stated [a] .forcePanic with
      | none => rw [hst] at hf; exact .inl hf.symm
      | some b =>
        rw [hst] at hf
        obtain rfl : true = b := hf
        refine .inr ⟨w, by simp, ?_⟩
        cases a with
        | flag k b => cases k <;> first | cases hst; done | (cases hst; exact ha)
        | order o => cases hst
        | endian k e => cases hst
    · exact .inr ⟨w', by simp [hw'], h1⟩

theorem expandBitfield_reports {attr : AttrInput} {d : StructDecl} (h : Reportable attr d) :
    Reports (expandBitfield m cfg attr d) := by
  unfold expandBitfield
  refine (parseBitfield_reports h).bind' fun p hp => ?_
  split
  · rename_i hf
    exfalso
    unfold parseBitfield at hp
    obtain ⟨A, hA, hp⟩ := bind_ok.mp hp
    obtain ⟨-, hargs⟩ := parseBitfieldAttr_size (m := m) hA h.storage
    have hfp : A.args.forcePanic = true := by
      split at hp
      · cases hp
      · obtain ⟨x, _, hp⟩ := bind_ok.mp hp
        obtain ⟨_, _, hp⟩ := bind_ok.mp hp
        cases hp
        exact hf
    unfold parseBitfieldArgs at hargs
    obtain ⟨ws, hws, hargs⟩ := bind_ok.mp hargs
    rcases foldlM_panic hargs hfp with h1 | ⟨w, hw, hk, ht⟩
    · cases h1
    · obtain ⟨⟨n, t, hn, e⟩, -⟩ := parseAttributeArguments_ok hws
      refine h.panic ⟨w.value, ?_⟩
      rw [e, ← hk, ← ht]
      exact (listed_infix t w hw).trans (List.suffix_append _ _).isInfix
  · rw [if_pos (idents_of_plain h.names hp)]
    exact .ok _

/-! ## Sizes of structs that may be written so -/

theorem spelled_atMost {t : TypeSpec} {y : SynType} (h : t.Spelled y) {n : Nat} (hn : t.size = some n) : n ≤ y.atMost := by
  cases t with
  | custom name c => cases hn
  | int i =>
    cases hn
    cases y <;> first | cases h; done | exact i.bitSize_le
  | bytes len =>
    cases hn
    cases y with
    | path => cases h
    | other => cases h
    | array e l =>
      cases e <;> cases l <;> first | cases h; done | skip
      exact Nat.le_of_eq (by rw [h.2]; rfl)

theorem bits_spelled_mem {b : BitsSpec} {ts : List Tok} (h : b.Spelled ts) {n : Nat} (hn : b.width = some n) :
    .int n false ∈ ts := by
  unfold BitsSpec.Spelled at h
  rw [hn] at h
  obtain ⟨lead, rest, -, rfl, -⟩ := h
  simp

theorem spelled_width {f : FieldSpec} {d : FieldDecl} (h : f.Spelled d) {n : Nat} (hn : d.AtMost n) : f.width ≤ n := by
  unfold FieldSpec.width
  split
  · exact Nat.zero_le _
  · cases hw : f.width? with
    | none => exact Nat.zero_le _
    | some w =>
      change w ≤ n
      unfold FieldSpec.width? at hw
      split at hw
      · rename_i k hk
        cases hw
        have hb := h.bits
        split at hb
        · rw [hb] at hk; cases hk
        · rename_i a as' ha
          obtain ⟨ts, b, hts, hfb, hs⟩ := hb
          rw [hfb] at hk
          have hm : a ∈ d.attrs := (List.mem_filter.mp (ha ▸ List.mem_cons_self)).1
          exact hn.attrs ts ⟨a, hm, hts⟩ w false (bits_spelled_mem hs hk)
      · exact Nat.le_trans (spelled_atMost h.ty hw) hn.type

theorem spelled_widths : ∀ {fs : List FieldSpec} {ds : List FieldDecl} {ws : List Nat}, Each FieldSpec.Spelled fs ds →
    Each FieldDecl.AtMost ds ws → (fs.map FieldSpec.width).sum ≤ ws.sum
  | _, _, _, .nil, .nil => Nat.le_refl _
  | _, _, _, .cons h hs, .cons k ks => by
    have h1 := spelled_width h k
    have h2 := spelled_widths hs ks
    simp only [List.map_cons, List.sum_cons]
    omega

theorem Reportable.small {attr : AttrInput} {d : StructDecl} (h : Reportable attr d) {s : StructSpec}
    {as : List BitfieldArgSpec} (hs : s.Spelled as attr d) : s.Small := by
  obtain ⟨ds, hds, hf⟩ := hs.fields
  obtain ⟨ws, hws, hl⟩ := h.total ds hds
  refine ⟨Nat.lt_of_le_of_lt (spelled_widths hf hws) hl, fun n hn => ?_⟩
  obtain ⟨t, ht, hty⟩ := hs.storage
  exact Nat.lt_of_le_of_lt (spelled_atMost hty hn) (h.storage t ht)

/-! ## Enums -/

theorem applyBitflagArg_reports {w : Arg} (hk : w.key ∈ bitflagKeys) (r : BitflagArgs) : Reports (applyBitflagArg r w) := by
  simp only [bitflagKeys, List.mem_cons, List.not_mem_nil, or_false] at hk
  unfold applyBitflagArg
  rcases hk with hk | hk | hk <;> simp only [hk, String.reduceEq, if_true, if_false]
  · exact (endianOf_reports _).bind fun _ => .ok _
  · exact (endianOf_reports _).bind fun _ => .ok _
  · exact (parseBool_reports _).bind fun _ => .ok _

theorem parseBitflagArgs_reports (ts : List Tok) : Reports (parseBitflagArgs cfg ts) := by
  unfold parseBitflagArgs
  cases hp : parseAttributeArguments bitflagKeys ts with
  | error e =>
    intro e' he
    cases he
    exact argsLoop_err _ _ _ hp
  | ok ws => exact foldlM_reports _ fun w hw r => applyBitflagArg_reports ((parseAttributeArguments_ok hp).2 w hw) r

theorem parseBitflagAttr_reports (a : AttrInput) : Reports (parseBitflagAttr cfg a) := by
  unfold parseBitflagAttr
  split
  · exact .err _
  · split
    · exact .err _
    · exact .err _
    · exact .ite ((parseBitflagArgs_reports _).bind fun _ => .ok _) (.err _)

theorem parseVariants_reports : ∀ {vs : List VariantDecl},
    (∀ v ∈ vs, ∀ text n, v.discriminant = some (text, n) → ReadableText text) →
    Reports (parseVariants vs)
  | [], _ => .ok _
  | v :: vs, h => by
    have h1 : Reports (parseVariant v) := by
      unfold parseVariant
      split
      · exact .err _
      · rename_i text n hv
        have hr := constExpr_reports (h v (by simp) text n hv)
        intro e he
        split at he
        · rename_i hp; cases he; exact hr _ hp
        · cases he
    have h2 := parseVariants_reports (vs := vs) fun v hv => h v (by simp [hv])
    unfold parseVariants
    intro e he
    split at he
    · rename_i hp; cases he; exact h1 _ hp
    · split at he
      · rename_i hp; cases he; exact h2 _ hp
      · cases he

theorem expandBitflag_reports {attr : AttrInput} {d : EnumDecl}
    (h : d.Reportable) :
    Reports (expandBitflag cfg attr d) := by
  unfold expandBitflag parseBitflag
  refine Reports.bind' (((parseBitflagAttr_reports _).bind fun A => (parseVariants_reports h).bind fun vs =>
    Reports.bind (?_ : Reports (checkBase vs)) fun _ => .ok _)) fun F hF => ?_
  · unfold checkBase
    exact .ite (.err _) (.ite (.ok _) (.err _))
  · obtain ⟨A, hA, hF⟩ := bind_ok.mp hF
    obtain ⟨vs, hvs, hF⟩ := bind_ok.mp hF
    obtain ⟨_, hc, hF⟩ := bind_ok.mp hF
    cases hF
    obtain ⟨w, hw, hm⟩ := matchCases_ok (F := ⟨A.ty, d.vis, vs, A.args⟩) hc
    unfold generateBitflag
    rw [hm]
    exact .ok _

end Bf
