import Verif.SpecMessage
import Verif.Lemmas.Report

/-!
# Lemmas: the texts of compile errors
-/

namespace Bf

/-- If `x` is an error with a message, then the message satisfies `Q`. -/
def Tells {α : Type} (Q : String → Prop) (x : P α) : Prop := ∀ msg, x = .error (.error msg) → Q msg

namespace Tells

variable {α β : Type} {Q : String → Prop}

theorem ok (a : α) : Tells Q (.ok a : P α) := by intro m h; cases h
theorem panic (p : Panic) : Tells Q (.error (.panic p) : P α) := by intro m h; cases h
theorem err {s : String} (h : Q s) : Tells Q (.error (.error s) : P α) := by intro m h'; cases h'; exact h

theorem bind {x : P α} {f : α → P β} (h : Tells Q x) (hf : ∀ a, x = .ok a → Tells Q (f a)) : Tells Q (x >>= f) := by
  intro m hm
  cases x with
  | error e => cases hm; exact h _ rfl
  | ok a => exact hf a rfl m hm

theorem ite {c : Prop} [Decidable c] {x y : P α} (h1 : c → Tells Q x) (h2 : ¬ c → Tells Q y) :
    Tells Q (if c then x else y) := by split; exact h1 ‹_›; exact h2 ‹_›

theorem liftR (x : R α) : Tells Q (Bf.liftR x) := by cases x; exact panic _; exact ok _

end Tells

/-! ## Arguments -/

theorem keysList_bitfield : keysList bitfieldKeys = ArgKeys.bitfield.listed := by decide +kernel
theorem keysList_bits : keysList bitsKeys = ArgKeys.bits.listed := by decide +kernel
theorem keysList_bitflag : keysList bitflagKeys = ArgKeys.bitflag.listed := by decide +kernel

/-- The model's keys are those of the specification. -/
structure ArgKeys.Of (K : ArgKeys) (keys : List String) : Prop where
  mem : ∀ k, k ∈ keys ↔ k ∈ K.all
  listed : keysList keys = K.listed

theorem of_bitfield : ArgKeys.bitfield.Of bitfieldKeys where
  mem k := by
    simp only [bitfieldKeys, ArgKeys.all, ArgKeys.bitfield, List.mem_append, List.mem_cons, List.not_mem_nil, or_false]
    constructor <;> intro h <;> grind
  listed := keysList_bitfield

theorem of_bits : ArgKeys.bits.Of bitsKeys where
  mem k := by
    simp only [bitsKeys, ArgKeys.all, ArgKeys.bits, List.mem_append, List.mem_cons, List.not_mem_nil, or_false]
    constructor <;> intro h <;> grind
  listed := keysList_bits

theorem of_bitflag : ArgKeys.bitflag.Of bitflagKeys where
  mem k := by
    simp only [bitflagKeys, ArgKeys.all, ArgKeys.bitflag, List.mem_append, List.mem_cons, List.not_mem_nil, or_false]
    constructor <;> intro h <;> grind
  listed := keysList_bitflag

theorem argsLoop_tells {K : ArgKeys} {keys : List String} (hK : K.Of keys) (ts : List Tok) :
    ∀ pre, pre = [] ∨ [.comma] <:+ pre → Tells (ArgsWrong K (pre ++ ts)) (argsLoop keys ts) := by
  fun_induction argsLoop keys ts with
  | case1 => intro pre _; exact .ok _
  | case2 k ts hk =>
    intro pre _
    rw [hK.listed]
    exact .err (.unknown k (by simp) (fun h => hk ((hK.mem k).mpr h)))
  | case3 k hk t v rest as hr ih => intro pre _; exact .ok _
  | case4 k hk t v rest e hr ih =>
    intro pre _ msg h
    cases h
    have := ih (pre ++ [.ident k, .eq, .expr t v, .comma]) (.inr ⟨pre ++ [.ident k, .eq, .expr t v], by simp⟩) msg hr
    simpa using this
  | case5 => intro pre _; exact .ok _
  | case6 k hk t v x h1 h2 =>
    intro pre _
    have hk := (hK.mem k).mp (Decidable.not_not.mp hk)
    cases x with
    | nil => exact absurd rfl (h2)
    | cons y ys => exact .err (.comma k t v y hk ⟨pre, ys, by simp⟩ (fun e => h1 ys (by rw [e])))
  | case7 k hk =>
    intro pre _
    exact .err (.nothing k ((hK.mem k).mp (Decidable.not_not.mp hk)) ⟨pre, rfl⟩)
  | case8 k hk x h1 h2 h3 h4 =>
    intro pre _
    have hk := (hK.mem k).mp (Decidable.not_not.mp hk)
    cases x with
    | nil => exact absurd rfl h4
    | cons y ys =>
      exact .err (.value k y hk ⟨pre, ys, by simp⟩ fun t v e => h3 t v ys (by rw [e]))
  | case9 k ts hk h1 h2 h3 h4 h5 =>
    intro pre _
    have hk := (hK.mem k).mp (Decidable.not_not.mp hk)
    refine .err (.equals k hk ?_)
    cases ts with
    | nil => exact .inl ⟨pre, rfl⟩
    | cons y ys => exact .inr ⟨y, fun e => h5 ys (by rw [e]), pre, ys, by simp⟩
  | case10 ts h1 h2 =>
    intro pre hp
    cases ts with
    | nil => exact absurd rfl h1
    | cons y ys =>
      refine .err (.ident y ?_ fun k e => h2 k ys (by rw [e]))
      rcases hp with rfl | ⟨q, rfl⟩
      · exact .inl ⟨ys, rfl⟩
      · exact .inr ⟨q, ys, by simp⟩

theorem foldlM_tells {Q : String → Prop} {β : Type} {step : β → Arg → P β} : ∀ {ws : List Arg} (r : β),
    (∀ w ∈ ws, ∀ r, Tells Q (step r w)) → Tells Q (ws.foldlM step r)
  | [], r, _ => .ok r
  | w :: ws, r, h => by
    rw [List.foldlM_cons]
    exact (h w (by simp) r).bind fun r _ => foldlM_tells r fun w hw => h w (by simp [hw])

theorem args_tells {β : Type} {K : ArgKeys} {keys : List String} (hK : K.Of keys) {ts : List Tok}
    {step : β → Arg → P β} (r : β)
    (h : ∀ w, Given ts w.key w.text → ∀ r, Tells (ArgsWrong K ts) (step r w)) :
    Tells (ArgsWrong K ts) (parseAttributeArguments keys ts >>= fun as => as.foldlM step r) := by
  refine Tells.bind ?_ fun ws hws => foldlM_tells r fun w hw => h w ?_
  · unfold parseAttributeArguments
    unfold skipComma
    split
    · exact argsLoop_tells hK _ [.comma] (.inr ⟨[], rfl⟩)
    · exact argsLoop_tells hK _ [] (.inl rfl)
  · obtain ⟨⟨n, t, -, rfl⟩, -⟩ := parseAttributeArguments_ok hws
    obtain ⟨a, b, e⟩ := listed_infix t w hw
    exact ⟨w.value, commas n ++ a, b, by rw [← e]; simp [Arg.tokens]⟩

theorem parseBool_tells {K : ArgKeys} {ts : List Tok} {w : Arg} (hg : Given ts w.key w.text) (hk : w.key ∈ K.bool) :
    Tells (ArgsWrong K ts) (parseBool w) :=
  .ite (fun _ => .ok _) fun h1 => .ite (fun _ => .ok _) fun h2 =>
    .err (.bool w.key w.text hg hk fun b => by cases b; exact h2; exact h1)

theorem endianOf_tells {K : ArgKeys} {ts : List Tok} {w : Arg} (hg : Given ts w.key w.text) (hk : w.key ∈ K.endian) :
    Tells (ArgsWrong K ts) (endianOf w.text) :=
  .ite (fun _ => .ok _) fun h1 => .ite (fun _ => .ok _) fun h2 =>
    .err (.endian w.key w.text hg hk fun b => by cases b; exact h1; exact h2)

theorem orderOf_tells {K : ArgKeys} {ts : List Tok} {w : Arg} (hg : Given ts w.key w.text) (hk : w.key ∈ K.order) :
    Tells (ArgsWrong K ts) (orderOf w.text) :=
  .ite (fun _ => .ok _) fun h1 => .ite (fun _ => .ok _) fun h2 =>
    .err (.order w.key w.text hg hk fun b => by cases b; exact h1; exact h2)

theorem accessOf_tells {K : ArgKeys} {ts : List Tok} {w : Arg} (hg : Given ts w.key w.text) (hk : w.key ∈ K.access) :
    Tells (ArgsWrong K ts) (accessOf w.text) :=
  .ite (fun _ => .ok _) fun h1 => .ite (fun _ => .ok _) fun h2 => .ite (fun _ => .ok _) fun h3 =>
    .ite (fun _ => .ok _) fun h4 =>
    .err (.access w.key w.text hg hk fun b => by
      cases b
      · exact h1
      · exact h2
      · exact h3
      · exact h4)

theorem parseBitfieldArgs_tells (cfg : String → Bool) (ts : List Tok) :
    Tells (ArgsWrong .bitfield ts) (parseBitfieldArgs cfg ts) := by
  refine args_tells of_bitfield _ fun w hg r => ?_
  unfold applyArg
  iterate 19
    refine .ite (fun hk => Tells.bind ?_ fun _ _ => .ok _) fun _ => ?_
    · first
        | exact orderOf_tells hg (by rw [hk]; decide)
        | exact endianOf_tells hg (by rw [hk]; decide)
        | exact parseBool_tells hg (by rw [hk]; decide)
  exact .panic _

theorem parseBitflagArgs_tells (cfg : String → Bool) (ts : List Tok) :
    Tells (ArgsWrong .bitflag ts) (parseBitflagArgs cfg ts) := by
  refine args_tells of_bitflag _ fun w hg r => ?_
  unfold applyBitflagArg
  iterate 3
    refine .ite (fun hk => Tells.bind ?_ fun _ _ => .ok _) fun _ => ?_
    · first
        | exact endianOf_tells hg (by rw [hk]; decide)
        | exact parseBool_tells hg (by rw [hk]; decide)
  exact .panic _

theorem checkFloat_tells {ts : List Tok} {w : Arg} (hg : Given ts w.key w.text) (hk : w.key ∈ ArgKeys.bits.expr) :
    Tells (ArgsWrong .bits ts) (checkFloat (normalize w.text)) := by
  refine .ite (fun _ => .ok _) fun _ => .ite (fun h => .err (.float w.key w.text hg hk ?_)) fun _ => .ok _
  change '.' ∈ normalize w.text ∨ _ <:+ normalize w.text ∨ _ <:+ normalize w.text
  simpa [floatIdentifiers] using h

theorem constExpr_tells {Q : String → Prop} {text : List Char} (h : Tells Q (checkFloat (normalize text))) :
    Tells Q (constExpr text) := by
  unfold constExpr
  have hr : ∀ r s, Tells Q (radixOrPanic r s) := by
    intro r s
    unfold radixOrPanic
    split
    · exact .ok _
    · exact .panic _
  have hi : ∀ s, Tells Q (parseInteger s) := by
    intro s
    have hh : ∀ s, Tells Q (parseIntegerHelper s) := fun s =>
      .ite (fun _ => hr _ _) fun _ => .ite (fun _ => hr _ _) fun _ => .ite (fun _ => hr _ _) fun _ => .ok _
    unfold parseInteger
    intro msg hm
    dsimp only at hm
    split at hm
    · cases hm
    · cases hm
    · rename_i e he
      cases hm
      exact hh _ _ he
  intro msg hm
  dsimp only at hm
  split at hm
  · rename_i e he
    cases hm
    exact h _ he
  · split at hm
    · cases hm
    · split at hm
      · cases hm
      · split at hm
        · cases hm
        · cases hm
        · rename_i e he
          cases hm
          exact hi _ _ he

theorem parseBitsArgs_tells (ts : List Tok) : Tells (ArgsWrong .bits ts) (parseBitsArgs ts) := by
  refine args_tells of_bits _ fun w hg r => ?_
  unfold applyBitsArg
  refine .ite (fun hk => Tells.bind (accessOf_tells hg (by rw [hk]; decide)) fun _ _ => .ok _) fun _ => ?_
  refine .ite (fun hk => Tells.bind (parseBool_tells hg (by rw [hk]; decide)) fun _ _ => .ok _) fun _ => ?_
  refine .ite (fun hk => Tells.bind (constExpr_tells (checkFloat_tells hg (by rw [hk]; decide))) fun _ _ => .ok _)
    fun _ => .panic _

theorem skipComma_pre (ts : List Tok) : ∃ pre, ts = pre ++ skipComma ts ∧ ∀ x ∈ pre, x = .comma ∨ ∃ n, x = .int n false := by
  unfold skipComma
  split
  · exact ⟨[.comma], rfl, by simp⟩
  · exact ⟨[], rfl, by simp⟩

theorem parseBitsAttr_tells (ts : List Tok) : Tells (BitsWrong ts) (parseBitsAttr ts) := by
  obtain ⟨pre, hp, hpre⟩ := skipComma_pre ts
  have hmem : ∀ x, x ∈ skipComma ts → x ∈ ts := fun x hx => by rw [hp]; simp [hx]
  have hin : Tells (BitsWrong ts) (parseBits ts) := by
    unfold parseBits
    split
    · rename_i h
      exact .err (.minus (hmem _ (by rw [h]; simp)))
    · rename_i n suffix rest h
      refine .ite (fun hs => .err (.suffix n (hmem _ (by rw [h, hs]; simp)))) fun hs => .ite (fun _ => .ok _) fun hn =>
        .err (.big n (hmem _ ?_) (by omega))
      rw [h]
      cases suffix
      · simp
      · exact absurd rfl hs
    · exact .ok _
  refine hin.bind fun x hx => ?_
  obtain ⟨bits, rest⟩ := x
  refine Tells.bind (x := parseBitsArgs rest) ?_ fun _ _ => .ok _
  have : ∃ q, ts = q ++ rest ∧ ∀ x ∈ q, x = .comma ∨ ∃ n, x = .int n false := by
    unfold parseBits at hx
    split at hx
    · cases hx
    · rename_i n suffix r h
      split at hx
      · cases hx
      · rename_i hs
        split at hx
        · cases hx
          obtain ⟨q, hq, hq'⟩ := skipComma_pre r
          refine ⟨pre ++ [.int n suffix] ++ q, ?_, ?_⟩
          · rw [hp, h, List.append_assoc, List.append_assoc]
            congr 1
            rw [List.cons_append, List.nil_append, ← hq]
          · intro x hx
            simp only [List.mem_append, List.mem_cons, List.not_mem_nil, or_false] at hx
            rcases hx with (hx | rfl) | hx
            · exact hpre x hx
            · cases suffix
              · exact .inr ⟨n, rfl⟩
              · exact absurd rfl hs
            · exact hq' x hx
        · cases hx
    · cases hx
      exact ⟨pre, hp, hpre⟩
  obtain ⟨q, hq, hq'⟩ := this
  exact fun msg hm => .argument q rest hq hq' (parseBitsArgs_tells rest msg hm)

/-! ## One field -/

theorem FieldSpec.attr_bits (f : FieldSpec) : f.attr.bind BitsAttr.bits = f.bits.bind BitsSpec.width := by
  unfold FieldSpec.attr
  cases f.bits <;> rfl

theorem FieldSpec.attr_ignored (f : FieldSpec) : isIgnored f.attr = f.ignored := f.info_ignored

theorem FieldSpec.attr_default (f : FieldSpec) :
    f.attr.bind (fun a => a.args.default) = f.default?.map fun dv => (dv.1.const, dv.2) := f.info_default

/-- The message about a width of more than 32 bits. -/
def bigCount (n : Nat) : String := s!"Bit count '{n}' is too big, the maximum amount of bits is '4,294,967,295.'"

theorem getBitsAttribute_big {f : FieldSpec} {n : Nat} (h : f.bits.bind BitsSpec.width = some n) (hn : ¬ n < 2 ^ 32) :
    getBitsAttribute f.decl = .error (.error (bigCount n)) := by
  cases hb : f.bits with
  | none => rw [hb] at h; cases h
  | some b =>
    rw [hb] at h
    have h : b.width = some n := h
    have e : getBitsAttribute f.decl = (parseBitsAttr b.tokens).map some := by
      simp only [getBitsAttribute, FieldSpec.decl, hb, List.find?, Bool.and_self]
    rw [e]
    simp only [parseBitsAttr, BitsSpec.tokens, h, parseBits, skipComma, Bool.false_eq_true, if_false, if_neg hn]
    rfl

theorem toString_neg {k : Nat} (h : 0 < k) : toString (-(k : Int)) = "-" ++ toString k := by
  obtain ⟨j, rfl⟩ : ∃ j, k = j + 1 := ⟨k - 1, by omega⟩
  rfl

theorem fieldDataType_tells {f : FieldSpec} : Tells f.Wrong (fieldDataType f.decl) := by
  have e : fieldDataType f.decl = match f.ty.syntax.dataType with
      | .ok t => .ok t
      | .error e => .error (.error (fieldTypeError e)) := rfl
  rw [e]
  cases hty : f.ty with
  | int t => rw [show (TypeSpec.int t).syntax.dataType = .ok (.int t) from dataType_syntax.mpr rfl]; exact .ok _
  | bytes n =>
    simp only [TypeSpec.syntax, SynType.dataType]
    by_cases h : n < 2 ^ 32
    · by_cases h0 : n = 0
      · subst h0
        exact .err (.empty hty)
      · simp [h, h0]
        exact .ok _
    · simp only [h]
      exact .err (.long n hty (by omega))
  | custom name c =>
    simp only [TypeSpec.syntax, SynType.dataType]
    by_cases h1 : name = "f32" ∨ name = "f64"
    · simp only [h1]
      exact .err (.float name c hty (by simpa using h1))
    · by_cases h2 : name = "usize" ∨ name = "isize"
      · have h3 : name ≠ "u8" ∧ name ≠ "u16" ∧ name ≠ "u32" ∧ name ≠ "u64" ∧ name ≠ "u128" := by
          rcases h2 with rfl | rfl <;> decide
        simp only [h1, h2, h3, if_false, if_true]
        exact .err (.pointer name c hty (by simpa using h2))
      · simp only [h1, h2, if_false]
        intro msg hm
        repeat' split at hm
        all_goals first | cases hm | skip
        all_goals rename_i he; repeat' split at he
        all_goals cases he

theorem checkDefault_tells {m : Mode} {f : FieldSpec} (hr : f.Readable) {t : IntTy} {w : Nat} (ht : f.ty = .int t)
    (hw : f.width? = some w) (h1 : 1 ≤ w) (hm : m = .checked ∨ (f.default? ≠ none → w ≤ 128)) :
    Tells f.Wrong (checkDefault m f.attr w (.int t)) := by
  unfold checkDefault
  have hlit : f.info.LiteralsOK := FieldSpec.info_literals hr
  have e : f.info.attr.bind (fun a => a.args.default) = f.attr.bind (fun a => a.args.default) := rfl
  unfold Info.LiteralsOK at hlit
  rw [e] at hlit
  have hdef := f.attr_default
  cases hd : f.attr.bind (fun a => a.args.default) with
  | none => exact .ok _
  | some x =>
    obtain ⟨x, v⟩ := x
    cases x with
    | path => exact .ok _
    | literal number negative =>
      obtain ⟨hn1, hn2⟩ := hlit _ _ _ hd
      have hne : f.default? ≠ none := by
        intro h
        rw [hd, h] at hdef
        cases hdef
      by_cases h128 : w ≤ 128
      · obtain ⟨lo, hi, hmm, hhi, hlo⟩ := minMax_toNat (m := m) h1 h128
        -- the default is an integer literal or a `bool`
        have hcase : (∃ l v, f.default? = some (.int l, v) ∧ l.magnitude = number ∧ l.neg = negative) ∨
            number ≤ 1 ∧ negative = false := by
          rw [hd] at hdef
          cases hx : f.default? with
          | none => exact absurd hx hne
          | some y =>
            obtain ⟨D, v'⟩ := y
            rw [hx] at hdef
            cases D with
            | int l =>
              simp only [Option.map_some, DefaultSpec.const, Option.some.injEq, Prod.mk.injEq, ConstExpr.literal.injEq] at hdef
              exact .inl ⟨l, v', rfl, hdef.1.1.symm, hdef.1.2.symm⟩
            | bool b =>
              simp only [Option.map_some, DefaultSpec.const, Option.some.injEq, Prod.mk.injEq, ConstExpr.literal.injEq] at hdef
              refine .inr ⟨?_, hdef.1.2⟩
              rw [hdef.1.1]
              cases b <;> decide
            | expr tx => simp [DefaultSpec.const] at hdef
        refine .ite (fun hu => ?_) fun hu => ?_
        · simp only [Bool.and_eq_true, DataType.unsigned] at hu
          rcases hcase with ⟨l, v', hl, -, hneg⟩ | ⟨-, h⟩
          · exact .err (.negative t l v' ht hu.1 hl (by rw [hneg]; exact hu.2))
          · rw [h] at hu; cases hu.2
        · rw [hmm]
          dsimp only
          refine .ite (fun hneg => .ite (fun _ => .panic _) fun hmin => .ite (fun hlt => ?_) fun _ => .ok _) fun hneg =>
            .ite (fun hlt => ?_) fun _ => .ok _
          · rcases hcase with ⟨l, v', hl, hmag, hn⟩ | ⟨-, h⟩
            · have hu : t.unsigned = false := by
                simp only [Bool.and_eq_true, DataType.unsigned] at hu
                cases ht' : t.unsigned
                · rfl
                · exact absurd ⟨ht', hneg⟩ hu
              have h127 := hn2 hneg
              rw [BitVec.slt_iff_toInt_lt, hlo, toInt_neg_ofNat (by omega)] at hlt
              have := FieldSpec.Wrong.below t l v' w ht hu hl (by rw [hn]; exact hneg) hw (by rw [hmag]; omega)
              rw [hmag] at this
              rw [hlo, toString_neg (Nat.two_pow_pos _)]
              refine .err ?_
              have e : " bits (-" = " bits (" ++ "-" := by decide +kernel
              rw [e] at this
              simpa only [String.append_assoc, toString, ToString.toString] using this
            · rw [h] at hneg; cases hneg
          · rcases hcase with ⟨l, v', hl, hmag, hn⟩ | ⟨h, -⟩
            · rw [BitVec.lt_def, hhi, BitVec.toNat_ofNat, Nat.mod_eq_of_lt hn1] at hlt
              have := FieldSpec.Wrong.above t l v' w ht hl (by rw [hn]; simpa using hneg) hw (by rw [hmag]; omega)
              rw [hmag] at this
              rw [hhi]
              exact .err this
            · rw [BitVec.lt_def, hhi, BitVec.toNat_ofNat, Nat.mod_eq_of_lt hn1] at hlt
              have : 2 ^ 1 ≤ 2 ^ w := Nat.pow_le_pow_right (by decide) h1
              omega
      · rcases hm with rfl | hm
        · refine .ite (fun hu => ?_) fun hu => ?_
          · simp only [Bool.and_eq_true, DataType.unsigned] at hu
            rw [hd] at hdef
            cases hx : f.default? with
            | none => exact absurd hx hne
            | some y =>
              obtain ⟨D, v'⟩ := y
              rw [hx] at hdef
              cases D with
              | int l =>
                simp only [Option.map_some, DefaultSpec.const, Option.some.injEq, Prod.mk.injEq, ConstExpr.literal.injEq] at hdef
                exact .err (.negative t l v' ht hu.1 hx (by rw [← hdef.1.2]; exact hu.2))
              | bool b => simp [DefaultSpec.const] at hdef; rw [hdef.1.2] at hu; cases hu.2
              | expr tx => simp [DefaultSpec.const] at hdef
          · have : minMaxForBits .checked w = .error .shift := by
              simp only [minMaxForBits]
              rw [if_neg (by omega)]
              have e1 : shl .checked 1#128 w = .error .shift := by simp only [shl]; rw [if_neg (by omega)]
              rw [e1]
              rfl
            rw [this]
            exact .panic _
        · exact absurd (hm hne) h128

/-- The message about fields that do not fit, counted from the first field on. -/
def overText (total size : Nat) : String :=
  s!"The total bits of the fields ({total} bits) exceeds the bit size of the bitfield type ({size} bits)."

/-- What a message about a field may say. -/
def FieldSpec.Told (f : FieldSpec) (ty : DataType) (before : Nat) (msg : String) : Prop :=
  (∃ n, f.bits.bind BitsSpec.width = some n ∧ 4294967295 < n ∧ msg = bigCount n) ∨
  f.ignored = false ∧ f.Wrong msg ∨
  ∃ size, sizeOf? ty = some size ∧ size < before + f.width ∧ msg = overText (before + f.width) size

/-- The width is that of the specification. -/
theorem FieldSpec.width_read {m : Mode} {f : FieldSpec} {w : Nat} (hi : f.ignored = false)
    (hm : m = .checked ∨ f.width < 2 ^ 32) (hw : getFieldBits m f.attr f.ty.data = .ok w) : f.width? = some w := by
  have : widthOf f.info.attr f.info.ty = some w := by
    rcases hm with rfl | hm
    · exact getFieldBits_checked hw
    · cases hx : widthOf f.info.attr f.info.ty with
      | none =>
        simp only [widthOf, Option.or_eq_none_iff] at hx
        have h1 : f.attr.bind BitsAttr.bits = none := hx.1
        have h2 : sizeOf? f.ty.data = none := hx.2
        simp only [getFieldBits, h1] at hw
        cases hty : f.ty with
        | int t => rw [hty] at h2; cases h2
        | bytes n => rw [hty] at h2; cases h2
        | custom name c => rw [hty] at hw; cases hw
      | some w' =>
        have e := hx
        rw [FieldSpec.info_widthOf] at e
        have : f.width = w' := by simp [FieldSpec.width, hi, e]
        have := (getFieldBits_of_lt (m := m) hx (by omega)).symm.trans hw
        cases this
        rfl
  rwa [FieldSpec.info_widthOf] at this

theorem parseField_tells {m : Mode} {A : BitfieldAttr} {v : Vis} {f : FieldSpec} {prev : List PField}
    (hp : f.ty.Proper) (hr : f.Readable) (hd : m = .checked ∨ ∀ t, f.ty = .int t → f.default? ≠ none → f.width ≤ 128)
    (hm : m = .checked ∨ widths prev + f.width < 2 ^ 32 ∧ ∀ n, sizeOf? A.ty = some n → n < 2 ^ 32)
    (hA : sizeOf? A.ty ≠ none) :
    Tells (f.Told A.ty (widths prev)) (parseField m A v f.decl prev) := by
  by_cases hbig : ∃ n, f.bits.bind BitsSpec.width = some n ∧ ¬ n < 2 ^ 32
  · obtain ⟨n, hn, hb⟩ := hbig
    unfold parseField
    rw [getBitsAttribute_big hn hb]
    exact .err (.inl ⟨n, hn, by omega, rfl⟩)
  have hsmall : ∀ n, f.bits.bind BitsSpec.width = some n → n < 2 ^ 32 := fun n hn =>
    Decidable.byContradiction fun h => hbig ⟨n, hn, h⟩
  unfold parseField
  rw [getBitsAttribute_decl constExpr_text hr hsmall, ok_bind]
  refine .ite (fun _ => ?_) fun hi => ?_
  · unfold parseIgnored
    split
    · exact .panic _
    · exact .ok _
  have hi : f.ignored = false := by rw [← f.attr_ignored]; simpa using hi
  have lift : ∀ {α : Type} {x : P α}, Tells f.Wrong x → Tells (f.Told A.ty (widths prev)) x :=
    fun h msg hx => .inr (.inl ⟨hi, h msg hx⟩)
  refine (lift fieldDataType_tells).bind fun t ht => ?_
  have ht' : f.ty.syntax.dataType = .ok t := by
    unfold fieldDataType at ht
    split at ht
    · rename_i h; cases ht; exact h
    · cases ht
  have hsup := supported_of_dataType hp ht'
  rw [dataType_supported hsup] at ht'
  obtain rfl : f.ty.data = t := Except.ok.inj ht'
  refine Tells.bind (lift ?_) fun w hw => ?_
  · -- the width
    unfold getFieldBits
    rw [f.attr_bits]
    cases hb : f.bits.bind BitsSpec.width with
    | some n => exact .ok _
    | none =>
      cases hty : f.ty with
      | int t => exact .liftR _
      | bytes n => exact .liftR _
      | custom name c => exact .err (.unsized name c hty hb)
  have hwid := FieldSpec.width_read hi (hm.imp id fun h => by omega) hw
  have hwidth : f.width = w := by simp [FieldSpec.width, hi, hwid]
  refine Tells.bind (lift ?_) fun _ hb => ?_
  · unfold checkBits
    refine .ite (fun h0 => ?_) fun _ => .ok _
    rw [f.attr_bits]
    cases hb : f.bits.bind BitsSpec.width with
    | some n =>
      refine .err (.zero ?_)
      have : f.width? = some n := by simp [FieldSpec.width?, hb]
      rw [hwid] at this
      cases this
      rw [hb, h0]
    | none => exact .panic _
  have h1 : 1 ≤ w := by
    unfold checkBits at hb
    split at hb
    · split at hb <;> cases hb
    · omega
  have hrest : Tells (f.Told A.ty (widths prev)) (fieldOffset m A w prev >>= fun offset =>
      fieldAccess f.attr (isReservedName f.decl.name) >>= fun access => (.ok {
        field := ⟨f.decl.name, f.ty.data, w, offset, access, isReservedName f.decl.name,
          (f.attr.bind fun a => a.args.default).map (·.2)⟩
        vis := fieldVis v f.decl.vis
        ignored := false } : P PField)) := by
    refine Tells.bind ?_ fun _ _ => Tells.bind (lift ?_) fun _ _ => .ok _
    · unfold fieldOffset
      refine Tells.bind (.liftR _) fun offset ho => ?_
      split
      · exact .ok _
      · refine Tells.bind (.liftR _) fun size hs => Tells.bind (.liftR _) fun total htot => ?_
        have hs := liftR_ok.mp hs
        have ho := liftR_ok.mp ho
        have htot := liftR_ok.mp htot
        have key : sizeOf? A.ty = some size ∧ total = widths prev + w := by
          rcases hm with rfl | ⟨hm1, hm2⟩
          · have h1 := sumBits_checked ho
            rw [sumBits_of_lt h1] at ho
            cases ho
            exact ⟨(bitSize_checked hs).1, (addU32_checked htot).2⟩
          · rw [sumBits_of_lt (by omega)] at ho
            cases ho
            rw [addU32_of_lt (by omega)] at htot
            cases htot
            cases hz : sizeOf? A.ty with
            | none => exact absurd hz hA
            | some n =>
              rw [bitSize_of_lt hz (hm2 n hz)] at hs
              cases hs
              exact ⟨rfl, rfl⟩
        refine .ite (fun _ => .liftR _) fun hlt => .err (.inr (.inr ⟨size, key.1, ?_, ?_⟩))
        · rw [hwidth, ← key.2]; omega
        · rw [hwidth, ← key.2]; rfl
    · unfold fieldAccess
      split
      · exact .ok _
      · rename_i a ha
        refine .ite (fun h => .err (.access ?_ ?_)) fun _ => .ite (fun _ => .ok _) fun _ => .ok _
        · have := f.info_reserved
          rw [← this]
          simp only [Bool.and_eq_true] at h
          exact h.2
        · have := f.info_states
          rw [← this]
          have e : f.info.attr = some a := ha
          rw [e]
          simp only [Bool.and_eq_true] at h
          exact h.1
  cases hty : f.ty with
  | int t =>
    rw [hty] at hrest
    refine Tells.bind (x := checkDefault m f.attr w (.int t)) (lift ?_) fun _ _ =>
      Tells.bind (x := checkCanHold m f.attr w (.int t)) (lift ?_) fun _ _ => hrest
    · exact checkDefault_tells hr hty hwid h1 (by rw [← hwidth]; exact hd.imp id fun h => h t hty)
    · unfold checkCanHold
      cases ha : f.attr with
      | none => exact .ok _
      | some a =>
        refine Tells.bind (.liftR _) fun size hs => .ite (fun hlt => ?_) fun _ => .ok _
        cases hs
        cases hab : a.bits with
        | none => exact .panic _
        | some n =>
          have hbits : f.bits.bind BitsSpec.width = some n := by
            rw [← f.attr_bits, ha]; exact hab
          have : f.width? = some n := by simp [FieldSpec.width?, hbits]
          rw [hwid] at this
          cases this
          have e : (DataType.int t).text = t.name := by cases t <;> rfl
          simp only [e]
          exact .err (.narrow t w hty hbits hlt)
  | bytes n => rw [hty] at hrest; exact hrest
  | custom name c => rw [hty] at hrest; exact hrest

/-! ## Structs -/

/-- What a parsed field has of its declaration. -/
theorem parseField_result {m : Mode} {A : BitfieldAttr} {v : Vis} {f : FieldSpec} {prev : List PField} {p : PField}
    (hp : f.ty.Proper) (hr : f.Readable) (hm : m = .checked ∨ f.width < 2 ^ 32)
    (h : parseField m A v f.decl prev = .ok p) :
    p.ignored = f.ignored ∧ (f.ignored = false → p.field.bits = f.width) ∧
      (p.field.reserved = true ↔ f.reserved = true ∧ f.ignored = false) := by
  obtain ⟨i, hi, hreads⟩ := parseField_reads h
  obtain ⟨rfl, -, -⟩ := FieldSpec.reads hp hr hreads hi
  obtain ⟨a, ha, h⟩ := parseField_ok.mp h
  rw [show getBitsAttribute f.decl = .ok f.attr from hreads.1] at ha
  cases ha
  rw [f.attr_ignored] at h
  cases hi : f.ignored with
  | true =>
    rw [hi, if_pos rfl] at h
    unfold parseIgnored at h
    rw [show f.decl.ty.dataType = .ok f.ty.data from hreads.2] at h
    cases h
    exact ⟨rfl, nofun, by simp⟩
  | false =>
    rw [hi, if_neg (by simp)] at h
    obtain ⟨t, w, o, c, ht, hw, -, -, -, -, rfl⟩ := h
    rw [show f.decl.ty.dataType = .ok f.ty.data from hreads.2] at ht
    cases ht
    have hwid := FieldSpec.width_read hi hm hw
    refine ⟨rfl, fun _ => ?_, ?_⟩
    · show w = f.width
      simp [FieldSpec.width, hi, hwid]
    · have := f.info_reserved
      simp only [and_true]
      rw [← this]
      rfl

variable {m : Mode} {s : StructSpec}

/-- The messages about the fields. -/
inductive StructSpec.FieldsWrong (s : StructSpec) : String → Prop where
  | field (f : FieldSpec) {msg : String} : f ∈ s.fields → f.ignored = false → f.Wrong msg → FieldsWrong s msg
  | count (f : FieldSpec) (n : Nat) : f ∈ s.fields → f.bits.bind BitsSpec.width = some n → 4294967295 < n →
      FieldsWrong s (bigCount n)
  | name (pre mid post : List FieldSpec) (f g : FieldSpec) : s.fields = pre ++ f :: (mid ++ g :: post) →
      f.name = g.name → (f.reserved = true → f.ignored = true) →
      FieldsWrong s s!"Duplicate field name '{g.name}' found, all fields must have unique names."
  | over (pre post : List FieldSpec) (size : Nat) : s.fields = pre ++ post → s.storage.size = some size →
      size < (pre.map FieldSpec.width).sum →
      FieldsWrong s (overText ((pre.map FieldSpec.width).sum) size)

theorem StructSpec.FieldsWrong.wrong {s : StructSpec} {msg : String} (h : s.FieldsWrong msg) : s.Wrong msg := by
  cases h with
  | field f h1 h2 h3 => exact .field f h1 h2 h3
  | count f n h1 h2 h3 => exact .count f n h1 h2 h3
  | name pre mid post f g h1 h2 h3 => exact .name pre mid post f g h1 h2 h3
  | over pre post size h1 h2 h3 => exact .over pre post size h1 h2 h3

theorem parseFields_tells {A : BitfieldAttr} {v : Vis} (hr : s.Readable) (hA : A.ty = s.storage.data)
    (hsz : s.storage.size ≠ none) (hm : m = .checked ∨ s.Small)
    (hd : m = .checked ∨ ∀ f ∈ s.fields, ∀ t, f.ty = .int t → f.default? ≠ none → f.width ≤ 128) :
    ∀ (fs don : List FieldSpec) (seen : List String) (prev ign : List PField), s.fields = don ++ fs →
      widths prev = (don.map FieldSpec.width).sum →
      (∀ x ∈ seen, ∃ f ∈ don, f.name = x ∧ (f.reserved = true → f.ignored = true)) →
      Tells s.FieldsWrong (parseFields m A v (fs.map FieldSpec.decl) seen prev ign) ∧
      ∀ r, parseFields m A v (fs.map FieldSpec.decl) seen prev ign = .ok r →
        widths r.1 = (s.fields.map FieldSpec.width).sum := by
  have hsA : sizeOf? A.ty = s.storage.size := by rw [hA, size_data]
  intro fs
  induction fs with
  | nil =>
    intro don seen prev ign e hw _
    refine ⟨.ok _, fun r h => ?_⟩
    cases h
    rw [e, List.append_nil]
    exact hw
  | cons f fs ih =>
    intro don seen prev ign e hw hseen
    have hf : f ∈ s.fields := by rw [e]; simp
    have hp := hr.ty f hf
    have hrf := hr.default f hf
    have hsum : (s.fields.map FieldSpec.width).sum =
        (don.map FieldSpec.width).sum + f.width + (fs.map FieldSpec.width).sum := by
      rw [e]; simp; omega
    have hmf : m = .checked ∨ widths prev + f.width < 2 ^ 32 ∧ ∀ n, sizeOf? A.ty = some n → n < 2 ^ 32 :=
      hm.imp id fun h => ⟨by have := h.widths; omega, fun n hn => h.storage n (by rw [← hsA]; exact hn)⟩
    have hfield : Tells s.FieldsWrong (parseField m A v f.decl prev) := by
      intro msg hmsg
      rcases parseField_tells hp hrf (hd.imp id fun h => h f hf) hmf (by rw [hsA]; exact hsz) msg hmsg with
        ⟨n, hn, hb, rfl⟩ | ⟨hi, hW⟩ | ⟨size, hs, hlt, rfl⟩
      · exact .count f n hf hn hb
      · exact .field f hf hi hW
      · rw [hw] at hlt ⊢
        have e2 : (don.map FieldSpec.width).sum + f.width = ((don ++ [f]).map FieldSpec.width).sum := by simp
        rw [e2] at hlt ⊢
        exact .over (don ++ [f]) fs size (by rw [e]; simp) (by rw [← hsA]; exact hs) hlt
    rw [List.map_cons]
    unfold parseFields
    by_cases hs : seen.contains f.decl.name = true
    · rw [if_pos hs]
      refine ⟨.err ?_, nofun⟩
      obtain ⟨g, hg, hn, hres⟩ := hseen _ (by simpa using hs)
      obtain ⟨pre, mid, rfl⟩ := List.append_of_mem hg
      exact .name pre mid fs g f (by rw [e]; simp) hn hres
    · rw [if_neg hs]
      cases hpf : parseField m A v f.decl prev with
      | error er => exact ⟨fun msg hx => by cases hx; exact hfield msg hpf, nofun⟩
      | ok p =>
        rw [ok_bind]
        dsimp only
        obtain ⟨h1, h2, h3⟩ := parseField_result hp hrf (hmf.imp id fun h => by omega) hpf
        have hseen' : ∀ x ∈ (if p.field.reserved = true then seen else f.decl.name :: seen),
            ∃ g ∈ don ++ [f], g.name = x ∧ (g.reserved = true → g.ignored = true) := by
          intro x hx
          by_cases hres : p.field.reserved = true
          · rw [if_pos hres] at hx
            obtain ⟨g, hg, h⟩ := hseen x hx
            exact ⟨g, by simp [hg], h⟩
          · rw [if_neg hres] at hx
            rcases List.mem_cons.mp hx with rfl | hx
            · refine ⟨f, by simp, rfl, fun hfr => ?_⟩
              cases hfi : f.ignored with
              | true => rfl
              | false => exact absurd (h3.mpr ⟨hfr, hfi⟩) hres
            · obtain ⟨g, hg, h⟩ := hseen x hx
              exact ⟨g, by simp [hg], h⟩
        by_cases hi : p.ignored = true
        · rw [if_pos hi]
          have hfi : f.ignored = true := by rw [← h1]; exact hi
          have h0 : f.width = 0 := by simp [FieldSpec.width, hfi]
          exact ih (don ++ [f]) _ prev _ (by rw [e]; simp) (by rw [hw]; simp [h0]) hseen'
        · rw [if_neg hi]
          have hfi : f.ignored = false := by rw [← h1]; simpa using hi
          refine ih (don ++ [f]) _ _ _ (by rw [e]; simp) ?_ hseen'
          rw [widths_append, widths_cons, hw, h2 hfi]
          simp [widths]

theorem syntax_text (t : TypeSpec) : t.syntax.text = t.text := by
  cases t with
  | int t => rfl
  | bytes n => rfl
  | custom name c => rfl

theorem data_text {t : TypeSpec} (h : t.size ≠ none) : t.data.text = t.text := by
  cases t with
  | int t => cases t <;> rfl
  | bytes n => rfl
  | custom name c => exact absurd rfl h

/-- What is known of the attribute when it has been read. -/
theorem parseBitfieldAttr_tells (hr : s.Readable) (cfg : String → Bool) :
    Tells s.Wrong (parseBitfieldAttr cfg s.attr) ∧
    ∀ A, parseBitfieldAttr cfg s.attr = .ok A → A.ty = s.storage.data ∧ s.storage.size ≠ none := by
  have e : parseBitfieldAttr cfg s.attr =
      match s.storage.syntax.dataType with
      | .error e => .error (.error (storageError e))
      | .ok (.custom _) => .error (.error (unsupportedStorage s.storage.syntax))
      | .ok d =>
        if d.unsigned then do return { ty := d, args := ← parseBitfieldArgs cfg s.rest }
        else .error (.error (unsupportedStorage s.storage.syntax)) := rfl
  rw [e]
  have hun : ∀ (_ : ∀ t, s.storage = .int t → t.unsigned = false) (_ : ∀ n, s.storage ≠ .bytes n),
      s.Wrong (unsupportedStorage s.storage.syntax) := by
    intro h1 h2
    unfold unsupportedStorage
    rw [syntax_text]
    exact .storage h1 h2
  generalize unsupportedStorage s.storage.syntax = U at hun ⊢
  clear e
  have hargs : ∀ d, Tells s.Wrong (do return { ty := d, args := ← parseBitfieldArgs cfg s.rest } : P BitfieldAttr) ∧
      ∀ A, (do return { ty := d, args := ← parseBitfieldArgs cfg s.rest } : P BitfieldAttr) = .ok A → A.ty = d := by
    intro d
    refine ⟨Tells.bind (fun msg h => .argument (parseBitfieldArgs_tells cfg s.rest msg h)) fun _ _ => .ok _, fun A h => ?_⟩
    obtain ⟨a, -, h⟩ := bind_ok.mp h
    cases h
    rfl
  cases hst : s.storage with
  | int t =>
    rw [hst] at hun
    rw [show (TypeSpec.int t).syntax.dataType = .ok (.int t) from dataType_syntax.mpr rfl]
    dsimp only
    by_cases hu : (DataType.int t).unsigned = true
    · rw [if_pos hu]
      exact ⟨(hargs _).1, fun A h => ⟨(hargs _).2 A h, by simp [TypeSpec.size]⟩⟩
    · rw [if_neg hu]
      have hW : s.Wrong U := hun (fun t' h => by cases h; exact eq_false_of_ne_true hu) nofun
      exact ⟨.err hW, fun _ h => (err_ne h).elim⟩
  | bytes n =>
    have e : (TypeSpec.bytes n).syntax.dataType =
        if n < 2 ^ 32 then (if n = 0 then .error .zeroArrayLength else .ok (.array n))
        else .error .arrayLengthTooLarge := rfl
    rw [e]
    by_cases h : n < 2 ^ 32
    · by_cases h0 : n = 0
      · rw [if_pos h, if_pos h0]
        exact ⟨.err (.empty (by rw [hst, h0])), fun _ h => (err_ne h).elim⟩
      · rw [if_pos h, if_neg h0]
        exact ⟨(hargs _).1, fun A h => ⟨(hargs _).2 A h, nofun⟩⟩
    · rw [if_neg h]
      exact ⟨.err (.long n hst (by omega)), fun _ h => (err_ne h).elim⟩
  | custom name c =>
    rw [hst] at hun
    have hpr := hr.storage
    rw [hst] at hpr
    by_cases hb : name ∈ builtinNames
    · have hn : name ∈ ["f32", "f64"] ∨ name ∈ ["usize", "isize"] := by
        have hpr : name ∉ _ := hpr
        simp only [builtinNames, List.mem_cons, List.not_mem_nil, or_false, not_or] at hb hpr ⊢
        grind
      rcases hn with hn | hn
      · have : (TypeSpec.custom name c).syntax.dataType = .error .unexpectedFloat := by
          simp only [TypeSpec.syntax, SynType.dataType]
          rw [if_pos (by simpa using hn)]
        rw [this]
        exact ⟨.err (.float name c hst hn), fun _ h => (err_ne h).elim⟩
      · have : (TypeSpec.custom name c).syntax.dataType = .error .sizeType := by
          simp only [List.mem_cons, List.not_mem_nil, or_false] at hn
          rcases hn with rfl | rfl <;> rfl
        rw [this]
        exact ⟨.err (.pointer name c hst hn), fun _ h => (err_ne h).elim⟩
    · rw [show (TypeSpec.custom name c).syntax.dataType = .ok (.custom c) from dataType_custom hb]
      exact ⟨.err (hun nofun nofun), fun _ h => (err_ne h).elim⟩

theorem parseBitfield_tells (hr : s.Readable) (hm : m = .checked ∨ s.Small)
    (hd : m = .checked ∨ ∀ f ∈ s.fields, ∀ t, f.ty = .int t → f.default? ≠ none → f.width ≤ 128) (cfg : String → Bool) :
    Tells s.Wrong (parseBitfield m cfg s.attr s.decl) := by
  obtain ⟨h1, h2⟩ := parseBitfieldAttr_tells hr cfg
  unfold parseBitfield
  refine h1.bind fun A hA => ?_
  obtain ⟨hty, hsz⟩ := h2 A hA
  obtain ⟨h3, h4⟩ := parseFields_tells (v := s.decl.vis) hr hty hsz hm hd s.fields [] [] [] [] rfl rfl (by simp)
  change Tells s.Wrong (parseFields m A s.decl.vis (s.fields.map FieldSpec.decl) [] [] [] >>= _)
  refine Tells.bind (fun msg h => (h3 msg h).wrong) fun r hrr => ?_
  have htot := h4 r hrr
  refine Tells.bind ?_ fun _ _ => .ok _
  unfold checkFit
  refine Tells.bind (.liftR _) fun total ht => Tells.bind (.liftR _) fun size hs => ?_
  have ht := liftR_ok.mp ht
  have hs := liftR_ok.mp hs
  have key : s.storage.size = some size ∧ total = (s.fields.map FieldSpec.width).sum := by
    rw [← htot]
    rw [hty] at hs
    rcases hm with rfl | hm
    · have hlt := sumBits_checked ht
      rw [sumBits_of_lt hlt] at ht
      cases ht
      exact ⟨by rw [← size_data]; exact (bitSize_checked hs).1, rfl⟩
    · rw [sumBits_of_lt (by rw [htot]; exact hm.widths)] at ht
      cases ht
      cases hz : s.storage.size with
      | none => exact absurd hz hsz
      | some n =>
        rw [bitSize_of_lt (by rw [size_data]; exact hz) (hm.storage n hz)] at hs
        cases hs
        exact ⟨rfl, rfl⟩
  obtain ⟨k1, rfl⟩ := key
  rw [hty, data_text hsz]
  refine .ite (fun h => .err (.greater size k1 h)) fun _ => .ite (fun h => .err (.less size k1 h)) fun _ => .ok _

theorem FieldSpec.Legal.not_wrong {f : FieldSpec} (hl : f.Legal) (hi : f.ignored = false) {msg : String} :
    ¬ f.Wrong msg := by
  intro h
  have hw : ∀ w, f.width? = some w → f.width = w := by intro w h; simp [FieldSpec.width, hi, h]
  have hb : ∀ n, f.bits.bind BitsSpec.width = some n → f.width? = some n := by
    intro n h; simp [FieldSpec.width?, h]
  have hty := hl.ty
  obtain ⟨w, h1, h2⟩ := hl.width hi
  cases h with
  | count n h1 h2 => have := hl.stated n h1; omega
  | float name c h1 h2 =>
    rw [h1] at hty
    refine hty ?_
    simp only [List.mem_cons, List.not_mem_nil, or_false] at h2
    rcases h2 with rfl | rfl <;> simp [builtinNames]
  | pointer name c h1 h2 =>
    rw [h1] at hty
    refine hty ?_
    simp only [List.mem_cons, List.not_mem_nil, or_false] at h2
    rcases h2 with rfl | rfl <;> simp [builtinNames]
  | empty h1 => rw [h1] at hty; exact absurd hty.1 (by decide)
  | long n h1 h2 => rw [h1] at hty; have := hty.2; omega
  | «unsized» name c h3 h4 => rw [FieldSpec.width?, h4, h3] at h1; cases h1
  | zero h3 =>
    rw [hb 0 h3] at h1
    cases h1
    omega
  | negative t l v h3 h4 h5 h6 =>
    have := hl.default hi t h3 _ _ h5
    simp only [DefaultSpec.Fits, h6, if_true] at this
    rw [h4] at this
    exact absurd this.1 (by decide)
  | below t l v w' h3 h4 h5 h6 h7 h8 =>
    have := hl.default hi t h3 _ _ h5
    simp only [DefaultSpec.Fits, h6, if_true] at this
    rw [hw _ h7] at this
    omega
  | above t l v w' h3 h5 h6 h7 h8 =>
    have := hl.default hi t h3 _ _ h5
    simp only [DefaultSpec.Fits, h6] at this
    rw [hw _ h7] at this
    simp only [Bool.false_eq_true, if_false] at this
    omega
  | narrow t w' h3 h4 h5 =>
    have := hl.holds hi t h3
    rw [hw _ (hb _ h4)] at this
    omega
  | access h3 h4 => rw [hl.access hi h3] at h4; cases h4

theorem StructSpec.attr_read {cfg : String → Bool} {size : Nat} {args : BitfieldArgs}
    (hst : ∀ t, s.storage = .int t → t.unsigned = true) (hsz : s.storage.size = some size) (hlt : size < 2 ^ 32)
    (h0 : 0 < size) (hargs : parseBitfieldArgs cfg s.rest = .ok args) :
    parseBitfieldAttr cfg s.attr = .ok ⟨s.storage.data, args⟩ := by
  have hsup : s.storage.Supported := by
    cases h : s.storage with
    | int t => trivial
    | bytes n =>
      rw [h] at hsz
      simp only [TypeSpec.size, Option.some.injEq] at hsz
      exact ⟨by omega, by omega⟩
    | custom name c => rw [h] at hsz; cases hsz
  have hu : s.storage.data.unsigned = true := by
    cases h : s.storage with
    | int t => exact hst t h
    | bytes n => rfl
    | custom name c => rw [h] at hsz; cases hsz
  have hs : sizeOf? s.storage.data = some size := by rw [size_data, hsz]
  exact parseBitfieldAttr_ok.mpr ⟨s.storage.syntax, rfl, dataType_supported hsup, ⟨size, hs⟩, hu, hargs⟩

/-- All that is asked of a legal struct except that the widths sum up to the size of the storage. -/
theorem parseBitfield_less {cfg : String → Bool} {size : Nat} {args : BitfieldArgs} (hr : s.Readable)
    (hst : ∀ t, s.storage = .int t → t.unsigned = true) (hsz : s.storage.size = some size) (hlt : size < 2 ^ 32)
    (h0 : 0 < size) (hargs : parseBitfieldArgs cfg s.rest = .ok args) (hf : ∀ f ∈ s.fields, f.Legal)
    (hn : s.fields.Pairwise fun f g => (f.reserved = false ∨ f.ignored = true) → f.name ≠ g.name)
    (ht : (s.fields.map FieldSpec.width).sum < size) :
    parseBitfield m cfg s.attr s.decl = .error (.error s!"The total number of bits of the fields \
      '{(s.fields.map FieldSpec.width).sum} bits' is less than the number of bits of the bitfield '{s.storage.text} \
      ({size} bits)', you can add a reserved field (prefixed with '_') to fill the remaining \
      '{size - (s.fields.map FieldSpec.width).sum} bits'.") := by
  have hs : sizeOf? s.storage.data = some size := by rw [size_data, hsz]
  have hA := StructSpec.attr_read hst hsz hlt h0 hargs
  have hd : s.decl.fields = some ((s.fields.map FieldSpec.info).map Info.decl) := by
    simp only [StructSpec.decl, List.map_map]
    rfl
  have hfs := parseFields_complete (m := m) (A := ⟨s.storage.data, args⟩) (sv := s.decl.vis) hs hlt
    (s.fields.map FieldSpec.info) [] [] []
    (by
      intro i hi
      obtain ⟨f, hf', rfl⟩ := List.mem_map.mp hi
      exact FieldSpec.info_reads (hr.default f hf') (hf f hf').ty (hf f hf').stated)
    (by
      intro i hi
      obtain ⟨f, hf', rfl⟩ := List.mem_map.mp hi
      have hL := hf f hf'
      exact (Info.passes_iff (FieldSpec.info_literals (hr.default f hf'))).mpr
        ((FieldSpec.info_legal hL.ty hL.stated).mpr hL))
    (by simp) ((namesOK_infos _).mpr hn) (by rw [totalWidth_infos]; simp [widths]; omega)
  unfold parseBitfield
  rw [hA, ok_bind, hd]
  dsimp only
  rw [hfs, ok_bind]
  dsimp only
  have hw : widths ([] ++ build args.order size s.decl.vis (s.fields.map FieldSpec.info) (widths [])) =
      (s.fields.map FieldSpec.width).sum := by
    rw [List.nil_append, widths_build, totalWidth_infos]
  unfold checkFit
  rw [sumBits_of_lt (by rw [hw]; omega), bitSize_of_lt hs hlt, hw]
  rw [show Bf.liftR (.ok (s.fields.map FieldSpec.width).sum : R Nat) = .ok _ from rfl, ok_bind,
    show Bf.liftR (.ok size : R Nat) = .ok _ from rfl, ok_bind, if_neg (by omega), if_pos ht,
    data_text (by rw [hsz]; nofun)]
  rfl

theorem parseBitfield_greater {cfg : String → Bool} {size : Nat} {args : BitfieldArgs} (hr : s.Readable)
    (hst : ∀ t, s.storage = .int t → t.unsigned = true) (hsz : s.storage.size = some size) (h0 : 0 < size)
    (hlt : size < 2 ^ 32) (hm : m = .checked ∨ s.Small) (hargs : parseBitfieldArgs cfg s.rest = .ok args) (hf : ∀ f ∈ s.fields, f.Legal)
    (hn : s.fields.Pairwise fun f g => (f.reserved = false ∨ f.ignored = true) → f.name ≠ g.name)
    (ht : size < (s.fields.map FieldSpec.width).sum) {msg : String}
    (h : parseBitfield m cfg s.attr s.decl = .error (.error msg)) :
    (∃ pre post, s.fields = pre ++ post ∧ size < (pre.map FieldSpec.width).sum ∧
      msg = overText (pre.map FieldSpec.width).sum size) ∨
    msg = s!"The total number of bits of the fields '{(s.fields.map FieldSpec.width).sum} bits' is greater than the \
      number of bits of the bitfield '{s.storage.text} ({size} bits)'." := by
  have hd : m = .checked ∨ ∀ f ∈ s.fields, ∀ t, f.ty = .int t → f.default? ≠ none → f.width ≤ 128 := by
    refine .inr fun f hf' t hty _ => ?_
    cases hi : f.ignored with
    | true => simp [FieldSpec.width, hi]
    | false => exact Nat.le_trans ((hf f hf').holds hi t hty) t.bitSize_le
  rcases parseFields_tells (m := m) (A := ⟨s.storage.data, args⟩) (v := s.decl.vis) hr rfl (by rw [hsz]; nofun) hm hd
    s.fields [] [] [] [] rfl rfl (by simp) with ⟨h3, h4⟩
  unfold parseBitfield at h
  rw [StructSpec.attr_read hst hsz hlt h0 hargs, ok_bind] at h
  change (parseFields m ⟨s.storage.data, args⟩ s.decl.vis (s.fields.map FieldSpec.decl) [] [] [] >>= _) = _ at h
  cases hp : parseFields m ⟨s.storage.data, args⟩ s.decl.vis (s.fields.map FieldSpec.decl) [] [] [] with
  | error e =>
    rw [hp] at h
    cases h
    refine .inl ?_
    cases h3 msg hp with
    | field f hf' hi hw => exact absurd hw ((hf f hf').not_wrong hi)
    | count f n hf' h1 h2 => have := (hf f hf').stated n h1; omega
    | name pre mid post f g h1 h2 h3 =>
      rw [h1] at hn
      have hn := (List.pairwise_append.mp hn).2.1
      refine absurd h2 ((List.pairwise_cons.mp hn).1 g (by simp) ?_)
      cases hres : f.reserved with
      | false => exact .inl rfl
      | true => exact .inr (h3 hres)
    | over pre post size' h1 h2 h3 =>
      rw [hsz] at h2
      cases h2
      exact ⟨pre, post, h1, h3, rfl⟩
  | ok r =>
    refine .inr ?_
    rw [hp, ok_bind] at h
    have htot := h4 r hp
    have hs : sizeOf? s.storage.data = some size := by rw [size_data, hsz]
    dsimp only at h
    unfold checkFit at h
    rw [bitSize_of_lt hs hlt] at h
    cases hsum : sumBits m r.1 with
    | error e => rw [hsum] at h; cases h
    | ok n =>
      have : widths r.1 < 2 ^ 32 := by
        rcases hm with rfl | hm
        · exact sumBits_checked hsum
        · rw [htot]; exact hm.widths
      rw [sumBits_of_lt this, htot] at hsum
      cases hsum
      rw [sumBits_of_lt this, htot, show Bf.liftR (.ok (s.fields.map FieldSpec.width).sum : R Nat) = .ok _ from rfl,
        ok_bind, show Bf.liftR (.ok size : R Nat) = .ok _ from rfl, ok_bind, if_pos ht,
        data_text (by rw [hsz]; nofun)] at h
      cases h
      rfl

/-! ## Enums -/

theorem expandBitflag_tells {s : EnumSpec} (hr : s.Readable) (cfg : String → Bool) (ts : List Tok) :
    Tells (s.Wrong ts) (expandBitflag cfg ⟨some s.ty.syntax, ts⟩ s.decl) := by
  have hattr : Tells (s.Wrong ts) (parseBitflagAttr cfg ⟨some s.ty.syntax, ts⟩) := by
    have e : parseBitflagAttr cfg ⟨some s.ty.syntax, ts⟩ =
        match s.ty.syntax.dataType with
        | .error e => .error (.error (flagTypeError e))
        | .ok (.custom _) => .error (.error (unsupportedFlag s.ty.syntax))
        | .ok d =>
          if d.unsigned then do return { ty := d, args := ← parseBitflagArgs cfg ts }
          else .error (.error (unsupportedFlag s.ty.syntax)) := rfl
    rw [e]
    have hun : ∀ (_ : ∀ t, s.ty = .int t → t.unsigned = false) (_ : ∀ n, s.ty ≠ .bytes n),
        s.Wrong ts (unsupportedFlag s.ty.syntax) := by
      intro h1 h2
      unfold unsupportedFlag
      rw [syntax_text]
      exact .unsupported h1 h2
    generalize unsupportedFlag s.ty.syntax = U at hun ⊢
    clear e
    have hargs : ∀ d, Tells (s.Wrong ts) (do return { ty := d, args := ← parseBitflagArgs cfg ts } : P BitflagAttr) :=
      fun d => Tells.bind (fun msg h => .argument (parseBitflagArgs_tells cfg ts msg h)) fun _ _ => .ok _
    have hty : ∀ e, e ≠ TypeError.unexpectedFloat → (∀ t, s.ty ≠ .int t) →
        Tells (s.Wrong ts) (.error (.error (flagTypeError e)) : P BitflagAttr) := by
      intro e he ht
      have : flagTypeError e = "The bitflag attribute must have an unsigned integer type as its first argument." := by
        cases e <;> first | exact absurd rfl he | rfl
      rw [this]
      exact .err (.type ht)
    cases hst : s.ty with
    | int t =>
      rw [hst] at hun
      rw [show (TypeSpec.int t).syntax.dataType = .ok (.int t) from dataType_syntax.mpr rfl]
      dsimp only
      by_cases hu : (DataType.int t).unsigned = true
      · rw [if_pos hu]
        exact hargs _
      · rw [if_neg hu]
        have hW : s.Wrong ts U := hun (fun t' h => by cases h; exact eq_false_of_ne_true hu) nofun
        exact .err hW
    | bytes n =>
      rw [hst] at hty
      have e : (TypeSpec.bytes n).syntax.dataType =
          if n < 2 ^ 32 then (if n = 0 then .error .zeroArrayLength else .ok (.array n))
          else .error .arrayLengthTooLarge := rfl
      rw [e]
      by_cases h : n < 2 ^ 32
      · by_cases h0 : n = 0
        · rw [if_pos h, if_pos h0]
          exact hty _ nofun nofun
        · rw [if_pos h, if_neg h0]
          exact hargs _
      · rw [if_neg h]
        exact hty _ nofun nofun
    | custom name c =>
      rw [hst] at hun hty
      have hpr := hr.ty
      rw [hst] at hpr
      by_cases hb : name ∈ builtinNames
      · have hn : name ∈ ["f32", "f64"] ∨ name ∈ ["usize", "isize"] := by
          have hpr : name ∉ _ := hpr
          simp only [builtinNames, List.mem_cons, List.not_mem_nil, or_false, not_or] at hb hpr ⊢
          grind
        rcases hn with hn | hn
        · have : (TypeSpec.custom name c).syntax.dataType = .error .unexpectedFloat := by
            simp only [TypeSpec.syntax, SynType.dataType]
            rw [if_pos (by simpa using hn)]
          rw [this]
          exact .err (.float name c hst hn)
        · have : (TypeSpec.custom name c).syntax.dataType = .error .sizeType := by
            simp only [List.mem_cons, List.not_mem_nil, or_false] at hn
            rcases hn with rfl | rfl <;> rfl
          rw [this]
          exact hty _ nofun nofun
      · rw [show (TypeSpec.custom name c).syntax.dataType = .ok (.custom c) from dataType_custom hb]
        have hW : s.Wrong ts U := hun nofun nofun
        exact .err hW
  have hvars : Tells (s.Wrong ts) (parseVariants s.decl.variants) := by
    by_cases hall : ∀ v ∈ s.variants, v.value.isSome = true
    · rw [show parseVariants s.decl.variants = _ from parseVariants_decl hr.value hall]
      exact .ok _
    · obtain ⟨v, hv, h1, h2⟩ := parseVariants_none hr.value hall
      rw [show parseVariants s.decl.variants = _ from h2]
      have := EnumSpec.Wrong.value (rest := ts) v hv h1
      exact .err this
  have hbase : ∀ vs, parseVariants s.decl.variants = .ok vs → Tells (s.Wrong ts) (checkBase vs) := by
    intro vs hvs
    have : vs = s.variants.map VariantSpec.flag := by
      by_cases hall : ∀ v ∈ s.variants, v.value.isSome = true
      · rw [show parseVariants s.decl.variants = _ from parseVariants_decl hr.value hall] at hvs
        cases hvs
        rfl
      · obtain ⟨v, hv, h1, h2⟩ := parseVariants_none hr.value hall
        rw [show parseVariants s.decl.variants = _ from h2] at hvs
        cases hvs
    subst this
    refine .ite (fun h => .err ?_) fun _ => .ite (fun _ => .ok _) fun h => .err ?_
    · have two : ∀ l : List VariantSpec, 1 < ((l.map VariantSpec.flag).filter FlagVariant.base).length →
          ∃ pre mid post v w, l = pre ++ v :: (mid ++ w :: post) ∧ v.IsBase ∧ w.IsBase := by
        intro l
        induction l with
        | nil => intro h; simp at h
        | cons v l ih =>
          intro h
          by_cases hv : v.flag.base = true
          · rw [List.map_cons, List.filter_cons_of_pos hv, List.length_cons] at h
            obtain ⟨w, hw⟩ := List.exists_mem_of_length_pos (l := (l.map VariantSpec.flag).filter FlagVariant.base) (by omega)
            obtain ⟨hw1, hw2⟩ := List.mem_filter.mp hw
            obtain ⟨u, hu, rfl⟩ := List.mem_map.mp hw1
            obtain ⟨mid, post, rfl⟩ := List.append_of_mem hu
            exact ⟨[], mid, post, v, u, rfl, v.flag_base.mp hv, u.flag_base.mp hw2⟩
          · rw [List.map_cons, List.filter_cons_of_neg hv] at h
            obtain ⟨pre, mid, post, a, b, rfl, h1, h2⟩ := ih h
            exact ⟨v :: pre, mid, post, a, b, rfl, h1, h2⟩
      obtain ⟨pre, mid, post, v, w, h1, h2, h3⟩ := two _ h
      exact .bases pre mid post v w h1 h2 h3
    · refine .fallback fun v hv => ?_
      have h : ¬ ∃ u ∈ s.variants.map VariantSpec.flag, u.base = true ∨ u.default = true := by
        simpa [List.any_eq_true] using h
      rw [exists_flag] at h
      exact ⟨fun hb => h ⟨v, hv, .inl hb⟩, fun hb => h ⟨v, hv, .inr hb⟩⟩
  unfold expandBitflag
  refine Tells.bind ?_ fun F _ => ?_
  · unfold parseBitflag
    refine hattr.bind fun A _ => hvars.bind fun vs hvs => (hbase vs hvs).bind fun _ _ => .ok _
  · unfold generateBitflag
    refine Tells.bind ?_ fun _ _ => .ok _
    unfold matchCases
    dsimp only
    split
    · exact .ok _
    · exact .panic _

end Bf