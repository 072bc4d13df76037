import Verif.SpecForm
import Verif.Lemmas.Bitflag

/-!
# Lemmas: the written forms of declarations
-/

namespace Bf

theorem Each.nil_left {α β : Type} {r : α → β → Prop} {bs : List β} (h : Each r [] bs) : bs = [] := by cases h; rfl

theorem Each.choose {α β : Type} {r : α → β → Prop} :
    ∀ {bs : List β}, (∀ b ∈ bs, ∃ a, r a b) → ∃ as, Each r as bs
  | [], _ => ⟨[], .nil⟩
  | b :: bs, h => by
    obtain ⟨a, ha⟩ := h b (by simp)
    obtain ⟨as, has⟩ := Each.choose (bs := bs) fun b hb => h b (by simp [hb])
    exact ⟨a :: as, .cons ha has⟩

theorem Each.right {α β : Type} {r : α → β → Prop} : ∀ {as : List α} {bs : List β}, Each r as bs →
    ∀ b ∈ bs, ∃ a ∈ as, r a b
  | _, _, .nil, b, hb => by simp at hb
  | _, _, .cons h t, b, hb => by
    rcases List.mem_cons.mp hb with rfl | hb
    · exact ⟨_, by simp, h⟩
    · obtain ⟨a, ha, hr⟩ := t.right b hb
      exact ⟨a, by simp [ha], hr⟩

theorem listed_cons (a b : Arg) (as : List Arg) (t : Bool) :
    listed (a :: b :: as) t = a.tokens ++ .comma :: listed (b :: as) t := rfl

theorem argsLoop_listed (keys : List String) : ∀ (ws : List Arg) (t : Bool), (∀ w ∈ ws, w.key ∈ keys) →
    argsLoop keys (listed ws t) = .ok ws
  | [], _, _ => rfl
  | [a], t, h => by
    have := h a (by simp)
    cases t <;> simp [listed, Arg.tokens, argsLoop, this]
  | a :: b :: as, t, h => by
    have ih := argsLoop_listed keys (b :: as) t fun w hw => h w (by simp only [List.mem_cons] at hw ⊢; exact .inr hw)
    rw [listed_cons]
    simp only [Arg.tokens, List.cons_append, List.nil_append]
    conv => lhs; unfold argsLoop
    simp only [h a (by simp), not_true_eq_false, if_false, ih]

theorem argsLoop_ok (keys : List String) : ∀ (ts : List Tok) (ws : List Arg), argsLoop keys ts = .ok ws →
    (∃ t, ts = listed ws t) ∧ ∀ w ∈ ws, w.key ∈ keys := by
  intro ts
  fun_induction argsLoop keys ts with
  | case1 => intro ws h; cases h; exact ⟨⟨true, rfl⟩, by simp⟩
  | case2 => intro ws h; cases h
  | case3 k hk t v rest as hr ih =>
    intro ws h
    cases h
    obtain ⟨⟨b, hb⟩, ih2⟩ := ih _ hr
    refine ⟨?_, ?_⟩
    · cases as with
      | nil => subst hb; exact ⟨true, rfl⟩
      | cons a as => subst hb; exact ⟨b, rfl⟩
    · intro w hw
      rcases List.mem_cons.mp hw with rfl | hw
      · exact Decidable.not_not.mp hk
      · exact ih2 w hw
  | case4 => intro ws h; cases h
  | case5 k hk t v =>
    intro ws h
    cases h
    exact ⟨⟨false, rfl⟩, by simpa using hk⟩
  | case6 => intro ws h; cases h
  | case7 => intro ws h; cases h
  | case8 => intro ws h; cases h
  | case9 => intro ws h; cases h
  | case10 => intro ws h; cases h

theorem argsLoop_err (keys : List String) : ∀ (ts : List Tok) (e : Reject), argsLoop keys ts = .error e →
    ∃ msg, e = .error msg := by
  intro ts
  fun_induction argsLoop keys ts with
  | case1 => intro e h; cases h
  | case2 => intro e h; cases h; exact ⟨_, rfl⟩
  | case3 => intro e h; cases h
  | case4 k hk t v rest e' hr ih => intro e h; cases h; exact ih _ hr
  | case5 => intro e h; cases h
  | case6 => intro e h; cases h; exact ⟨_, rfl⟩
  | case7 => intro e h; cases h; exact ⟨_, rfl⟩
  | case8 => intro e h; cases h; exact ⟨_, rfl⟩
  | case9 => intro e h; cases h; exact ⟨_, rfl⟩
  | case10 => intro e h; cases h; exact ⟨_, rfl⟩

theorem listed_head (ws : List Arg) (t : Bool) : listed ws t = [] ∨ ∃ s ts, listed ws t = .ident s :: ts := by
  cases ws with
  | nil => exact .inl rfl
  | cons a as => cases as <;> exact .inr ⟨_, _, rfl⟩

theorem skipComma_listed (ws : List Arg) (t : Bool) : skipComma (listed ws t) = listed ws t := by
  rcases listed_head ws t with h | ⟨s, ts, h⟩ <;> rw [h] <;> rfl

theorem skipComma_eq (ts : List Tok) : ∃ n ≤ 1, ts = commas n ++ skipComma ts := by
  unfold skipComma
  split
  · exact ⟨1, by omega, rfl⟩
  · exact ⟨0, by omega, rfl⟩

theorem skipComma_commas {n : Nat} (h : n ≤ 1) (ws : List Arg) (t : Bool) :
    skipComma (commas n ++ listed ws t) = listed ws t := by
  obtain rfl | rfl : n = 0 ∨ n = 1 := by omega
  · exact skipComma_listed ws t
  · rfl

theorem parseAttributeArguments_listed {keys : List String} {n : Nat} {ws : List Arg} (t : Bool) (hn : n ≤ 1)
    (h : ∀ w ∈ ws, w.key ∈ keys) : parseAttributeArguments keys (commas n ++ listed ws t) = .ok ws := by
  unfold parseAttributeArguments
  rw [skipComma_commas hn]
  exact argsLoop_listed keys ws t h

theorem parseAttributeArguments_ok {keys : List String} {ts : List Tok} {ws : List Arg}
    (h : parseAttributeArguments keys ts = .ok ws) :
    (∃ n t, n ≤ 1 ∧ ts = commas n ++ listed ws t) ∧ ∀ w ∈ ws, w.key ∈ keys := by
  obtain ⟨⟨t, ht⟩, h2⟩ := argsLoop_ok _ _ _ h
  obtain ⟨n, hn, e⟩ := skipComma_eq ts
  exact ⟨⟨n, t, hn, by rw [e, ht]⟩, h2⟩

/-- Two argument lists that are read alike one by one are read alike. -/
theorem foldlM_each {α β : Type} {step : β → Arg → P β} {spelled : α → Arg → Prop} {arg : α → Arg}
    (h : ∀ a w, spelled a w → ∀ r, step r w = step r (arg a)) :
    ∀ {as : List α} {ws : List Arg}, Each spelled as ws → ∀ r, ws.foldlM step r = (as.map arg).foldlM step r
  | _, _, .nil, _ => rfl
  | _, _, .cons hs t, r => by
    rw [List.map_cons, List.foldlM_cons, List.foldlM_cons, h _ _ hs]
    congr 1
    funext x
    exact foldlM_each h t x

/-- If all arguments were read, then each one was read. -/
theorem foldlM_mem {β : Type} {step : β → Arg → P β} : ∀ {ws : List Arg} {r x : β}, ws.foldlM step r = .ok x →
    ∀ w ∈ ws, ∃ r y, step r w = .ok y
  | [], _, _, _, w, hw => by simp at hw
  | a :: ws, r, x, h, w, hw => by
    rw [List.foldlM_cons] at h
    cases hs : step r a with
    | error e => rw [hs] at h; cases h
    | ok y =>
      rw [hs] at h
      rcases List.mem_cons.mp hw with rfl | hw
      · exact ⟨r, y, hs⟩
      · exact foldlM_mem (r := y) h w hw

/-! ## Values -/

theorem orderOf_iff {t : List Char} {o : Order} : orderOf t = .ok o ↔ Reads t o.text := by
  unfold orderOf Reads
  cases o <;> simp only [Order.text] <;> split
  · simp_all
  · split <;> simp_all
  · simp_all
  · split <;> simp_all

theorem endianOf_iff {t : List Char} {e : Endian} : endianOf t = .ok e ↔ Reads (trim t) e.text := by
  unfold endianOf Reads
  cases e <;> simp only [Endian.text] <;> split
  · simp_all
  · split <;> simp_all
  · simp_all
  · split <;> simp_all

theorem accessOf_iff {t : List Char} {a : Access} : accessOf t = .ok a ↔ Reads t a.text := by
  unfold accessOf Reads
  simp only
  constructor
  · intro h
    split at h
    · cases h; assumption
    split at h
    · cases h; assumption
    split at h
    · cases h; assumption
    split at h
    · cases h; assumption
    cases h
  · intro h
    rw [h]
    cases a <;> rfl

theorem parseBool_iff {w : Arg} {b : Bool} : parseBool w = .ok b ↔ w.text = boolText b := by
  unfold parseBool boolText
  cases b <;> simp only [if_true, Bool.false_eq_true, if_false] <;> split
  · simp_all
  · split <;> simp_all
  · simp_all
  · split <;> simp_all

/-! ## `#[bitfield(..)]` -/

theorem BitfieldArgSpec.arg_spelled (a : BitfieldArgSpec) : a.Spelled a.arg := by
  cases a with
  | flag k b => exact ⟨rfl, rfl⟩
  | order o => exact ⟨rfl, by cases o <;> rfl⟩
  | endian k e => exact ⟨rfl, by cases e <;> rfl⟩

theorem BitfieldArgSpec.key_eq {a : BitfieldArgSpec} {w : Arg} (h : a.Spelled w) : w.key = a.arg.key := by
  cases a <;> exact h.1

theorem applyArg_spelled (a : BitfieldArgSpec) (w : Arg) (h : a.Spelled w) (r : BitfieldArgs) :
    applyArg r w = applyArg r a.arg := by
  have hk := a.key_eq h
  cases a with
  | flag k b =>
    have h1 : parseBool w = parseBool (BitfieldArgSpec.flag k b).arg := by
      rw [parseBool_iff.mpr h.2]; exact (parseBool_iff.mpr rfl).symm
    cases k <;> simp [applyArg, BitfieldArgSpec.arg, Flag.key, h1, hk]
  | order o =>
    have h1 : orderOf w.text = orderOf (BitfieldArgSpec.order o).arg.text := by
      rw [orderOf_iff.mpr h.2]; exact (orderOf_text o).symm
    simp [applyArg, BitfieldArgSpec.arg, h1, hk]
  | endian k e =>
    have h1 : endianOf w.text = endianOf (BitfieldArgSpec.endian k e).arg.text := by
      rw [endianOf_iff.mpr h.2]; exact (endianOf_text e).symm
    cases k <;> simp [applyArg, BitfieldArgSpec.arg, EndianKey.key, h1, hk]

theorem bind_ok_left {α β : Type} {x : P α} {f : α → P β} {y : β} (h : x >>= f = .ok y) : ∃ a, x = .ok a := by
  cases x with
  | error e => cases h
  | ok a => exact ⟨a, rfl⟩

theorem applyArg_ok {r y : BitfieldArgs} {w : Arg} (h : applyArg r w = .ok y) :
    ∃ a : BitfieldArgSpec, a.Spelled w := by
  unfold applyArg at h
  by_cases hk : w.key = "order"
  · rw [if_pos hk] at h
    obtain ⟨o, ho⟩ := bind_ok_left h
    exact ⟨.order o, hk, orderOf_iff.mp ho⟩
  rw [if_neg hk] at h; clear hk
  by_cases hk : w.key = "from_endian"
  · rw [if_pos hk] at h
    obtain ⟨e, he⟩ := bind_ok_left h
    exact ⟨.endian .from e, hk, endianOf_iff.mp he⟩
  rw [if_neg hk] at h; clear hk
  by_cases hk : w.key = "into_endian"
  · rw [if_pos hk] at h
    obtain ⟨e, he⟩ := bind_ok_left h
    exact ⟨.endian .into e, hk, endianOf_iff.mp he⟩
  rw [if_neg hk] at h; clear hk
  by_cases hk : w.key = "write_endian"
  · rw [if_pos hk] at h
    obtain ⟨e, he⟩ := bind_ok_left h
    exact ⟨.endian .write e, hk, endianOf_iff.mp he⟩
  rw [if_neg hk] at h; clear hk
  by_cases hk : w.key = "new"
  · rw [if_pos hk] at h
    obtain ⟨b, hb⟩ := bind_ok_left h
    exact ⟨.flag .new b, hk, parseBool_iff.mp hb⟩
  rw [if_neg hk] at h; clear hk
  by_cases hk : w.key = "from_into_bits"
  · rw [if_pos hk] at h
    obtain ⟨b, hb⟩ := bind_ok_left h
    exact ⟨.flag .fromIntoBits b, hk, parseBool_iff.mp hb⟩
  rw [if_neg hk] at h; clear hk
  by_cases hk : w.key = "from_traits"
  · rw [if_pos hk] at h
    obtain ⟨b, hb⟩ := bind_ok_left h
    exact ⟨.flag .fromTraits b, hk, parseBool_iff.mp hb⟩
  rw [if_neg hk] at h; clear hk
  by_cases hk : w.key = "default"
  · rw [if_pos hk] at h
    obtain ⟨b, hb⟩ := bind_ok_left h
    exact ⟨.flag .default b, hk, parseBool_iff.mp hb⟩
  rw [if_neg hk] at h; clear hk
  by_cases hk : w.key = "debug"
  · rw [if_pos hk] at h
    obtain ⟨b, hb⟩ := bind_ok_left h
    exact ⟨.flag .debug b, hk, parseBool_iff.mp hb⟩
  rw [if_neg hk] at h; clear hk
  by_cases hk : w.key = "copy"
  · rw [if_pos hk] at h
    obtain ⟨b, hb⟩ := bind_ok_left h
    exact ⟨.flag .copy b, hk, parseBool_iff.mp hb⟩
  rw [if_neg hk] at h; clear hk
  by_cases hk : w.key = "bit_ops"
  · rw [if_pos hk] at h
    obtain ⟨b, hb⟩ := bind_ok_left h
    exact ⟨.flag .bitOps b, hk, parseBool_iff.mp hb⟩
  rw [if_neg hk] at h; clear hk
  by_cases hk : w.key = "write_bit_ops"
  · rw [if_pos hk] at h
    obtain ⟨b, hb⟩ := bind_ok_left h
    exact ⟨.flag .writeBitOps b, hk, parseBool_iff.mp hb⟩
  rw [if_neg hk] at h; clear hk
  by_cases hk : w.key = "clear_bit_ops"
  · rw [if_pos hk] at h
    obtain ⟨b, hb⟩ := bind_ok_left h
    exact ⟨.flag .clearBitOps b, hk, parseBool_iff.mp hb⟩
  rw [if_neg hk] at h; clear hk
  by_cases hk : w.key = "set_get_bit_ops"
  · rw [if_pos hk] at h
    obtain ⟨b, hb⟩ := bind_ok_left h
    exact ⟨.flag .setGetBitOps b, hk, parseBool_iff.mp hb⟩
  rw [if_neg hk] at h; clear hk
  by_cases hk : w.key = "invert_bit_ops"
  · rw [if_pos hk] at h
    obtain ⟨b, hb⟩ := bind_ok_left h
    exact ⟨.flag .invertBitOps b, hk, parseBool_iff.mp hb⟩
  rw [if_neg hk] at h; clear hk
  by_cases hk : w.key = "toggle_bit_ops"
  · rw [if_pos hk] at h
    obtain ⟨b, hb⟩ := bind_ok_left h
    exact ⟨.flag .toggleBitOps b, hk, parseBool_iff.mp hb⟩
  rw [if_neg hk] at h; clear hk
  by_cases hk : w.key = "builder"
  · rw [if_pos hk] at h
    obtain ⟨b, hb⟩ := bind_ok_left h
    exact ⟨.flag .builder b, hk, parseBool_iff.mp hb⟩
  rw [if_neg hk] at h; clear hk
  by_cases hk : w.key = "array_heap"
  · rw [if_pos hk] at h
    obtain ⟨b, hb⟩ := bind_ok_left h
    exact ⟨.flag .arrayHeap b, hk, parseBool_iff.mp hb⟩
  rw [if_neg hk] at h; clear hk
  by_cases hk : w.key = "force_panic"
  · rw [if_pos hk] at h
    obtain ⟨b, hb⟩ := bind_ok_left h
    exact ⟨.flag .forcePanic b, hk, parseBool_iff.mp hb⟩
  rw [if_neg hk] at h; clear hk
  cases h

theorem parseBitfieldArgs_spelled (cfg : String → Bool) {as : List BitfieldArgSpec} {ts : List Tok}
    (h : SpelledArgs BitfieldArgSpec.Spelled 1 as ts) :
    parseBitfieldArgs cfg ts = parseBitfieldArgs cfg (bitfieldTokens as) := by
  obtain ⟨ws, n, t, hn, rfl, he⟩ := h
  have hk : ∀ w ∈ ws, w.key ∈ bitfieldKeys := fun w hw => by
    obtain ⟨a, _, ha⟩ := he.right w hw
    rw [a.key_eq ha]
    exact a.key_mem
  simp only [parseBitfieldArgs]
  rw [parseAttributeArguments_listed t hn hk]
  simp only [parseAttributeArguments, argsLoop_bitfield]
  exact foldlM_each applyArg_spelled he _

theorem parseBitfieldArgs_ok {cfg : String → Bool} {ts : List Tok} {r : BitfieldArgs}
    (h : parseBitfieldArgs cfg ts = .ok r) : ∃ as, SpelledArgs BitfieldArgSpec.Spelled 1 as ts := by
  unfold parseBitfieldArgs at h
  cases hp : parseAttributeArguments bitfieldKeys ts with
  | error e => rw [hp] at h; cases h
  | ok ws =>
    rw [hp] at h
    obtain ⟨⟨n, t, hn, e⟩, -⟩ := parseAttributeArguments_ok hp
    obtain ⟨as, has⟩ := Each.choose (r := BitfieldArgSpec.Spelled) (bs := ws) fun w hw => by
      obtain ⟨r, y, hs⟩ := foldlM_mem h w hw
      exact applyArg_ok hs
    exact ⟨as, ws, n, t, hn, e, has⟩

/-! ## `#[bitflag(..)]` -/

theorem FlagArgSpec.key_eq {a : FlagArgSpec} {w : Arg} (h : a.Spelled w) : w.key = a.arg.key := by
  cases a <;> exact h.1

theorem applyBitflagArg_spelled (a : FlagArgSpec) (w : Arg) (h : a.Spelled w) (r : BitflagArgs) :
    applyBitflagArg r w = applyBitflagArg r a.arg := by
  have hk := a.key_eq h
  cases a with
  | copy b =>
    have h1 : parseBool w = parseBool (FlagArgSpec.copy b).arg := by
      rw [parseBool_iff.mpr h.2]; exact (parseBool_iff.mpr rfl).symm
    simp [applyBitflagArg, FlagArgSpec.arg, h1, hk]
  | «from» e =>
    have h1 : endianOf w.text = endianOf (FlagArgSpec.from e).arg.text := by
      rw [endianOf_iff.mpr h.2]; exact (endianOf_text e).symm
    simp [applyBitflagArg, FlagArgSpec.arg, h1, hk]
  | into e =>
    have h1 : endianOf w.text = endianOf (FlagArgSpec.into e).arg.text := by
      rw [endianOf_iff.mpr h.2]; exact (endianOf_text e).symm
    simp [applyBitflagArg, FlagArgSpec.arg, h1, hk]

theorem applyBitflagArg_ok {r y : BitflagArgs} {w : Arg} (h : applyBitflagArg r w = .ok y) :
    ∃ a : FlagArgSpec, a.Spelled w := by
  unfold applyBitflagArg at h
  split at h
  · rename_i hk
    obtain ⟨e, he⟩ := bind_ok_left h
    exact ⟨.from e, hk, endianOf_iff.mp he⟩
  split at h
  · rename_i hk
    obtain ⟨e, he⟩ := bind_ok_left h
    exact ⟨.into e, hk, endianOf_iff.mp he⟩
  split at h
  · rename_i hk
    obtain ⟨b, hb⟩ := bind_ok_left h
    exact ⟨.copy b, hk, parseBool_iff.mp hb⟩
  cases h

theorem parseBitflagArgs_spelled (cfg : String → Bool) {as : List FlagArgSpec} {ts : List Tok}
    (h : SpelledArgs FlagArgSpec.Spelled 1 as ts) :
    parseBitflagArgs cfg ts = parseBitflagArgs cfg (as.flatMap fun a => .comma :: a.tokens) := by
  obtain ⟨ws, n, t, hn, rfl, he⟩ := h
  have hk : ∀ w ∈ ws, w.key ∈ bitflagKeys := fun w hw => by
    obtain ⟨a, _, ha⟩ := he.right w hw
    rw [a.key_eq ha]
    exact a.key_mem
  simp only [parseBitflagArgs]
  rw [parseAttributeArguments_listed t hn hk]
  simp only [parseAttributeArguments, argsLoop_bitflag]
  exact foldlM_each applyBitflagArg_spelled he _

theorem parseBitflagArgs_ok {cfg : String → Bool} {ts : List Tok} {r : BitflagArgs}
    (h : parseBitflagArgs cfg ts = .ok r) : ∃ as, SpelledArgs FlagArgSpec.Spelled 1 as ts := by
  unfold parseBitflagArgs at h
  cases hp : parseAttributeArguments bitflagKeys ts with
  | error e => rw [hp] at h; cases h
  | ok ws =>
    rw [hp] at h
    obtain ⟨⟨n, t, hn, e⟩, -⟩ := parseAttributeArguments_ok hp
    obtain ⟨as, has⟩ := Each.choose (r := FlagArgSpec.Spelled) (bs := ws) fun w hw => by
      obtain ⟨r, y, hs⟩ := foldlM_mem h w hw
      exact applyBitflagArg_ok hs
    exact ⟨as, ws, n, t, hn, e, has⟩

/-! ## `#[bits(..)]` -/

theorem BitsArgSpec.key_eq {a : BitsArgSpec} {w : Arg} (h : a.Spelled w) : w.key = a.arg.key := by
  cases a <;> exact h.1

theorem BitsArgSpec.key_mem (a : BitsArgSpec) : a.arg.key ∈ bitsKeys := by
  cases a <;> simp [BitsArgSpec.arg, bitsKeys]

theorem applyBitsArg_spelled (a : BitsArgSpec) (w : Arg) (h : a.Spelled w) (r : BitsArgs) :
    applyBitsArg r w = applyBitsArg r a.arg := by
  have hk := a.key_eq h
  cases a with
  | ignore b =>
    have h1 : parseBool w = parseBool (BitsArgSpec.ignore b).arg := by
      rw [parseBool_iff.mpr h.2]; exact (parseBool_iff.mpr rfl).symm
    simp [applyBitsArg, BitsArgSpec.arg, h1, hk]
  | access e =>
    have h1 : accessOf w.text = accessOf (BitsArgSpec.access e).arg.text := by
      rw [accessOf_iff.mpr h.2]; exact (accessOf_text e).symm
    simp [applyBitsArg, BitsArgSpec.arg, h1, hk]
  | default d v =>
    simp [applyBitsArg, BitsArgSpec.arg, hk, h.2.1, h.2.2]

theorem parseBitsArgs_spelled {as : List BitsArgSpec} {ts : List Tok}
    (h : SpelledArgs BitsArgSpec.Spelled 1 as ts) : parseBitsArgs ts = parseBitsArgs (argTokens as) := by
  obtain ⟨ws, n, t, hn, rfl, he⟩ := h
  have hk : ∀ w ∈ ws, w.key ∈ bitsKeys := fun w hw => by
    obtain ⟨a, _, ha⟩ := he.right w hw
    rw [a.key_eq ha]
    exact a.key_mem
  simp only [parseBitsArgs]
  rw [parseAttributeArguments_listed t hn hk]
  simp only [parseAttributeArguments, skipComma_args, argsLoop_tokens]
  exact foldlM_each applyBitsArg_spelled he _

theorem SpelledArgs.skip {α : Type} {spelled : α → Arg → Prop} {as : List α} {ts : List Tok}
    (h : SpelledArgs spelled 2 as ts) : SpelledArgs spelled 1 as (skipComma ts) := by
  obtain ⟨ws, n, t, hn, rfl, he⟩ := h
  refine ⟨ws, n - 1, t, by omega, ?_, he⟩
  cases n with
  | zero => exact skipComma_listed ws t
  | succ n => rfl

theorem SpelledArgs.unskip {α : Type} {spelled : α → Arg → Prop} {as : List α} {ts : List Tok}
    (h : SpelledArgs spelled 1 as (skipComma ts)) : SpelledArgs spelled 2 as ts := by
  obtain ⟨ws, n, t, hn, e, he⟩ := h
  obtain ⟨k, hk, ek⟩ := skipComma_eq ts
  refine ⟨ws, k + n, t, by omega, ?_, he⟩
  rw [ek, e, ← List.append_assoc, commas, commas, commas, List.replicate_append_replicate]

/-- After the commas there is no number and no sign. -/
theorem parseBits_spelled {α : Type} {spelled : α → Arg → Prop} {as : List α} {ts : List Tok}
    (h : SpelledArgs spelled 2 as ts) : parseBits ts = .ok (none, skipComma ts) := by
  obtain ⟨ws, n, t, hn, e, -⟩ := h.skip
  unfold parseBits
  rw [e]
  obtain rfl | rfl : n = 0 ∨ n = 1 := by omega
  · rcases listed_head ws t with h | ⟨s, ts, h⟩ <;> rw [h] <;> rfl
  · rfl

theorem BitsArgSpec.arg_spelled (a : BitsArgSpec) : a.Spelled a.arg := by
  cases a with
  | access a => exact ⟨rfl, by cases a <;> rfl⟩
  | ignore b => exact ⟨rfl, rfl⟩
  | default d v => exact ⟨rfl, rfl, rfl⟩

theorem Each.map {α β : Type} {r : α → β → Prop} {g : α → β} (h : ∀ a, r a (g a)) :
    ∀ as : List α, Each r as (as.map g)
  | [] => .nil
  | a :: as => .cons (h a) (Each.map h as)

theorem argTokens_listed : ∀ as : List BitsArgSpec, argTokens as = listed (as.map BitsArgSpec.arg) false
  | [] => rfl
  | [a] => by cases a <;> rfl
  | a :: b :: as => by
    have ih := argTokens_listed (b :: as)
    show a.tokens ++ .comma :: argTokens (b :: as) = _
    rw [ih]
    cases a <;> rfl

theorem bitsTokens_spelled (b : BitsSpec) : b.Spelled b.tokens := by
  have he := Each.map BitsArgSpec.arg_spelled b.args
  unfold BitsSpec.Spelled BitsSpec.tokens
  cases b.width with
  | none => exact ⟨_, 0, false, by omega, argTokens_listed _, he⟩
  | some n =>
    refine ⟨0, _, by omega, rfl, ?_⟩
    cases hb : b.args with
    | nil => exact ⟨[], 0, false, by omega, rfl, .nil⟩
    | cons a as =>
      rw [hb] at he
      exact ⟨_, 1, false, by omega, by rw [argTokens_listed]; rfl, he⟩

theorem parseBitsAttr_spelled {b : BitsSpec} {ts : List Tok} (h : b.Spelled ts) :
    parseBitsAttr ts = parseBitsAttr b.tokens := by
  have key : ∀ ts, b.Spelled ts → parseBitsAttr ts =
      (match b.width with
      | none => .ok none
      | some n => if n < 2 ^ 32 then .ok (some n) else .error (.error
        ("Bit count '" ++ toString n ++ "' is too big, the maximum amount of bits is '4,294,967,295.'")) : P (Option Nat)) >>=
      fun bits => do return { bits, args := ← parseBitsArgs (argTokens b.args) } := by
    intro ts h
    unfold BitsSpec.Spelled at h
    unfold parseBitsAttr
    cases hw : b.width with
    | none =>
      rw [hw] at h
      rw [parseBits_spelled h]
      simp only [← parseBitsArgs_spelled h.skip]
      rfl
    | some n =>
      rw [hw] at h
      obtain ⟨lead, rest, hl, rfl, h⟩ := h
      have e : parseBits (commas lead ++ .int n false :: rest) =
          if n < 2 ^ 32 then .ok (some n, skipComma rest) else .error (.error
        ("Bit count '" ++ toString n ++ "' is too big, the maximum amount of bits is '4,294,967,295.'")) := by
        obtain rfl | rfl : lead = 0 ∨ lead = 1 := by omega
        · rfl
        · rfl
      rw [e]
      simp only [← parseBitsArgs_spelled h.skip]
      by_cases hn : n < 2 ^ 32
      · rw [if_pos hn, if_pos hn]; rfl
      · rw [if_neg hn, if_neg hn]; rfl
  rw [key _ h, key _ (bitsTokens_spelled b)]

theorem applyBitsArg_ok {name : List Char → DefaultSpec} (hname : ∀ t, (name t).text = t) {r y : BitsArgs} {w : Arg}
    (h : applyBitsArg r w = .ok y) :
    ∃ a : BitsArgSpec, a.Spelled w ∧ ∀ d v, a = .default d v → w.key = "default" ∧ d = name w.text := by
  unfold applyBitsArg at h
  split at h
  · rename_i hk
    obtain ⟨e, he⟩ := bind_ok_left h
    exact ⟨.access e, ⟨hk, accessOf_iff.mp he⟩, by nofun⟩
  split at h
  · rename_i hk
    obtain ⟨b, hb⟩ := bind_ok_left h
    exact ⟨.ignore b, ⟨hk, parseBool_iff.mp hb⟩, by nofun⟩
  split at h
  · rename_i hk
    exact ⟨.default (name w.text) w.value, ⟨hk, (hname _).symm, rfl⟩, by rintro d v h; cases h; exact ⟨hk, rfl⟩⟩
  cases h

theorem listed_infix : ∀ {ws : List Arg} (t : Bool), ∀ w ∈ ws, w.tokens <:+: listed ws t
  | [], _, w, hw => by simp at hw
  | [a], t, w, hw => by
    obtain rfl : w = a := by simpa using hw
    exact ⟨[], _, rfl⟩
  | a :: b :: as, t, w, hw => by
    rw [listed_cons]
    rcases List.mem_cons.mp hw with rfl | hw
    · exact ⟨[], _, rfl⟩
    · exact ((listed_infix t w hw).trans (List.suffix_cons _ _).isInfix).trans (List.suffix_append _ _).isInfix

theorem Each.left {α β : Type} {r : α → β → Prop} : ∀ {as : List α} {bs : List β}, Each r as bs →
    ∀ a ∈ as, ∃ b ∈ bs, r a b
  | _, _, .nil, b, hb => by simp at hb
  | _, _, .cons h t, b, hb => by
    rcases List.mem_cons.mp hb with rfl | hb
    · exact ⟨_, by simp, h⟩
    · obtain ⟨a, ha, hr⟩ := t.left b hb
      exact ⟨a, by simp [ha], hr⟩

theorem Each.mono {α β : Type} {r q : α → β → Prop} (h : ∀ a b, r a b → q a b) : ∀ {as : List α} {bs : List β},
    Each r as bs → Each q as bs
  | _, _, .nil => .nil
  | _, _, .cons hr t => .cons (h _ _ hr) (t.mono h)

theorem parseBitsArgs_ok {name : List Char → DefaultSpec} (hname : ∀ t, (name t).text = t) {ts : List Tok}
    {r : BitsArgs} (h : parseBitsArgs ts = .ok r) :
    ∃ as, SpelledArgs BitsArgSpec.Spelled 1 as ts ∧
      ∀ d v, .default d v ∈ as → ∃ text, HasDefault ts text ∧ d = name text := by
  unfold parseBitsArgs at h
  cases hp : parseAttributeArguments bitsKeys ts with
  | error e => rw [hp] at h; cases h
  | ok ws =>
    rw [hp] at h
    obtain ⟨⟨n, t, hn, e⟩, -⟩ := parseAttributeArguments_ok hp
    obtain ⟨as, has⟩ := Each.choose (bs := ws) fun w hw => by
      obtain ⟨r, y, hs⟩ := foldlM_mem h w hw
      exact applyBitsArg_ok hname hs
    refine ⟨as, ⟨ws, n, t, hn, e, has.mono fun _ _ h => h.1⟩, fun d v hm => ?_⟩
    obtain ⟨w, hw, -, h2⟩ := has.left _ hm
    obtain ⟨hk, hd⟩ := h2 d v rfl
    refine ⟨w.text, ⟨w.value, ?_⟩, hd⟩
    rw [e, ← hk]
    exact (listed_infix t w hw).trans (List.suffix_append _ _).isInfix

theorem skipComma_suffix (ts : List Tok) : skipComma ts <:+ ts := by
  obtain ⟨n, -, e⟩ := skipComma_eq ts
  exact ⟨commas n, e.symm⟩

theorem HasDefault.mono {ts us : List Tok} {text : List Char} (h : HasDefault ts text) (hs : ts <:+ us) :
    HasDefault us text := by
  obtain ⟨v, h⟩ := h
  exact ⟨v, h.trans hs.isInfix⟩

theorem parseBitsAttr_ok {name : List Char → DefaultSpec} (hname : ∀ t, (name t).text = t) {ts : List Tok}
    {a : BitsAttr} (h : parseBitsAttr ts = .ok a) :
    ∃ b : BitsSpec, b.Spelled ts ∧ ∀ d v, .default d v ∈ b.args → ∃ text, HasDefault ts text ∧ d = name text := by
  unfold parseBitsAttr at h
  cases hb : parseBits ts with
  | error e => rw [hb] at h; cases h
  | ok x =>
    obtain ⟨bits, rest⟩ := x
    rw [hb] at h
    obtain ⟨r, hr⟩ : ∃ r, parseBitsArgs rest = .ok r := bind_ok_left h
    obtain ⟨as, hs, hd⟩ := parseBitsArgs_ok hname hr
    obtain ⟨n, hn, en⟩ := skipComma_eq ts
    unfold parseBits at hb
    split at hb
    · cases hb
    · rename_i k suffix rest' e
      split at hb
      · cases hb
      · rename_i hsx
        split at hb
        · cases hb
          refine ⟨⟨some k, as⟩, ⟨n, rest', hn, ?_, hs.unskip⟩, fun d v hm => ?_⟩
          · rw [en, e]; simp [hsx]
          · obtain ⟨text, ht, hd⟩ := hd d v hm
            refine ⟨text, ht.mono ?_, hd⟩
            exact ((skipComma_suffix rest').trans (List.suffix_cons _ _)).trans (e ▸ skipComma_suffix ts)
        · cases hb
    · cases hb
      refine ⟨⟨none, as⟩, hs.unskip, fun d v hm => ?_⟩
      obtain ⟨text, ht, hd⟩ := hd d v hm
      exact ⟨text, ht.mono (skipComma_suffix ts), hd⟩

/-! ## Types -/

theorem dataType_spelled {t : TypeSpec} {y : SynType} (h : t.Spelled y) : y.dataType = t.syntax.dataType := by
  cases t with
  | int it =>
    cases y with
    | path name c =>
      obtain rfl : name = it.name := h
      cases it <;> rfl
    | array e l => exact h.elim
    | other => exact h.elim
  | bytes len =>
    cases y with
    | path name c => exact h.elim
    | array e l =>
      cases e with
      | path name c =>
        cases l with
        | int n =>
          obtain ⟨rfl, rfl⟩ := h
          rfl
        | other => exact h.elim
      | array _ _ => exact h.elim
      | other => exact h.elim
    | other => exact h.elim
  | custom name c =>
    cases y with
    | path name' c' =>
      obtain ⟨rfl, rfl⟩ := h
      rfl
    | array e l => exact h.elim
    | other => exact h.elim

theorem text_spelled {t : TypeSpec} {y : SynType} (h : t.Spelled y) : y.text = t.syntax.text := by
  cases t with
  | int it =>
    cases y with
    | path name c =>
      obtain rfl : name = it.name := h
      cases it <;> rfl
    | array e l => exact h.elim
    | other => exact h.elim
  | bytes len =>
    cases y with
    | path name c => exact h.elim
    | array e l =>
      cases e with
      | path name c =>
        cases l with
        | int n =>
          obtain ⟨rfl, rfl⟩ := h
          rfl
        | other => exact h.elim
      | array _ _ => exact h.elim
      | other => exact h.elim
    | other => exact h.elim
  | custom name c =>
    cases y with
    | path name' c' =>
      obtain ⟨rfl, rfl⟩ := h
      rfl
    | array e l => exact h.elim
    | other => exact h.elim

theorem spelled_of_dataType {y : SynType} {d : DataType} (h : y.dataType = .ok d) :
    ∃ t : TypeSpec, t.Spelled y ∧ t.Proper := by
  cases y with
  | other => cases h
  | path name c =>
    by_cases hn : ∃ it : IntTy, name = it.name
    · obtain ⟨it, rfl⟩ := hn
      exact ⟨.int it, rfl, trivial⟩
    · refine ⟨.custom name c, ⟨rfl, rfl⟩, fun hm => hn ?_⟩
      simp only [List.mem_cons, List.not_mem_nil, or_false] at hm
      rcases hm with rfl | rfl | rfl | rfl | rfl | rfl | rfl | rfl | rfl | rfl | rfl
      · exact ⟨.bool, rfl⟩
      · exact ⟨.u8, rfl⟩
      · exact ⟨.u16, rfl⟩
      · exact ⟨.u32, rfl⟩
      · exact ⟨.u64, rfl⟩
      · exact ⟨.u128, rfl⟩
      · exact ⟨.i8, rfl⟩
      · exact ⟨.i16, rfl⟩
      · exact ⟨.i32, rfl⟩
      · exact ⟨.i64, rfl⟩
      · exact ⟨.i128, rfl⟩
  | array e len =>
    simp only [SynType.dataType] at h
    split at h
    · cases h
    · rename_i he
      split at h
      · rename_i n
        refine ⟨.bytes n, ?_, trivial⟩
        cases e with
        | path name c =>
          refine ⟨?_, rfl⟩
          simp only [SynType.dataType] at he
          grind (splits := 20)
        | array e l =>
          simp only [SynType.dataType] at he
          repeat' split at he
          all_goals cases he
        | other => cases he
      · cases h
    · cases h

/-! ## Fields and structs -/

theorem getBitsAttribute_filter (d : FieldDecl) : getBitsAttribute d =
    match d.attrs.filter (fun a => a.isBits && a.outer) with
    | [] => .ok none
    | a :: _ => match a.tokens with
      | none => .error (.error "The '#[bits]' attribute must be a list.")
      | some ts => (parseBitsAttr ts).map some := by
  unfold getBitsAttribute
  rw [← List.head?_filter]
  cases d.attrs.filter (fun a => a.isBits && a.outer) <;> rfl

theorem getBitsAttribute_spelled {f : FieldSpec} {d : FieldDecl} (h : f.Spelled d) :
    getBitsAttribute d = getBitsAttribute f.decl := by
  rw [getBitsAttribute_filter]
  have hb := h.bits
  split at hb
  · rename_i e
    rw [e]
    simp only [getBitsAttribute, FieldSpec.decl, hb]
    rfl
  · rename_i a as e
    obtain ⟨ts, b, h1, h2, h3⟩ := hb
    rw [e]
    simp only [h1, getBitsAttribute, FieldSpec.decl, h2]
    rw [parseBitsAttr_spelled h3]
    rfl

theorem parseField_spelled {f : FieldSpec} {d : FieldDecl} (h : f.Spelled d) (m : Mode) (A : BitfieldAttr) (v : Vis)
    (prev : List PField) : parseField m A v d prev = parseField m A v f.decl prev := by
  unfold parseField fieldDataType parseIgnored
  rw [getBitsAttribute_spelled h, dataType_spelled h.ty, h.name, h.vis]
  rfl

theorem parseFields_spelled (m : Mode) (A : BitfieldAttr) (v : Vis) : ∀ {fs : List FieldSpec} {ds : List FieldDecl},
    Each FieldSpec.Spelled fs ds → ∀ seen acc ign,
    parseFields m A v ds seen acc ign = parseFields m A v (fs.map FieldSpec.decl) seen acc ign
  | _, _, .nil, _, _, _ => rfl
  | f :: _, d :: _, .cons h t, seen, acc, ign => by
    rw [List.map_cons]
    unfold parseFields
    rw [parseField_spelled h, h.name]
    have hn : f.decl.name = f.name := rfl
    rw [hn]
    split
    · rfl
    · congr 1
      funext p
      simp only [parseFields_spelled m A v t]

theorem parseBitfield_spelled {s : StructSpec} {as : List BitfieldArgSpec} {attr : AttrInput} {d : StructDecl}
    (h : s.Spelled as attr d) (m : Mode) (cfg : String → Bool) :
    parseBitfield m cfg attr d = parseBitfield m cfg s.attr s.decl := by
  obtain ⟨t, ht, hs⟩ := h.storage
  obtain ⟨ds, hd, he⟩ := h.fields
  have h1 : parseBitfieldAttr cfg attr = parseBitfieldAttr cfg s.attr := by
    have e : unsupportedStorage t = unsupportedStorage s.storage.syntax := by
      unfold unsupportedStorage; rw [text_spelled hs]
    unfold parseBitfieldAttr StructSpec.attr
    simp only [ht, dataType_spelled hs, e, h.rest, parseBitfieldArgs_spelled cfg h.args]
  unfold parseBitfield StructSpec.decl
  simp only [h1, hd, h.vis, parseFields_spelled m _ _ he]

/-! ## Every accepted declaration has such a form -/

theorem parseField_parts {m : Mode} {A : BitfieldAttr} {v : Vis} {d : FieldDecl} {prev : List PField} {p : PField}
    (h : parseField m A v d prev = .ok p) :
    (∃ a, getBitsAttribute d = .ok a) ∧ ∃ t, d.ty.dataType = .ok t := by
  unfold parseField at h
  cases ha : getBitsAttribute d with
  | error e => rw [ha] at h; cases h
  | ok a =>
    rw [ha] at h
    refine ⟨⟨a, rfl⟩, ?_⟩
    cases ht : d.ty.dataType with
    | ok t => exact ⟨t, rfl⟩
    | error e =>
      exfalso
      change (if isIgnored a then parseIgnored d else _) = _ at h
      split at h
      · simp only [parseIgnored, ht] at h; cases h
      · simp only [fieldDataType, ht] at h; cases h

theorem parseFields_each {m : Mode} {A : BitfieldAttr} {v : Vis} : ∀ {ds : List FieldDecl} {seen : List String}
    {acc ign : List PField} {r : List PField × List PField}, parseFields m A v ds seen acc ign = .ok r →
    ∀ d ∈ ds, ∃ prev p, parseField m A v d prev = .ok p
  | [], _, _, _, _, _, d, hd => by simp at hd
  | x :: ds, seen, acc, ign, r, h, d, hd => by
    unfold parseFields at h
    split at h
    · cases h
    · cases hp : parseField m A v x acc with
      | error e => rw [hp] at h; cases h
      | ok p =>
        rw [hp] at h
        rcases List.mem_cons.mp hd with rfl | hd
        · exact ⟨acc, p, hp⟩
        · change (if p.ignored then _ else _) = _ at h
          split at h
          · exact parseFields_each h d hd
          · exact parseFields_each h d hd

theorem fieldSpec_of {name : List Char → DefaultSpec} (hname : ∀ t, (name t).text = t) {d : FieldDecl}
    {a : Option BitsAttr} {t : DataType} (ha : getBitsAttribute d = .ok a) (ht : d.ty.dataType = .ok t) :
    ∃ f : FieldSpec, f.Spelled d ∧ f.ty.Proper ∧ ∀ D v, .default D v ∈ f.args →
      ∃ b ∈ d.attrs, ∃ ts text, b.tokens = some ts ∧ HasDefault ts text ∧ D = name text := by
  obtain ⟨y, hy, hp⟩ := spelled_of_dataType ht
  rw [getBitsAttribute_filter] at ha
  cases hf : d.attrs.filter (fun a => a.isBits && a.outer) with
  | nil =>
    refine ⟨⟨d.name, d.vis, y, none⟩, ⟨rfl, rfl, hy, ?_⟩, hp, ?_⟩
    · rw [hf]
    · intro D v h; simp [FieldSpec.args] at h
  | cons b bs =>
    rw [hf] at ha
    have hb : b ∈ d.attrs := (List.mem_filter.mp (hf ▸ List.mem_cons_self : b ∈ d.attrs.filter _)).1
    cases hts : b.tokens with
    | none => simp only [hts] at ha; cases ha
    | some ts =>
      simp only [hts] at ha
      cases hx : parseBitsAttr ts with
      | error e => rw [hx] at ha; cases ha
      | ok x =>
        obtain ⟨B, hB, hd⟩ := parseBitsAttr_ok hname hx
        refine ⟨⟨d.name, d.vis, y, some B⟩, ⟨rfl, rfl, hy, ?_⟩, hp, fun D v h => ?_⟩
        · rw [hf]
          exact ⟨ts, B, hts, rfl, hB⟩
        · obtain ⟨text, h1, h2⟩ := hd D v h
          exact ⟨b, hb, ts, text, hts, h1, h2⟩

theorem structSpec_of {name : List Char → DefaultSpec} (hname : ∀ t, (name t).text = t) {m : Mode}
    {cfg : String → Bool} {attr : AttrInput} {d : StructDecl} {p : Parsed}
    (h : parseBitfield m cfg attr d = .ok p) :
    ∃ (s : StructSpec) (as : List BitfieldArgSpec), s.Spelled as attr d ∧ s.storage.Proper ∧
      (∀ f ∈ s.fields, f.ty.Proper) ∧ ∀ f ∈ s.fields, ∀ D v, .default D v ∈ f.args → ∃ ds, d.fields = some ds ∧
        ∃ x ∈ ds, ∃ b ∈ x.attrs, ∃ ts text, b.tokens = some ts ∧ HasDefault ts text ∧ D = name text := by
  unfold parseBitfield at h
  cases hA : parseBitfieldAttr cfg attr with
  | error e => rw [hA] at h; cases h
  | ok A =>
    rw [hA] at h
    cases hd : d.fields with
    | none => simp only [hd] at h; cases h
    | some ds =>
      simp only [hd] at h
      obtain ⟨r, hr⟩ : ∃ r, parseFields m A d.vis ds [] [] [] = .ok r := bind_ok_left h
      unfold parseBitfieldAttr at hA
      cases hty : attr.ty with
      | none => simp only [hty] at hA; cases hA
      | some t =>
        simp only [hty] at hA
        cases hdt : t.dataType with
        | error e => simp only [hdt] at hA; cases hA
        | ok dt =>
          obtain ⟨y, hy, hyp⟩ := spelled_of_dataType hdt
          have hargs : ∃ r, parseBitfieldArgs cfg attr.rest = .ok r := by
            simp only [hdt] at hA
            split at hA
            · cases hA
            · cases hA
            · rename_i dd _ _
              split at hA
              · exact bind_ok_left hA
              · cases hA
          obtain ⟨_, hargs⟩ := hargs
          obtain ⟨as, has⟩ := parseBitfieldArgs_ok hargs
          obtain ⟨fs, hfs⟩ := Each.choose (bs := ds) fun x hx => by
            obtain ⟨prev, q, hq⟩ := parseFields_each hr x hx
            obtain ⟨⟨a, ha⟩, t, ht⟩ := parseField_parts hq
            exact fieldSpec_of hname ha ht
          refine ⟨⟨y, bitfieldTokens as, d.vis, fs⟩, as, ⟨rfl, ⟨t, hty, hy⟩, has, rfl, ds, hd, hfs.mono fun _ _ h => h.1⟩,
            hyp, fun f hf => ?_, fun f hf D v hv => ⟨ds, rfl, ?_⟩⟩
          · obtain ⟨x, _, h⟩ := hfs.left f hf
            exact h.2.1
          · obtain ⟨x, hx, h⟩ := hfs.left f hf
            obtain ⟨b, hb, ts, text, h1, h2, h3⟩ := h.2.2 D v hv
            exact ⟨x, hx, b, hb, ts, text, h1, h2, h3⟩

/-! ## Malformed arguments are reported -/

/-- If it fails, then with an error message rather than a panic. -/
def Reports {α : Type} (x : P α) : Prop := ∀ e, x = .error e → ∃ msg, e = .error msg

theorem Reports.bind {α β : Type} {x : P α} {f : α → P β} (h : Reports x) (hf : ∀ a, Reports (f a)) :
    Reports (x >>= f) := by
  intro e he
  cases x with
  | error e' => cases he; exact h _ rfl
  | ok a => exact hf a e he

theorem Reports.ok {α : Type} (a : α) : Reports (.ok a : P α) := by intro e h; cases h
theorem Reports.err {α : Type} (s : String) : Reports (.error (.error s) : P α) := by intro e h; cases h; exact ⟨_, rfl⟩

theorem Reports.ite {α : Type} {c : Prop} [Decidable c] {x y : P α} (h1 : Reports x) (h2 : Reports y) :
    Reports (if c then x else y) := by split <;> assumption

theorem orderOf_reports (t : List Char) : Reports (orderOf t) := .ite (.ok _) (.ite (.ok _) (.err _))
theorem endianOf_reports (t : List Char) : Reports (endianOf t) := .ite (.ok _) (.ite (.ok _) (.err _))
theorem parseBool_reports (w : Arg) : Reports (parseBool w) := .ite (.ok _) (.ite (.ok _) (.err _))

theorem applyArg_reports {w : Arg} (hk : w.key ∈ bitfieldKeys) (r : BitfieldArgs) : Reports (applyArg r w) := by
  simp only [bitfieldKeys, List.mem_cons, List.not_mem_nil, or_false] at hk
  unfold applyArg
  rcases hk with hk | hk | hk | hk | hk | hk | hk | hk | hk | hk | hk | hk | hk | hk | hk | hk | hk | hk | hk <;>
    simp only [hk, String.reduceEq, if_true, if_false] <;>
    first
      | exact (orderOf_reports _).bind fun _ => .ok _
      | exact (endianOf_reports _).bind fun _ => .ok _
      | exact (parseBool_reports _).bind fun _ => .ok _

theorem foldlM_reports {β : Type} {step : β → Arg → P β} : ∀ {ws : List Arg} (r : β),
    (∀ w ∈ ws, ∀ r, Reports (step r w)) → Reports (ws.foldlM step r)
  | [], r, _ => .ok r
  | w :: ws, r, h => by
    rw [List.foldlM_cons]
    exact (h w (by simp) r).bind fun r => foldlM_reports r fun w hw => h w (by simp [hw])

theorem parseBitfieldArgs_reports (cfg : String → Bool) (ts : List Tok) : Reports (parseBitfieldArgs cfg ts) := by
  unfold parseBitfieldArgs
  cases hp : parseAttributeArguments bitfieldKeys ts with
  | error e =>
    intro e' he
    cases he
    exact argsLoop_err _ _ _ hp
  | ok ws => exact foldlM_reports _ fun w hw r => applyArg_reports ((parseAttributeArguments_ok hp).2 w hw) r

theorem parseBitfieldAttr_reports (cfg : String → Bool) (a : AttrInput) : Reports (parseBitfieldAttr cfg a) := by
  unfold parseBitfieldAttr
  split
  · exact .err _
  · split
    · exact .err _
    · exact .err _
    · exact .ite ((parseBitfieldArgs_reports cfg _).bind fun _ => .ok _) (.err _)

end Bf
