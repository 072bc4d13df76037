import Verif.Lemmas.DebugText
import Verif.Lemmas.WordsAll
import Verif.Lemmas.WordsFlag
import Verif.Props.FlagText
import Verif.Props.Text

/-!
# The words of the generated code (C78)
-/

namespace Bf.Text

/-- **C78** (words). Each token of the expansion of a bitfield is a word of a fixed list, or the user wrote it, or it is
a name made of one that the user wrote, or it is no name at all. -/
theorem C78_words (P : Printer) : ∀ t ∈ expansionTokens P, Printed P t := Words.expansionTokens_all

/-- **C78** (words, bitflag). The same for a bitflag enum. -/
theorem C78_bitflag_words {P : FlagPrinter} {ts : List Tok} (h : flagTokens P = .ok ts) : ∀ t ∈ ts, FlagPrinted P t :=
  FlagWords.flag_all h

private theorem unwanted_words {x : String} (h : x ∈ unwanted) : x ∉ words ∧ x ∉ flagWords := by
  have : ∀ y ∈ unwanted, y ∉ words ∧ y ∉ flagWords := by decide +kernel
  exact this x h

private theorem unwanted_suffix {x : String} (h : x ∈ unwanted) :
    ∀ s ∈ ["Builder", "_BITS", "_OFFSET", "_to_default", "_inverted"], ¬s.toList <:+ x.toList := by
  have : ∀ y ∈ unwanted, ∀ s ∈ ["Builder", "_BITS", "_OFFSET", "_to_default", "_inverted"], ¬s.toList <:+ y.toList := by
    decide +kernel
  exact this x h

private theorem unwanted_prefix {x : String} (h : x ∈ unwanted) :
    ∀ s ∈ ["set_", "checked_set_", "clear_", "invert_", "with_", "checked_with_"], ¬s.toList <+: x.toList := by
  have : ∀ y ∈ unwanted, ∀ s ∈ ["set_", "checked_set_", "clear_", "invert_", "with_", "checked_with_"],
      ¬s.toList <+: y.toList := by decide +kernel
  exact this x h

private theorem unwanted_type {x : String} (h : x ∈ unwanted) (w : Nat) : x ≠ "u" ++ toString w := by
  have key : ∀ y ∈ unwanted, ¬(y.toList.head? = some 'u' ∧ ∀ c ∈ y.toList.tail, c.isDigit = true) := by decide +kernel
  rintro rfl
  refine key _ h ⟨by simp, ?_⟩
  have : ("u" ++ toString w).toList.tail = Debug.number w := by
    rw [String.toList_append]; rfl
  rw [this]
  exact Debug.number_digits w

private theorem ident_of {x n : String} (h : x ∈ unwanted) {a : Accessor} (e : a.ident n = x) : n = x := by
  have hs := unwanted_suffix h
  have hp := unwanted_prefix h
  subst e
  cases a with
  | get => rfl
  | bitsConst => exact (hs "_BITS" (by decide) (by simp [Accessor.ident])).elim
  | offsetConst => exact (hs "_OFFSET" (by decide) (by simp [Accessor.ident])).elim
  | inverted => exact (hs "_inverted" (by decide) (by simp [Accessor.ident])).elim
  | set => exact (hp "set_" (by decide) (by simp [Accessor.ident])).elim
  | checkedSet => exact (hp "checked_set_" (by decide) (by simp [Accessor.ident])).elim
  | clear | clearToDefault => exact (hp "clear_" (by decide) (by simp [Accessor.ident])).elim
  | invert => exact (hp "invert_" (by decide) (by simp [Accessor.ident])).elim
  | builderWith => exact (hp "with_" (by decide) (by simp [Accessor.ident])).elim
  | builderCheckedWith => exact (hp "checked_with_" (by decide) (by simp [Accessor.ident])).elim

/-- **C78** (nothing unwanted). A word like `unsafe`, `unwrap`, `panic` or `static`, or the name of this crate, is in the
expansion only if the user wrote it: as the name of the struct or of a field, or in a default. -/
theorem C78_unwanted {P : Printer} {x : String} (hx : x ∈ unwanted) (hn : P.name ≠ x) (hi : ∀ y ∈ P.ignored, y.1 ≠ x)
    (hf : ∀ f ∈ P.B.fields, f.name ≠ x) (hd : ∀ f ∈ P.B.fields, f.hasDefault = true → Tok.ident x ∉ P.default f.offset) :
    Tok.ident x ∉ expansionTokens P := by
  intro h
  have h := C78_words P _ h
  generalize ht : Tok.ident x = t at h
  cases h with
  | word hw => cases ht; exact (unwanted_words hx).1 hw
  | storage => cases ht; exact unwanted_type hx _ rfl
  | name => exact hn (Tok.ident.inj ht).symm
  | builder =>
    refine unwanted_suffix hx "Builder" (by decide) ?_
    rw [Tok.ident.inj ht]
    simp
  | ignored hm => exact hi _ hm (Tok.ident.inj ht).symm
  | field hm a => exact hf _ hm (ident_of hx (Tok.ident.inj ht).symm)
  | default hm hdef hin => subst ht; exact hd _ hm hdef hin
  | _ => cases ht

/-- **C78** (nothing unwanted, bitflag). The same for a bitflag enum. -/
theorem C78_bitflag_unwanted {P : FlagPrinter} {ts : List Tok} (h : flagTokens P = .ok ts) {x : String} (hx : x ∈ unwanted)
    (hn : P.name ≠ x) (hv : ∀ v ∈ P.F.variants, v.name ≠ x ∧ Tok.ident x ∉ P.value v.name) : Tok.ident x ∉ ts := by
  intro h1
  have h1 := C78_bitflag_words h _ h1
  generalize ht : Tok.ident x = t at h1
  cases h1 with
  | word hw => cases ht; exact (unwanted_words hx).2 hw
  | name => exact hn (Tok.ident.inj ht).symm
  | variant hm => exact (hv _ hm).1 (Tok.ident.inj ht).symm
  | value hm hin => subst ht; exact (hv _ hm).2 hin
  | _ => cases ht

/-- **C78** (templates filled in). If the defaults are Rust tokens, so is the whole expansion: no `#name` and no `#( )*` of
a template is left, and every character of the templates belongs to a token. -/
theorem C78_filled {P : Printer}
    (hd : ∀ f ∈ P.B.fields, f.hasDefault = true → ∀ t ∈ P.default f.offset, (∀ n, t ≠ .hole n) ∧ t ≠ .rep ∧ ∀ c, t ≠ .bad c) :
    ∀ t ∈ expansionTokens P, (∀ n, t ≠ .hole n) ∧ t ≠ .rep ∧ ∀ c, t ≠ .bad c := by
  intro t ht
  cases C78_words P t ht with
  | default hm hdef hin => exact hd _ hm hdef _ hin
  | _ => exact ⟨nofun, nofun, nofun⟩

/-! ## Examples -/

/-- Whether a word is among the tokens. -/
def mentions (x : String) (ts : List Tok) : Bool := ts.any fun t => match t with | .ident y => y == x | _ => false

example : Tok.ident "unsafe" ∉ expansionTokens Ex.printer :=
  C78_unwanted (by decide) (by decide +kernel) (by decide +kernel) (by decide +kernel) (fun _ _ _ h => by
    have : Tok.ident "unsafe" ∈ [Tok.int 5 ""] := h
    simp at this)

example : ∀ ts, flagTokens ExFlagText.P = .ok ts → Tok.ident "unwrap" ∉ ts := fun _ h =>
  C78_bitflag_unwanted h (by decide) (by decide +kernel) fun v hv => by
    simp only [ExFlagText.P, ExFlagText.F, List.mem_cons, List.not_mem_nil, or_false] at hv
    rcases hv with rfl | rfl | rfl | rfl <;> simp [ExFlagText.P]

example : ∀ t ∈ expansionTokens Ex.printer, (∀ n, t ≠ .hole n) ∧ t ≠ .rep ∧ ∀ c, t ≠ .bad c :=
  C78_filled fun _ _ _ t ht => by
    have : t ∈ [Tok.int 5 ""] := ht
    cases this with
    | head => exact ⟨nofun, nofun, nofun⟩
    | tail _ h => cases h

/-- The expansion does contain words of the list. -/
example : mentions "from_bits" (expansionTokens Ex.printer) = true := by decide +kernel

/-- What the user writes is kept: a default that calls an unsafe function is printed as it is. -/
example : mentions "unsafe" (expansionTokens { Ex.printer with
    default := fun _ => [.ident "unsafe", .opn .brace, .ident "start", .opn .paren, .cls .paren, .cls .brace] }) = true := by
  decide +kernel

end Bf.Text
