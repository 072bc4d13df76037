import Verif.SpecDebug
import Verif.Lemmas.Bits
import Verif.Lemmas.Store

/-!
# `Debug`: the text determines the values
-/

namespace Bf.Debug

theorem digitChar_inj {a b : Nat} (ha : a < 10) (hb : b < 10) (h : a.digitChar = b.digitChar) : a = b := by
  have h1 := Nat.toNat_digitChar_sub_48_of_lt_ten ha
  have h2 := Nat.toNat_digitChar_sub_48_of_lt_ten hb
  rw [h] at h1
  omega

theorem toDigits_inj : ∀ (a b : Nat), Nat.toDigits 10 a = Nat.toDigits 10 b → a = b := by
  intro a
  induction a using Nat.strongRecOn with
  | ind a ih =>
    intro b h
    rw [Nat.toDigits_eq_if (by decide), Nat.toDigits_eq_if (n := b) (by decide)] at h
    have nn : ∀ n, Nat.toDigits 10 n ≠ [] := fun n => Nat.toDigits_ne_nil
    split at h <;> split at h
    · simp only [List.cons.injEq, and_true] at h
      exact digitChar_inj ‹_› ‹_› h
    · have := congrArg List.length h
      have := List.length_pos_iff.mpr (nn (b / 10))
      simp at *
    · have := congrArg List.length h
      have := List.length_pos_iff.mpr (nn (a / 10))
      simp at *
    · obtain ⟨h1, h2⟩ := List.append_inj' h rfl
      simp only [List.cons.injEq, and_true] at h2
      have := ih (a / 10) (by omega) _ h1
      have := digitChar_inj (Nat.mod_lt a (by decide)) (Nat.mod_lt b (by decide)) h2
      omega

theorem number_nat (n : Nat) : number n = Nat.toDigits 10 n := Nat.toList_repr

theorem number_digits (n : Nat) : ∀ c ∈ number n, c.isDigit = true := by
  rw [number_nat]
  exact fun c hc => Nat.isDigit_of_mem_toDigits (by decide) (by decide) hc

theorem takeWhile_of {p : Char → Bool} {v r : List Char} {c : Char} (h : ∀ x ∈ v, p x = true) (hc : p c = false) :
    (v ++ c :: r).takeWhile p = v := by
  rw [List.takeWhile_append_of_pos h, List.takeWhile_cons_of_neg (by simp [hc]), List.append_nil]

/-- A number ends before the first character that is not a digit. -/
theorem number_split {a b : Nat} {c d : Char} {r r' : List Char} (hc : c.isDigit = false) (hd : d.isDigit = false)
    (h : number a ++ c :: r = number b ++ d :: r') : a = b ∧ c :: r = d :: r' := by
  have h1 := congrArg (List.takeWhile Char.isDigit) h
  rw [takeWhile_of (number_digits a) hc, takeWhile_of (number_digits b) hd] at h1
  rw [h1] at h
  rw [number_nat, number_nat] at h1
  exact ⟨toDigits_inj _ _ h1, List.append_cancel_left h⟩

theorem join_split {r r' : List Char} : ∀ (bs cs : List (BitVec 8)), bs.length = cs.length →
    join [',', ' '] (bs.map fun b => number b.toNat) ++ ']' :: r = join [',', ' '] (cs.map fun b => number b.toNat) ++ ']' :: r' →
    bs = cs ∧ r = r'
  | [], [], _, h => by simpa [join] using h
  | [b], [c], _, h => by
    obtain ⟨h1, h2⟩ := number_split rfl rfl h
    simp only [List.cons.injEq, true_and] at h2
    exact ⟨by rw [BitVec.eq_of_toNat_eq h1], h2⟩
  | b :: b' :: bs, c :: c' :: cs, hl, h => by
    simp only [List.map_cons, join, List.append_assoc, List.cons_append, List.nil_append] at h
    obtain ⟨h1, h2⟩ := number_split rfl rfl h
    simp only [List.cons.injEq, true_and] at h2
    obtain ⟨h3, h4⟩ := join_split (b' :: bs) (c' :: cs) (by simpa using hl) h2
    exact ⟨by rw [BitVec.eq_of_toNat_eq h1, h3], h4⟩
  | [], _ :: _, hl, _ => by simp at hl
  | _ :: _, [], hl, _ => by simp at hl
  | [_], _ :: _ :: _, hl, _ => by simp at hl
  | _ :: _ :: _, [_], hl, _ => by simp at hl

theorem pad_plain {l : List Char} (h : ∀ c ∈ l, c ≠ '\n') (r : List Char) : ∀ b, l ≠ [] →
    pad b (l ++ r) = (if b then [' ', ' ', ' ', ' '] else []) ++ l ++ pad false r := by
  induction l with
  | nil => exact fun _ h => absurd rfl h
  | cons c l ih =>
    intro b _
    have hc : (c == '\n') = false := beq_eq_false_iff_ne.mpr (h c (.head _))
    simp only [List.cons_append, pad, hc, List.append_assoc]
    by_cases hl : l = []
    · simp [hl]
    · rw [ih (fun c hc => h c (.tail _ hc)) false hl]
      simp

theorem digit_ne_newline {c : Char} (h : c.isDigit = true) : c ≠ '\n' := by
  rintro rfl
  exact absurd h (by decide)

theorem number_ne_nil (n : Nat) : number n ≠ [] := by rw [number_nat]; exact Nat.toDigits_ne_nil

theorem pad_item (n : Nat) : pad true (number n ++ [',', '\n']) = [' ', ' ', ' ', ' '] ++ number n ++ [',', '\n'] := by
  rw [pad_plain (fun c hc => digit_ne_newline (number_digits n c hc)) _ _ (number_ne_nil n)]
  rfl

theorem items_split {r r' : List Char} : ∀ (bs cs : List (BitVec 8)), bs.length = cs.length →
    ((bs.map fun b => number b.toNat).flatMap fun x => pad true (x ++ [',', '\n'])) ++ ']' :: r =
      ((cs.map fun b => number b.toNat).flatMap fun x => pad true (x ++ [',', '\n'])) ++ ']' :: r' → bs = cs ∧ r = r'
  | [], [], _, h => by simpa using h
  | b :: bs, c :: cs, hl, h => by
    simp only [List.map_cons, List.flatMap_cons, pad_item, List.append_assoc, List.cons_append, List.nil_append,
      List.cons.injEq, true_and] at h
    obtain ⟨h1, h2⟩ := number_split rfl rfl h
    simp only [List.cons.injEq, true_and] at h2
    obtain ⟨h3, h4⟩ := items_split bs cs (by simpa using hl) h2
    exact ⟨by rw [BitVec.eq_of_toNat_eq h1, h3], h4⟩
  | [], _ :: _, hl, _ => by simp at hl
  | _ :: _, [], hl, _ => by simp at hl

/-- Values of the same kind: natural numbers, or byte arrays of one length. -/
inductive Alike : Val → Val → Prop
  | int (a b : Nat) : Alike (.int a) (.int b)
  | arr {bs cs} (h : bs.length = cs.length) : Alike (.arr bs) (.arr cs)

theorem value_split {user} {alt : Bool} {v w : Val} {c d : Char} {r r' : List Char} (hk : Alike v w) (hc : c.isDigit = false)
    (hd : d.isDigit = false) (h : value user alt v ++ c :: r = value user alt w ++ d :: r') : v = w ∧ c :: r = d :: r' := by
  cases hk with
  | int a b =>
    obtain ⟨h1, h2⟩ := number_split hc hd h
    exact ⟨by rw [h1], h2⟩
  | arr hl =>
    rename_i bs cs
    cases bs with
    | nil =>
      cases cs with
      | nil => exact ⟨rfl, List.append_cancel_left h⟩
      | cons => simp at hl
    | cons b bs =>
      cases cs with
      | nil => simp at hl
      | cons c cs =>
        cases alt with
        | false =>
          simp only [value, list, List.map_cons, List.isEmpty_cons, Bool.false_eq_true, if_false, List.append_assoc,
            List.cons_append, List.nil_append, List.cons.injEq, true_and] at h
          obtain ⟨h1, h2⟩ := join_split (b :: bs) (c :: cs) hl h
          exact ⟨by rw [h1], h2⟩
        | true =>
          simp only [value, list, List.isEmpty_cons, Bool.false_eq_true, if_false, if_true, List.append_assoc,
            List.cons_append, List.nil_append, List.cons.injEq, true_and, List.map_cons] at h
          obtain ⟨h1, h2⟩ := items_split (b :: bs) (c :: cs) hl h
          exact ⟨by rw [h1], h2⟩

theorem pad_inj : ∀ (x y : List Char) (b : Bool), pad b x = pad b y → x = y
  | [], [], _, _ => rfl
  | c :: x, d :: y, b, h => by
    have h1 := List.append_cancel_left h
    simp only [List.cons.injEq] at h1
    obtain ⟨rfl, h1⟩ := h1
    rw [pad_inj x y _ h1]
  | [], d :: y, b, h => by cases b <;> simp [pad] at h
  | c :: x, [], b, h => by cases b <;> simp [pad] at h

theorem pad_append_newline (x y : List Char) : ∀ b, pad b (x ++ '\n' :: y) = pad b (x ++ ['\n']) ++ pad true y := by
  induction x with
  | nil => intro b; simp [pad]
  | cons c x ih => intro b; simp [pad, ih]

section
variable {α : Type} {name : α → List Char} {V W : α → Val} {user : Nat → List Char}

theorem rows_pad (T : α → List Char) : ∀ fs : List α,
    (fs.flatMap fun f => pad true (T f ++ [',', '\n'])) = pad true (fs.flatMap fun f => T f ++ [',', '\n'])
  | [] => rfl
  | f :: fs => by
    rw [List.flatMap_cons, List.flatMap_cons, rows_pad T fs]
    have := pad_append_newline (T f ++ [',']) (fs.flatMap fun f => T f ++ [',', '\n']) true
    simp only [List.append_assoc, List.cons_append, List.nil_append] at this ⊢
    exact this.symm

theorem rows_alt : ∀ fs : List α, (∀ f ∈ fs, Alike (V f) (W f)) →
    (fs.flatMap fun f => name f ++ [':', ' '] ++ value user true (V f) ++ [',', '\n']) =
      (fs.flatMap fun f => name f ++ [':', ' '] ++ value user true (W f) ++ [',', '\n']) → ∀ f ∈ fs, V f = W f
  | [], _, _ => fun _ h => by cases h
  | f :: fs, hk, h => by
    simp only [List.flatMap_cons, List.append_assoc, List.cons_append, List.nil_append] at h
    have h1 := List.append_cancel_left h
    simp only [List.cons.injEq, true_and] at h1
    obtain ⟨h2, h3⟩ := value_split (hk f (.head _)) rfl rfl h1
    simp only [List.cons.injEq, true_and] at h3
    intro g hg
    cases hg with
    | head => exact h2
    | tail _ hg =>
      refine rows_alt fs (fun g hg => hk g (.tail _ hg)) ?_ g hg
      simpa only [List.append_assoc, List.cons_append, List.nil_append] using h3

theorem rows_join : ∀ fs : List α, (∀ f ∈ fs, Alike (V f) (W f)) →
    join [',', ' '] (fs.map fun f => name f ++ [':', ' '] ++ value user false (V f)) ++ [' ', '}'] =
      join [',', ' '] (fs.map fun f => name f ++ [':', ' '] ++ value user false (W f)) ++ [' ', '}'] → ∀ f ∈ fs, V f = W f
  | [], _, _ => fun _ h => by cases h
  | [f], hk, h => by
    simp only [List.map_cons, List.map_nil, join, List.append_assoc, List.cons_append, List.nil_append] at h
    have h1 := List.append_cancel_left h
    simp only [List.cons.injEq, true_and] at h1
    obtain ⟨h2, -⟩ := value_split (hk f (.head _)) rfl rfl h1
    intro g hg
    cases hg with
    | head => exact h2
    | tail _ hg => cases hg
  | f :: f' :: fs, hk, h => by
    simp only [List.map_cons, join, List.append_assoc, List.cons_append, List.nil_append] at h
    have h1 := List.append_cancel_left h
    simp only [List.cons.injEq, true_and] at h1
    obtain ⟨h2, h3⟩ := value_split (hk f (.head _)) rfl rfl h1
    simp only [List.cons.injEq, true_and] at h3
    intro g hg
    cases hg with
    | head => exact h2
    | tail _ hg =>
      refine rows_join (f' :: fs) (fun g hg => hk g (.tail _ hg)) ?_ g hg
      simpa only [List.map_cons, List.append_assoc, List.cons_append, List.nil_append] using h3

theorem struct_inj {alt : Bool} {title : List Char} {fs : List α} (hk : ∀ f ∈ fs, Alike (V f) (W f))
    (h : struct alt title (fs.map fun f => (name f, value user alt (V f))) =
      struct alt title (fs.map fun f => (name f, value user alt (W f)))) : ∀ f ∈ fs, V f = W f := by
  cases fs with
  | nil => exact fun _ h => by cases h
  | cons f fs =>
    cases alt with
    | false =>
      simp only [struct, List.map_cons, List.isEmpty_cons, Bool.false_eq_true, if_false, List.append_assoc] at h
      have h1 := List.append_cancel_left h
      have h2 := List.append_cancel_left h1
      refine rows_join (name := name) (user := user) (f :: fs) hk ?_
      simpa only [List.map_cons, List.map_map, Function.comp_def, List.append_assoc] using h2
    | true =>
      unfold struct at h
      simp only [List.map_cons, List.isEmpty_cons, Bool.false_eq_true, if_false, if_true, List.append_assoc] at h
      have h1 := List.append_cancel_left h
      have h2 := List.append_cancel_left h1
      have h3 := List.append_cancel_right h2
      refine rows_alt (name := name) (user := user) (f :: fs) hk (pad_inj _ _ true ?_)
      rw [← rows_pad (fun f => name f ++ [':', ' '] ++ value user true (V f)),
        ← rows_pad (fun f => name f ++ [':', ' '] ++ value user true (W f))]
      simpa only [List.flatMap_cons, List.flatMap_map, List.append_assoc] using h3

end

end Bf.Debug
