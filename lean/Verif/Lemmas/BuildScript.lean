import Verif.Model.BuildScript
import Verif.SpecBuild

/-! Searching in texts, for `Props/BuildScript.lean`. -/

namespace Bf.Docs

open DocsSpec

/-- No proper end of the pattern is a beginning of it. -/
def BorderFree (p : Text) : Prop := ∀ k, k < p.length → 0 < k → ¬ p.drop k <+: p

instance (p : Text) : Decidable (BorderFree p) := by unfold BorderFree; infer_instance

theorem find_some {p s a b : Text} (h : find p s = some (a, b)) : s = a ++ p ++ b ∧ ¬ (p ≠ [] ∧ p <:+: a) := by
  induction s generalizing a b with
  | nil =>
    unfold find at h
    split at h
    · rename_i hp
      cases h
      have : p = [] := by simpa using hp
      simp [this]
    · cases h
  | cons c s ih =>
    unfold find at h
    split at h
    · rename_i hp
      cases h
      rw [List.isPrefixOf_iff_prefix] at hp
      obtain ⟨t, ht⟩ := hp
      refine ⟨by rw [← ht]; simp, fun ⟨h1, h2⟩ => h1 (List.infix_nil.mp h2)⟩
    · rename_i hp
      rw [List.isPrefixOf_iff_prefix] at hp
      cases hf : find p s with
      | none => rw [hf] at h; cases h
      | some r =>
        rw [hf] at h
        cases h
        obtain ⟨h1, h2⟩ := ih (a := r.1) (b := r.2) hf
        refine ⟨by simp [h1], fun ⟨h3, h4⟩ => ?_⟩
        rcases List.infix_cons_iff.mp h4 with h5 | h5
        · exact hp (h5.trans ⟨p ++ r.2, by rw [h1]; simp⟩)
        · exact h2 ⟨h3, h5⟩

theorem find_none {p s : Text} : find p s = none ↔ ¬ p <:+: s := by
  induction s with
  | nil =>
    unfold find
    simp only [List.infix_nil]
    cases p <;> simp
  | cons c s ih =>
    unfold find
    rw [List.infix_cons_iff]
    split
    · rename_i hp
      rw [List.isPrefixOf_iff_prefix] at hp
      simp [hp]
    · rename_i hp
      rw [List.isPrefixOf_iff_prefix] at hp
      simp [ih, hp]

/-- A pattern that begins before an occurrence of itself ends before it. -/
theorem prefix_before {p a b : Text} (hb : BorderFree p) (ha : a ≠ []) (h : p <+: a ++ p ++ b) : p <+: a := by
  rw [List.append_assoc] at h
  rcases Nat.lt_or_ge a.length p.length with hl | hl
  · have h1 : a <+: p := List.prefix_of_prefix_length_le (List.prefix_append a (p ++ b)) h (Nat.le_of_lt hl)
    obtain ⟨t, ht⟩ := h1
    have hd : p.drop a.length = t := by rw [← ht]; simp
    refine absurd ?_ (hb a.length hl (List.length_pos_iff.mpr ha))
    rw [hd]
    have h2 : t <+: p ++ b := by
      rw [← ht] at h
      have := (List.prefix_append_right_inj a).mp h
      rw [ht] at this
      exact this
    refine List.prefix_of_prefix_length_le h2 (List.prefix_append p b) ?_
    rw [← ht]; simp
  · exact List.prefix_of_prefix_length_le h (List.prefix_append a (p ++ b)) hl

/-- The first occurrence. -/
theorem find_of {p a b : Text} (hb : BorderFree p) (ha : ¬ p <:+: a) : find p (a ++ p ++ b) = some (a, b) := by
  induction a with
  | nil =>
    simp only [List.nil_append]
    cases p with
    | nil => exact absurd (List.nil_infix) ha
    | cons c q =>
      rw [List.cons_append, find, if_pos (List.isPrefixOf_iff_prefix.mpr (by rw [← List.cons_append]; exact List.prefix_append _ _))]
      rw [← List.cons_append, List.drop_left]
  | cons c a ih =>
    rw [List.infix_cons_iff, not_or] at ha
    rw [List.cons_append, List.cons_append, find, if_neg, ih ha.2]
    · rfl
    · rw [List.isPrefixOf_iff_prefix]
      exact fun h => ha.1 (prefix_before hb (by simp) h)

/-- An occurrence in the end of the pattern and what follows is in what follows. -/
theorem infix_after {p x b : Text} (hb : BorderFree p) (hx : x <:+ p) (hl : x.length < p.length) (h : p <:+: x ++ b) :
    p <:+: b := by
  induction x with
  | nil => exact h
  | cons c x ih =>
    rw [List.cons_append, List.infix_cons_iff] at h
    rcases h with h | h
    · obtain ⟨a, ha⟩ := hx
      have h1 : c :: x <+: p := List.prefix_of_prefix_length_le (by rw [← List.cons_append]; exact List.prefix_append _ _) h (Nat.le_of_lt hl)
      have hd : p.drop a.length = c :: x := by rw [← ha]; simp
      refine absurd (hd ▸ h1) (hb a.length ?_ ?_)
      · rw [← ha]; simp
      · rw [← ha] at hl; simp at hl; omega
    · exact ih (List.IsSuffix.trans (List.suffix_cons c x) hx) (by simp at hl; omega) h

theorem rfind_none {p s : Text} : rfind p s = none ↔ ¬ p <:+: s := by
  induction s with
  | nil =>
    unfold rfind
    simp only [List.infix_nil]
    cases p <;> simp
  | cons c s ih =>
    unfold rfind
    rw [List.infix_cons_iff]
    cases hf : rfind p s with
    | some r =>
      rw [hf] at ih
      simp only [reduceCtorEq, false_iff, Decidable.not_not] at ih
      simp [ih]
    | none =>
      rw [hf] at ih
      simp only [true_iff] at ih
      simp [ih]

/-- The last occurrence. -/
theorem rfind_of {p a b : Text} (hp : p ≠ []) (hb : BorderFree p) (h : ¬ p <:+: b) : rfind p (a ++ p ++ b) = some (a, b) := by
  induction a with
  | nil =>
    simp only [List.nil_append]
    cases p with
    | nil => exact absurd rfl hp
    | cons c q =>
      have hn : rfind (c :: q) (q ++ b) = none := rfind_none.mpr fun h1 =>
        h (infix_after hb (List.suffix_cons c q) (by simp) h1)
      rw [List.cons_append, rfind, hn]
      simp only
      rw [if_pos (List.isPrefixOf_iff_prefix.mpr (by rw [← List.cons_append]; exact List.prefix_append _ _))]
      rw [← List.cons_append, List.drop_left]
  | cons c a ih =>
    rw [List.cons_append, List.cons_append, rfind, ih]

theorem rfind_some {p s a b : Text} (hb : BorderFree p) (h : rfind p s = some (a, b)) :
    s = a ++ p ++ b ∧ ¬ (p ≠ [] ∧ p <:+: b) := by
  induction s generalizing a b with
  | nil =>
    unfold rfind at h
    split at h
    · rename_i hp
      cases h
      have : p = [] := by simpa using hp
      simp [this]
    · cases h
  | cons c s ih =>
    unfold rfind at h
    cases hf : rfind p s with
    | some r =>
      rw [hf] at h
      cases h
      obtain ⟨h1, h2⟩ := ih (a := r.1) (b := r.2) hf
      exact ⟨by simp [h1], h2⟩
    | none =>
      rw [hf] at h
      simp only at h
      split at h
      · rename_i hp
        cases h
        rw [List.isPrefixOf_iff_prefix] at hp
        obtain ⟨t, ht⟩ := hp
        refine ⟨by rw [← ht]; simp, fun ⟨h1, h2⟩ => ?_⟩
        have hn := rfind_none.mp hf
        cases p with
        | nil => exact h1 rfl
        | cons d q =>
          rw [← ht, List.drop_left] at h2
          simp only [List.cons_append, List.cons.injEq] at ht
          apply hn
          rw [← ht.2]
          exact h2.trans (List.suffix_append q t).isInfix
      · cases h

/-! ## Characters that do not occur in the pattern -/

theorem prefix_stop {c : Char} {p x y : Text} (hc : c ∉ p) (h : p <+: x ++ c :: y) : p <+: x := by
  induction x generalizing p with
  | nil =>
    cases p with
    | nil => exact List.nil_prefix
    | cons d p =>
      rw [List.nil_append, List.cons_prefix_cons] at h
      exact absurd (h.1 ▸ List.mem_cons_self) hc
  | cons d x ih =>
    cases p with
    | nil => exact List.nil_prefix
    | cons e p =>
      rw [List.cons_append, List.cons_prefix_cons] at h
      exact List.cons_prefix_cons.mpr ⟨h.1, ih (fun hm => hc (List.mem_cons_of_mem _ hm)) h.2⟩

theorem infix_stop {c : Char} {p x y : Text} (hp : p ≠ []) (hc : c ∉ p) :
    p <:+: x ++ c :: y ↔ p <:+: x ∨ p <:+: y := by
  constructor
  · intro h
    induction x with
    | nil =>
      rw [List.nil_append, List.infix_cons_iff] at h
      rcases h with h | h
      · cases p with
        | nil => exact absurd rfl hp
        | cons d p =>
          rw [List.cons_prefix_cons] at h
          exact absurd (h.1 ▸ List.mem_cons_self) hc
      · exact .inr h
    | cons d x ih =>
      rw [List.cons_append, List.infix_cons_iff] at h
      rcases h with h | h
      · rw [← List.cons_append] at h
        exact .inl (prefix_stop hc h).isInfix
      · rcases ih h with h | h
        · exact .inl (List.infix_cons h)
        · exact .inr h
  · rintro (h | h)
    · exact h.trans (List.prefix_append _ _).isInfix
    · exact h.trans (((List.suffix_cons c y).trans (List.suffix_append _ _)).isInfix)

/-! ## Trimming -/

theorem isSpace_iff (c : Char) : isSpace c = true ↔ White c := by
  simp only [isSpace, White, Bool.or_eq_true, Bool.and_eq_true, decide_eq_true_eq, List.mem_cons, List.not_mem_nil, or_false]
  omega

theorem dropWhile_white {p : Char → Bool} {a t : Text} (ha : ∀ c ∈ a, p c = true) (ht : ∀ c, t.head? = some c → p c = false) :
    (a ++ t).dropWhile p = t := by
  induction a with
  | nil =>
    cases t with
    | nil => rfl
    | cons c t => rw [List.nil_append, List.dropWhile_cons_of_neg (by simp [ht c rfl])]
  | cons c a ih =>
    rw [List.cons_append, List.dropWhile_cons_of_pos (ha c List.mem_cons_self)]
    exact ih fun d hd => ha d (List.mem_cons_of_mem _ hd)

theorem trimmed_unique {s t : Text} (h : Trimmed s t) : trimmed s = t := by
  obtain ⟨a, b, rfl, ha, hb, h1, h2⟩ := h
  have f : ∀ c, ¬ White c → isSpace c = false := fun c hc => by
    rw [← Bool.not_eq_true, isSpace_iff]; exact hc
  unfold trimmed
  by_cases ht : t = []
  · subst ht
    have : (a ++ [] ++ b).dropWhile isSpace = [] := by
      have := dropWhile_white (p := isSpace) (a := a ++ b) (t := []) (fun c hc => by
        rw [isSpace_iff]
        rcases List.mem_append.mp hc with hc | hc
        · exact ha c hc
        · exact hb c hc) (fun c hc => by cases hc)
      simpa using this
    rw [this]; rfl
  · rw [List.append_assoc, dropWhile_white (fun c hc => (isSpace_iff c).mpr (ha c hc)), List.reverse_append,
      dropWhile_white, List.reverse_reverse]
    · intro c hc
      exact (isSpace_iff c).mpr (hb c (List.mem_reverse.mp hc))
    · intro c hc
      rw [List.head?_reverse] at hc
      exact f c (h2 c hc)
    · intro c hc
      cases t with
      | nil => exact absurd rfl ht
      | cons d t => exact f c (h1 c hc)

theorem dropWhile_split (p : Char → Bool) (s : Text) :
    ∃ a, s = a ++ s.dropWhile p ∧ (∀ c ∈ a, p c = true) ∧ ∀ c, (s.dropWhile p).head? = some c → p c = false := by
  induction s with
  | nil => exact ⟨[], rfl, by simp, by simp⟩
  | cons c s ih =>
    by_cases hc : p c = true
    · obtain ⟨a, h1, h2, h3⟩ := ih
      refine ⟨c :: a, ?_, ?_, ?_⟩
      · rw [List.dropWhile_cons_of_pos hc, List.cons_append, ← h1]
      · simpa [hc] using h2
      · rw [List.dropWhile_cons_of_pos hc]; exact h3
    · rw [List.dropWhile_cons_of_neg hc]
      refine ⟨[], rfl, by simp, ?_⟩
      intro d hd
      cases hd
      simpa using hc

theorem trimmed_spec (s : Text) : Trimmed s (trimmed s) := by
  obtain ⟨a, h1, h2, h3⟩ := dropWhile_split isSpace s
  obtain ⟨b, h4, h5, h6⟩ := dropWhile_split isSpace (s.dropWhile isSpace).reverse
  have f : ∀ c, isSpace c = false → ¬ White c := fun c hc => by
    rw [← isSpace_iff, hc]; simp
  have h7 : s.dropWhile isSpace = trimmed s ++ b.reverse := by
    have := congrArg List.reverse h4
    rw [List.reverse_reverse, List.reverse_append] at this
    exact this
  refine ⟨a, b.reverse, ?_, fun c hc => (isSpace_iff c).mp (h2 c hc),
    fun c hc => (isSpace_iff c).mp (h5 c (List.mem_reverse.mp hc)), fun c hc => f c (h3 c ?_), fun c hc => f c (h6 c ?_)⟩
  · rw [List.append_assoc, ← h7, ← h1]
  · rw [h7]
    cases ht : trimmed s with
    | nil => rw [ht] at hc; cases hc
    | cons d t => rw [ht] at hc; exact hc
  · unfold trimmed at hc
    rw [List.getLast?_reverse] at hc
    exact hc

theorem trimmed_infix (s : Text) : trimmed s <:+: s := by
  obtain ⟨a, b, h, -⟩ := trimmed_spec s
  exact ⟨a, b, h.symm⟩

/-! ## Sections -/

section

variable {S E : Text}

theorem extractLoop_open (fuel : Nat) (out rest : Text) (h : ¬ E <:+: rest) : extractLoop S E fuel out rest = out := by
  induction fuel generalizing rest with
  | zero => rfl
  | succ n ih =>
    unfold extractLoop
    cases hf : find S rest with
    | none => rfl
    | some r =>
      obtain ⟨a, b⟩ := r
      have h1 := (find_some hf).1
      have h2 : ¬ E <:+: b := fun h' => h (h'.trans ⟨a ++ S, [], by simp [h1]⟩)
      simp only [find_none.mpr h2]
      exact ih b h2

theorem extractLoop_eq (hS : S ≠ []) (bS : BorderFree S) (bE : BorderFree E) {s : Text} {xs : List Text}
    (h : Sections S E s xs) : ∀ fuel out, s.length < fuel →
      extractLoop S E fuel out s = out ++ xs.flatMap fun x => trimmed x ++ ['\n', '\n'] := by
  induction h with
  | none h =>
    intro fuel out hl
    cases fuel with
    | zero => omega
    | succ n => simp [extractLoop, find_none.mpr h]
  | unclosed ha hs =>
    intro fuel out hl
    cases fuel with
    | zero => omega
    | succ n =>
      rw [extractLoop, find_of bS ha]
      simp only [find_none.mpr hs, List.flatMap_nil, List.append_nil]
      exact extractLoop_open n out _ hs
  | @«section» a x s xs ha hx hr ih =>
    intro fuel out hl
    cases fuel with
    | zero => omega
    | succ n =>
      have e : a ++ S ++ x ++ E ++ s = a ++ S ++ (x ++ E ++ s) := by simp
      rw [extractLoop, e, find_of bS ha]
      simp only [find_of bE hx]
      rw [ih]
      · simp
      · have := List.length_pos_iff.mpr hS
        simp only [List.length_append] at hl
        omega

theorem sections_exist (hS : S ≠ []) (hE : E ≠ []) (s : Text) : ∃ xs, Sections S E s xs := by
  induction hn : s.length using Nat.strongRecOn generalizing s with
  | _ n ih =>
    cases hf : find S s with
    | none => exact ⟨[], .none (find_none.mp hf)⟩
    | some r =>
      obtain ⟨a, s1⟩ := r
      obtain ⟨h1, h2⟩ := find_some hf
      have ha : ¬ S <:+: a := fun h => h2 ⟨hS, h⟩
      cases hg : find E s1 with
      | none => rw [h1]; exact ⟨[], .unclosed ha (find_none.mp hg)⟩
      | some r =>
        obtain ⟨x, s2⟩ := r
        obtain ⟨h3, h4⟩ := find_some hg
        have hx : ¬ E <:+: x := fun h => h4 ⟨hE, h⟩
        have hl : s2.length < n := by
          have := List.length_pos_iff.mpr hS
          have e := congrArg List.length h1
          have e' := congrArg List.length h3
          simp only [List.length_append] at e e'
          omega
        obtain ⟨xs, hxs⟩ := ih _ hl s2 rfl
        refine ⟨x :: xs, ?_⟩
        have : s = a ++ S ++ x ++ E ++ s2 := by rw [h1, h3]; simp
        rw [this]
        exact .section ha hx hxs

theorem sections_unique (bS : BorderFree S) (bE : BorderFree E) {s : Text} {xs ys : List Text} (h : Sections S E s xs)
    (h' : Sections S E s ys) : xs = ys := by
  induction h generalizing ys with
  | none h =>
    cases h' with
    | none => rfl
    | unclosed ha hs => rfl
    | «section» ha hx hr => exact absurd ⟨_, _, by simp only [List.append_assoc]; rfl⟩ h
  | @unclosed a s ha hs =>
    generalize ht : a ++ S ++ s = t at h'
    cases h' with
    | none => rfl
    | unclosed ha hs => rfl
    | @«section» a' x' s' xs' ha' hx' hr' =>
      have e : a' ++ S ++ x' ++ E ++ s' = a' ++ S ++ (x' ++ E ++ s') := by simp
      rw [e] at ht
      have := find_of (b := s) bS ha
      rw [ht, find_of bS ha'] at this
      cases this
      exact absurd ⟨x', s', rfl⟩ hs
  | @«section» a x s xs ha hx hr ih =>
    have e : a ++ S ++ x ++ E ++ s = a ++ S ++ (x ++ E ++ s) := by simp
    rw [e] at h'
    generalize ht : a ++ S ++ (x ++ E ++ s) = t at h'
    cases h' with
    | none h => exact absurd ⟨a, x ++ E ++ s, by simpa using ht⟩ h
    | @unclosed a' s' ha' hs' =>
      have := find_of (b := x ++ E ++ s) bS ha
      rw [ht, find_of bS ha'] at this
      cases this
      exact absurd ⟨x, s, rfl⟩ hs'
    | @«section» a' x' s' xs' ha' hx' hr' =>
      have e : a' ++ S ++ x' ++ E ++ s' = a' ++ S ++ (x' ++ E ++ s') := by simp
      rw [e] at ht
      have := find_of (b := x ++ E ++ s) bS ha
      rw [ht, find_of bS ha'] at this
      simp only [Option.some.injEq, Prod.mk.injEq] at this
      have h2 := find_of (b := s) bE hx
      rw [← this.2, find_of bE hx'] at h2
      simp only [Option.some.injEq, Prod.mk.injEq] at h2
      rw [h2.1, ih (h2.2 ▸ hr')]

/-- What occurs in the extracted text and has no line feed occurs in a section. -/
theorem infix_extract (hS : S ≠ []) (bS : BorderFree S) (bE : BorderFree E) {s t : Text} {xs : List Text}
    (h : Sections S E s xs) (ht : t ≠ []) (hn : '\n' ∉ t) (ho : t <:+: extractContent s S E) : ∃ x ∈ xs, t <:+: x := by
  have h1 := ho.trans (trimmed_infix _)
  rw [extractLoop_eq hS bS bE h _ _ (Nat.lt_succ_self _), List.nil_append] at h1
  clear ho h
  induction xs with
  | nil => exact absurd (List.infix_nil.mp h1) ht
  | cons x xs ih =>
    rw [List.flatMap_cons, List.append_assoc, List.cons_append, infix_stop ht hn, List.cons_append, List.nil_append,
      ← List.nil_append ('\n' :: _), infix_stop ht hn] at h1
    rcases h1 with h1 | h1 | h1
    · exact ⟨x, List.mem_cons_self, h1.trans (trimmed_infix x)⟩
    · exact absurd (List.infix_nil.mp h1) ht
    · obtain ⟨y, hy, h2⟩ := ih h1
      exact ⟨y, List.mem_cons_of_mem _ hy, h2⟩

end

/-! ## Lines -/

theorem ofLines_cons (l : Text) (ls : List Text) (last : Text) : ofLines (l :: ls) last = l ++ '\n' :: ofLines ls last := by
  simp [ofLines]

theorem lined_exist (s : Text) : ∃ ls last, s = ofLines ls last ∧ Lined ls last := by
  induction s with
  | nil => exact ⟨[], [], rfl, by simp [Lined]⟩
  | cons c s ih =>
    obtain ⟨ls, last, rfl, h1, h2⟩ := ih
    by_cases hc : c = '\n'
    · subst hc
      refine ⟨[] :: ls, last, by rw [ofLines_cons]; rfl, ?_, h2⟩
      intro l hl
      rcases List.mem_cons.mp hl with rfl | hl
      · simp
      · exact h1 l hl
    · cases ls with
      | nil => exact ⟨[], c :: last, rfl, by simp, by simp [h2, Ne.symm hc]⟩
      | cons l ls =>
        refine ⟨(c :: l) :: ls, last, by rw [ofLines_cons, ofLines_cons]; rfl, ?_, h2⟩
        intro k hk
        rcases List.mem_cons.mp hk with rfl | hk
        · simp [h1 l List.mem_cons_self, Ne.symm hc]
        · exact h1 k (List.mem_cons_of_mem _ hk)

theorem linesFrom_line (acc l s : Text) (hl : '\n' ∉ l) :
    linesFrom acc (l ++ '\n' :: s) = chomp (acc.reverse ++ l) :: linesFrom [] s := by
  induction l generalizing acc with
  | nil => simp [linesFrom]
  | cons c l ih =>
    simp only [List.mem_cons, not_or] at hl
    rw [List.cons_append, linesFrom, if_neg (Ne.symm hl.1), ih _ hl.2]
    simp

theorem linesFrom_last (acc l : Text) (hl : '\n' ∉ l) :
    linesFrom acc l = if acc.reverse ++ l = [] then [] else [acc.reverse ++ l] := by
  induction l generalizing acc with
  | nil => simp [linesFrom]
  | cons c l ih =>
    simp only [List.mem_cons, not_or] at hl
    rw [linesFrom, if_neg (Ne.symm hl.1), ih _ hl.2]
    simp

theorem lines_ofLines {ls : List Text} {last : Text} (h : Lined ls last) :
    lines (ofLines ls last) = ls.map chomp ++ if last = [] then [] else [last] := by
  obtain ⟨h1, h2⟩ := h
  induction ls with
  | nil =>
    show linesFrom [] last = _
    rw [linesFrom_last _ _ h2]
    by_cases h : last = [] <;> simp [h]
  | cons l ls ih =>
    rw [ofLines_cons, lines, linesFrom_line _ _ _ (h1 l List.mem_cons_self)]
    simp only [List.reverse_nil, List.nil_append, List.map_cons, List.cons_append, List.cons.injEq, true_and]
    exact ih fun k hk => h1 k (List.mem_cons_of_mem _ hk)

/-! ## The prelude -/

theorem injectLoop_out (fuel : Nat) (out s : Text) : injectLoop fuel out s = out ++ injectLoop fuel [] s := by
  induction fuel generalizing out s with
  | zero => simp [injectLoop]
  | succ n ih =>
    unfold injectLoop
    cases find marker s with
    | none => simp
    | some r =>
      simp only
      rw [ih, ih ([] ++ _ ++ _ ++ _ ++ _)]
      simp

theorem lineEnd_append (s : Text) : (lineEnd s).1 ++ (lineEnd s).2 = s := by
  unfold lineEnd
  cases h : find ['\n'] s with
  | none => simp
  | some r =>
    have := (find_some (a := r.1) (b := r.2) h).1
    simp [this]

theorem injectLoop_fuel (n k : Nat) (s : Text) (hn : s.length < n) (hk : s.length < k) :
    injectLoop n [] s = injectLoop k [] s := by
  induction n generalizing k s with
  | zero => omega
  | succ n ih =>
    cases k with
    | zero => omega
    | succ k =>
      unfold injectLoop
      cases hf : find marker s with
      | none => rfl
      | some r =>
        obtain ⟨x, t⟩ := r
        simp only
        have h1 := congrArg List.length (find_some hf).1
        have h2 := congrArg List.length (lineEnd_append t)
        have h3 : marker.length = 7 := rfl
        simp only [List.length_append] at h1 h2
        rw [injectLoop_out, injectLoop_out k]
        rw [ih k _ (by omega) (by omega)]

theorem injectPrelude_step (s : Text) : injectPrelude s =
    match find marker s with
    | none => s
    | some (x, r) => x ++ marker ++ (lineEnd r).1 ++ prelude ++ injectPrelude (lineEnd r).2 := by
  unfold injectPrelude
  rw [injectLoop]
  cases hf : find marker s with
  | none => rfl
  | some r =>
    obtain ⟨x, t⟩ := r
    simp only
    have h1 := congrArg List.length (find_some hf).1
    have h2 := congrArg List.length (lineEnd_append t)
    have h3 : marker.length = 7 := rfl
    simp only [List.length_append] at h1 h2
    rw [injectLoop_out, List.nil_append, injectLoop_fuel _ ((lineEnd t).2.length + 1) _ (by omega) (by omega)]

theorem marker_borderFree : BorderFree marker := by decide

theorem marker_ne : marker ≠ [] := by decide

theorem marker_nl : '\n' ∉ marker := by decide

theorem lineEnd_line (y s : Text) (hy : '\n' ∉ y) : lineEnd (y ++ '\n' :: s) = (y ++ ['\n'], s) := by
  have := find_of (p := ['\n']) (a := y) (b := s) (by decide) (fun ⟨a, b, h⟩ => hy (by rw [← h]; simp))
  rw [lineEnd, show y ++ '\n' :: s = y ++ ['\n'] ++ s by simp, this]

theorem lineEnd_last (y : Text) (hy : '\n' ∉ y) : lineEnd y = (y, []) := by
  have : find ['\n'] y = none := find_none.mpr (fun ⟨a, b, h⟩ => hy (by rw [← h]; simp))
  rw [lineEnd, this]

theorem injectPrelude_line (l s : Text) (hl : '\n' ∉ l) :
    injectPrelude (l ++ '\n' :: s) = l ++ '\n' :: ((if BeginsExample l then prelude else []) ++ injectPrelude s) := by
  cases hf : find marker l with
  | some r =>
    obtain ⟨x, y⟩ := r
    obtain ⟨rfl, h2⟩ := find_some hf
    have hx : ¬ marker <:+: x := fun h => h2 ⟨marker_ne, h⟩
    have hy : '\n' ∉ y := fun h => hl (List.mem_append_right _ h)
    rw [if_pos (show BeginsExample (x ++ marker ++ y) from ⟨x, y, rfl⟩), injectPrelude_step,
      show x ++ marker ++ y ++ '\n' :: s = x ++ marker ++ (y ++ '\n' :: s) by simp, find_of marker_borderFree hx]
    simp only [lineEnd_line y s hy]
    simp
  | none =>
    have hn := find_none.mp hf
    rw [if_neg (show ¬ BeginsExample l from hn), List.nil_append]
    rw [injectPrelude_step, injectPrelude_step s]
    cases hg : find marker s with
    | none =>
      have : find marker (l ++ '\n' :: s) = none := find_none.mpr fun h => by
        rcases (infix_stop marker_ne marker_nl).mp h with h | h
        · exact hn h
        · exact find_none.mp hg h
      rw [this]
    | some r =>
      obtain ⟨x, y⟩ := r
      obtain ⟨rfl, h2⟩ := find_some hg
      have hx : ¬ marker <:+: l ++ '\n' :: x := fun h => by
        rcases (infix_stop marker_ne marker_nl).mp h with h | h
        · exact hn h
        · exact h2 ⟨marker_ne, h⟩
      have := find_of (b := y) marker_borderFree hx
      rw [show l ++ '\n' :: (x ++ marker ++ y) = l ++ '\n' :: x ++ marker ++ y by simp, this]
      simp

theorem injectPrelude_last (l : Text) (hl : '\n' ∉ l) :
    injectPrelude l = l ++ if BeginsExample l then prelude else [] := by
  rw [injectPrelude_step]
  cases hf : find marker l with
  | none => rw [if_neg (show ¬ BeginsExample l from find_none.mp hf), List.append_nil]
  | some r =>
    obtain ⟨x, y⟩ := r
    obtain ⟨rfl, h2⟩ := find_some hf
    have hy : '\n' ∉ y := fun h => hl (List.mem_append_right _ h)
    rw [if_pos (show BeginsExample (x ++ marker ++ y) from ⟨x, y, rfl⟩)]
    simp only [lineEnd_last y hy]
    rw [show injectPrelude [] = [] from rfl]
    simp

end Bf.Docs
