import Verif.Lemmas.BuildScript

/-!
# C68: the build script
-/

namespace Bf.Docs

open DocsSpec (Sections Trimmed ofLines Lined commentText dropCr Comments preludeLine BeginsExample Importing SectionText Shows
  block inComment libText Places)

/-! ## Lemmas -/

theorem docsStart_eq : DocsSpec.docsStart = docsStart := rfl
theorem docsEnd_eq : DocsSpec.docsEnd = docsEnd := rfl
theorem flagStart_eq : DocsSpec.flagStart = flagStart := rfl
theorem flagEnd_eq : DocsSpec.flagEnd = flagEnd := rfl

theorem tags_ok : (docsStart ≠ [] ∧ BorderFree docsStart) ∧ (docsEnd ≠ [] ∧ BorderFree docsEnd) ∧
    (flagStart ≠ [] ∧ BorderFree flagStart) ∧ (flagEnd ≠ [] ∧ BorderFree flagEnd) := by decide +kernel

theorem comments_ok : (inComment docsStart ≠ [] ∧ BorderFree (inComment docsStart)) ∧
    (inComment docsEnd ≠ [] ∧ BorderFree (inComment docsEnd)) ∧
    (inComment flagStart ≠ [] ∧ BorderFree (inComment flagStart)) ∧
    (inComment flagEnd ≠ [] ∧ BorderFree (inComment flagEnd)) := by decide +kernel

theorem sectionText_extract {S E : Text} (hS : S ≠ []) (hE : E ≠ []) (bS : BorderFree S) (bE : BorderFree E) (s : Text) :
    SectionText S E s (extractContent s S E) := by
  obtain ⟨xs, h⟩ := sections_exist hS hE s
  refine ⟨xs, xs.map trimmed, h, by simp, ?_, ?_⟩
  · intro i x t hx ht
    rw [List.getElem?_map, hx] at ht
    cases ht
    exact trimmed_spec x
  · have := trimmed_spec (extractLoop S E (s.length + 1) [] s)
    rw [extractLoop_eq hS bS bE h _ _ (Nat.lt_succ_self _), List.nil_append] at this
    unfold extractContent
    rw [extractLoop_eq hS bS bE h _ _ (Nat.lt_succ_self _), List.nil_append]
    rw [List.flatMap_map]
    exact this

/-- A text determines the text of its sections. -/
theorem sectionText_unique {S E s c : Text} (hS : S ≠ []) (bS : BorderFree S) (bE : BorderFree E)
    (h : SectionText S E s c) : extractContent s S E = c := by
  obtain ⟨xs, ts, h1, h2, h3, h4⟩ := h
  unfold extractContent
  rw [extractLoop_eq hS bS bE h1 _ _ (Nat.lt_succ_self _), List.nil_append]
  have : ts = xs.map trimmed := by
    apply List.ext_getElem?
    intro i
    rw [List.getElem?_map]
    rcases Nat.lt_or_ge i xs.length with hi | hi
    · have hi' : i < ts.length := by omega
      rw [List.getElem?_eq_getElem hi, List.getElem?_eq_getElem hi']
      have := h3 i _ _ (List.getElem?_eq_getElem hi) (List.getElem?_eq_getElem hi')
      simp [trimmed_unique this]
    · rw [List.getElem?_eq_none hi, List.getElem?_eq_none (by omega)]
      rfl
  rw [this, List.flatMap_map] at h4
  exact trimmed_unique h4

theorem prelude_eq : prelude = preludeLine ++ ['\n'] := by decide

theorem importing_exists (ls : List Text) : ∃ ls', Importing ls ls' := by
  induction ls with
  | nil => exact ⟨[], .nil⟩
  | cons l ls ih =>
    obtain ⟨ls', h⟩ := ih
    by_cases hl : BeginsExample l
    · exact ⟨_, .example hl h⟩
    · exact ⟨_, .other hl h⟩

theorem inject_eq {ls ls' : List Text} {last : Text} (hl : Lined ls last) (hi : Importing ls ls') :
    injectPrelude (ofLines ls last) =
      ofLines ls' last ++ if BeginsExample last then prelude else [] := by
  obtain ⟨h1, h2⟩ := hl
  induction hi with
  | nil =>
    show injectPrelude last = last ++ _
    rw [injectPrelude_last last h2]
  | @other l ls ls' hb hi ih =>
    rw [ofLines_cons, ofLines_cons, injectPrelude_line _ _ (h1 l List.mem_cons_self), ih fun k hk => h1 k (List.mem_cons_of_mem _ hk),
      if_neg hb]
    simp
  | @«example» l ls ls' hb hi ih =>
    rw [ofLines_cons, ofLines_cons, ofLines_cons, injectPrelude_line _ _ (h1 l List.mem_cons_self),
      ih fun k hk => h1 k (List.mem_cons_of_mem _ hk), if_pos hb, prelude_eq]
    simp

theorem importing_lined {ls ls' : List Text} {last : Text} (hl : Lined ls last) (hi : Importing ls ls') : Lined ls' last := by
  obtain ⟨h1, h2⟩ := hl
  refine ⟨?_, h2⟩
  induction hi with
  | nil => simp
  | @other l ls ls' hb hi ih =>
    intro k hk
    rcases List.mem_cons.mp hk with rfl | hk
    · exact h1 _ List.mem_cons_self
    · exact ih (fun k hk => h1 k (List.mem_cons_of_mem _ hk)) k hk
  | @«example» l ls ls' hb hi ih =>
    intro k hk
    rcases List.mem_cons.mp hk with rfl | hk
    · exact h1 _ List.mem_cons_self
    rcases List.mem_cons.mp hk with rfl | hk
    · decide
    · exact ih (fun k hk => h1 k (List.mem_cons_of_mem _ hk)) k hk

/-- The comment line of a line. -/
def comment (l : Text) : Text := if l = [] then "///".toList else "/// ".toList ++ l

theorem commentText_comment (l : Text) : commentText (comment l) = some l := by
  unfold comment
  split
  · rename_i h; subst h; rfl
  · cases l with
    | nil => contradiction
    | cons c l => rfl

theorem intercalate_nl {cs : List Text} (h : cs ≠ []) : ['\n'].intercalate cs ++ ['\n'] = cs.flatMap fun c => c ++ ['\n'] := by
  induction cs with
  | nil => contradiction
  | cons c cs ih =>
    cases cs with
    | nil => simp [List.intercalate]
    | cons d cs =>
      rw [List.flatMap_cons, ← ih (by simp)]
      simp [List.intercalate]

/-- What `replace_between_tags` puts between the tags. -/
def middle (content : Text) : Text := if content = [] then ['\n'] else ['\n'] ++ docComments content ++ ['\n']

theorem lines_ne {s : Text} (h : s ≠ []) : lines s ≠ [] := by
  obtain ⟨ls, last, rfl, hl⟩ := lined_exist s
  rw [lines_ofLines hl]
  intro h'
  simp only [List.append_eq_nil_iff, List.map_eq_nil_iff] at h'
  obtain ⟨rfl, h'⟩ := h'
  split at h'
  · rename_i he; subst he; exact h rfl
  · cases h'

theorem middle_eq (content : Text) : middle content = block ((lines content).map comment) := by
  unfold middle block
  split
  · rename_i h; subst h; rfl
  · rename_i h
    rw [← intercalate_nl (by simpa using lines_ne h)]
    rw [docComments, if_neg h]
    rfl

theorem dropCr_eq (l : Text) : dropCr l = chomp l := rfl

theorem shows_middle {S E : Text} (hS : S ≠ []) (hE : E ≠ []) (bS : BorderFree S) (bE : BorderFree E) (readme : Text) :
    ∃ cs, Shows S E readme cs ∧ middle (injectPrelude (extractContent readme S E)) = block cs := by
  obtain ⟨ls, last, h1, h2⟩ := lined_exist (extractContent readme S E)
  obtain ⟨ls', h3⟩ := importing_exists ls
  refine ⟨_, ⟨_, ls, last, ls', sectionText_extract hS hE bS bE readme, h1, h2, h3, fun hb => ?_, fun hb => ?_⟩, middle_eq _⟩
  · rw [h1, inject_eq h2 h3, if_neg hb, List.append_nil, lines_ofLines (importing_lined h2 h3)]
    simp only [Comments, List.map_map]
    rw [show commentText ∘ comment = some from funext commentText_comment]
    rfl
  · rw [h1, inject_eq h2 h3, if_pos hb]
    have e : ofLines ls' last ++ prelude = ofLines (ls' ++ [last ++ preludeLine]) [] := by
      simp [ofLines, prelude_eq]
    have hl : Lined (ls' ++ [last ++ preludeLine]) [] := by
      have := importing_lined h2 h3
      refine ⟨fun l hl => ?_, by simp⟩
      rcases List.mem_append.mp hl with hl | hl
      · exact this.1 l hl
      · rw [List.mem_singleton.mp hl, List.mem_append, not_or]
        exact ⟨this.2, by decide⟩
    rw [e, lines_ofLines hl]
    simp only [Comments, List.map_map]
    rw [show commentText ∘ comment = some from funext commentText_comment]
    rfl

theorem replace_eq {S E a d r : Text} (content : Text) (hS : inComment S ≠ []) (bS : BorderFree (inComment S))
    (bE : BorderFree (inComment E)) (h1 : ¬ inComment S <:+: d ++ inComment E ++ r) (h2 : ¬ inComment E <:+: d) :
    replaceBetween (a ++ inComment S ++ (d ++ inComment E ++ r)) S E content =
      a ++ inComment S ++ middle content ++ inComment E ++ r := by
  unfold replaceBetween
  rw [show "/// ".toList ++ S = inComment S from rfl, show "/// ".toList ++ E = inComment E from rfl]
  simp only [rfind_of hS bS h1, find_of bE h2]
  rfl

/-- What begins with another character than the one before it occurs after it. -/
theorem infix_skip {c d : Char} {q l : Text} (h : d ≠ c) (ho : c :: q <:+: d :: l) : c :: q <:+: l := by
  rcases List.infix_cons_iff.mp ho with ho | ho
  · exact absurd (List.cons_prefix_cons.mp ho).1.symm h
  · exact ho

theorem infix_comment {q l : Text} (h : '<' :: q <:+: comment l) : '<' :: q <:+: l := by
  unfold comment at h
  split at h
  · exact absurd (infix_skip (by decide) (infix_skip (by decide) (infix_skip (by decide) h))) (by simp)
  · exact infix_skip (by decide) (infix_skip (by decide) (infix_skip (by decide) (infix_skip (by decide) h)))

theorem infix_flatMap {t : Text} (ht : t ≠ []) (hn : '\n' ∉ t) {cs : List Text} (h : t <:+: cs.flatMap fun c => c ++ ['\n']) :
    ∃ c ∈ cs, t <:+: c := by
  induction cs with
  | nil => exact absurd (List.infix_nil.mp h) ht
  | cons c cs ih =>
    rw [List.flatMap_cons, List.append_assoc, List.cons_append, infix_stop ht hn] at h
    rcases h with h | h
    · exact ⟨c, List.mem_cons_self, h⟩
    · obtain ⟨d, hd, h⟩ := ih h
      exact ⟨d, List.mem_cons_of_mem _ hd, h⟩

theorem infix_line {l : Text} {s : Text} (h : l ∈ lines s) : l <:+: s := by
  obtain ⟨ls, last, rfl, hl⟩ := lined_exist s
  rw [lines_ofLines hl] at h
  rcases List.mem_append.mp h with h | h
  · obtain ⟨k, hk, rfl⟩ := List.mem_map.mp h
    have h1 : chomp k <:+: k := by
      unfold chomp
      split
      · exact (List.dropLast_prefix k).isInfix
      · exact List.infix_rfl
    have h2 : k <:+: ofLines ls last := by
      obtain ⟨l1, l2, rfl⟩ := List.append_of_mem hk
      exact ⟨l1.flatMap (fun l => l ++ ['\n']), '\n' :: ofLines l2 last, by simp [ofLines]⟩
    exact h1.trans h2
  · split at h
    · cases h
    · rw [List.mem_singleton.mp h]
      exact (List.suffix_append _ _).isInfix

/-- A tag in what is put between the tags comes from the content. -/
theorem infix_middle {q content : Text} (hn : '\n' ∉ '<' :: q) (h : inComment ('<' :: q) <:+: middle content) :
    '<' :: q <:+: content := by
  have h1 : '<' :: q <:+: middle content := (List.suffix_append "/// ".toList ('<' :: q)).isInfix.trans h
  rw [middle_eq, block] at h1
  obtain ⟨c, hc, h2⟩ := infix_flatMap (by simp) hn (infix_skip (by decide) h1)
  obtain ⟨l, hl, rfl⟩ := List.mem_map.mp hc
  exact (infix_comment h2).trans (infix_line hl)

theorem infix_inject {t content : Text} (ht : t ≠ []) (hn : '\n' ∉ t) (hs : '#' ∉ t) (hp : ¬ t <:+: prelude)
    (h : t <:+: injectPrelude content) : t <:+: content := by
  obtain ⟨ls, last, rfl, h1, h2⟩ := lined_exist content
  induction ls with
  | nil =>
    change t <:+: injectPrelude last at h
    show t <:+: last
    rw [injectPrelude_last last h2] at h
    split at h
    · rw [show prelude = '#' :: prelude.tail from rfl, infix_stop ht hs] at h
      rcases h with h | h
      · exact h
      · exact absurd (h.trans (List.tail_suffix _).isInfix) hp
    · simpa using h
  | cons l ls ih =>
    rw [ofLines_cons, injectPrelude_line _ _ (h1 l List.mem_cons_self), infix_stop ht hn] at h
    rw [ofLines_cons, infix_stop ht hn]
    rcases h with h | h
    · exact .inl h
    · refine .inr (ih ?_ (fun k hk => h1 k (List.mem_cons_of_mem _ hk)))
      split at h
      · rw [prelude_eq, List.append_assoc, List.cons_append, infix_stop ht hn] at h
        rcases h with h | h
        · exact absurd (h.trans ⟨[], ['\n'], by simp [prelude_eq]⟩) hp
        · exact h
      · exact h

/-- A tag in what is put between the tags comes from a section. -/
theorem tag_source {S E t readme : Text} {xs : List Text} (hS : S ≠ []) (bS : BorderFree S) (bE : BorderFree E)
    (ht : t.head? = some '<' ∧ '\n' ∉ t ∧ '#' ∉ t ∧ ¬ t <:+: prelude) (hx : Sections S E readme xs)
    (h : inComment t <:+: middle (injectPrelude (extractContent readme S E))) : ∃ x ∈ xs, t <:+: x := by
  obtain ⟨h1, hn, hs, hp⟩ := ht
  cases t with
  | nil => cases h1
  | cons c q =>
    cases h1
    exact infix_extract hS bS bE hx (by simp) hn (infix_inject (by simp) hn hs hp (infix_middle hn h))

theorem tags_plain : ∀ t ∈ [docsStart, docsEnd, flagStart, flagEnd],
    t.head? = some '<' ∧ '\n' ∉ t ∧ '#' ∉ t ∧ ¬ t <:+: prelude := by decide +kernel

theorem no_end {S E s : Text} {xs : List Text} (h : Sections S E s xs) : ∀ x ∈ xs, ¬ E <:+: x := by
  induction h with
  | none | unclosed => simp
  | «section» ha hx hr ih =>
    intro y hy
    rcases List.mem_cons.mp hy with rfl | hy
    · exact hx
    · exact ih y hy

theorem block_stop {t : Text} (ht : t ≠ []) (hn : '\n' ∉ t) (cs : List Text) (r : Text) :
    t <:+: block cs ++ r ↔ t <:+: block cs ∨ t <:+: r := by
  have e : ∃ y, block cs = y ++ ['\n'] := by
    unfold block
    rcases List.eq_nil_or_concat cs with rfl | ⟨l, c, rfl⟩
    · exact ⟨[], rfl⟩
    · exact ⟨'\n' :: (l.flatMap (fun c => c ++ ['\n']) ++ c), by simp⟩
  obtain ⟨y, hy⟩ := e
  rw [hy, List.append_assoc, List.cons_append, List.nil_append, infix_stop ht hn, infix_stop ht hn]
  have : ¬ t <:+: [] := fun h => ht (List.infix_nil.mp h)
  simp [this]

theorem append_block_stop {t : Text} (ht : t ≠ []) (hn : '\n' ∉ t) (x : Text) (cs : List Text) (r : Text) :
    t <:+: x ++ (block cs ++ r) ↔ t <:+: x ∨ t <:+: block cs ∨ t <:+: r := by
  rw [← block_stop ht hn]
  have : ¬ t <:+: [] := fun h => ht (List.infix_nil.mp h)
  rw [block, List.cons_append, infix_stop ht hn, ← List.nil_append ('\n' :: (_ ++ r)), infix_stop ht hn]
  simp [this]

theorem updated_eq (readme a : Text) {d b f c : Text} (h : Places d b f c) :
    updated readme (libText a d b f c) =
      libText a (middle (injectPrelude (extractContent readme docsStart docsEnd))) b
        (middle (injectPrelude (extractContent readme flagStart flagEnd))) c := by
  obtain ⟨⟨D1, D2⟩, ⟨D3, D4⟩, ⟨F1, F2⟩, F3, F4⟩ := comments_ok
  have e : libText a d b f c = a ++ inComment docsStart ++ (d ++ inComment docsEnd ++
      (b ++ inComment flagStart ++ f ++ inComment flagEnd ++ c)) := by simp [libText, docsStart_eq, docsEnd_eq, flagStart_eq, flagEnd_eq]
  have hl := h.docsLast
  rw [docsStart_eq, docsEnd_eq, flagStart_eq, flagEnd_eq, show d ++ inComment docsEnd ++ b ++ inComment flagStart ++ f ++ inComment flagEnd ++ c =
    d ++ inComment docsEnd ++ (b ++ inComment flagStart ++ f ++ inComment flagEnd ++ c) by simp] at hl
  rw [updated, e, replace_eq _ D1 D2 D4 hl h.docsEnd]
  generalize middle (injectPrelude (extractContent readme docsStart docsEnd)) = m1
  have e2 : a ++ inComment docsStart ++ m1 ++ inComment docsEnd ++ (b ++ inComment flagStart ++ f ++ inComment flagEnd ++ c) =
      (a ++ inComment docsStart ++ m1 ++ inComment docsEnd ++ b) ++ inComment flagStart ++ (f ++ inComment flagEnd ++ c) := by
    simp
  rw [e2, replace_eq _ F1 F2 F4 h.flagLast h.flagEnd]
  simp [libText, docsStart_eq, docsEnd_eq, flagStart_eq, flagEnd_eq]

/-! ## C68 -/

/-- **C68** (what is taken from the README). Every text has sections, in one way only; each is trimmed, and they are put together
with an empty line between two. The result is trimmed too, so that it is determined. Nothing outside the tags is taken. -/
theorem C68_sections {S E : Text}
    (hT : (S, E) ∈ [(DocsSpec.docsStart, DocsSpec.docsEnd), (DocsSpec.flagStart, DocsSpec.flagEnd)]) (readme : Text) :
    (∃ xs, Sections S E readme xs ∧ ∀ ys, Sections S E readme ys → ys = xs) ∧
    ∀ content, SectionText S E readme content ↔ extractContent readme S E = content := by
  rw [docsStart_eq, docsEnd_eq, flagStart_eq, flagEnd_eq] at hT
  have hS : (S ≠ [] ∧ BorderFree S) ∧ E ≠ [] ∧ BorderFree E := by
    simp only [List.mem_cons, Prod.mk.injEq, List.not_mem_nil, or_false] at hT
    rcases hT with ⟨rfl, rfl⟩ | ⟨rfl, rfl⟩
    · exact ⟨tags_ok.1, tags_ok.2.1⟩
    · exact tags_ok.2.2
  obtain ⟨xs, hx⟩ := sections_exist hS.1.1 hS.2.1 readme
  refine ⟨⟨xs, hx, fun ys hy => sections_unique hS.1.2 hS.2.2 hy hx⟩, fun content => ⟨?_, ?_⟩⟩
  · exact sectionText_unique hS.1.1 hS.1.2 hS.2.2
  · rintro rfl
    exact sectionText_extract hS.1.1 hS.2.1 hS.1.2 hS.2.2 readme

/-- **C68** (what is written). In a source file with places for the two documentations, only what is in these places changes:
it is replaced by comment lines that show the sections of the README. In particular all of it is comment. -/
theorem C68_update (readme a d b f c : Text) (h : Places d b f c) :
    ∃ cs fs, Shows DocsSpec.docsStart DocsSpec.docsEnd readme cs ∧ Shows DocsSpec.flagStart DocsSpec.flagEnd readme fs ∧
      updated readme (libText a d b f c) = libText a (block cs) b (block fs) c := by
  rw [docsStart_eq, docsEnd_eq, flagStart_eq, flagEnd_eq]
  obtain ⟨⟨d1, d2⟩, ⟨d3, d4⟩, ⟨f1, f2⟩, f3, f4⟩ := tags_ok
  obtain ⟨cs, h1, h2⟩ := shows_middle d1 d3 d2 d4 readme
  obtain ⟨fs, h3, h4⟩ := shows_middle f1 f3 f2 f4 readme
  refine ⟨cs, fs, h1, h3, ?_⟩
  rw [updated_eq readme a h, h2, h4]

/-- **C68** (the check that the documentation is up to date). After an update another one changes nothing, if no section of the
README has a start tag of the first kind in it, and none of the second kind has its own start tag in it. -/
theorem C68_idempotent (readme a d b f c : Text) (h : Places d b f c) {xs ys : List Text}
    (hx : Sections DocsSpec.docsStart DocsSpec.docsEnd readme xs) (hy : Sections DocsSpec.flagStart DocsSpec.flagEnd readme ys)
    (h1 : ∀ x ∈ xs, ¬ DocsSpec.docsStart <:+: x)
    (h2 : ∀ y ∈ ys, ¬ DocsSpec.docsStart <:+: y ∧ ¬ DocsSpec.flagStart <:+: y) :
    updated readme (updated readme (libText a d b f c)) = updated readme (libText a d b f c) := by
  rw [docsStart_eq, docsEnd_eq] at hx
  rw [flagStart_eq, flagEnd_eq] at hy
  rw [docsStart_eq] at h1
  rw [docsStart_eq, flagStart_eq] at h2
  obtain ⟨⟨d1, d2⟩, ⟨d3, d4⟩, ⟨f1, f2⟩, f3, f4⟩ := tags_ok
  obtain ⟨⟨D1, D2⟩, ⟨D3, D4⟩, ⟨F1, F2⟩, F3, F4⟩ := comments_ok
  rw [updated_eq readme a h]
  refine updated_eq readme a ?_
  have nD : '\n' ∉ inComment docsStart := by decide
  have nF : '\n' ∉ inComment flagStart := by decide
  have k1 : ¬ inComment docsStart <:+: middle (injectPrelude (extractContent readme docsStart docsEnd)) := fun ho => by
    obtain ⟨x, hm, ho⟩ := tag_source d1 d2 d4 (tags_plain docsStart (by simp)) hx ho
    exact h1 x hm ho
  have k2 : ¬ inComment docsStart <:+: middle (injectPrelude (extractContent readme flagStart flagEnd)) := fun ho => by
    obtain ⟨x, hm, ho⟩ := tag_source f1 f2 f4 (tags_plain docsStart (by simp)) hy ho
    exact (h2 x hm).1 ho
  have k3 : ¬ inComment flagStart <:+: middle (injectPrelude (extractContent readme flagStart flagEnd)) := fun ho => by
    obtain ⟨x, hm, ho⟩ := tag_source f1 f2 f4 (tags_plain flagStart (by simp)) hy ho
    exact (h2 x hm).2 ho
  have k4 : ¬ inComment docsEnd <:+: middle (injectPrelude (extractContent readme docsStart docsEnd)) := fun ho => by
    obtain ⟨x, hm, ho⟩ := tag_source d1 d2 d4 (tags_plain docsEnd (by simp)) hx ho
    exact no_end hx x hm ho
  have k5 : ¬ inComment flagEnd <:+: middle (injectPrelude (extractContent readme flagStart flagEnd)) := fun ho => by
    obtain ⟨x, hm, ho⟩ := tag_source f1 f2 f4 (tags_plain flagEnd (by simp)) hy ho
    exact no_end hy x hm ho
  rw [middle_eq] at k1 k2 k3 k4 k5
  rw [middle_eq, middle_eq]
  refine ⟨?_, k4, ?_, k5⟩
  · have hl := h.docsLast
    simp only [List.append_assoc, docsStart_eq, docsEnd_eq, flagStart_eq, flagEnd_eq] at hl ⊢
    rw [block_stop D1 nD]
    rintro (ho | ho)
    · exact k1 ho
    rw [← List.append_assoc, ← List.append_assoc, append_block_stop D1 nD] at ho
    rcases ho with ho | ho | ho
    · exact hl (ho.trans ⟨d, f ++ (inComment flagEnd ++ c), by simp⟩)
    · exact k2 ho
    · exact hl (ho.trans ⟨d ++ inComment docsEnd ++ b ++ inComment flagStart ++ f, [], by simp⟩)
  · have hl := h.flagLast
    rw [List.append_assoc, flagStart_eq, flagEnd_eq] at hl ⊢
    rw [block_stop F1 nF]
    rintro (ho | ho)
    · exact k3 ho
    · exact hl (ho.trans (List.suffix_append _ _).isInfix)

/-- **C68** (other source files). One replacement changes a text exactly if there is an end tag after the last start tag, and then only
what is between these two. -/
theorem C68_replace {S E : Text}
    (hT : (S, E) ∈ [(DocsSpec.docsStart, DocsSpec.docsEnd), (DocsSpec.flagStart, DocsSpec.flagEnd)]) (source : Text)
    {content last : Text} {ls : List Text} (hc : content = ofLines ls last) (hl : Lined ls last) :
    (replaceBetween source S E content = source ∧
      ∀ a r, source = a ++ inComment S ++ r → ¬ inComment S <:+: r → ¬ inComment E <:+: r) ∨
    ∃ a d r cs, source = a ++ inComment S ++ d ++ inComment E ++ r ∧ ¬ inComment S <:+: d ++ inComment E ++ r ∧
      ¬ inComment E <:+: d ∧ Comments ls last cs ∧
      replaceBetween source S E content = a ++ inComment S ++ block cs ++ inComment E ++ r := by
  rw [docsStart_eq, docsEnd_eq, flagStart_eq, flagEnd_eq] at hT
  have hS : (inComment S ≠ [] ∧ BorderFree (inComment S)) ∧ inComment E ≠ [] ∧ BorderFree (inComment E) := by
    simp only [List.mem_cons, Prod.mk.injEq, List.not_mem_nil, or_false] at hT
    rcases hT with ⟨rfl, rfl⟩ | ⟨rfl, rfl⟩
    · exact ⟨comments_ok.1, comments_ok.2.1⟩
    · exact comments_ok.2.2
  obtain ⟨⟨s1, s2⟩, e1, e2⟩ := hS
  cases hf : rfind (inComment S) source with
  | none =>
    refine .inl ⟨?_, fun a r h1 _ _ => rfind_none.mp hf ⟨a, r, h1.symm⟩⟩
    unfold replaceBetween
    rw [show "/// ".toList ++ S = inComment S from rfl]
    simp only [hf]
  | some x =>
    obtain ⟨a, r⟩ := x
    obtain ⟨rfl, h2⟩ := rfind_some s2 hf
    have hr : ¬ inComment S <:+: r := fun h => h2 ⟨s1, h⟩
    cases hg : find (inComment E) r with
    | none =>
      refine .inl ⟨?_, fun a' r' h1 h3 => ?_⟩
      · unfold replaceBetween
        rw [show "/// ".toList ++ S = inComment S from rfl, show "/// ".toList ++ E = inComment E from rfl]
        simp only [hf, hg]
      · rw [h1, rfind_of s1 s2 h3] at hf
        cases hf
        exact find_none.mp hg
    | some y =>
      obtain ⟨d, t⟩ := y
      obtain ⟨rfl, h3⟩ := find_some hg
      have hd : ¬ inComment E <:+: d := fun h => h3 ⟨e1, h⟩
      refine .inr ⟨a, d, t, (lines content).map comment, by simp, hr, hd, ?_, ?_⟩
      · rw [hc, lines_ofLines hl, Comments, List.map_map, show commentText ∘ comment = some from funext commentText_comment]
        rfl
      · rw [replace_eq content s1 s2 e2 hr hd, middle_eq]

/-- **C68** (no effect unless asked). Without `UPDATE_DOCS` no file changes and the build goes on. The README never changes; a
build that fails has changed nothing. -/
theorem C68_files (updateDocs : Option Text) (fs : Files) :
    (updateDocs = none → main updateDocs fs = (fs, false)) ∧ (main updateDocs fs).1.readme = fs.readme ∧
    ((main updateDocs fs).2 = true → (main updateDocs fs).1 = fs) ∧
    (updateDocs ≠ none → ((main updateDocs fs).2 = false ↔
      ∃ readme lib, fs.readme = some readme ∧ fs.implLib = some lib ∧ fs.writable = true ∧
        (main updateDocs fs).1.implLib = some (updated readme lib))) := by
  unfold main
  cases updateDocs with
  | none => simp
  | some u =>
    cases hr : fs.readme with
    | none => simp [hr]
    | some readme =>
      cases hl : fs.implLib with
      | none => simp [hr, hl]
      | some lib =>
        cases hw : fs.writable <;> simp [hr]

/-! ## Examples -/

namespace ExDocs

/-- A README like the real one: the section on bitflags is inside the first one. -/
def readme : Text :=
  ("# T\n<!-- rust-docs-start -->\n\nA\n```rust\nlet a;\n```\n<!-- rust-bitflags-docs-start -->\nB\n" ++
    "<!-- rust-bitflags-docs-end -->\n<!-- rust-docs-end -->\nC").toList

def a : Text := "use x;\n".toList
def d : Text := "\n/// old\n".toList
def b : Text := "\nfn bitfield() {}\n".toList
def c : Text := "\nfn bitflag() {}\n".toList

theorem places : Places d b ['\n'] c := ⟨by decide +kernel, by decide +kernel, by decide +kernel, by decide +kernel⟩

def docsSection : Text :=
  ("\n\nA\n```rust\nlet a;\n```\n<!-- rust-bitflags-docs-start -->\nB\n<!-- rust-bitflags-docs-end -->\n").toList

theorem docs_sections : Sections DocsSpec.docsStart DocsSpec.docsEnd readme [docsSection] := by
  have e : readme = "# T\n".toList ++ DocsSpec.docsStart ++ docsSection ++ DocsSpec.docsEnd ++ "\nC".toList := by decide +kernel
  rw [e]
  exact .section (by decide +kernel) (by decide +kernel) (.none (by decide +kernel))

theorem flag_sections : Sections DocsSpec.flagStart DocsSpec.flagEnd readme ["\nB\n".toList] := by
  have e : readme = "# T\n<!-- rust-docs-start -->\n\nA\n```rust\nlet a;\n```\n".toList ++ DocsSpec.flagStart ++ "\nB\n".toList ++
    DocsSpec.flagEnd ++ "\n<!-- rust-docs-end -->\nC".toList := by decide +kernel
  rw [e]
  exact .section (by decide +kernel) (by decide +kernel) (.none (by decide +kernel))

end ExDocs

set_option maxRecDepth 20000 in
example : updated ExDocs.readme (libText ExDocs.a ExDocs.d ExDocs.b ['\n'] ExDocs.c) =
    libText ExDocs.a ("\n/// A\n/// ```rust\n/// # use bitfields_impl as bitfields;\n/// let a;\n/// ```\n" ++
      "/// <!-- rust-bitflags-docs-start -->\n/// B\n/// <!-- rust-bitflags-docs-end -->\n").toList ExDocs.b
      "\n/// B\n".toList ExDocs.c := by decide +kernel

example : updated ExDocs.readme (updated ExDocs.readme (libText ExDocs.a ExDocs.d ExDocs.b ['\n'] ExDocs.c)) =
    updated ExDocs.readme (libText ExDocs.a ExDocs.d ExDocs.b ['\n'] ExDocs.c) :=
  C68_idempotent _ _ _ _ _ _ ExDocs.places ExDocs.docs_sections ExDocs.flag_sections
    (by simp only [List.mem_singleton, forall_eq]; decide +kernel) (by simp only [List.mem_singleton, forall_eq]; decide +kernel)

/-- The condition on the README is needed: with a start tag in a section each update adds to the documentation. -/
example :
    let readme := "<!-- rust-docs-start -->\n<!-- rust-docs-start -->\n<!-- rust-docs-end -->".toList
    let lib := libText ExDocs.a ExDocs.d ExDocs.b ['\n'] ExDocs.c
    updated readme (updated readme lib) ≠ updated readme lib := by decide +kernel

example : main none ⟨none, none, false⟩ = (⟨none, none, false⟩, false) := rfl

end Bf.Docs
