/-!
# What the build script should do

Texts are lists of characters; `p <:+: s` says that `p` occurs in `s`.
-/

namespace Bf.DocsSpec

abbrev Text := List Char

/-- The sections of a text: what is between a start tag and the next end tag, in order. -/
inductive Sections (startTag endTag : Text) : Text → List Text → Prop
  | none {s : Text} : ¬ startTag <:+: s → Sections startTag endTag s []
  | unclosed {a s : Text} : ¬ startTag <:+: a → ¬ endTag <:+: s → Sections startTag endTag (a ++ startTag ++ s) []
  | section {a x s : Text} {xs : List Text} : ¬ startTag <:+: a → ¬ endTag <:+: x → Sections startTag endTag s xs →
      Sections startTag endTag (a ++ startTag ++ x ++ endTag ++ s) (x :: xs)

/-- A character that Unicode calls white space. -/
def White (c : Char) : Prop :=
  (9 ≤ c.toNat ∧ c.toNat ≤ 13) ∨ (0x2000 ≤ c.toNat ∧ c.toNat ≤ 0x200A) ∨
    c.toNat ∈ [0x20, 0x85, 0xA0, 0x1680, 0x2028, 0x2029, 0x202F, 0x205F, 0x3000]

/-- `t` is `s` without the white space at its ends. -/
def Trimmed (s t : Text) : Prop :=
  ∃ a b, s = a ++ t ++ b ∧ (∀ c ∈ a, White c) ∧ (∀ c ∈ b, White c) ∧
    (∀ c, t.head? = some c → ¬ White c) ∧ (∀ c, t.getLast? = some c → ¬ White c)

/-- The text that consists of complete lines and a last line without line feed. -/
def ofLines (ls : List Text) (last : Text) : Text := ls.flatMap (fun l => l ++ ['\n']) ++ last

/-- The lines have no line feeds in them. -/
def Lined (ls : List Text) (last : Text) : Prop := (∀ l ∈ ls, '\n' ∉ l) ∧ '\n' ∉ last

/-- The text of a comment line. -/
def commentText : Text → Option Text
  | '/' :: '/' :: '/' :: [] => some []
  | '/' :: '/' :: '/' :: ' ' :: t => some t
  | _ => none

/-- A carriage return at the end of a line belongs to the line end. -/
def dropCr (l : Text) : Text := if l.getLast? = some '\r' then l.dropLast else l

/-- `cs` are comment lines with the texts of the given lines. -/
def Comments (ls : List Text) (last : Text) (cs : List Text) : Prop :=
  cs.map commentText = (ls.map dropCr ++ if last = [] then [] else [last]).map some

/-- The line that imports the macros under the name the examples use. -/
def preludeLine : Text := "# use bitfields_impl as bitfields;".toList

/-- A line that begins an example in Rust. -/
def BeginsExample (l : Text) : Prop := "```rust".toList <:+: l

instance (l : Text) : Decidable (BeginsExample l) := inferInstanceAs (Decidable ("```rust".toList <:+: l))

/-- The lines with the import added after each line that begins an example. -/
inductive Importing : List Text → List Text → Prop
  | nil : Importing [] []
  | other {l : Text} {ls ls' : List Text} : ¬ BeginsExample l → Importing ls ls' → Importing (l :: ls) (l :: ls')
  | example {l : Text} {ls ls' : List Text} : BeginsExample l → Importing ls ls' → Importing (l :: ls) (l :: preludeLine :: ls')

/-- The text of the sections: each without white space at its ends, with an empty line between them. -/
def SectionText (startTag endTag readme content : Text) : Prop :=
  ∃ xs ts : List Text, Sections startTag endTag readme xs ∧ ts.length = xs.length ∧
    (∀ (i : Nat) x t, xs[i]? = some x → ts[i]? = some t → Trimmed x t) ∧ Trimmed (ts.flatMap fun t => t ++ ['\n', '\n']) content

/-- The comment lines `cs` show the sections of the README. (If the text ends in the line that begins an example, then the
import is on that line.) -/
def Shows (startTag endTag readme : Text) (cs : List Text) : Prop :=
  ∃ content ls last ls', SectionText startTag endTag readme content ∧ content = ofLines ls last ∧ Lined ls last ∧
    Importing ls ls' ∧ (¬ BeginsExample last → Comments ls' last cs) ∧
    (BeginsExample last → Comments (ls' ++ [last ++ preludeLine]) [] cs)

/-- The lines after a tag, each on a line of its own. -/
def block (cs : List Text) : Text := '\n' :: cs.flatMap fun c => c ++ ['\n']

/-- The tags of the README, and those of lib.rs. -/
def docsStart : Text := "<!-- rust-docs-start -->".toList
def docsEnd : Text := "<!-- rust-docs-end -->".toList
def flagStart : Text := "<!-- rust-bitflags-docs-start -->".toList
def flagEnd : Text := "<!-- rust-bitflags-docs-end -->".toList

def inComment (tag : Text) : Text := "/// ".toList ++ tag

/-- A source file with a place for the documentation of `#[bitfield]` and, after it, one for that of `#[bitflag]`, which have the
texts `d` and `f`. (The tags for `#[bitflag]` may also be in the first place.) -/
def libText (a d b f c : Text) : Text :=
  a ++ inComment docsStart ++ d ++ inComment docsEnd ++ b ++ inComment flagStart ++ f ++ inComment flagEnd ++ c

/-- The places are those meant: no other start tag follows, and the end tags are the next ones. -/
structure Places (d b f c : Text) : Prop where
  docsLast : ¬ inComment docsStart <:+: d ++ inComment docsEnd ++ b ++ inComment flagStart ++ f ++ inComment flagEnd ++ c
  docsEnd : ¬ inComment docsEnd <:+: d
  flagLast : ¬ inComment flagStart <:+: f ++ inComment flagEnd ++ c
  flagEnd : ¬ inComment flagEnd <:+: f

end Bf.DocsSpec
