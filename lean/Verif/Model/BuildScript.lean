/-!
# The build script

bitfields/build.rs copies sections of the README into the documentation comments of bitfields_impl/src/lib.rs. Texts are lists
of characters. A position in a text (a number of bytes in Rust) is a pair of what is before and what is after.
-/

namespace Bf.Docs

abbrev Text := List Char

/-- `str::find` (standard library): what is before and after the first occurrence of `pat`. -/
def find (pat : Text) : Text → Option (Text × Text)
  | [] => if pat.isPrefixOf [] then some ([], []) else none
  | c :: s =>
    if pat.isPrefixOf (c :: s) then some ([], (c :: s).drop pat.length)
    else (find pat s).map fun r => (c :: r.1, r.2)

/-- `str::rfind` (standard library): the last occurrence. -/
def rfind (pat : Text) : Text → Option (Text × Text)
  | [] => if pat.isPrefixOf [] then some ([], []) else none
  | c :: s =>
    match rfind pat s with
    | some r => some (c :: r.1, r.2)
    | none => if pat.isPrefixOf (c :: s) then some ([], (c :: s).drop pat.length) else none

/-- `char::is_whitespace` (standard library): the Unicode property `White_Space`. -/
def isSpace (c : Char) : Bool :=
  let n := c.toNat
  (9 ≤ n && n ≤ 13) || n = 0x20 || n = 0x85 || n = 0xA0 || n = 0x1680 || (0x2000 ≤ n && n ≤ 0x200A) || n = 0x2028 ||
    n = 0x2029 || n = 0x202F || n = 0x205F || n = 0x3000

/-- `str::trim` (standard library) -/
def trimmed (s : Text) : Text := ((s.dropWhile isSpace).reverse.dropWhile isSpace).reverse

/-- The loop of `extract_content`, bitfields/build.rs:39-49. `fuel` bounds the number of rounds; `output` is what has been
collected. -/
def extractLoop (startTag endTag : Text) : Nat → Text → Text → Text
  | 0, output, _ => output
  | fuel + 1, output, rest =>
    match find startTag rest with
    | none => output
    | some (_, rest) =>
      match find endTag rest with
      | none => extractLoop startTag endTag fuel output rest
      | some (x, rest) => extractLoop startTag endTag fuel (output ++ trimmed x ++ ['\n', '\n']) rest

/-- `extract_content`, bitfields/build.rs:38-52. Each round shortens the text, as the tags are not empty, so that its length
is enough fuel. -/
def extractContent (source startTag endTag : Text) : Text :=
  trimmed (extractLoop startTag endTag (source.length + 1) [] source)

/-- build.rs:57 -/
def marker : Text := "```rust".toList

/-- build.rs:58 -/
def prelude : Text := "# use bitfields_impl as bitfields;\n".toList

/-- The text up to and including the first line feed, and the rest, build.rs:65-69 -/
def lineEnd (s : Text) : Text × Text :=
  match find ['\n'] s with
  | some (x, r) => (x ++ ['\n'], r)
  | none => (s, [])

/-- The loop of `inject_rust_block_prelude`, build.rs:62-71 -/
def injectLoop : Nat → Text → Text → Text
  | 0, output, rest => output ++ rest
  | fuel + 1, output, rest =>
    match find marker rest with
    | none => output ++ rest
    | some (x, r) => injectLoop fuel (output ++ x ++ marker ++ (lineEnd r).1 ++ prelude) (lineEnd r).2

/-- `inject_rust_block_prelude`, build.rs:56-74 -/
def injectPrelude (content : Text) : Text := injectLoop (content.length + 1) [] content

/-- A line without its line feed and a carriage return before it. -/
def chomp (line : Text) : Text :=
  if line.getLast? = some '\r' then line.dropLast else line

/-- `str::lines` (standard library): split after each line feed; line ends are removed, and an empty last line is none.
`line` is what has been read of the current line, in reverse. -/
def linesFrom : Text → Text → List Text
  | line, [] => if line = [] then [] else [line.reverse]
  | line, c :: s => if c = '\n' then chomp line.reverse :: linesFrom [] s else linesFrom (c :: line) s

def lines (s : Text) : List Text := linesFrom [] s

/-- `format_as_doc_comments`, build.rs:77-86 -/
def docComments (content : Text) : Text :=
  if content = [] then []
  else ['\n'].intercalate ((lines content).map fun l => if l = [] then "///".toList else "/// ".toList ++ l)

/-- `replace_between_tags`, build.rs:90-110 -/
def replaceBetween (source startTag endTag content : Text) : Text :=
  let docStart := "/// ".toList ++ startTag
  let docEnd := "/// ".toList ++ endTag
  match rfind docStart source with
  | none => source
  | some (before, after) =>
    match find docEnd after with
    | none => source
    | some (_, after) =>
      let middle := if content = [] then ['\n'] else ['\n'] ++ docComments content ++ ['\n']
      before ++ docStart ++ middle ++ docEnd ++ after

/-- build.rs:4-13 -/
def docsStart : Text := "<!-- rust-docs-start -->".toList
def docsEnd : Text := "<!-- rust-docs-end -->".toList
def flagStart : Text := "<!-- rust-bitflags-docs-start -->".toList
def flagEnd : Text := "<!-- rust-bitflags-docs-end -->".toList

/-- What `update_lib_docs` makes of the two files, build.rs:119-141 -/
def updated (readme lib : Text) : Text :=
  replaceBetween
    (replaceBetween lib docsStart docsEnd (injectPrelude (extractContent readme docsStart docsEnd)))
    flagStart flagEnd (injectPrelude (extractContent readme flagStart flagEnd))

/-- The files the script may touch; `none` if a file is missing or is not UTF-8. -/
structure Files where
  readme : Option Text
  implLib : Option Text
  writable : Bool
deriving DecidableEq

/-- `main` and `update_lib_docs`, build.rs:21-34, 114-143: the files afterwards, and whether the script panics, which fails the
build. `updateDocs` is the variable `UPDATE_DOCS` if set to UTF-8 text. (A write that fails part way is not modelled, nor is what is
printed for Cargo.) -/
def main (updateDocs : Option Text) (fs : Files) : Files × Bool :=
  match updateDocs with
  | none => (fs, false)
  | some _ =>
    match fs.readme with
    | none => (fs, true)
    | some readme =>
      match fs.implLib with
      | none => (fs, true)
      | some lib => if fs.writable then ({ fs with implLib := some (updated readme lib) }, false) else (fs, true)

end Bf.Docs
