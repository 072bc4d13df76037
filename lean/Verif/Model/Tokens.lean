import Verif.Model.Parser

/-!
# Tokens and `quote!`

The tokens of the Rust code the macro prints, and `quote!` (the `quote` crate, not repo code): `quote! "…"` in a
definition stands for the list of the tokens of the text, with the tokens of `x` in place of `#x`. The text is cut into
tokens by `lex` when Lean reads the definition. Delimiters are tokens of their own.

Opaque tokens stand for what the user wrote: `custom` for the tokens of a user's type, `user` for those of a default
expression, `vis` for those of a visibility, `attr` for those of an attribute.
-/

namespace Bf.Text

/-- Keywords that occur in the templates. -/
inductive Kw where
  | let_ | mut_ | if_ | else_ | while_ | return_ | as_ | match_ | fn_ | const_ | for_ | impl_ | struct_ | pub_
  | enum_
deriving DecidableEq, Repr

/-- Punctuation that occurs in the templates. -/
inductive Punct where
  | path | arrow | fat | shl | shr | eqeq | ne | ge | le | andand | oror | addEq | orEq | andEq | xorEq | dotdot
  | eq | lt | gt | not | and | or | xor | add | sub | mul | div | rem | dot | comma | semi | colon | hash
deriving DecidableEq, Repr

/-- Delimiters. -/
inductive Delim where
  | paren | bracket | brace
deriving DecidableEq, Repr

/-- A token. -/
inductive Tok where
  | ident (s : String)
  | kw (k : Kw)
  | p (q : Punct)
  /-- an integer literal and its suffix, which may be empty -/
  | int (n : Nat) (suffix : String)
  | str (s : String)
  | lifetime (s : String)
  | opn (d : Delim)
  | cls (d : Delim)
  /-- `#name` in a template -/
  | hole (name : String)
  /-- `#(`, the beginning of a repetition in a template -/
  | rep
  /-- the tokens of a user's type -/
  | custom (c : Codec)
  /-- the tokens of a default expression, that of the field at `offset`, in one piece -/
  | user (offset : Nat)
  /-- the tokens of a visibility -/
  | vis (v : Vis)
  /-- the tokens of an attribute of the struct -/
  | attr (text : String)
  /-- not a token -/
  | bad (c : Char)

/-! ## Lexing -/

/-- A character of an identifier or a number. -/
def isWord (c : Char) : Bool := c.isAlphanum || c == '_'

/-- The keywords. -/
def keywords : List (List Char × Kw) :=
  [("let".toList, .let_), ("mut".toList, .mut_), ("if".toList, .if_), ("else".toList, .else_),
   ("while".toList, .while_), ("return".toList, .return_), ("as".toList, .as_), ("match".toList, .match_),
   ("fn".toList, .fn_), ("const".toList, .const_), ("for".toList, .for_), ("impl".toList, .impl_),
   ("struct".toList, .struct_), ("pub".toList, .pub_), ("enum".toList, .enum_)]

/-- The value of a digit. -/
def digit (c : Char) : Nat :=
  if c.isDigit then c.toNat - 48 else c.toLower.toNat - 87

/-- The value of a numeral. -/
def numeral (base : Nat) : Nat → List Char → Nat
  | acc, [] => acc
  | acc, c :: cs => numeral base (base * acc + digit c) cs

/-- An integer literal: hexadecimal without suffix, or decimal with or without one. -/
def number : List Char → Tok
  | '0' :: 'x' :: cs => .int (numeral 16 0 cs) ""
  | cs => .int (numeral 10 0 (cs.takeWhile Char.isDigit)) (String.ofList (cs.dropWhile Char.isDigit))

/-- A keyword, an identifier or a number. -/
def wordTok (cs : List Char) : Tok :=
  match keywords.lookup cs with
  | some k => .kw k
  | none => if (cs.head?.getD ' ').isDigit then number cs else .ident (String.ofList cs)

/-- Punctuation of two characters. -/
def double : Char → Char → Option Punct
  | ':', ':' => some .path
  | '-', '>' => some .arrow
  | '=', '>' => some .fat
  | '<', '<' => some .shl
  | '>', '>' => some .shr
  | '=', '=' => some .eqeq
  | '!', '=' => some .ne
  | '>', '=' => some .ge
  | '<', '=' => some .le
  | '&', '&' => some .andand
  | '|', '|' => some .oror
  | '+', '=' => some .addEq
  | '|', '=' => some .orEq
  | '&', '=' => some .andEq
  | '^', '=' => some .xorEq
  | '.', '.' => some .dotdot
  | _, _ => none

/-- Punctuation of one character. -/
def single : Char → Tok
  | '=' => .p .eq
  | '<' => .p .lt
  | '>' => .p .gt
  | '!' => .p .not
  | '&' => .p .and
  | '|' => .p .or
  | '^' => .p .xor
  | '+' => .p .add
  | '-' => .p .sub
  | '*' => .p .mul
  | '/' => .p .div
  | '%' => .p .rem
  | '.' => .p .dot
  | ',' => .p .comma
  | ';' => .p .semi
  | ':' => .p .colon
  | '#' => .p .hash
  | '(' => .opn .paren
  | '[' => .opn .bracket
  | '{' => .opn .brace
  | ')' => .cls .paren
  | ']' => .cls .bracket
  | '}' => .cls .brace
  | c => .bad c

/-- What the lexer is in the middle of; characters are in reverse order. -/
inductive Lexing where
  | none
  | word (r : List Char)
  | hole (r : List Char)
  | lifetime (r : List Char)
  | str (r : List Char)
  /-- a character of punctuation that may be the first of two -/
  | punct (c : Char)

/-- The beginning of a token. -/
def begin (c : Char) (k : Lexing → List Tok) : List Tok :=
  if c.isWhitespace then k .none
  else if isWord c then k (.word [c])
  else if c == '"' then k (.str [])
  else if c == '\'' then k (.lifetime [])
  else k (.punct c)

/-- The tokens of a text. -/
def lex : List Char → Lexing → List Tok
  | [], .none => []
  | [], .word r => [wordTok r.reverse]
  | [], .hole r => [.hole (String.ofList r.reverse)]
  | [], .lifetime r => [.lifetime (String.ofList r.reverse)]
  | [], .str _ => [.bad '"']
  | [], .punct c => [single c]
  | c :: cs, .none => begin c (lex cs)
  | c :: cs, .word r => if isWord c then lex cs (.word (c :: r)) else wordTok r.reverse :: begin c (lex cs)
  | c :: cs, .hole r =>
    if isWord c then lex cs (.hole (c :: r)) else .hole (String.ofList r.reverse) :: begin c (lex cs)
  | c :: cs, .lifetime r =>
    if isWord c then lex cs (.lifetime (c :: r)) else .lifetime (String.ofList r.reverse) :: begin c (lex cs)
  | c :: cs, .str r =>
    if c == '"' then .str (String.ofList r.reverse) :: lex cs .none
    else lex cs (.str (c :: r))
  | c :: cs, .punct d =>
    match double d c with
    | some q => .p q :: lex cs .none
    | none =>
      if d == '#' && (c.isAlpha || c == '_') then lex cs (.hole [c])
      else if d == '#' && c == '(' then .rep :: lex cs .none
      else single d :: begin c (lex cs)

/-! ## `quote!` -/

/-- What can be put in a hole: `ToTokens` of the `quote` crate. -/
class Splice (α : Type) where
  splice : α → List Tok

instance : Splice (List Tok) := ⟨fun ts => ts⟩
instance : Splice (Option (List Tok)) := ⟨fun o => o.getD []⟩
instance : Splice Tok := ⟨fun t => [t]⟩

/-- The elements of a list, one after the other. -/
def joined : List (List Tok) → List Tok
  | [] => []
  | ts :: tss => ts ++ joined tss

/-- The elements of a list, with a comma after each. -/
def joinedComma : List (List Tok) → List Tok
  | [] => []
  | ts :: tss => ts ++ .p .comma :: joinedComma tss

/-- The elements of a list, with commas between them. -/
def joinedBetween : List (List Tok) → List Tok
  | [] => []
  | [ts] => ts
  | ts :: tss => ts ++ .p .comma :: joinedBetween tss

/-- The term for a keyword. -/
def kwTerm : Kw → Lean.Name
  | .let_ => ``Kw.let_
  | .mut_ => ``Kw.mut_
  | .if_ => ``Kw.if_
  | .else_ => ``Kw.else_
  | .while_ => ``Kw.while_
  | .return_ => ``Kw.return_
  | .as_ => ``Kw.as_
  | .match_ => ``Kw.match_
  | .fn_ => ``Kw.fn_
  | .const_ => ``Kw.const_
  | .for_ => ``Kw.for_
  | .impl_ => ``Kw.impl_
  | .struct_ => ``Kw.struct_
  | .pub_ => ``Kw.pub_
  | .enum_ => ``Kw.enum_

/-- The term for a delimiter. -/
def delimTerm : Delim → Lean.Name
  | .paren => ``Delim.paren
  | .bracket => ``Delim.bracket
  | .brace => ``Delim.brace

/-- The term for punctuation. -/
def punctTerm : Punct → Lean.Name
  | .path => ``Punct.path
  | .arrow => ``Punct.arrow
  | .fat => ``Punct.fat
  | .shl => ``Punct.shl
  | .shr => ``Punct.shr
  | .eqeq => ``Punct.eqeq
  | .ne => ``Punct.ne
  | .ge => ``Punct.ge
  | .le => ``Punct.le
  | .andand => ``Punct.andand
  | .oror => ``Punct.oror
  | .addEq => ``Punct.addEq
  | .orEq => ``Punct.orEq
  | .andEq => ``Punct.andEq
  | .xorEq => ``Punct.xorEq
  | .dotdot => ``Punct.dotdot
  | .eq => ``Punct.eq
  | .lt => ``Punct.lt
  | .gt => ``Punct.gt
  | .not => ``Punct.not
  | .and => ``Punct.and
  | .or => ``Punct.or
  | .xor => ``Punct.xor
  | .add => ``Punct.add
  | .sub => ``Punct.sub
  | .mul => ``Punct.mul
  | .div => ``Punct.div
  | .rem => ``Punct.rem
  | .dot => ``Punct.dot
  | .comma => ``Punct.comma
  | .semi => ``Punct.semi
  | .colon => ``Punct.colon
  | .hash => ``Punct.hash

open Lean in
/-- The term for a template. A hole `#x` is filled with the tokens of the variable `x` in scope; repetitions have one
of the forms `#( #x )*`, `#( #x, )*` and `#( #x ),*`. -/
def templateTerm : List Tok → MacroM Term
  | .rep :: .hole x :: .cls .paren :: .p .mul :: ts => do
    let r ← templateTerm ts
    `(joined $(mkIdent (.mkSimple x)) ++ $r)
  | .rep :: .hole x :: .p .comma :: .cls .paren :: .p .mul :: ts => do
    let r ← templateTerm ts
    `(joinedComma $(mkIdent (.mkSimple x)) ++ $r)
  | .rep :: .hole x :: .cls .paren :: .p .comma :: .p .mul :: ts => do
    let r ← templateTerm ts
    `(joinedBetween $(mkIdent (.mkSimple x)) ++ $r)
  | [.hole x] => `(Splice.splice $(mkIdent (.mkSimple x)))
  | .hole x :: ts => do
    let r ← templateTerm ts
    `(Splice.splice $(mkIdent (.mkSimple x)) ++ $r)
  | t :: ts => do
    let r ← templateTerm ts
    let t ← (match t with
      | .ident s => `(Tok.ident $(Syntax.mkStrLit s))
      | .kw k => `(Tok.kw $(mkIdent (kwTerm k)))
      | .p q => `(Tok.p $(mkIdent (punctTerm q)))
      | .int n s => `(Tok.int $(Syntax.mkNatLit n) $(Syntax.mkStrLit s))
      | .str s => `(Tok.str $(Syntax.mkStrLit s))
      | .lifetime s => `(Tok.lifetime $(Syntax.mkStrLit s))
      | .opn d => `(Tok.opn $(mkIdent (delimTerm d)))
      | .cls d => `(Tok.cls $(mkIdent (delimTerm d)))
      | _ => Macro.throwError "not a template")
    `($t :: $r)
  | [] => `([])

/-- `quote! { .. }` -/
macro "quote!" s:str : term => templateTerm (lex s.getString.toList .none)

end Bf.Text
