import Verif.Spec

/-!
# The text of `Debug`

What `core::fmt` makes of the calls `f.debug_struct(name)`, `debug.field(name, &value)`, `debug.finish()`, for `{:?}` and (`alt`)
for `{:#?}`; from the documentation and source of the standard library. (Not repo code.)
-/

namespace Bf.Debug

/-- The texts with a separator between them. -/
def join (sep : List Char) : List (List Char) → List Char
  | [] => []
  | [x] => x
  | x :: y :: r => x ++ sep ++ join sep (y :: r)

/-- What is written inside of braces or brackets of `{:#?}`: four spaces at the beginning of each line. -/
def pad (newline : Bool) : List Char → List Char
  | [] => []
  | c :: cs => (if newline then [' ', ' ', ' ', ' '] else []) ++ c :: pad (c == '\n') cs

/-- A number in decimal. -/
def number (n : Int) : List Char := (toString n).toList

/-- A list (`[1, 2]`). -/
def list (alt : Bool) (items : List (List Char)) : List Char :=
  if items.isEmpty then ['[', ']']
  else if alt then ['[', '\n'] ++ (items.flatMap fun x => pad true (x ++ [',', '\n'])) ++ [']']
  else ['['] ++ join [',', ' '] items ++ [']']

/-- A value; `user` is the user's implementation for custom types. -/
def value (user : Nat → List Char) (alt : Bool) : Val → List Char
  | .int n => number n
  | .bool b => (toString b).toList
  | .arr bs => list alt (bs.map fun b => number b.toNat)
  | .custom c => user c

/-- A struct (`Name { a: 1, b: 2 }`). -/
def struct (alt : Bool) (name : List Char) (rows : List (List Char × List Char)) : List Char :=
  if rows.isEmpty then name
  else if alt then
    name ++ [' ', '{', '\n'] ++ (rows.flatMap fun r => pad true (r.1 ++ [':', ' '] ++ r.2 ++ [',', '\n'])) ++ ['}']
  else name ++ [' ', '{', ' '] ++ join [',', ' '] (rows.map fun r => r.1 ++ [':', ' '] ++ r.2) ++ [' ', '}']

/-- The text of a struct `name` for a list of calls `debug.field`. -/
def text (user : Nat → List Char) (alt : Bool) (name : String) (out : List (String × Val)) : List Char :=
  struct alt name.toList (out.map fun r => (r.1.toList, value user alt r.2))

/-- What is shown of field `f` when the bits are `g`: the number formed by the bits of the field, or its bytes if the field is
a byte array and so is the storage. -/
def shown (B : Bitfield) (g : Bits) (f : Field) : Val :=
  match B.backing, f.ty with
  | .arr _, .array len => .arr (bytesOf len fun i => decide (i < f.bits) && g (f.offset + i))
  | _, _ => .int (natOf f.bits fun i => g (f.offset + i))

end Bf.Debug
