import Verif.Model.Parser
import Verif.Spec

/-!
# Specification vocabulary for declarations

What a user writes in a `#[bitfield]` struct, independently of how the macro reads it, and how it
looks as tokens. Used to state when a declaration is accepted and what it means.
-/

namespace Bf

/-! ## Integer literals (Rust reference, "Integer literals") -/

inductive Radix where
  | dec | hex | bin | oct
deriving DecidableEq, Repr

def Radix.base : Radix → Nat
  | .dec => 10
  | .hex => 16
  | .bin => 2
  | .oct => 8

/-- What precedes the digits. -/
def Radix.pfx : Radix → List Char
  | .dec => []
  | .hex => ['0', 'x']
  | .bin => ['0', 'b']
  | .oct => ['0', 'o']

/-- The digits allowed in a literal. -/
def Radix.digits : Radix → List Char
  | .dec => ['0', '1', '2', '3', '4', '5', '6', '7', '8', '9']
  | .hex => ['0', '1', '2', '3', '4', '5', '6', '7', '8', '9', 'a', 'b', 'c', 'd', 'e', 'f',
      'A', 'B', 'C', 'D', 'E', 'F']
  | .bin => ['0', '1']
  | .oct => ['0', '1', '2', '3', '4', '5', '6', '7']

/-- The type suffixes of integer literals. -/
def literalSuffixes : List (List Char) :=
  [['u', '8'], ['u', '1', '6'], ['u', '3', '2'], ['u', '6', '4'], ['u', '1', '2', '8'],
   ['u', 's', 'i', 'z', 'e'],
   ['i', '8'], ['i', '1', '6'], ['i', '3', '2'], ['i', '6', '4'], ['i', '1', '2', '8'],
   ['i', 's', 'i', 'z', 'e']]

/-- An integer literal, possibly negated: `-`, spaces, the radix prefix, digits and underscores, a
type suffix (or nothing). -/
structure IntLit where
  neg : Bool
  spaces : Nat
  radix : Radix
  body : List Char
  suffix : List Char
deriving DecidableEq, Repr

/-- The literal is valid Rust: its body consists of digits and underscores and has a digit
(a decimal literal begins with one). -/
structure IntLit.Valid (l : IntLit) : Prop where
  body : ∀ c ∈ l.body, c = '_' ∨ c ∈ l.radix.digits
  digit : ∃ c ∈ l.body, c ∈ l.radix.digits
  first : l.radix = .dec → ∀ c, l.body.head? = some c → c ∈ l.radix.digits
  suffix : l.suffix = [] ∨ l.suffix ∈ literalSuffixes

/-- The source text. -/
def IntLit.text (l : IntLit) : List Char :=
  (if l.neg then '-' :: List.replicate l.spaces ' ' else []) ++ l.radix.pfx ++ l.body ++ l.suffix

/-- The value of a digit. -/
def digitValue (c : Char) : Nat :=
  match c with
  | '0' => 0 | '1' => 1 | '2' => 2 | '3' => 3 | '4' => 4
  | '5' => 5 | '6' => 6 | '7' => 7 | '8' => 8 | '9' => 9
  | 'a' | 'A' => 10 | 'b' | 'B' => 11 | 'c' | 'C' => 12
  | 'd' | 'D' => 13 | 'e' | 'E' => 14 | 'f' | 'F' => 15
  | _ => 0

/-- The absolute value of a literal: its digits in positional notation, underscores skipped. -/
def IntLit.magnitude (l : IntLit) : Nat :=
  (l.body.filter fun c => c != '_').foldl (fun acc c => l.radix.base * acc + digitValue c) 0

/-- The digits, lower-cased, underscores dropped. -/
def IntLit.lower (l : IntLit) : List Char := (l.body.filter fun c => c != '_').map Char.toLower

/-- The literal is a negated hexadecimal literal without suffix whose last digits are `f32` or
`f64`, e.g. `-0x1f32`. (The macro takes such a literal for a float.) -/
def IntLit.FloatLike (l : IntLit) : Prop :=
  l.neg = true ∧ l.radix = .hex ∧ l.suffix = [] ∧
    (['f', '3', '2'] <:+ l.lower ∨ ['f', '6', '4'] <:+ l.lower)

instance (l : IntLit) : Decidable l.FloatLike := by unfold IntLit.FloatLike; infer_instance

/-- A text without its spaces and underscores, in lower case. -/
def compact (s : List Char) : List Char :=
  (s.filter fun c => c != ' ' && c != '_').map Char.toLower

/-- An expression that is neither a literal nor looks like a float: it begins with a letter, is
not `true` or `false`, has no dot and does not end in `f32` or `f64`. -/
structure PathLike (s : List Char) : Prop where
  first : ∃ c r, s = c :: r ∧ c.isAlpha = true
  last : ∀ c, s.getLast? = some c → c.isWhitespace = false
  dot : '.' ∉ s
  bool : compact s ≠ ['t', 'r', 'u', 'e'] ∧ compact s ≠ ['f', 'a', 'l', 's', 'e']
  float : ¬ ['f', '3', '2'] <:+ compact s ∧ ¬ ['f', '6', '4'] <:+ compact s

end Bf

namespace Bf

/-! ## Fields -/

/-- The type of a field or of the storage. `custom` is any path other than the built-in
types (with the type's conversion functions). -/
inductive TypeSpec where
  | int (t : IntTy)
  /-- `[u8; len]` -/
  | bytes (len : Nat)
  | custom (name : String) (c : Codec)

/-- The name of a built-in type. -/
def IntTy.name : IntTy → String
  | .bool => "bool"
  | .u8 => "u8" | .u16 => "u16" | .u32 => "u32" | .u64 => "u64" | .u128 => "u128"
  | .i8 => "i8" | .i16 => "i16" | .i32 => "i32" | .i64 => "i64" | .i128 => "i128"

/-- Names that do not denote a user's type. -/
def builtinNames : List String :=
  ["bool", "u8", "u16", "u32", "u64", "u128", "usize", "i8", "i16", "i32", "i64", "i128", "isize",
   "f32", "f64"]

/-- No type has these conversions; stands for those of a built-in type. -/
def noCodec : Codec := { fromBits := fun _ => .error .user, intoBits := fun _ => 0 }

/-- The syntax of the type. -/
def TypeSpec.syntax : TypeSpec → SynType
  | .int t => .path t.name noCodec
  | .bytes len => .array (.path "u8" noCodec) (.int len)
  | .custom name c => .path name c

/-- The type has a size of at least one byte that fits in 32 bits; a user's type does not have a
built-in name. -/
def TypeSpec.Supported : TypeSpec → Prop
  | .int _ => True
  | .bytes len => 1 ≤ len ∧ len < 2 ^ 32
  | .custom name _ => name ∉ builtinNames

/-- A type listed as a user's type is not in fact a `bool` or an integer. -/
def TypeSpec.Proper : TypeSpec → Prop
  | .custom name _ => name ∉ ["bool", "u8", "u16", "u32", "u64", "u128", "i8", "i16", "i32", "i64",
      "i128"]
  | _ => True

/-- Size in bits, if it is a built-in type. -/
def TypeSpec.size : TypeSpec → Option Nat
  | .int t => some t.bitSize
  | .bytes len => some (8 * len)
  | .custom _ _ => none

/-- A default: an integer literal, a `bool` literal or another expression. -/
inductive DefaultSpec where
  | int (l : IntLit)
  | bool (b : Bool)
  | expr (text : List Char)

/-- Its source text. -/
def DefaultSpec.text : DefaultSpec → List Char
  | .int l => l.text
  | .bool b => if b then ['t', 'r', 'u', 'e'] else ['f', 'a', 'l', 's', 'e']
  | .expr t => t

/-- The default is valid Rust and one the macro reads correctly (see C43); negated literals are
above -2^127. -/
def DefaultSpec.Supported : DefaultSpec → Prop
  | .int l => l.Valid ∧ l.magnitude < 2 ^ 128 ∧ ¬ l.FloatLike ∧
      (l.neg = true → l.magnitude < 2 ^ 127)
  | .bool _ => True
  | .expr t => PathLike t

/-- The default, if it is a literal, fits an integer or `bool` field of type `t` and `w` bits. -/
def DefaultSpec.Fits (t : IntTy) (w : Nat) : DefaultSpec → Prop
  | .int l =>
    if l.neg then t.unsigned = false ∧ l.magnitude ≤ 2 ^ (w - 1) else l.magnitude < 2 ^ w
  | .bool b => (if b then 1 else 0) < 2 ^ w
  | .expr _ => True

/-- An argument of `#[bits(..)]`. A default comes with the value rustc gives it. -/
inductive BitsArgSpec where
  | access (a : Access)
  | ignore (b : Bool)
  | default (d : DefaultSpec) (v : Val)

/-- Names of the access kinds. -/
def Access.text : Access → List Char
  | .ro => ['r', 'o']
  | .wo => ['w', 'o']
  | .rw => ['r', 'w']
  | .na => ['n', 'a']

def boolText (b : Bool) : List Char :=
  if b then ['t', 'r', 'u', 'e'] else ['f', 'a', 'l', 's', 'e']

/-- The tokens of an argument. The value of an `access` or `ignore` argument is not used. -/
def BitsArgSpec.tokens : BitsArgSpec → List Tok
  | .access a => [.ident "access", .eq, .expr a.text (.bool false)]
  | .ignore b => [.ident "ignore", .eq, .expr (boolText b) (.bool b)]
  | .default d v => [.ident "default", .eq, .expr d.text v]

/-- Comma-separated arguments. -/
def argTokens : List BitsArgSpec → List Tok
  | [] => []
  | [a] => a.tokens
  | a :: as => a.tokens ++ .comma :: argTokens as

/-- A `#[bits(..)]` attribute: an optional width and arguments, in any order, possibly
repeated. -/
structure BitsSpec where
  width : Option Nat
  args : List BitsArgSpec

/-- Its tokens. -/
def BitsSpec.tokens (b : BitsSpec) : List Tok :=
  match b.width with
  | none => argTokens b.args
  | some n => .int n false :: if b.args.isEmpty then [] else .comma :: argTokens b.args

/-- A field as the user writes it. -/
structure FieldSpec where
  name : String
  vis : Vis
  ty : TypeSpec
  bits : Option BitsSpec

/-- The declaration. -/
def FieldSpec.decl (f : FieldSpec) : FieldDecl where
  name := f.name
  vis := f.vis
  ty := f.ty.syntax
  attrs := match f.bits with
    | none => []
    | some b => [⟨true, true, some b.tokens⟩]

/-- The arguments of the field's `#[bits]` attribute. -/
def FieldSpec.args (f : FieldSpec) : List BitsArgSpec :=
  match f.bits with
  | none => []
  | some b => b.args

/-- The last of the arguments that `g` selects. -/
def lastArg {α β : Type} (g : α → Option β) (as : List α) : Option β := as.reverse.findSome? g

/-- The access the user states, if any: the last `access` argument. -/
def FieldSpec.access? (f : FieldSpec) : Option Access :=
  lastArg (fun | .access a => some a | _ => none) f.args

/-- The field is marked as ignored: the last `ignore` argument is `true`. -/
def FieldSpec.ignored (f : FieldSpec) : Bool :=
  (lastArg (fun | .ignore b => some b | _ => none) f.args).getD false

/-- The default, if any: the last `default` argument. -/
def FieldSpec.default? (f : FieldSpec) : Option (DefaultSpec × Val) :=
  lastArg (fun | .default d v => some (d, v) | _ => none) f.args

/-- The width: the stated one, else the size of the type. -/
def FieldSpec.width? (f : FieldSpec) : Option Nat :=
  match f.bits.bind BitsSpec.width with
  | some n => some n
  | none => f.ty.size

/-- The number of bits the field takes. -/
def FieldSpec.width (f : FieldSpec) : Nat := if f.ignored then 0 else f.width?.getD 0

/-- The field is reserved: its name starts with an underscore. -/
def FieldSpec.reserved (f : FieldSpec) : Bool := f.name.toList.head? = some '_'

/-- The field is one the macro should accept. -/
structure FieldSpec.Legal (f : FieldSpec) : Prop where
  /-- its type is supported -/
  ty : f.ty.Supported
  /-- a stated width is below 2^32 (even of an ignored field) -/
  stated : ∀ n, f.bits.bind BitsSpec.width = some n → n < 2 ^ 32
  /-- it has a width of at least one bit (so a custom type needs an explicit one) -/
  width : f.ignored = false → ∃ w, f.width? = some w ∧ 1 ≤ w
  /-- an integer or `bool` field is no wider than its type -/
  holds : f.ignored = false → ∀ t, f.ty = .int t → f.width ≤ t.bitSize
  /-- a literal default fits in an integer or `bool` field -/
  default : f.ignored = false → ∀ t, f.ty = .int t → ∀ d v, f.default? = some (d, v) →
    d.Fits t f.width
  /-- a reserved field states no access -/
  access : f.ignored = false → f.reserved = true → f.access? = none

/-- The field's defaults are ones the macro reads correctly (see C43). -/
def FieldSpec.Readable (f : FieldSpec) : Prop :=
  ∀ d v, .default d v ∈ f.args → d.Supported

/-- The field with one more argument: a literal default. -/
def FieldSpec.withDefault (f : FieldSpec) (b : BitsSpec) (l : IntLit) (v : Val) : FieldSpec :=
  { f with bits := some { b with args := b.args ++ [.default (.int l) v] } }

/-- The field under another name. -/
def FieldSpec.renamed (f : FieldSpec) (name : String) : FieldSpec := { f with name := name }

/-! ## Structs -/

/-- A struct as the user writes it: the storage type, further arguments of `#[bitfield]` (as
tokens), visibility and fields. -/
structure StructSpec where
  storage : TypeSpec
  rest : List Tok
  vis : Vis
  fields : List FieldSpec

/-- The attribute's input. -/
def StructSpec.attr (s : StructSpec) : AttrInput := ⟨some s.storage.syntax, s.rest⟩

/-- The declaration. -/
def StructSpec.decl (s : StructSpec) : StructDecl := ⟨s.vis, some (s.fields.map FieldSpec.decl)⟩

/-- The struct is given by a proper description, and its defaults are ones the macro reads
correctly (see C43). -/
structure StructSpec.Readable (s : StructSpec) : Prop where
  storage : s.storage.Proper
  ty : ∀ f ∈ s.fields, f.ty.Proper
  default : ∀ f ∈ s.fields, f.Readable

/-- The sum of the widths and the size of the storage are below 2^32, the range of the macro's
integers. -/
structure StructSpec.Small (s : StructSpec) : Prop where
  widths : (s.fields.map FieldSpec.width).sum < 2 ^ 32
  storage : ∀ n, s.storage.size = some n → n < 2 ^ 32

/-- The struct is one the macro should accept. -/
structure StructSpec.Legal (s : StructSpec) : Prop where
  /-- the storage is `bool`, an unsigned integer or a non-empty byte array -/
  storage : match s.storage with
    | .int t => t.unsigned = true
    | .bytes n => 1 ≤ n ∧ 8 * n < 2 ^ 32
    | .custom _ _ => False
  /-- every field is legal -/
  field : ∀ f ∈ s.fields, f.Legal
  /-- the name of a field that is not reserved (or is ignored) does not occur again -/
  names : s.fields.Pairwise fun f g => (f.reserved = false ∨ f.ignored = true) → f.name ≠ g.name
  /-- the widths of the fields sum up to exactly the size of the storage -/
  total : some (s.fields.map FieldSpec.width).sum = s.storage.size

/-! ## Layouts -/

/-- The fields partition the storage: each is inside, no two share a bit, and every bit belongs
to the field at one index and to no other. -/
structure Partition (size : Nat) (fs : List Field) : Prop where
  inside : ∀ f ∈ fs, 1 ≤ f.bits ∧ f.offset + f.bits ≤ size
  disjoint : fs.Pairwise Field.Disjoint
  one : ∀ i < size, ∃ k < fs.length, ∀ j f, fs[j]? = some f → (f.covers i = true ↔ j = k)

/-- The offset of a field of `width` bits, if the fields before it have `before` bits. -/
def specOffset (order : Order) (size before width : Nat) : Nat :=
  match order with
  | .lsb => before
  | .msb => size - (before + width)

end Bf
