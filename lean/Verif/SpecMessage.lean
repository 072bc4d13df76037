import Verif.SpecForm

/-!
# Specification vocabulary for compile errors

Each message of the macros, with the fact about the declaration that the message claims. The texts are those a user
reads.
-/

namespace Bf

/-! ## Arguments of the attributes -/

/-- The arguments that an attribute has: those that are `true` or `false`, those that are a byte order, a bit order or an
access, those that are an expression; and how a message lists them. -/
structure ArgKeys where
  bool : List String
  endian : List String
  order : List String
  access : List String
  expr : List String
  listed : String

def ArgKeys.all (K : ArgKeys) : List String := K.bool ++ K.endian ++ K.order ++ K.access ++ K.expr

/-- The arguments of `#[bitfield(..)]`. (`force_panic` is for tests of the crate and not listed.) -/
def ArgKeys.bitfield : ArgKeys where
  bool := ["new", "from_into_bits", "from_traits", "default", "debug", "copy", "bit_ops", "write_bit_ops",
    "clear_bit_ops", "set_get_bit_ops", "invert_bit_ops", "toggle_bit_ops", "builder", "array_heap", "force_panic"]
  endian := ["from_endian", "into_endian", "write_endian"]
  order := ["order"]
  access := []
  expr := []
  listed := "'array_heap', 'bit_ops', 'builder', 'clear_bit_ops', 'copy', 'debug', 'default', 'from_endian', \
    'from_into_bits', 'from_traits', 'into_endian', 'invert_bit_ops', 'new', 'order', 'set_get_bit_ops', \
    'toggle_bit_ops', 'write_bit_ops', 'write_endian'"

/-- The arguments of `#[bits(..)]`. -/
def ArgKeys.bits : ArgKeys where
  bool := ["ignore"]
  endian := []
  order := []
  access := ["access"]
  expr := ["default"]
  listed := "'access', 'default', 'ignore'"

/-- The arguments of `#[bitflag(..)]`. -/
def ArgKeys.bitflag : ArgKeys where
  bool := ["copy"]
  endian := ["from_endian", "into_endian"]
  order := []
  access := []
  expr := []
  listed := "'copy', 'from_endian', 'into_endian'"

/-- The argument `k = t` is among the tokens. -/
def Given (ts : List Tok) (k : String) (t : List Char) : Prop := ∃ v, [.ident k, .eq, .expr t v] <:+: ts

/-- What the message says about the arguments `ts` is the case. -/
inductive ArgsWrong (K : ArgKeys) (ts : List Tok) : String → Prop where
  /-- there is no such argument -/
  | unknown (k : String) : .ident k ∈ ts → k ∉ K.all →
      ArgsWrong K ts s!"Unknown argument '{k}'. Valid arguments are: {K.listed}."
  /-- neither `true` nor `false` -/
  | bool (k : String) (t : List Char) : Given ts k t → k ∈ K.bool → (∀ b, t ≠ boolText b) →
      ArgsWrong K ts s!"Invalid value for boolean argument '{k}'. Valid values are 'true' or 'false'"
  /-- neither `little` nor `big` -/
  | endian (k : String) (t : List Char) : Given ts k t → k ∈ K.endian → (∀ e : Endian, ¬ Reads (trim t) e.text) →
      ArgsWrong K ts s!"Invalid endian argument '{String.ofList t}'. Valid values are 'little' or 'big'."
  /-- neither `lsb` nor `msb` -/
  | order (k : String) (t : List Char) : Given ts k t → k ∈ K.order → (∀ o : Order, ¬ Reads t o.text) →
      ArgsWrong K ts s!"Invalid order argument '{String.ofList t}'. Valid values are 'lsb' or 'msb'."
  /-- not an access -/
  | access (k : String) (t : List Char) : Given ts k t → k ∈ K.access → (∀ a : Access, ¬ Reads t a.text) →
      ArgsWrong K ts s!"Invalid field access argument '{String.ofList t}'. Valid values are 'ro', 'wo', 'rw', or 'na'."
  /-- an expression with a `.`, or one that ends with `f32` or `f64` (in upper or lower case, not counting spaces and
  underscores) -/
  | float (k : String) (t : List Char) : Given ts k t → k ∈ K.expr →
      (let s := ((trim t).filter fun c => !(c == ' ' || c == '_')).map Char.toLower
       '.' ∈ s ∨ ['f', '3', '2'] <:+ s ∨ ['f', '6', '4'] <:+ s) →
      ArgsWrong K ts "Float are not supported."
  /-- an argument without `=` after it -/
  | equals (k : String) : k ∈ K.all → ([.ident k] <:+ ts ∨ ∃ x, x ≠ .eq ∧ [.ident k, x] <:+: ts) →
      ArgsWrong K ts "Expected '=' after argument"
  /-- nothing after the `=` -/
  | nothing (k : String) : k ∈ K.all → [.ident k, .eq] <:+ ts → ArgsWrong K ts "Expected value after '='"
  /-- no expression after the `=` -/
  | value (k : String) (x : Tok) : k ∈ K.all → [.ident k, .eq, x] <:+: ts → (∀ t v, x ≠ .expr t v) →
      ArgsWrong K ts "Expected argument value"
  /-- an argument that is followed by something else than a comma -/
  | comma (k : String) (t : List Char) (v : Val) (x : Tok) : k ∈ K.all → [.ident k, .eq, .expr t v, x] <:+: ts →
      x ≠ .comma → ArgsWrong K ts "expected `,`"
  /-- an argument that does not begin with an identifier -/
  | ident (x : Tok) : [x] <+: ts ∨ [.comma, x] <:+: ts → (∀ k, x ≠ .ident k) →
      ArgsWrong K ts "Invalid argument, expected an identifier"

/-- What the message says about the tokens of `#[bits(..)]` is the case. -/
inductive BitsWrong (ts : List Tok) : String → Prop where
  /-- a `-` at the beginning -/
  | minus : .minus ∈ ts → BitsWrong ts "Invalid bit count, expected an unsigned integer."
  /-- a number with a type suffix -/
  | suffix (n : Nat) : .int n true ∈ ts →
      BitsWrong ts "Invalid bit count, expected an unsigned integer without a suffix."
  /-- a number that does not fit in a `u32` -/
  | big (n : Nat) : .int n false ∈ ts → 4294967295 < n →
      BitsWrong ts s!"Bit count '{n}' is too big, the maximum amount of bits is '4,294,967,295.'"
  /-- a wrong argument after the number and commas -/
  | argument (pre rest : List Tok) {msg : String} : ts = pre ++ rest → (∀ x ∈ pre, x = .comma ∨ ∃ n, x = .int n false) →
      ArgsWrong .bits rest msg → BitsWrong ts msg

/-! ## Structs -/

/-- The type as messages name it. -/
def TypeSpec.text : TypeSpec → String
  | .int t => t.name
  | .bytes n => s!"[u8;{n}]"
  | .custom name _ => name

/-- What the message says about the field is the case. -/
inductive FieldSpec.Wrong (f : FieldSpec) : String → Prop where
  | count (n : Nat) : f.bits.bind BitsSpec.width = some n → 4294967295 < n →
      Wrong f s!"Bit count '{n}' is too big, the maximum amount of bits is '4,294,967,295.'"
  | float (name : String) (c : Codec) : f.ty = .custom name c → name ∈ ["f32", "f64"] →
      Wrong f "Floats are not supported as a field type."
  | pointer (name : String) (c : Codec) : f.ty = .custom name c → name ∈ ["usize", "isize"] →
      Wrong f "The `isize` and `usize` types are not supported, we cannot guarantee their size at runtime. Switch to a \
        sized integer type like `u8`, `i16`, etc.,"
  | empty : f.ty = .bytes 0 → Wrong f "Array fields must have a length greater than 0."
  | long (n : Nat) : f.ty = .bytes n → 4294967295 < n →
      Wrong f "Field array length is currently capped at 4,294,967,295, please reduce the array length."
  /-- a user's type without a stated width -/
  | unsized (name : String) (c : Codec) : f.ty = .custom name c → f.bits.bind BitsSpec.width = none →
      Wrong f "Custom and nested field types require a defined bit size, otherwise we can't determine the size of the \
        field."
  | zero : f.bits.bind BitsSpec.width = some 0 → Wrong f "The field bits must be greater than 0."
  /-- a negative default of a `bool` or an unsigned integer -/
  | negative (t : IntTy) (l : IntLit) (v : Val) : f.ty = .int t → t.unsigned = true → f.default? = some (.int l, v) →
      l.neg = true → Wrong f "Unsigned fields cannot have negative default values."
  /-- a default below `-2^(w-1)` -/
  | below (t : IntTy) (l : IntLit) (v : Val) (w : Nat) : f.ty = .int t → t.unsigned = false →
      f.default? = some (.int l, v) → l.neg = true → f.width? = some w → 2 ^ (w - 1) < l.magnitude →
      Wrong f s!"The negative default value '-{l.magnitude}' is below the minimum value for the specified \
        '{w} bits (-{2 ^ (w - 1)})'."
  /-- a default above `2^w - 1` -/
  | above (t : IntTy) (l : IntLit) (v : Val) (w : Nat) : f.ty = .int t → f.default? = some (.int l, v) →
      l.neg = false → f.width? = some w → 2 ^ w - 1 < l.magnitude →
      Wrong f s!"The default value '{l.magnitude}' exceeds the maximum value for the specified '{w} bits \
        ({2 ^ w - 1})'."
  /-- a stated width that is greater than the width of the type -/
  | narrow (t : IntTy) (w : Nat) : f.ty = .int t → f.bits.bind BitsSpec.width = some w → t.bitSize < w →
      Wrong f s!"The field type '{t.name}' is too small to hold the specified '{w} bits'."
  /-- an access of a field whose name begins with an underscore -/
  | access : f.reserved = true → f.access?.isSome = true → Wrong f "Reserved fields cannot have a defined access."

/-- What the message says about the struct is the case. -/
inductive StructSpec.Wrong (s : StructSpec) : String → Prop where
  | float (name : String) (c : Codec) : s.storage = .custom name c → name ∈ ["f32", "f64"] →
      Wrong s "The bitfield must have an unsigned integer literal as its first argument, floats are unsupported."
  | pointer (name : String) (c : Codec) : s.storage = .custom name c → name ∈ ["usize", "isize"] →
      Wrong s "The bitfield must have an unsigned integer literal as its first argument."
  | empty : s.storage = .bytes 0 → Wrong s "The bitfield array length must be greater than 0."
  | long (n : Nat) : s.storage = .bytes n → 4294967295 < n →
      Wrong s "The bitfield array length is currently capped at 4,294,967,295, please reduce the array length."
  /-- a signed integer or a user's type -/
  | storage : (∀ t, s.storage = .int t → t.unsigned = false) → (∀ n, s.storage ≠ .bytes n) →
      Wrong s s!"The bitfield must have an unsigned integer literal as its first argument, '{s.storage.text}' is \
        unsupported."
  | argument {msg : String} : ArgsWrong .bitfield s.rest msg → Wrong s msg
  /-- a field that is not ignored -/
  | field (f : FieldSpec) {msg : String} : f ∈ s.fields → f.ignored = false → f.Wrong msg → Wrong s msg
  /-- a width that is too big is reported even if the field is ignored -/
  | count (f : FieldSpec) (n : Nat) : f ∈ s.fields → f.bits.bind BitsSpec.width = some n → 4294967295 < n →
      Wrong s s!"Bit count '{n}' is too big, the maximum amount of bits is '4,294,967,295.'"
  /-- two fields with the same name -/
  | name (pre mid post : List FieldSpec) (f g : FieldSpec) : s.fields = pre ++ f :: (mid ++ g :: post) →
      f.name = g.name → (f.reserved = true → f.ignored = true) →
      Wrong s s!"Duplicate field name '{g.name}' found, all fields must have unique names."
  /-- the first fields are together bigger than the storage -/
  | over (pre post : List FieldSpec) (size : Nat) : s.fields = pre ++ post → s.storage.size = some size →
      size < (pre.map FieldSpec.width).sum →
      Wrong s s!"The total bits of the fields ({(pre.map FieldSpec.width).sum} bits) exceeds the bit size of the \
        bitfield type ({size} bits)."
  /-- the fields are together bigger than the storage -/
  | greater (size : Nat) : s.storage.size = some size → size < (s.fields.map FieldSpec.width).sum →
      Wrong s s!"The total number of bits of the fields '{(s.fields.map FieldSpec.width).sum} bits' is greater than the \
        number of bits of the bitfield '{s.storage.text} ({size} bits)'."
  /-- the fields are together smaller than the storage -/
  | less (size : Nat) : s.storage.size = some size → (s.fields.map FieldSpec.width).sum < size →
      Wrong s s!"The total number of bits of the fields '{(s.fields.map FieldSpec.width).sum} bits' is less than the \
        number of bits of the bitfield '{s.storage.text} ({size} bits)', you can add a reserved field (prefixed with \
        '_') to fill the remaining '{size - (s.fields.map FieldSpec.width).sum} bits'."

/-! ## Enums -/

/-- What the message says about the enum with the type, variants of `s` and the arguments `rest` is the case. -/
inductive EnumSpec.Wrong (s : EnumSpec) (rest : List Tok) : String → Prop where
  | float (name : String) (c : Codec) : s.ty = .custom name c → name ∈ ["f32", "f64"] →
      Wrong s rest
        "The bitflag attribute must have an unsigned integer type as its first argument, floats are unsupported."
  /-- `usize`, `isize`, or an array -/
  | type : (∀ t, s.ty ≠ .int t) →
      Wrong s rest "The bitflag attribute must have an unsigned integer type as its first argument."
  /-- a signed integer or a user's type -/
  | unsupported : (∀ t, s.ty = .int t → t.unsigned = false) → (∀ n, s.ty ≠ .bytes n) →
      Wrong s rest s!"The bitflag attribute must have an unsigned integer type as its first argument, '{s.ty.text}' is \
        unsupported."
  | argument {msg : String} : ArgsWrong .bitflag rest msg → Wrong s rest msg
  | value (v : VariantSpec) : v ∈ s.variants → v.value = none →
      Wrong s rest s!"Bitflag variant '{v.name}' must have an explicit value (e.g. `{v.name} = 0b0001`)."
  | bases (pre mid post : List VariantSpec) (v w : VariantSpec) : s.variants = pre ++ v :: (mid ++ w :: post) →
      v.IsBase → w.IsBase → Wrong s rest "There can only be one bitflag variant marked as `#[base]`."
  | fallback : (∀ v ∈ s.variants, ¬ v.IsBase ∧ ¬ v.IsDefault) →
      Wrong s rest "The bitflag must have at least one variant marked with `#[base]` or `#[default]`. If a variant is \
        marked with `#[base]`, it will take precedence over `#[default]`."

end Bf
