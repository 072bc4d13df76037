import Verif.Model.Emit
import Verif.Model.EmitFlag

/-!
# The words of the generated code

What the tokens of an expansion may be: words of a fixed list, names and tokens that the user wrote, names made of
names that the user wrote, and tokens that are no names.
-/

namespace Bf.Text

/-- The words that the macro itself brings in: attributes and derives, paths into the standard library, the names of
the primitive types and their constants, names of locals, and the names of the functions that do not depend on the
fields. -/
def words : List String :=
  -- attributes
  ["C", "allow", "clippy", "derive", "doc", "manual_swap", "repr", "transparent", "unnecessary_cast",
  -- the standard library
   "Box", "Clone", "Copy", "Debug", "Default", "Err", "Formatter", "From", "Ok", "Result", "boxed", "clone", "contains",
   "convert", "core", "debug_struct", "default", "field", "finish", "fmt", "from", "len", "marker", "new", "result",
   "std", "swap_bytes",
  -- types, their constants, and what stands for a type or a value
   "BITS", "MAX", "Self", "_", "bool", "false", "self", "str", "u8", "u16", "u32", "u64", "u128", "usize", "i8", "i16",
   "i32", "i64", "i128",
  -- parameters, locals and members
   "__arr", "__i", "__int_val", "__src", "__v", "__val", "bit", "bit_in_byte", "bit_index", "bit_val", "bits",
   "byte_idx", "bytes", "copy_len", "debug", "dst_bit", "dst_bit_in_byte", "dst_byte", "dst_byte_idx", "e", "f",
   "field_bits", "i", "is_protected", "j", "length", "mask", "offset", "protected_mask", "range_mask", "readable_mask",
   "res", "shift", "shifted_protected_mask", "slice", "src_bit", "src_bit_in_byte", "src_byte", "temp", "temp_bits",
   "this", "val", "val_to_set", "value", "writable_mask",
  -- functions
   "build", "new_without_defaults",
   "from_bits", "from_bits_with_defaults", "from_le_bits", "from_le_bits_with_defaults", "from_be_bits",
   "from_be_bits_with_defaults", "into_bits", "into_le_bits", "into_be_bits",
   "from_bytes", "from_bytes_with_defaults", "from_le_bytes", "from_le_bytes_with_defaults", "from_be_bytes",
   "from_be_bytes_with_defaults", "into_bytes", "into_le_bytes", "into_be_bytes",
   "from_slice", "from_slice_with_defaults", "from_le_slice", "from_le_slice_with_defaults", "from_be_slice",
   "from_be_slice_with_defaults", "checked_from_slice", "checked_from_slice_with_defaults", "checked_from_le_slice",
   "checked_from_le_slice_with_defaults", "checked_from_be_slice", "checked_from_be_slice_with_defaults",
   "into_slice", "into_le_slice", "into_be_slice", "checked_into_slice", "checked_into_le_slice",
   "checked_into_be_slice",
   "get_bit", "set_bit", "checked_get_bit", "checked_set_bit", "get_bits_range", "set_bits_range",
   "checked_get_bits_range", "checked_set_bits_range", "get_bytes_range", "set_bytes_range",
   "checked_get_bytes_range", "checked_set_bytes_range",
   "write_bits", "write_bits_with_defaults", "write_le_bits", "write_le_bits_with_defaults", "write_be_bits",
   "write_be_bits_with_defaults", "write_bytes", "write_bytes_with_defaults", "write_le_bytes",
   "write_le_bytes_with_defaults", "write_be_bytes", "write_be_bytes_with_defaults", "write_defaults",
   "clear_bits", "clear_bits_with_defaults", "clear_bytes", "clear_bytes_with_defaults", "invert_bits",
   "invert_bytes"]

/-- The tokens that may be in the expansion of a bitfield. -/
inductive Printed (P : Printer) : Tok → Prop
  /-- a word of the list -/
  | word {x} (h : x ∈ words) : Printed P (.ident x)
  /-- the storage type that the user wrote -/
  | storage {w} (h : P.B.backing = .int w) : Printed P (.ident ("u" ++ toString w))
  /-- the name of the struct, and that of its builder -/
  | name : Printed P (.ident P.name)
  | builder : Printed P (.ident (P.name ++ "Builder"))
  /-- the name of an ignored field -/
  | ignored {x} (h : x ∈ P.ignored) : Printed P (.ident x.1)
  /-- a name made of the name of a field -/
  | field {f} (h : f ∈ P.B.fields) (a : Accessor) : Printed P (.ident (a.ident f.name))
  /-- a token of the default that the user gave for a field -/
  | default {f t} (h : f ∈ P.B.fields) (hd : f.hasDefault = true) (ht : t ∈ P.default f.offset) : Printed P t
  /-- the tokens of the user's type of a field or an ignored field -/
  | type {f c} (h : f ∈ P.B.fields) (hc : f.ty = .custom c) : Printed P (.custom c)
  | ignoredType {x c} (h : x ∈ P.ignored) (hc : x.2.1 = .custom c) : Printed P (.custom c)
  /-- the visibility of the struct, of a field or of an ignored field -/
  | vis : Printed P (.vis P.vis)
  | fieldVis {f} (h : f ∈ P.B.fields) : Printed P (.vis (P.fieldVis f.offset))
  | ignoredVis {x} (h : x ∈ P.ignored) : Printed P (.vis x.2.2)
  /-- an attribute of the struct -/
  | attr {a} (h : a ∈ P.attrs) : Printed P (.attr a)
  /-- keywords (those of `Kw`), punctuation, delimiters, numbers, texts, and the lifetimes `'_` and `'static` -/
  | kw {k} : Printed P (.kw k)
  | p {q} : Printed P (.p q)
  | opn {d} : Printed P (.opn d)
  | cls {d} : Printed P (.cls d)
  | int {n s} (h : s = "" ∨ s ∈ words) : Printed P (.int n s)
  | str {s} : Printed P (.str s)
  | lifetime {s} (h : s = "_" ∨ s = "static") : Printed P (.lifetime s)

/-- The words of the expansion of a bitflag enum. -/
def flagWords : List String :=
  ["Clone", "Copy", "clone", "core", "derive", "doc", "marker", "repr", "std", "Self", "_", "self", "bits", "from_bits",
   "into_bits", "swap_bytes", "bool", "u8", "u16", "u32", "u64", "u128", "i8", "i16", "i32", "i64", "i128"]

/-- The tokens that may be in the expansion of a bitflag enum. -/
inductive FlagPrinted (P : FlagPrinter) : Tok → Prop
  | word {x} (h : x ∈ flagWords) : FlagPrinted P (.ident x)
  | name : FlagPrinted P (.ident P.name)
  /-- the name, a token of the value, or an attribute of a variant -/
  | variant {v} (h : v ∈ P.F.variants) : FlagPrinted P (.ident v.name)
  | value {v t} (h : v ∈ P.F.variants) (ht : t ∈ P.value v.name) : FlagPrinted P t
  | variantAttr {v a} (h : v ∈ P.F.variants) (ha : a ∈ v.attrs) : FlagPrinted P (.attr a)
  | attr {a} (h : a ∈ P.attrs) : FlagPrinted P (.attr a)
  | vis : FlagPrinted P (.vis P.F.vis)
  | type {c} (h : P.F.ty = .custom c) : FlagPrinted P (.custom c)
  | kw {k} : FlagPrinted P (.kw k)
  | p {q} : FlagPrinted P (.p q)
  | opn {d} : FlagPrinted P (.opn d)
  | cls {d} : FlagPrinted P (.cls d)
  | int {n} : FlagPrinted P (.int n "")
  | str {s} : FlagPrinted P (.str s)

/-- Words whose presence would mean code that is unsafe, can panic on purpose, has global state, runs foreign code,
does input or output, or needs a crate other than the standard library. -/
def unwanted : List String :=
  ["unsafe", "extern", "static", "union", "asm", "transmute", "transmute_copy", "zeroed", "MaybeUninit", "from_raw_parts",
   "as_ptr", "as_mut_ptr", "get_unchecked", "get_unchecked_mut", "unwrap_unchecked", "unreachable_unchecked", "UnsafeCell",
   "panic", "assert", "assert_eq", "assert_ne", "debug_assert", "unreachable", "todo", "unimplemented", "unwrap", "expect",
   "process", "exit", "abort", "thread", "spawn", "async", "await", "println", "print", "eprintln", "dbg", "env", "fs",
   "net", "io", "alloc", "crate", "super", "bitfields", "bitfields_impl", "macro_rules", "include", "include_str"]

end Bf.Text
