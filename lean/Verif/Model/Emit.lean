import Verif.Model.Docs
import Verif.Model.Expand
import Verif.Model.Quote
import Verif.Model.Tokens

/-!
# The generator as a printer of tokens

Each definition returns the tokens that the cited generator function returns. The texts of the `quote!` invocations
are copied from `/repo` (`scripts/templates.py` compares them). `Model/Quote.lean` models the same functions as
producers of syntax trees; `Props/Text.lean` proves that the trees are what a Rust parser makes of the tokens. `GH` is
generating/bitfield/features/common/generator_helper.rs, `features/` is generating/bitfield/features/ (paths
relative to `/repo/bitfields_impl/src`).
-/

namespace Bf.Text

set_option linter.unusedVariables false
set_option maxRecDepth 8000

open Quote

/-- What the generator reads from the parsed bitfield. -/
structure Printer where
  B : Bitfield
  name : String
  vis : Vis
  /-- the attributes of the struct -/
  attrs : List String
  /-- the ignored fields: name, type and visibility -/
  ignored : List (String × DataType × Vis)
  args : BitfieldArgs
  /-- the tokens of the default of the field at an offset -/
  default : Nat → List Tok
  /-- the visibility of the field at an offset -/
  fieldVis : Nat → Vis
  /-- whether the compiler supports mutable references in `const fn`, GH:26-28 -/
  constMut : Bool

/-- What `Model/Quote.lean` reads from the parsed bitfield. -/
def Printer.G (P : Printer) : Gen := { B := P.B, ignored := !P.ignored.isEmpty, new := P.args.new }

/-- `to_tokens` of an `u32` -/
def u32 (n : Nat) : Tok := .int n "u32"

/-- `to_tokens` of an `usize` -/
def usize (n : Nat) : Tok := .int n "usize"

/-- The name of an integer type, parsing/common/spanned_data_type.rs:78-112 -/
def _root_.Bf.IntTy.text : IntTy → String
  | .bool => "bool"
  | .u8 => "u8"
  | .u16 => "u16"
  | .u32 => "u32"
  | .u64 => "u64"
  | .u128 => "u128"
  | .i8 => "i8"
  | .i16 => "i16"
  | .i32 => "i32"
  | .i64 => "i64"
  | .i128 => "i128"

/-- `to_tokens` of an integer type, parsing/common/spanned_data_type.rs:141-145: the user's tokens. This is taken to
be the name alone; the parser also takes a path that ends with it, parsing/common/spanned_data_type.rs:78-112. -/
def intTokens (t : IntTy) : List Tok := [.ident t.text]

/-- The tokens `[u8; n]` -/
def arrayTokens (n : Nat) : List Tok := [.opn .bracket, .ident "u8", .p .semi, .int n "", .cls .bracket]

/-- `to_tokens` of a type, parsing/common/spanned_data_type.rs:141-145: the user's tokens. -/
def typeTokens : DataType → List Tok
  | .int t => intTokens t
  | .array n => arrayTokens n
  | .custom c => [.custom c]

/-- `to_tokens` of the backing type, parsing/common/spanned_data_type.rs:141-145 -/
def backTokens : Backing → List Tok
  | .int w => [.ident ("u" ++ toString w)]
  | .arr n => arrayTokens n

/-- `array_length` of the backing type, parsing/common/spanned_data_type.rs:159-165 -/
def Printer.length (P : Printer) : Nat :=
  match P.B.backing with
  | .int _ => 0
  | .arr n => n

/-! ## naming_extensions.rs -/

/-- `bitfield_internal_value_ident_tokens`, features/common/naming_extensions.rs:8-19 -/
def innerTokens (P : Printer) (builder : Bool) : List Tok :=
  let self_prefix := if builder then quote! "self." else []
  if !P.ignored.isEmpty then quote! "#self_prefix this.val"
  else quote! "#self_prefix this.0"

/-- `setter_ident_tokens` and its siblings, features/common/naming_extensions.rs:24-44, and the other names made with
`format_ident!`, features/builder_feature.rs:144-149, features/clear_bit_ops_feature.rs:96, 116,
features/invert_bit_ops_feature.rs:120-121, 156-157 -/
def nameTok (a : Accessor) (f : Field) : Tok := .ident (a.ident f.name)

/-! ## generator_helper.rs -/

/-- `get_function_modifier_tokens`, GH:19-23 -/
def modifierTokens (P : Printer) : Option (List Tok) :=
  let is_heap_array := P.B.heap && (match P.B.backing with | .int _ => false | .arr _ => true)
  if P.ignored.isEmpty && !is_heap_array && P.constMut then some (quote! "const") else none

/-- `get_bitfield_reference_tokens`, GH:803-814 -/
def referenceTokens (P : Printer) (builder : Bool) : List Tok :=
  let bitfield_name_tokens := Tok.ident P.name
  if builder then quote! "#bitfield_name_tokens"
  else quote! "Self"

/-- `generate_ignored_fields_default_calls_token_list`, GH:95-114 -/
def ignoredDefaultTokens (P : Printer) : List (List Tok) :=
  P.ignored.map fun field =>
    let field_name_tokens := Tok.ident field.1
    let field_data_type_tokens := typeTokens field.2.1
    match field.2.1 with
    | .int _ => quote! "#field_name_tokens: <#field_data_type_tokens>::default()"
    | _ => quote! "#field_name_tokens: #field_data_type_tokens::default()"

/-- `generate_bitfield_struct_initialization_tokens`, GH:44-88 -/
def initTokens (P : Printer) (builder : Bool) : List Tok :=
  let bitfield_value_default :=
    match P.B.backing with
    | .int _ => quote! "0"
    | .arr n =>
      let length := usize n
      if P.B.heap then quote! "::std::boxed::Box::new([0u8; #length])"
      else quote! "[0u8; #length]"
  let bitfield_reference := referenceTokens P builder
  if !P.ignored.isEmpty then
    let ignored_fields_default_calls_token_list := ignoredDefaultTokens P
    quote! "#bitfield_reference {
          val: #bitfield_value_default,
          #( #ignored_fields_default_calls_token_list, )*
      }"
  else quote! "#bitfield_reference(#bitfield_value_default)"

/-- `get_field_bits_tokens`, GH:759-778 -/
def bitsTokens (P : Printer) (f : Field) (builder : Bool) : List Tok :=
  let bitfield_reference := referenceTokens P builder
  if f.hasConstants then
    let field_bits_constant_ident_tokens := nameTok .bitsConst f
    quote! "#bitfield_reference::#field_bits_constant_ident_tokens"
  else
    let field_bits := u32 f.bits
    quote! "#field_bits"

/-- `get_field_offset_tokens`, GH:781-800 -/
def offsetTokens (P : Printer) (f : Field) (builder : Bool) : List Tok :=
  let bitfield_reference := referenceTokens P builder
  if f.hasConstants then
    let field_offset_constant_ident_tokens := nameTok .offsetConst f
    quote! "#bitfield_reference::#field_offset_constant_ident_tokens"
  else
    let field_offset := u32 f.offset
    quote! "#field_offset"

/-- `generate_extract_field_bits_from_source_into_variable_tokens`, GH:387-566 -/
def extractTokens (P : Printer) (f : Field) (src : Source) (cast inv builder : Bool) : List Tok :=
  let bits_source_tokens :=
    match src with
    | .bitfield => innerTokens P builder
    | .variable => quote! "bits"
  let bitfield_data_type_tokens := backTokens P.B.backing
  let field_bits_tokens := bitsTokens P f builder
  let field_offset_tokens := offsetTokens P f builder
  let invert_value_tokens := if inv then some (quote! "!") else none
  match P.B.backing with
  | .int _ =>
    let casting_bits_to_bitfield_data_type_tokens :=
      if src = .variable && cast then
        match f.ty with
        | .custom _ => quote! "#[allow(clippy::unnecessary_cast)]
      let bits = bits.into_bits() as #bitfield_data_type_tokens;"
        | .array len =>
          let pack_len := usize (min (f.bits / 8) len)
          quote! "let bits = {
          let __arr = bits;
          let mut __v: #bitfield_data_type_tokens = 0;
          let mut __i: usize = 0;
          while __i < #pack_len {
              __v |= (__arr[__i] as #bitfield_data_type_tokens)
                  << (__i * 8);
              __i += 1;
          }
          __v
      };"
        | .int _ => quote! "let bits = bits as #bitfield_data_type_tokens;"
      else []
    let value_extraction_tokens :=
      if src = .variable && cast then
        quote! "let value = #invert_value_tokens #bits_source_tokens & mask;"
      else
        quote! "let value = #invert_value_tokens(#bits_source_tokens >> #field_offset_tokens) & mask;"
    quote! "let mask = #bitfield_data_type_tokens::MAX >> (#bitfield_data_type_tokens::BITS - #field_bits_tokens);
      #casting_bits_to_bitfield_data_type_tokens
      #value_extraction_tokens"
  | .arr _ =>
    if src = .variable && cast then
      match f.ty with
      | .int .bool => quote! "let value = bits as u128;"
      | .array _ => quote! "let value = bits;"
      | .custom _ =>
        quote! "let bits = bits.into_bits() as u128;
      let mask = if #field_bits_tokens == 128 { u128::MAX } else { (1u128 << #field_bits_tokens) - 1 };
      let value = {
          let val = bits & mask;
          #invert_value_tokens val
      };"
      | .int t =>
        let field_data_type_tokens := intTokens t
        quote! "let mask = (if #field_bits_tokens == 128 { u128::MAX } else { (1u128 << #field_bits_tokens) - 1 }) as #field_data_type_tokens;
      let value = {
          let val = bits & mask;
          #invert_value_tokens val
      };"
    else
      match f.ty with
      | .array len =>
        let len := usize len
        if inv then
          quote! "let value = {
          let mut __arr = [0u8; #len];
          let mut __i: u32 = 0;
          while __i < #field_bits_tokens {
              let bit_index = #field_offset_tokens + __i;
              let byte_idx = (bit_index / 8) as usize;
              let bit_in_byte = bit_index % 8;
              let bit_val = ((#bits_source_tokens[byte_idx] >> bit_in_byte) & 1) ^ 1;
              __arr[(__i / 8) as usize] |= bit_val << (__i % 8);
              __i += 1;
          }
          __arr
      };"
        else
          quote! "let value = {
          let mut __arr = [0u8; #len];
          let mut __i: u32 = 0;
          while __i < #field_bits_tokens {
              let bit_index = #field_offset_tokens + __i;
              let byte_idx = (bit_index / 8) as usize;
              let bit_in_byte = bit_index % 8;
              let bit_val = (#bits_source_tokens[byte_idx] >> bit_in_byte) & 1;
              __arr[(__i / 8) as usize] |= bit_val << (__i % 8);
              __i += 1;
          }
          __arr
      };"
      | _ =>
        let final_val_tokens :=
          if inv then
            quote! "(!val) & (if #field_bits_tokens == 128 { u128::MAX } else { (1u128 << #field_bits_tokens) - 1 })"
          else quote! "val"
        quote! "let value = {
          let mut val = 0u128;
          let mut i: u32 = 0;
          while i < #field_bits_tokens {
              let bit_index = #field_offset_tokens + i;
              let byte_idx = bit_index / 8;
              let bit_in_byte = bit_index % 8;
              let bit_val = ((#bits_source_tokens[byte_idx as usize] >> bit_in_byte) & 1) as u128;
              val |= bit_val << i;
              i += 1;
          }
          #final_val_tokens
      };"

/-- `generate_field_setter_call_tokens`, GH:574-629 -/
def setterCallTokens (P : Printer) (f : Field) (value_tokens : List Tok) (builder : Bool) : List Tok :=
  let bitfield_variable_reference := if builder then quote! "self.this" else quote! "this"
  let field_setter_ident_tokens := nameTok .set f
  match f.ty with
  | .int .bool =>
    quote! "#bitfield_variable_reference.#field_setter_ident_tokens(#value_tokens);"
  | .int _ =>
    quote! "#bitfield_variable_reference.#field_setter_ident_tokens(#value_tokens as _);"
  | .custom _ =>
    quote! "#bitfield_variable_reference.#field_setter_ident_tokens(#value_tokens);"
  | .array len =>
    let len := usize len
    match P.B.backing with
    | .int _ =>
      quote! "#bitfield_variable_reference.#field_setter_ident_tokens({
          let __int_val = (#value_tokens) as u128;
          let mut __arr = [0u8; #len];
          let mut __i: usize = 0;
          while __i < #len {
              __arr[__i] = ((__int_val >> (__i * 8)) & 0xFF) as u8;
              __i += 1;
          }
          __arr
      });"
    | .arr _ =>
      quote! "#bitfield_variable_reference.#field_setter_ident_tokens(#value_tokens);"

/-- `generate_setting_field_without_setter_tokens`, GH:632-725 -/
def directTokens (P : Printer) (f : Field) (value_tokens : List Tok) (builder : Bool) : List Tok :=
  let bitfield_internal_value_ident_tokens := innerTokens P builder
  let bitfield_data_type_tokens := backTokens P.B.backing
  let field_bits_tokens := bitsTokens P f builder
  let field_offset_tokens := offsetTokens P f builder
  match P.B.backing with
  | .arr _ =>
    match f.ty with
    | .array _ =>
      quote! "{
          let __src = #value_tokens;
          let mut __i: u32 = 0;
          while __i < #field_bits_tokens {
              let bit_index = #field_offset_tokens + __i;
              let byte_idx = (bit_index / 8) as usize;
              let bit_in_byte = bit_index % 8;
              let src_bit = (__src[(__i / 8) as usize] >> (__i % 8)) & 1;
              if src_bit == 1 {
                  #bitfield_internal_value_ident_tokens[byte_idx] |= 1 << bit_in_byte;
              } else {
                  #bitfield_internal_value_ident_tokens[byte_idx] &= !(1 << bit_in_byte);
              }
              __i += 1;
          }
      }"
    | ty =>
      let val_to_set_tokens :=
        match ty with
        | .int .bool => quote! "if #value_tokens { 1u128 } else { 0u128 }"
        | .custom _ => quote! "#value_tokens.into_bits() as u128"
        | _ => quote! "#value_tokens as u128"
      quote! "{
          let val_to_set = #val_to_set_tokens;
          let mut i: u32 = 0;
          while i < #field_bits_tokens {
              let bit_index = #field_offset_tokens + i;
              let byte_idx = bit_index / 8;
              let bit_in_byte = bit_index % 8;
              let bit_val = (val_to_set >> i) & 1;
              if bit_val == 1 {
                  #bitfield_internal_value_ident_tokens[byte_idx as usize] |= 1 << bit_in_byte;
              } else {
                  #bitfield_internal_value_ident_tokens[byte_idx as usize] &= !(1 << bit_in_byte);
              }
              i += 1;
          }
      }"
  | .int _ =>
    match f.ty with
    | .int .bool =>
      quote! "if #value_tokens {
          #bitfield_internal_value_ident_tokens = (#bitfield_internal_value_ident_tokens & !(1 << #field_offset_tokens)) | (1 << #field_offset_tokens);
      } else {
          #bitfield_internal_value_ident_tokens &= !(1 << #field_offset_tokens);
      }"
    | .custom _ =>
      quote! "let mask = #bitfield_data_type_tokens::MAX >> (#bitfield_data_type_tokens::BITS - #field_bits_tokens);
      #[allow(clippy::unnecessary_cast)]
      let field_bits = #value_tokens.into_bits() as #bitfield_data_type_tokens;
      #bitfield_internal_value_ident_tokens = (#bitfield_internal_value_ident_tokens & !(mask << #field_offset_tokens)) | ((field_bits & mask) << #field_offset_tokens);"
    | _ =>
      quote! "let mask = #bitfield_data_type_tokens::MAX >> (#bitfield_data_type_tokens::BITS - #field_bits_tokens);
      let field_bits = #value_tokens;
      #bitfield_internal_value_ident_tokens = (#bitfield_internal_value_ident_tokens & !(mask << #field_offset_tokens)) | ((field_bits & mask) << #field_offset_tokens);"

/-- `generate_setting_field_to_default_tokens`, GH:138-161 (nothing if there is no default: the code panics, but is
only called with one) -/
def setDefaultTokens (P : Printer) (f : Field) : List Tok :=
  match f.default with
  | some _ =>
    let field_default_value_tokens := P.default f.offset
    if f.hasSetter then setterCallTokens P f field_default_value_tokens false
    else directTokens P f field_default_value_tokens false
  | none => []

/-- `generate_setting_fields_to_default_value_tokens_list`, GH:126-135 -/
def setDefaultsTokens (P : Printer) : List (List Tok) :=
  (P.B.fields.filter Field.hasDefault).map (setDefaultTokens P)

/-- `generate_setting_field_to_zero_tokens`, GH:182-222 -/
def setZeroTokens (P : Printer) (f : Field) : List Tok :=
  let value_tokens :=
    match f.ty with
    | .int .bool => quote! "false"
    | .int _ => quote! "0"
    | .custom c =>
      let custom_field_data_type_tokens := typeTokens (.custom c)
      quote! "#custom_field_data_type_tokens::from_bits(0)"
    | .array len =>
      match P.B.backing with
      | .int _ => quote! "0"
      | .arr _ =>
        let len := usize len
        quote! "[0u8; #len]"
  if f.hasSetter then setterCallTokens P f value_tokens false else directTokens P f value_tokens false

/-- `generate_setting_fields_to_zero_tokens_list`, GH:169-179 -/
def setZerosTokens (P : Printer) (skipDefaults : Bool) : List (List Tok) :=
  (P.B.fields.filter fun f => !(skipDefaults && f.hasDefault)).map (setZeroTokens P)

/-- `generate_builder_direct_setter_call_tokens`, GH:287-319 -/
def builderSetTokens (f : Field) (check : Bool) : List Tok :=
  let setter_ident := nameTok (if check then .checkedSet else .set) f
  let call :=
    match f.ty with
    | .int .bool => quote! "self.this.#setter_ident(bits)"
    | .int _ => quote! "self.this.#setter_ident(bits as _)"
    | _ => quote! "self.this.#setter_ident(bits)"
  if check then
    quote! "match #call {
          Ok(()) => {},
          Err(e) => return Err(e),
      }"
  else quote! "#call;"

/-- `get_value_variable_tokens`, GH:321-336 -/
def valueTokens (f : Field) : List Tok :=
  match f.ty with
  | .custom c =>
    let custom_field_data_type_tokens := typeTokens (.custom c)
    quote! "#custom_field_data_type_tokens::from_bits(value as _)"
  | .int .bool => quote! "value != 0"
  | _ => quote! "value"

/-- `generate_bit_size_check_tokens`, GH:339-345 -/
def checkTokens : List Tok :=
  quote! "if bits > mask {
          return Err(\"Value is too big to fit within the field bits.\");
      }"

/-- `generate_signed_bit_size_check_tokens`, GH:350-369, and `make_signed_literal`, GH:373-384 -/
def signedCheckTokens (f : Field) : List Tok :=
  match f.ty with
  | .int t =>
    if f.bits ≥ t.bitSize then []
    else
      let max_u := 2 ^ (f.bits - 1) - 1
      let min_abs_u := max_u + 1
      let max_lit := Tok.int max_u t.text
      let min_abs_lit := Tok.int min_abs_u t.text
      quote! "if bits > #max_lit || bits < -(#min_abs_lit) {
          return Err(\"Value is too big to fit within the field bits.\");
      }"
  | _ => []

/-- `generate_setting_field_from_variable_tokens`, GH:225-285 -/
def setFromVarTokens (P : Printer) (f : Field) (useSetter cast check builder : Bool) : List Tok :=
  let is_signed_integer := !f.ty.unsigned
  let using_setter := f.hasSetter && useSetter
  if builder && using_setter then builderSetTokens f check
  else
    let pre_extract_check_tokens :=
      if !using_setter && check && is_signed_integer then some (signedCheckTokens f) else none
    let post_extract_check_tokens :=
      if !using_setter && check && !is_signed_integer && !f.ty.isBool && !f.ty.isArray then some checkTokens
      else none
    let extract_field_bits_into_variable_tokens := extractTokens P f .variable cast false builder
    let value_variable_tokens := valueTokens f
    let set_field_to_extracted_bits_from_variable_tokens :=
      if using_setter then setterCallTokens P f value_variable_tokens builder
      else directTokens P f value_variable_tokens builder
    quote! "#pre_extract_check_tokens
      #extract_field_bits_into_variable_tokens
      #post_extract_check_tokens
      #set_field_to_extracted_bits_from_variable_tokens"

/-- `generate_extract_all_field_bits_from_variable_into_variable_tokens_and_set_fields_tokens`, GH:737-756 -/
def setAllTokens (P : Printer) (p : Protection) : List Tok :=
  joined ((P.B.fields.filter fun f =>
    match p with
    | .readOnly => f.hasSetter
    | .writeOnly => f.hasReadAccess
    | .none => true).map fun f => setFromVarTokens P f true false false false)

/-- `generate_new_function_implementation_tokens`, GH:872-915, and `generate_this_mutable_modifier_tokens`,
GH:918-927 -/
def newTokens (P : Printer) (defaults builder existing : Bool) : List Tok :=
  let bitfield_struct_initialization_tokens := initTokens P builder
  let setting_fields_to_zero_tokens_list := setZerosTokens P defaults
  let setting_fields_to_default_value_tokens_list := if defaults then setDefaultsTokens P else []
  let setting_reserved_fields_to_default_value_token_list :=
    if !defaults then (P.B.fields.filter fun f => f.reserved && f.hasDefault).map (setDefaultTokens P) else []
  let this_mutable_modifier_tokens :=
    if !setting_fields_to_zero_tokens_list.isEmpty || !setting_fields_to_default_value_tokens_list.isEmpty then
      some (quote! "mut")
    else none
  let bitfield_reference :=
    if !existing then
      some (quote! "let #this_mutable_modifier_tokens this = #bitfield_struct_initialization_tokens;")
    else none
  quote! "#bitfield_reference
      #( #setting_fields_to_zero_tokens_list )*
      #( #setting_fields_to_default_value_tokens_list )*
      #( #setting_reserved_fields_to_default_value_token_list )*"

/-- `generate_sign_extend_bit_operation_tokens`, GH:930-946 -/
def signExtendTokens (f : Field) : List Tok :=
  match f.ty with
  | .int t =>
    if t.unsigned then []
    else
      let field_data_type_tokens := intTokens t
      let field_data_type_bit_size := u32 t.bitSize
      let field_bits := u32 f.bits
      quote! "let shift = #field_data_type_bit_size - #field_bits;
      let value = value as #field_data_type_tokens;
      let value = (value << shift) >> shift;"
  | _ => []

/-- `generate_protected_bits_mask_tokens`, GH:948-994 (the bits are those of `protMask128` and `protMaskBytes` of
`Model/Rust.lean`'s companion `Model/Obj.lean`) -/
def protTokens (P : Printer) (p : Protection) : List Tok :=
  let bitfield_type := backTokens P.B.backing
  match P.B.backing with
  | .int _ =>
    let protected_mask := Tok.int (protMask128 (protectedFields P.B p)).toNat "u128"
    quote! "let protected_mask = #protected_mask as #bitfield_type;"
  | .arr n =>
    let bytes_list := (protMaskBytes (protectedFields P.B p) n).map fun b => [Tok.int b.toNat "u8"]
    quote! "let protected_mask: #bitfield_type = [ #(#bytes_list),* ];"

/-- `generate_backing_data_param_ident`, GH:998-1004 -/
def paramTokens (P : Printer) : List Tok :=
  match P.B.backing with
  | .int _ => quote! "bits"
  | .arr _ => quote! "bytes"

/-! ## Fields -/

/-- features/field_constants_feature.rs:44-69 -/
def constantsTokens (P : Printer) : List Tok :=
  joined ((P.B.fields.filter Field.hasConstants).map fun f =>
    let visibility_tokens := Tok.vis (P.fieldVis f.offset)
    let field_bits := u32 f.bits
    let field_offset := u32 f.offset
    let field_bits_constant_ident_tokens := nameTok .bitsConst f
    let field_offset_constant_ident_tokens := nameTok .offsetConst f
    let bits_documentation := Tok.str (Accessor.doc P.args.order f .bitsConst)
    let offset_documentation := Tok.str (Accessor.doc P.args.order f .offsetConst)
    quote! "#[doc = #bits_documentation]
      #visibility_tokens const #field_bits_constant_ident_tokens: u32 = #field_bits;
      #[doc = #offset_documentation]
      #visibility_tokens const #field_offset_constant_ident_tokens: u32 = #field_offset;")

/-- `generate_value_return_tokens`, features/field_getters_feature.rs:74-115 -/
def returnTokens (P : Printer) (f : Field) : List Tok :=
  match f.ty with
  | .int .bool => quote! "value != 0"
  | .int _ => quote! "value as _"
  | .custom c =>
    let custom_field_data_type_tokens := typeTokens (.custom c)
    quote! "#custom_field_data_type_tokens::from_bits(value as _)"
  | .array len =>
    let len := usize len
    match P.B.backing with
    | .int _ =>
      quote! "{
          let __val = value as u128;
          let mut __arr = [0u8; #len];
          let mut __i: usize = 0;
          while __i < #len {
              __arr[__i] = ((__val >> (__i * 8)) & 0xFF) as u8;
              __i += 1;
          }
          __arr
      }"
    | .arr _ => quote! "value"

/-- One getter, features/field_getters_feature.rs:42-69 -/
def getterTokens (P : Printer) (f : Field) : List Tok :=
  let visibility_tokens := Tok.vis (P.fieldVis f.offset)
  let documentation := Tok.str (Accessor.doc P.args.order f .get)
  let function_modifier_tokens := modifierTokens P
  let name_tokens := nameTok .get f
  let field_data_type_tokens := typeTokens f.ty
  let extract_field_bits_from_source_into_variable_tokens := extractTokens P f .bitfield false false false
  let sign_extend_tokens_stream := signExtendTokens f
  let value_return_token_stream := returnTokens P f
  quote! "#[doc = #documentation]
      #visibility_tokens #function_modifier_tokens fn #name_tokens(&self) -> #field_data_type_tokens {
          let this = self;
          #extract_field_bits_from_source_into_variable_tokens
          #sign_extend_tokens_stream
          #value_return_token_stream
      }"

/-- features/field_getters_feature.rs:37-71 -/
def gettersTokens (P : Printer) : List Tok :=
  joined ((P.B.fields.filter Field.hasGetter).map (getterTokens P))

/-- `generate_field_setters_functions`, features/field_setters_feature.rs:51-86 -/
def settersTokens1 (P : Printer) (f : Field) : List Tok :=
  let visibility_tokens := Tok.vis (P.fieldVis f.offset)
  let setter_documentation := Tok.str (Accessor.doc P.args.order f .set)
  let checked_setter_documentation := Tok.str (Accessor.doc P.args.order f .checkedSet)
  let function_modifier_tokens := modifierTokens P
  let field_data_type_tokens := typeTokens f.ty
  let field_setter_ident_tokens := nameTok .set f
  let checked_field_setter_ident_tokens := nameTok .checkedSet f
  let set_bits_logic_tokens := setFromVarTokens P f false true false false
  let checked_set_bits_logic_tokens := setFromVarTokens P f false true true false
  quote! "#[doc = #setter_documentation]
      #visibility_tokens #function_modifier_tokens fn #field_setter_ident_tokens(&mut self, bits: #field_data_type_tokens) {
          let this = self;
          #set_bits_logic_tokens
      }

      #[doc = #checked_setter_documentation]
      #visibility_tokens #function_modifier_tokens fn #checked_field_setter_ident_tokens(&mut self, bits: #field_data_type_tokens) -> ::core::result::Result<(), &'static str> {
          let this = self;
          #checked_set_bits_logic_tokens
          Ok(())
      }"

/-- `generate_field_setters_feature_tokens`, features/field_setters_feature.rs:41-48 -/
def settersTokens (P : Printer) : List Tok :=
  joined ((P.B.fields.filter Field.hasSetter).map (settersTokens1 P))

/-! ## Construction -/

/-- `generate_new_function_feature_tokens`, features/new_functions_feature.rs:53-68 -/
def newFnTokens (P : Printer) : List Tok :=
  let visibility_tokens := Tok.vis P.vis
  let function_modifier_tokens := modifierTokens P
  let function_implementation := newTokens P true false false
  quote! "#[doc = \"Creates a new bitfield instance.\"]
      #visibility_tokens #function_modifier_tokens fn new() -> Self {
          #function_implementation
          this
      }"

/-- `generate_new_without_defaults_function_feature_tokens`, features/new_functions_feature.rs:71-87 -/
def newWithoutFnTokens (P : Printer) : List Tok :=
  let visibility_tokens := Tok.vis P.vis
  let function_modifier_tokens := modifierTokens P
  let function_implementation := newTokens P false false false
  quote! "#[doc = \"Creates a new bitfield instance without respecting \
               default values.\"]
      #visibility_tokens #function_modifier_tokens fn new_without_defaults() -> Self {
          #function_implementation
          this
      }"

/-- `generate_new_functions_tokens`, features/new_functions_feature.rs:41-50 -/
def newFnsTokens (P : Printer) : List Tok :=
  let new_function_feature_tokens := newFnTokens P
  let new_without_defaults_function_feature_tokens := newWithoutFnTokens P
  quote! "#new_function_feature_tokens
      #new_without_defaults_function_feature_tokens"

/-- `generate_default_trait_feature_implementation_tokens`, features/default_trait_feature.rs:47-66 -/
def defaultBodyTokens (P : Printer) : List Tok :=
  if P.args.new then quote! "Self::new()"
  else
    let bitfield_struct_initialization_tokens := initTokens P false
    let setting_fields_to_default_value_tokens_list := setDefaultsTokens P
    quote! "let mut this = #bitfield_struct_initialization_tokens;
      #( #setting_fields_to_default_value_tokens_list )*
      this"

/-- `generate_default_trait_feature_tokens`, features/default_trait_feature.rs:33-45 -/
def defaultTokens (P : Printer) : List Tok :=
  let bitfield_name_tokens := Tok.ident P.name
  let default_trait_feature_implementation_tokens := defaultBodyTokens P
  quote! "impl core::default::Default for #bitfield_name_tokens {
          fn default() -> #bitfield_name_tokens {
              #default_trait_feature_implementation_tokens
          }
      }"

/-- `generate_builder_new_implementation_tokens`, features/builder_feature.rs:92-127 -/
def builderNewTokens (P : Printer) (defaults : Bool) : List Tok :=
  if P.args.new then
    let bitfield_name_tokens := Tok.ident P.name
    if defaults then
      quote! "Self {
          this: #bitfield_name_tokens::new(),
      }"
    else
      quote! "Self {
          this: #bitfield_name_tokens::new_without_defaults(),
      }"
  else
    let new_implementation_tokens := newTokens P defaults true false
    quote! "#new_implementation_tokens
      Self {
          this,
      }"

/-- `generate_generate_builder_setters_setter_helper`, features/builder_feature.rs:138-179 -/
def builderSettersTokens1 (P : Printer) (f : Field) : List Tok :=
  let visibility_tokens := Tok.vis (P.fieldVis f.offset)
  let function_modifier_tokens := modifierTokens P
  let data_type_tokens := typeTokens f.ty
  let builder_setter_name_token_stream := nameTok .builderWith f
  let builder_checked_setter_name_token_stream := nameTok .builderCheckedWith f
  let set_bits_logic_tokens := setFromVarTokens P f true true false true
  let checked_set_bits_logic_tokens := setFromVarTokens P f true true true true
  let setter_documentation := Tok.str (Accessor.doc P.args.order f .builderWith)
  let checked_setter_documentation := Tok.str (Accessor.doc P.args.order f .builderCheckedWith)
  quote! "#[doc = #setter_documentation]
      #visibility_tokens #function_modifier_tokens fn #builder_setter_name_token_stream(mut self, bits: #data_type_tokens) -> Self {
          #set_bits_logic_tokens
          self
      }

      #[doc = #checked_setter_documentation]
      #visibility_tokens #function_modifier_tokens fn #builder_checked_setter_name_token_stream(mut self, bits: #data_type_tokens) -> ::core::result::Result<Self, &'static str> {
          #checked_set_bits_logic_tokens
          Ok(self)
      }"

/-- `generate_builder_setters`, features/builder_feature.rs:129-136 -/
def builderSettersTokens (P : Printer) : List Tok :=
  joined ((P.B.fields.filter fun f => !f.reserved).map (builderSettersTokens1 P))

/-- `generate_builder_feature_tokens`, features/builder_feature.rs:42-90 -/
def builderTokens (P : Printer) : List Tok :=
  let builder_ident_tokens := Tok.ident (P.name ++ "Builder")
  let visibility_tokens := Tok.vis P.vis
  let bitfield_name_tokens := Tok.ident P.name
  let function_modifier_tokens := modifierTokens P
  let builder_setters := builderSettersTokens P
  let new_implementation_tokens := builderNewTokens P true
  let new_without_defaults_implementation_tokens := builderNewTokens P false
  quote! "#[doc = \"A builder for the bitfield.\"]
      #visibility_tokens struct #builder_ident_tokens {
          this: #bitfield_name_tokens,
      }

      impl Default for #builder_ident_tokens {
          fn default() -> Self {
              Self::new()
          }
      }

      impl #builder_ident_tokens {
          #[doc = \"Creates a new bitfield builder instance.\"]
          #visibility_tokens #function_modifier_tokens fn new() -> Self {
              #new_implementation_tokens
          }

          #[doc = \"Creates a new bitfield builder instance without \
                   respecting defaults.\"]
          #visibility_tokens #function_modifier_tokens fn new_without_defaults() -> Self {
              #new_without_defaults_implementation_tokens
          }

          #builder_setters

          #[doc = \"Builds a bitfield instance from the builder.\"]
          #visibility_tokens #function_modifier_tokens fn build(self) -> #bitfield_name_tokens {
              self.this
          }
      }"

/-! ## Clearing and inverting -/

/-- `bits` or `bytes`, `get_bits_or_bytes_term`, GH:1007-1009 -/
def bob (P : Printer) : String := paramTok P.B

/-- `generate_clear_bitfield_bit_ops_tokens`, features/clear_bit_ops_feature.rs:53-85 -/
def clearAllTokens (P : Printer) : List Tok :=
  let visibility_tokens := Tok.vis P.vis
  let function_modifier_tokens := modifierTokens P
  let clear_bitfield_implementation_tokens := newTokens P false false true
  let clear_bitfield_and_set_defaults_implementation_tokens := newTokens P true false true
  let clear_fn := Tok.ident ("clear_" ++ bob P)
  let clear_with_defaults_fn := Tok.ident ("clear_" ++ bob P ++ "_with_defaults")
  let clear_doc := Tok.str ("Clears all " ++ bob P ++ " in the bitfield.")
  let clear_with_defaults_doc := Tok.str ("Clears all " ++ bob P ++ " in the bitfield and set field defaults.")
  quote! "#[doc = #clear_doc]
      #visibility_tokens #function_modifier_tokens fn #clear_fn(&mut self) {
          let this = self;
          #clear_bitfield_implementation_tokens
      }

      #[doc = #clear_with_defaults_doc]
      #visibility_tokens #function_modifier_tokens fn #clear_with_defaults_fn(&mut self) {
          let this = self;
          #clear_bitfield_and_set_defaults_implementation_tokens
      }"

/-- One function of `generate_clear_fields_bit_ops_tokens`, features/clear_bit_ops_feature.rs:87-107 -/
def clearFieldTokens (P : Printer) (f : Field) : List Tok :=
  let visibility_tokens := Tok.vis P.vis
  let function_modifier_tokens := modifierTokens P
  let documentation := Tok.str (Accessor.doc P.args.order f .clear)
  let clear_field_ident_tokens := nameTok .clear f
  let clear_field_implementation_tokens := setZeroTokens P f
  quote! "#[doc = #documentation]
      #visibility_tokens #function_modifier_tokens fn #clear_field_ident_tokens(&mut self) {
          let this = self;
          #clear_field_implementation_tokens
      }"

/-- One function of `generate_clear_fields_to_defaults_bit_ops_tokens`, features/clear_bit_ops_feature.rs:110-126 -/
def clearToDefaultTokens (P : Printer) (f : Field) : List Tok :=
  let visibility_tokens := Tok.vis P.vis
  let function_modifier_tokens := modifierTokens P
  let documentation := Tok.str (Accessor.doc P.args.order f .clearToDefault)
  let clear_field_to_default_ident_tokens := nameTok .clearToDefault f
  let clear_field_to_default_implementation_tokens := setDefaultTokens P f
  quote! "#[doc = #documentation]
      #visibility_tokens #function_modifier_tokens fn #clear_field_to_default_ident_tokens(&mut self) {
          let this = self;
          #clear_field_to_default_implementation_tokens
      }"

/-- `generate_clear_bit_ops_feature_tokens`, features/clear_bit_ops_feature.rs:40-51, 87-126 -/
def clearTokens (P : Printer) : List Tok :=
  let clear_bitfield_bit_ops_tokens := clearAllTokens P
  let clear_fields_bit_ops_tokens :=
    joined ((P.B.fields.filter Field.hasSetter).map (clearFieldTokens P))
  let clear_fields_to_defaults_bit_ops_tokens :=
    joined ((P.B.fields.filter fun f => f.hasSetter && f.hasDefault).map (clearToDefaultTokens P))
  quote! "#clear_bitfield_bit_ops_tokens
      #clear_fields_bit_ops_tokens
      #clear_fields_to_defaults_bit_ops_tokens"

/-- `generate_value_to_field_tokens`, features/invert_bit_ops_feature.rs:182-218 -/
def toFieldTokens (P : Printer) (f : Field) : List Tok :=
  match f.ty with
  | .custom c =>
    let custom_field_data_type_tokens := typeTokens (.custom c)
    quote! "#custom_field_data_type_tokens::from_bits(value as _)"
  | .int .bool => quote! "value != 0"
  | .array len =>
    let len := usize len
    match P.B.backing with
    | .int _ =>
      quote! "{
          let __val = value as u128;
          let mut __arr = [0u8; #len];
          let mut __i: usize = 0;
          while __i < #len {
              __arr[__i] = ((__val >> (__i * 8)) & 0xFF) as u8;
              __i += 1;
          }
          __arr
      }"
    | .arr _ => quote! "value"
  | _ => quote! "value as _"

/-- `generate_invert_bitfield_tokens`, features/invert_bit_ops_feature.rs:54-107 -/
def invertAllTokens (P : Printer) : List Tok :=
  let visibility_tokens := Tok.vis P.vis
  let function_modifier_tokens := modifierTokens P
  let bitfield_internal_value_ident_tokens := innerTokens P false
  let protected_mask := protTokens P .readOnly
  let extract_all_field_bits_from_variable_into_variable_tokens_and_set_fields_tokens := setAllTokens P .none
  let invert_fn := Tok.ident ("invert_" ++ bob P)
  let invert_doc := Tok.str ("Inverts all writable " ++ bob P ++ " in the bitfield.")
  match P.B.backing with
  | .int _ =>
    quote! "#[doc = #invert_doc]
      #visibility_tokens #function_modifier_tokens fn #invert_fn(&mut self) {
          let this = self;
          let bits = #bitfield_internal_value_ident_tokens;
          #protected_mask
          let bits = (!bits & !protected_mask) | (bits & protected_mask);
          #extract_all_field_bits_from_variable_into_variable_tokens_and_set_fields_tokens
      }"
  | .arr n =>
    let array_len := usize n
    let bits_init_tokens :=
      if P.B.heap then quote! "let mut bits = *#bitfield_internal_value_ident_tokens;"
      else quote! "let mut bits = #bitfield_internal_value_ident_tokens;"
    quote! "#[doc = #invert_doc]
      #visibility_tokens #function_modifier_tokens fn #invert_fn(&mut self) {
          let this = self;
          #bits_init_tokens
          #protected_mask
          let mut i = 0usize;
          while i < #array_len {
              bits[i] = (!bits[i] & !protected_mask[i]) | (bits[i] & protected_mask[i]);
              i += 1;
          }
          #extract_all_field_bits_from_variable_into_variable_tokens_and_set_fields_tokens
      }"

/-- One function of `generate_invert_fields_tokens`, features/invert_bit_ops_feature.rs:110-144 -/
def invertFieldTokens (P : Printer) (f : Field) : List Tok :=
  let visibility_tokens := Tok.vis P.vis
  let function_modifier_tokens := modifierTokens P
  let field_setter_ident_tokens := nameTok .set f
  let field_invert_ident_tokens := nameTok .invert f
  let documentation := Tok.str (Accessor.doc P.args.order f .invert)
  let extract_field_bits_from_source_into_variable_tokens := extractTokens P f .bitfield false true false
  let value_to_field_tokens := toFieldTokens P f
  quote! "#[doc = #documentation]
      #visibility_tokens #function_modifier_tokens fn #field_invert_ident_tokens(&mut self) {
          let this = self;
          #extract_field_bits_from_source_into_variable_tokens
          this.#field_setter_ident_tokens(#value_to_field_tokens);
      }"

/-- One function of `generate_inverted_fields_getter_tokens`, features/invert_bit_ops_feature.rs:147-180 -/
def invertedTokens (P : Printer) (f : Field) : List Tok :=
  let visibility_tokens := Tok.vis P.vis
  let function_modifier_tokens := modifierTokens P
  let field_inverted_ident_tokens := nameTok .inverted f
  let documentation := Tok.str (Accessor.doc P.args.order f .inverted)
  let value_to_field_tokens := toFieldTokens P f
  let field_data_type_tokens := typeTokens f.ty
  let extract_field_bits_from_source_into_variable_tokens := extractTokens P f .bitfield false true false
  quote! "#[doc = #documentation]
      #visibility_tokens #function_modifier_tokens fn #field_inverted_ident_tokens(&self) -> #field_data_type_tokens {
          let this = self;
          #extract_field_bits_from_source_into_variable_tokens
          #value_to_field_tokens
      }"

/-- `generate_invert_bit_ops_feature_tokens`, features/invert_bit_ops_feature.rs:41-52, 110-180 -/
def invertTokens (P : Printer) : List Tok :=
  let invert_bitfield_tokens := invertAllTokens P
  let invert_fields_tokens := joined ((P.B.fields.filter Field.hasSetter).map (invertFieldTokens P))
  let inverted_fields_getter_tokens := joined ((P.B.fields.filter Field.hasGetter).map (invertedTokens P))
  quote! "#invert_bitfield_tokens
      #invert_fields_tokens
      #inverted_fields_getter_tokens"

/-! ## Writing -/

/-- `generate_bits_variable_endian_conversion_tokens`, features/write_bit_ops_feature.rs:143-177 -/
def writeConvTokens (P : Printer) (e : Endian) : List Tok :=
  match e with
  | .little =>
    match P.B.backing with
    | .int _ => quote! "let bits = bits.swap_bytes();"
    | .arr n =>
      let half_len := usize (n / 2)
      let last_idx := usize (n - 1)
      quote! "let mut bits = bits;
      let mut i = 0;
      while i < #half_len {
          let j = #last_idx - i;
          bits[i] ^= bits[j];
          bits[j] ^= bits[i];
          bits[i] ^= bits[j];
          i += 1;
      }"
  | .big => []

/-- `generate_write_bit_ops_feature_tokens`, features/write_bit_ops_feature.rs:42-139 -/
def writeTokens (P : Printer) : List Tok :=
  let visibility_tokens := Tok.vis P.vis
  let function_modifier_tokens := modifierTokens P
  let extract_all_field_bits_from_variable_into_variable_tokens_and_set_fields_tokens := setAllTokens P .readOnly
  let setting_fields_to_default_value_tokens_list := setDefaultsTokens P
  let bitfield_data_type_tokens := backTokens P.B.backing
  let bits_variable_endian_conversion_tokens := writeConvTokens P P.B.writeEndian
  let le_endian_conversion_tokens := writeConvTokens P .little
  let be_endian_conversion_tokens := writeConvTokens P .big
  let source_param := paramTokens P
  let write_fn := Tok.ident ("write_" ++ bob P)
  let write_with_defaults_fn := Tok.ident ("write_" ++ bob P ++ "_with_defaults")
  let write_le_fn := Tok.ident ("write_le_" ++ bob P)
  let write_le_with_defaults_fn := Tok.ident ("write_le_" ++ bob P ++ "_with_defaults")
  let write_be_fn := Tok.ident ("write_be_" ++ bob P)
  let write_be_with_defaults_fn := Tok.ident ("write_be_" ++ bob P ++ "_with_defaults")
  let write_doc := Tok.str ("Writes " ++ bob P ++ " to the bitfield.")
  let write_with_defaults_doc := Tok.str ("Writes " ++ bob P ++ " to the bitfield while setting defaults.")
  let write_le_doc := Tok.str ("Writes little-endian " ++ bob P ++ " to the bitfield.")
  let write_le_with_defaults_doc :=
    Tok.str ("Writes little-endian " ++ bob P ++ " to the bitfield while setting defaults.")
  let write_be_doc := Tok.str ("Writes big-endian " ++ bob P ++ " to the bitfield.")
  let write_be_with_defaults_doc :=
    Tok.str ("Writes big-endian " ++ bob P ++ " to the bitfield while setting defaults.")
  quote! "#[doc = #write_doc]
      #visibility_tokens #function_modifier_tokens fn #write_fn(&mut self, #source_param: #bitfield_data_type_tokens) {
          let this = self;
          let bits = #source_param;
          #bits_variable_endian_conversion_tokens
          #extract_all_field_bits_from_variable_into_variable_tokens_and_set_fields_tokens
      }

      #[doc = #write_with_defaults_doc]
      #visibility_tokens #function_modifier_tokens fn #write_with_defaults_fn(&mut self, #source_param: #bitfield_data_type_tokens) {
          let this = self;
          let bits = #source_param;
          #bits_variable_endian_conversion_tokens
          #extract_all_field_bits_from_variable_into_variable_tokens_and_set_fields_tokens
          #( #setting_fields_to_default_value_tokens_list )*
      }

      #[doc = #write_le_doc]
      #visibility_tokens #function_modifier_tokens fn #write_le_fn(&mut self, #source_param: #bitfield_data_type_tokens) {
          let this = self;
          let bits = #source_param;
          #le_endian_conversion_tokens
          #extract_all_field_bits_from_variable_into_variable_tokens_and_set_fields_tokens
      }

      #[doc = #write_le_with_defaults_doc]
      #visibility_tokens #function_modifier_tokens fn #write_le_with_defaults_fn(&mut self, #source_param: #bitfield_data_type_tokens) {
          let this = self;
          let bits = #source_param;
          #le_endian_conversion_tokens
          #extract_all_field_bits_from_variable_into_variable_tokens_and_set_fields_tokens
          #( #setting_fields_to_default_value_tokens_list )*
      }

      #[doc = #write_be_doc]
      #visibility_tokens #function_modifier_tokens fn #write_be_fn(&mut self, #source_param: #bitfield_data_type_tokens) {
          let this = self;
          let bits = #source_param;
          #be_endian_conversion_tokens
          #extract_all_field_bits_from_variable_into_variable_tokens_and_set_fields_tokens
      }

      #[doc = #write_be_with_defaults_doc]
      #visibility_tokens #function_modifier_tokens fn #write_be_with_defaults_fn(&mut self, #source_param: #bitfield_data_type_tokens) {
          let this = self;
          let bits = #source_param;
          #be_endian_conversion_tokens
          #extract_all_field_bits_from_variable_into_variable_tokens_and_set_fields_tokens
          #( #setting_fields_to_default_value_tokens_list )*
      }

      #[doc = \"Writes the bitfield defaults.\"]
      #visibility_tokens #function_modifier_tokens fn write_defaults(&mut self) {
          let this = self;
          #( #setting_fields_to_default_value_tokens_list )*
      }"

/-! ## Conversions -/

/-- `generate_bits_variable_endian_conversion_tokens`, generating/common/endian_conversion.rs:8-19 -/
def intEndianTokens (e : Endian) : List Tok :=
  match e with
  | .little => quote! "let bits = bits.swap_bytes();"
  | .big => []

/-- `generate_from_bits_tokens`, features/from_into_bits_feature.rs:58-133 -/
def fromBitsTokens (P : Printer) : List Tok :=
  let visibility_tokens := Tok.vis P.vis
  let function_modifier_tokens := modifierTokens P
  let bitfield_struct_initialization_tokens := initTokens P false
  let extract_all_field_bits_from_variable_into_variable_tokens_and_set_fields_tokens := setAllTokens P .none
  let bitfield_data_type_tokens := backTokens P.B.backing
  let setting_fields_to_default_value_tokens_list := setDefaultsTokens P
  let bits_variable_endian_conversion_tokens := intEndianTokens P.B.fromEndian
  let source_param := paramTokens P
  quote! "#[doc = \"Creates a new bitfield instance from the given bits.\"]
      #visibility_tokens #function_modifier_tokens fn from_bits(#source_param: #bitfield_data_type_tokens) -> Self {
          let bits = #source_param;
          #bits_variable_endian_conversion_tokens
          let mut this = #bitfield_struct_initialization_tokens;
          #extract_all_field_bits_from_variable_into_variable_tokens_and_set_fields_tokens
          this
      }

      #[doc = \"Creates a new bitfield instance from the given bits while \
               respecting defaults.\"]
      #visibility_tokens #function_modifier_tokens fn from_bits_with_defaults(#source_param: #bitfield_data_type_tokens) -> Self {
          let bits = #source_param;
          #bits_variable_endian_conversion_tokens
          let mut this = #bitfield_struct_initialization_tokens;
          #extract_all_field_bits_from_variable_into_variable_tokens_and_set_fields_tokens
          #( #setting_fields_to_default_value_tokens_list )*
          this
      }

      #[doc = \"Creates a new bitfield instance from the given little-endian bits.\"]
      #visibility_tokens #function_modifier_tokens fn from_le_bits(#source_param: #bitfield_data_type_tokens) -> Self {
          let bits = #source_param.swap_bytes();
          let mut this = #bitfield_struct_initialization_tokens;
          #extract_all_field_bits_from_variable_into_variable_tokens_and_set_fields_tokens
          this
      }

      #[doc = \"Creates a new bitfield instance from the given little-endian \
               bits while respecting defaults.\"]
      #visibility_tokens #function_modifier_tokens fn from_le_bits_with_defaults(#source_param: #bitfield_data_type_tokens) -> Self {
          let bits = #source_param.swap_bytes();
          let mut this = #bitfield_struct_initialization_tokens;
          #extract_all_field_bits_from_variable_into_variable_tokens_and_set_fields_tokens
          #( #setting_fields_to_default_value_tokens_list )*
          this
      }

      #[doc = \"Creates a new bitfield instance from the given big-endian bits.\"]
      #visibility_tokens #function_modifier_tokens fn from_be_bits(#source_param: #bitfield_data_type_tokens) -> Self {
          let bits = #source_param;
          let mut this = #bitfield_struct_initialization_tokens;
          #extract_all_field_bits_from_variable_into_variable_tokens_and_set_fields_tokens
          this
      }

      #[doc = \"Creates a new bitfield instance from the given big-endian bits \
               while respecting defaults.\"]
      #visibility_tokens #function_modifier_tokens fn from_be_bits_with_defaults(#source_param: #bitfield_data_type_tokens) -> Self {
          let bits = #source_param;
          let mut this = #bitfield_struct_initialization_tokens;
          #extract_all_field_bits_from_variable_into_variable_tokens_and_set_fields_tokens
          #( #setting_fields_to_default_value_tokens_list )*
          this
      }"

/-- `generate_integer_backed_into_bits_tokens`, features/from_into_bits_feature.rs:135-174 -/
def intoBitsTokens (P : Printer) : List Tok :=
  let visibility_tokens := Tok.vis P.vis
  let function_modifier_tokens := modifierTokens P
  let bitfield_data_type_tokens := backTokens P.B.backing
  let bits_variable_endian_conversion_tokens := intEndianTokens P.B.intoEndian
  let bitfield_internal_value_ident_tokens := innerTokens P false
  let into_bits_little_endian_conversion_tokens := intEndianTokens .little
  let into_bits_big_endian_conversion_tokens := intEndianTokens .big
  quote! "#[doc = \"Returns the bits of the bitfield.\"]
      #visibility_tokens #function_modifier_tokens fn into_bits(self) -> #bitfield_data_type_tokens {
          let this = self;
          let bits = #bitfield_internal_value_ident_tokens;
          #bits_variable_endian_conversion_tokens
          bits
      }

      #[doc = \"Returns the bits of the bitfield in little-endian order.\"]
      #visibility_tokens #function_modifier_tokens fn into_le_bits(self) -> #bitfield_data_type_tokens {
          let this = self;
          let bits = #bitfield_internal_value_ident_tokens;
          #into_bits_little_endian_conversion_tokens
          bits
      }

      #[doc = \"Returns the bits of the bitfield in big-endian order.\"]
      #visibility_tokens #function_modifier_tokens fn into_be_bits(self) -> #bitfield_data_type_tokens {
          let this = self;
          let bits = #bitfield_internal_value_ident_tokens;
          #into_bits_big_endian_conversion_tokens
          bits
      }"

/-- `from_bits_convert_tokens`, features/from_into_bits_feature.rs:212-228 -/
def fromBytesConvTokens (P : Printer) (n : Nat) (e : Endian) : List Tok :=
  let source_param := paramTokens P
  let half_len := usize (n / 2)
  let last_idx := usize (n - 1)
  match e with
  | .little => quote! "let bits = #source_param;"
  | .big =>
    quote! "let mut bits = #source_param;
      let mut i = 0;
      while i < #half_len {
          let j = #last_idx - i;
          bits[i] ^= bits[j];
          bits[j] ^= bits[i];
          bits[i] ^= bits[j];
          i += 1;
      }"

/-- `generate_array_backed_from_bits_tokens`, features/from_into_bits_feature.rs:191-289 -/
def fromBytesTokens (P : Printer) (n : Nat) : List Tok :=
  let visibility_tokens := Tok.vis P.vis
  let function_modifier_tokens := modifierTokens P
  let bitfield_struct_initialization_tokens := initTokens P false
  let extract_all_field_bits_from_variable_into_variable_tokens_and_set_fields_tokens := setAllTokens P .none
  let bitfield_data_type_tokens := backTokens P.B.backing
  let setting_fields_to_default_value_tokens_list := setDefaultsTokens P
  let source_param := paramTokens P
  let default_endian_from_bits := fromBytesConvTokens P n P.B.fromEndian
  let le_endian_from_bits := fromBytesConvTokens P n .little
  let be_endian_from_bits := fromBytesConvTokens P n .big
  quote! "#[doc = \"Creates a new bitfield instance from the given bytes.\"]
      #visibility_tokens #function_modifier_tokens fn from_bytes(#source_param: #bitfield_data_type_tokens) -> Self {
          #default_endian_from_bits
          let mut this = #bitfield_struct_initialization_tokens;
          #extract_all_field_bits_from_variable_into_variable_tokens_and_set_fields_tokens
          this
      }

      #[doc = \"Creates a new bitfield instance from the given bytes while \
               respecting defaults.\"]
      #visibility_tokens #function_modifier_tokens fn from_bytes_with_defaults(#source_param: #bitfield_data_type_tokens) -> Self {
          #default_endian_from_bits
          let mut this = #bitfield_struct_initialization_tokens;
          #extract_all_field_bits_from_variable_into_variable_tokens_and_set_fields_tokens
          #( #setting_fields_to_default_value_tokens_list )*
          this
      }

      #[doc = \"Creates a new bitfield instance from the given little-endian bytes.\"]
      #visibility_tokens #function_modifier_tokens fn from_le_bytes(#source_param: #bitfield_data_type_tokens) -> Self {
          #le_endian_from_bits
          let mut this = #bitfield_struct_initialization_tokens;
          #extract_all_field_bits_from_variable_into_variable_tokens_and_set_fields_tokens
          this
      }

      #[doc = \"Creates a new bitfield instance from the given little-endian \
               bytes while respecting defaults.\"]
      #visibility_tokens #function_modifier_tokens fn from_le_bytes_with_defaults(#source_param: #bitfield_data_type_tokens) -> Self {
          #le_endian_from_bits
          let mut this = #bitfield_struct_initialization_tokens;
          #extract_all_field_bits_from_variable_into_variable_tokens_and_set_fields_tokens
          #( #setting_fields_to_default_value_tokens_list )*
          this
      }

      #[doc = \"Creates a new bitfield instance from the given big-endian bytes.\"]
      #visibility_tokens #function_modifier_tokens fn from_be_bytes(#source_param: #bitfield_data_type_tokens) -> Self {
          #be_endian_from_bits
          let mut this = #bitfield_struct_initialization_tokens;
          #extract_all_field_bits_from_variable_into_variable_tokens_and_set_fields_tokens
          this
      }

      #[doc = \"Creates a new bitfield instance from the given big-endian bytes \
               while respecting defaults.\"]
      #visibility_tokens #function_modifier_tokens fn from_be_bytes_with_defaults(#source_param: #bitfield_data_type_tokens) -> Self {
          #be_endian_from_bits
          let mut this = #bitfield_struct_initialization_tokens;
          #extract_all_field_bits_from_variable_into_variable_tokens_and_set_fields_tokens
          #( #setting_fields_to_default_value_tokens_list )*
          this
      }"

/-- `slice_endian_conversion_tokens`, features/from_into_bits_feature.rs:340-354 -/
def sliceEndianTokens (n : Nat) (e : Endian) : List Tok :=
  let half_len := usize (n / 2)
  let last_idx := usize (n - 1)
  match e with
  | .little => []
  | .big =>
    quote! "let mut i = 0usize;
      while i < #half_len {
          let j = #last_idx - i;
          bits[i] ^= bits[j];
          bits[j] ^= bits[i];
          bits[i] ^= bits[j];
          i += 1;
      }"

/-- `copy_from_slice_tokens`, features/from_into_bits_feature.rs:314-323 -/
def copyFromTokens (P : Printer) (n : Nat) : List Tok :=
  let bitfield_data_type_tokens := backTokens P.B.backing
  let array_len := usize n
  quote! "let mut bits: #bitfield_data_type_tokens = [0; #array_len];
      let copy_len =
          if slice.len() < #array_len { slice.len() } else { #array_len };
      let mut i = 0usize;
      while i < copy_len {
          bits[i] = slice[i];
          i += 1;
      }"

/-- `copy_from_slice_exact_tokens`, features/from_into_bits_feature.rs:325-332 -/
def copyFromExactTokens (P : Printer) (n : Nat) : List Tok :=
  let bitfield_data_type_tokens := backTokens P.B.backing
  let array_len := usize n
  quote! "let mut bits: #bitfield_data_type_tokens = [0; #array_len];
      let mut i = 0usize;
      while i < #array_len {
          bits[i] = slice[i];
          i += 1;
      }"

/-- `size_check_tokens`, features/from_into_bits_feature.rs:334-338 -/
def fillCheckTokens (n : Nat) : List Tok :=
  let array_len := usize n
  quote! "if slice.len() < #array_len {
          return Err(\"Slice is too small to fill the bitfield.\");
      }"

/-- `generate_array_backed_from_slice_tokens`, features/from_into_bits_feature.rs:293-505 -/
def fromSliceTokens (P : Printer) (n : Nat) : List Tok :=
  let visibility_tokens := Tok.vis P.vis
  let function_modifier_tokens := modifierTokens P
  let bitfield_struct_initialization_tokens := initTokens P false
  let extract_all_field_bits_tokens := setAllTokens P .none
  let setting_fields_to_default_value_tokens_list := setDefaultsTokens P
  let copy_from_slice_tokens := copyFromTokens P n
  let copy_from_slice_exact_tokens := copyFromExactTokens P n
  let size_check_tokens := fillCheckTokens n
  let default_endian_tokens := sliceEndianTokens n P.B.fromEndian
  let le_endian_tokens := sliceEndianTokens n .little
  let be_endian_tokens := sliceEndianTokens n .big
  quote! "#[doc = \"Creates a new bitfield instance from the given byte slice. \
               If the slice is shorter than the bitfield, the remaining bytes \
               are treated as zero.\"]
      #visibility_tokens #function_modifier_tokens fn from_slice(slice: &[u8]) -> Self {
          #copy_from_slice_tokens
          #default_endian_tokens
          let mut this = #bitfield_struct_initialization_tokens;
          #extract_all_field_bits_tokens
          this
      }

      #[doc = \"Creates a new bitfield instance from the given byte slice while \
               respecting defaults. If the slice is shorter than the bitfield, \
               the remaining bytes are treated as zero.\"]
      #visibility_tokens #function_modifier_tokens fn from_slice_with_defaults(slice: &[u8]) -> Self {
          #copy_from_slice_tokens
          #default_endian_tokens
          let mut this = #bitfield_struct_initialization_tokens;
          #extract_all_field_bits_tokens
          #( #setting_fields_to_default_value_tokens_list )*
          this
      }

      #[doc = \"Creates a new bitfield instance from the given byte slice. \
               Returns an error if the slice is too small to fill the bitfield.\"]
      #visibility_tokens #function_modifier_tokens fn checked_from_slice(slice: &[u8]) -> ::core::result::Result<Self, &'static str> {
          #size_check_tokens
          #copy_from_slice_exact_tokens
          #default_endian_tokens
          let mut this = #bitfield_struct_initialization_tokens;
          #extract_all_field_bits_tokens
          Ok(this)
      }

      #[doc = \"Creates a new bitfield instance from the given byte slice while \
               respecting defaults. Returns an error if the slice is too small \
               to fill the bitfield.\"]
      #visibility_tokens #function_modifier_tokens fn checked_from_slice_with_defaults(slice: &[u8]) -> ::core::result::Result<Self, &'static str> {
          #size_check_tokens
          #copy_from_slice_exact_tokens
          #default_endian_tokens
          let mut this = #bitfield_struct_initialization_tokens;
          #extract_all_field_bits_tokens
          #( #setting_fields_to_default_value_tokens_list )*
          Ok(this)
      }

      #[doc = \"Creates a new bitfield instance from the given little-endian byte \
               slice. If the slice is shorter than the bitfield, the remaining \
               bytes are treated as zero.\"]
      #visibility_tokens #function_modifier_tokens fn from_le_slice(slice: &[u8]) -> Self {
          #copy_from_slice_tokens
          #le_endian_tokens
          let mut this = #bitfield_struct_initialization_tokens;
          #extract_all_field_bits_tokens
          this
      }

      #[doc = \"Creates a new bitfield instance from the given little-endian byte \
               slice while respecting defaults. If the slice is shorter than the \
               bitfield, the remaining bytes are treated as zero.\"]
      #visibility_tokens #function_modifier_tokens fn from_le_slice_with_defaults(slice: &[u8]) -> Self {
          #copy_from_slice_tokens
          #le_endian_tokens
          let mut this = #bitfield_struct_initialization_tokens;
          #extract_all_field_bits_tokens
          #( #setting_fields_to_default_value_tokens_list )*
          this
      }

      #[doc = \"Creates a new bitfield instance from the given little-endian byte \
               slice. Returns an error if the slice is too small to fill the \
               bitfield.\"]
      #visibility_tokens #function_modifier_tokens fn checked_from_le_slice(slice: &[u8]) -> ::core::result::Result<Self, &'static str> {
          #size_check_tokens
          #copy_from_slice_exact_tokens
          #le_endian_tokens
          let mut this = #bitfield_struct_initialization_tokens;
          #extract_all_field_bits_tokens
          Ok(this)
      }

      #[doc = \"Creates a new bitfield instance from the given little-endian byte \
               slice while respecting defaults. Returns an error if the slice is \
               too small to fill the bitfield.\"]
      #visibility_tokens #function_modifier_tokens fn checked_from_le_slice_with_defaults(slice: &[u8]) -> ::core::result::Result<Self, &'static str> {
          #size_check_tokens
          #copy_from_slice_exact_tokens
          #le_endian_tokens
          let mut this = #bitfield_struct_initialization_tokens;
          #extract_all_field_bits_tokens
          #( #setting_fields_to_default_value_tokens_list )*
          Ok(this)
      }

      #[doc = \"Creates a new bitfield instance from the given big-endian byte \
               slice. If the slice is shorter than the bitfield, the remaining \
               bytes are treated as zero.\"]
      #visibility_tokens #function_modifier_tokens fn from_be_slice(slice: &[u8]) -> Self {
          #copy_from_slice_tokens
          #be_endian_tokens
          let mut this = #bitfield_struct_initialization_tokens;
          #extract_all_field_bits_tokens
          this
      }

      #[doc = \"Creates a new bitfield instance from the given big-endian byte \
               slice while respecting defaults. If the slice is shorter than the \
               bitfield, the remaining bytes are treated as zero.\"]
      #visibility_tokens #function_modifier_tokens fn from_be_slice_with_defaults(slice: &[u8]) -> Self {
          #copy_from_slice_tokens
          #be_endian_tokens
          let mut this = #bitfield_struct_initialization_tokens;
          #extract_all_field_bits_tokens
          #( #setting_fields_to_default_value_tokens_list )*
          this
      }

      #[doc = \"Creates a new bitfield instance from the given big-endian byte \
               slice. Returns an error if the slice is too small to fill the \
               bitfield.\"]
      #visibility_tokens #function_modifier_tokens fn checked_from_be_slice(slice: &[u8]) -> ::core::result::Result<Self, &'static str> {
          #size_check_tokens
          #copy_from_slice_exact_tokens
          #be_endian_tokens
          let mut this = #bitfield_struct_initialization_tokens;
          #extract_all_field_bits_tokens
          Ok(this)
      }

      #[doc = \"Creates a new bitfield instance from the given big-endian byte \
               slice while respecting defaults. Returns an error if the slice is \
               too small to fill the bitfield.\"]
      #visibility_tokens #function_modifier_tokens fn checked_from_be_slice_with_defaults(slice: &[u8]) -> ::core::result::Result<Self, &'static str> {
          #size_check_tokens
          #copy_from_slice_exact_tokens
          #be_endian_tokens
          let mut this = #bitfield_struct_initialization_tokens;
          #extract_all_field_bits_tokens
          #( #setting_fields_to_default_value_tokens_list )*
          Ok(this)
      }"

/-- `into_bits_convert_tokens`, features/from_into_bits_feature.rs:521-563 -/
def intoBytesConvTokens (P : Printer) (n : Nat) (e : Endian) : List Tok :=
  let bitfield_internal_value_ident_tokens := innerTokens P false
  let half_len := usize (n / 2)
  let last_idx := usize (n - 1)
  match e with
  | .little =>
    if P.B.heap then quote! "*#bitfield_internal_value_ident_tokens"
    else quote! "#bitfield_internal_value_ident_tokens"
  | .big =>
    if P.B.heap then
      quote! "let mut bits = *#bitfield_internal_value_ident_tokens;
      let mut i = 0;
      while i < #half_len {
          let j = #last_idx - i;
          bits[i] ^= bits[j];
          bits[j] ^= bits[i];
          bits[i] ^= bits[j];
          i += 1;
      }
      bits"
    else
      quote! "let mut bits = #bitfield_internal_value_ident_tokens;
      let mut i = 0;
      while i < #half_len {
          let j = #last_idx - i;
          bits[i] ^= bits[j];
          bits[j] ^= bits[i];
          bits[i] ^= bits[j];
          i += 1;
      }
      bits"

/-- `generate_array_backed_into_bits_tokens`, features/from_into_bits_feature.rs:507-588 -/
def intoBytesTokens (P : Printer) (n : Nat) : List Tok :=
  let visibility_tokens := Tok.vis P.vis
  let function_modifier_tokens := modifierTokens P
  let bitfield_data_type_tokens := backTokens P.B.backing
  let default_endian_tokens := intoBytesConvTokens P n P.B.intoEndian
  let le_endian_tokens := intoBytesConvTokens P n .little
  let be_endian_tokens := intoBytesConvTokens P n .big
  quote! "#[doc = \"Returns the bytes of the bitfield.\"]
      #visibility_tokens #function_modifier_tokens fn into_bytes(&self) -> #bitfield_data_type_tokens {
          let this = self;
          #default_endian_tokens
      }

      #[doc = \"Returns the bytes of the bitfield in little-endian order.\"]
      #visibility_tokens #function_modifier_tokens fn into_le_bytes(&self) -> #bitfield_data_type_tokens {
          let this = self;
          #le_endian_tokens
      }

      #[doc = \"Returns the bytes of the bitfield in big-endian order.\"]
      #visibility_tokens #function_modifier_tokens fn into_be_bytes(&self) -> #bitfield_data_type_tokens {
          let this = self;
          #be_endian_tokens
      }"

/-- `get_bits_var`, features/from_into_bits_feature.rs:604-627 -/
def sliceBitsTokens (P : Printer) (n : Nat) (e : Endian) : List Tok :=
  let bitfield_internal_value_ident_tokens := innerTokens P false
  let bits_access_tokens :=
    if P.B.heap then quote! "*#bitfield_internal_value_ident_tokens"
    else quote! "#bitfield_internal_value_ident_tokens"
  let half_len := usize (n / 2)
  let last_idx := usize (n - 1)
  match e with
  | .little => quote! "let bits = #bits_access_tokens;"
  | .big =>
    quote! "let mut bits = #bits_access_tokens;
      let mut i = 0usize;
      while i < #half_len {
          let j = #last_idx - i;
          bits[i] ^= bits[j];
          bits[j] ^= bits[i];
          bits[i] ^= bits[j];
          i += 1;
      }"

/-- `copy_to_slice_tokens`, features/from_into_bits_feature.rs:633-640 -/
def copyToTokens (n : Nat) : List Tok :=
  let array_len := usize n
  quote! "let copy_len = if slice.len() < #array_len { slice.len() } else { #array_len };
      let mut i = 0usize;
      while i < copy_len {
          slice[i] = bits[i];
          i += 1;
      }"

/-- `copy_exact_to_slice_tokens`, features/from_into_bits_feature.rs:642-648 -/
def copyToExactTokens (n : Nat) : List Tok :=
  let array_len := usize n
  quote! "let mut i = 0usize;
      while i < #array_len {
          slice[i] = bits[i];
          i += 1;
      }"

/-- `size_check_tokens`, features/from_into_bits_feature.rs:650-654 -/
def holdCheckTokens (n : Nat) : List Tok :=
  let array_len := usize n
  quote! "if slice.len() < #array_len {
          return Err(\"Slice is too small to hold the bitfield.\");
      }"

/-- `generate_array_backed_into_slice_tokens`, features/from_into_bits_feature.rs:592-718 -/
def intoSliceTokens (P : Printer) (n : Nat) : List Tok :=
  let visibility_tokens := Tok.vis P.vis
  let function_modifier_tokens := modifierTokens P
  let default_get_bits := sliceBitsTokens P n P.B.intoEndian
  let le_get_bits := sliceBitsTokens P n .little
  let be_get_bits := sliceBitsTokens P n .big
  let copy_to_slice_tokens := copyToTokens n
  let copy_exact_to_slice_tokens := copyToExactTokens n
  let size_check_tokens := holdCheckTokens n
  quote! "#[doc = \"Writes the bitfield bytes into the provided slice. \
               If the slice is shorter than the bitfield only the bytes \
               that fit are written.\"]
      #visibility_tokens #function_modifier_tokens fn into_slice(&self, slice: &mut [u8]) {
          let this = self;
          #default_get_bits
          #copy_to_slice_tokens
      }

      #[doc = \"Writes the bitfield bytes into the provided slice. \
               Returns an error if the slice is too small to hold the \
               entire bitfield.\"]
      #visibility_tokens #function_modifier_tokens fn checked_into_slice(&self, slice: &mut [u8]) -> ::core::result::Result<(), &'static str> {
          let this = self;
          #size_check_tokens
          #default_get_bits
          #copy_exact_to_slice_tokens
          Ok(())
      }

      #[doc = \"Writes the bitfield bytes in little-endian order into the \
               provided slice. If the slice is shorter than the bitfield \
               only the bytes that fit are written.\"]
      #visibility_tokens #function_modifier_tokens fn into_le_slice(&self, slice: &mut [u8]) {
          let this = self;
          #le_get_bits
          #copy_to_slice_tokens
      }

      #[doc = \"Writes the bitfield bytes in little-endian order into the \
               provided slice. Returns an error if the slice is too small \
               to hold the entire bitfield.\"]
      #visibility_tokens #function_modifier_tokens fn checked_into_le_slice(&self, slice: &mut [u8]) -> ::core::result::Result<(), &'static str> {
          let this = self;
          #size_check_tokens
          #le_get_bits
          #copy_exact_to_slice_tokens
          Ok(())
      }

      #[doc = \"Writes the bitfield bytes in big-endian order into the \
               provided slice. If the slice is shorter than the bitfield \
               only the bytes that fit are written.\"]
      #visibility_tokens #function_modifier_tokens fn into_be_slice(&self, slice: &mut [u8]) {
          let this = self;
          #be_get_bits
          #copy_to_slice_tokens
      }

      #[doc = \"Writes the bitfield bytes in big-endian order into the \
               provided slice. Returns an error if the slice is too small \
               to hold the entire bitfield.\"]
      #visibility_tokens #function_modifier_tokens fn checked_into_be_slice(&self, slice: &mut [u8]) -> ::core::result::Result<(), &'static str> {
          let this = self;
          #size_check_tokens
          #be_get_bits
          #copy_exact_to_slice_tokens
          Ok(())
      }"

/-- `generate_from_into_bits_feature_tokens`, features/from_into_bits_feature.rs:37-56, 176-189 -/
def fromIntoTokens (P : Printer) : List Tok :=
  match P.B.backing with
  | .int _ =>
    let from_bits_tokens := fromBitsTokens P
    let into_bits_tokens := intoBitsTokens P
    quote! "#from_bits_tokens
      #into_bits_tokens"
  | .arr n =>
    let from_bits_tokens := fromBytesTokens P n
    let from_slice_tokens := fromSliceTokens P n
    let into_bits_tokens := intoBytesTokens P n
    let into_slice_tokens := intoSliceTokens P n
    quote! "#from_bits_tokens
      #from_slice_tokens
      #into_bits_tokens
      #into_slice_tokens"

/-- `generate_bits_return_endian_conversion_tokens`, features/from_traits_feature.rs:103-166 -/
def traitConvTokens (P : Printer) (into : Bool) : List Tok :=
  let source_value_ident_tokens := if into then innerTokens P false else paramTokens P
  let conversion_endian := if into then P.B.intoEndian else P.B.fromEndian
  match conversion_endian, P.B.backing with
  | .little, .int _ => quote! "#source_value_ident_tokens.swap_bytes()"
  | .little, .arr _ =>
    if into && P.B.heap then quote! "*#source_value_ident_tokens"
    else quote! "#source_value_ident_tokens"
  | .big, .int _ => quote! "#source_value_ident_tokens"
  | .big, .arr _ =>
    if into && P.B.heap then
      quote! "{
          let mut temp_bits = *#source_value_ident_tokens;
          let mut i = 0;
          while i < temp_bits.len() / 2 {
              let temp = temp_bits[i];
              temp_bits[i] = temp_bits[temp_bits.len() - 1 - i];
              temp_bits[temp_bits.len() - 1 - i] = temp;
              i += 1;
          }
          temp_bits
      }"
    else
      quote! "{
          let mut temp_bits = #source_value_ident_tokens;
          let mut i = 0;
          while i < temp_bits.len() / 2 {
              let temp = temp_bits[i];
              temp_bits[i] = temp_bits[temp_bits.len() - 1 - i];
              temp_bits[temp_bits.len() - 1 - i] = temp;
              i += 1;
          }
          temp_bits
      }"

/-- `generate_from_data_type_trait_tokens`, features/from_traits_feature.rs:52-81 -/
def traitFromTokens (P : Printer) : List Tok :=
  let initialize_struct_initialization_tokens := initTokens P false
  let generate_extract_all_field_bits_from_variable_into_variable_tokens_and_set_fields_tokens :=
    setAllTokens P .none
  let bitfield_data_type_tokens := backTokens P.B.backing
  let bitfield_name_tokens := Tok.ident P.name
  let bits_return_endian_conversion_tokens := traitConvTokens P false
  let source_param := paramTokens P
  quote! "impl core::convert::From<#bitfield_data_type_tokens> for #bitfield_name_tokens {
          fn from(#source_param: #bitfield_data_type_tokens) -> Self {
              let mut this = #initialize_struct_initialization_tokens;
              let bits = #bits_return_endian_conversion_tokens;
              #generate_extract_all_field_bits_from_variable_into_variable_tokens_and_set_fields_tokens
              this
          }
      }"

/-- `generate_from_bitfield_trait_tokens`, features/from_traits_feature.rs:83-99 -/
def traitIntoTokens (P : Printer) : List Tok :=
  let bitfield_data_type_tokens := backTokens P.B.backing
  let bitfield_name_tokens := Tok.ident P.name
  let bits_return_endian_conversion_tokens := traitConvTokens P true
  quote! "impl core::convert::From<#bitfield_name_tokens> for #bitfield_data_type_tokens {
          fn from(val: #bitfield_name_tokens) -> Self {
              let mut this = val;
              #bits_return_endian_conversion_tokens
          }
      }"

/-- `generate_from_traits_feature_tokens`, features/from_traits_feature.rs:42-50 -/
def traitsTokens (P : Printer) : List Tok :=
  let from_data_type_trait_tokens := traitFromTokens P
  let from_bitfield_trait_tokens := traitIntoTokens P
  quote! "#from_data_type_trait_tokens
      #from_bitfield_trait_tokens"

/-! ## Bit and range operations -/

/-- `GuardReturnType`, features/set_get_bit_ops_feature.rs:36-45 -/
inductive Guard where
  | returnFalse | noOp | returnZero | offsetError | lengthError | writeError | readError

/-- `get_guard_return_tokens`, features/set_get_bit_ops_feature.rs:518-567 -/
def guardTokens (P : Printer) : Guard → List Tok
  | .returnFalse => quote! "return false;"
  | .noOp => quote! "return;"
  | .returnZero =>
    match P.B.backing with
    | .int _ => quote! "return 0;"
    | .arr n =>
      let array_len := usize n
      quote! "return [0; #array_len];"
  | .offsetError => quote! "return Err(\"The offset is outside the bitfield range.\");"
  | .lengthError => quote! "return Err(\"The length is outside the bitfield range.\");"
  | .writeError => quote! "return Err(\"Attempted to write to non-writable bit(s).\");"
  | .readError => quote! "return Err(\"Attempted to read from non-readable bit(s).\");"

/-- `generate_check_offset_bitfield_range_tokens`, features/set_get_bit_ops_feature.rs:438-459 -/
def offsetGuardTokens (P : Printer) (g : Guard) : List Tok :=
  let bitfield_data_type_tokens := backTokens P.B.backing
  let bitfield_data_type_bits_tokens :=
    match P.B.backing with
    | .int _ => quote! "#bitfield_data_type_tokens::BITS"
    | .arr n =>
      let total_bits := u32 (n * 8)
      quote! "#total_bits"
  let guard_return_tokens := guardTokens P g
  quote! "if offset >= #bitfield_data_type_bits_tokens {
          #guard_return_tokens
      }"

/-- `generate_check_offset_and_length_bitfield_range_tokens`, features/set_get_bit_ops_feature.rs:461-482 -/
def lengthGuardTokens (P : Printer) (g : Guard) : List Tok :=
  let bitfield_data_type_tokens := backTokens P.B.backing
  let bitfield_data_type_bits_tokens :=
    match P.B.backing with
    | .int _ => quote! "#bitfield_data_type_tokens::BITS"
    | .arr n =>
      let total_bits := u32 (n * 8)
      quote! "#total_bits"
  let guard_return_tokens := guardTokens P g
  quote! "if offset + length > #bitfield_data_type_bits_tokens {
          #guard_return_tokens
      }"

/-- `generate_field_bits_access_guard_tokens`, features/set_get_bit_ops_feature.rs:484-516 -/
def fieldGuardTokens (P : Printer) (g : Guard) (read : Bool) : List Tok :=
  joined ((P.B.fields.filter fun f => if read then !f.hasReadAccess else !f.hasSetter).map fun f =>
    let field_offset := u32 f.offset
    let field_end_bits := u32 (f.offset + f.bits)
    let guard_return_tokens := guardTokens P g
    if !P.ignored.isEmpty then
      quote! "if (#field_offset..#field_end_bits).contains(&offset) {
          #guard_return_tokens
      }"
    else
      quote! "if offset >= #field_offset && offset < #field_end_bits {
          #guard_return_tokens
      }")

/-- `generate_set_bit_ops_tokens`, features/set_get_bit_ops_feature.rs:58-258 -/
def setOpsTokens (P : Printer) : List Tok :=
  let visibility_tokens := Tok.vis P.vis
  let function_modifier_tokens := modifierTokens P
  let bitfield_data_type_tokens := backTokens P.B.backing
  let bitfield_internal_value_ident_tokens := innerTokens P false
  let check_offset_bitfield_range_tokens := offsetGuardTokens P .noOp
  let check_offset_and_length_bitfield_range_tokens := lengthGuardTokens P .noOp
  let check_offset_bitfield_range_error_tokens := offsetGuardTokens P .offsetError
  let check_offset_and_length_bitfield_range_error_tokens := lengthGuardTokens P .lengthError
  let field_bit_write_guard_no_op := fieldGuardTokens P .noOp false
  let field_bit_write_guard_error := fieldGuardTokens P .writeError false
  let protected_mask := protTokens P .readOnly
  match P.B.backing with
  | .int _ =>
    quote! "#[doc = \"Sets a bit in the bitfield.\"]
      #visibility_tokens #function_modifier_tokens fn set_bit(&mut self, offset: u32, bit: bool) {
          let this = self;

          #check_offset_bitfield_range_tokens
          #field_bit_write_guard_no_op

          if bit {
              #bitfield_internal_value_ident_tokens = (#bitfield_internal_value_ident_tokens & !(1 << offset)) | (1 << offset);
          } else {
              #bitfield_internal_value_ident_tokens &= !(1 << offset);
          }
      }

      #[doc = \"Sets a bit in the bitfield. Returns an error if the \
               offset is outside the bitfield range.\"]
      #visibility_tokens #function_modifier_tokens fn checked_set_bit(&mut self, offset: u32, bit: bool) -> ::core::result::Result<(), &'static str> {
          let this = self;

          #check_offset_bitfield_range_error_tokens
          #field_bit_write_guard_error

          if bit {
              #bitfield_internal_value_ident_tokens = (#bitfield_internal_value_ident_tokens & !(1 << offset)) | (1 << offset);
          } else {
              #bitfield_internal_value_ident_tokens &= !(1 << offset);
          }

          Ok(())
      }

      #[doc = \"Sets bits in the bitfield starting from the offset \
               to the length with the provided value.\"]
      #visibility_tokens #function_modifier_tokens fn set_bits_range(&mut self, offset: u32, length: u32, value: #bitfield_data_type_tokens) {
          let this = self;
          #check_offset_bitfield_range_tokens
          #check_offset_and_length_bitfield_range_tokens
          let range_mask = (#bitfield_data_type_tokens::MAX >> (#bitfield_data_type_tokens::BITS - length)) << offset;
          #protected_mask
          let writable_mask = range_mask & !protected_mask;
          #bitfield_internal_value_ident_tokens = (#bitfield_internal_value_ident_tokens & !writable_mask) | ((value << offset) & writable_mask);
      }

      #[doc = \"Sets bits in the bitfield starting from the offset \
               to the length with the provided value. Returns an \
               error if the offset and length is outside the \
               bitfield range, if the value is too large for the \
               length, or if any bit in the range is non-writable.\"]
      #visibility_tokens #function_modifier_tokens fn checked_set_bits_range(&mut self, offset: u32, length: u32, value: #bitfield_data_type_tokens) -> ::core::result::Result<(), &'static str> {
          let this = self;
          #check_offset_bitfield_range_error_tokens
          #check_offset_and_length_bitfield_range_error_tokens
          let mask = #bitfield_data_type_tokens::MAX >> (#bitfield_data_type_tokens::BITS - length);
          #protected_mask
          let range_mask = mask << offset;
          if range_mask & protected_mask != 0 {
              return Err(\"Attempted to write to non-writable bit(s).\");
          }
          #bitfield_internal_value_ident_tokens = (#bitfield_internal_value_ident_tokens & !(mask << offset)) | ((value & mask) << offset);
          Ok(())
      }"
  | .arr _ =>
    quote! "#[doc = \"Sets a bit in the bitfield.\"]
      #visibility_tokens #function_modifier_tokens fn set_bit(&mut self, offset: u32, bit: bool) {
          let this = self;

          #check_offset_bitfield_range_tokens
          #field_bit_write_guard_no_op

          let byte_idx = offset / 8;
          let bit_in_byte = offset % 8;
          if bit {
              #bitfield_internal_value_ident_tokens[byte_idx as usize] |= 1 << bit_in_byte;
          } else {
              #bitfield_internal_value_ident_tokens[byte_idx as usize] &= !(1 << bit_in_byte);
          }
      }

      #[doc = \"Sets a bit in the bitfield. Returns an error if the \
               offset is outside the bitfield range.\"]
      #visibility_tokens #function_modifier_tokens fn checked_set_bit(&mut self, offset: u32, bit: bool) -> ::core::result::Result<(), &'static str> {
          let this = self;

          #check_offset_bitfield_range_error_tokens
          #field_bit_write_guard_error

          let byte_idx = offset / 8;
          let bit_in_byte = offset % 8;
          if bit {
              #bitfield_internal_value_ident_tokens[byte_idx as usize] |= 1 << bit_in_byte;
          } else {
              #bitfield_internal_value_ident_tokens[byte_idx as usize] &= !(1 << bit_in_byte);
          }

          Ok(())
      }

      #[doc = \"Sets bytes in the bitfield starting from the offset \
               to the length with the provided value.\"]
      #visibility_tokens #function_modifier_tokens fn set_bytes_range(&mut self, offset: u32, length: u32, value: #bitfield_data_type_tokens) {
          let this = self;
          #check_offset_bitfield_range_tokens
          #check_offset_and_length_bitfield_range_tokens
          #protected_mask
          let mut i = 0u32;
          while i < length {
              let bit_val = ((value[(i / 8) as usize] >> (i % 8)) & 1) != 0;
              let dst_bit = offset + i;
              let dst_byte_idx = (dst_bit / 8) as usize;
              let dst_bit_in_byte = dst_bit % 8;
              let is_protected = (protected_mask[dst_byte_idx] >> dst_bit_in_byte) & 1 != 0;
              if !is_protected {
                  if bit_val {
                      #bitfield_internal_value_ident_tokens[dst_byte_idx] |= 1 << dst_bit_in_byte;
                  } else {
                      #bitfield_internal_value_ident_tokens[dst_byte_idx] &= !(1 << dst_bit_in_byte);
                  }
              }
              i += 1;
          }
      }

      #[doc = \"Sets bytes in the bitfield starting from the offset \
               to the length with the provided value. Returns an \
               error if the offset and length is outside the \
               bitfield range, if the value is too large for the \
               length, or if any bit in the range is non-writable.\"]
      #visibility_tokens #function_modifier_tokens fn checked_set_bytes_range(&mut self, offset: u32, length: u32, value: #bitfield_data_type_tokens) -> ::core::result::Result<(), &'static str> {
          let this = self;
          #check_offset_bitfield_range_error_tokens
          #check_offset_and_length_bitfield_range_error_tokens
          #protected_mask
          let mut i = 0u32;
          while i < length {
              let dst_bit = offset + i;
              let dst_byte_idx = (dst_bit / 8) as usize;
              let dst_bit_in_byte = dst_bit % 8;
              let is_protected = (protected_mask[dst_byte_idx] >> dst_bit_in_byte) & 1 != 0;
              if is_protected {
                  return Err(\"Attempted to write to non-writable bit(s).\");
              }
              i += 1;
          }
          let mut i = 0u32;
          while i < length {
              let bit_val = ((value[(i / 8) as usize] >> (i % 8)) & 1) != 0;
              let dst_bit = offset + i;
              let dst_byte_idx = (dst_bit / 8) as usize;
              let dst_bit_in_byte = dst_bit % 8;
              if bit_val {
                  #bitfield_internal_value_ident_tokens[dst_byte_idx] |= 1 << dst_bit_in_byte;
              } else {
                  #bitfield_internal_value_ident_tokens[dst_byte_idx] &= !(1 << dst_bit_in_byte);
              }
              i += 1;
          }
          Ok(())
      }"

/-- `generate_get_bit_ops_tokens`, features/set_get_bit_ops_feature.rs:260-436 -/
def getOpsTokens (P : Printer) : List Tok :=
  let visibility_tokens := Tok.vis P.vis
  let function_modifier_tokens := modifierTokens P
  let bitfield_data_type_tokens := backTokens P.B.backing
  let bitfield_internal_value_ident_tokens := innerTokens P false
  let check_offset_bitfield_range_tokens := offsetGuardTokens P .returnFalse
  let check_offset_bitfield_range_error_tokens := offsetGuardTokens P .offsetError
  let check_offset_and_length_bitfield_range_error_tokens := lengthGuardTokens P .lengthError
  let check_offset_bitfield_range_return_zero_tokens := offsetGuardTokens P .returnZero
  let check_offset_and_length_bitfield_range_return_zero_tokens := lengthGuardTokens P .returnZero
  let field_bit_write_guard_return_false := fieldGuardTokens P .returnFalse true
  let field_bit_read_guard_error := fieldGuardTokens P .readError true
  let protected_mask := protTokens P .writeOnly
  let array_len := usize P.length
  match P.B.backing with
  | .int _ =>
    quote! "#[doc = \"Returns a bit from the bitfield.\"]
      #visibility_tokens #function_modifier_tokens fn get_bit(&self, offset: u32) -> bool {
          let this = self;
          #check_offset_bitfield_range_tokens
          #field_bit_write_guard_return_false
          (#bitfield_internal_value_ident_tokens >> offset) & 1 != 0
      }

      #[doc = \"Returns a bit from the bitfield. Returns an error if \
               the offset is outside the bitfield range.\"]
      #visibility_tokens #function_modifier_tokens fn checked_get_bit(&self, offset: u32) -> ::core::result::Result<bool, &'static str> {
          let this = self;
          #check_offset_bitfield_range_error_tokens
          #field_bit_read_guard_error
          Ok((#bitfield_internal_value_ident_tokens >> offset) & 1 != 0)
      }

      #[doc = \"Returns bits from the bitfield.\"]
      #visibility_tokens #function_modifier_tokens fn get_bits_range(&self, offset: u32, length: u32) -> #bitfield_data_type_tokens {
          let this = self;
          #check_offset_bitfield_range_return_zero_tokens
          #check_offset_and_length_bitfield_range_return_zero_tokens
          let mask = #bitfield_data_type_tokens::MAX >> (#bitfield_data_type_tokens::BITS - length);
          #protected_mask
          let shifted_protected_mask = (protected_mask >> offset) & mask;
          let readable_mask = mask & !shifted_protected_mask;
          ((#bitfield_internal_value_ident_tokens >> offset) & mask) & readable_mask
      }

      #[doc = \"Returns bits from the bitfield starting from the \
               offset to the length. Returns an error if the offset \
               and length is outside the bitfield range or if any \
               bit in the range is non-readable.\"]
      #visibility_tokens #function_modifier_tokens fn checked_get_bits_range(&self, offset: u32, length: u32) -> ::core::result::Result<#bitfield_data_type_tokens, &'static str> {
          let this = self;
          #check_offset_bitfield_range_error_tokens
          #check_offset_and_length_bitfield_range_error_tokens
          let mask = #bitfield_data_type_tokens::MAX >> (#bitfield_data_type_tokens::BITS - length);
          #protected_mask
          let range_mask = mask << offset;
          if range_mask & protected_mask != 0 {
              return Err(\"Attempted to read from non-readable bit(s).\");
          }
          Ok((#bitfield_internal_value_ident_tokens >> offset) & mask)
      }"
  | .arr _ =>
    quote! "#[doc = \"Returns a bit from the bitfield.\"]
      #visibility_tokens #function_modifier_tokens fn get_bit(&self, offset: u32) -> bool {
          let this = self;
          #check_offset_bitfield_range_tokens
          #field_bit_write_guard_return_false
          let byte_idx = offset / 8;
          let bit_in_byte = offset % 8;
          (#bitfield_internal_value_ident_tokens[byte_idx as usize] >> bit_in_byte) & 1 != 0
      }

      #[doc = \"Returns a bit from the bitfield. Returns an error if \
               the offset is outside the bitfield range.\"]
      #visibility_tokens #function_modifier_tokens fn checked_get_bit(&self, offset: u32) -> ::core::result::Result<bool, &'static str> {
          let this = self;
          #check_offset_bitfield_range_error_tokens
          #field_bit_read_guard_error
          let byte_idx = offset / 8;
          let bit_in_byte = offset % 8;
          Ok((#bitfield_internal_value_ident_tokens[byte_idx as usize] >> bit_in_byte) & 1 != 0)
      }

      #[doc = \"Returns bytes from the bitfield.\"]
      #visibility_tokens #function_modifier_tokens fn get_bytes_range(&self, offset: u32, length: u32) -> #bitfield_data_type_tokens {
          let this = self;
          #check_offset_bitfield_range_return_zero_tokens
          #check_offset_and_length_bitfield_range_return_zero_tokens
          #protected_mask
          let mut res: #bitfield_data_type_tokens = [0; #array_len];
          let mut i = 0u32;
          while i < length {
              let src_bit = offset + i;
              let src_byte = (src_bit / 8) as usize;
              let src_bit_in_byte = src_bit % 8;
              let is_protected = (protected_mask[src_byte] >> src_bit_in_byte) & 1 != 0;
              if !is_protected {
                  let bit_val = (#bitfield_internal_value_ident_tokens[src_byte] >> src_bit_in_byte) & 1;
                  let dst_byte = (i / 8) as usize;
                  let dst_bit_in_byte = i % 8;
                  res[dst_byte] |= bit_val << dst_bit_in_byte;
              }
              i += 1;
          }
          res
      }

      #[doc = \"Returns bytes from the bitfield starting from the \
               offset to the length. Returns an error if the offset \
               and length is outside the bitfield range or if any \
               bit in the range is non-readable.\"]
      #visibility_tokens #function_modifier_tokens fn checked_get_bytes_range(&self, offset: u32, length: u32) -> ::core::result::Result<#bitfield_data_type_tokens, &'static str> {
          let this = self;
          #check_offset_bitfield_range_error_tokens
          #check_offset_and_length_bitfield_range_error_tokens
          #protected_mask
          let mut i = 0u32;
          while i < length {
              let src_bit = offset + i;
              let src_byte = (src_bit / 8) as usize;
              let src_bit_in_byte = src_bit % 8;
              let is_protected = (protected_mask[src_byte] >> src_bit_in_byte) & 1 != 0;
              if is_protected {
                  return Err(\"Attempted to read from non-readable bit(s).\");
              }
              i += 1;
          }
          let mut res: #bitfield_data_type_tokens = [0; #array_len];
          let mut i = 0u32;
          while i < length {
              let src_bit = offset + i;
              let src_byte = (src_bit / 8) as usize;
              let src_bit_in_byte = src_bit % 8;
              let bit_val = (#bitfield_internal_value_ident_tokens[src_byte] >> src_bit_in_byte) & 1;
              let dst_byte = (i / 8) as usize;
              let dst_bit_in_byte = i % 8;
              res[dst_byte] |= bit_val << dst_bit_in_byte;
              i += 1;
          }
          Ok(res)
      }"

/-- `generate_set_get_bit_ops_feature_tokens`, features/set_get_bit_ops_feature.rs:48-56 -/
def setGetTokens (P : Printer) : List Tok :=
  let set_bit_ops_tokens := setOpsTokens P
  let get_bit_ops_tokens := getOpsTokens P
  quote! "#set_bit_ops_tokens
      #get_bit_ops_tokens"

/-! ## The rest -/

/-- `generate_debug_set_field_tokens`, features/debug_trait_feature.rs:50-72 -/
def debugFieldTokens (P : Printer) : List Tok :=
  joined (P.B.fields.map fun f =>
    let field_name := Tok.str f.name
    let extract_field_bits_from_bitfield_into_variable := extractTokens P f .bitfield false false false
    quote! "#extract_field_bits_from_bitfield_into_variable
      debug.field(#field_name, &value);")

/-- `generate_default_trait_feature_tokens`, features/debug_trait_feature.rs:33-48 -/
def debugTokens (P : Printer) : List Tok :=
  let bitfield_name_tokens := Tok.ident P.name
  let bitfield_name := Tok.str P.name
  let set_debug_fields := debugFieldTokens P
  quote! "impl core::fmt::Debug for #bitfield_name_tokens {
          fn fmt(&self, f: &mut core::fmt::Formatter<'_>) -> core::fmt::Result {
              let this = self;
              let mut debug = f.debug_struct(#bitfield_name);
              #set_debug_fields
              debug.finish()
          }
      }"

/-- `get_default_attributes`, features/bitfield_struct_feature.rs:69-97 -/
def defaultAttrTokens (P : Printer) : List (List Tok) :=
  (if !P.ignored.isEmpty then [quote! "#[repr(C)]"]
   else [quote! "#[repr(transparent)]"]) ++
  if P.args.copy then
    let is_heap_array := P.args.arrayHeap && (match P.B.backing with | .int _ => false | .arr _ => true)
    if is_heap_array then [quote! "#[derive(core::clone::Clone)]"]
    else [quote! "#[derive(std::marker::Copy, core::clone::Clone)]"]
  else []

/-- `get_backing_field_type_tokens`, features/bitfield_struct_feature.rs:106-114 -/
def storageTokens (P : Printer) : List Tok :=
  let inner := backTokens P.B.backing
  if P.args.arrayHeap && (match P.B.backing with | .int _ => false | .arr _ => true) then quote! "::std::boxed::Box<#inner>"
  else inner

/-- `generate_ignored_fields_struct_field_definition`, features/bitfield_struct_feature.rs:176-192 -/
def memberTokens (P : Printer) : List (List Tok) :=
  P.ignored.map fun field =>
    let visibility_tokens := Tok.vis field.2.2
    let field_name_tokens := Tok.ident field.1
    let field_type_tokens := typeTokens field.2.1
    quote! "#visibility_tokens #field_name_tokens: #field_type_tokens"

/-- `generate_bitfield_struct_feature_tokens`, features/bitfield_struct_feature.rs:44-67, 116-172 -/
def structTokens (P : Printer) : List Tok :=
  let attributes := defaultAttrTokens P ++ P.attrs.map fun a => [Tok.attr a]
  let STRUCT_DOCUMENTATION := Tok.str "Represents a bitfield."
  let bitfield_name_tokens := Tok.ident P.name
  let backing_field_type_tokens := storageTokens P
  let visibility_tokens := Tok.vis P.vis
  if !P.ignored.isEmpty then
    let ignored_fields_field_definitions_tokens := memberTokens P
    quote! "#( #attributes )*
      #[doc = #STRUCT_DOCUMENTATION]
      #visibility_tokens struct #bitfield_name_tokens {
          val: #backing_field_type_tokens,
          #( #ignored_fields_field_definitions_tokens, )*
       }"
  else
    quote! "#( #attributes )*
      #[doc = #STRUCT_DOCUMENTATION]
      #visibility_tokens struct #bitfield_name_tokens(#backing_field_type_tokens);"

/-- `generate_feature` of each feature -/
def featureTokens (P : Printer) : Feature → List Tok
  | .struct => structTokens P
  | .constants => constantsTokens P
  | .new => newFnsTokens P
  | .setters => settersTokens P
  | .getters => gettersTokens P
  | .fromTraits => traitsTokens P
  | .debug => debugTokens P
  | .fromIntoBits => fromIntoTokens P
  | .builder => builderTokens P
  | .default => defaultTokens P
  | .writeBitOps => writeTokens P
  | .setGetBitOps => setGetTokens P
  | .clearBitOps => clearTokens P
  | .invertBitOps => invertTokens P

/-- `generate_features_helper`, generating/bitfield/bitfield_generator.rs:72-82 -/
def sectionTokens (P : Printer) (pos : Position) : List (List Tok) :=
  ((enabledFeatures P.args).filter fun f => decide (f.position = pos)).map (featureTokens P)

/-- `do_generate_bitfield`, generating/bitfield/bitfield_generator.rs:84-103 -/
def expansionTokens (P : Printer) : List Tok :=
  let bitfield_name_tokens := Tok.ident P.name
  let features_above_impl_block := sectionTokens P .above
  let features_inside_impl_block := sectionTokens P .inside
  let features_below_impl_block := sectionTokens P .below
  quote! "#( #features_above_impl_block )*
         #[allow(clippy::manual_swap)]
         impl #bitfield_name_tokens {
             #( #features_inside_impl_block )*
         }
         #( #features_below_impl_block )*"

end Bf.Text
