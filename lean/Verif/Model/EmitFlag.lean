import Verif.Model.Emit
import Verif.Model.Bitflag

/-!
# The tokens printed for a bitflag enum

Every template of generating/bitflag/bitflag_generator.rs, word for word. Paths are relative to
`/repo/bitfields_impl/src`.
-/

namespace Bf.Text

/-- What the printer reads from `Bitflag`, parsing/bitflags/bitflag.rs:10-32, 61-80: what `Model/Bitflag.lean` keeps, the
name of the enum, its attributes, and the tokens of the value of the variant with a name. -/
structure FlagPrinter where
  F : Bitflag
  name : String
  attrs : List String
  value : String → List Tok

/-- `generate_bits_variable_endian_conversion_tokens`, generating/common/endian_conversion.rs:8-19 -/
def flagConvTokens (e : Endian) : List Tok :=
  match e with
  | .little => quote! "let bits = bits.swap_bytes();"
  | .big => []

/-- `generate_repr_tokens`, generating/bitflag/bitflag_generator.rs:33-38 -/
def reprTokens (P : FlagPrinter) : List Tok :=
  let data_type_tokens := typeTokens P.F.ty
  quote! "#[repr(#data_type_tokens)]"

/-- `generate_copy_derive_tokens`, generating/bitflag/bitflag_generator.rs:40-48 -/
def flagCopyTokens (P : FlagPrinter) : List Tok :=
  if P.F.args.copy then quote! "#[derive(std::marker::Copy, core::clone::Clone)]"
  else []

/-- `generate_variants_tokens_helper`, generating/bitflag/bitflag_generator.rs:54-63 -/
def variantTokens (P : FlagPrinter) (v : FlagVariant) : List Tok :=
  let name_tokens := Tok.ident v.name
  let value_expr_tokens := P.value v.name
  let user_attributes_tokens := v.attrs.map fun a => [Tok.attr a]
  quote! "#( #user_attributes_tokens )*
        #name_tokens = #value_expr_tokens"

/-- `generate_match_cases_tokens_list`, generating/bitflag/bitflag_generator.rs:83-112 -/
def casesTokens (P : FlagPrinter) : Bf.P (List (List Tok)) :=
  let match_cases := (P.F.variants.filter fun v => !v.base).map fun v =>
    let const_expr := P.value v.name
    let name_tokens := Tok.ident v.name
    quote! "#const_expr => Self::#name_tokens"
  match (P.F.variants.find? FlagVariant.base).or (P.F.variants.find? FlagVariant.default) with
  | some w =>
    let name_tokens := Tok.ident w.name
    .ok (match_cases ++ [quote! "_ => Self::#name_tokens"])
  | none => .error (.panic .unreachable)

/-- `generate_from_bits_tokens`, generating/bitflag/bitflag_generator.rs:65-81 -/
def flagFromTokens (P : FlagPrinter) : Bf.P (List Tok) := do
  let visibility_tokens := Tok.vis P.F.vis
  let bitflag_data_type_tokens := typeTokens P.F.ty
  let bits_variable_endian_conversion_tokens := flagConvTokens P.F.args.fromEndian
  let cases_tokens_list ← casesTokens P
  return quote! "#[doc = \"Creates a new bitflag instance from the given bits.\"]
        #visibility_tokens const fn from_bits(bits: #bitflag_data_type_tokens) -> Self {
            #bits_variable_endian_conversion_tokens
            match bits {
                #( #cases_tokens_list, )*
            }
        }"

/-- `generate_into_bits_tokens`, generating/bitflag/bitflag_generator.rs:114-128 -/
def flagIntoTokens (P : FlagPrinter) : List Tok :=
  let visibility_tokens := Tok.vis P.F.vis
  let bitflag_data_type_tokens := typeTokens P.F.ty
  let bits_variable_endian_conversion_tokens := flagConvTokens P.F.args.intoEndian
  quote! "#[doc = \"Returns the bits of the bitflag.\"]
        #visibility_tokens const fn into_bits(self) -> #bitflag_data_type_tokens {
            let bits = self as #bitflag_data_type_tokens;
            #bits_variable_endian_conversion_tokens
            bits
        }"

/-- `generate_bitflag`, generating/bitflag/bitflag_generator.rs:8-31, 50-52 -/
def flagTokens (P : FlagPrinter) : Bf.P (List Tok) := do
  let user_attributes_tokens := P.attrs.map fun a => [Tok.attr a]
  let variants_tokens_list := P.F.variants.map (variantTokens P)
  let visibility := Tok.vis P.F.vis
  let name_tokens := Tok.ident P.name
  let from_bits_tokens ← flagFromTokens P
  let into_bits_tokens := flagIntoTokens P
  let repr_tokens := reprTokens P
  let copy_derive_tokens := flagCopyTokens P
  return quote! "#repr_tokens
        #copy_derive_tokens
        #( #user_attributes_tokens )*
        #visibility enum #name_tokens {
            #( #variants_tokens_list, )*
        }

        impl #name_tokens {
            #from_bits_tokens
            #into_bits_tokens
        }"

end Bf.Text
