import Verif.Model.Quote
import Verif.Model.Bitflag

/-!
# The paths in the generated code

A path is written with its segments, without a leading `::`. Names of the prelude that are written without a path
(`Ok`, `Err`, `Default`, the primitive types) are left out: the preludes of `core` and `std` both have them. Paths in
attributes, types and default expressions that the user wrote are the user's, and are left out too.
-/

namespace Bf.Quote

open Rust

abbrev Path := List String

/-- `::std::boxed::Box::new`, features/common/generator_helper.rs:60 -/
def boxNewPath : Path := ["std", "boxed", "Box", "new"]

mutual

/-- The paths in an expression: only `Box::new` is one. -/
def exprPaths : Expr → List Path
  | .boxNew e => boxNewPath :: exprPaths e
  | .method _ _ e => exprPaths e
  | .not e | .neg e | .cast e _ | .castInfer e | .fromBits _ e | .intoBits e | .swapBytes e | .len e | .okE e | .deref e
  | .contains _ _ e => exprPaths e
  | .bin _ a b | .orElse a b | .andAlso a b | .index a b => exprPaths a ++ exprPaths b
  | .ite c a b => exprPaths c ++ exprPaths a ++ exprPaths b
  | .block s e => stmtPaths s ++ exprPaths e
  | .var _ | .inner _ | .whole _ | .lit _ _ | .bool _ | .user _ _ _ | .const _ _ _ | .maxOf _ | .bitsOf _ | .zeros _ | .bytes _
  | .assoc _ _ | .unit | .errE _ => []

/-- The paths in a statement. -/
def stmtPaths : Stmt → List Path
  | .skip | .letThis | .moveThis _ => []
  | .seq a b => stmtPaths a ++ stmtPaths b
  | .letS _ _ e _ | .initThis _ e _ | .assign _ _ e | .assignInner _ _ e | .expr e | .ret e | .tryS e | .debugField _ e =>
      exprPaths e
  | .assignElem _ i _ e | .assignInnerElem _ i _ e => exprPaths i ++ exprPaths e
  | .ite c a b => exprPaths c ++ stmtPaths a ++ stmtPaths b
  | .loop c s => exprPaths c ++ stmtPaths s
  | .scope s => stmtPaths s

end

/-- The paths in a type: `::core::result::Result`, features/field_setters_feature.rs:80, features/builder_feature.rs:174,
features/set_get_bit_ops_feature.rs:112, 144, 178, 225, 317, 340, 367, 404,
features/from_into_bits_feature.rs:387, 399, 435, 447, 483, 495, 670, 690, 710 -/
def typePaths : Ty → List Path
  | .result t => ["core", "result", "Result"] :: typePaths t
  | _ => []

/-- The paths in the head of the implementation of a trait, and in the head of the function in it:
features/debug_trait_feature.rs:39-40, features/default_trait_feature.rs:39, features/from_traits_feature.rs:72, 92,
features/builder_feature.rs:64 -/
def headPaths : Tag → List Path
  | .impl .debug => [["core", "fmt", "Debug"], ["core", "fmt", "Formatter"], ["core", "fmt", "Result"]]
  | .impl .default => [["core", "default", "Default"]]
  | .impl .fromBacking | .impl .intoBacking => [["core", "convert", "From"]]
  | _ => []

/-- The paths in a function. -/
def fnPaths (f : Fn) : List Path :=
  f.params.flatMap (fun x => typePaths x.2) ++ typePaths f.ret ++ stmtPaths f.body ++ exprPaths f.tail

/-- The paths in the definition of the struct: `get_default_attributes`, `get_backing_field_type_tokens`,
features/bitfield_struct_feature.rs:69-97, 107-114 -/
def structPaths (p : Parsed) : List Path :=
  (if p.args.copy then
    if p.args.arrayHeap && !p.intBacked then [["core", "clone", "Clone"]]
    else [["std", "marker", "Copy"], ["core", "clone", "Clone"]]
  else []) ++
  if p.args.arrayHeap && !p.intBacked then [["std", "boxed", "Box"]] else []

/-- The paths in the code generated for a struct. -/
def bitfieldPaths (p : Parsed) : List Path :=
  structPaths p ++ (program p).fns.flatMap fun x => headPaths x.1 ++ fnPaths x.2

/-- The paths in the code generated for an enum: `generate_copy_derive_tokens`,
generating/bitflag/bitflag_generator.rs:40-48 -/
def flagPaths (c : FlagCode) : List Path :=
  if c.copy then [["std", "marker", "Copy"], ["core", "clone", "Clone"]] else []

end Bf.Quote
