import Verif.Model.Expand

/-!
# Where items belong, and what visibilities mean
-/

namespace Bf

/-- The item is a function or constant of the bitfield, so that it has to be in its `impl` block. -/
def Tag.OfImpl : Tag → Prop
  | .fn _ => True
  | .acc .builderWith _ => False
  | .acc .builderCheckedWith _ => False
  | .acc _ _ => True
  | _ => False

/-- All items, in the order in which they are printed. -/
def Expansion.items (E : Expansion) : List Item := E.above ++ E.inside ++ E.below

/-- Where something can be used: everywhere, or in a module (given by its path from the crate root) and those in it. -/
inductive Scope where
  | everywhere
  | within (mod : List String)
deriving DecidableEq, Repr

/-- The module that a path leads to, seen from a module; without `crate`, `self` or `super` in front it is none that could be
named in a visibility. -/
def resolve (here : List String) : List String → Option (List String)
  | "crate" :: path => some path
  | "self" :: path => some (here ++ path)
  | "super" :: path => supers here path
  | _ => none
where
  /-- behind `super` -/
  supers (here : List String) : List String → Option (List String)
    | "super" :: path => if here = [] then none else supers here.dropLast path
    | path => if here = [] then none else some (here.dropLast ++ path)

/-- What a visibility means in a module, in the Rust editions since 2018. `none` if the compiler rejects it: without `in`
only `crate`, `self` and `super` may be written, and a module has to contain the item. -/
def SynVis.scope (here : List String) : SynVis → Option Scope
  | .inherited => some (.within here)
  | .pub => some .everywhere
  | .restricted inToken path =>
      if inToken = false ∧ path ∉ [["crate"], ["self"], ["super"]] then none
      else match resolve here path with
        | some m => if m <+: here then some (.within m) else none
        | none => none

end Bf
