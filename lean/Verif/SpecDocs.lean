import Verif.Model.Surface
import Verif.SpecRun

/-!
# How documentation names bits
-/

namespace Bf

/-- The bits from `first` on, `width` many, in words: one bit, or the first and the last one; the last one first if fields are
laid out from the most significant bit on. -/
def bitsInWords (order : Order) (first width : Nat) : String :=
  if width = 1 then "bit `" ++ toString first ++ "`"
  else match order with
    | .lsb => "bits `" ++ toString first ++ "..=" ++ toString (first + width - 1) ++ "`"
    | .msb => "bits `" ++ toString (first + width - 1) ++ "..=" ++ toString first ++ "`"

/-- What the function does. -/
def Accessor.verb : Accessor → String
  | .get => "Returns"
  | .set | .checkedSet | .builderWith | .builderCheckedWith => "Sets"
  | .clear | .clearToDefault => "Clears"
  | .invert | .inverted => "Inverts"
  | .bitsConst | .offsetConst => "The"

/-- Whether the type is a signed integer. -/
def TypeSpec.signed : TypeSpec → Bool
  | .int t => decide (t ∈ [.i8, .i16, .i32, .i64, .i128])
  | _ => false

/-- Whether the type is `bool`. -/
def TypeSpec.isBool : TypeSpec → Bool
  | .int .bool => true
  | _ => false

/-- The comment of a function for a field. A checked function says when it returns an error, unless the type is `bool`,
of which all values fit. -/
def Accessor.comment (order : Order) (a : Accessor) (t : TypeSpec) (first width : Nat) : String :=
  let bits := bitsInWords order first width
  let error := if t.isBool then "." else
    ". Returns an error if the value is too big to fit within the field " ++ (if width = 1 then "bit." else "bits.")
  match a with
  | .get =>
    if t.signed then
      "Returns sign-extended " ++ bits ++ (if width = 1 then "." else ", from the sign-bit `" ++ toString first ++ ".")
    else "Returns " ++ bits ++ "."
  | .set => "Sets  " ++ bits ++ "."
  | .checkedSet => "Sets  " ++ bits ++ error
  | .builderWith => "Sets builder " ++ bits ++ "."
  | .builderCheckedWith => "Sets builder " ++ bits ++ error
  | .clear | .clearToDefault => "Clears " ++ bits ++ "."
  | .invert | .inverted => "Inverts " ++ bits ++ "."
  | .bitsConst | .offsetConst => ""

end Bf
