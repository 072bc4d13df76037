import Verif.Model.Surface

/-!
# Documentation comments of the items of a field
-/

namespace Bf

/-- `get_field_unit_terms`, features/common/generator_helper.rs:818-825 -/
def Field.units (f : Field) : String × String :=
  match f.ty with
  | .array _ => ("byte", "bytes")
  | _ => ("bit", "bits")

/-- `documentation_bits_start`, `documentation_bits_end`: features/common/generator_helper.rs:850-857,
features/field_getters_feature.rs:130-137, features/clear_bit_ops_feature.rs:137-144, features/invert_bit_ops_feature.rs:229-236.
The sum does not overflow for a field of an accepted struct. -/
def Field.docSpan (o : Order) (f : Field) : Nat × Nat :=
  let last := f.offset + f.bits - 1
  if o = .msb then (last, f.offset) else (f.offset, last)

/-- `get_setter_documentation`, features/common/generator_helper.rs:828-869 -/
def Field.setterDoc (o : Order) (f : Field) (checked builder : Bool) : String :=
  let pre := if builder then "builder" else ""
  let error := ". Returns an error if the value is too big to fit within the field "
  if f.bits = 1 then
    "Sets " ++ pre ++ " " ++ f.units.1 ++ " `" ++ toString f.offset ++ "`" ++
      (if checked && !f.ty.isBool then error ++ f.units.1 else "") ++ "."
  else
    "Sets " ++ pre ++ " " ++ f.units.2 ++ " `" ++ toString (f.docSpan o).1 ++ "..=" ++ toString (f.docSpan o).2 ++ "`" ++
      (if checked then error ++ f.units.2 else "") ++ "."

/-- `get_getter_documentation`, features/field_getters_feature.rs:118-148 -/
def Field.getterDoc (o : Order) (f : Field) : String :=
  if f.bits = 1 then
    if f.ty.unsigned then "Returns " ++ f.units.1 ++ " `" ++ toString f.offset ++ "`."
    else "Returns sign-extended " ++ f.units.1 ++ " `" ++ toString f.offset ++ "`."
  else if f.ty.unsigned then
    "Returns " ++ f.units.2 ++ " `" ++ toString (f.docSpan o).1 ++ "..=" ++ toString (f.docSpan o).2 ++ "`."
  else
    "Returns sign-extended " ++ f.units.2 ++ " `" ++ toString (f.docSpan o).1 ++ "..=" ++ toString (f.docSpan o).2 ++
      "`, from the sign-" ++ f.units.1 ++ " `" ++ toString f.offset ++ "."

/-- `get_clear_field_documentation`, features/clear_bit_ops_feature.rs:129-147 and
`get_invert_field_documentation`, features/invert_bit_ops_feature.rs:221-239, which differ in the verb -/
def Field.changeDoc (verb : String) (o : Order) (f : Field) : String :=
  if f.bits = 1 then verb ++ " " ++ f.units.1 ++ " `" ++ toString f.offset ++ "`."
  else verb ++ " " ++ f.units.2 ++ " `" ++ toString (f.docSpan o).1 ++ "..=" ++ toString (f.docSpan o).2 ++ "`."

/-- The comment of each item of a field: features/field_constants_feature.rs:56-60, features/field_setters_feature.rs:53-58,
features/field_getters_feature.rs:44, features/clear_bit_ops_feature.rs:95, 115, features/invert_bit_ops_feature.rs:122, 158,
features/builder_feature.rs:159-164 -/
def Accessor.doc (o : Order) (f : Field) : Accessor → String
  | .bitsConst => "The number of " ++ f.units.2 ++ " `" ++ f.name ++ "` occupies in the bitfield."
  | .offsetConst => "The " ++ f.units.1 ++ " offset of `" ++ f.name ++ "` in the bitfield."
  | .get => f.getterDoc o
  | .set => f.setterDoc o false false
  | .checkedSet => f.setterDoc o true false
  | .clear => f.changeDoc "Clears" o
  | .clearToDefault => f.changeDoc "Clears" o
  | .invert => f.changeDoc "Inverts" o
  | .inverted => f.changeDoc "Inverts" o
  | .builderWith => f.setterDoc o false true
  | .builderCheckedWith => f.setterDoc o true true

/-- The comments of all items of fields. -/
def Parsed.docs (p : Parsed) : List (Item × String) :=
  p.fields.flatMap fun f => ((surface p).filter fun i => match i.tag with
    | .acc _ x => x = f.field.name && !f.field.reserved
    | _ => false).map fun i => (i, match i.tag with
      | .acc a _ => a.doc p.args.order f.field
      | _ => "")

end Bf
