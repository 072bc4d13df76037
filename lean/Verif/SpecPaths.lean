import Verif.Model.Paths

/-!
# What a path needs
-/

namespace Bf.Quote

/-- The path can be resolved in a crate with `#![no_std]`: it starts at `core`. -/
def Path.InCore (q : Path) : Prop := q.head? = some "core"

/-- The path names something that allocates. -/
def Path.Allocates (q : Path) : Prop := q.take 2 = ["std", "boxed"] ∨ q.head? = some "alloc"

/-- Items of the standard library. -/
def libraryPaths : List Path := [
  ["core", "result", "Result"], ["core", "fmt", "Debug"], ["core", "fmt", "Formatter"], ["core", "fmt", "Result"],
  ["core", "default", "Default"], ["core", "convert", "From"], ["core", "clone", "Clone"], ["std", "marker", "Copy"],
  ["std", "boxed", "Box"], ["std", "boxed", "Box", "new"]]

instance (q : Path) : Decidable q.InCore := inferInstanceAs (Decidable (_ = _))
instance (q : Path) : Decidable q.Allocates := inferInstanceAs (Decidable (_ ∨ _))

end Bf.Quote
