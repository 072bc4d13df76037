import Verif.SpecSurface

/-!
# When two argument lists say the same
-/

namespace Bf

/-- What an argument is about. -/
inductive ArgKey where
  | flag (k : Flag)
  | order
  | endian (k : EndianKey)
deriving DecidableEq, Repr

def BitfieldArgSpec.key : BitfieldArgSpec → ArgKey
  | .flag k _ => .flag k
  | .order _ => .order
  | .endian k _ => .endian k

/-- The last argument about `k`. -/
def lastAbout (k : ArgKey) (as : List BitfieldArgSpec) : Option BitfieldArgSpec :=
  as.reverse.find? fun a => a.key = k

/-- The lists have the same last argument about each of the keys in `K`, or both have none. -/
def SameAbout (K : ArgKey → Prop) (as as' : List BitfieldArgSpec) : Prop :=
  ∀ k, K k → lastAbout k as' = lastAbout k as

/-- The argument changes what a generated function does, and not only which functions are generated and how the
value is stored. -/
def ArgKey.Behaviour : ArgKey → Prop
  | .flag _ => False
  | .order => True
  | .endian _ => True

end Bf
