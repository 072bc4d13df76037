import Verif.Model.Cargo

/-!
# How Cargo chooses features

From the Cargo book ("Features", "Feature unification"): a package is built with the union of all features that are asked of
it. Not repo code.
-/

namespace Bf.Cargo

/-- A dependency that some crate of the user writes in its own manifest. -/
abbrev Request := Dependency

/-- The package is part of the build. -/
inductive Built (packages : List Manifest) (requests : List Request) : String → Prop
  | request {r : Request} : r ∈ requests → Built packages requests r.package
  | dependency {M : Manifest} {d : Dependency} : M ∈ packages → Built packages requests M.name → d ∈ M.dependencies →
      Built packages requests d.package

/-- The package is built with the feature. -/
inductive Active (packages : List Manifest) (requests : List Request) : String → String → Prop
  | request {r : Request} {f : String} : r ∈ requests → f ∈ r.features → Active packages requests r.package f
  | requestDefault {r : Request} : r ∈ requests → r.defaultFeatures = true → Active packages requests r.package "default"
  | dependency {M : Manifest} {d : Dependency} {f : String} : M ∈ packages → Built packages requests M.name →
      d ∈ M.dependencies → f ∈ d.features → Active packages requests d.package f
  | dependencyDefault {M : Manifest} {d : Dependency} : M ∈ packages → Built packages requests M.name →
      d ∈ M.dependencies → d.defaultFeatures = true → Active packages requests d.package "default"
  | own {M : Manifest} {g f : String} {refs : List FeatureRef} : M ∈ packages → Active packages requests M.name g →
      (g, refs) ∈ M.features → .own f ∈ refs → Active packages requests M.name f
  | dep {M : Manifest} {g p f : String} {refs : List FeatureRef} : M ∈ packages → Active packages requests M.name g →
      (g, refs) ∈ M.features → .dep p f ∈ refs → Active packages requests p f

/-- `cfg` tells the macro its features, in a build where the user's crates have the dependencies `requests`. -/
def Configures (requests : List Request) (cfg : String → Bool) : Prop :=
  ∀ f, cfg f = true ↔ Active [bitfieldsManifest, implManifest] requests "bitfields-impl" f

/-- Some crate asks for the default features of the macro: it depends on `bitfields`, or on `bitfields-impl` without switching
the default features off. -/
def WithDefaults (requests : List Request) : Prop :=
  ∃ r ∈ requests, r.package = "bitfields" ∨
    (r.package = "bitfields-impl" ∧ (r.defaultFeatures = true ∨ "default" ∈ r.features))

/-- Some crate asks for the feature `f` of the macro. -/
def Asked (requests : List Request) (f : String) : Prop :=
  ∃ r ∈ requests, r.package = "bitfields-impl" ∧ f ∈ r.features

end Bf.Cargo
