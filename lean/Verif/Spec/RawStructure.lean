import Verif.Spec.RawLattice
/-
What it means that a structure whose locations are lists of numbers is a `d`-dimensional structure.
-/
set_option autoImplicit false

namespace Pyl.Spec

variable {K : Type} [Field K] [LinearOrder K] [FloorRing K] {d : ℕ}

/-- `s` has the lattice, the sites, the ids and the locations of `S`, every location written as a list of `d` numbers. -/
structure Mirrors (s : RawStructure K) (S : Structure K d) : Prop where
  lattice : Computes s.lattice S.lattice
  dim : s.lattice.dim = d
  sites : s.sites = S.sites.map fun p => (p.1, ⟨p.2.cls, List.ofFn p.2.loc, p.2.id⟩)
  ids : s.siteIds = S.siteIds
  lookup : s.lookup = S.lookup.map fun p => (List.ofFn p.1, p.2)

/-- Both calls return, and what they return agrees, or both raise the same exception. -/
def AgreeOutcome (r : Py (RawStructure K)) (r' : Py (Structure K d)) : Prop :=
  (∃ s S, r = .ok s ∧ r' = .ok S ∧ Mirrors s S) ∨ ∃ e, r = .error e ∧ r' = .error e

/-- The list of numbers `l` stands for the vector `v`: its entries, or one number that is every entry. -/
def Stands (l : List K) (v : Fin d → K) : Prop := l = List.ofFn v ∨ ∃ x, l = [x] ∧ v = fun _ => x

end Pyl.Spec
