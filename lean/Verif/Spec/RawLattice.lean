import Verif.Model.RawLattice
import Verif.Spec.Lattice
/-
What it means that the code, called with lists of numbers of any length, computes in the `d`-dimensional space of a lattice.
-/
set_option autoImplicit false

namespace Pyl.Spec

variable {K : Type} [Field K] [LinearOrder K] [FloorRing K] {d : ℕ}

/-- The object `R` computes what the `d`-dimensional lattice `L` says: on lists of `d` numbers every method returns the value of
`L`; on lists of another length it raises ValueError; if the vectors of `L` are dependent, every method that needs fractional
coordinates raises LinAlgError. -/
structure Computes (R : RawLattice K) (L : Lattice K d) : Prop where
  cart : ∀ f : Fin d → K, R.toCart (List.ofFn f) = .ok (List.ofFn (L.toCart f))
  cart_other : ∀ f : List K, f.length ≠ d → R.toCart f = .error .valueError
  frac : L.Regular → ∀ x : Fin d → K, R.toFrac (List.ofFn x) = .ok (List.ofFn (L.toFrac x))
  frac_other : L.Regular → ∀ x : List K, x.length ≠ d → R.toFrac x = .error .valueError
  periodized : L.Regular → ∀ x : Fin d → K, R.periodized (List.ofFn x) = .ok (List.ofFn (L.periodized x))
  periodized_other : L.Regular → ∀ x : List K, x.length ≠ d → R.periodized x = .error .valueError
  dist : L.Regular → ∀ a b : Fin d → K, R.dist (List.ofFn a) (List.ofFn b) = .ok (L.dist a b)
  dist_other : L.Regular → ∀ a b : List K, a.length ≠ d ∨ b.length ≠ d → R.dist a b = .error .valueError
  dependent : ¬ L.Regular → ∀ x y : List K,
    R.toFrac x = .error .linAlgError ∧ R.periodized x = .error .linAlgError ∧ R.dist x y = .error .linAlgError

end Pyl.Spec
