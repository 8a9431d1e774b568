import Verif.Spec.GrowthCount
import Mathlib.Data.Set.Card
import Mathlib.Algebra.BigOperators.Fin
/-
What C175 says: on a rectangular grid, cells of a phase in a background grow to the cells near them.
-/
set_option autoImplicit false

namespace Pyl
namespace Spec
open SimState
variable {K : Type} [Field K] [LinearOrder K] [FloorRing K] {d : ℕ}

/-- The cells of `X` hold the phase `p`, all other cells the background. -/
def TwoPhases (S : Structure K d) (s : SimState) (X : Set (Fin d → ℤ)) (p bg : Val) : Prop :=
  ∀ i c, SiteHas S i c → (c ∈ X → occ? s (.int i) = some p) ∧ (c ∉ X → occ? s (.int i) = some bg)

/-- How many cells of the grid of sizes `N` lie within Chebyshev distance `k` of a cell of `X`. -/
noncomputable def nearSquare (N : Fin d → ℤ) (X : Set (Fin d → ℤ)) (k : ℕ) : ℕ := Set.ncard {c | InBox N c ∧ ∃ x ∈ X, ChebyshevLE N c x k}

/-- How many lie within Manhattan distance `k`. -/
noncomputable def nearDiamond (N : Fin d → ℤ) (X : Set (Fin d → ℤ)) (k : ℕ) : ℕ := Set.ncard {c | InBox N c ∧ ∃ x ∈ X, torusManhattan N c x ≤ k}

/-- How many cells the grid has. -/
def gridSize (N : Fin d → ℤ) : ℕ := ∏ j, (N j).toNat

end Spec
end Pyl
