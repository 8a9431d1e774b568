import Verif.Spec.Honeycomb
import Verif.Spec.GrowthCount
import Mathlib.Algebra.Order.Group.Abs
/-
Specification vocabulary for growth on the honeycomb tiling (C156).
-/
set_option autoImplicit false

namespace Pyl
namespace Spec
variable {K : Type} [Field K] [LinearOrder K] [FloorRing K]

/-- How many hexagons one has to cross to get from a hexagon to the one `v 0` columns and `v 1` rows further (rows are slanted, so the step
`(1, -1)` is a step to a neighbour and `(1, 1)` is not). -/
def hexLength (v : Fin 2 → ℤ) : ℤ := max |v 0| (max |v 1| |v 0 + v 1|)

/-- The hexagons `a` and `b` of the tiling with `n 0` columns and `n 1` rows, which is closed in both directions, are at most `k` hexagons apart. -/
def HexWithin (n a b : Fin 2 → ℤ) (k : ℕ) : Prop := ∃ v : Fin 2 → ℤ, (∀ j, n j ∣ b j - a j - v j) ∧ hexLength v ≤ k

/-- At every step `k ≤ m` of the result, the sites without the background phase are exactly those at most `k` hexagons away from a site that did not
have it in the start state `s0`.  `At a i` says that the site of the hexagon `a` is `i`. -/
def HexFront (At : (Fin 2 → ℤ) → ℕ → Prop) (n : Fin 2 → ℤ) (s0 : SimState) (bg : Val) (res : SimResult) (m : ℕ) : Prop :=
  ∀ k : ℕ, k ≤ m → ∃ s, res.getStep k = .ok s ∧ ∀ a i, At a i →
    (occ? s (.int i) ≠ some bg ↔ ∃ b j, At b j ∧ occ? s0 (.int j) ≠ some bg ∧ HexWithin n a b k)

/-- The site at the middle of the hexagon `a` is `i`. -/
def MiddleOf (root : K) (S : Structure K 2) (a : Fin 2 → ℤ) (i : ℕ) : Prop := S.idAt (hexCentre root a) = some i

end Spec
end Pyl
