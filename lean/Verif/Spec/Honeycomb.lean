import Mathlib.Data.Fin.VecNotation
import Mathlib.Algebra.Field.Basic
/-
Specification vocabulary for the honeycomb tiling (C78).
-/
set_option autoImplicit false

namespace Pyl
variable {K : Type} [Field K]

/-- The middle of the hexagon in column `c 0` of row `c 1`: rows are `root / 2` apart and every row is shifted by one half. -/
def hexCentre (root : K) (c : Fin 2 → ℤ) : Fin 2 → K :=
  ![(c 0 : K) + c 1 / 2 + 3 / 4, (2 * (c 1 : K) + 1) / 4 * root]

/-- The steps from a hexagon to the six hexagons that touch it. -/
def hexSteps : List (Fin 2 → ℤ) := [![1, 0], ![-1, 0], ![0, 1], ![0, -1], ![1, -1], ![-1, 1]]

end Pyl
