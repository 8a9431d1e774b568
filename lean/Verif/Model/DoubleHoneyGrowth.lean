import Verif.Model.DoubleHoneycomb
import Verif.Model.Growth
/-
The growth model on the honeycomb tiling in double precision (see Model/Double.lean).  What uses no coordinates is taken from the exact model.
-/
set_option autoImplicit false

namespace Pyl
namespace Dbl

/-- models/growth/growth_controller.py:11-26 `__init__` of the growth controller with `HoneycombNeighborhoodBuilder()`; `order t` is the order in which the
`t`-th call lists the neighbours. -/
def honeyGrowthInit (A : Arith 2) (order : ℕ → List ℕ → List ℕ) (s : Structure ℚ 2) (background : Val) : Py Growth.Ctl := do
  let g ← honeycombGet A s
  pure ⟨background, fun t i => (neighborsOfKey g i).map (order t), 0⟩

end Dbl
end Pyl
