import Verif.Model.DoubleSetup
import Verif.Model.Nested
/-
Growth with random neighbourhoods of the square grid in double precision.
-/
set_option autoImplicit false

namespace Pyl
namespace Dbl
open Structure
variable {d : ℕ}

/-- core/neighborhood_builders.py:76-90 `StochasticNeighborhoodBuilder.get` when the members are motif builders (20-53), in double precision; one list of
offsets for each member. -/
def stochasticGet (s : Structure ℚ d) : List (List (Fin d → ℚ)) → Py (List (Nbhood ℚ))
  | [] => pure []
  | offs :: ms => do
    let g ← motifGet offs s
    let ns ← stochasticGet s ms
    pure (.graph g :: ns)

/-- structures/square_grid/neighborhoods.py:73-93 `PseudoHexagonalNeighborhoodBuilder2D`: the offsets of its members. -/
def pseudoHex2 : List (List (Fin 2 → ℚ)) :=
  [[![1, 0], ![0, 1], ![-1, 0], ![0, -1], ![1, 1], ![-1, -1]], [![1, 0], ![0, 1], ![-1, 0], ![0, -1], ![-1, 1], ![1, -1]]]

/-- structures/square_grid/neighborhoods.py:96-130 `PseudoHexagonalNeighborhoodBuilder3D`: the offsets of its members. -/
def pseudoHex3 : List (List (Fin 3 → ℚ)) :=
  let c : List (Fin 3 → ℚ) := [![1, 0, 0], ![-1, 0, 0], ![0, 1, 0], ![0, -1, 0], ![0, 0, 1], ![0, 0, -1]]
  [c ++ [![-1, -1, 1], ![1, 1, -1]], c ++ [![-1, 1, 1], ![1, -1, -1]], c ++ [![1, 1, 1], ![-1, -1, -1]], c ++ [![1, -1, 1], ![-1, 1, -1]]]

/-- structures/square_grid/neighborhoods.py:133-167 `PseudoPentagonalNeighborhoodBuilder`: the offsets of its members. -/
def pseudoPent : List (List (Fin 2 → ℚ)) :=
  [[![-1, 0], ![1, 0], ![-1, -1], ![0, -1], ![1, -1]], [![-1, 1], ![0, 1], ![1, 1], ![-1, 0], ![1, 0]],
   [![0, 1], ![1, 1], ![1, 0], ![0, -1], ![1, -1]], [![-1, 1], ![0, 1], ![-1, 0], ![-1, -1], ![0, -1]]]

/-- models/growth/growth_controller.py:11-26 `__init__` with a stochastic builder of motifs, in double precision (see `Growth.initNested`). -/
def growthInitStochastic (order : ℕ → List ℕ → List ℕ) (draw : ℕ → ℕ → ℕ) (s : Structure ℚ d) (background : Val) (ms : List (List (Fin d → ℚ))) :
    Py Growth.Ctl := do
  let ns ← stochasticGet s ms
  pure ⟨background, fun t i => match i with
    | .int z => if 0 ≤ z then ((Nbhood.stochastic ns).neighborsOf s (draw t) z.toNat).map (order t) else .error .overflowError
    | .str _ => .error .typeError, 0⟩

/-- structures/square_grid/growth_setup.py:34-85 `grow` with a stochastic builder of motifs, in double precision (see `growNested`). -/
def growStochastic (G : GridSetup ℚ d) (sum : List ℚ → ℚ) (size : ℤ) (num : ℚ) (background : Val) (nucAmts : Dict Val ℚ) (ms : List (List (Fin d → ℚ)))
    (buffer : Option ℤ) (order : ℕ → List ℕ → List ℕ) (draw : ℕ → ℕ) (fuel : ℕ) (ord : ℕ → List ℕ → List ℕ) (pick : ℕ → ℕ → ℕ)
    (fork : ℕ → Growth.Ctl → Growth.Ctl) (w : ℕ) (sched : ℕ → StepSched) : Option (Py (Simulation ℚ d)) :=
  match randomSites G sum (.int size) num background nucAmts buffer order draw fuel with
  | none => none
  | some (.error e) => some (.error e)
  | some (.ok sim) => some (do
    let c ← growthInitStochastic ord pick sim.struct background ms
    let res ← runParallel Growth.controller fork c sim.state w size.toNat sched
    let s ← res.lastStep
    pure ⟨s, sim.struct⟩)

end Dbl
end Pyl
