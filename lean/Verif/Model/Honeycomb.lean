import Verif.Model.Neighborhood
import Mathlib.LinearAlgebra.Matrix.Notation
/-
Model of src/pylattica/structures/honeycomb/{lattice,structure_builders,neighborhoods}.py.
-/
set_option autoImplicit false

namespace Pyl
variable {K : Type} [Field K] [LinearOrder K] [FloorRing K]

/-- structures/honeycomb/lattice.py:5-17 `RhombohedralLattice()`; `root` stands for `ROOT_3 = math.sqrt(3)` (line 6). -/
def honeyLattice (root : K) : Lattice K 2 := ⟨!![1, 0; 1 / 2, root * 1 / 2], fun _ => true⟩

/-- structures/honeycomb/structure_builders.py:8, 13 -/
def honeyMotif : Structure.Motif K 2 := .byClass [("A", [![1 / 2, 1 / 2]])]

/-- structures/honeycomb/structure_builders.py:5-13 `HoneycombTilingBuilder().build(size)`; `frac_coords` is True (line 12). -/
noncomputable def buildHoneycomb (root : K) (size : Structure.SizeArg) : Py (Structure K 2) :=
  Structure.build (honeyLattice root) honeyMotif true size

/-- structures/honeycomb/neighborhoods.py:7-11 `HoneycombNeighborhoodBuilder()`. -/
def honeycombNbhd : Builder K 2 := .distance (1 + 1 / 100)

end Pyl
