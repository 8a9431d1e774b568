import Verif.Model.Neighborhood
import Mathlib.LinearAlgebra.Matrix.Notation
/-
Model of src/pylattica/structures/square_grid/{lattice,structure_builders,neighborhoods}.py.
-/
set_option autoImplicit false

namespace Pyl
variable {K : Type} [Field K] [LinearOrder K] [FloorRing K] {d : ℕ}

/-- structures/square_grid/lattice.py:4-9 -/
def gridLattice2 : Lattice K 2 := ⟨!![0, 1; 1, 0], fun _ => true⟩

/-- structures/square_grid/lattice.py:12-17 -/
def gridLattice3 : Lattice K 3 := ⟨!![0, 1, 0; 1, 0, 0; 0, 0, 1], fun _ => true⟩

/-- structures/square_grid/structure_builders.py:4, 10, 15-17, 23, 27-31 -/
def gridMotif : Structure.Motif K d := .byClass [("_A", [0])]

/-- structures/square_grid/structure_builders.py:7-17 `SimpleSquare2DStructureBuilder().build(size)`; `frac_coords` is False
(core/structure_builder.py:15). -/
noncomputable def buildSquare2 (size : Structure.SizeArg) : Py (Structure K 2) := Structure.build gridLattice2 gridMotif false size

/-- structures/square_grid/structure_builders.py:20-31 `SimpleSquare3DStructureBuilder().build(size)`. -/
noncomputable def buildSquare3 (size : Structure.SizeArg) : Py (Structure K 3) := Structure.build gridLattice3 gridMotif false size

/-- structures/square_grid/neighborhoods.py:10-28 (`d = 2`), 31-49 (`d = 3`). -/
def vonNeumann (size : ℤ) : Builder K d :=
  .motif (((getPointsInCube (-size) (size + 1) d).filter fun p => (p.map fun x => |x|).sum ≤ size).map Structure.vecOf)

/-- structures/square_grid/neighborhoods.py:52-66, with `dim` the dimension of the structure. -/
def moore (size : ℤ) : Builder K d := .motif ((getPointsInCube (-size) (size + 1) d).map Structure.vecOf)

/-- structures/square_grid/neighborhoods.py:73-93 -/
def pseudoHex2 : List (Builder K 2) :=
  [.motif [![1, 0], ![0, 1], ![-1, 0], ![0, -1], ![1, 1], ![-1, -1]],
   .motif [![1, 0], ![0, 1], ![-1, 0], ![0, -1], ![-1, 1], ![1, -1]]]

/-- structures/square_grid/neighborhoods.py:96-130 -/
def pseudoHex3 : List (Builder K 3) :=
  let common : List (Fin 3 → K) := [![1, 0, 0], ![-1, 0, 0], ![0, 1, 0], ![0, -1, 0], ![0, 0, 1], ![0, 0, -1]]
  [.motif (common ++ [![-1, -1, 1], ![1, 1, -1]]),
   .motif (common ++ [![-1, 1, 1], ![1, -1, -1]]),
   .motif (common ++ [![1, 1, 1], ![-1, -1, -1]]),
   .motif (common ++ [![1, -1, 1], ![-1, 1, -1]])]

/-- structures/square_grid/neighborhoods.py:133-167 -/
def pseudoPent : List (Builder K 2) :=
  [.motif [![-1, 0], ![1, 0], ![-1, -1], ![0, -1], ![1, -1]],
   .motif [![-1, 1], ![0, 1], ![1, 1], ![-1, 0], ![1, 0]],
   .motif [![0, 1], ![1, 1], ![1, 0], ![0, -1], ![1, -1]],
   .motif [![-1, 1], ![0, 1], ![-1, 0], ![-1, -1], ![0, -1]]]

end Pyl
