import Verif.Model.DoubleHoneycomb
/-
The functions of Model/Double.lean once more, with the operations that numpy leaves open as an argument (see `Arith`).  C115 shows that on the
square grids the results do not depend on it.
-/
set_option autoImplicit false

namespace Pyl
namespace Dbl
open Structure
variable {d : ℕ}

namespace Arith

/-- core/periodic_structure.py:83-94, cartesian motifs: the class and location of the sites of one cell.  Line 85 is `matrix @ coefficients`, which is
the argument `mv`. -/
def cellSitesCart (mv : Matrix (Fin d) (Fin d) ℚ → (Fin d → ℚ) → Fin d → ℚ) (L : Lattice ℚ d) (motif : Dict String (List (Fin d → ℚ))) (c : Fin d → ℚ) :
    List (String × (Fin d → ℚ)) :=
  motif.flatMap fun cv => cv.2.map fun v => (cv.1, fun i => fl (mv L.mat c i + v i))

/-- core/periodic_structure.py:30-102 `build_from` with `frac_coords=False`. -/
def buildFromCart (A : Arith d) (mv : Matrix (Fin d) (Fin d) ℚ → (Fin d → ℚ) → Fin d → ℚ) (L : Lattice ℚ d) (n : Fin d → ℤ) (motif : Motif ℚ d) :
    Py (Structure ℚ d) :=
  let coeffs := getPointsInBox (List.replicate d 0) (List.ofFn n)
  coeffs.foldlM (fun s c => (cellSitesCart mv L motif.toDict (vecOf c)).foldlM A.addOrRaise s) (Structure.new (scaled L n))

/-- core/structure_builder.py:32-64 `StructureBuilder.build` with `frac_coords = False`. -/
def buildCart (A : Arith d) (mv : Matrix (Fin d) (Fin d) ℚ → (Fin d → ℚ) → Fin d → ℚ) (L : Lattice ℚ d) (motif : Motif ℚ d) : SizeArg → Py (Structure ℚ d)
  | .int k => A.buildFromCart mv L (fun _ => k) motif
  | .tup l => if h : l.length = d then A.buildFromCart mv L (fun i => l.get (i.cast h.symm)) motif else .error .valueError

/-- structures/square_grid/structure_builders.py:7-17 `SimpleSquare2DStructureBuilder().build(size)`. -/
def buildSquare2 (A : Arith 2) (mv : Matrix (Fin 2) (Fin 2) ℚ → (Fin 2 → ℚ) → Fin 2 → ℚ) (size : SizeArg) : Py (Structure ℚ 2) :=
  A.buildCart mv gridLattice2 gridMotif size

/-- structures/square_grid/structure_builders.py:20-31 `SimpleSquare3DStructureBuilder().build(size)`. -/
def buildSquare3 (A : Arith 3) (mv : Matrix (Fin 3) (Fin 3) ℚ → (Fin 3 → ℚ) → Fin 3 → ℚ) (size : SizeArg) : Py (Structure ℚ 3) :=
  A.buildCart mv gridLattice3 gridMotif size

/-- core/neighborhood_builders.py:229-251 `MotifNeighborhoodBuilder.get_neighbors`.  The weights are taken from the exact model, as in
Model/Double.lean. -/
def motifNeighbors (A : Arith d) (offsets : List (Fin d → ℚ)) (site : Site ℚ d) (s : Structure ℚ d) : List (Option ℕ × Option ℚ) :=
  offsets.filterMap fun v =>
    let nb := A.idAt s fun i => fl (site.loc i + v i)
    if nb ≠ some site.id then some (nb, getDist (distanceMap euclideanDist offsets) v) else none

/-- core/neighborhood_builders.py:20-53 `get` of a motif builder. -/
def motifGet (A : Arith d) (offsets : List (Fin d → ℚ)) (s : Structure ℚ d) : Py (Graph ℚ) := getWith (A.motifNeighbors offsets) s

/-- core/neighborhood_builders.py:158-184 `AnnularNeighborhoodBuilder.get_neighbors`. -/
def annularNeighbors (A : Arith d) (inner outer : ℚ) (site : Site ℚ d) (s : Structure ℚ d) : List (Option ℕ × Option ℚ) :=
  (s.sitesOf none).filterMap fun other =>
    if site.id ≠ other.id then
      let r := A.dist s.lattice other.loc site.loc
      if inner < r ∧ r < outer then some (some other.id, some r) else none
    else none

/-- `AnnularNeighborhoodBuilder(inner, outer).get(structure)`. -/
def annularGet (A : Arith d) (inner outer : ℚ) (s : Structure ℚ d) : Py (Graph ℚ) := getWith (A.annularNeighbors inner outer) s

end Arith
end Dbl
end Pyl
