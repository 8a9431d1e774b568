import Verif.Model.Life
import Mathlib.Data.Int.Log
import Mathlib.Data.Rat.Floor
/-
The part of core/lattice.py, core/periodic_structure.py and core/neighborhood_builders.py that the square grids use, once more, in the
double precision arithmetic in which the code runs.  A double is represented by its exact rational value and every arithmetic operation
rounds its exact result with `fl`.  Not modelled: overflow, subnormal numbers, infinities and NaN, the sign of zero (`-0.0 == 0.0`, and
both have the same hash).

The other model files use exact arithmetic.
-/
set_option autoImplicit false

namespace Pyl

/-- Rounding of a number to a double (IEEE 754 binary64): 53 significant binary digits, nearest, ties to even. -/
def fl (x : ℚ) : ℚ :=
  if x = 0 then 0 else
    let e : ℤ := Int.log 2 |x| - 52
    (roundHalfEven (x / 2 ^ e) : ℚ) * 2 ^ e

/-- The square root of a double, rounded to a double (IEEE 754 requires the nearest one): 53 binary digits of the exact root.  Zero for
arguments that are not positive (Python: nan for negative ones; the argument is a sum of squares). -/
def flSqrt (q : ℚ) : ℚ :=
  if q ≤ 0 then 0 else
    let e : ℤ := Int.log 2 q / 2 - 52
    roundSqrt 1 (q / 4 ^ e) * 2 ^ e

namespace Dbl
open Structure
variable {d : ℕ}

/-- `sum(v_i * w_i)` as `np.dot` computes it.  Simplification: numpy leaves the order of the summation and the use of fused
multiply-add open; for the matrices of this file at most one product is not zero, and then the result does not depend on it. -/
def dot (v w : Fin d → ℚ) : ℚ := (List.finRange d).foldl (fun acc i => fl (acc + fl (v i * w i))) 0

/-- `np.linalg.inv(mat)` (core/lattice.py:153-159) for a matrix with one non-zero entry in every row and column: the LU decomposition with
row exchanges leaves one division per entry.  Other matrices are not modelled. -/
def inv (M : Matrix (Fin d) (Fin d) ℚ) : Matrix (Fin d) (Fin d) ℚ := fun i j => if M j i = 0 then 0 else fl (1 / M j i)

/-- core/lattice.py:161-174 `get_cartesian_coords`. -/
def toCart (L : Lattice ℚ d) (f : Fin d → ℚ) : Fin d → ℚ := fun j => dot f fun i => L.mat i j

/-- core/lattice.py:176-189 `get_fractional_coords`. -/
def toFrac (L : Lattice ℚ d) (x : Fin d → ℚ) : Fin d → ℚ := fun j => dot x fun i => inv L.mat i j

/-- core/lattice.py:11-30 `periodize`. -/
def periodizeFrac (periodic : Fin d → Bool) (f : Fin d → ℚ) : Fin d → ℚ :=
  fun i => fl (f i - fl ((⌊f i⌋ : ℚ) * (if periodic i then 1 else 0)))

/-- core/lattice.py:191-206 `get_periodized_cartesian_coords`. -/
def periodized (L : Lattice ℚ d) (x : Fin d → ℚ) : Fin d → ℚ := toCart L (periodizeFrac L.periodic (toFrac L x))

/-- `np.round(x, 3)`: numpy multiplies by 1000, rounds to the nearest integer (ties to even) and divides by 1000. -/
def round3 (x : ℚ) : ℚ := fl ((roundHalfEven (fl (x * 1000)) : ℚ) / 1000)

/-- core/periodic_structure.py:140-141 `_get_rounded_coords`. -/
def rounded (x : Fin d → ℚ) : Fin d → ℚ := fun i => round3 (x i)

/-- core/periodic_structure.py:11, 118 and 143-144 `_coords_with_offset`; the literal `0.001` is the nearest double. -/
def withOffset (x : Fin d → ℚ) : Fin d → ℚ := rounded fun i => fl (x i + fl (1 / 1000))

/-- core/periodic_structure.py:146-149 `_transformed_coords`. -/
def transformed (L : Lattice ℚ d) (x : Fin d → ℚ) : Fin d → ℚ := withOffset (periodized L x)

/-- core/periodic_structure.py:151-186 `add_site`. -/
def addSite (s : Structure ℚ d) (cls : String) (loc : Fin d → ℚ) : Structure ℚ d × Py ℕ :=
  let newId := s.sites.length
  let periodizedCoords := rounded (periodized s.lattice loc)
  let key := transformed s.lattice loc
  if Dict.get? s.lookup key = none then
    ({ s with sites := Dict.set s.sites newId ⟨cls, periodizedCoords, newId⟩,
              lookup := Dict.set s.lookup key newId,
              siteIds := s.siteIds ++ [newId] }, .ok newId)
  else (s, .error .assertionError)

/-- core/periodic_structure.py:188-207 `site_at`. -/
def siteAt (s : Structure ℚ d) (loc : Fin d → ℚ) : Option (Site ℚ d) :=
  match Dict.get? s.lookup (transformed s.lattice loc) with
  | some i => s.getSite i
  | none => none

/-- core/periodic_structure.py:209-214 `id_at`. -/
def idAt (s : Structure ℚ d) (loc : Fin d → ℚ) : Option ℕ := (siteAt s loc).map Site.id

/-- One call of `add_site` in a loop that an exception leaves. -/
def addOrRaise (s : Structure ℚ d) (cl : String × (Fin d → ℚ)) : Py (Structure ℚ d) :=
  match addSite s cl.1 cl.2 with
  | (s', .ok _) => .ok s'
  | (_, .error e) => .error e

/-- core/lattice.py:208-225 `get_scaled_lattice`. -/
def scaled (L : Lattice ℚ d) (n : Fin d → ℤ) : Lattice ℚ d := ⟨fun i j => fl (L.mat i j * n i), L.periodic⟩

/-- core/periodic_structure.py:83-94, cartesian motifs only: the class and location of the sites of one cell.  Line 85 is
`matrix @ coefficients`. -/
def cellSites (L : Lattice ℚ d) (motif : Dict String (List (Fin d → ℚ))) (c : Fin d → ℚ) : List (String × (Fin d → ℚ)) :=
  motif.flatMap fun cv => cv.2.map fun v => (cv.1, fun i => fl (dot (L.mat i) c + v i))

/-- core/periodic_structure.py:30-102 `build_from` with `frac_coords=False`. -/
def buildFrom (L : Lattice ℚ d) (n : Fin d → ℤ) (motif : Motif ℚ d) : Py (Structure ℚ d) :=
  let coeffs := getPointsInBox (List.replicate d 0) (List.ofFn n)
  coeffs.foldlM (fun s c => (cellSites L motif.toDict (vecOf c)).foldlM addOrRaise s) (Structure.new (scaled L n))

/-- core/structure_builder.py:32-64 `StructureBuilder.build` with `frac_coords = False`. -/
def build (L : Lattice ℚ d) (motif : Motif ℚ d) : SizeArg → Py (Structure ℚ d)
  | .int k => buildFrom L (fun _ => k) motif
  | .tup l => if h : l.length = d then buildFrom L (fun i => l.get (i.cast h.symm)) motif else .error .valueError

/-- structures/square_grid/structure_builders.py:7-17 `SimpleSquare2DStructureBuilder().build(size)`. -/
def buildSquare2 (size : SizeArg) : Py (Structure ℚ 2) := build gridLattice2 gridMotif size

/-- structures/square_grid/structure_builders.py:20-31 `SimpleSquare3DStructureBuilder().build(size)`. -/
def buildSquare3 (size : SizeArg) : Py (Structure ℚ 3) := build gridLattice3 gridMotif size

/-- core/neighborhood_builders.py:229-251 `MotifNeighborhoodBuilder.get_neighbors`.  The weights depend on the offsets only; they are taken
from the exact model. -/
def motifNeighbors (offsets : List (Fin d → ℚ)) (site : Site ℚ d) (s : Structure ℚ d) : List (Option ℕ × Option ℚ) :=
  offsets.filterMap fun v =>
    let nb := idAt s fun i => fl (site.loc i + v i)
    if nb ≠ some site.id then some (nb, getDist (distanceMap euclideanDist offsets) v) else none

/-- core/neighborhood_builders.py:20-53 `get` of a motif builder. -/
def motifGet (offsets : List (Fin d → ℚ)) (s : Structure ℚ d) : Py (Graph ℚ) :=
  (s.sitesOf none).foldlM (fun g site => (motifNeighbors offsets site s).foldlM (fun g nb => g.addEdge site.id nb) g)
    ⟨(s.sitesOf none).length, []⟩

/-- structures/square_grid/neighborhoods.py:52-66 and core/neighborhood_builders.py:20-53: `MooreNbHoodBuilder(size, dim).get(structure)`. -/
def mooreGet (size : ℤ) (s : Structure ℚ d) : Py (Graph ℚ) := motifGet ((getPointsInCube (-size) (size + 1) d).map vecOf) s

/-- structures/square_grid/neighborhoods.py:10-28 (`d = 2`), 31-49 (`d = 3`) and core/neighborhood_builders.py:20-53. -/
def vonNeumannGet (size : ℤ) (s : Structure ℚ d) : Py (Graph ℚ) :=
  motifGet (((getPointsInCube (-size) (size + 1) d).filter fun p => (p.map fun x => |x|).sum ≤ size).map vecOf) s

/-- core/lattice.py:33-58 `pbc_diff_frac_vec`. -/
def pbcDiffFrac (periodic : Fin d → Bool) (f g : Fin d → ℚ) : Fin d → ℚ :=
  fun i => fl (fl (f i - g i) - fl ((roundHalfEven (fl (f i - g i)) : ℚ) * (if periodic i then 1 else 0)))

/-- core/lattice.py:61-84 `pbc_diff_cart`, 227-246 `cartesian_periodic_distance`.  `np.linalg.norm(v)` is `sqrt(v.dot(v))`; the order of the summation
and the use of fused multiply-add are left to the BLAS library, so `v.dot(v)` is the argument `sq` and theorems hold for every `sq` that
is accurate to 50 binary digits (`SumOfSquares`). -/
def dist (sq : (Fin d → ℚ) → ℚ) (L : Lattice ℚ d) (a b : Fin d → ℚ) : ℚ :=
  round3 (flSqrt (sq (toCart L (pbcDiffFrac L.periodic (toFrac L a) (toFrac L b)))))

/-- core/neighborhood_builders.py:108-136 `DistanceNeighborhoodBuilder.get_neighbors`. -/
def distanceNeighbors (sq : (Fin d → ℚ) → ℚ) (cutoff : ℚ) (site : Site ℚ d) (s : Structure ℚ d) : List (Option ℕ × Option ℚ) :=
  (s.sitesOf none).filterMap fun other =>
    if site.id ≠ other.id then
      let r := dist sq s.lattice other.loc site.loc
      if r < cutoff then some (some other.id, some r) else none
    else none

/-- core/neighborhood_builders.py:158-184 `AnnularNeighborhoodBuilder.get_neighbors`. -/
def annularNeighbors (sq : (Fin d → ℚ) → ℚ) (inner outer : ℚ) (site : Site ℚ d) (s : Structure ℚ d) : List (Option ℕ × Option ℚ) :=
  (s.sitesOf none).filterMap fun other =>
    if site.id ≠ other.id then
      let r := dist sq s.lattice other.loc site.loc
      if inner < r ∧ r < outer then some (some other.id, some r) else none
    else none

/-- core/neighborhood_builders.py:20-53 `get` with the given `get_neighbors`. -/
def getWith (nbs : Site ℚ d → Structure ℚ d → List (Option ℕ × Option ℚ)) (s : Structure ℚ d) : Py (Graph ℚ) :=
  (s.sitesOf none).foldlM (fun g site => (nbs site s).foldlM (fun g nb => g.addEdge site.id nb) g) ⟨(s.sitesOf none).length, []⟩

/-- `DistanceNeighborhoodBuilder(cutoff).get(structure)`, also structures/square_grid/neighborhoods.py:69-70 `CircularNeighborhoodBuilder`. -/
def distanceGet (sq : (Fin d → ℚ) → ℚ) (cutoff : ℚ) (s : Structure ℚ d) : Py (Graph ℚ) := getWith (distanceNeighbors sq cutoff) s

/-- `AnnularNeighborhoodBuilder(inner, outer).get(structure)`. -/
def annularGet (sq : (Fin d → ℚ) → ℚ) (inner outer : ℚ) (s : Structure ℚ d) : Py (Graph ℚ) := getWith (annularNeighbors sq inner outer) s

/-- models/game_of_life/controller.py:22-23 `pre_run`. -/
def lifePreRun (c : Life.Ctl ℚ) (s : SimState) : Py (Life.Ctl ℚ × SimState) := do
  let g ← mooreGet 1 c.struct
  pure ({ c with neighborhood := some g }, s)

/-- models/game_of_life/controller.py:13 `GameOfLifeController`; `get_state_update` uses no coordinates. -/
def lifeController : Controller (Life.Ctl ℚ) where
  update := Life.update
  preRun := lifePreRun

end Dbl
end Pyl
