import Verif.Model.Double
import Verif.Model.Honeycomb
/-
Structures with fractional motifs on lattices that are not rectangular, in double precision (see Model/Double.lean), and the honeycomb tiling.
-/
set_option autoImplicit false

namespace Pyl
namespace Dbl
open Structure
variable {d : ℕ}

/-- The operations whose results IEEE 754 and numpy leave open: `np.dot(vector, matrix)` (order of the summation, fused multiply-add), `np.linalg.inv`
(the algorithm of the LAPACK library) and `v.dot(v)` inside `np.linalg.norm`. -/
structure Arith (d : ℕ) where
  vecMul : (Fin d → ℚ) → Matrix (Fin d) (Fin d) ℚ → Fin d → ℚ
  inv : Matrix (Fin d) (Fin d) ℚ → Matrix (Fin d) (Fin d) ℚ
  sq : (Fin d → ℚ) → ℚ

namespace Arith

/-- core/lattice.py:161-174 `get_cartesian_coords`. -/
def toCart (A : Arith d) (L : Lattice ℚ d) (f : Fin d → ℚ) : Fin d → ℚ := A.vecMul f L.mat

/-- core/lattice.py:153-159 and 176-189 `get_fractional_coords`. -/
def toFrac (A : Arith d) (L : Lattice ℚ d) (x : Fin d → ℚ) : Fin d → ℚ := A.vecMul x (A.inv L.mat)

/-- core/lattice.py:191-206 `get_periodized_cartesian_coords`. -/
def periodized (A : Arith d) (L : Lattice ℚ d) (x : Fin d → ℚ) : Fin d → ℚ := A.toCart L (periodizeFrac L.periodic (A.toFrac L x))

/-- core/periodic_structure.py:146-149 `_transformed_coords`. -/
def transformed (A : Arith d) (L : Lattice ℚ d) (x : Fin d → ℚ) : Fin d → ℚ := withOffset (A.periodized L x)

/-- core/periodic_structure.py:151-186 `add_site`. -/
def addSite (A : Arith d) (s : Structure ℚ d) (cls : String) (loc : Fin d → ℚ) : Structure ℚ d × Py ℕ :=
  let newId := s.sites.length
  let periodizedCoords := rounded (A.periodized s.lattice loc)
  let key := A.transformed s.lattice loc
  if Dict.get? s.lookup key = none then
    ({ s with sites := Dict.set s.sites newId ⟨cls, periodizedCoords, newId⟩,
              lookup := Dict.set s.lookup key newId,
              siteIds := s.siteIds ++ [newId] }, .ok newId)
  else (s, .error .assertionError)

/-- core/periodic_structure.py:188-207 `site_at`. -/
def siteAt (A : Arith d) (s : Structure ℚ d) (loc : Fin d → ℚ) : Option (Site ℚ d) :=
  match Dict.get? s.lookup (A.transformed s.lattice loc) with
  | some i => s.getSite i
  | none => none

/-- core/periodic_structure.py:209-214 `id_at`. -/
def idAt (A : Arith d) (s : Structure ℚ d) (loc : Fin d → ℚ) : Option ℕ := (A.siteAt s loc).map Site.id

/-- One call of `add_site` in a loop that an exception leaves. -/
def addOrRaise (A : Arith d) (s : Structure ℚ d) (cl : String × (Fin d → ℚ)) : Py (Structure ℚ d) :=
  match A.addSite s cl.1 cl.2 with
  | (s', .ok _) => .ok s'
  | (_, .error e) => .error e

/-- core/periodic_structure.py:83-100, fractional motifs: the class and location of the sites of one cell. -/
def cellSites (A : Arith d) (L : Lattice ℚ d) (motif : Dict String (List (Fin d → ℚ))) (c : Fin d → ℚ) : List (String × (Fin d → ℚ)) :=
  motif.flatMap fun cv => cv.2.map fun v => (cv.1, A.toCart L fun i => fl (c i + v i))

/-- core/periodic_structure.py:30-102 `build_from` with `frac_coords=True`. -/
def buildFrom (A : Arith d) (L : Lattice ℚ d) (n : Fin d → ℤ) (motif : Motif ℚ d) : Py (Structure ℚ d) :=
  let coeffs := getPointsInBox (List.replicate d 0) (List.ofFn n)
  coeffs.foldlM (fun s c => (A.cellSites L motif.toDict (vecOf c)).foldlM A.addOrRaise s) (Structure.new (scaled L n))

/-- core/structure_builder.py:32-64 `StructureBuilder.build` with `frac_coords = True`. -/
def build (A : Arith d) (L : Lattice ℚ d) (motif : Motif ℚ d) : SizeArg → Py (Structure ℚ d)
  | .int k => A.buildFrom L (fun _ => k) motif
  | .tup l => if h : l.length = d then A.buildFrom L (fun i => l.get (i.cast h.symm)) motif else .error .valueError

/-- core/lattice.py:61-84 `pbc_diff_cart`, 227-246 `cartesian_periodic_distance`. -/
def dist (A : Arith d) (L : Lattice ℚ d) (a b : Fin d → ℚ) : ℚ :=
  round3 (flSqrt (A.sq (A.toCart L (pbcDiffFrac L.periodic (A.toFrac L a) (A.toFrac L b)))))

/-- core/neighborhood_builders.py:108-136 `DistanceNeighborhoodBuilder.get_neighbors`. -/
def distanceNeighbors (A : Arith d) (cutoff : ℚ) (site : Site ℚ d) (s : Structure ℚ d) : List (Option ℕ × Option ℚ) :=
  (s.sitesOf none).filterMap fun other =>
    if site.id ≠ other.id then
      let r := A.dist s.lattice other.loc site.loc
      if r < cutoff then some (some other.id, some r) else none
    else none

/-- core/neighborhood_builders.py:20-53 `DistanceNeighborhoodBuilder(cutoff).get(structure)`. -/
def distanceGet (A : Arith d) (cutoff : ℚ) (s : Structure ℚ d) : Py (Graph ℚ) := getWith (A.distanceNeighbors cutoff) s

end Arith

/-- structures/honeycomb/lattice.py:5-17 `RhombohedralLattice()`. -/
def honeyLattice : Lattice ℚ 2 := ⟨!![1, 0; fl (1 / 2), fl (fl (flSqrt 3 * 1) / 2)], fun _ => true⟩

/-- structures/honeycomb/structure_builders.py:5-13 `HoneycombTilingBuilder().build(size)`; `1 / 2` is a double. -/
def buildHoneycomb (A : Arith 2) (size : SizeArg) : Py (Structure ℚ 2) := A.build honeyLattice honeyMotif size

/-- structures/honeycomb/neighborhoods.py:7-11 `HoneycombNeighborhoodBuilder().get(structure)`; the cutoff is `1 + 0.01`. -/
def honeycombGet (A : Arith 2) (s : Structure ℚ 2) : Py (Graph ℚ) := A.distanceGet (fl (1 + fl (1 / 100))) s

end Dbl
end Pyl
