import Verif.Model.RawLattice
import Verif.Model.Neighborhood
/-
Model of the motif neighbourhood builders of src/pylattica/core/neighborhood_builders.py and structures/square_grid/neighborhoods.py
for offsets of every length, on structures whose locations are lists of numbers.
-/
set_option autoImplicit false

namespace Pyl
variable {K : Type} [Field K] [LinearOrder K] [FloorRing K]

/-- core/distance_map.py:95-96 with 6-23 and 72: `round(distance(zeros(len(loc)), loc), 2)`. -/
def rawEuclid (v : List K) : K := roundSqrt 100 (v.map fun x => (0 - x) ^ 2).sum

/-- core/distance_map.py:44-74 with the Euclidean distance.  The offsets are tuples; a list as offset makes line 72 raise TypeError when
the builder is made. -/
def rawDistanceMap (offsets : List (List K)) : Dict (List K) K := offsets.foldl (fun m v => Dict.set m v (rawEuclid v)) []

namespace RawStructure

/-- core/periodic_structure.py:209-214 `id_at`. -/
noncomputable def idAt (s : RawStructure K) (loc : List K) : Py (Option ℕ) := do pure ((← s.siteAt loc).map RawSite.id)

/-- core/periodic_structure.py:254-271 `sites`. -/
def sitesOf (s : RawStructure K) (cls : Option String) : List (RawSite K) :=
  match cls with
  | none => Dict.values s.sites
  | some c => (Dict.values s.sites).filter fun t => t.cls = c

/-- core/neighborhood_builders.py:229-251 `MotifNeighborhoodBuilder.get_neighbors`: `zip` in line 246 stops at the shorter of the
location and the offset. -/
noncomputable def motifNeighbors (s : RawStructure K) (offsets : List (List K)) (site : RawSite K) : Py (List (Option ℕ × Option K)) :=
  offsets.foldlM (fun nbs v => do
    let nb ← s.idAt (List.zipWith (fun a b => a + b) site.loc v)
    pure (if nb ≠ some site.id then nbs ++ [(nb, Dict.get? (rawDistanceMap offsets) v)] else nbs)) []

/-- core/neighborhood_builders.py:20-53 `get` of a motif builder. -/
noncomputable def motifGet (s : RawStructure K) (offsets : List (List K)) (cls : Option String) : Py (Graph K) :=
  (s.sitesOf cls).foldlM (fun g site => do
    let nbs ← s.motifNeighbors offsets site
    nbs.foldlM (fun g nb => g.addEdge site.id nb) g) ⟨(s.sitesOf none).length, []⟩

end RawStructure

/-- structures/square_grid/neighborhoods.py:52-66: the offsets of `MooreNbHoodBuilder(size, dim)`. -/
def mooreOffsets (K : Type) [Field K] (size : ℤ) (dim : ℕ) : List (List K) :=
  (getPointsInCube (-size) (size + 1) dim).map fun p => p.map fun x => ((x : ℤ) : K)

/-- structures/square_grid/neighborhoods.py:10-49: the offsets of the von Neumann builders (`dim` 2 and 3). -/
def vonNeumannOffsets (K : Type) [Field K] (size : ℤ) (dim : ℕ) : List (List K) :=
  ((getPointsInCube (-size) (size + 1) dim).filter fun p => (p.map fun x => |x|).sum ≤ size).map fun p => p.map fun x => ((x : ℤ) : K)

end Pyl
