import Verif.Model.Structure
/-
Model of src/pylattica/core/distance_map.py, neighborhoods.py and neighborhood_builders.py.

The rustworkx graph is modelled by what the code uses of it (external library, behaviour taken from its documentation):
`add_node` numbers nodes 0, 1, 2, ...; `add_edge` needs int end points (TypeError for None) that exist (IndexError otherwise) and
allows parallel edges; `neighbors(i)` lists every target of an edge from `i` once, in no particular order, and nothing for an unknown
node; `get_edge_data(i, j)` is the weight of the most recently added edge.
-/
set_option autoImplicit false

namespace Pyl
variable {K : Type} [Field K] [LinearOrder K] [FloorRing K] {d : ℕ}

/-! ### distance maps -/

/-- core/distance_map.py:95-96 with 6-23: `round(distance(p1, p2), 2)` from the origin. -/
def euclideanDist (v : Fin d → K) : K := roundSqrt 100 (∑ i, (0 - v i) ^ 2)

/-- core/distance_map.py:102-103: `np.abs(p1 - p2).sum()` from the origin. -/
def manhattanDist (v : Fin d → K) : K := ∑ i, |0 - v i|

/-- core/distance_map.py:44-74 `DistanceMap.__init__` with the given `_distance`.  Locations are tuples with `d` entries (a list as location
raises TypeError in line 72: unhashable). -/
def distanceMap (dist : (Fin d → K) → K) (locs : List (Fin d → K)) : Dict (Fin d → K) K :=
  locs.foldl (fun m v => Dict.set m v (dist v)) []

/-- core/distance_map.py:76-89 `get_dist`. -/
def getDist (m : Dict (Fin d → K) K) (v : Fin d → K) : Option K := Dict.get? m v

/-! ### graphs -/

/-- The part of `rx.PyDiGraph` that is used.  Edges in the order in which they were added: source, target, weight. -/
structure Graph (K : Type) where
  numNodes : ℕ
  edges : List (ℕ × ℕ × Option K)

namespace Graph

/-- `graph.add_edge(i, nb_id, weight)` -/
def addEdge (g : Graph K) (i : ℕ) (nb : Option ℕ × Option K) : Py (Graph K) :=
  match nb.1 with
  | none => .error .typeError
  | some j => if i < g.numNodes ∧ j < g.numNodes then .ok { g with edges := g.edges ++ [(i, j, nb.2)] } else .error .indexError

/-- `graph.neighbors(i)`.  The order is not specified by the library; theorems speak about membership and multiplicity only, or about
all permutations. -/
def neighbors (g : Graph K) (i : ℕ) : List ℕ := ((g.edges.filter fun e => e.1 = i).map fun e => e.2.1).dedup

/-- `graph.get_edge_data(i, j)` for an existing edge. -/
def edgeData (g : Graph K) (i j : ℕ) : Option K :=
  match (g.edges.filter fun e => e.1 = i ∧ e.2.1 = j).getLast? with
  | some e => e.2.2
  | none => none

end Graph

/-- core/neighborhoods.py:25-50 `Neighborhood.neighbors_of(site_id)`. -/
def Graph.neighborsOf (g : Graph K) (i : ℕ) : List ℕ := g.neighbors i

/-- core/neighborhoods.py:25-50 `Neighborhood.neighbors_of(site_id, include_weights=True)`. -/
def Graph.weightedNeighborsOf (g : Graph K) (i : ℕ) : List (ℕ × Option K) := (g.neighbors i).map fun j => (j, g.edgeData i j)

/-! ### builders -/

/-- The builders that build one graph. -/
inductive Builder (K : Type) (d : ℕ) where
  /-- core/neighborhood_builders.py:93-106 -/
  | distance (cutoff : K)
  /-- core/neighborhood_builders.py:139-156 -/
  | annular (inner outer : K)
  /-- core/neighborhood_builders.py:187-227 -/
  | motif (offsets : List (Fin d → K))

namespace Builder
open Structure

/-- core/neighborhood_builders.py:108-136 (distance), 158-184 (annular), 229-251 (motif) `get_neighbors`.  Motif offsets are assumed to have as
many entries as the locations (`zip` would cut the longer one). -/
noncomputable def getNeighbors (b : Builder K d) (site : Site K d) (s : Structure K d) : List (Option ℕ × Option K) :=
  match b with
  | .distance cutoff => (s.sitesOf none).filterMap fun other =>
      if site.id ≠ other.id then
        let dist := s.lattice.dist other.loc site.loc
        if dist < cutoff then some (some other.id, some dist) else none
      else none
  | .annular inner outer => (s.sitesOf none).filterMap fun other =>
      if site.id ≠ other.id then
        let dist := s.lattice.dist other.loc site.loc
        if inner < dist ∧ dist < outer then some (some other.id, some dist) else none
      else none
  | .motif offsets => offsets.filterMap fun v =>
      let nb := s.idAt (site.loc + v)
      if nb ≠ some site.id then some (nb, getDist (distanceMap euclideanDist offsets) v) else none

/-- core/neighborhood_builders.py:48-51, the body of the loop. -/
noncomputable def connect (b : Builder K d) (s : Structure K d) (g : Graph K) (site : Site K d) : Py (Graph K) :=
  (b.getNeighbors site s).foldlM (fun g nb => g.addEdge site.id nb) g

/-- core/neighborhood_builders.py:20-53 `get`. -/
noncomputable def get (b : Builder K d) (s : Structure K d) (cls : Option String) : Py (Graph K) :=
  (s.sitesOf cls).foldlM (b.connect s) ⟨(s.sitesOf none).length, []⟩

end Builder

/-- core/neighborhood_builders.py:76-90 `StochasticNeighborhoodBuilder.get`, for member builders that build one graph. -/
noncomputable def stochasticGet (bs : List (Builder K d)) (s : Structure K d) : Py (List (Graph K)) := bs.mapM fun b => b.get s none

/-- core/neighborhoods.py:71-72 `StochasticNeighborhood._get_nbhood` when `random.choice` picks number `r` modulo the number of members
(IndexError for an empty list). -/
def stochasticNbhood (gs : List (Graph K)) (r : ℕ) : Py (Option (Graph K)) :=
  match gs[r % gs.length]? with
  | some g => .ok (some g)
  | none => .error .indexError

/-- core/neighborhood_builders.py:269-288 `SiteClassNeighborhoodBuilder.get`. -/
noncomputable def siteClassGet (bs : Dict String (Builder K d)) (s : Structure K d) : Py (Dict String (Graph K)) :=
  bs.foldlM (fun m cb => do pure (Dict.set m cb.1 (← cb.2.get s (some cb.1)))) []

/-- core/neighborhoods.py:84-86 `SiteClassNeighborhood._get_nbhood`. -/
def siteClassNbhood (s : Structure K d) (m : Dict String (Graph K)) (i : ℕ) : Py (Option (Graph K)) := do
  pure (Dict.get? m (← s.siteClass i))

/-- core/neighborhoods.py:53-62 `MultiNeighborhood.neighbors_of(site_id)` with the answer of `_get_nbhood`. -/
def multiNeighborsOf (nbhood : Py (Option (Graph K))) (i : ℕ) : Py (List ℕ) := do
  match ← nbhood with
  | none => pure []
  | some g => pure (g.neighborsOf i)

/-- core/neighborhoods.py:53-62 `MultiNeighborhood.neighbors_of(site_id, include_weights=True)`. -/
def multiWeightedNeighborsOf (nbhood : Py (Option (Graph K))) (i : ℕ) : Py (List (ℕ × Option K)) := do
  match ← nbhood with
  | none => pure []
  | some g => pure (g.weightedNeighborsOf i)

end Pyl
