import Verif.Model.GrowthSetup
/-
Compound neighbourhood builders inside each other (core/neighborhood_builders.py, core/neighborhoods.py), and growth with them.
Model/Neighborhood.lean has the case in which the members of a compound builder build one graph each.
-/
set_option autoImplicit false

namespace Pyl
open Structure

/-- The builders of core/neighborhood_builders.py: those that build one graph, `StochasticNeighborhoodBuilder` (58-74) with its members and
`SiteClassNeighborhoodBuilder` (254-267) with its dict of builders.  Builders written by a user are not represented. -/
inductive NbBuilder (K : Type) (d : ℕ) where
  | one (b : Builder K d)
  | stochastic (bs : List (NbBuilder K d))
  | siteClass (bs : List (String × NbBuilder K d))

/-- What they build (core/neighborhoods.py): `Neighborhood`, `StochasticNeighborhood`, `SiteClassNeighborhood`.  The members of the last are graphs,
see `NbBuilder.getFor`. -/
inductive Nbhood (K : Type) where
  | graph (g : Graph K)
  | stochastic (l : List (Nbhood K))
  | siteClass (m : Dict String (Graph K))

variable {K : Type} [Field K] [LinearOrder K] [FloorRing K] {d : ℕ}

/-- core/neighborhood_builders.py:285 `builder.get(struct, site_class=sclass)`.  The `get` of the two compound builders (76, 269) has no parameter
`site_class`: TypeError. -/
noncomputable def NbBuilder.getFor (s : Structure K d) (c : String) : NbBuilder K d → Py (Graph K)
  | .one b => b.get s (some c)
  | .stochastic _ => .error .typeError
  | .siteClass _ => .error .typeError

mutual
/-- core/neighborhood_builders.py:20-53 (one graph), 76-90 (stochastic), 269-288 (site classes) `get(struct)`. -/
noncomputable def NbBuilder.get (s : Structure K d) : NbBuilder K d → Py (Nbhood K)
  | .one b => do pure (.graph (← b.get s none))
  | .stochastic bs => do pure (.stochastic (← NbBuilder.getAll s bs))
  | .siteClass bs => do
    pure (.siteClass (← bs.foldlM (fun m cb => do pure (Dict.set m cb.1 (← cb.2.getFor s cb.1))) []))

/-- core/neighborhood_builders.py:90 `[b.get(struct) for b in self.builders]` -/
noncomputable def NbBuilder.getAll (s : Structure K d) : List (NbBuilder K d) → Py (List (Nbhood K))
  | [] => .ok []
  | b :: bs => do
    let n ← NbBuilder.get s b
    let ns ← NbBuilder.getAll s bs
    pure (n :: ns)
end

mutual
/-- core/neighborhoods.py:53-62, 71-72, 84-86: the graph whose `neighbors_of` a call `neighbors_of(i)` ends up in (`none`: the answer is `[]`).  A
stochastic neighbourhood hands the call to a random member, which may do the same: `draw k` is the outcome of the `k`-th `random.choice` of this call,
modulo the number of members (IndexError if there is none). -/
def Nbhood.select (s : Structure K d) (i : ℕ) : Nbhood K → (ℕ → ℕ) → Py (Option (Graph K))
  | .graph g, _ => .ok (some g)
  | .stochastic l, draw => Nbhood.selectAt s i l (draw 0 % l.length) fun k => draw (k + 1)
  | .siteClass m, _ => siteClassNbhood s m i

/-- The same for member number `k` of a list. -/
def Nbhood.selectAt (s : Structure K d) (i : ℕ) : List (Nbhood K) → ℕ → (ℕ → ℕ) → Py (Option (Graph K))
  | [], _, _ => .error .indexError
  | n :: _, 0, draw => Nbhood.select s i n draw
  | _ :: l, k + 1, draw => Nbhood.selectAt s i l k draw
end

/-- `neighbors_of(i)` -/
def Nbhood.neighborsOf (n : Nbhood K) (s : Structure K d) (draw : ℕ → ℕ) (i : ℕ) : Py (List ℕ) := multiNeighborsOf (n.select s i draw) i

/-- `neighbors_of(i, include_weights=True)` -/
def Nbhood.weightedNeighborsOf (n : Nbhood K) (s : Structure K d) (draw : ℕ → ℕ) (i : ℕ) : Py (List (ℕ × Option K)) :=
  multiWeightedNeighborsOf (n.select s i draw) i

/-- models/growth/growth_controller.py:11-26 `__init__` with any builder.  `draw t` are the outcomes of `random.choice` in the `t`-th call of
`neighbors_of`, `order t` is the order in which that call lists the neighbours.  For an argument that cannot be a site id the error is that of a single graph,
whatever is drawn. -/
noncomputable def Growth.initNested (order : ℕ → List ℕ → List ℕ) (draw : ℕ → ℕ → ℕ) (s : Structure K d) (background : Val) (b : NbBuilder K d) :
    Py Growth.Ctl := do
  let n ← b.get s
  pure ⟨background, fun t i => match i with
    | .int z => if 0 ≤ z then (n.neighborsOf s (draw t) z.toNat).map (order t) else .error .overflowError
    | .str _ => .error .typeError, 0⟩

/-- structures/square_grid/growth_setup.py:34-85 `grow` with any builder; see `grow` for the other arguments. -/
noncomputable def growNested (G : GridSetup K d) (size : ℤ) (num : K) (background : Val) (nucAmts : Dict Val K) (nb : NbBuilder K d)
    (buffer : Option ℤ) (order : ℕ → List ℕ → List ℕ) (draw : ℕ → ℕ) (fuel : ℕ) (ord : ℕ → List ℕ → List ℕ) (pick : ℕ → ℕ → ℕ)
    (fork : ℕ → Growth.Ctl → Growth.Ctl) (w : ℕ) (sched : ℕ → StepSched) : Option (Py (Simulation K d)) :=
  match G.randomSites (.int size) num background nucAmts buffer order draw fuel with
  | none => none
  | some (.error e) => some (.error e)
  | some (.ok sim) => some (do
    let c ← Growth.initNested ord pick sim.struct background nb
    let res ← runParallel Growth.controller fork c sim.state w size.toNat sched
    let s ← res.lastStep
    pure ⟨s, sim.struct⟩)

end Pyl
