import Verif.Model.Double
import Verif.Model.GrowthSetup
/-
structures/square_grid/grid_setup.py and growth_setup.py once more, in double precision (see Model/Double.lean).  What uses no coordinates and no
arithmetic (the blank state, the two loops of `setup_random_sites`, the growth model) is taken from the exact model.
-/
set_option autoImplicit false

namespace Pyl
namespace Dbl
open Structure GridSetup
variable {d : ℕ}

/-- structures/square_grid/grid_setup.py:39-40 -/
def gridSetup2 : GridSetup ℚ 2 := ⟨buildSquare2⟩
/-- structures/square_grid/grid_setup.py:41-42 -/
def gridSetup3 : GridSetup ℚ 3 := ⟨buildSquare3⟩

/-- core/lattice.py:140 `vec_lengths[0]`: `np.linalg.norm(v)` is `sqrt(v.dot(v))`, with `v.dot(v)` the argument `sq` (see `dist`). -/
def vecLength0 (sq : (Fin d → ℚ) → ℚ) (L : Lattice ℚ d) : Py ℚ :=
  if h : 0 < d then .ok (flSqrt (sq (L.mat ⟨0, h⟩))) else .error .indexError

/-- core/distance_map.py:6-23 `distance`: `np.sqrt(np.square(a - b).sum())`, with `np.square(v).sum()` the argument `sq`. -/
def distance (sq : (Fin d → ℚ) → ℚ) (a b : Fin d → ℚ) : ℚ := flSqrt (sq fun j => fl (a j - b j))

/-- structures/square_grid/grid_setup.py:88-114 `setup_interface`. -/
def interface (G : GridSetup ℚ d) (sq : (Fin d → ℚ) → ℚ) (size : SizeArg) (p1 p2 : Val) : Py (Simulation ℚ d) := do
  let S ← G.builder size
  let len ← vecLength0 sq S.lattice
  let half := pyInt (fl (len / 2))
  let state := (S.sitesOf none).foldl (fun s t =>
    if h : 0 < d then
      if t.loc ⟨0, h⟩ < (half : ℚ) then setOcc s t.id p1 else setOcc s t.id p2
    else s) (blank S .pyNone)
  pure ⟨state, S⟩

/-- structures/square_grid/grid_setup.py:191-224 `add_particle_to_state`. -/
def addParticle (sq : (Fin d → ℚ) → ℚ) (S : Structure ℚ d) (state : SimState) (center : Fin d → ℚ) (radius : ℚ) (phase : Val) : SimState :=
  (S.sitesOf none).foldl (fun s t => if distance sq t.loc center < radius then setOcc s t.id phase else s) state

/-- structures/square_grid/grid_setup.py:116-146 `setup_particle`; `nrm` computes the sum of squares inside `np.linalg.norm`, `sq` the one inside
`distance`. -/
def particle (G : GridSetup ℚ d) (nrm sq : (Fin d → ℚ) → ℚ) (size : SizeArg) (radius : ℚ) (bulk phase : Val) : Py (Simulation ℚ d) := do
  let S ← G.builder size
  let len ← vecLength0 nrm S.lattice
  pure ⟨addParticle sq S (blank S bulk) (fun _ => fl (len / 2)) radius phase, S⟩

/-- structures/square_grid/grid_setup.py:148-189 `setup_random_particles`, with the outcomes of the random functions as arguments (see
`GridSetup.randomParticles`). -/
def randomParticles (G : GridSetup ℚ d) (nrm sq : (Fin d → ℚ) → ℚ) (size : SizeArg) (radius : ℚ) (num : ℕ) (bulk : Val) (phases : PhasesArg)
    (coord : ℕ → Fin d → ℕ) (draw : ℕ → ℕ) : Py (Simulation ℚ d) := do
  let S ← G.builder size
  let len ← vecLength0 nrm S.lattice
  let state ← (List.range num).foldlM (fun s p => do
    if pyInt len ≤ 0 then .error .valueError
    else do
      let phase ← choice phases.seq (draw p)
      pure (addParticle sq S s (fun j => (((coord p j : ℤ) % pyInt len : ℤ) : ℚ)) radius phase)) (blank S bulk)
  pure ⟨state, S⟩

/-- structures/square_grid/grid_setup.py:226-253 `setup_coords`. -/
def coords (G : GridSetup ℚ d) (size : SizeArg) (background : Val) (coordinates : Dict Val (List (Fin d → ℚ))) : Py (Simulation ℚ d) := do
  let S ← G.builder size
  let state ← coordinates.foldlM (fun s pl => pl.2.foldlM (fun s c =>
    match siteAt S c with
    | none => .error .typeError
    | some t => .ok (setOcc s t.id pl.1)) s) (blank S background)
  pure ⟨state, S⟩

/-- structures/square_grid/grid_setup.py:322-335: `ideal_num_sites`; `sum` is `np.sum`, which leaves the order of the additions open.  Amounts that
add up to 0 make numpy divide by zero (nan, inf); here the shares are 0 in that case. -/
def idealSites (sum : List ℚ → ℚ) (nucAmts : Dict Val ℚ) (num : ℤ) : Dict Val ℚ :=
  let total := sum (Dict.values nucAmts)
  nucAmts.foldl (fun m sa => Dict.set m sa.1 (fl (fl (sa.2 / total) * num))) []

/-- structures/square_grid/grid_setup.py:279-382 `setup_random_sites` (see `GridSetup.randomSites`). -/
def randomSites (G : GridSetup ℚ d) (sum : List ℚ → ℚ) (size : SizeArg) (num : ℚ) (background : Val) (nucAmts : Dict Val ℚ) (buffer : Option ℤ)
    (order : ℕ → List ℕ → List ℕ) (draw : ℕ → ℕ) (fuel : ℕ) : Option (Py (Simulation ℚ d)) :=
  match G.builder size with
  | .error e => some (.error e)
  | .ok S =>
    let num := roundHalfEven num
    let nbs : Py (Option (ℕ → ℕ → List ℕ)) := match buffer with
      | none => .ok none
      | some r => do
        let g ← mooreGet r S
        pure (some fun t i => order t (g.neighborsOf i))
    match nbs with
    | .error e => some (.error e)
    | .ok nbs => plantSites S nbs num background nucAmts (idealSites sum nucAmts num) draw fuel

/-- models/growth/growth_controller.py:11-26 `__init__` of the growth controller with the default neighbourhood (Moore of size 1). -/
def growthInit (order : ℕ → List ℕ → List ℕ) (s : Structure ℚ d) (background : Val) : Py Growth.Ctl := do
  let g ← mooreGet 1 s
  pure ⟨background, fun t i => (neighborsOfKey g i).map (order t), 0⟩

/-- structures/square_grid/growth_setup.py:34-85 `grow` with the default neighbourhood (see `Pyl.grow`). -/
def grow (G : GridSetup ℚ d) (sum : List ℚ → ℚ) (size : ℤ) (num : ℚ) (background : Val) (nucAmts : Dict Val ℚ)
    (buffer : Option ℤ) (order : ℕ → List ℕ → List ℕ) (draw : ℕ → ℕ) (fuel : ℕ) (ord : ℕ → List ℕ → List ℕ)
    (fork : ℕ → Growth.Ctl → Growth.Ctl) (w : ℕ) (sched : ℕ → StepSched) : Option (Py (Simulation ℚ d)) :=
  match randomSites G sum (.int size) num background nucAmts buffer order draw fuel with
  | none => none
  | some (.error e) => some (.error e)
  | some (.ok sim) => some (do
    let c ← growthInit ord sim.struct background
    let res ← runParallel Growth.controller fork c sim.state w size.toNat sched
    let s ← res.lastStep
    pure ⟨s, sim.struct⟩)

end Dbl
end Pyl
