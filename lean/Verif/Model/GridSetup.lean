import Verif.Model.Growth
import Verif.Model.Neighborhood
/-
Model of src/pylattica/core/simulation.py (constructor, `state_at`) and src/pylattica/structures/square_grid/grid_setup.py.

Phases are values (in the code: strings).  Every call of a random function is an argument: `draw t` is the outcome of the `t`-th call.
-/
set_option autoImplicit false

namespace Pyl
open Structure

variable {K : Type} [Field K] [LinearOrder K] [FloorRing K] {d : ℕ}

/-- core/simulation.py:10-25 -/
structure Simulation (K : Type) (d : ℕ) where
  state : SimState
  struct : Structure K d

/-- core/simulation.py:49-68 `state_at`. -/
noncomputable def Simulation.stateAt (sim : Simulation K d) (loc : Fin d → K) : Option Props :=
  match sim.struct.siteAt loc with
  | none => none
  | some t => sim.state.getSiteState (.int t.id)

/-- The nonnegative square root, if the field has it (0 otherwise; no theorem uses that case). -/
noncomputable def rootOf (x : K) : K := open Classical in if h : ∃ r, 0 ≤ r ∧ r * r = x then h.choose else 0

/-- core/lattice.py:140 `vec_lengths[0]`: the length of the first lattice vector. -/
noncomputable def vecLength0 (L : Lattice K d) : Py K :=
  if h : 0 < d then .ok (rootOf (∑ j, L.mat ⟨0, h⟩ j ^ 2)) else .error .indexError

/-- `int(x)` on a float: the part after the point is dropped. -/
def pyInt (x : K) : ℤ := if 0 ≤ x then ⌊x⌋ else ⌈x⌉

/-- `distance(a, b) < r` (core/distance_map.py:6-23): `sqrt(q) < r` iff `0 < r` and `q < r * r`. -/
def closerThan (a b : Fin d → K) (r : K) : Prop := 0 < r ∧ ∑ j, (a j - b j) ^ 2 < r * r

instance (a b : Fin d → K) (r : K) : Decidable (closerThan a b r) := inferInstanceAs (Decidable (_ ∧ _))

/-- `random.choice(seq)` when the generator answers `r`; IndexError for an empty sequence. -/
def choice {α : Type} (l : List α) (r : ℕ) : Py α :=
  match l[r % l.length]? with
  | some a => .ok a
  | none => .error .indexError

/-- structures/square_grid/grid_setup.py:23-43.  Only the builder is used by the methods; `dim` other than 2 and 3 leaves the attribute unset
and is not modelled. -/
structure GridSetup (K : Type) (d : ℕ) where
  builder : SizeArg → Py (Structure K d)

/-- structures/square_grid/grid_setup.py:39-40 -/
noncomputable def gridSetup2 : GridSetup K 2 := ⟨buildSquare2⟩
/-- structures/square_grid/grid_setup.py:41-42 -/
noncomputable def gridSetup3 : GridSetup K 3 := ⟨buildSquare3⟩

/-- `state.set_site_state(site[SITE_ID], {DISCRETE_OCCUPANCY: phase})` -/
def setOcc (s : SimState) (i : ℕ) (phase : Val) : SimState := s.setSiteState (.int i) [(DISCRETE_OCCUPANCY, phase)]

namespace GridSetup

/-- structures/square_grid/grid_setup.py:45-51 `_build_blank_state`, 68-86 `setup_solid_phase`. -/
def blank (S : Structure K d) (fill : Val) : SimState :=
  (S.sitesOf none).foldl (fun s t => setOcc s t.id fill) .empty

/-- structures/square_grid/grid_setup.py:88-114 `setup_interface`. -/
noncomputable def interface (G : GridSetup K d) (size : SizeArg) (p1 p2 : Val) : Py (Simulation K d) := do
  let S ← G.builder size
  let len ← vecLength0 S.lattice
  let half := pyInt (len / 2)
  let state := (S.sitesOf none).foldl (fun s t =>
    if h : 0 < d then
      if t.loc ⟨0, h⟩ < (half : K) then setOcc s t.id p1 else setOcc s t.id p2
    else s) (blank S .pyNone)
  pure ⟨state, S⟩

/-- structures/square_grid/grid_setup.py:191-224 `add_particle_to_state`. -/
def addParticle (S : Structure K d) (state : SimState) (center : Fin d → K) (radius : K) (phase : Val) : SimState :=
  (S.sitesOf none).foldl (fun s t => if closerThan t.loc center radius then setOcc s t.id phase else s) state

/-- structures/square_grid/grid_setup.py:116-146 `setup_particle`: the centre is half the length of the first lattice vector along every axis. -/
noncomputable def particle (G : GridSetup K d) (size : SizeArg) (radius : K) (bulk phase : Val) : Py (Simulation K d) := do
  let S ← G.builder size
  let len ← vecLength0 S.lattice
  pure ⟨addParticle S (blank S bulk) (fun _ => len / 2) radius phase, S⟩

/-- The argument `particle_phases`: documented (and annotated) as one name; a list of phases also works. -/
inductive PhasesArg where
  | name (s : String)
  | list (l : List Val)

/-- The sequence `random.choice` picks from: the characters of a string, or the entries of a list. -/
def PhasesArg.seq : PhasesArg → List Val
  | .name s => s.toList.map fun c => .str (String.singleton c)
  | .list l => l

/-- structures/square_grid/grid_setup.py:148-189 `setup_random_particles`.  `coord p j` answers `np.random.choice(n)` for axis `j` of particle `p`
(taken modulo `n`), `draw p` answers `random.choice(particle_phases)`; `np.random.choice(0)` raises ValueError. -/
noncomputable def randomParticles (G : GridSetup K d) (size : SizeArg) (radius : K) (num : ℕ) (bulk : Val) (phases : PhasesArg)
    (coord : ℕ → Fin d → ℕ) (draw : ℕ → ℕ) : Py (Simulation K d) := do
  let S ← G.builder size
  let len ← vecLength0 S.lattice
  let state ← (List.range num).foldlM (fun s p => do
    if pyInt len ≤ 0 then .error .valueError
    else do
      let phase ← choice phases.seq (draw p)
      pure (addParticle S s (fun j => (((coord p j : ℤ) % pyInt len : ℤ) : K)) radius phase)) (blank S bulk)
  pure ⟨state, S⟩

/-- structures/square_grid/grid_setup.py:226-253 `setup_coords`; subscripting the `None` that `site_at` gives off the grid raises TypeError. -/
noncomputable def coords (G : GridSetup K d) (size : SizeArg) (background : Val) (coordinates : Dict Val (List (Fin d → K))) : Py (Simulation K d) := do
  let S ← G.builder size
  let state ← coordinates.foldlM (fun s pl => pl.2.foldlM (fun s c =>
    match S.siteAt c with
    | none => .error .typeError
    | some t => .ok (setOcc s t.id pl.1)) s) (blank S background)
  pure ⟨state, S⟩

/-- structures/square_grid/grid_setup.py:255-277 `setup_noise`; `draw t` answers the `t`-th `random.choice(phases)`. -/
noncomputable def noise (G : GridSetup K d) (size : SizeArg) (phases : List Val) (draw : ℕ → ℕ) : Py (Simulation K d) := do
  let S ← G.builder size
  let r ← (S.sitesOf none).foldlM (fun (sk : SimState × ℕ) t => do
    let phase ← choice phases (draw sk.2)
    pure (setOcc sk.1 t.id phase, sk.2 + 1)) (blank S .pyNone, 0)
  pure ⟨r.1, S⟩

/-! ### setup_random_sites

A `while` loop becomes a recursion on a number of rounds; `none` means that the loop is still running after that many rounds. -/

/-- The variables of the quota loop: `nuc_identities`, `real_num_sites`, and how often `next` was called. -/
structure Quota where
  ids : List Val
  real : Dict Val ℤ
  calls : ℕ

/-- structures/square_grid/grid_setup.py:343-347: one round of the quota loop. `cycle` of an empty list raises StopIteration. -/
def quotaRound (species : List Val) (ideal : Dict Val K) (q : Quota) : Py Quota :=
  match species[q.calls % species.length]? with
  | none => .error .stopIteration
  | some phase =>
    match Dict.get? q.real phase, Dict.get? ideal phase with
    | some r, some i =>
      if (r : K) < i then .ok ⟨q.ids ++ [phase], Dict.set q.real phase (r + 1), q.calls + 1⟩ else .ok { q with calls := q.calls + 1 }
    | _, _ => .error .typeError

/-- structures/square_grid/grid_setup.py:342 `while len(nuc_identities) < num_sites_desired`. -/
def quotaLoop (species : List Val) (ideal : Dict Val K) (num : ℤ) : ℕ → Quota → Option (Py Quota)
  | 0, q => if (q.ids.length : ℤ) < num then none else some (.ok q)
  | fuel + 1, q =>
    if (q.ids.length : ℤ) < num then
      match quotaRound species ideal q with
      | .error e => some (.error e)
      | .ok q' => quotaLoop species ideal num fuel q'
    else some (.ok q)

/-- structures/square_grid/grid_setup.py:322-335: `ideal_num_sites`.  Amounts that add up to 0 make numpy divide by zero (nan, inf); here the shares
are 0 in that case (Verif/Model/RandomSitesAny.lean has nan and inf). -/
def idealSites (nucAmts : Dict Val K) (num : ℤ) : Dict Val K :=
  let total := (Dict.values nucAmts).sum
  nucAmts.foldl (fun m sa => Dict.set m sa.1 (sa.2 / total * num)) []

/-- structures/square_grid/grid_setup.py:339 `real_num_sites = {p: 0 for p in nuc_species}` -/
def zeroSites (nucAmts : Dict Val K) : Dict Val ℤ := nucAmts.foldl (fun m sa => Dict.set m sa.1 0) []

/-- The variables of the placement loop. -/
structure Place where
  state : SimState
  planted : ℕ
  attempts : ℕ

/-- structures/square_grid/grid_setup.py:364-372: whether one of the neighbours is already occupied (`found_existing_nucleus_in_nb`). -/
def buffered (nbs : Option (ℕ → ℕ → List ℕ)) (background : Val) (p : Place) (i : ℕ) : Py Bool :=
  match nbs with
  | none => pure false
  | some nb => (nb p.attempts i).foldlM (fun (found : Bool) (j : ℕ) => do
      let o ← occupancy p.state (.int j)
      pure (if o ≠ background then true else found)) false

/-- structures/square_grid/grid_setup.py:350-380: one round of the placement loop.  The `t`-th round (counted by `total_attempts`) draws `draw t`.
`nbs t i` is what `neighbors_of` answers in that round (`none`: no buffer).  A site without occupancy raises as in the code. -/
def placeRound (sites : List (Site K d)) (nbs : Option (ℕ → ℕ → List ℕ)) (background : Val) (ids : List Val) (num : ℤ) (draw : ℕ → ℕ)
    (p : Place) : Py Place := do
  if (p.attempts : ℤ) > 1000 * num then .error .runtimeError
  else do
    let site ← choice sites (draw p.attempts)
    let cur ← occupancy p.state (.int site.id)
    if cur ≠ background then pure { p with attempts := p.attempts + 1 }
    else do
      let found ← buffered nbs background p site.id
      if found then pure { p with attempts := p.attempts + 1 }
      else match ids[p.planted]? with
        | none => .error .indexError
        | some spec => pure ⟨setOcc p.state site.id spec, p.planted + 1, p.attempts + 1⟩

/-- structures/square_grid/grid_setup.py:349 `while num_sites_planted < num_sites_desired`. -/
def placeLoop (sites : List (Site K d)) (nbs : Option (ℕ → ℕ → List ℕ)) (background : Val) (ids : List Val) (num : ℤ) (draw : ℕ → ℕ) :
    ℕ → Place → Option (Py Place)
  | 0, p => if (p.planted : ℤ) < num then none else some (.ok p)
  | fuel + 1, p =>
    if (p.planted : ℤ) < num then
      match placeRound sites nbs background ids num draw p with
      | .error e => some (.error e)
      | .ok p' => placeLoop sites nbs background ids num draw fuel p'
    else some (.ok p)

/-- structures/square_grid/grid_setup.py:337-382: the two loops of `setup_random_sites` and what it returns, given the neighbours (`none`: no buffer)
and the quotas `ideal`, when each loop may make `fuel` rounds; `none` means that one of them is still running. -/
def plantSites (S : Structure K d) (nbs : Option (ℕ → ℕ → List ℕ)) (num : ℤ) (background : Val) (nucAmts ideal : Dict Val K)
    (draw : ℕ → ℕ) (fuel : ℕ) : Option (Py (Simulation K d)) :=
  match quotaLoop (Dict.keys nucAmts) ideal num fuel ⟨[], zeroSites nucAmts, 0⟩ with
  | none => none
  | some (.error e) => some (.error e)
  | some (.ok q) =>
    match placeLoop (S.sitesOf none) nbs background q.ids num draw fuel ⟨blank S background, 0, 0⟩ with
    | none => none
    | some (.error e) => some (.error e)
    | some (.ok p) => some (.ok ⟨p.state, S⟩)

/-- structures/square_grid/grid_setup.py:279-382 `setup_random_sites`: what the call has done when each of its two loops may make `fuel` rounds;
`none` means that one of them is still running.  `order t` is the order in which the graph lists neighbours in round `t`.
`num` is rounded like Python's `round` (half to even). -/
noncomputable def randomSites (G : GridSetup K d) (size : SizeArg) (num : K) (background : Val) (nucAmts : Dict Val K) (buffer : Option ℤ)
    (order : ℕ → List ℕ → List ℕ) (draw : ℕ → ℕ) (fuel : ℕ) : Option (Py (Simulation K d)) :=
  match G.builder size with
  | .error e => some (.error e)
  | .ok S =>
    let num := roundHalfEven num
    let nbs : Py (Option (ℕ → ℕ → List ℕ)) := match buffer with
      | none => .ok none
      | some r => do
        let g ← (moore r).get S none
        pure (some fun t i => order t (g.neighborsOf i))
    match nbs with
    | .error e => some (.error e)
    | .ok nbs => plantSites S nbs num background nucAmts (idealSites nucAmts num) draw fuel

end GridSetup
end Pyl
