import Verif.Model.Life
/-
Model of src/pylattica/models/growth/growth_controller.py.
-/
set_option autoImplicit false

namespace Pyl
namespace Growth

/-- models/growth/growth_controller.py:10-26.  The attributes of a controller.  `nbs t i` is what the `t`-th call of
`self.nb_graph.neighbors_of` answers if it is made for site `i`: the answers may vary from call to call, both in order (the graph library
promises none) and, for stochastic neighbourhoods, in content.  `calls` counts the calls made so far.  The phase set is stored by the code
but not used. -/
structure Ctl where
  background : Val
  nbs : ℕ → Key → Py (List ℕ)
  calls : ℕ

/-- models/growth/growth_controller.py:31-39: one round of the counting loop.  Phases are taken to be hashable: a list or dict
other than the background raises TypeError in line 35 (`nb_phase not in counts`); Verif/Model/GrowthAny.lean has the rule for phases of any kind. -/
def count (background : Val) (counts : Dict Val ℕ) (phase : Val) : Dict Val ℕ :=
  if phase ≠ background then
    match Dict.get? counts phase with
    | none => Dict.set counts phase 1
    | some n => Dict.set counts phase (n + 1)
  else counts

/-- models/growth/growth_controller.py:42-47: the first entry with the largest count. -/
def pick (counts : Dict Val ℕ) : Val × ℕ :=
  counts.foldl (fun best pc => if pc.2 > best.2 then pc else best) (.pyNone, 0)

/-- models/growth/growth_controller.py:28-53 `get_state_update`. -/
def update (c : Ctl) (sid : Key) (s : SimState) : Py (Ctl × Resp) := do
  let cur ← occupancy s sid
  if cur = c.background then do
    let nbs ← c.nbs c.calls sid
    let counts ← nbs.foldlM (fun (counts : Dict Val ℕ) (nb : ℕ) => do
      let phase ← occupancy s (.int nb)
      pure (count c.background counts phase)) []
    if 0 < counts.length then
      pure ({ c with calls := c.calls + 1 }, .dict [(DISCRETE_OCCUPANCY, (pick counts).1)])
    else pure ({ c with calls := c.calls + 1 }, .dict [])
  else pure (c, .dict [])

/-- models/growth/growth_controller.py:10 `GrowthController` as the runner sees it; `pre_run` is the default (nothing). -/
def controller : Controller Ctl where
  update := update

variable {K : Type} [Field K] [LinearOrder K] [FloorRing K] {d : ℕ}

/-- models/growth/growth_controller.py:11-26 `__init__` with a builder of one graph (`None`: Moore of size 1 in the structure's dimension).
`order t` is the order in which the `t`-th call lists the neighbours. -/
noncomputable def init (order : ℕ → List ℕ → List ℕ) (s : Structure K d) (background : Val := VACANT) (b : Option (Builder K d) := none) :
    Py Ctl := do
  let g ← (b.getD (moore 1)).get s none
  pure ⟨background, fun t i => (neighborsOfKey g i).map (order t), 0⟩

/-- models/growth/growth_controller.py:11-26 `__init__` with a stochastic builder; `draw t` is the outcome of `random.choice` in the `t`-th call. -/
noncomputable def initStochastic (order : ℕ → List ℕ → List ℕ) (draw : ℕ → ℕ) (s : Structure K d) (background : Val) (bs : List (Builder K d)) :
    Py Ctl := do
  let gs ← stochasticGet bs s
  pure ⟨background, fun t i => match i with
    | .int n => if 0 ≤ n then (multiNeighborsOf (stochasticNbhood gs (draw t)) n.toNat).map (order t) else .error .overflowError
    | .str _ => .error .typeError, 0⟩

end Growth
end Pyl
