import Verif.Model.Growth
import Verif.Model.Analyzer
/-
Model of src/pylattica/models/growth/growth_controller.py for phases of any kind: compared with Python's `==` and hashed by the dict of counts.  Verif/Model/Growth.lean is the same
rule for phases that can be hashed (`C139_hashable`).
-/
set_option autoImplicit false

namespace Pyl
namespace Growth

open Classical in
/-- models/growth/growth_controller.py:34-38: one round of the counting loop.  `nb_phase not in counts` hashes the phase, also if `counts` is empty: a list or dict raises
TypeError. -/
noncomputable def countAny (background : Val) (counts : Dict Val ℕ) (phase : Val) : Py (Dict Val ℕ) :=
  if ¬ Val.PyEq phase background then
    if phase.hashable then
      match Dict.get? counts phase with
      | none => .ok (Dict.set counts phase 1)
      | some n => .ok (Dict.set counts phase (n + 1))
    else .error .typeError
  else .ok counts

open Classical in
/-- models/growth/growth_controller.py:28-53 `get_state_update` for phases of any kind. -/
noncomputable def updateAny (c : Ctl) (sid : Key) (s : SimState) : Py (Ctl × Resp) := do
  let cur ← occupancy s sid
  if Val.PyEq cur c.background then do
    let nbs ← c.nbs c.calls sid
    let counts ← nbs.foldlM (fun (counts : Dict Val ℕ) (nb : ℕ) => do
      let phase ← occupancy s (.int nb)
      countAny c.background counts phase) []
    if 0 < counts.length then
      pure ({ c with calls := c.calls + 1 }, .dict [(DISCRETE_OCCUPANCY, (pick counts).1)])
    else pure ({ c with calls := c.calls + 1 }, .dict [])
  else pure (c, .dict [])

/-- models/growth/growth_controller.py:10 as the runner sees it. -/
noncomputable def controllerAny : Controller Ctl where
  update := updateAny

end Growth
end Pyl
