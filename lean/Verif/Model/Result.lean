import Verif.Model.Runner
/-
Model of src/pylattica/core/simulation_result.py (reading side).
-/
set_option autoImplicit false

namespace Pyl
namespace SimResult

/-- Apply diffs in order with `batch_update`. -/
def replay (s : SimState) : List (Option Props) → Py SimState
  | [] => .ok s
  | d :: ds => do replay (← s.batchUpdateO d) ds

/-- core/simulation_result.py:127-130: `for ud_idx in range(0, step_no): state.batch_update(self._diffs[ud_idx])`;
indexing past the end raises IndexError *after* the available diffs have been applied. -/
def replayTo (s : SimState) : List (Option Props) → Nat → Py SimState
  | _, 0 => .ok s
  | [], _ + 1 => .error .indexError
  | d :: ds, n + 1 => do replayTo (← s.batchUpdateO d) ds n

/-- core/simulation_result.py:109-130 `get_step` (`range(0, k)` is empty for negative `k`). -/
def getStep (r : SimResult) (k : Int) : Py SimState :=
  match Dict.get? r.stored k with
  | some s => .ok s
  | none => replayTo r.initial.copy r.diffs k.toNat

/-- core/simulation_result.py:79-88 `last_step` -/
def lastStep (r : SimResult) : Py SimState := r.getStep ((r.len : Int) - 1)
/-- core/simulation_result.py:90-92 `first_step` -/
def firstStep (r : SimResult) : Py SimState := r.getStep 0

/-- core/simulation_result.py:100-107, the loop of `load_steps` from diff index `i`. -/
def loadLoop (interval : Int) : Nat → SimState → List (Option Props) → Dict Int SimState →
    Py (Dict Int SimState)
  | _, _, [], stored => .ok stored
  | i, live, d :: ds, stored => do
    let live' ← live.batchUpdateO d
    let stepNo : Int := (i : Int) + 1
    if interval = 0 then .error .zeroDivisionError
    else
      let stored' := if stepNo % interval = 0 ∧ Dict.get? stored stepNo = none
        then Dict.set stored stepNo live'.copy else stored
      loadLoop interval (i + 1) live' ds stored'

/-- core/simulation_result.py:97-107 `load_steps` (the progress bar is not modelled). Lean's `%` on
integers differs from Python's for negative divisors, but both are zero for the same arguments, which is
all the code uses. -/
def loadSteps (r : SimResult) (interval : Int) : Py SimResult := do
  let stored0 := Dict.set r.stored 0 r.initial.copy
  let stored ← loadLoop interval 0 r.initial.copy r.diffs stored0
  pure { r with stored := stored }

/-- The dict of stored states left behind by the loop of `load_steps` (lines 100-107), also when it raises half way,
and the exception, if any. -/
def loadLoopEff (interval : Int) : Nat → SimState → List (Option Props) → Dict Int SimState →
    Dict Int SimState × Option Err
  | _, _, [], stored => (stored, none)
  | i, live, d :: ds, stored =>
    match live.batchUpdateO d with
    | .error e => (stored, some e)
    | .ok live' =>
      let stepNo : Int := (i : Int) + 1
      if interval = 0 then (stored, some .zeroDivisionError)
      else
        let stored' := if stepNo % interval = 0 ∧ Dict.get? stored stepNo = none
          then Dict.set stored stepNo live'.copy else stored
        loadLoopEff interval (i + 1) live' ds stored'

/-- core/simulation_result.py:97-107 `load_steps`: the object it leaves behind, also when it raises. -/
def loadStepsEff (r : SimResult) (interval : Int) : SimResult × Option Err :=
  let x := loadLoopEff interval 0 r.initial.copy r.diffs (Dict.set r.stored 0 r.initial.copy)
  ({ r with stored := x.1 }, x.2)

/-- core/simulation_result.py:66-77 `steps()`, the values at the moment they are yielded (aliasing of the
yielded object is modelled in `Model/Heap.lean`).  The generator yields before each diff, so the state after
the last diff is applied but never yielded. -/
def stepsFrom (live : SimState) : List (Option Props) → Py (List SimState)
  | [] => .ok []
  | d :: ds => do
    let live' ← live.batchUpdateO d
    let rest ← stepsFrom live' ds
    pure (live :: rest)

/-- core/simulation_result.py:66-77 `list(result.steps())` -/
def steps (r : SimResult) : Py (List SimState) := stepsFrom r.initial.copy r.diffs

end SimResult
end Pyl
