import Verif.Model.Result
/-
Specifications for the `SimulationResult` properties.
-/
set_option autoImplicit false

namespace Pyl
namespace Spec

/-- Calls on a `SimulationResult`. -/
inductive ROp where
  | add (d : Option Props)
  | load (interval : Int)
  | get (k : Int)
  | iterate
  | output (s : SimState)

/-- The object after the call, also when it raises (the caller catches the exception). -/
def ROp.effect (r : SimResult) : ROp → SimResult
  | .add d => r.addStep d
  | .load m => (r.loadStepsEff m).1
  | .get _ => r
  | .iterate => r
  | .output s => r.setOutput s

/-- A result after a history of calls, starting from the constructor. -/
def resultAfter (s0 : SimState) (ops : List ROp) : SimResult := ops.foldl ROp.effect (SimResult.new s0)

/-- The diffs added in a history, in order. -/
def added : List ROp → List (Option Props)
  | [] => []
  | .add d :: ops => d :: added ops
  | _ :: ops => added ops

/-- The state that step `k` should be: the first `k` diffs applied, in order, to the initial state. -/
def stepState (s0 : SimState) (ds : List (Option Props)) (k : Nat) : Py SimState :=
  (ds.take k).foldlM (fun s d => s.batchUpdateO d) s0

end Spec
end Pyl
