import Verif.Model.Runner
import Verif.Spec.Runner
/-
Specification of what the workers of a parallel run see (C89).
-/
set_option autoImplicit false

namespace Pyl
namespace Spec

/-- The earlier steps whose updates have reached worker `v` when it executes a batch of step `k`: the update of step `m` is handed out with the
batches of step `m + 1`, so it reaches exactly the workers that get one of those. -/
def reached (sched : Nat → StepSched) (v k : Nat) : List Nat := (List.range k).filter fun m => decide (v ∈ (sched (m + 1)).map Prod.snd)

/-- The state made of `s0` and the recorded updates of the listed steps. -/
def stateOf (s0 : SimState) (diffs : List (Option Props)) (steps : List Nat) : Py SimState :=
  steps.foldlM (fun s m => s.batchUpdateO (diffs.getD m none)) s0

/-- The recorded update `d` says `p` about site `i`. -/
def Records (d : Option Props) (i : Key) (p : Option Props) : Prop :=
  (d = none ∧ p = none) ∨ ∃ e ps, d = some e ∧ Dict.get? e SITES = some (.dict ps) ∧ Dict.get? ps i = p.map Val.dict

end Spec
end Pyl
