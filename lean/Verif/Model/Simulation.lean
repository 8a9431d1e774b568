import Verif.Model.GridSetup
import Verif.Model.Json
/-
Model of the serialisation methods of src/pylattica/core/simulation.py (the constructor and `state_at` are in
Model/GridSetup.lean).
-/
set_option autoImplicit false

namespace Pyl
namespace Simulation

/-- core/simulation.py:29-31 `as_dict`. -/
def asDict {d : ℕ} (sim : Simulation ℚ d) : Props :=
  [(.str "state", .dict sim.state.asDict), (.str "structure", .dict sim.struct.asDict)]

/-- core/simulation.py:33-35 `to_file`.  The text of the file is not modelled: the file is the value that `json.load` reads
from it. -/
def toFile {d : ℕ} (sim : Simulation ℚ d) : Val := (Val.dict sim.asDict).json

/-- core/simulation.py:37-41 `from_dict`: first the state, then the structure. -/
noncomputable def fromDict (dct : Props) : Py (Σ d, Simulation ℚ d) :=
  match Dict.get? dct (.str "state") with
  | some (.dict st) => do
    let state ← SimState.fromDict st
    match Dict.get? dct (.str "structure") with
    | some (.dict sd) => do
      let s ← Structure.fromDict sd
      pure ⟨s.1, state, s.2⟩
    | some _ => .error .typeError
    | none => .error .keyError
  | some _ => .error .typeError
  | none => .error .keyError

/-- core/simulation.py:43-47 `from_file`. -/
noncomputable def fromFile : Val → Py (Σ d, Simulation ℚ d)
  | .dict dct => fromDict dct
  | _ => .error .typeError

end Simulation
end Pyl
