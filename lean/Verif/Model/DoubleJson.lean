import Verif.Model.DoubleHoneycomb
import Verif.Model.Simulation
/-
Reading structures and simulations from dictionaries in double precision (see Model/Double.lean).  `as_dict` and the JSON encoder do not compute:
`json.dump` writes the shortest decimal that is read back as the same double, so numbers survive unchanged.
-/
set_option autoImplicit false

namespace Pyl
namespace Dbl
open Structure

/-- core/periodic_structure.py:130-138 `from_dict`, with `add_site` as an argument. -/
noncomputable def fromDictWith (add : ∀ d, Structure ℚ d → String × (Fin d → ℚ) → Py (Structure ℚ d)) (dct : Props) : Py (Σ d, Structure ℚ d) :=
  match Dict.get? dct (.str "lattice") with
  | some (.dict l) => do
    let L ← Lattice.fromDict l
    match Dict.get? dct (.str "_sites") with
    | some (.dict sites) => do
      let sites' ← intKeys sites
      let s ← sites'.foldlM (fun s kv => do add L.1 s (← readSite L.1 kv.2)) (new L.2)
      pure ⟨L.1, s⟩
    | some _ => .error .attributeError
    | none => .error .keyError
  | some _ => .error .typeError
  | none => .error .keyError

/-- `PeriodicStructure.from_dict` for the lattices of Model/Double.lean. -/
noncomputable def fromDict : Props → Py (Σ d, Structure ℚ d) := fromDictWith fun _ => addOrRaise

/-- `PeriodicStructure.from_dict` for any lattice. -/
noncomputable def Arith.fromDict (A : ∀ d, Arith d) : Props → Py (Σ d, Structure ℚ d) := fromDictWith fun d => (A d).addOrRaise

/-- core/simulation.py:37-41 `from_dict`: first the state, then the structure. -/
noncomputable def simFromDict (read : Props → Py (Σ d, Structure ℚ d)) (dct : Props) : Py (Σ d, Simulation ℚ d) :=
  match Dict.get? dct (.str "state") with
  | some (.dict st) => do
    let state ← SimState.fromDict st
    match Dict.get? dct (.str "structure") with
    | some (.dict sd) => do
      let s ← read sd
      pure ⟨s.1, state, s.2⟩
    | some _ => .error .typeError
    | none => .error .keyError
  | some _ => .error .typeError
  | none => .error .keyError

/-- core/simulation.py:43-47 `from_file`. -/
noncomputable def simFromFile (read : Props → Py (Σ d, Structure ℚ d)) : Val → Py (Σ d, Simulation ℚ d)
  | .dict dct => simFromDict read dct
  | _ => .error .typeError

end Dbl
end Pyl
