import Verif.Model.State
/-
Specifications for the `SimulationState` properties.
-/
set_option autoImplicit false

namespace Pyl
namespace Spec

/-- `new` is `old` with the entries of `u` written over it: every key of `u` has `u`'s value, every
other key what it had before. -/
def Merged (old u new : Props) : Prop :=
  (∀ k v, Dict.get? u k = some v → Dict.get? new k = some v) ∧
  (∀ k, k ∉ Dict.keys u → Dict.get? new k = Dict.get? old k)

/-- The elements of a list in order of first occurrence. -/
def firstOcc {α : Type} [DecidableEq α] (l : List α) : List α :=
  l.foldl (fun acc a => if a ∈ acc then acc else acc ++ [a]) []

/-- The state-changing calls of `SimulationState`. -/
inductive Op where
  | setSite (i : Key) (u : Props)
  | setGeneral (u : Props)
  | batch (b : Props)

/-- Make the call. -/
def Op.run (s : SimState) : Op → Py SimState
  | .setSite i u => .ok (s.setSiteState i u)
  | .setGeneral u => s.setGeneralState u
  | .batch b => s.batchUpdate b

/-- The object after the call, also when the call raises (`set_site_state` and `set_general_state` raise
before changing anything). -/
def Op.effect (s : SimState) : Op → SimState
  | .setSite i u => s.setSiteState i u
  | .setGeneral u => match s.setGeneralState u with | .ok s' => s' | .error _ => s
  | .batch b => (s.batchUpdateEff b).1

/-- The site ids an operation writes to, in order. -/
def Op.ids : Op → List Key
  | .setSite i _ => [i]
  | .setGeneral _ => []
  | .batch b =>
    match Dict.get? b GENERAL with
    | none => Dict.keys b
    | some _ => match Dict.get? b SITES with
      | some (.dict d) => Dict.keys d
      | _ => []

/-- A history of calls, none of which raises. -/
def history (s : SimState) : List Op → Py SimState
  | [] => .ok s
  | o :: os => do history (← o.run s) os

/-- A history of calls in which exceptions are caught and ignored by the caller. -/
def historyEff (s : SimState) : List Op → SimState
  | [] => s
  | o :: os => historyEff (o.effect s) os

/-- No site update inside the operation writes the key `_site_id`. -/
def Op.keepsSiteId : Op → Prop
  | .setSite _ u => SITE_ID ∉ Dict.keys u
  | .setGeneral _ => True
  | .batch b =>
    (∀ k u, (k, Val.dict u) ∈ b → SITE_ID ∉ Dict.keys u) ∧
    (∀ d, Dict.get? b SITES = some (.dict d) → ∀ k u, (k, Val.dict u) ∈ d → SITE_ID ∉ Dict.keys u)

end Spec
end Pyl
