import Verif.Model.Json
/-
Model of src/pylattica/core/simulation_state.py for states of any shape: `self._state` is whatever value the constructor was given.  `SimState` (Model/State.lean)
is the special case of a dict with a dict of dicts under `SITES` and a dict or nothing under `GENERAL`.
-/
set_option autoImplicit false

namespace Pyl
namespace Raw

/-- `v[k]` for the string constants `SITES` and `GENERAL`: only dicts can be subscripted with a string. -/
def item (v : Val) (k : Key) : Py Val :=
  match v with
  | .dict d =>
    match Dict.get? d k with
    | some x => .ok x
    | none => .error .keyError
  | _ => .error .typeError

/-- A value whose dict methods (`keys`, `values`, `items`, `get`) are called. -/
def methods : Val → Py Props
  | .dict d => .ok d
  | _ => .error .attributeError

/-- `{**v, ...}` -/
def unpack : Val → Py Props
  | .dict d => .ok d
  | _ => .error .typeError

/-- `v[k] = x` for a string `k`. -/
def setItem (v : Val) (k : Key) (x : Val) : Py Val :=
  match v with
  | .dict d => .ok (.dict (Dict.set d k x))
  | _ => .error .typeError

/-- core/simulation_state.py:41-55 `__init__`; the deep copy has the same value. -/
def init : Val → Val
  | .pyNone => .dict [(SITES, .dict []), (GENERAL, .dict [])]
  | v => v

/-- core/simulation_state.py:68-75 `site_ids`. -/
def siteIds (v : Val) : Py (List Key) := do
  let s ← methods (← item v SITES)
  pure (Dict.keys s)

/-- core/simulation_state.py:57-66 `size`. -/
def size (v : Val) : Py Nat := do pure (← siteIds v).length

/-- core/simulation_state.py:77-86 `all_site_states`. -/
def allSiteStates (v : Val) : Py (List Val) := do
  let s ← methods (← item v SITES)
  pure (Dict.values s)

/-- core/simulation_state.py:88-101 `get_site_state`. -/
def getSiteState (v : Val) (k : Key) : Py Val := do
  let s ← methods (← item v SITES)
  pure ((Dict.get? s k).getD .pyNone)

/-- core/simulation_state.py:103-111 `get_general_state`. -/
def getGeneralState (v : Val) : Py Val := do
  let d ← methods v
  pure ((Dict.get? d GENERAL).getD .pyNone)

/-- core/simulation_state.py:113-123 `set_general_state`. -/
def setGeneralState (v u : Val) : Py Val := do
  let old ← unpack (← getGeneralState v)
  let new ← unpack u
  setItem v GENERAL (.dict (Dict.update old new))

/-- core/simulation_state.py:134-137: the state that is updated; a stored None counts as absent. -/
def oldSite (s : Props) (k : Key) : Val :=
  match Dict.get? s k with
  | none => .dict [(SITE_ID, k.toVal)]
  | some .pyNone => .dict [(SITE_ID, k.toVal)]
  | some x => x

/-- core/simulation_state.py:125-139 `set_site_state`. -/
def setSiteState (v : Val) (k : Key) (u : Val) : Py Val := do
  let s ← methods (← item v SITES)
  let old ← unpack (oldSite s k)
  let new ← unpack u
  setItem v SITES (.dict (Dict.set s k (.dict (Dict.update old new))))

/-- core/simulation_state.py:159-160, 164-165: the loop over the items of a dict, with the state it leaves behind and the exception, if any. -/
def setSites (v : Val) : Props → Val × Option Err
  | [] => (v, none)
  | (k, u) :: rest =>
    match setSiteState v k u with
    | .ok v' => setSites v' rest
    | .error e => (v, some e)

/-- core/simulation_state.py:141-165 `batch_update`: the state it leaves behind and the exception, if any.  `GENERAL in update_batch` is defined for dicts, lists,
tuples and strings; all but dicts fail at the following `.get` or `.items`. -/
def batchUpdate (v : Val) : Val → Val × Option Err
  | .dict b =>
    match Dict.get? b GENERAL with
    | some g =>
      match methods ((Dict.get? b SITES).getD (.dict [])) with
      | .error e => (v, some e)
      | .ok d =>
        match setSites v d with
        | (v', some e) => (v', some e)
        | (v', none) =>
          match setGeneralState v' g with
          | .ok v'' => (v'', none)
          | .error e => (v', some e)
    | none => setSites v b
  | .list _ => (v, some .attributeError)
  | .tup _ => (v, some .attributeError)
  | .str _ => (v, some .attributeError)
  | .num _ => (v, some .typeError)
  | .pyNone => (v, some .typeError)

/-- core/simulation_state.py:167-176 `copy`: `SimulationState(self._state)`. -/
def copy (v : Val) : Val := init v

/-- core/simulation_state.py:178-179 `__eq__`. -/
def Eqv (v w : Val) : Prop := Val.PyEq v w

/-- core/simulation_state.py:26-30 `from_dict`.  (That the argument is changed too is modelled in Model/HeapJson.lean.) -/
def fromDict (doc : Val) : Py Val := do
  let state ← item doc (.str "state")
  let sites ← methods (← item state SITES)
  let sites' ← intKeys sites
  let state' ← setItem state SITES (.dict sites')
  pure (init state')

end Raw
end Pyl
