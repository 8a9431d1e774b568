import Verif.Model.Py
/-
Model of src/pylattica/core/simulation_state.py and src/pylattica/core/constants.py.
-/
set_option autoImplicit false

namespace Pyl

/-- core/constants.py:2  `SITE_ID = "_site_id"` -/
def SITE_ID : Key := .str "_site_id"
/-- core/constants.py:5  `GENERAL = "GENERAL"` -/
def GENERAL : Key := .str "GENERAL"
/-- core/constants.py:6  `SITES = "SITES"` -/
def SITES : Key := .str "SITES"

/-- The Python value of a dict key (used when a site id is stored under `_site_id`). -/
def Key.toVal : Key → Val
  | .int i => .num i
  | .str s => .str s

/-- core/simulation_state.py:41-55.  The dict `self._state`.  It always has a `SITES` section
(every method indexes it); the `GENERAL` section may be missing when the constructor was given a
dict without it (line 55), hence the `Option`. -/
structure SimState where
  sites : Dict Key Props
  general : Option Props
deriving DecidableEq

namespace SimState

/-- core/simulation_state.py:49-53: `SimulationState()`. -/
def empty : SimState := ⟨[], some []⟩

/-- core/simulation_state.py:68-75 `site_ids`. -/
def siteIds (s : SimState) : List Key := Dict.keys s.sites

/-- core/simulation_state.py:57-66 `size`. -/
def size (s : SimState) : Nat := (siteIds s).length

/-- core/simulation_state.py:77-86 `all_site_states`. -/
def allSiteStates (s : SimState) : List Props := Dict.values s.sites

/-- core/simulation_state.py:88-101 `get_site_state` (None when absent). -/
def getSiteState (s : SimState) (sid : Key) : Option Props := Dict.get? s.sites sid

/-- core/simulation_state.py:103-111 `get_general_state` (None when the section is missing). -/
def getGeneralState (s : SimState) : Option Props := s.general

/-- core/simulation_state.py:113-123 `set_general_state`: `{**old_state, **updates}`; unpacking
`None` raises TypeError. -/
def setGeneralState (s : SimState) (u : Props) : Py SimState :=
  match s.general with
  | none => .error .typeError
  | some g => .ok { s with general := some (Dict.update g u) }

/-- core/simulation_state.py:125-139 `set_site_state`. -/
def setSiteState (s : SimState) (sid : Key) (u : Props) : SimState :=
  let old := match Dict.get? s.sites sid with
    | some o => o
    | none => [(SITE_ID, sid.toVal)]
  { s with sites := Dict.set s.sites sid (Dict.update old u) }

/-- `set_site_state` on an arbitrary value: `**updates` raises TypeError unless it is a dict. -/
def setSiteStateV (s : SimState) (sid : Key) : Val → Py SimState
  | .dict u => .ok (setSiteState s sid u)
  | _ => .error .typeError

/-- `set_general_state` on an arbitrary value. -/
def setGeneralStateV (s : SimState) : Val → Py SimState
  | .dict u => setGeneralState s u
  | _ => .error .typeError

/-- core/simulation_state.py:159-160, 164-165: `for site_id, updates in d.items(): self.set_site_state(...)`. -/
def setSites (s : SimState) (d : Props) : Py SimState :=
  d.foldlM (fun s ku => setSiteStateV s ku.1 ku.2) s

/-- core/simulation_state.py:141-165 `batch_update` on a dict. -/
def batchUpdate (s : SimState) (b : Props) : Py SimState :=
  match Dict.get? b GENERAL with
  | some g =>
    match Dict.get? b SITES with
    | none => do setGeneralStateV (← setSites s []) g
    | some (.dict d) => do setGeneralStateV (← setSites s d) g
    | some _ => .error .attributeError
  | none => setSites s b

/-- `batch_update(None)`: `GENERAL in None` raises TypeError (line 158). -/
def batchUpdateO (s : SimState) : Option Props → Py SimState
  | none => .error .typeError
  | some b => batchUpdate s b

/-- The object left behind by the loop of lines 159-160 / 164-165, also when it raises half way: entries
before the offending one stay applied.  Second component: the exception, if any. -/
def setSitesEff (s : SimState) : Props → SimState × Option Err
  | [] => (s, none)
  | (k, v) :: d =>
    match setSiteStateV s k v with
    | .ok s' => setSitesEff s' d
    | .error e => (s, some e)

/-- core/simulation_state.py:141-165 `batch_update` with the object it leaves behind when it raises. -/
def batchUpdateEff (s : SimState) (b : Props) : SimState × Option Err :=
  let finish (r : SimState × Option Err) (g : Val) : SimState × Option Err :=
    match r with
    | (s', some e) => (s', some e)
    | (s', none) =>
      match setGeneralStateV s' g with
      | .ok s'' => (s'', none)
      | .error e => (s', some e)
  match Dict.get? b GENERAL with
  | some g =>
    match Dict.get? b SITES with
    | none => finish (setSitesEff s []) g
    | some (.dict d) => finish (setSitesEff s d) g
    | some _ => (s, some .attributeError)
  | none => setSitesEff s b

/-- core/simulation_state.py:32-39 `from_struct`: an empty dict of updates for every site id. -/
def fromStruct (ids : List Key) : SimState :=
  ids.foldl (fun s sid => setSiteState s sid []) empty

/-- core/simulation_state.py:167-176 `copy`.  As a value the copy is the state itself
(object identity is modelled in `Model/Heap.lean`). -/
def copy (s : SimState) : SimState := s

/-- core/simulation_state.py:178-179 `__eq__`: equality of the nested dicts. -/
def Eqv (s t : SimState) : Prop :=
  Dict.EqvBy (Dict.EqvBy Val.PyEq) s.sites t.sites ∧
  (match s.general, t.general with
    | none, none => True
    | some p, some q => Dict.EqvBy Val.PyEq p q
    | _, _ => False)

/-- All dicts of the state have pairwise different keys (true of every Python object). -/
structure WF (s : SimState) : Prop where
  sites : Dict.WF s.sites
  site : ∀ kv ∈ s.sites, (Val.dict kv.2).WF
  general : ∀ g, s.general = some g → (Val.dict g).WF

end SimState
end Pyl
