import Verif.Model.Growth
import Verif.Model.Result
import Verif.Model.Structure
/-
Model of src/pylattica/core/analyzer.py, src/pylattica/discrete/discrete_step_analyzer.py, src/pylattica/discrete/discrete_state_result_analyzer.py
and src/pylattica/discrete/phase_set.py.

Fractions are exact rationals (in the code: floats).  The figures the plotting functions draw are given by their traces.
-/
set_option autoImplicit false

namespace Pyl

mutual
/-- Whether Python can hash the value: lists and dicts cannot be hashed, tuples only if their entries can. -/
def Val.hashable : Val → Bool
  | .pyNone | .num _ | .str _ => true
  | .list _ | .dict _ => false
  | .tup l => Val.hashableAll l
/-- Whether all values can be hashed. -/
def Val.hashableAll : List Val → Bool
  | [] => true
  | v :: l => v.hashable && Val.hashableAll l
end

/-- `d.get(v)` / `d[v]` look the value up as a key: TypeError if it cannot be hashed; `none` if no key of the model equals it. -/
def Val.toKey : Val → Py (Option Key)
  | .num q => .ok (if q.den = 1 then some (.int q.num) else none)
  | .str s => .ok (some (.str s))
  | v => if v.hashable then .ok none else .error .typeError

/-- `state.get_site_state(v)` for a value found in a site's dict. -/
def SimState.getSiteStateV (s : SimState) (v : Val) : Py (Option Props) := do
  match ← v.toKey with
  | none => pure none
  | some k => pure (s.getSiteState k)

/-- A state criterion: it is called with a site's dict (or None) and may raise. -/
abbrev Criterion := Option Props → Py Bool

namespace Analyzer
variable {K : Type} {d : ℕ}

/-- `p[SITE_ID]` on a site's dict or None. -/
def siteIdOf : Option Props → Py Val
  | none => .error .typeError
  | some p =>
    match Dict.get? p SITE_ID with
    | none => .error .keyError
    | some v => .ok v

/-- core/analyzer.py:60-63: the criteria are tried in order until one fails. -/
def meets : List Criterion → Option Props → Py Bool
  | [], _ => .ok true
  | c :: cs, p => do if ← c p then meets cs p else pure false

/-- core/analyzer.py:49-53: the list that is filtered.  Without a structure the class is ignored. -/
def candidates (A : Option (Structure K d)) (s : SimState) (cls : Option String) : List (Option Props) :=
  match A with
  | some S => (S.sitesOf cls).map fun t => s.getSiteState (.int t.id)
  | none => s.allSiteStates.map some

/-- core/analyzer.py:55-68: one candidate. -/
def keep (s : SimState) (crits : List Criterion) (found : List Val) (c : Option Props) : Py (List Val) := do
  let id ← siteIdOf c
  let st ← s.getSiteStateV id
  if ← meets crits st then
    let id ← siteIdOf c
    pure (found ++ [id])
  else pure found

/-- core/analyzer.py:22-68 `get_sites`.  `A` is the structure given to the constructor (lines 11-20), if any. -/
def getSites (A : Option (Structure K d)) (s : SimState) (cls : Option String) (crits : List Criterion) : Py (List Val) :=
  (candidates A s cls).foldlM (keep s crits) []

open Classical in
/-- core/analyzer.py:98-102 `_criteria`; `.get` of an absent key is None, and `None.get` raises AttributeError. -/
noncomputable def equalTo (pairs : Props) : Criterion
  | none => .error .attributeError
  | some p => .ok (pairs.all fun kv => decide (Val.PyEq ((Dict.get? p kv.1).getD .pyNone) kv.2))

/-- core/analyzer.py:70-104 `get_sites_where_equal`. -/
noncomputable def getSitesWhereEqual (A : Option (Structure K d)) (s : SimState) (pairs : Props) (cls : Option String) : Py (List Val) :=
  getSites A s cls [equalTo pairs]

/-- core/analyzer.py:106-131 `get_site_count`. -/
def getSiteCount (A : Option (Structure K d)) (s : SimState) (cls : Option String) (crits : List Criterion) : Py ℕ := do
  pure (← getSites A s cls crits).length

/-- core/analyzer.py:133-157 `get_site_count_where_equal`. -/
noncomputable def getSiteCountWhereEqual (A : Option (Structure K d)) (s : SimState) (pairs : Props) (cls : Option String) : Py ℕ := do
  pure (← getSitesWhereEqual A s pairs cls).length

/-! ### discrete_step_analyzer.py -/

/-- discrete/discrete_step_analyzer.py:32-48 `cell_count`. -/
noncomputable def cellCount (A : Option (Structure K d)) (s : SimState) (phase : Val) : Py ℕ :=
  getSiteCountWhereEqual A s [(DISCRETE_OCCUPANCY, phase)] none

/-- discrete/discrete_step_analyzer.py:12-30 `cell_fraction`. -/
noncomputable def cellFraction (A : Option (Structure K d)) (s : SimState) (phase : Val) : Py ℚ := do
  let n ← cellCount A s phase
  if s.size = 0 then .error .zeroDivisionError else pure ((n : ℚ) / s.size)

/-- discrete/discrete_step_analyzer.py:50-67 `cell_ratio`. -/
noncomputable def cellRatio (A : Option (Structure K d)) (s : SimState) (p1 p2 : Val) : Py ℚ := do
  let n1 ← cellCount A s p1
  let n2 ← cellCount A s p2
  if n2 = 0 then .error .zeroDivisionError else pure ((n1 : ℚ) / n2)

/-- Adding a value to a set. -/
def addToSet (acc : List Val) (v : Val) : Py (List Val) :=
  if v.hashable then .ok (if v ∈ acc then acc else acc ++ [v]) else .error .typeError

/-- discrete/discrete_step_analyzer.py:96-99: the phase of one site goes into the set. -/
def addPhase (acc : List Val) (p : Props) : Py (List Val) :=
  match Dict.get? p DISCRETE_OCCUPANCY with
  | none => .error .keyError
  | some v => addToSet acc v

/-- discrete/discrete_step_analyzer.py:84-101 `phases_present`.  `order` is the order in which the set is listed. -/
def phasesPresent (order : List Val → List Val) (s : SimState) : Py (List Val) := do
  let l ← s.allSiteStates.foldlM addPhase []
  pure (order l)

/-- discrete/discrete_step_analyzer.py:69-82 `phase_count`. -/
def phaseCount (order : List Val → List Val) (s : SimState) : Py ℕ := do pure (← phasesPresent order s).length

/-- discrete/phase_set.py:9-17: the attribute `phases`. -/
def phaseSet (order : List Val → List Val) (phases : List Val) : Py (List Val) := do
  pure (order (← phases.foldlM addToSet []))

end Analyzer

/-! ### discrete_state_result_analyzer.py -/

/-- discrete/discrete_state_result_analyzer.py:12-26.  The result is an argument of the methods (it may change between calls); what the object
keeps is the answer of `all_phases`, which `lru_cache` remembers.  In the code the cache is shared by all analyzers and keeps the 128 answers used last; that is
`Model/PhaseCache.lean` (C161), where an object keeps its answer as here as long as at most 128 analyzers are asked (`C161_object`). -/
structure ResultAnalyzer where
  cache : Option (List Val)

namespace ResultAnalyzer
open Analyzer

/-- discrete/discrete_state_result_analyzer.py:18-26 -/
def new : ResultAnalyzer := ⟨none⟩

/-- discrete/discrete_state_result_analyzer.py:37-41: the phases of all steps, one list after the other.  `order t` lists the set of step `t`. -/
def collect (order : ℕ → List Val → List Val) (steps : List SimState) : Py (List Val) := do
  let r ← steps.foldlM (fun (x : List Val × ℕ) s => do
    let curr ← phasesPresent (order x.2) s
    pure (x.1 ++ curr, x.2 + 1)) ([], 0)
  pure r.1

/-- discrete/discrete_state_result_analyzer.py:28-43 `all_phases` (a frozenset, here the list of its elements in some
order).  If a diff is faulty and a step before it has a site without occupancy, the code raises the latter's exception, the model the former's. -/
def allPhases (A : ResultAnalyzer) (r : SimResult) (order : ℕ → List Val → List Val) : Py (List Val × ResultAnalyzer) :=
  match A.cache with
  | some l => .ok (l, A)
  | none => do
    let phases ← collect order (← r.steps)
    let l ← phases.foldlM addToSet []
    pure (l, ⟨some l⟩)

/-- discrete/discrete_state_result_analyzer.py:73-85 `final_phase_fractions`. -/
noncomputable def finalPhaseFractions (A : ResultAnalyzer) (r : SimResult) (order : ℕ → List Val → List Val) : Py (Dict Val ℚ) := do
  let (phases, _) ← A.allPhases r order
  phases.foldlM (fun fracs phase => do
    let s ← r.lastStep
    let f ← cellFraction (K := Unit) (d := 0) none s phase
    pure (Dict.set fracs phase f)) []

/-- discrete/discrete_state_result_analyzer.py:87-103 `phase_fraction_at`. -/
noncomputable def phaseFractionAt (r : SimResult) (step : ℤ) (phase : Val) : Py ℚ := do
  let s ← r.getStep step
  cellFraction (K := Unit) (d := 0) none s phase

/-- discrete/discrete_state_result_analyzer.py:114-115: the distance between plotted steps.  Python divides in floating point; below 2^53 steps the rounded
quotient is the one computed here (C113). -/
def stepSize (len : ℕ) : ℤ := max 1 (roundHalfEven ((len : ℚ) / (min 100 len : ℕ)))

/-- `list(range(0, n, k))` for `k ≥ 1`: `ceil(n / k)` numbers. -/
def stepRange (n : ℕ) (k : ℤ) : List ℤ := (List.range (((n : ℤ) + k - 1) / k).toNat).map fun (i : ℕ) => (i : ℤ) * k

/-- discrete/discrete_state_result_analyzer.py:113-118 `_get_steps_to_plot`.  The result object keeps the states that were loaded. -/
def getStepsToPlot (r : SimResult) : Py (List ℤ × List SimState × SimResult) := do
  if r.len = 0 then .error .zeroDivisionError
  else do
    let k := stepSize r.len
    let r ← r.loadSteps k
    let idxs := stepRange r.len k
    let states ← idxs.mapM r.getStep
    pure (idxs, states, r)

/-- discrete/discrete_state_result_analyzer.py:45-71 `plot_phase_fractions`: the names, x and y values of the traces, and the right end of the x axis. -/
noncomputable def plotPhaseFractions (A : ResultAnalyzer) (r : SimResult) (order : ℕ → List Val → List Val) (minPrevalence : ℚ) :
    Py (List (Val × List ℤ × List ℚ) × ℤ) := do
  let (idxs, states, r) ← getStepsToPlot r
  match idxs.getLast? with
  | none => .error .indexError
  | some right => do
    let (phases, _) ← A.allPhases r order
    let traces ← phases.mapM fun phase => do
      let ys ← states.mapM fun s => cellFraction (K := Unit) (d := 0) none s phase
      pure (phase, idxs, ys)
    pure (traces.filter fun t => decide (∃ y ∈ t.2.2, minPrevalence < y), right)

end ResultAnalyzer
end Pyl
