import Verif.Model.Simulation
import Verif.Tests.Exec
/-
The expectations of /repo/tests/core, evaluated on the model by Lean's kernel: state, results, merging of updates, runners,
analyzers, distance maps.  These are tests of the model, not proofs of properties: they compare the model, which was
written by reading the code, with what the authors of the code observed.  Random draws are fixed to one sequence; the properties about
them are proved in `Verif/Props`.  Where a test takes many steps and the model is run for fewer, the comment says so.
-/
set_option autoImplicit false

namespace Pyl
namespace Tests

/-- `d == e` for dicts: the order does not matter. -/
def sameDict (d e : Props) : Bool := d.all (fun kv => Dict.get? e kv.1 == some kv.2) && d.length == e.length

/-! ### test_simulation_state.py -/

/-- test_can_serialize -/
example : let s := SimState.empty.setSiteState (.int 0) [(.str "a", .num 1)]
    (Dict.has s.asDict (.str "state") ∧ Dict.has s.asDict (.str "@module") ∧ Dict.has s.asDict (.str "@class")) ∧
    (Dict.has s.stateDict SITES ∧ Dict.has s.stateDict GENERAL) ∧
    ((SimState.fromDict s.asDict).toOption.bind fun r => (r.getSiteState (.int 0)).bind fun p => Dict.get? p (.str "a")) =
      some (.num 1) := by
  decide +kernel

def updates12 : Props := [(.int 1, .dict [(.str "a", .num 3)]), (.int 2, .dict [(.str "b", .num 4)])]

/-- test_batch_update (test_states_equal is immediate: `batchUpdate` is a function) -/
example : ∃ s, SimState.empty.batchUpdate updates12 = .ok s ∧
    (s.getSiteState (.int 1)).bind (fun p => Dict.get? p (.str "a")) = some (.num 3) ∧
    (s.getSiteState (.int 2)).bind (fun p => Dict.get? p (.str "b")) = some (.num 4) :=
  ⟨_, rfl, by decide +kernel, by decide +kernel⟩

/-! ### test_simulation_result.py -/

/-- The `i`-th update of the fixture, with a fixed instead of a random site and value. -/
def upd (i : ℕ) : Props := [(.int ((i * 7 + 3) % 11), .dict [(.str "a", .num ((i * i % 101 : ℕ) / 101))])]
def resultOf (n : ℕ) : SimResult := (List.range n).foldl (fun r i => r.addStep (some (upd i))) (SimResult.new .empty)

/-- test_can_add_step -/
example : let r := (SimResult.new .empty).addStep (some [(.int 24, .dict [(.str "a", .num 1)])])
    r.len = 2 ∧ r.firstStep.map SimState.asDict = .ok SimState.empty.asDict := by
  exact ⟨by decide +kernel, rfl⟩

/-- test_can_load_at_intervals -/
example : (resultOf 999).len = 1000 ∧ (match (resultOf 999).loadSteps 10 with
    | .ok r => r.stored.length
    | .error _ => 0) = 100 := by
  decide +kernel

/-- test_serialization (for 60 steps) -/
example : (match SimResult.fromDict (resultOf 60).asDict with
    | .ok r => match r.steps with
      | .ok l => decide (l.map .ok = (List.range 60).map fun k : ℕ => (resultOf 60).getStep k)
      | .error _ => false
    | .error _ => false) = true := by
  decide +kernel

/-- test_write_file, test_write_file_autoname -/
example : (match (Val.dict (resultOf 3).asDict).json with
    | .dict d => match SimResult.fromDict d with
      | .ok r => decide (r.asDict = (resultOf 3).asDict)
      | .error _ => false
    | _ => false) = true := by
  decide +kernel

/-- test_diff_storage -/
example : ((resultOf 3).diffs.head?.join.map List.length) = some 1 := by decide +kernel

/-! ### test_runner_utils.py -/

def curr : Upd := ⟨[(.int 0, .dict [(.str "a", .num 1)])], []⟩
def b1 : Val := .dict [(.str "b", .num 1)]
def a1 : Val := .dict [(.str "a", .num 1)]
def a2 : Val := .dict [(.str "a", .num 2)]

/-- The result has these site updates and this general part. -/
def merges (r : Py (Option Upd)) (sites general : Props) : Bool :=
  match r with
  | .ok (some u) => sameDict u.sites sites && sameDict u.general general
  | _ => false

example : mergeUpdates none (some curr) none = .ok (some curr) := rfl
example : merges (mergeUpdates (some [(SITES, .dict [(.int 1, b1)])]) (some curr) none) [(.int 1, b1), (.int 0, a1)] [] := by
  decide +kernel
example : merges (mergeUpdates (some [(SITES, .dict [(.int 1, b1)]), (GENERAL, .dict [(.str "c", .num 2)])]) (some curr) none)
    [(.int 1, b1), (.int 0, a1)] [(.str "c", .num 2)] := by
  decide +kernel
example : merges (mergeUpdates (some [(SITES, .dict [(.int 1, b1), (.int 0, a2)])]) (some curr) none)
    [(.int 1, b1), (.int 0, a2)] [] := by
  decide +kernel
example : merges (mergeUpdates (some [(.int 1, b1)]) (some curr) none) [(.int 1, b1), (.int 0, a1)] [] := by decide +kernel
example : merges (mergeUpdates (some [(.int 1, b1), (.int 0, a2)]) (some curr) none) [(.int 1, b1), (.int 0, a2)] [] := by
  decide +kernel
example : merges (mergeUpdates (some [(.str "b", .num 1)]) (some curr) (some (.int 1))) [(.int 1, b1), (.int 0, a1)] [] := by
  decide +kernel
example : merges (mergeUpdates (some [(.str "b", .num 1)]) none (some (.int 1))) [(.int 1, b1)] [] := by decide +kernel
example : merges (mergeUpdates (some [(.str "a", .num 2)]) (some curr) (some (.int 0))) [(.int 0, a2)] [] := by decide +kernel
example : mergeUpdates (some []) none none = .error .valueError := by decide +kernel

/-! ### test_async_runner.py -/

/-- The sites of the 4 x 4 grid with value 0. -/
def start16 : SimState := (List.range 16).foldl (fun s i => s.setSiteState (.int i) [(.str "value", .num 0)]) .empty

def toThree (i : Key) : Props := [(i, .dict [(.str "value", .num 3)])]

/-- The sites with value 3 in the last step. -/
def converted (r : SimResult) : Py (List Key) := do
  let s ← r.lastStep
  pure (s.siteIds.filter fun i => decide (((s.getSiteState i).bind fun p => Dict.get? p (.str "value")) = some (.num 3)))

/-- test_simple_async_controller, with fixed draws -/
def simpleAsync : Controller Unit where
  update _ i _ := .ok ((), .dict (toThree i))
example : (match runAsync (simpleAsync.inherit fun t => t * 5 + 1) ((), 0) start16 10 with
    | .ok a => match converted a.res with
      | .ok l => decide (0 < l.length ∧ l.length ≤ 10)
      | .error _ => false
    | .error _ => false) = true := by
  decide +kernel

/-- test_async_controller_next_sites -/
def nextSites : Controller Unit where
  update _ i _ := .ok ((), .tuple (some (toThree i)) (match i with | .int n => [.int (n + 1)] | k => [k]))
  randomSite _ _ := .ok ((), .one 0)
example : (runAsync nextSites () start16 4).bind (fun a => converted a.res) = .ok [.int 0, .int 1, .int 2, .int 3] := by
  decide +kernel

/-- test_async_controller_random_site_list -/
def siteList (l : List Key) : Controller Unit where
  update _ i _ := .ok ((), .dict (toThree i))
  randomSite _ _ := .ok ((), .many l)
example : (runAsync (siteList [.int 0, .int 3, .int 5, .int 9]) () start16 10).bind (fun a => converted a.res) =
    .ok [.int 0, .int 3, .int 5, .int 9] := by
  decide +kernel

/-- test_async_controller_empty_random_site_list -/
example : (match runAsync (siteList []) () start16 10 with | .error e => some e | .ok _ => none) = some .runtimeError := by
  decide +kernel

/-- test_async_controller_limited_sites: the state holds the sites that are left and the number of steps taken. -/
def limited : Controller (List Key × ℕ) where
  update st i _ := .ok ((st.1, st.2 + 1), .dict (toThree i))
  randomSite st _ := match st.1.getLast? with
    | some (.int i) => .ok ((st.1.dropLast, st.2), .one i)
    | _ => .ok (st, .many [])
example : (match runAsync limited ([.int 0, .int 3, .int 5, .int 9], 0) start16 10 with
    | .ok a => decide (a.st.2 = 4) && decide (converted a.res = .ok [.int 0, .int 3, .int 5, .int 9])
    | .error _ => false) = true := by
  decide +kernel

/-! ### test_parallel_runner.py -/

/-- The controller of the tests: the value of a site is increased by one. -/
def increase : Controller Unit where
  update _ i s := match (s.getSiteState i).bind fun p => Dict.get? p (.str "value") with
    | some (.num q) => .ok ((), .dict [(i, .dict [(.str "value", .num (q + 1))])])
    | _ => .error .typeError

/-- Every site of the last step has this value. -/
def allValues (r : SimResult) (q : ℚ) : Bool :=
  match r.lastStep with
  | .ok s => s.size == 16 && s.allSiteStates.all fun p => decide (Dict.get? p (.str "value") = some (.num q))
  | .error _ => false

/-- test_parallel_runner: four workers that take the batches in turn (50 steps). -/
example : (match runParallel increase (fun _ c => c) () start16 4 50 fun k =>
      (List.range 4).map fun b => (b, (b + k) % 4) with
    | .ok r => allValues r 50
    | .error _ => false) = true := by
  decide +kernel
/-- test_parallel_runner_speed: the serial run -/
example : (match runSync increase () start16 50 with
    | .ok r => allValues r.2 50
    | .error _ => false) = true := by
  decide +kernel

/-! ### test_basic_controller.py, test_coordinate_utils.py, test_distance_map.py -/

example : ∃ i, defaultRandomSite 12345 (.fromStruct ((List.range 16).map fun i : ℕ => .int i)) = .ok (.one i) := ⟨9, rfl⟩

example : (getPointsInBox [0, 0] [2, 2]).length = 4 ∧ [0, 0] ∈ getPointsInBox [0, 0] [2, 2] := by decide +kernel

example : getDist (distanceMap euclideanDist [![1, 1], ![0, 1]]) ![(1 : ℚ), 1] = some 1.41 ∧
    getDist (distanceMap euclideanDist [![1, 1], ![0, 1]]) ![(0 : ℚ), 1] = some 1 := by
  decide +kernel
def manhattanTest : Dict (Fin 2 → ℚ) ℚ := distanceMap manhattanDist [![1, 1], ![0, 1], ![0, -1], ![2.5, 1.7]]
example : getDist manhattanTest ![1, 1] = some 2 ∧ getDist manhattanTest ![0, 1] = some 1 ∧
    getDist manhattanTest ![0, -1] = some 1 ∧ getDist manhattanTest ![2.5, 1.7] = some 4.2 := by
  decide +kernel

end Tests
end Pyl
