import Verif.Model.State
/-
Model of src/pylattica/core/runner/{common,base_runner,synchronous_runner,asynchronous_runner}.py,
src/pylattica/core/basic_controller.py and the recording part of core/simulation_result.py.
-/
set_option autoImplicit false

namespace Pyl

/-- A normalised update `{SITES: ..., GENERAL: ...}` as built by `merge_updates`
(core/runner/common.py:9). Site updates stay arbitrary values, as in the code. -/
structure Upd where
  sites : Props
  general : Props
deriving DecidableEq

namespace Upd
/-- core/runner/common.py:9 `{SITES: {}, GENERAL: {}}` -/
def empty : Upd := ⟨[], []⟩
/-- The Python dict a normalised update is. -/
def toProps (u : Upd) : Props := [(SITES, .dict u.sites), (GENERAL, .dict u.general)]
end Upd

/-- `d.get(k, {})` as the argument of `dict.update`: a non-dict argument raises (TypeError in the
model; Python raises TypeError or ValueError and accepts lists of pairs, which are not modelled). -/
def dictPart (d : Props) (k : Key) : Py Props :=
  match Dict.get? d k with
  | none => .ok []
  | some (.dict e) => .ok e
  | some _ => .error .typeError

/-- core/runner/common.py:16 `set(map(type, new_updates.keys())) == {int}` -/
def allIntKeys (d : Props) : Bool :=
  !d.isEmpty && d.all (fun kv => match kv.1 with | .int _ => true | .str _ => false)

/-- core/runner/common.py:4-24 `merge_updates`.  `curr` is always `None` or an earlier result of
`merge_updates` in the code, hence `Option Upd`. -/
def mergeUpdates (new : Option Props) (curr : Option Upd) (sid : Option Key) : Py (Option Upd) :=
  match new with
  | none => .ok curr
  | some d =>
    let c := curr.getD Upd.empty
    if Dict.has d SITES || Dict.has d GENERAL then do
      let ss ← dictPart d SITES
      let gs ← dictPart d GENERAL
      pure (some ⟨Dict.update c.sites ss, Dict.update c.general gs⟩)
    else if allIntKeys d then
      .ok (some { c with sites := Dict.update c.sites d })
    else match sid with
      | some i => .ok (some { c with sites := Dict.update c.sites [(i, .dict d)] })
      | none => .error .valueError

/-- What `get_state_update` may return: `None`, a dict, or (asynchronous rules) a tuple of updates
and follow-up sites. -/
inductive Resp where
  | noUpdate
  | dict (d : Props)
  | tuple (d : Option Props) (next : List Key)
deriving DecidableEq

/-- What `get_random_site` may return (asynchronous_runner.py:63-67): an int, a list, or anything else
(ignored). -/
inductive SiteReq where
  | one (i : Int)
  | many (l : List Key)
  | other
deriving DecidableEq

/-- core/basic_controller.py:8-31.  A controller with internal state `σ` (its attributes and the random
generator).  Every method may raise.  Controllers do not mutate the SimulationState they are shown
(except through `preRun`, which may), and return freshly built dicts. -/
structure Controller (σ : Type) where
  /-- `get_state_update` -/
  update : σ → Key → SimState → Py (σ × Resp)
  /-- `get_random_site` -/
  randomSite : σ → SimState → Py (σ × SiteReq) := fun c _ => .ok (c, .other)
  /-- `pre_run`; may change the controller and the state it is given -/
  preRun : σ → SimState → Py (σ × SimState) := fun c s => .ok (c, s)

/-- core/simulation_result.py:32-42, 94-95: a result object.  `stored` is `_stored_states`.
`output` is set by `set_output`. A diff may be `None` (parallel run whose rule answers only None). -/
structure SimResult where
  initial : SimState
  diffs : List (Option Props)
  stored : Dict Int SimState
  output : Option SimState

namespace SimResult
/-- core/simulation_result.py:32-42 `__init__` -/
def new (s : SimState) : SimResult := ⟨s, [], [], none⟩
/-- core/simulation_result.py:44-61 `add_step` -/
def addStep (r : SimResult) (d : Option Props) : SimResult := { r with diffs := r.diffs ++ [d] }
/-- core/simulation_result.py:94-95 `set_output` -/
def setOutput (r : SimResult) (s : SimState) : SimResult := { r with output := some s }
/-- core/simulation_result.py:63-64 `__len__` -/
def len (r : SimResult) : Nat := r.diffs.length + 1
end SimResult

section Sync
variable {σ : Type}

/-- `merge_updates` applied to a rule's answer.  A tuple answer reaches `new_updates.keys()`
(core/runner/common.py:16) and raises AttributeError. -/
def mergeResp (r : Resp) (curr : Option Upd) (sid : Key) : Py (Option Upd) :=
  match r with
  | .noUpdate => mergeUpdates none curr (some sid)
  | .dict d => mergeUpdates (some d) curr (some sid)
  | .tuple _ _ => .error .attributeError

/-- core/runner/synchronous_runner.py:117-125 `_step_batch`. -/
def stepBatch (c : Controller σ) (st : σ) (ids : List Key) (prev : SimState) :
    Py (σ × Option Upd) :=
  ids.foldlM (fun (acc : σ × Option Upd) sid => do
    let (st', r) ← c.update acc.1 sid prev
    let b ← mergeResp r acc.2 sid
    pure (st', b)) (st, none)

/-- core/runner/synchronous_runner.py:102-108 `_take_step`. -/
def takeStep (c : Controller σ) (st : σ) (s : SimState) : Py (σ × Option Upd) :=
  stepBatch c st s.siteIds s

/-- core/runner/synchronous_runner.py:76-79, the serial loop. -/
def syncLoop (c : Controller σ) : Nat → σ → SimState → SimResult → Py (σ × SimState × SimResult)
  | 0, st, live, res => .ok (st, live, res)
  | n + 1, st, live, res => do
    let (st', u) ← takeStep c st live
    let live' ← live.batchUpdateO (u.map Upd.toProps)
    syncLoop c n st' live' (res.addStep (u.map Upd.toProps))

/-- core/runner/base_runner.py:63-70 `Runner.run` with a serial SynchronousRunner.
`result` is instantiated from the state before `pre_run`, the live state is copied after it. -/
def runSync (c : Controller σ) (st : σ) (s0 : SimState) (n : Nat) : Py (σ × SimResult) := do
  let res := SimResult.new s0.copy
  let (st, s1) ← c.preRun st s0
  let (st, live, res) ← syncLoop c n st s1.copy res
  pure (st, res.setOutput live)

end Sync

section Async
variable {σ : Type}

/-- core/runner/asynchronous_runner.py:62-67 `_add_sites_to_queue`. -/
def addSites (c : Controller σ) (st : σ) (live : SimState) (q : List Key) : Py (σ × List Key) := do
  let (st', r) ← c.randomSite st live
  match r with
  | .one i => pure (st', q ++ [.int i])
  | .many l => pure (st', q ++ l)
  | .other => pure (st', q)

/-- core/runner/asynchronous_runner.py:78-84: split a response into updates and follow-up sites. -/
def Resp.split : Resp → Option Props × List Key
  | .noUpdate => (none, [])
  | .dict d => (some d, [])
  | .tuple d next => (d, next)

/-- Loop state of the asynchronous runner. `trace` is bookkeeping of the model only: the sites popped so far. -/
structure AsyncSt (σ : Type) where
  st : σ
  live : SimState
  queue : List Key
  res : SimResult
  trace : List Key

/-- core/runner/asynchronous_runner.py:75-92, one iteration of the loop up to the refill
(`popleft` on an empty deque raises IndexError). -/
def asyncStep (c : Controller σ) (a : AsyncSt σ) : Py (AsyncSt σ) :=
  match a.queue with
  | [] => .error .indexError
  | sid :: q => do
    let (st', r) ← c.update a.st sid a.live
    let u ← mergeUpdates r.split.1 none (some sid)
    let live' ← a.live.batchUpdateO (u.map Upd.toProps)
    let q' := q ++ r.split.2
    let res' := a.res.addStep (u.map Upd.toProps)
    let (st'', q'') ← (if q'.isEmpty then addSites c st' live' q' else pure (st', q'))
    pure ⟨st'', live', q'', res', a.trace ++ [sid]⟩

/-- core/runner/asynchronous_runner.py:74-95, the loop. -/
def asyncLoop (c : Controller σ) : Nat → AsyncSt σ → Py (AsyncSt σ)
  | 0, a => .ok a
  | n + 1, a => do
    let a' ← asyncStep c a
    if a'.queue.isEmpty then pure a' else asyncLoop c n a'

/-- core/runner/asynchronous_runner.py:60-98 `_run`. -/
def asyncRunFrom (c : Controller σ) (st : σ) (live : SimState) (res : SimResult) (n : Nat) :
    Py (AsyncSt σ) := do
  let (st, q) ← addSites c st live []
  if q.isEmpty then .error .runtimeError
  else
    let a ← asyncLoop c n ⟨st, live, q, res, []⟩
    pure { a with res := a.res.setOutput a.live }

/-- core/runner/base_runner.py:63-70 `Runner.run` with an AsynchronousRunner. -/
def runAsync (c : Controller σ) (st : σ) (s0 : SimState) (n : Nat) : Py (AsyncSt σ) := do
  let res := SimResult.new s0.copy
  let (st, s1) ← c.preRun st s0
  let a ← asyncRunFrom c st s1.copy res n
  pure { a with res := a.res.setOutput a.live }

/-- core/basic_controller.py:27-28, the default `get_random_site`: `random.randint(0, n - 1)` raises
ValueError on an empty range; otherwise any `0 ≤ i ≤ n - 1` is possible (`r` is the oracle's raw draw). -/
def defaultRandomSite (r : Nat) (s : SimState) : Py SiteReq :=
  let n := s.siteIds.length
  if n = 0 then .error .valueError else .ok (.one ((r % n : Nat) : Int))

/-- core/basic_controller.py:8-31: a controller with the rule and the `pre_run` of `c` that inherits the default `get_random_site`.  `draw t` is the raw
outcome of the `t`-th draw; the second component of the state counts the draws. -/
def Controller.inherit (draw : Nat → Nat) (c : Controller σ) : Controller (σ × Nat) where
  update st sid s := do
    let (st', r) ← c.update st.1 sid s
    pure ((st', st.2), r)
  randomSite st s := do
    let r ← defaultRandomSite (draw st.2) s
    pure ((st.1, st.2 + 1), r)
  preRun st s := do
    let (st', s') ← c.preRun st.1 s
    pure ((st', st.2), s')

end Async

/-! ### Parallel synchronous runner -/
section Parallel
variable {σ : Type}

/-- core/runner/synchronous_runner.py:62 `math.ceil(num_sites / PROCESSES)`
(in double precision: C113). -/
def chunkSize (n w : Nat) : Nat := (n + w - 1) / w

/-- core/runner/synchronous_runner.py:88-90: `[ids[i:i+c] for i in range(0, n, c)]`, for `c ≥ 1`. -/
def chunks (ids : List Key) (c : Nat) : List (List Key) :=
  (List.range ((ids.length + c - 1) / c)).map (fun j => (ids.drop (j * c)).take c)

/-- A forked worker's private memory: its controller and its `mp_globals["initial_state"]`. -/
structure Worker (σ : Type) where
  st : σ
  state : SimState

/-- core/runner/synchronous_runner.py:111-114 `_step_batch_parallel` executed by one worker:
the last updates are applied to the worker's private state first. -/
def workerTask (c : Controller σ) (w : Worker σ) (batch : List Key) (last : Option Props) :
    Py (Worker σ × Option Upd) := do
  let s ← w.state.batchUpdateO last
  let (st', u) ← stepBatch c w.st batch s
  pure (⟨st', s⟩, u)

/-- One step's execution order: `(batch index, worker index)` pairs in the order in which the tasks are
executed.  Tasks of different workers touch disjoint memory, so a global order covers all interleavings. -/
abbrev StepSched := List (Nat × Nat)

/-- `pool.starmap` (synchronous_runner.py:95): run the tasks in the order of the schedule; return the
worker memories and the results by batch index. -/
def runTasks (c : Controller σ) (batches : List (List Key)) (last : Option Props) :
    StepSched → (Nat → Worker σ) → Py ((Nat → Worker σ) × Dict Nat (Option Upd))
  | [], ws => .ok (ws, [])
  | (b, w) :: rest, ws => do
    let (w', u) ← workerTask c (ws w) (batches.getD b []) last
    let (ws', out) ← runTasks c batches last rest (fun i => if i = w then w' else ws i)
    pure (ws', (b, u) :: out)

/-- synchronous_runner.py:96-98: `all_updates = merge_updates(all_updates, batch_update_res)` over the
results in batch order.  The accumulated updates are the *new* updates of the call. -/
def mergeBatches (results : List (Option Upd)) : Py (Option Upd) :=
  results.foldlM (fun (all : Option Upd) (r : Option Upd) =>
    mergeUpdates (all.map Upd.toProps) r none) none

/-- core/runner/synchronous_runner.py:84-100 `_take_step_parallel`; `range(0, n, 0)` raises ValueError. -/
def takeStepParallel (c : Controller σ) (ids : List Key) (chunk : Nat) (sched : StepSched)
    (last : Option Props) (ws : Nat → Worker σ) : Py ((Nat → Worker σ) × Option Upd) :=
  if chunk = 0 then .error .valueError
  else do
    let bs := chunks ids chunk
    let (ws', out) ← runTasks c bs last sched ws
    let u ← mergeBatches ((List.range bs.length).map (fun b => (Dict.get? out b).getD none))
    pure (ws', u)

/-- core/runner/synchronous_runner.py:68-73, the parallel loop; `sched k` is step `k`'s schedule.
The live state is not touched. -/
def parallelLoop (c : Controller σ) (ids : List Key) (chunk : Nat) (sched : Nat → StepSched) :
    Nat → Nat → Option Props → (Nat → Worker σ) → SimResult → Py SimResult
  | _, 0, _, _, res => .ok res
  | k, n + 1, last, ws, res => do
    let (ws', u) ← takeStepParallel c ids chunk (sched k) last ws
    parallelLoop c ids chunk sched (k + 1) n (u.map Upd.toProps) ws' (res.addStep (u.map Upd.toProps))

/-- core/runner/base_runner.py:63-70 with `SynchronousRunner(parallel=True, workers=w)`:
every forked worker starts with the parent's controller and initial state; the output is the live state,
which the parallel branch never updates.  `w = 0` raises ZeroDivisionError (line 62).
`fork v` is what forking makes of the controller in worker `v`: Python gives every forked process a new seed for `random`, so a controller
with random draws continues differently in each worker; the attributes are copied. -/
def runParallel (c : Controller σ) (fork : Nat → σ → σ) (st : σ) (s0 : SimState) (w n : Nat) (sched : Nat → StepSched) :
    Py SimResult := do
  let res := SimResult.new s0.copy
  let (st, s1) ← c.preRun st s0
  if w = 0 then .error .zeroDivisionError
  else
    let res ← parallelLoop c s1.siteIds (chunkSize s1.size w) sched 0 n (some [])
      (fun v => ⟨fork v st, s1⟩) res
    pure (res.setOutput s1.copy)

/-- A schedule that a pool of `w` workers can produce for `m` batches: every batch is executed exactly
once, by one of the workers. -/
def StepSched.Valid (w m : Nat) (sc : StepSched) : Prop :=
  (sc.map Prod.fst).Perm (List.range m) ∧ ∀ p ∈ sc, p.2 < w

end Parallel
end Pyl
