import Verif.Model.Runner
/-
Model of src/pylattica/core/runner/{synchronous_runner,asynchronous_runner}.py with controllers that write into the state
they are shown.  The runners pass the live state object itself to the controller, so what it writes is there for the next
call.
-/
set_option autoImplicit false

namespace Pyl

/-- core/basic_controller.py:8-31 for a controller that may change the state it is shown: `get_state_update` and
`get_random_site` also return the state they leave behind.  What they put into it are new dicts (see `Model/HeapRun.lean`
for shared objects). -/
structure Writer (σ : Type) where
  /-- `get_state_update` -/
  update : σ → Key → SimState → Py (σ × SimState × Resp)
  /-- `get_random_site` -/
  randomSite : σ → SimState → Py (σ × SimState × SiteReq) := fun c s => .ok (c, s, .other)
  /-- `pre_run` -/
  preRun : σ → SimState → Py (σ × SimState) := fun c s => .ok (c, s)

namespace Writer
variable {σ : Type}

/-- core/runner/synchronous_runner.py:117-125 `_step_batch`: every application is shown the same object. -/
def stepBatch (w : Writer σ) (st : σ) (ids : List Key) (live : SimState) : Py (σ × SimState × Option Upd) :=
  ids.foldlM (fun (acc : σ × SimState × Option Upd) sid => do
    let (st', live', r) ← w.update acc.1 sid acc.2.1
    let b ← mergeResp r acc.2.2 sid
    pure (st', live', b)) (st, live, none)

/-- core/runner/synchronous_runner.py:102-108 `_take_step`: the list of ids is made before the first application. -/
def takeStep (w : Writer σ) (st : σ) (s : SimState) : Py (σ × SimState × Option Upd) :=
  stepBatch w st s.siteIds s

/-- core/runner/synchronous_runner.py:76-79, the serial loop. -/
def syncLoop (w : Writer σ) : Nat → σ → SimState → SimResult → Py (σ × SimState × SimResult)
  | 0, st, live, res => .ok (st, live, res)
  | n + 1, st, live, res => do
    let (st', live', u) ← takeStep w st live
    let live'' ← live'.batchUpdateO (u.map Upd.toProps)
    syncLoop w n st' live'' (res.addStep (u.map Upd.toProps))

/-- core/runner/base_runner.py:63-70 `Runner.run` with a serial SynchronousRunner. -/
def runSync (w : Writer σ) (st : σ) (s0 : SimState) (n : Nat) : Py (σ × SimResult) := do
  let res := SimResult.new s0.copy
  let (st, s1) ← w.preRun st s0
  let (st, live, res) ← syncLoop w n st s1.copy res
  pure (st, res.setOutput live)

/-- core/runner/asynchronous_runner.py:62-67 `_add_sites_to_queue`. -/
def addSites (w : Writer σ) (st : σ) (live : SimState) (q : List Key) : Py (σ × SimState × List Key) := do
  let (st', live', r) ← w.randomSite st live
  match r with
  | .one i => pure (st', live', q ++ [.int i])
  | .many l => pure (st', live', q ++ l)
  | .other => pure (st', live', q)

/-- core/runner/asynchronous_runner.py:75-92, one iteration of the loop up to the refill. -/
def asyncStep (w : Writer σ) (a : AsyncSt σ) : Py (AsyncSt σ) :=
  match a.queue with
  | [] => .error .indexError
  | sid :: q => do
    let (st', live1, r) ← w.update a.st sid a.live
    let u ← mergeUpdates r.split.1 none (some sid)
    let live' ← live1.batchUpdateO (u.map Upd.toProps)
    let q' := q ++ r.split.2
    let res' := a.res.addStep (u.map Upd.toProps)
    let (st'', live'', q'') ← (if q'.isEmpty then addSites w st' live' q' else pure (st', live', q'))
    pure ⟨st'', live'', q'', res', a.trace ++ [sid]⟩

/-- core/runner/asynchronous_runner.py:74-95, the loop. -/
def asyncLoop (w : Writer σ) : Nat → AsyncSt σ → Py (AsyncSt σ)
  | 0, a => .ok a
  | n + 1, a => do
    let a' ← asyncStep w a
    if a'.queue.isEmpty then pure a' else asyncLoop w n a'

/-- core/runner/base_runner.py:63-70 `Runner.run` with an AsynchronousRunner (asynchronous_runner.py:60-98). -/
def runAsync (w : Writer σ) (st : σ) (s0 : SimState) (n : Nat) : Py (AsyncSt σ) := do
  let res := SimResult.new s0.copy
  let (st, s1) ← w.preRun st s0
  let (st, live, q) ← addSites w st s1.copy []
  if q.isEmpty then .error .runtimeError
  else
    let a ← asyncLoop w n ⟨st, live, q, res, []⟩
    pure { a with res := a.res.setOutput a.live }

/-- core/runner/synchronous_runner.py:111-114 `_step_batch_parallel` executed by one worker: what the controller writes stays in
the worker's private state. -/
def workerTask (w : Writer σ) (v : Worker σ) (batch : List Key) (last : Option Props) : Py (Worker σ × Option Upd) := do
  let s ← v.state.batchUpdateO last
  let (st', s', u) ← stepBatch w v.st batch s
  pure (⟨st', s'⟩, u)

/-- core/runner/synchronous_runner.py:95 `pool.starmap`, as `Pyl.runTasks`. -/
def runTasks (w : Writer σ) (batches : List (List Key)) (last : Option Props) :
    StepSched → (Nat → Worker σ) → Py ((Nat → Worker σ) × Dict Nat (Option Upd))
  | [], ws => .ok (ws, [])
  | (b, v) :: rest, ws => do
    let (v', u) ← workerTask w (ws v) (batches.getD b []) last
    let (ws', out) ← runTasks w batches last rest (fun i => if i = v then v' else ws i)
    pure (ws', (b, u) :: out)

/-- core/runner/synchronous_runner.py:84-100 `_take_step_parallel`; the ids come from the parent's initial state. -/
def takeStepParallel (w : Writer σ) (ids : List Key) (chunk : Nat) (sched : StepSched) (last : Option Props) (ws : Nat → Worker σ) :
    Py ((Nat → Worker σ) × Option Upd) :=
  if chunk = 0 then .error .valueError
  else do
    let bs := chunks ids chunk
    let (ws', out) ← runTasks w bs last sched ws
    let u ← mergeBatches ((List.range bs.length).map (fun b => (Dict.get? out b).getD none))
    pure (ws', u)

/-- core/runner/synchronous_runner.py:68-73, the parallel loop. -/
def parallelLoop (w : Writer σ) (ids : List Key) (chunk : Nat) (sched : Nat → StepSched) :
    Nat → Nat → Option Props → (Nat → Worker σ) → SimResult → Py SimResult
  | _, 0, _, _, res => .ok res
  | k, n + 1, last, ws, res => do
    let (ws', u) ← takeStepParallel w ids chunk (sched k) last ws
    parallelLoop w ids chunk sched (k + 1) n (u.map Upd.toProps) ws' (res.addStep (u.map Upd.toProps))

/-- core/runner/base_runner.py:63-70 with `SynchronousRunner(parallel=True, workers=m)`, as `Pyl.runParallel`. -/
def runParallel (w : Writer σ) (fork : Nat → σ → σ) (st : σ) (s0 : SimState) (m n : Nat) (sched : Nat → StepSched) : Py SimResult := do
  let res := SimResult.new s0.copy
  let (st, s1) ← w.preRun st s0
  if m = 0 then .error .zeroDivisionError
  else
    let res ← parallelLoop w s1.siteIds (chunkSize s1.size m) sched 0 n (some []) (fun v => ⟨fork v st, s1⟩) res
    pure (res.setOutput s1.copy)

end Writer
end Pyl
