import Verif.Model.Heap
import Verif.Model.Runner
/-
Model of object identity in the runners: core/runner/{common,base_runner,synchronous_runner,asynchronous_runner}.py on
the heap, with an update rule that is arbitrary code.
-/
set_option autoImplicit false

namespace Pyl
namespace Heap

/-- What `get_state_update` returns on the heap: a value, or (asynchronous rules) a tuple of a value and a list of site
ids.  The tuple is taken apart as soon as it arrives (core/runner/asynchronous_runner.py:80-82) and the list of ids is
copied into the queue (line 87), so neither is kept as an object; a tuple is always a `pair` here. -/
inductive HAns where
  | one (v : HVal)
  | pair (v : HVal) (next : List Key)

/-- core/basic_controller.py:8-31 as code on the heap.  Every method gets the memory and leaves it as it likes: it may
make objects, change objects, call methods of states, and raise.  `x` is the number of the state object it is given. -/
structure Code (σ : Type) where
  /-- `get_state_update` -/
  update : σ → Key → Nat → HMem → HMem × Py (σ × HAns)
  /-- `get_random_site` -/
  randomSite : σ → Nat → HMem → HMem × Py (σ × SiteReq) := fun st _ m => (m, .ok (st, .other))
  /-- `pre_run` -/
  preRun : σ → Nat → HMem → HMem × Py σ := fun st _ m => (m, .ok st)

/-- The contents of the two inner dicts of `{SITES: {...}, GENERAL: {...}}`, or `None`. -/
abbrev Acc := Option (Dict Key HVal × Dict Key HVal)

/-- core/runner/common.py:13-14 `new_updates.get(k, {})` as the argument of `dict.update`. -/
def partAt (h : Heap) (d : Dict Key HVal) (k : Key) : Py (Dict Key HVal) :=
  match Dict.get? d k with
  | none => .ok []
  | some v => dictAt h v

/-- core/runner/common.py:16 `set(map(type, new_updates.keys())) == {int}` -/
def intKeyed (d : Dict Key HVal) : Bool :=
  !d.isEmpty && d.all (fun kv => match kv.1 with | .int _ => true | .str _ => false)

/-- core/runner/common.py:4-24 `merge_updates` with a site id.  The entries of the answer are copied as references.  The
three dicts that the function makes are visible to nobody before the step ends, so the model keeps their contents aside
and makes the objects at the end of the step (`pushAcc`).  `SITES in x` raises TypeError on numbers; strings, lists and
tuples have no `keys` or `get`. -/
def mergeAt (h : Heap) (new : HVal) (curr : Acc) (sid : Key) : Py Acc :=
  match new with
  | .pyNone => .ok curr
  | .num _ => .error .typeError
  | .str _ => .error .attributeError
  | .ref l => match h[l]? with
    | some (.dict d) =>
      let c := curr.getD ([], [])
      if Dict.has d SITES || Dict.has d GENERAL then do
        let ss ← partAt h d SITES
        let gs ← partAt h d GENERAL
        pure (some (Dict.update c.1 ss, Dict.update c.2 gs))
      else if intKeyed d then .ok (some (Dict.update c.1 d, c.2))
      else .ok (some (Dict.update c.1 [(sid, new)], c.2))
    | some _ => .error .attributeError
    | none => .error .typeError

/-- A tuple answer in a synchronous run reaches `new_updates.keys()` and raises AttributeError. -/
def mergeAns (h : Heap) (a : HAns) (curr : Acc) (sid : Key) : Py Acc :=
  match a with
  | .one v => mergeAt h v curr sid
  | .pair _ _ => .error .attributeError

/-- The dict object(s) of the merged updates: `{SITES: {...}, GENERAL: {...}}` made of three new dicts, or `None`. -/
def pushAcc (m : HMem) : Acc → HMem
  | none => { m with vals := m.vals ++ [.pyNone] }
  | some (s, g) =>
    let n := m.heap.length
    ⟨m.heap ++ [.dict s, .dict g, .dict [(SITES, .ref n), (GENERAL, .ref (n + 1))]], m.roots, m.vals ++ [.ref (n + 2)]⟩

/-- core/simulation_state.py:68-75 `site_ids`. -/
def siteIdsAt (m : HMem) (x : Nat) : List Key :=
  match m.roots[x]? with
  | none => []
  | some r => match dictAt m.heap (.ref r) with
    | .error _ => []
    | .ok st => match Dict.get? st SITES with
      | none => []
      | some v => match dictAt m.heap v with
        | .error _ => []
        | .ok sd => sd.map Prod.fst

section
variable {σ : Type}

/-- core/runner/synchronous_runner.py:117-125 `_step_batch`. -/
def stepBatchAt (c : Code σ) (x : Nat) : List Key → σ → Acc → HMem → HMem × Py (σ × Acc)
  | [], st, acc, m => (m, .ok (st, acc))
  | sid :: ids, st, acc, m => match c.update st sid x m with
    | (m', .error e) => (m', .error e)
    | (m', .ok (st', a)) => match mergeAns m'.heap a acc sid with
      | .error e => (m', .error e)
      | .ok acc' => stepBatchAt c x ids st' acc' m'

/-- core/runner/synchronous_runner.py:76-79, the serial loop: `x` is the live state, `r` the result.  The object applied
to the live state is the object recorded in the result. -/
def syncLoopAt (c : Code σ) (x r : Nat) : Nat → σ → World HMem → World HMem × Py σ
  | 0, st, w => (w, .ok st)
  | n + 1, st, w => match stepBatchAt c x (siteIdsAt w.mem x) st none w.mem with
    | (m, .error e) => ({ w with mem := m }, .error e)
    | (m, .ok (st', acc)) =>
      match World.step heapOps { w with mem := pushAcc m acc } (.prim (.batch x m.vals.length)) with
      | (w2, .error e) => (w2, .error e)
      | (w2, .ok _) => syncLoopAt c x r n st' (w2.step heapOps (.addStep r m.vals.length)).1

/-- core/runner/base_runner.py:63-70 `Runner.run` with a serial SynchronousRunner on state `i`: the number of the result
object. -/
def runSyncAt (c : Code σ) (st : σ) (i n : Nat) (w : World HMem) : World HMem × Py (σ × Nat) :=
  let x0 := w.mem.roots.length
  let r := w.results.length
  let w1 := (w.run heapOps [.prim (.copy i), .newResult x0]).1
  match c.preRun st i w1.mem with
  | (m, .error e) => ({ w1 with mem := m }, .error e)
  | (m, .ok st1) =>
    match syncLoopAt c m.roots.length r n st1 (World.step heapOps { w1 with mem := m } (.prim (.copy i))).1 with
    | (w4, .error e) => (w4, .error e)
    | (w4, .ok st') => ((w4.step heapOps (.setOutput r m.roots.length)).1, .ok (st', r))

/-- core/runner/asynchronous_runner.py:62-67 `_add_sites_to_queue`. -/
def addSitesAt (c : Code σ) (x : Nat) (st : σ) (q : List Key) (m : HMem) : HMem × Py (σ × List Key) :=
  match c.randomSite st x m with
  | (m', .error e) => (m', .error e)
  | (m', .ok (st', .one i)) => (m', .ok (st', q ++ [.int i]))
  | (m', .ok (st', .many l)) => (m', .ok (st', q ++ l))
  | (m', .ok (st', .other)) => (m', .ok (st', q))

/-- core/runner/asynchronous_runner.py:78-84: the updates and the follow-up sites. -/
def HAns.split : HAns → HVal × List Key
  | .one v => (v, [])
  | .pair v next => (v, next)

/-- core/runner/asynchronous_runner.py:75-92, one iteration of the loop up to the refill. -/
def asyncStepAt (c : Code σ) (x r : Nat) (st : σ) (queue : List Key) (w : World HMem) : World HMem × Py (σ × List Key) :=
  match queue with
  | [] => (w, .error .indexError)
  | sid :: q => match c.update st sid x w.mem with
    | (m, .error e) => ({ w with mem := m }, .error e)
    | (m, .ok (st', a)) => match mergeAt m.heap a.split.1 none sid with
      | .error e => ({ w with mem := m }, .error e)
      | .ok acc =>
        match World.step heapOps { w with mem := pushAcc m acc } (.prim (.batch x m.vals.length)) with
        | (w2, .error e) => (w2, .error e)
        | (w2, .ok _) =>
          let w3 := (w2.step heapOps (.addStep r m.vals.length)).1
          if (q ++ a.split.2).isEmpty then
            match addSitesAt c x st' (q ++ a.split.2) w3.mem with
            | (m', o) => ({ w3 with mem := m' }, o)
          else (w3, .ok (st', q ++ a.split.2))

/-- core/runner/asynchronous_runner.py:74-95, the loop. -/
def asyncLoopAt (c : Code σ) (x r : Nat) : Nat → σ → List Key → World HMem → World HMem × Py (σ × List Key)
  | 0, st, q, w => (w, .ok (st, q))
  | n + 1, st, q, w => match asyncStepAt c x r st q w with
    | (w', .error e) => (w', .error e)
    | (w', .ok (st', q')) => if q'.isEmpty then (w', .ok (st', q')) else asyncLoopAt c x r n st' q' w'

/-- core/runner/base_runner.py:63-70 with an AsynchronousRunner (asynchronous_runner.py:60-98). -/
def runAsyncAt (c : Code σ) (st : σ) (i n : Nat) (w : World HMem) : World HMem × Py (σ × Nat) :=
  let x0 := w.mem.roots.length
  let r := w.results.length
  let w1 := (w.run heapOps [.prim (.copy i), .newResult x0]).1
  match c.preRun st i w1.mem with
  | (m, .error e) => ({ w1 with mem := m }, .error e)
  | (m, .ok st1) =>
    let x := m.roots.length
    let w3 := (World.step heapOps { w1 with mem := m } (.prim (.copy i))).1
    match addSitesAt c x st1 [] w3.mem with
    | (m', .error e) => ({ w3 with mem := m' }, .error e)
    | (m', .ok (st2, q)) =>
      if q.isEmpty then ({ w3 with mem := m' }, .error .runtimeError)
      else match asyncLoopAt c x r n st2 q { w3 with mem := m' } with
        | (w4, .error e) => (w4, .error e)
        | (w4, .ok (st', _)) => ((w4.step heapOps (.setOutput r x)).1, .ok (st', r))

end
end Heap
end Pyl
