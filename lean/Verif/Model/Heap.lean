import Verif.Model.Result
/-
Model of object identity: core/simulation_state.py and core/simulation_result.py on a heap of mutable objects.
Everything that depends on which dict object is shared with which other object is modelled here.
-/
set_option autoImplicit false

namespace Pyl
namespace Heap

/-- A Python value as stored in a variable or container: an immutable atom or a reference (the number of a heap cell). -/
inductive HVal where
  | pyNone
  | num (q : Rat)
  | str (s : String)
  | ref (l : Nat)
deriving DecidableEq

/-- Container objects. -/
inductive Obj where
  | dict (d : Dict Key HVal)
  | list (l : List HVal)
  | tup (l : List HVal)
deriving DecidableEq

/-- The heap; a location is an index.  Nothing is ever freed. -/
abbrev Heap := List Obj

/-- The Python value of a dict key. -/
def keyVal : Key → HVal
  | .int i => .num i
  | .str s => .str s

/-- Add `n` to every reference. -/
def HVal.shift (n : Nat) : HVal → HVal
  | .ref l => .ref (l + n)
  | .pyNone => .pyNone
  | .num q => .num q
  | .str s => .str s

/-- Add `n` to every reference in an object. -/
def Obj.shift (n : Nat) : Obj → Obj
  | .dict d => .dict (d.map fun p => (p.1, p.2.shift n))
  | .list l => .list (l.map (HVal.shift n))
  | .tup l => .tup (l.map (HVal.shift n))

/-- `copy.deepcopy`, which copies each object reachable from the argument once and keeps sharing and cycles among the
copies.  The model clones the whole heap and returns the clone of the argument: the clones of objects that are not
reachable from it are garbage that nothing refers to. -/
def deepcopy (h : Heap) (v : HVal) : Heap × HVal := (h ++ h.map (Obj.shift h.length), v.shift h.length)

/-- Read a dict object (for `**v`): TypeError if `v` is something else. -/
def dictAt (h : Heap) : HVal → Py (Dict Key HVal)
  | .ref l => match h[l]? with
    | some (.dict d) => .ok d
    | _ => .error .typeError
  | _ => .error .typeError

/-- core/simulation_state.py:134-137: the old dict of a site, or a new `{"_site_id": sid}`. -/
def oldDict (h : Heap) (sd : Dict Key HVal) (sid : Key) : Py (Dict Key HVal) :=
  match Dict.get? sd sid with
  | none => .ok [(SITE_ID, keyVal sid)]
  | some .pyNone => .ok [(SITE_ID, keyVal sid)]
  | some v => dictAt h v

/-- core/simulation_state.py:125-139 `set_site_state` of the state whose `_state` dict is at `root`: a new dict object
`{**old, **updates}` is created and put into the SITES dict. -/
def setSiteState (h : Heap) (root : Nat) (sid : Key) (u : HVal) : Py Heap := do
  let st ← dictAt h (.ref root)
  match Dict.get? st SITES with
  | none => .error .keyError
  | some (.ref a) => do
    let sd ← dictAt h (.ref a)
    let old ← oldDict h sd sid
    let ud ← dictAt h u
    .ok ((h ++ [Obj.dict (Dict.update old ud)]).set a (.dict (Dict.set sd sid (.ref h.length))))
  | some _ => .error .attributeError

/-- core/simulation_state.py:113-123 `set_general_state`. -/
def setGeneralState (h : Heap) (root : Nat) (u : HVal) : Py Heap := do
  let st ← dictAt h (.ref root)
  let old ← (match Dict.get? st GENERAL with
    | none => .error .typeError
    | some v => dictAt h v)
  let ud ← dictAt h u
  .ok ((h ++ [Obj.dict (Dict.update old ud)]).set root (.dict (Dict.set st GENERAL (.ref h.length))))

/-- core/simulation_state.py:159-160, 164-165, the loop over items (entries before a failing one stay applied). -/
def setSites (h : Heap) (root : Nat) : Dict Key HVal → Heap × Option Err
  | [] => (h, none)
  | (k, v) :: d => match setSiteState h root k v with
    | .ok h' => setSites h' root d
    | .error e => (h, some e)

/-- core/simulation_state.py:141-165 `batch_update`.  `GENERAL in x` raises TypeError on None and numbers; strings, lists
and tuples have no `.items`/`.get` (AttributeError).  The items are iterated from the dict as it is at the start; this is
what Python does as long as the update dict is not the state's own SITES dict. -/
def batchUpdate (h : Heap) (root : Nat) (b : HVal) : Heap × Option Err :=
  match b with
  | .pyNone => (h, some .typeError)
  | .num _ => (h, some .typeError)
  | .str _ => (h, some .attributeError)
  | .ref l => match h[l]? with
    | some (.dict bd) =>
      match Dict.get? bd GENERAL with
      | none => setSites h root bd
      | some g =>
        let items : Option (Dict Key HVal) := match Dict.get? bd SITES with
          | none => some []
          | some v => (dictAt h v).toOption
        match items with
        | none => (h, some .attributeError)
        | some d => match setSites h root d with
          | (h', some e) => (h', some e)
          | (h', none) => match setGeneralState h' root g with
            | .ok h'' => (h'', none)
            | .error e => (h', some e)
    | some _ => (h, some .attributeError)
    | none => (h, some .typeError)

/-- Memory as seen by a client: the heap, the `SimulationState` objects in existence (their `_state` dicts), and the
other values the client holds. -/
structure HMem where
  heap : Heap
  roots : List Nat
  vals : List HVal

/-- The same without object identity. -/
structure VMem where
  states : List SimState
  vals : List Val

/-- Primitive things a client can do. States and values are named by their position in the lists. -/
inductive Prim where
  /-- `SimulationState()` -/
  | newState
  /-- `states[i].copy()` -/
  | copy (i : Nat)
  /-- a literal -/
  | none
  | num (q : Rat)
  | str (s : String)
  /-- `{k: vals[j], ...}` -/
  | mkDict (es : List (Key × Nat))
  | mkList (es : List Nat)
  | mkTup (es : List Nat)
  /-- `states[i].set_site_state(k, vals[j])` -/
  | setSite (i : Nat) (k : Key) (j : Nat)
  | setGeneral (i j : Nat)
  | batch (i j : Nat)
  /-- `states[i].get_site_state(k)`: the live dict object -/
  | getSite (i : Nat) (k : Key)
  | getGeneral (i : Nat)

def HMem.val (m : HMem) (j : Nat) : HVal := m.vals.getD j .pyNone
def VMem.val (m : VMem) (j : Nat) : Val := m.vals.getD j .pyNone

/-- core/simulation_state.py:88-111: the object returned by `get_site_state` / `get_general_state`. -/
def getSite (h : Heap) (root : Nat) (k : Key) : HVal :=
  match dictAt h (.ref root) with
  | .error _ => .pyNone
  | .ok st => match Dict.get? st SITES with
    | none => .pyNone
    | some v => match dictAt h v with
      | .error _ => .pyNone
      | .ok sd => (Dict.get? sd k).getD .pyNone

def getGeneral (h : Heap) (root : Nat) : HVal :=
  match dictAt h (.ref root) with
  | .error _ => .pyNone
  | .ok st => (Dict.get? st GENERAL).getD .pyNone

/-- Execute a primitive on the heap; the exception, if any. -/
def HMem.step (m : HMem) : Prim → HMem × Option Err
  | .newState =>
    -- core/simulation_state.py:49-53
    let n := m.heap.length
    (⟨m.heap ++ [.dict [], .dict [], .dict [(SITES, .ref n), (GENERAL, .ref (n + 1))]], m.roots ++ [n + 2], m.vals⟩,
      Option.none)
  | .copy i => match m.roots[i]? with
    | Option.none => (m, Option.none)
    | some r =>
      -- core/simulation_state.py:55, 167-176
      let h := m.heap
      (⟨(deepcopy h (.ref r)).1, m.roots ++ [r + h.length], m.vals⟩, Option.none)
  | .none => ({ m with vals := m.vals ++ [.pyNone] }, Option.none)
  | .num q => ({ m with vals := m.vals ++ [.num q] }, Option.none)
  | .str s => ({ m with vals := m.vals ++ [.str s] }, Option.none)
  | .mkDict es =>
    (⟨m.heap ++ [.dict (Dict.ofPairs (es.map fun p => (p.1, m.val p.2)))], m.roots, m.vals ++ [.ref m.heap.length]⟩,
      Option.none)
  | .mkList es => (⟨m.heap ++ [.list (es.map m.val)], m.roots, m.vals ++ [.ref m.heap.length]⟩, Option.none)
  | .mkTup es => (⟨m.heap ++ [.tup (es.map m.val)], m.roots, m.vals ++ [.ref m.heap.length]⟩, Option.none)
  | .setSite i k j => match m.roots[i]? with
    | Option.none => (m, Option.none)
    | some r => match setSiteState m.heap r k (m.val j) with
      | .ok h => ({ m with heap := h }, Option.none)
      | .error e => (m, some e)
  | .setGeneral i j => match m.roots[i]? with
    | Option.none => (m, Option.none)
    | some r => match setGeneralState m.heap r (m.val j) with
      | .ok h => ({ m with heap := h }, Option.none)
      | .error e => (m, some e)
  | .batch i j => match m.roots[i]? with
    | Option.none => (m, Option.none)
    | some r => ({ m with heap := (batchUpdate m.heap r (m.val j)).1 }, (batchUpdate m.heap r (m.val j)).2)
  | .getSite i k => match m.roots[i]? with
    | Option.none => ({ m with vals := m.vals ++ [.pyNone] }, Option.none)
    | some r => ({ m with vals := m.vals ++ [Heap.getSite m.heap r k] }, Option.none)
  | .getGeneral i => match m.roots[i]? with
    | Option.none => ({ m with vals := m.vals ++ [.pyNone] }, Option.none)
    | some r => ({ m with vals := m.vals ++ [Heap.getGeneral m.heap r] }, Option.none)

/-- `batch_update` of the value model on an arbitrary value, with the state left behind. -/
def batchV (s : SimState) : Val → SimState × Option Err
  | .pyNone => (s, some .typeError)
  | .num _ => (s, some .typeError)
  | .str _ => (s, some .attributeError)
  | .list _ => (s, some .attributeError)
  | .tup _ => (s, some .attributeError)
  | .dict b => s.batchUpdateEff b

/-- Execute a primitive on values, with the functions of `Model/State.lean`: only the state named in the primitive
changes. -/
def VMem.step (m : VMem) : Prim → VMem × Option Err
  | .newState => ({ m with states := m.states ++ [SimState.empty] }, Option.none)
  | .copy i => match m.states[i]? with
    | Option.none => (m, Option.none)
    | some s => ({ m with states := m.states ++ [s.copy] }, Option.none)
  | .none => ({ m with vals := m.vals ++ [.pyNone] }, Option.none)
  | .num q => ({ m with vals := m.vals ++ [.num q] }, Option.none)
  | .str s => ({ m with vals := m.vals ++ [.str s] }, Option.none)
  | .mkDict es => ({ m with vals := m.vals ++ [.dict (Dict.ofPairs (es.map fun p => (p.1, m.val p.2)))] }, Option.none)
  | .mkList es => ({ m with vals := m.vals ++ [.list (es.map m.val)] }, Option.none)
  | .mkTup es => ({ m with vals := m.vals ++ [.tup (es.map m.val)] }, Option.none)
  | .setSite i k j => match m.states[i]? with
    | Option.none => (m, Option.none)
    | some s => match s.setSiteStateV k (m.val j) with
      | .ok s' => ({ m with states := m.states.set i s' }, Option.none)
      | .error e => (m, some e)
  | .setGeneral i j => match m.states[i]? with
    | Option.none => (m, Option.none)
    | some s => match s.setGeneralStateV (m.val j) with
      | .ok s' => ({ m with states := m.states.set i s' }, Option.none)
      | .error e => (m, some e)
  | .batch i j => match m.states[i]? with
    | Option.none => (m, Option.none)
    | some s => ({ m with states := m.states.set i (batchV s (m.val j)).1 }, (batchV s (m.val j)).2)
  | .getSite i k => match m.states[i]? with
    | Option.none => ({ m with vals := m.vals ++ [.pyNone] }, Option.none)
    | some s => ({ m with vals := m.vals ++ [(s.getSiteState k).elim .pyNone Val.dict] }, Option.none)
  | .getGeneral i => match m.states[i]? with
    | Option.none => ({ m with vals := m.vals ++ [.pyNone] }, Option.none)
    | some s => ({ m with vals := m.vals ++ [s.getGeneralState.elim .pyNone Val.dict] }, Option.none)

/-! ### results -/

/-- core/simulation_result.py:32-42: a `SimulationResult`; states by position in the list of states, diffs by position in
the list of values (references are kept, nothing is copied). -/
structure HResult where
  initial : Nat
  diffs : List Nat
  stored : Dict Int Nat
  output : Option Nat

/-- A running `steps()` generator (core/simulation_result.py:66-77): the live state once started, and the number of states
yielded so far. -/
structure Gen where
  res : Nat
  live : Option Nat
  pos : Nat
  done : Bool

/-- A client's view with results and generators, over a memory type. -/
structure World (M : Type) where
  mem : M
  results : List HResult
  gens : List Gen

/-- How a memory executes primitives and how many states and values it has. -/
structure MemOps (M : Type) where
  step : M → Prim → M × Option Err
  size : M → Nat
  nvals : M → Nat

def heapOps : MemOps HMem := ⟨HMem.step, fun m => m.roots.length, fun m => m.vals.length⟩
def valOps : MemOps VMem := ⟨VMem.step, fun m => m.states.length, fun m => m.vals.length⟩

/-- Client commands. -/
inductive Cmd where
  | prim (p : Prim)
  /-- `SimulationResult(states[i])` -/
  | newResult (i : Nat)
  /-- `results[r].add_step(vals[j])` -/
  | addStep (r j : Nat)
  | setOutput (r i : Nat)
  | getStep (r : Nat) (k : Int)
  | loadSteps (r : Nat) (m : Int)
  /-- `results[r].steps()` -/
  | steps (r : Nat)
  /-- `next(gens[g])` -/
  | next (g : Nat)

section
variable {M : Type} (ops : MemOps M)

/-- core/simulation_result.py:127-129: apply the first `n` diffs to state `x`. -/
def applyDiffs (x : Nat) : M → List Nat → Nat → M × Option Err
  | m, _, 0 => (m, Option.none)
  | m, [], _ + 1 => (m, some .indexError)
  | m, d :: ds, n + 1 => match ops.step m (.batch x d) with
    | (m', some e) => (m', some e)
    | (m', Option.none) => applyDiffs x m' ds n

/-- core/simulation_result.py:109-130 `get_step`: the stored object itself, or a new copy brought up to date. -/
def getStepW (m : M) (r : HResult) (k : Int) : M × Py Nat :=
  match Dict.get? r.stored k with
  | some i => (m, .ok i)
  | Option.none =>
    let x := ops.size m
    match ops.step m (.copy r.initial) with
    | (m1, some e) => (m1, .error e)
    | (m1, Option.none) => match applyDiffs ops x m1 r.diffs k.toNat with
      | (m2, some e) => (m2, .error e)
      | (m2, Option.none) => (m2, .ok x)

/-- core/simulation_result.py:100-107, the loop of `load_steps` with live state `x`. -/
def loadLoopW (interval : Int) (x : Nat) : Nat → M → List Nat → Dict Int Nat → M × Dict Int Nat × Option Err
  | _, m, [], st => (m, st, Option.none)
  | i, m, d :: ds, st => match ops.step m (.batch x d) with
    | (m', some e) => (m', st, some e)
    | (m', Option.none) =>
      if interval = 0 then (m', st, some .zeroDivisionError)
      else if ((i : Int) + 1) % interval = 0 ∧ Dict.get? st ((i : Int) + 1) = Option.none then
        match ops.step m' (.copy x) with
        | (m'', some e) => (m'', st, some e)
        | (m'', Option.none) => loadLoopW interval x (i + 1) m'' ds (Dict.set st ((i : Int) + 1) (ops.size m'))
      else loadLoopW interval x (i + 1) m' ds st

/-- core/simulation_result.py:97-107 `load_steps`. -/
def loadStepsW (m : M) (r : HResult) (interval : Int) : M × HResult × Option Err :=
  let x := ops.size m
  let m1 := (ops.step m (.copy r.initial)).1
  let y := ops.size m1
  let m2 := (ops.step m1 (.copy r.initial)).1
  let out := loadLoopW ops interval x 0 m2 r.diffs (Dict.set r.stored 0 y)
  (out.1, { r with stored := out.2.1 }, out.2.2)

/-- core/simulation_result.py:66-77, `next` on the generator: the first call copies the initial state; every later call
first applies the next diff to the same live object; the object is yielded while there are diffs left. -/
def nextW (m : M) (r : HResult) (g : Gen) : M × Gen × Py Nat :=
  if g.done then (m, g, .error .stopIteration) else
  match g.live with
  | Option.none =>
    let x := ops.size m
    let m' := (ops.step m (.copy r.initial)).1
    if r.diffs.isEmpty then (m', { g with live := some x, done := true }, .error .stopIteration)
    else (m', { g with live := some x, pos := 1 }, .ok x)
  | some x => match ops.step m (.batch x (r.diffs.getD (g.pos - 1) 0)) with
    | (m', some e) => (m', { g with done := true }, .error e)
    | (m', Option.none) =>
      if g.pos < r.diffs.length then (m', { g with pos := g.pos + 1 }, .ok x)
      else (m', { g with done := true }, .error .stopIteration)

/-- Execute a command; the answer is the state returned, if the command returns one (names of missing states,
values, results or generators: nothing happens). -/
def World.step (w : World M) : Cmd → World M × Py (Option Nat)
  | .prim p => ({ w with mem := (ops.step w.mem p).1 }, match (ops.step w.mem p).2 with
      | Option.none => .ok Option.none
      | some e => .error e)
  | .newResult i =>
    if i < ops.size w.mem then ({ w with results := w.results ++ [⟨i, [], [], Option.none⟩] }, .ok Option.none)
    else (w, .ok Option.none)
  | .addStep r j => match w.results[r]? with
    | Option.none => (w, .ok Option.none)
    | some x =>
      if j < ops.nvals w.mem then
        ({ w with results := w.results.set r { x with diffs := x.diffs ++ [j] } }, .ok Option.none)
      else (w, .ok Option.none)
  | .setOutput r i => match w.results[r]? with
    | Option.none => (w, .ok Option.none)
    | some x =>
      if i < ops.size w.mem then
        ({ w with results := w.results.set r { x with output := some i } }, .ok Option.none)
      else (w, .ok Option.none)
  | .getStep r k => match w.results[r]? with
    | Option.none => (w, .ok Option.none)
    | some x => ({ w with mem := (getStepW ops w.mem x k).1 }, (getStepW ops w.mem x k).2.map some)
  | .loadSteps r k => match w.results[r]? with
    | Option.none => (w, .ok Option.none)
    | some x => ({ w with mem := (loadStepsW ops w.mem x k).1,
                          results := w.results.set r (loadStepsW ops w.mem x k).2.1 },
        match (loadStepsW ops w.mem x k).2.2 with
        | Option.none => .ok Option.none
        | some e => .error e)
  | .steps r => ({ w with gens := w.gens ++ [⟨r, Option.none, 0, false⟩] }, .ok Option.none)
  | .next g => match w.gens[g]? with
    | Option.none => (w, .ok Option.none)
    | some x => match w.results[x.res]? with
      | Option.none => (w, .ok Option.none)
      | some r => ({ w with mem := (nextW ops w.mem r x).1, gens := w.gens.set g (nextW ops w.mem r x).2.1 },
          (nextW ops w.mem r x).2.2.map some)

/-- Execute a program, collecting the answers. -/
def World.run (w : World M) : List Cmd → World M × List (Py (Option Nat))
  | [] => (w, [])
  | c :: cs => (((w.step ops c).1.run cs).1, (w.step ops c).2 :: ((w.step ops c).1.run cs).2)

end

/-- The empty worlds. -/
def HMem.init : HMem := ⟨[], [], []⟩
def VMem.init : VMem := ⟨[], []⟩

end Heap
end Pyl
