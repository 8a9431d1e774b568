import Verif.Model.Heap
import Verif.Model.Json
/-
Model of object identity in the serialisation methods: `as_dict` and `from_dict` of core/simulation_state.py and
core/simulation_result.py on the heap of `Model/Heap.lean`.  `as_dict` hands out the live `_state` dict and `from_dict`
changes the dict it is given, so a state rebuilt in memory (without going through a file) acts on the original.
-/
set_option autoImplicit false

namespace Pyl
namespace Heap

/-- core/simulation_state.py:19-24 `as_dict` of the state whose `_state` dict is at `root`: a new dict object that holds
the `_state` dict itself. -/
def asDict (h : Heap) (root : Nat) : Heap × HVal :=
  (h ++ [.dict [(.str "state", .ref root), (.str "@module", .str "pylattica.core.simulation_state"),
    (.str "@class", .str "SimulationState")]], .ref h.length)

/-- `{int(k): v for k, v in d.items()}`: a new dict with the same values (not copied). -/
def intKeys (d : Dict Key HVal) : Py (Dict Key HVal) := do
  let l ← d.mapM fun kv => do pure (Key.int (← kv.1.toInt), kv.2)
  pure (Dict.ofPairs l)

/-- core/simulation_state.py:26-30, 55 `from_dict`: the heap afterwards and the `_state` dict of the new state, or the
exception.  Line 29 assigns into the argument's own `"state"` dict; line 30 deep-copies that.  Something that is not a
dict cannot be subscripted with a string (TypeError), or has no `items` (AttributeError). -/
def fromDict (h : Heap) (v : HVal) : Heap × Py Nat :=
  match dictAt h v with
  | .error e => (h, .error e)
  | .ok d => match Dict.get? d (.str "state") with
    | none => (h, .error .keyError)
    | some (.ref l) => match h[l]? with
      | some (.dict st) => match Dict.get? st SITES with
        | none => (h, .error .keyError)
        | some sv => match dictAt h sv with
          | .error _ => (h, .error .attributeError)
          | .ok sd => match intKeys sd with
            | .error e => (h, .error e)
            | .ok nd =>
              let h1 := (h ++ [Obj.dict nd]).set l (.dict (Dict.set st SITES (.ref h.length)))
              ((deepcopy h1 (.ref l)).1, .ok (l + h1.length))
      | _ => (h, .error .typeError)
    | some _ => (h, .error .typeError)

/-- `SimulationState.from_dict(states[i].as_dict())`: a further state, or the exception. -/
def HMem.reload (m : HMem) (i : Nat) : HMem × Option Err :=
  match m.roots[i]? with
  | none => (m, none)
  | some r =>
    let a := asDict m.heap r
    match fromDict a.1 a.2 with
    | (h, .ok r') => (⟨h, m.roots ++ [r'], m.vals⟩, none)
    | (h, .error e) => ({ m with heap := h }, some e)

/-- core/simulation_result.py:28: `{int(k): v for k, v in diff.items() if k != "GENERAL"}`, a further value (values that
are not dicts have no `items`). -/
def HMem.reformat (m : HMem) (j : Nat) : HMem × Option Err :=
  match dictAt m.heap (m.val j) with
  | .error _ => (m, some .attributeError)
  | .ok d => match intKeys (d.filter fun kv => kv.1 ≠ GENERAL) with
    | .error e => (m, some e)
    | .ok nd => (⟨m.heap ++ [.dict nd], m.roots, m.vals ++ [.ref m.heap.length]⟩, none)

/-- The same on values: the ids of a state read as ints. -/
def intIds (s : SimState) : Py SimState := do
  let l ← s.sites.mapM fun kv => do pure (Key.int (← kv.1.toInt), kv.2)
  pure ⟨Dict.ofPairs l, s.general⟩

/-- On values: the original is changed in the same way as the new state is made. -/
def VMem.reload (m : VMem) (i : Nat) : VMem × Option Err :=
  match m.states[i]? with
  | none => (m, none)
  | some s => match intIds s with
    | .ok s' => ({ m with states := m.states.set i s' ++ [s'] }, none)
    | .error e => (m, some e)

def VMem.reformat (m : VMem) (j : Nat) : VMem × Option Err :=
  match SimResult.reformat (m.val j) with
  | .ok d => ({ m with vals := m.vals ++ [.dict d] }, none)
  | .error e => (m, some e)

/-- How a memory executes primitives and rebuilds states and updates. -/
structure JsonOps (M : Type) extends MemOps M where
  reload : M → Nat → M × Option Err
  reformat : M → Nat → M × Option Err

def heapJson : JsonOps HMem := ⟨heapOps, HMem.reload, HMem.reformat⟩
def valJson : JsonOps VMem := ⟨valOps, VMem.reload, VMem.reformat⟩

/-- Client commands, with the rebuilding of states and results. -/
inductive JCmd where
  | cmd (c : Cmd)
  /-- `SimulationState.from_dict(states[i].as_dict())` -/
  | reload (i : Nat)
  /-- `SimulationResult.from_dict(results[r].as_dict())` -/
  | reloadResult (r : Nat)

section
variable {M : Type} (ops : JsonOps M)

/-- core/simulation_result.py:27-29, the loop over the diffs: the names of the new updates, or the exception. -/
def reformatAll : M → List Nat → M × Py (List Nat)
  | m, [] => (m, .ok [])
  | m, j :: js => match ops.reformat m j with
    | (m', some e) => (m', .error e)
    | (m', none) => ((reformatAll m' js).1, (reformatAll m' js).2.map (ops.nvals m :: ·))

/-- core/simulation_result.py:23-30 `from_dict` of core/simulation_result.py:132-138 `as_dict`: the initial state is
rebuilt, then the updates; the stored states are not carried over. -/
def World.reloadResult (w : World M) (r : Nat) : World M × Py (Option Nat) :=
  match w.results[r]? with
  | none => (w, .ok none)
  | some q => match ops.reload w.mem q.initial with
    | (m1, some e) => ({ w with mem := m1 }, .error e)
    | (m1, none) => match reformatAll ops m1 q.diffs with
      | (m2, .error e) => ({ w with mem := m2 }, .error e)
      | (m2, .ok js) => ({ w with mem := m2, results := w.results ++ [⟨ops.size w.mem, js, [], none⟩] }, .ok none)

/-- Execute a command. -/
def World.jstep (w : World M) : JCmd → World M × Py (Option Nat)
  | .cmd c => w.step ops.toMemOps c
  | .reload i => ({ w with mem := (ops.reload w.mem i).1 }, match (ops.reload w.mem i).2 with
      | none => .ok none
      | some e => .error e)
  | .reloadResult r => w.reloadResult ops r

/-- Execute a program, collecting the answers. -/
def World.jrun (w : World M) : List JCmd → World M × List (Py (Option Nat))
  | [] => (w, [])
  | c :: cs => (((w.jstep ops c).1.jrun cs).1, (w.jstep ops c).2 :: ((w.jstep ops c).1.jrun cs).2)

end

end Heap
end Pyl
