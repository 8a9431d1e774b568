import Verif.Model.Heap
/-
Specifications for the aliasing properties: what an observer reads from the heap, and what a client that holds
references can do.
-/
set_option autoImplicit false

namespace Pyl
namespace Heap

/-- Read a value from the heap, following references at most `n` levels deep. -/
def readVal (h : Heap) : Nat → HVal → Option Val
  | _, .pyNone => some .pyNone
  | _, .num q => some (.num q)
  | _, .str s => some (.str s)
  | 0, .ref _ => none
  | n + 1, .ref l => match h[l]? with
    | some (.list vs) => (vs.mapM (readVal h n)).map Val.list
    | some (.tup vs) => (vs.mapM (readVal h n)).map Val.tup
    | some (.dict d) => (d.mapM fun p => (readVal h n p.2).map fun w => (p.1, w)).map Val.dict
    | none => none

/-- `v` reads as `w`. -/
def Reads (h : Heap) (v : HVal) (w : Val) : Prop := ∃ n, readVal h n v = some w

/-- Read a dict. -/
def readDict (h : Heap) (n : Nat) (v : HVal) : Option Props :=
  match readVal h n v with
  | some (.dict q) => some q
  | _ => none

/-- Read the general section, which may be missing. -/
def readGeneral (h : Heap) (n : Nat) : Option HVal → Option (Option Props)
  | none => some none
  | some v => (readDict h n v).map some

/-- `get_general_state()` and `get_site_state` for every site id of the state whose `_state` dict is at `root`. -/
def readState (h : Heap) (n root : Nat) : Option SimState :=
  match h[root]? with
  | some (.dict d) => match Dict.get? d SITES with
    | some (.ref a) => match h[a]? with
      | some (.dict sd) =>
        match sd.mapM (fun p => (readDict h n p.2).map fun q => (p.1, q)), readGeneral h n (Dict.get? d GENERAL) with
        | some sites, some general => some ⟨sites, general⟩
        | _, _ => none
      | _ => none
    | _ => none
  | _ => none

/-- The `i`-th state object, observed through its methods, shows the content `s`. -/
def Shows (m : HMem) (i : Nat) (s : SimState) : Prop :=
  ∃ root n, m.roots[i]? = some root ∧ readState m.heap n root = some s

/-- The state object changed by a primitive, if it changes one. -/
def Prim.target : Prim → Option Nat
  | .setSite i _ _ => some i
  | .setGeneral i _ => some i
  | .batch i _ => some i
  | _ => Option.none

/-- Run primitives one after the other; exceptions are caught by the client. -/
def HMem.run (m : HMem) (ps : List Prim) : HMem := ps.foldl (fun m p => (m.step p).1) m
def VMem.run (m : VMem) (ps : List Prim) : VMem := ps.foldl (fun m p => (m.step p).1) m

/-- A program does not touch state `i` (directly). -/
def Leaves (cs : List Cmd) (i : Nat) : Prop := ∀ p, Cmd.prim p ∈ cs → p.target ≠ some i

/-- What `batch_update` with an arbitrary value makes of a state. -/
def applyVal (s : SimState) : Val → Py SimState
  | .dict b => s.batchUpdate b
  | .pyNone => .error .typeError
  | .num _ => .error .typeError
  | _ => .error .attributeError

/-- The state of step `k`: the first `k` recorded updates applied in order; asking for more than there are is an
IndexError. -/
def stepOf (s0 : SimState) (ws : List Val) (k : Nat) : Py SimState := do
  let s ← (ws.take k).foldlM applyVal s0
  if k ≤ ws.length then pure s else .error .indexError

/-- One step of a run: what the controller does to compute its answer, whether the parent process applies it to the live
state (not in a parallel run), and which value the answer is. -/
structure RunStep where
  think : List Prim
  applied : Bool
  answer : Nat

/-- core/runner/base_runner.py:63-70 with core/runner/synchronous_runner.py:68-81 or asynchronous_runner.py:57-98, as a
client program: `initial` is the caller's state, `n` the number of states and `r` the number of results in existence. -/
def runProgram (initial n r : Nat) (steps : List RunStep) : List Cmd :=
  [.prim (.copy initial), .newResult n, .prim (.copy initial)] ++
  steps.flatMap (fun s => s.think.map Cmd.prim ++
    (if s.applied then [.prim (.batch (n + 1) s.answer)] else []) ++ [.addStep r s.answer]) ++
  [.setOutput r (n + 1)]

/-! ### arbitrary code -/

/-- What arbitrary Python code can do with the values it holds (named by position in a list): make atoms, follow a
reference, make a container of held values, overwrite a container that it holds in place with any content made of held
values (this includes inserting, deleting and changing entries). -/
inductive Act where
  | atom (v : HVal)
  | item (a i : Nat)
  | newDict (es : List (Key × Nat))
  | newList (es : List Nat)
  | newTup (es : List Nat)
  | putDict (a : Nat) (es : List (Key × Nat))
  | putList (a : Nat) (es : List Nat)

/-- Held value number `j`. -/
def held (vs : List HVal) (j : Nat) : HVal := vs.getD j .pyNone

/-- The values inside an object. -/
def Obj.contents : Obj → List HVal
  | .dict d => d.map Prod.snd
  | .list l => l
  | .tup l => l

/-- One action: the new heap and the values now held. -/
def Act.run (h : Heap) (vs : List HVal) : Act → Heap × List HVal
  | .atom (.ref _) => (h, vs)
  | .atom v => (h, vs ++ [v])
  | .item a i => match held vs a with
    | .ref l => match h[l]? with
      | some o => (h, vs ++ [held o.contents i])
      | none => (h, vs)
    | _ => (h, vs)
  | .newDict es => (h ++ [.dict (es.map fun p => (p.1, held vs p.2))], vs ++ [.ref h.length])
  | .newList es => (h ++ [.list (es.map (held vs))], vs ++ [.ref h.length])
  | .newTup es => (h ++ [.tup (es.map (held vs))], vs ++ [.ref h.length])
  | .putDict a es => match held vs a with
    | .ref l => (h.set l (.dict (es.map fun p => (p.1, held vs p.2))), vs)
    | _ => (h, vs)
  | .putList a es => match held vs a with
    | .ref l => (h.set l (.list (es.map (held vs))), vs)
    | _ => (h, vs)

/-- Two pieces of code sharing the heap, one holding the values `left`, the other `right`. -/
structure Duo where
  heap : Heap
  left : List HVal
  right : List HVal

/-- An action by the left (`false`) or right (`true`) piece of code. -/
def Duo.step (d : Duo) : Bool × Act → Duo
  | (false, a) => ⟨(a.run d.heap d.left).1, (a.run d.heap d.left).2, d.right⟩
  | (true, a) => ⟨(a.run d.heap d.right).1, d.left, (a.run d.heap d.right).2⟩

/-- Locations that can be reached from a list of values. -/
inductive Reach (h : Heap) (vs : List HVal) : Nat → Prop where
  | root {l : Nat} : HVal.ref l ∈ vs → Reach h vs l
  | next {l l' : Nat} {o : Obj} : Reach h vs l → h[l]? = some o → HVal.ref l' ∈ o.contents → Reach h vs l'

/-- Every reference in the heap points into the heap. -/
def NoDangling (h : Heap) : Prop := ∀ (l : Nat) (o : Obj), h[l]? = some o → ∀ l', HVal.ref l' ∈ o.contents → l' < h.length

end Heap
end Pyl
