import Verif.Model.HeapJson
import Verif.Spec.Heap
import Mathlib.Data.List.Forall2
/-
Specifications for rebuilding states and results in memory.
-/
set_option autoImplicit false

namespace Pyl
namespace Heap

/-- Every site id can be read as an int. -/
def Readable (s : SimState) : Prop := ∀ k ∈ s.siteIds, ∃ n, k.toInt = .ok n

/-- Every site id is an int. -/
def HasIntIds (s : SimState) : Prop := ∀ k ∈ s.siteIds, ∃ n, k = .int n

/-- `s'` is `s` with its site ids read as ints: site `n` of `s'` is the last site of `s` whose id reads as `n`. -/
structure ReadAsInts (s s' : SimState) : Prop where
  general : s'.general = s.general
  ints : HasIntIds s'
  site : ∀ n : Int, s'.getSiteState (.int n) =
    (s.sites.reverse.find? fun kp => kp.1.toInt.toOption == some n).map Prod.snd

/-- The dict `v`, as returned by `as_dict()`, shows the content `s` under "state". -/
def DictShows (h : Heap) (v : HVal) (s : SimState) : Prop :=
  ∃ l d root n, v = .ref l ∧ h[l]? = some (.dict d) ∧ Dict.get? d (.str "state") = some (.ref root) ∧
    readState h n root = some s

/-- A situation that client code can bring about, with states and results rebuilt from their dicts. -/
def JReachable (w : World HMem) : Prop := ∃ cs, w = (World.jrun heapJson ⟨.init, [], []⟩ cs).1

/-- A recorded update that names its sites by ints only and has no general part. -/
def PlainUpdate : Val → Prop
  | .dict d => ∀ k ∈ Dict.keys d, ∃ n, k = .int n
  | _ => False

/-- A recorded update whose ids, other than "GENERAL", can be read as ints. -/
def ReadableUpdate : Val → Prop
  | .dict d => ∀ k ∈ Dict.keys d, k = GENERAL ∨ ∃ n, k.toInt = .ok n
  | _ => False

/-- `y` is the update `x` without its general part and with its ids read as ints: the entry for `n` is the last one whose id
reads as `n`. -/
def UpdateAsInts : Val → Val → Prop
  | .dict d, .dict d' => (∀ k ∈ Dict.keys d', ∃ n, k = .int n) ∧
      ∀ n : Int, Dict.get? d' (.int n) =
        (d.reverse.find? fun kv => kv.1 ≠ GENERAL && kv.1.toInt.toOption == some n).map Prod.snd
  | _, _ => False

/-- The updates recorded in result `q` read as `ws`. -/
def Diffs (w : World HMem) (q : HResult) (ws : List Val) : Prop :=
  List.Forall₂ (fun j x => Reads w.mem.heap (w.mem.val j) x) q.diffs ws

end Heap
end Pyl
