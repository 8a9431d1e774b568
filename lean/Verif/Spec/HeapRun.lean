import Verif.Model.HeapRun
import Verif.Lemmas.HeapSim
import Verif.Spec.Heap
/-
Specifications for runs on the heap: code that carries out a rule, and result objects that read as results.
-/
set_option autoImplicit false

namespace Pyl
namespace Heap

/-- The two inner dicts of every state object are its own: nothing else refers to them; all other values are finite.
Every memory that client code brings about is like this (`Reachable.sane`). -/
def Sane (m : HMem) : Prop := ∃ v, MSim m v

/-- The value named by `p` exists and reads as the given one. -/
def Known (m : HMem) (p : Nat × Val) : Prop := p.1 < m.vals.length ∧ Reads m.heap (m.val p.1) p.2

/-- The object in an answer. -/
def HAns.value : HAns → HVal
  | .one v => v
  | .pair v _ => v

/-- An answer on the heap reads as an answer. -/
def AnsReads (h : Heap) : HAns → Resp → Prop
  | .one v, .noUpdate => Reads h v .pyNone
  | .one v, .dict d => Reads h v (.dict d)
  | .pair v next, .tuple none next' => Reads h v .pyNone ∧ next = next'
  | .pair v next, .tuple (some d) next' => Reads h v (.dict d) ∧ next = next'
  | _, _ => False

/-- `c` is code that does what `C` says by making objects and reading states (primitives without a target; `pre_run` may
also update the state it is given), and that changes no object.  It may answer with any object it can name: a new one, one
that it keeps from earlier calls (`held st` are the values it keeps and what they hold), or a dict of the live state
itself.  The same object may be returned for many sites and steps. -/
structure Follows {σ : Type} (c : Code σ) (C : Controller σ) (held : σ → List (Nat × Val)) : Prop where
  update : ∀ (st : σ) (sid : Key) (x : Nat) (m : HMem) (s : SimState), Sane m → Shows m x s →
    (∀ p ∈ held st, Known m p) → ∃ ps : List Prim, (∀ p ∈ ps, p.target = none) ∧ (c.update st sid x m).1 = m.run ps ∧
      match C.update st sid s with
      | .error e => (c.update st sid x m).2 = .error e
      | .ok (st', r) => ∃ a j, (c.update st sid x m).2 = .ok (st', a) ∧ a.value = (m.run ps).val j ∧
          AnsReads (m.run ps).heap a r ∧ ∀ p ∈ held st', Known (m.run ps) p
  randomSite : ∀ (st : σ) (x : Nat) (m : HMem) (s : SimState), Sane m → Shows m x s →
    (∀ p ∈ held st, Known m p) → ∃ ps : List Prim, (∀ p ∈ ps, p.target = none) ∧ (c.randomSite st x m).1 = m.run ps ∧
      (c.randomSite st x m).2 = C.randomSite st s ∧
      ∀ st' q, C.randomSite st s = .ok (st', q) → ∀ p ∈ held st', Known (m.run ps) p
  preRun : ∀ (st : σ) (x : Nat) (m : HMem) (s : SimState), Sane m → Shows m x s →
    (∀ p ∈ held st, Known m p) → ∃ ps : List Prim, (∀ p ∈ ps, ∀ i, p.target = some i → i = x) ∧
      (c.preRun st x m).1 = m.run ps ∧
      match C.preRun st s with
      | .error e => (c.preRun st x m).2 = .error e
      | .ok (st', s') => (c.preRun st x m).2 = .ok st' ∧ Shows (m.run ps) x s' ∧ ∀ p ∈ held st', Known (m.run ps) p

/-- The Python value of a recorded update. -/
def diffVal : Option Props → Val
  | none => .pyNone
  | some d => .dict d

/-- The result object `r` reads as `res`: same initial state, same recorded updates, same output, nothing stored. -/
def ResultReads (w : World HMem) (r : Nat) (res : SimResult) : Prop :=
  ∃ x, w.results[r]? = some x ∧ Shows w.mem x.initial res.initial ∧
    List.Forall₂ (fun j d => Reads w.mem.heap (w.mem.val j) (diffVal d)) x.diffs res.diffs ∧
    x.stored = [] ∧ res.stored = [] ∧
    ∃ o s, x.output = some o ∧ res.output = some s ∧ Shows w.mem o s

end Heap
end Pyl
