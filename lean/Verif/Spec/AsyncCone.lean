import Verif.Spec.Async
import Verif.Spec.Dynamics
/-
Specifications for asynchronous runs as sequences of visits: what the state of a site depends on, and which visits can be exchanged.
-/
set_option autoImplicit false

namespace Pyl
namespace Spec

/-- Whatever else the controller keeps track of and whatever follow-up sites it names, its answers at a site are those of the rule `f`. -/
def FollowsRule {σ : Type} (c : Controller σ) (f : Key → SimState → Resp) : Prop :=
  ∀ st i s st' r, c.update st i s = .ok (st', r) → body r = f i s

/-- Visiting the listed sites one after the other, what site `i` has after the first `k` visits may depend on what site `j` had at the start: a
visit of `i` lets it see the sites it reads as they are at that time. -/
inductive Reaches (N : Key → Key → Prop) (visited : List Key) : Nat → Key → Key → Prop where
  | start (i : Key) : Reaches N visited 0 i i
  | stay {k : Nat} {i j : Key} : Reaches N visited k i j → Reaches N visited (k + 1) i j
  | look {k : Nat} {i l j : Key} : visited[k]? = some i → N i l → Reaches N visited k l j → Reaches N visited (k + 1) i j

/-- Two different sites neither of which reads the other. -/
def Independent (N : Key → Key → Prop) (i j : Key) : Prop := i ≠ j ∧ ¬ N i j ∧ ¬ N j i

/-- The same visits in another order, where only independent sites have overtaken each other. -/
inductive Reordered (N : Key → Key → Prop) : List Key → List Key → Prop where
  | same (l : List Key) : Reordered N l l
  | swap (l : List Key) (i j : Key) (r : List Key) : Independent N i j → Reordered N (l ++ i :: j :: r) (l ++ j :: i :: r)
  | trans {l m r : List Key} : Reordered N l m → Reordered N m r → Reordered N l r

end Spec
end Pyl
