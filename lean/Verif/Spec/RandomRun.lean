import Verif.Spec.Async
import Verif.Spec.Chance
/-
Specifications for asynchronous runs with random sites.
-/
set_option autoImplicit false

namespace Pyl
namespace Spec
variable {σ : Type}

/-- Visiting site `i`: the rule answers with updates (for any sites and the general state) and no follow-up sites, and `batch_update` with these updates
turns the state into the new one.  The controller may change its own attributes. -/
def OneVisit (c : Controller σ) (i : Key) (x y : σ × SimState) : Prop :=
  ∃ r ss gs, c.update x.1 i x.2 = .ok (y.1, r) ∧ followUps r = [] ∧ body r ≠ .noUpdate ∧ Parts i (body r) ss gs ∧ Dict.WF ss ∧ Dict.WF gs ∧
    x.2.batchUpdate [(SITES, .dict ss), (GENERAL, .dict gs)] = .ok y.2

/-- The ids are 0, ..., m - 1 in some order. -/
def Numbered (m : ℕ) (s : SimState) : Prop := s.siteIds.Perm ((List.range m).map fun i : ℕ => Key.int i)

/-- Situations that visits do not leave: the sites are numbered, and visiting site `i` leads to `visit i x`. -/
def Closed (c : Controller σ) (m : ℕ) (visit : ℕ → σ × SimState → σ × SimState) (Inv : σ × SimState → Prop) : Prop :=
  ∀ x, Inv x → Numbered m x.2 ∧ ∀ i, i < m → OneVisit c (.int i) x (visit i x) ∧ Inv (visit i x)

end Spec
end Pyl
