import Verif.Spec.Runner
/-
Specifications for runs on relabelled or folded sets of sites.
-/
set_option autoImplicit false

namespace Pyl
namespace Spec

/-- What a site holds besides its own id. -/
def held (p : Props) : Props := p.filter fun kv => decide (kv.1 ≠ SITE_ID)

/-- Site `π i` of `t` holds what site `i` of `s` holds (and is absent if that is absent); the general states are the same. -/
def MovedBy (π : Key → Key) (s t : SimState) : Prop :=
  t.getGeneralState = s.getGeneralState ∧ ∀ i, (t.getSiteState (π i)).map held = (s.getSiteState i).map held

/-- The rule asks the same of site `π i` of a state as of site `i` of a state from which this one arises by `π`. -/
def Equivariant (π : Key → Key) (f : Key → SimState → Resp) : Prop :=
  ∀ s t, MovedBy π s t → ∀ i p, Answers i (f i s) p → ∃ q, Answers (π i) (f (π i) t) q ∧ q.map held = p.map held

end Spec
end Pyl
