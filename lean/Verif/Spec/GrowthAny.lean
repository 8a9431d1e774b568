import Verif.Model.GrowthAny
import Verif.Spec.Growth
/-
Specification vocabulary for growth with phases of any kind (C139).
-/
set_option autoImplicit false

namespace Pyl
namespace Spec

/-- Every phase in the state can be hashed (is no list or dict and contains none). -/
def Hashable (s : SimState) : Prop := ∀ i v, occ? s i = some v → v.hashable = true

/-- In the state `s` the neighbours `l` of a background site include one whose phase is neither the background nor hashable. -/
def Clash (bg : Val) (s : SimState) (l : List ℕ) : Prop :=
  ∃ j ∈ l, ∃ v, occ? s (.int j) = some v ∧ ¬ Val.PyEq v bg ∧ v.hashable = false

end Spec
end Pyl
