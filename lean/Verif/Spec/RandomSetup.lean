import Verif.Spec.Chance
/-
Specification of the random placement of nuclei.
-/
set_option autoImplicit false

namespace Pyl
namespace Spec

open Classical in
/-- Site `i` is drawn when the sites `acc` are already taken: it is added unless it is one of them or near one of them. -/
noncomputable def admit (near : ℕ → ℕ → Prop) (i : ℕ) (acc : List ℕ) : List ℕ := if i ∈ acc ∨ ∃ j ∈ acc, near i j then acc else acc ++ [i]

end Spec
end Pyl
