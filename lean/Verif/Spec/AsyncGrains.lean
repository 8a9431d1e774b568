import Verif.Spec.Grains
import Verif.Spec.RandomRun
/-
Specifications for C152: clusters grown one site at a time.
-/
set_option autoImplicit false

namespace Pyl.Spec

/-- Of the sites 0, ..., m - 1 exactly those in `T` have the phase `p`, and the others are background. -/
def ShowsCluster (m : ℕ) (p bg : Val) (T : Finset ℕ) (s : SimState) : Prop := ∀ i : ℕ, i < m → occ? s (.int i) = some (if i ∈ T then p else bg)

/-- From every site of `T`, moves to neighbours that stay in `T` lead to a site of `seeds`. -/
def HangsTogether (nb : ℕ → List ℕ) (seeds T : Finset ℕ) : Prop := ∀ i ∈ T, ∃ k, ∃ j ∈ seeds, HopsBy (fun x y => y ∈ nb x ∧ y ∈ T) k i j

end Pyl.Spec
