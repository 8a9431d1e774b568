import Verif.Spec.GridSetup
import Verif.Spec.Nested
/-
Specification vocabulary for the grains of grown states (C136).
-/
set_option autoImplicit false

namespace Pyl
namespace Spec
variable {K : Type} [Field K] [LinearOrder K] [FloorRing K] {d : ℕ}

/-- The nucleus `j` is at most `h` moves to a neighbour away from `i`, and no nucleus is nearer. -/
def NearestNucleus (S : Structure K d) (s0 : SimState) (bg : Val) (nb : ℕ → List ℕ) (i h j : ℕ) : Prop :=
  j ∈ nuclei S s0 bg ∧ Hops nb h i j ∧ ∀ j' ∈ nuclei S s0 bg, ∀ h', Hops nb h' i j' → h ≤ h'

/-- The state `s`, `k` steps after `s0`, consists of grains: the sites at most `k` moves away from a nucleus are occupied and no others; an occupied site has the phase
of a nearest nucleus, and a shortest way to such a nucleus runs within the phase. -/
def Grains (S : Structure K d) (s0 : SimState) (bg : Val) (nb : ℕ → List ℕ) (k : ℕ) (s : SimState) : Prop :=
  ∀ i ∈ S.siteIds, ∃ v, occ? s (.int i) = some v ∧ (v ≠ bg ↔ ∃ j ∈ nuclei S s0 bg, Hops nb k i j) ∧
    (v ≠ bg → ∃ h j, h ≤ k ∧ NearestNucleus S s0 bg nb i h j ∧ occ? s0 (.int j) = some v ∧
      HopsBy (fun x y => y ∈ nb x ∧ occ? s (.int y) = some v) h i j)

end Spec
end Pyl
