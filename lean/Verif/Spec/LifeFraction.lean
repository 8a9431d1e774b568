import Verif.Spec.LifeDrift
import Verif.Model.Analyzer
/-
Specification vocabulary for the average of the reported fractions of live cells (C174).
-/
set_option autoImplicit false

namespace Pyl.Spec
variable {K : Type} [Field K] [LinearOrder K] [FloorRing K]

/-- For every number `n` of steps and every sequence `f` of `n` draws, the asynchronous run of the variant with these draws succeeds and `phase_fraction_at` of its result for the
last step and "alive" is `fr n f`. -/
def ReportsAlive (S : Structure K 2) (variant : String) (s0 : SimState) (m : ℕ) (fr : (n : ℕ) → (Fin n → Fin m) → ℚ) : Prop :=
  ∀ n (f : Fin n → Fin m), ∃ a, AsyncLifeRun S variant s0 n (outcome f) a ∧ ResultAnalyzer.phaseFractionAt a.res n (.str "alive") = .ok (fr n f)

end Pyl.Spec
