import Verif.Spec.FillTime
import Verif.Model.Analyzer
/-
Specification vocabulary for the average of the reported fractions (C173).
-/
set_option autoImplicit false

namespace Pyl
namespace Spec

/-- For every number `n` of steps and every sequence `f` of `n` draws, the asynchronous growth run with these draws succeeds and `phase_fraction_at` of its result for the
last step and the phase `v` is `fr n f`. -/
def ReportsFraction (c : Growth.Ctl) (s0 : SimState) (m : ℕ) (v : Val) (fr : (n : ℕ) → (Fin n → Fin m) → ℚ) : Prop :=
  ∀ n (f : Fin n → Fin m), ∃ a, runAsync (Growth.controller.inherit (outcome f)) (c, 0) s0 n = .ok a ∧ ResultAnalyzer.phaseFractionAt a.res n v = .ok (fr n f)

end Spec
end Pyl
