import Verif.Spec.LifeAsync
/-
Specifications for C154: states that no run can produce.
-/
set_option autoImplicit false

namespace Pyl.Spec
variable {K : Type} [Field K] [LinearOrder K] [FloorRing K]

/-- No run of the variant, from any state and of any length, shows the pattern of `s` at a step after the start. -/
def Unreachable (S : Structure K 2) (N : Fin 2 → ℤ) (variant : String) (s : SimState) : Prop :=
  ∀ s0 n res k x, IsLifeState S s0 → LifeRun S variant s0 n res → 0 < k → k ≤ n → res.getStep (k : ℕ) = .ok x → ¬ SamePattern S N x s

/-- Two states with different patterns have the same pattern after one step. -/
def TwoMerge (S : Structure K 2) (N : Fin 2 → ℤ) (variant : String) : Prop :=
  ∃ s s' res res' x x', IsLifeState S s ∧ IsLifeState S s' ∧ ¬ SamePattern S N s s' ∧ LifeRun S variant s 1 res ∧ LifeRun S variant s' 1 res' ∧
    res.getStep 1 = .ok x ∧ res'.getStep 1 = .ok x' ∧ SamePattern S N x x'

end Pyl.Spec
