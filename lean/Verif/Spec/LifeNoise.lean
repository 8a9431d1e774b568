import Verif.Spec.Chance
import Verif.Spec.LifeVariants
import Verif.Spec.LifePlane
import Verif.Spec.LifeConfined
import Verif.Spec.GridSetup
/-
Specifications for C159: Life from noise.
-/
set_option autoImplicit false

namespace Pyl.Spec

/-- The probability that a cell is alive after one generation when it and its eight neighbours are alive with probability `q`, independently. -/
noncomputable def aliveNext (born survive : List (Fin 10)) (q : ℝ) : ℝ :=
  ∑ j ∈ Finset.range 9, (Nat.choose 8 j : ℝ) * q ^ j * (1 - q) ^ (8 - j) *
    (q * (if ∃ x ∈ survive, (x : ℕ) = j then 1 else 0) + (1 - q) * (if ∃ x ∈ born, (x : ℕ) = j then 1 else 0))

/-- `setup_noise` with the draws `draw` made the state `s0`, and `s` is the state after `k` steps of a run of the variant from it. -/
def NoiseThenLife {K : Type} [Field K] [LinearOrder K] [FloorRing K] (G : GridSetup K 2) (size : Structure.SizeArg) (phases : List Val) (variant : String)
    (S : Structure K 2) (draw : ℕ → ℕ) (k : ℕ) (s : SimState) : Prop :=
  ∃ s0 res, G.noise size phases draw = .ok ⟨s0, S⟩ ∧ LifeRun S variant s0 k res ∧ res.getStep k = .ok s

/-- The mean of `X` when `k` numbers are drawn independently and uniformly from 0, ..., m - 1. -/
noncomputable def mean (m k : ℕ) (X : (Fin k → Fin m) → ℝ) : ℝ := (∑ f, X f) / (m : ℝ) ^ k

end Pyl.Spec
