import Verif.Spec.LifeAsync
import Verif.Spec.LifePlane
import Verif.Spec.LifeConfined
import Verif.Spec.LifeNoise
import Verif.Spec.Chance
/-
Specifications for C170: Life-like rules with the asynchronous runner, on average over the draws.
-/
set_option autoImplicit false

namespace Pyl.Spec
variable {K : Type} [Field K] [LinearOrder K] [FloorRing K]

/-- The cells that are alive in step `n` of the asynchronous run of the variant from `s0` with the draws `draw`. -/
def patternAfter (S : Structure K 2) (N : Fin 2 → ℤ) (variant : String) (s0 : SimState) (n : ℕ) (draw : ℕ → ℕ) : Set (Fin 2 → ℤ) :=
  {x | InBox N x ∧ ∃ a s, AsyncLifeRun S variant s0 n draw a ∧ a.res.getStep n = .ok s ∧ CellIs S s x "alive"}

end Pyl.Spec
