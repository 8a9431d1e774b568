import Mathlib.Data.Real.Basic
import Mathlib.Data.Fintype.BigOperators
import Mathlib.Algebra.BigOperators.Fin
import Mathlib.Algebra.BigOperators.Field
import Mathlib.Data.Fintype.Pi
/-
Probabilities for independent uniform draws, by counting outcomes.
-/
set_option autoImplicit false

namespace Pyl
namespace Spec

open Classical in
/-- The probability of `P` when `k` numbers are drawn independently and uniformly from 0, ..., m - 1: the fraction of the `m ^ k` outcomes for which `P` holds. -/
noncomputable def chance (m k : ℕ) (P : (Fin k → Fin m) → Prop) : ℝ := (Finset.univ.filter P).card / (m : ℝ) ^ k

/-- An outcome of `k` draws as the list of answers of the random generator.  The model needs some value for later calls; in the statements that use this there is
none, or only the last call of an asynchronous run of `k` steps, which draws a site that is not visited any more. -/
def outcome {m k : ℕ} (f : Fin k → Fin m) : ℕ → ℕ := fun t => if h : t < k then f ⟨t, h⟩ else 0

/-- Where a walk that starts at `x` is after `k` moves, when the `t`-th move is `step (f t)`. -/
def walk {τ : Type} (step : ℕ → τ → τ) (f : ℕ → ℕ) (x : τ) : ℕ → τ
  | 0 => x
  | k + 1 => step (f k) (walk step f x k)

open Classical in
/-- The probability that a random walk from `x` is in `A k` after `k` moves, for all `k ≤ n`.  A move from `x` goes to `step 0 x`, ..., `step (m - 1) x` with
probability 1 / m each, whatever happened before. -/
noncomputable def walkChance {τ : Type} (m : ℕ) (step : ℕ → τ → τ) : ℕ → (ℕ → Set τ) → τ → ℝ
  | 0, A, x => if x ∈ A 0 then 1 else 0
  | n + 1, A, x => if x ∈ A 0 then (∑ i : Fin m, walkChance m step n (fun k => A (k + 1)) (step i x)) / m else 0

end Spec
end Pyl
