import Verif.Model.PhaseCache
import Mathlib.Data.Set.Card
/-
Vocabulary for C161: when was an analyzer last answered, and who was answered since.
-/
set_option autoImplicit false

namespace Pyl.Spec

/-- Call `t'` is the last call before `t` of the same analyzer that was answered, and its answer was `v`. -/
def LastAnswer (calls : ℕ → PhaseCall) (ans : ℕ → Py (List Val)) (t' t : ℕ) (v : List Val) : Prop :=
  t' < t ∧ (calls t').who = (calls t).who ∧ ans t' = .ok v ∧ ∀ u w, t' < u → u < t → (calls u).who = (calls t).who → ans u ≠ .ok w

/-- The analyzers that were answered between the calls `t'` and `t`. -/
def answeredBetween (calls : ℕ → PhaseCall) (ans : ℕ → Py (List Val)) (t' t : ℕ) : Set ℕ :=
  {b | ∃ u w, t' < u ∧ u < t ∧ (calls u).who = b ∧ ans u = .ok w}

end Pyl.Spec
