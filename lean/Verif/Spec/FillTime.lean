import Verif.Spec.EdenLaw
import Verif.Spec.LifeNoise
import Verif.Spec.RandomRun
/-
Specifications for C169: how fast asynchronous growth covers a structure on average.
-/
set_option autoImplicit false

namespace Pyl.Spec

open Classical in
/-- The sites that do not show the background. -/
noncomputable def grownIn (m : ℕ) (bg : Val) (s : SimState) : Finset ℕ := (Finset.range m).filter fun i => occ? s (.int i) ≠ some bg

/-- `s` is what the asynchronous growth run with the draws `draw` reports as step `n`. -/
def GrowthStepIs (c : Growth.Ctl) (s0 : SimState) (n : ℕ) (draw : ℕ → ℕ) (s : SimState) : Prop :=
  ∃ a, runAsync (Growth.controller.inherit draw) (c, 0) s0 n = .ok a ∧ a.res.getStep n = .ok s

open Classical in
/-- The sites that do not show the background in step `n` of the run with the draws `draw`. -/
noncomputable def grownAfter (c : Growth.Ctl) (s0 : SimState) (m n : ℕ) (draw : ℕ → ℕ) : Finset ℕ :=
  (Finset.range m).filter fun i => ∃ s, GrowthStepIs c s0 n draw s ∧ occ? s (.int i) ≠ some c.background

/-- In step `n` of the run every site has a phase other than the background. -/
def FilledAfter (c : Growth.Ctl) (s0 : SimState) (m n : ℕ) (draw : ℕ → ℕ) : Prop :=
  ∃ s, GrowthStepIs c s0 n draw s ∧ ∀ i, i < m → ∃ v, occ? s (.int i) = some v ∧ v ≠ c.background

/-- `1 + 1/2 + ... + 1/b`. -/
noncomputable def harmonicSum (b : ℕ) : ℝ := ∑ k ∈ Finset.range b, 1 / ((k : ℝ) + 1)

end Pyl.Spec
