import Verif.Spec.AsyncGrains
import Verif.Spec.Chance
/-
Specifications for C158: the law of clusters grown one site at a time.
-/
set_option autoImplicit false

namespace Pyl.Spec

/-- The sites outside `T` that have a neighbour in `T`. -/
def rim (m : ℕ) (nb : ℕ → List ℕ) (T : Finset ℕ) : Finset ℕ := (Finset.range m).filter fun i => i ∉ T ∧ ∃ j ∈ nb i, j ∈ T

/-- The sites of `T` that have a neighbour among the others of `T`: those that can have been the last to join. -/
def lastJoined (nb : ℕ → List ℕ) (T : Finset ℕ) : Finset ℕ := T.filter fun i => ∃ j ∈ nb i, j ∈ T.erase i

/-- After `n` steps of the asynchronous run with the draws `draw` exactly the sites in `T` have the phase `p`. -/
def EndsAs (c : Growth.Ctl) (s0 : SimState) (m : ℕ) (p : Val) (n : ℕ) (T : Finset ℕ) (draw : ℕ → ℕ) : Prop :=
  ∃ a s, runAsync (Growth.controller.inherit draw) (c, 0) s0 n = .ok a ∧ a.res.getStep n = .ok s ∧ ShowsCluster m p c.background T s

/-- At some step of the asynchronous run of `n` steps exactly the sites in `T` have the phase `p`. -/
def PassesAs (c : Growth.Ctl) (s0 : SimState) (m : ℕ) (p : Val) (n : ℕ) (T : Finset ℕ) (draw : ℕ → ℕ) : Prop :=
  ∃ a, runAsync (Growth.controller.inherit draw) (c, 0) s0 n = .ok a ∧ ∃ k : ℕ, k ≤ n ∧ ∃ s, a.res.getStep k = .ok s ∧ ShowsCluster m p c.background T s

end Pyl.Spec
