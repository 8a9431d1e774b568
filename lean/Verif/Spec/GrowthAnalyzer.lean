import Verif.Spec.GrowthCount
import Verif.Spec.Analyzer
/-
Specification vocabulary for the analysis of growth runs (C164).
-/
set_option autoImplicit false

namespace Pyl
namespace Spec
open Growth

/-- `res` is what a run of `m` steps of the growth model from `s0` in one process returns: with the synchronous runner, or with the asynchronous runner and the inherited
`get_random_site`, whatever the order in which the graph lists neighbours and whatever sites are drawn. -/
def OneProcessGrowthRun {K : Type} [Field K] [LinearOrder K] [FloorRing K] {d : ℕ} (S : Structure K d) (bg : Val) (nb : Option (Builder K d)) (s0 : SimState) (m : ℕ)
    (res : SimResult) : Prop :=
  ∃ order c, (∀ t l, (order t l : List ℕ).Perm l) ∧ Growth.init order S bg nb = .ok c ∧ ((∃ c', runSync controller c s0 m = .ok (c', res)) ∨
    ∃ draw a, runAsync (controller.inherit draw) (c, 0) s0 m = .ok a ∧ a.res = res)

/-- The same for any of the three runners: also the parallel one, whatever the number of workers, the order in their copies of the graph and the schedule. -/
def GrowthRun {K : Type} [Field K] [LinearOrder K] [FloorRing K] {d : ℕ} (S : Structure K d) (bg : Val) (nb : Option (Builder K d)) (s0 : SimState) (m : ℕ)
    (res : SimResult) : Prop :=
  OneProcessGrowthRun S bg nb s0 m res ∨ ∃ order c, (∀ t l, (order t l : List ℕ).Perm l) ∧ Growth.init order S bg nb = .ok c ∧
    ∃ fork w sched, (∀ v c, Reorders c (fork v c)) ∧ 0 < w ∧ ValidFor s0.siteIds w m sched ∧ runParallel controller fork c s0 w m sched = .ok res

/-- The run used the asynchronous runner. -/
def AsyncGrowthRun {K : Type} [Field K] [LinearOrder K] [FloorRing K] {d : ℕ} (S : Structure K d) (bg : Val) (nb : Option (Builder K d)) (s0 : SimState) (m : ℕ)
    (res : SimResult) : Prop :=
  ∃ order c, (∀ t l, (order t l : List ℕ).Perm l) ∧ Growth.init order S bg nb = .ok c ∧ ∃ draw a, runAsync (controller.inherit draw) (c, 0) s0 m = .ok a ∧ a.res = res

end Spec
end Pyl
