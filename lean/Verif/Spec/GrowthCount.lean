import Verif.Spec.GridSetup
import Verif.Spec.Analyzer
import Verif.Spec.Parallel
/-
Specification vocabulary for the number of grown sites (C131).
-/
set_option autoImplicit false

namespace Pyl
namespace Spec
open Analyzer
variable {K : Type} [Field K] [LinearOrder K] [FloorRing K] {d : ℕ}

/-- At every step `k ≤ m` of the result, `get_site_count_where_equal` finds `count k` sites with the phase `p`, whether the analyzer knows the structure or not. -/
def Counts (S : Structure K d) (res : SimResult) (m : ℕ) (p : Val) (count : ℕ → ℕ) : Prop :=
  ∀ k : ℕ, k ≤ m → ∃ s, res.getStep k = .ok s ∧ getSiteCountWhereEqual (some S) s [(DISCRETE_OCCUPANCY, p)] none = .ok (count k) ∧
    getSiteCountWhereEqual (K := K) (d := d) none s [(DISCRETE_OCCUPANCY, p)] none = .ok (count k)

/-- A schedule of the parallel runner for the ids. -/
def ValidFor (ids : List Key) (w m : ℕ) (sched : ℕ → StepSched) : Prop :=
  ∀ k, k < m → (sched k).Valid w (chunks ids (chunkSize ids.length w)).length

end Spec
end Pyl
