import Verif.Spec.HoneyGrowth
import Verif.Spec.DoubleHoneycomb
/-
Specification vocabulary for growth on the honeycomb tiling in double precision (C157).
-/
set_option autoImplicit false

namespace Pyl
namespace Spec

/-- The site `i` is stored at the middle (rounded to thousandths) of the hexagon `a`, moved into the box by whole periods. -/
def StoredIn (n : Fin 2 → ℤ) (S : Structure ℚ 2) (a : Fin 2 → ℤ) (i : ℕ) : Prop := S.siteLocation i = .ok (hexStored fun k => a k % n k)

/-- At every step `k ≤ m` of the result, an analyzer without a structure finds `count k` sites with the phase `p`. -/
def CountsAlone (res : SimResult) (m : ℕ) (p : Val) (count : ℕ → ℕ) : Prop :=
  ∀ k : ℕ, k ≤ m → ∃ s, res.getStep k = .ok s ∧ Analyzer.getSiteCountWhereEqual (K := ℚ) (d := 2) none s [(DISCRETE_OCCUPANCY, p)] none = .ok (count k)

end Spec
end Pyl
