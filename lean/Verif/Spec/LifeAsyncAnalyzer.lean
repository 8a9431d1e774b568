import Verif.Spec.Life
import Verif.Spec.GridSetup
import Verif.Model.Life
/-
Specification vocabulary for the analysis of asynchronous runs of Life (C165).
-/
set_option autoImplicit false

namespace Pyl
namespace Spec

/-- `res` is what the asynchronous runner returns for `n` steps of the variant from `s0` if the draws of `get_random_site` name the cells `cells 0`, `cells 1`, ... -/
def VisitingLifeRun {K : Type} [Field K] [LinearOrder K] [FloorRing K] (S : Structure K 2) (variant : String) (s0 : SimState) (cells : ℕ → Fin 2 → ℤ) (n : ℕ) (res : SimResult) : Prop :=
  ∃ draw c a, (∀ k, SiteHas S (draw k % S.siteIds.length) (cells k)) ∧ Life.init none S variant = .ok c ∧
    runAsync (Life.controller.inherit draw) (c, 0) s0 n = .ok a ∧ a.res = res

end Spec
end Pyl
