import Verif.Spec.GridSetup
import Mathlib.Data.ENat.Basic
/-
Specification vocabulary for how `setup_random_sites` shares the sites among the phases (C140).
-/
set_option autoImplicit false

namespace Pyl
namespace Spec
variable {K : Type} [Field K] [LinearOrder K] [FloorRing K]

/-- The most sites a phase with amount `a` can get when `m` sites are shared and the amounts add up to `total`: its share, rounded up (0 for a negative share).  If the
amounts add up to 0 there are no shares: there is no limit for positive amounts, and nothing for the others. -/
def limit (total : K) (m : ℤ) (a : K) : ℕ∞ :=
  if total = 0 then if 0 < a then ⊤ else 0 else ((⌈a / total * m⌉.toNat : ℕ) : ℕ∞)

/-- What the phases get, in their order: going round them, every phase that is below its limit gets one site in turn, for `rounds` full rounds and a last one that ends
before the `last`-th phase. -/
def InTurn (limits : List ℕ∞) (got : List ℕ) (rounds last : ℕ) : Prop :=
  got.length = limits.length ∧ ∀ j (l : ℕ∞) (g : ℕ), limits[j]? = some l → got[j]? = some g → (g : ℕ∞) = min l (rounds + if j < last then 1 else 0 : ℕ)

end Spec
end Pyl
