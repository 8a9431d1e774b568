import Verif.Model.Neighborhood
import Verif.Spec.Structure
/-
Specification vocabulary for neighbourhoods (C53-C59, C80).
-/
set_option autoImplicit false

namespace Pyl
variable {K : Type} [Field K] [LinearOrder K] {d : ℕ}
open Pyl.Lattice

/-- Euclidean length, rounded to hundredths, in squares: `w` is a whole number `k` of hundredths, and `100 * length` is at most one
half away from `k`. -/
def RoundedLength (v : Fin d → K) (w : K) : Prop :=
  ∃ k : ℕ, w = k / 100 ∧ (2 * (k : K) - 1 ≤ 0 ∨ (2 * (k : K) - 1) ^ 2 ≤ 4 * (10000 * ∑ i, v i ^ 2)) ∧
    4 * (10000 * ∑ i, v i ^ 2) ≤ (2 * (k : K) + 1) ^ 2

/-- Taxicab length. -/
def taxicab (v : Fin d → K) : K := ∑ i, |v i|

variable [FloorRing K]

/-- A structure reachable by `add_site` calls in which all lattice vectors and all locations are whole thousandths. -/
def Structure.AlignedReachable (s : Structure K d) : Prop :=
  s.lattice.Regular ∧ (∀ i, Aligned (s.lattice.mat i)) ∧
    ∃ ops : List (String × (Fin d → K)), (∀ op ∈ ops, Aligned op.2) ∧ s = (Structure.history (Structure.new s.lattice) ops).1

end Pyl
