import Verif.Model.DoubleAny
import Verif.Spec.DoubleHoneycomb
/-
Specification vocabulary for the independence of numpy's choices (C115).
-/
set_option autoImplicit false

namespace Pyl
variable {d : ℕ}

/-- `a` minus the products, in double arithmetic, in whatever order and grouping, with or without fused multiply-add. -/
def MinusDot (a : ℚ) (l : List (ℚ × ℚ)) (r : ℚ) : Prop := DotOf ((a, 1) :: l.map fun p => (-p.1, p.2)) r

/-- `N` is an inverse of `M` by an LU decomposition in double arithmetic, whatever rows `π i` are chosen as pivots: `L` holds the multipliers and `U` the
rows of the triangular matrix, both computed entry by entry from the rows and columns before (in whatever order, so that it covers the usual variants of
the algorithm); then the columns of the identity matrix are solved for, forwards (`Y`) and backwards (`N`).  No pivot is zero: otherwise
`np.linalg.inv` raises LinAlgError. -/
def LUInverse (M N : Matrix (Fin d) (Fin d) ℚ) : Prop :=
  ∃ (π : Equiv.Perm (Fin d)) (L U Y : Matrix (Fin d) (Fin d) ℚ),
    (∀ i j, i ≤ j → MinusDot (M (π i) j) (((List.finRange d).filter fun k => k < i).map fun k => (L i k, U k j)) (U i j)) ∧
    (∀ i, U i i ≠ 0) ∧
    (∀ i j, j < i → ∃ z, MinusDot (M (π i) j) (((List.finRange d).filter fun k => k < j).map fun k => (L i k, U k j)) z ∧ QuotOf z (U j j) (L i j)) ∧
    (∀ i j, MinusDot ((1 : Matrix (Fin d) (Fin d) ℚ) (π i) j) (((List.finRange d).filter fun k => k < i).map fun k => (L i k, Y k j)) (Y i j)) ∧
    ∀ i j, ∃ z, MinusDot (Y i j) (((List.finRange d).filter fun k => i < k).map fun k => (U i k, N k j)) z ∧ QuotOf z (U i i) (N i j)

/-- `matrix @ vector` in double arithmetic. -/
def MatVecOf (mv : Matrix (Fin d) (Fin d) ℚ → (Fin d → ℚ) → Fin d → ℚ) : Prop := ∀ M v i, DotOf (List.ofFn fun j => (M i j, v j)) (mv M v i)

/-- The operations that numpy leaves open are computed in double arithmetic: sums of products in whatever order, and the inverse, where an LU
decomposition succeeds, by one. -/
structure Dbl.Arith.Numpy (A : Dbl.Arith d) (mv : Matrix (Fin d) (Fin d) ℚ → (Fin d → ℚ) → Fin d → ℚ) : Prop where
  prod : A.Products
  mv : MatVecOf mv
  inv : ∀ M, (∃ N, LUInverse M N) → LUInverse M (A.inv M)

end Pyl
