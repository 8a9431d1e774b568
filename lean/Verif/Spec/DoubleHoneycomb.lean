import Verif.Model.DoubleHoneycomb
import Verif.Spec.DoubleSetup
import Verif.Spec.Honeycomb
import Mathlib.LinearAlgebra.Matrix.NonsingularInverse
import Mathlib.Algebra.Order.Round
import Mathlib.Analysis.Real.Sqrt
/-
Specification vocabulary for the honeycomb tiling in double precision (C111).
-/
set_option autoImplicit false

namespace Pyl
variable {d : ℕ}

/-- The products with a matrix and the sums of squares are computed in double arithmetic, in whatever order, with or without fused
multiply-add. -/
structure Dbl.Arith.Products (A : Dbl.Arith d) : Prop where
  vecMul : ∀ v M j, DotOf (List.ofFn fun i => (v i, M i j)) (A.vecMul v M j)
  sq : SquaresOf A.sq

/-- Every entry of `N` is the entry of the inverse of `M` up to 49 binary digits of the sum of all its entries. -/
def InverseOf (M N : Matrix (Fin d) (Fin d) ℚ) : Prop := ∀ i j, |N i j - M⁻¹ i j| ≤ (∑ i, ∑ j, |M⁻¹ i j|) / 2 ^ 49

/-- A quotient in double arithmetic: one division, or the product with the reciprocal. -/
def QuotOf (a b q : ℚ) : Prop := q = fl (a / b) ∨ q = fl (a * fl (1 / b))

/-- `a - x * y` in double arithmetic, with or without fused multiply-add. -/
def MinusOf (a x y r : ℚ) : Prop := r = fl (a - fl (x * y)) ∨ r = fl (a - x * y)

/-- `N` comes from Gaussian elimination with partial pivoting in double arithmetic, applied to `M` and the columns of the identity matrix (the algorithm
of LAPACK's `gesv`, which `np.linalg.inv` calls), for two rows: `p` is the pivot row, `l` the multiplier, `u` the second pivot. -/
def GaussOf (M N : Matrix (Fin 2) (Fin 2) ℚ) : Prop :=
  ∃ p q : Fin 2, p ≠ q ∧ |M q 0| ≤ |M p 0| ∧ ∃ l u, QuotOf (M q 0) (M p 0) l ∧ MinusOf (M q 1) l (M p 1) u ∧
    ∀ j, (∃ y, MinusOf ((1 : Matrix (Fin 2) (Fin 2) ℚ) q j) l ((1 : Matrix (Fin 2) (Fin 2) ℚ) p j) y ∧ QuotOf y u (N 1 j)) ∧
      ∃ z, MinusOf ((1 : Matrix (Fin 2) (Fin 2) ℚ) p j) (M p 1) (N 1 j) z ∧ QuotOf z (M p 0) (N 0 j)

/-- The middle of the hexagon in column `c 0` of row `c 1`, each coordinate rounded to the nearest thousandth and then to the nearest double. -/
noncomputable def hexStored (c : Fin 2 → ℤ) : Fin 2 → ℚ := fun i => fl ((round (1000 * hexCentre (√3 : ℝ) c i) : ℤ) / 1000)

end Pyl
