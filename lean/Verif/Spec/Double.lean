import Verif.Model.Double
import Verif.Spec.SquareGrid
import Mathlib.Analysis.Real.Sqrt
/-
Specification vocabulary for square grids in double precision (C99, C100).
-/
set_option autoImplicit false

namespace Pyl

/-- `n * (1 / n) == 1.0` in double arithmetic. -/
def ReciprocalExact (n : ℤ) : Prop := fl (n * fl (1 / n)) = 1

instance (n : ℤ) : Decidable (ReciprocalExact n) := inferInstanceAs (Decidable (_ = _))

/-- The numbers with at most 53 significant binary digits. -/
def IsDouble (z : ℚ) : Prop := ∃ m e : ℤ, |m| ≤ 2 ^ 53 ∧ z = m * 2 ^ e

/-- A way to compute the sum of the squares of a few numbers that is accurate to 50 binary digits. -/
def SumOfSquares {d : ℕ} (sq : (Fin d → ℚ) → ℚ) : Prop := ∀ v, |sq v - ∑ i, v i ^ 2| ≤ (∑ i, v i ^ 2) / 2 ^ 50

/-- Euclidean distance on the torus. -/
noncomputable def torusEuclid {d : ℕ} (N a b : Fin d → ℤ) : ℝ := Real.sqrt (∑ j, (circ (N j) (a j - b j) : ℝ) ^ 2)

open Structure in
/-- The structures that the square grid builders return in double precision, with `N j` sites along axis `j`, at most `2 ^ 30`. -/
inductive DoubleGrid : (d : ℕ) → (Fin d → ℤ) → Structure ℚ d → Prop
  | two (size : SizeArg) (s : Structure ℚ 2) (a b : ℤ) (ha : 0 < a ∧ a ≤ 2 ^ 30) (hb : 0 < b ∧ b ≤ 2 ^ 30)
      (hsz : size = .tup [b, a] ∨ size = .int a ∧ a = b) (h : Dbl.buildSquare2 size = .ok s) : DoubleGrid 2 ![a, b] s
  | three (size : SizeArg) (s : Structure ℚ 3) (a b c : ℤ) (ha : 0 < a ∧ a ≤ 2 ^ 30) (hb : 0 < b ∧ b ≤ 2 ^ 30) (hc : 0 < c ∧ c ≤ 2 ^ 30)
      (hsz : size = .tup [b, a, c] ∨ size = .int a ∧ a = b ∧ a = c) (h : Dbl.buildSquare3 size = .ok s) : DoubleGrid 3 ![a, b, c] s

end Pyl
