import Verif.Model.DoubleSetup
import Verif.Spec.Double
/-
Specification vocabulary for the setups in double precision (C104-C109).
-/
set_option autoImplicit false

namespace Pyl

/-- The values that a sum of numbers can take when it is computed with double additions, in whatever order and grouping. -/
inductive SumOf : List ℚ → ℚ → Prop
  | nil : SumOf [] 0
  | one (x : ℚ) : SumOf [x] x
  | add {l₁ l₂ : List ℚ} {a b : ℚ} (h₁ : SumOf l₁ a) (h₂ : SumOf l₂ b) : SumOf (l₁ ++ l₂) (fl (a + b))
  | perm {l₁ l₂ : List ℚ} {a : ℚ} (h : l₁.Perm l₂) (h₁ : SumOf l₁ a) : SumOf l₂ a

/-- The values that a sum of products can take when it is computed in double arithmetic, in whatever order and grouping, with or without fused
multiply-add (one rounding for `a + x * y`). -/
inductive DotOf : List (ℚ × ℚ) → ℚ → Prop
  | nil : DotOf [] 0
  | mul (x y : ℚ) : DotOf [(x, y)] (fl (x * y))
  | add {l₁ l₂ : List (ℚ × ℚ)} {a b : ℚ} (h₁ : DotOf l₁ a) (h₂ : DotOf l₂ b) : DotOf (l₁ ++ l₂) (fl (a + b))
  | fma {l : List (ℚ × ℚ)} {a : ℚ} (x y : ℚ) (h : DotOf l a) : DotOf ((x, y) :: l) (fl (a + x * y))
  | perm {l₁ l₂ : List (ℚ × ℚ)} {a : ℚ} (h : l₁.Perm l₂) (h₁ : DotOf l₁ a) : DotOf l₂ a

/-- A way to compute the sum of the squares of `d` numbers in double arithmetic. -/
def SquaresOf {d : ℕ} (sq : (Fin d → ℚ) → ℚ) : Prop := ∀ v, DotOf (List.ofFn fun i => (v i, v i)) (sq v)

/-- A setup object as the constructor makes it, for `dim` 2 or 3, in double precision. -/
inductive DoubleSetup : (d : ℕ) → GridSetup ℚ d → Prop
  | two : DoubleSetup 2 Dbl.gridSetup2
  | three : DoubleSetup 3 Dbl.gridSetup3

end Pyl
