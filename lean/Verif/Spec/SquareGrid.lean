import Verif.Spec.Neighborhood
/-
Specification vocabulary for square grids (C52-C54, C60, C63).
-/
set_option autoImplicit false

namespace Pyl

/-- Distance of `a` from 0 on a circle of `n` points. -/
def circ (n a : ℤ) : ℤ := min (a % n) (n - a % n)

variable {d : ℕ}

/-- Chebyshev distance on the torus with `N j` points along axis `j` is at most `r`: along every axis the circular distance is. -/
def ChebyshevLE (N a b : Fin d → ℤ) (r : ℤ) : Prop := ∀ j, circ (N j) (a j - b j) ≤ r

/-- Manhattan distance on the torus. -/
def torusManhattan (N a b : Fin d → ℤ) : ℤ := ∑ j, circ (N j) (a j - b j)

/-- `c` is a coordinate vector of the box. -/
def InBox (N c : Fin d → ℤ) : Prop := ∀ j, 0 ≤ c j ∧ c j < N j

variable {K : Type} [Field K]

/-- An integer location. -/
def intPoint (c : Fin d → ℤ) : Fin d → K := fun j => (c j : K)

/-- Site `i` of the structure has the integer location `c`. -/
def SiteHas [LinearOrder K] [FloorRing K] (s : Structure K d) (i : ℕ) (c : Fin d → ℤ) : Prop := s.siteLocation i = .ok (intPoint c)

end Pyl
