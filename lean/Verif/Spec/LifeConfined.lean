import Verif.Spec.LifeAsync
/-
Specifications for C155: patterns that stay in a rectangle.
-/
set_option autoImplicit false

namespace Pyl.Spec
variable {K : Type} [Field K] [LinearOrder K] [FloorRing K]

/-- The cell lies in the rectangle of `w 0` by `w 1` cells that starts at `a`; it may reach across the edge of the torus. -/
def InRect (N a w c : Fin 2 → ℤ) : Prop := ∀ j, (c j - a j) % N j < w j

/-- Along each axis the rectangle leaves at least two cells free, or covers the whole torus. -/
def LeavesRoom (N w : Fin 2 → ℤ) : Prop := ∀ j, w j + 2 ≤ N j ∨ N j ≤ w j

/-- All live cells lie in the rectangle. -/
def LiveInRect (S : Structure K 2) (N a w : Fin 2 → ℤ) (s : SimState) : Prop := ∀ c, InBox N c → CellIs S s c "alive" → InRect N a w c

/-- How many cells of the torus satisfy `p`. -/
noncomputable def cellCount (N : Fin 2 → ℤ) (p : (Fin 2 → ℤ) → Prop) : ℕ := Set.ncard {c | InBox N c ∧ p c}

end Pyl.Spec
