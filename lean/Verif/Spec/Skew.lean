import Verif.Spec.Lattice
import Mathlib.Analysis.Real.Sqrt
/-
Specification vocabulary for C144: lattices whose distances are right in supercells of every size.
-/
set_option autoImplicit false

namespace Pyl.Lattice

variable {K : Type} [Field K] [LinearOrder K] {d : ℕ}

/-- Every vector along a periodic axis is orthogonal to all other vectors. -/
def PeriodicOrthogonal (L : Lattice K d) : Prop := ∀ i j, i ≠ j → L.periodic i = true → ∑ k, L.mat i k * L.mat j k = 0

/-- The distance of all points is the smallest distance to a periodic image, rounded to thousandths. -/
def RightDistances (L : Lattice ℝ d) : Prop :=
  ∀ a b, ∃ m, IsLeast {r | ∃ b', L.Image b' b ∧ r = Real.sqrt (∑ i, (a i - b' i) ^ 2)} m ∧ L.dist a b = roundTo 1000 m

/-- Distances do not depend on the choice of the periodic images. -/
def ImageFree (L : Lattice ℝ d) : Prop := ∀ a a' b b', L.Image a a' → L.Image b b' → L.dist a b = L.dist a' b'

/-- The lattice of the structures of `k` cells along every axis. -/
def cube [FloorRing K] (L : Lattice K d) (k : ℕ) : Lattice K d := L.scaled fun _ => (k : ℤ)

end Pyl.Lattice
