import Verif.Model.Lattice
import Mathlib.LinearAlgebra.LinearIndependent.Defs
/-
Specification vocabulary for lattices (C36-C42).
-/
set_option autoImplicit false

namespace Pyl
namespace Lattice

variable {K : Type} [Field K] [LinearOrder K] {d : ℕ}

/-- The lattice vectors are linearly independent. -/
def Regular (L : Lattice K d) : Prop := LinearIndependent K (fun i => L.mat i)

/-- The point with coordinates `f` with respect to the lattice vectors. -/
def point (L : Lattice K d) (f : Fin d → K) : Fin d → K := fun j => ∑ i, f i * L.mat i j

/-- `t` is an integer combination of the lattice vectors along periodic axes. -/
def Translation (L : Lattice K d) (t : Fin d → K) : Prop :=
  ∃ n : Fin d → ℤ, (∀ i, L.periodic i = false → n i = 0) ∧ t = L.point fun i => (n i : K)

/-- `x` and `y` are periodic images of each other. -/
def Image (L : Lattice K d) (x y : Fin d → K) : Prop := L.Translation (x - y)

/-- Square of the Euclidean length. -/
def normSq (x : Fin d → K) : K := ∑ i, x i ^ 2

/-- The lattice vectors are pairwise orthogonal. -/
def Orthogonal (L : Lattice K d) : Prop := ∀ i j, i ≠ j → ∑ k, L.mat i k * L.mat j k = 0

/-- The two faces of the cell across axis `i` are at least `h` apart: all points whose coordinate along axis `i` is 1 are at least `h` away from
the origin, which has coordinate 0. -/
def FacesApart (L : Lattice K d) (i : Fin d) (h : K) : Prop := ∀ f : Fin d → K, f i = 1 → h ^ 2 ≤ normSq (L.point f)

/-- `r` is the distance from `x` to the closest periodic image of `y`, rounded to thousandths.  (`roundSqrt_real`: over the reals, `roundSqrt 1000 q` is the
square root of `q` rounded to thousandths.) -/
def ClosestDistance [FloorRing K] (L : Lattice K d) (x y : Fin d → K) (r : K) : Prop :=
  ∃ y', L.Image y' y ∧ (∀ y'', L.Image y'' y → normSq (x - y') ≤ normSq (x - y'')) ∧ r = roundSqrt 1000 (normSq (x - y'))

end Lattice
end Pyl
