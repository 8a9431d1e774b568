import Verif.Model.Structure
import Verif.Spec.Lattice
/-
Specification vocabulary for structures (C43-C52).
-/
set_option autoImplicit false

namespace Pyl
variable {K : Type} [Field K] [LinearOrder K] {d : ℕ}

/-- `m` is the nearest integer to `x`; of two equally near ones, the even one. -/
def NearestEven (x : K) (m : ℤ) : Prop := |2 * (x - m)| < 1 ∨ |2 * (x - m)| = 1 ∧ m % 2 = 0
/-- `m` is the nearest integer to `x`; of two equally near ones, the odd one. -/
def NearestOdd (x : K) (m : ℤ) : Prop := |2 * (x - m)| < 1 ∨ |2 * (x - m)| = 1 ∧ m % 2 = 1

namespace Lattice

/-- The coordinates of `x` along periodic axes are in `[0, 1)`. -/
def InCell (L : Lattice K d) (x : Fin d → K) : Prop :=
  ∃ f, x = L.point f ∧ ∀ i, L.periodic i = true → 0 ≤ f i ∧ f i < 1

/-- The image of `x` in the cell, in thousandths rounded to integers (half-way cases to odd), is `m`. -/
def Place (L : Lattice K d) (x : Fin d → K) (m : Fin d → ℤ) : Prop :=
  ∃ y, L.Image y x ∧ L.InCell y ∧ ∀ i, NearestOdd (1000 * y i) (m i)

/-- `x` and `y` have the same rounded position in the cell. -/
def SamePlace (L : Lattice K d) (x y : Fin d → K) : Prop := ∃ m, L.Place x m ∧ L.Place y m

/-- The image of `x` in the cell, rounded to thousandths (half-way cases to even), is `y`. -/
def Stored (L : Lattice K d) (x y : Fin d → K) : Prop :=
  ∃ z, L.Image z x ∧ L.InCell z ∧ ∀ i, ∃ m : ℤ, NearestEven (1000 * z i) m ∧ y i = m / 1000

/-- All coordinates are whole numbers of thousandths. -/
def Aligned (x : Fin d → K) : Prop := ∀ i, ∃ m : ℤ, 1000 * x i = m

end Lattice

namespace Structure
variable [FloorRing K]

/-- A sequence of `add_site` calls (exceptions are caught and ignored): the structure afterwards and the outcome of every
call. -/
noncomputable def history (s : Structure K d) : List (String × (Fin d → K)) → Structure K d × List (Py ℕ)
  | [] => (s, [])
  | op :: ops =>
    let r := s.addSite op.1 op.2
    let r' := history r.1 ops
    (r'.1, r.2 :: r'.2)

/-- What can be obtained from a fresh structure by `add_site` calls. -/
def Reachable (s : Structure K d) : Prop := s.lattice.Regular ∧ ∃ ops, s = (history (new s.lattice) ops).1

end Structure
end Pyl
