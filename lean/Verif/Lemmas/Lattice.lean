import Verif.Spec.Lattice
import Verif.Lemmas.Round
import Mathlib.Tactic.NormNum
import Mathlib.Tactic.LinearCombination
import Mathlib.LinearAlgebra.Matrix.Basis
import Mathlib.LinearAlgebra.Matrix.ToLin
import Mathlib.Algebra.Order.BigOperators.Ring.Finset
set_option autoImplicit false
set_option linter.unusedSectionVars false

namespace Pyl
namespace Lattice
variable {K : Type} [Field K] [LinearOrder K] [IsStrictOrderedRing K] [FloorRing K] {d : ℕ} {L : Lattice K d}

theorem toCart_eq_point (f : Fin d → K) : L.toCart f = L.point f := rfl

theorem Regular.isUnit (h : L.Regular) : IsUnit L.mat.det :=
  (Matrix.isUnit_iff_isUnit_det _).1 (Matrix.linearIndependent_rows_iff_isUnit.1 h)

theorem regular_of_isUnit (h : IsUnit L.mat.det) : L.Regular :=
  Matrix.linearIndependent_rows_iff_isUnit.2 ((Matrix.isUnit_iff_isUnit_det _).2 h)

theorem toFrac_toCart (h : L.Regular) (f : Fin d → K) : L.toFrac (L.toCart f) = f := by
  rw [toFrac, toCart, Matrix.vecMul_vecMul, Matrix.mul_nonsing_inv _ h.isUnit, Matrix.vecMul_one]

theorem toCart_toFrac (h : L.Regular) (x : Fin d → K) : L.toCart (L.toFrac x) = x := by
  rw [toFrac, toCart, Matrix.vecMul_vecMul, Matrix.nonsing_inv_mul _ h.isUnit, Matrix.vecMul_one]

theorem toFrac_point (h : L.Regular) (f : Fin d → K) : L.toFrac (L.point f) = f := toFrac_toCart h f

theorem toFrac_sub (x y : Fin d → K) : L.toFrac (x - y) = L.toFrac x - L.toFrac y := Matrix.sub_vecMul _ _ _
theorem toFrac_add (x y : Fin d → K) : L.toFrac (x + y) = L.toFrac x + L.toFrac y := Matrix.add_vecMul _ _ _
theorem toCart_sub (x y : Fin d → K) : L.toCart (x - y) = L.toCart x - L.toCart y := Matrix.sub_vecMul _ _ _
theorem toCart_add (x y : Fin d → K) : L.toCart (x + y) = L.toCart x + L.toCart y := Matrix.add_vecMul _ _ _
theorem toCart_neg (x : Fin d → K) : L.toCart (-x) = - L.toCart x := Matrix.neg_vecMul _ _
theorem toCart_zero : L.toCart (0 : Fin d → K) = 0 := Matrix.zero_vecMul _

/-- The fractional coordinates of images differ by integers, on the periodic axes only. -/
theorem Image.frac (h : L.Regular) {x y : Fin d → K} (hi : L.Image x y) :
    ∃ n : Fin d → ℤ, (∀ i, L.periodic i = false → n i = 0) ∧ ∀ i, L.toFrac x i = L.toFrac y i + n i := by
  obtain ⟨n, hn, e⟩ := hi
  refine ⟨n, hn, fun i => ?_⟩
  have := congrFun (congrArg L.toFrac e) i
  rw [toFrac_sub, toFrac_point h, Pi.sub_apply] at this
  linear_combination this

theorem periodizeFrac_eq {p : Fin d → Bool} {f g : Fin d → K} {n : Fin d → ℤ} (hn : ∀ i, p i = false → n i = 0)
    (h : ∀ i, f i = g i + n i) : periodizeFrac p f = periodizeFrac p g := by
  funext i
  simp only [periodizeFrac, h i]
  cases hp : p i with
  | false => simp [hn i hp]
  | true => simp

theorem periodized_image (h : L.Regular) {x y : Fin d → K} (hi : L.Image x y) : L.periodized x = L.periodized y := by
  obtain ⟨n, hn, e⟩ := hi.frac h
  rw [periodized, periodized, periodizeFrac_eq hn e]

theorem toFrac_periodized (h : L.Regular) (x : Fin d → K) :
    L.toFrac (L.periodized x) = periodizeFrac L.periodic (L.toFrac x) := toFrac_toCart h _

theorem periodized_isImage (h : L.Regular) (x : Fin d → K) : L.Image (L.periodized x) x := by
  refine ⟨fun i => if L.periodic i then -⌊L.toFrac x i⌋ else 0, fun i hi => by simp [hi], ?_⟩
  rw [periodized]
  nth_rewrite 2 [← toCart_toFrac h x]
  rw [← toCart_sub, ← toCart_eq_point]
  congr 1
  funext i
  simp only [Pi.sub_apply, periodizeFrac]
  cases L.periodic i <;> simp

theorem periodized_periodized (h : L.Regular) (x : Fin d → K) : L.periodized (L.periodized x) = L.periodized x :=
  periodized_image h (periodized_isImage h x)

theorem Image.symm {x y : Fin d → K} (h : L.Image x y) : L.Image y x := by
  obtain ⟨n, hn, e⟩ := h
  refine ⟨fun i => - n i, fun i hi => by simp [hn i hi], ?_⟩
  rw [← neg_sub, e, ← toCart_eq_point, ← toCart_eq_point, ← toCart_neg]
  congr 1; funext i; simp

theorem Image.trans {x y z : Fin d → K} (h : L.Image x y) (h' : L.Image y z) : L.Image x z := by
  obtain ⟨n, hn, e⟩ := h
  obtain ⟨m, hm, e'⟩ := h'
  refine ⟨fun i => n i + m i, fun i hi => by simp [hn i hi, hm i hi], ?_⟩
  rw [← sub_add_sub_cancel x y z, e, e', ← toCart_eq_point, ← toCart_eq_point, ← toCart_eq_point, ← toCart_add]
  congr 1; funext i; simp

theorem Image.refl (x : Fin d → K) : L.Image x x := by
  refine ⟨fun _ => 0, fun _ _ => rfl, ?_⟩
  rw [sub_self, ← toCart_eq_point]
  have : (fun _ : Fin d => ((0 : ℤ) : K)) = 0 := by funext i; simp
  rw [this, toCart_zero]

/-- A point is periodized to itself iff its periodic fractional coordinates are in `[0, 1)`. -/
theorem periodized_eq_self (h : L.Regular) {x : Fin d → K}
    (hx : ∀ i, L.periodic i = true → 0 ≤ L.toFrac x i ∧ L.toFrac x i < 1) : L.periodized x = x := by
  rw [periodized]
  nth_rewrite 2 [← toCart_toFrac h x]
  congr 1
  funext i
  simp only [periodizeFrac]
  cases hp : L.periodic i with
  | false => simp
  | true =>
    have : ⌊L.toFrac x i⌋ = 0 := Int.floor_eq_zero_iff.2 ⟨(hx i hp).1, (hx i hp).2⟩
    simp [this]

/-! ### Distances -/

theorem pbcDiffFrac_swap (p : Fin d → Bool) (f g : Fin d → K) : pbcDiffFrac p g f = - pbcDiffFrac p f g := by
  funext i
  simp only [pbcDiffFrac, Pi.neg_apply]
  have : g i - f i = -(f i - g i) := by ring
  rw [this, roundHalfEven_neg]
  push_cast; ring

theorem normSq_neg (x : Fin d → K) : normSq (-x) = normSq x := by
  simp [normSq]

theorem dist_def (a b : Fin d → K) : L.dist a b = roundSqrt PRECISION (normSq (L.pbcVec a b)) := rfl

theorem normSq_point (ho : L.Orthogonal) (f : Fin d → K) :
    normSq (L.point f) = ∑ i, f i ^ 2 * normSq (L.mat i) := by
  have h1 : normSq (L.point f) = ∑ i, ∑ j, f i * f j * ∑ k, L.mat i k * L.mat j k := by
    have e : ∀ k, L.point f k ^ 2 = ∑ i, ∑ j, f i * f j * (L.mat i k * L.mat j k) := by
      intro k
      rw [sq, point, Finset.sum_mul_sum]
      exact Finset.sum_congr rfl fun i _ => Finset.sum_congr rfl fun j _ => by ring
    simp only [normSq, e, Finset.mul_sum]
    rw [Finset.sum_comm]
    exact Finset.sum_congr rfl fun i _ => Finset.sum_comm
  rw [h1]
  refine Finset.sum_congr rfl fun i _ => ?_
  rw [Finset.sum_eq_single i]
  · simp only [normSq, sq]
  · intro j _ hj
    rw [ho i j (Ne.symm hj), mul_zero]
  · simp

theorem normSq_nonneg (x : Fin d → K) : 0 ≤ normSq x := Finset.sum_nonneg fun _ _ => sq_nonneg _

/-- The vector measured by the code joins `a` to a periodic image of `b`. -/
theorem pbcVec_image (h : L.Regular) (a b : Fin d → K) :
    ∃ n : Fin d → ℤ, (∀ i, L.periodic i = false → n i = 0) ∧ L.pbcVec a b = a - b - L.point fun i => (n i : K) := by
  refine ⟨fun i => if L.periodic i then roundHalfEven (L.toFrac a i - L.toFrac b i) else 0, fun i hi => by simp [hi], ?_⟩
  rw [pbcVec, ← toCart_eq_point]
  have hab : a - b = L.toCart (L.toFrac a - L.toFrac b) := by
    rw [toCart_sub, toCart_toFrac h, toCart_toFrac h]
  rw [hab, ← toCart_sub]
  congr 1
  funext i
  simp only [pbcDiffFrac, Pi.sub_apply]
  cases L.periodic i <;> simp

end Lattice
end Pyl
