import Verif.Spec.DoubleHoneycomb
import Verif.Lemmas.DoubleSum
import Verif.Props.Honeycomb
/-
The honeycomb tiling in double precision: error bounds.
-/
set_option autoImplicit false
set_option linter.unusedSectionVars false

namespace Pyl
open Pyl.Lattice Pyl.Structure

/-! ### sums of products of any sign -/

theorem fl_add_err {a b S₁ S₂ T₁ T₂ : ℚ} {k₁ k₂ k : ℕ} (h₁ : |S₁| ≤ T₁) (h₂ : |S₂| ≤ T₂) (ha : |a - S₁| ≤ ((1 + ulp) ^ k₁ - 1) * T₁)
    (hb : |b - S₂| ≤ ((1 + ulp) ^ k₂ - 1) * T₂) (hk₁ : k₁ + 1 ≤ k) (hk₂ : k₂ + 1 ≤ k) :
    |fl (a + b) - (S₁ + S₂)| ≤ ((1 + ulp) ^ k - 1) * (T₁ + T₂) := by
  have hu := ulp_pos
  have hT₁ : 0 ≤ T₁ := (abs_nonneg _).trans h₁
  have hT₂ : 0 ≤ T₂ := (abs_nonneg _).trans h₂
  have hf := fl_err (a + b)
  have hf' : |fl (a + b) - (a + b)| ≤ ulp * |a + b| := by rw [ulp]; linarith
  have e1 : |a + b - (S₁ + S₂)| ≤ ((1 + ulp) ^ k₁ - 1) * T₁ + ((1 + ulp) ^ k₂ - 1) * T₂ := by
    have : a + b - (S₁ + S₂) = (a - S₁) + (b - S₂) := by ring
    rw [this]; exact (abs_add_le _ _).trans (add_le_add ha hb)
  have e2 : |a + b| ≤ T₁ + T₂ + (((1 + ulp) ^ k₁ - 1) * T₁ + ((1 + ulp) ^ k₂ - 1) * T₂) := by
    have : a + b = (S₁ + S₂) + (a + b - (S₁ + S₂)) := by ring
    rw [this]
    exact (abs_add_le _ _).trans (add_le_add ((abs_add_le _ _).trans (add_le_add h₁ h₂)) e1)
  have e3 := mul_le_mul_of_nonneg_left e2 hu.le
  have hi : ∀ j, j + 1 ≤ k → ∀ T : ℚ, 0 ≤ T → (1 + ulp) * ((1 + ulp) ^ j * T) ≤ (1 + ulp) ^ k * T := by
    intro j hj T hT
    rw [← mul_assoc, ← pow_succ']
    exact mul_le_mul_of_nonneg_right (pow_le_pow_right₀ (by linarith [ulp_pos]) hj) hT
  have i1 := hi k₁ hk₁ T₁ hT₁
  have i2 := hi k₂ hk₂ T₂ hT₂
  have e4 : |fl (a + b) - (S₁ + S₂)| ≤ |fl (a + b) - (a + b)| + |a + b - (S₁ + S₂)| := by
    have : fl (a + b) - (S₁ + S₂) = (fl (a + b) - (a + b)) + (a + b - (S₁ + S₂)) := by ring
    rw [this]; exact abs_add_le _ _
  linarith

theorem DotOf.err {l : List (ℚ × ℚ)} {a : ℚ} (h : DotOf l a) : IsDouble a ∧
    |a - (products l).sum| ≤ ((1 + ulp) ^ l.length - 1) * (l.map fun p => |p.1 * p.2|).sum := by
  have ab : ∀ l : List (ℚ × ℚ), |(products l).sum| ≤ (l.map fun p => |p.1 * p.2|).sum := fun l => by
    have := list_abs_sum_le (products l)
    rwa [products, List.map_map] at this
  induction h with
  | nil => exact ⟨isDouble_zero, by simp [products]⟩
  | mul x y =>
    refine ⟨isDouble_fl _, ?_⟩
    have := fl_err (x * y)
    simp only [products, List.map_cons, List.map_nil, List.sum_cons, List.sum_nil, add_zero, List.length_singleton, pow_one, ulp]
    linarith
  | @add l₁ l₂ a b h₁ h₂ ih₁ ih₂ =>
    obtain ⟨d1, b1⟩ := ih₁
    obtain ⟨d2, b2⟩ := ih₂
    refine ⟨isDouble_fl _, ?_⟩
    by_cases e1 : l₁ = []
    · subst e1
      simp only [products, List.map_nil, List.length_nil, pow_zero, List.sum_nil, sub_self, sub_zero, zero_mul] at b1
      have : a = 0 := abs_nonpos_iff.1 b1
      rw [this, zero_add, fl_of_isDouble d2, List.nil_append]
      exact b2
    by_cases e2 : l₂ = []
    · subst e2
      simp only [products, List.map_nil, List.length_nil, pow_zero, List.sum_nil, sub_self, sub_zero, zero_mul] at b2
      have : b = 0 := abs_nonpos_iff.1 b2
      rw [this, add_zero, fl_of_isDouble d1, List.append_nil]
      exact b1
    have p1 := List.length_pos_iff.2 e1
    have p2 := List.length_pos_iff.2 e2
    rw [products, List.map_append, List.sum_append, List.length_append, List.map_append, List.sum_append]
    exact fl_add_err (ab l₁) (ab l₂) b1 b2 (by omega) (by omega)
  | @fma l a x y h ih =>
    refine ⟨isDouble_fl _, ?_⟩
    rw [products, List.map_cons, List.sum_cons, List.length_cons, add_comm (x * y), List.map_cons, List.sum_cons, add_comm |x * y|]
    exact fl_add_err (k₁ := l.length) (k₂ := 0) (ab l) le_rfl ih.2 (by simp) (by omega) (by omega)
  | @perm l₁ l₂ a hp h ih =>
    have e : (products l₁).sum = (products l₂).sum := (hp.map _).sum_eq
    rw [hp.length_eq, e, (hp.map _).sum_eq] at ih
    exact ih

/-- Sums of two products. -/
theorem dot2_err {x0 y0 x1 y1 a : ℚ} (h : DotOf [(x0, y0), (x1, y1)] a) :
    |a - (x0 * y0 + x1 * y1)| ≤ (|x0 * y0| + |x1 * y1|) / 2 ^ 51 := by
  have := h.err.2
  simp only [products, List.map_cons, List.map_nil, List.sum_cons, List.sum_nil, add_zero, List.length_cons, List.length_nil] at this
  have hc : (1 + ulp) ^ (0 + 1 + 1) - 1 ≤ 1 / 2 ^ 51 := by unfold ulp; norm_num
  have hnn : 0 ≤ |x0 * y0| + |x1 * y1| := by positivity
  calc _ ≤ _ := this
    _ ≤ 1 / 2 ^ 51 * (|x0 * y0| + |x1 * y1|) := mul_le_mul_of_nonneg_right hc hnn
    _ = _ := by ring

namespace Dbl
namespace Arith
variable {A : Arith 2}

theorem vecMul_err (hA : A.Products) (v : Fin 2 → ℚ) (M : Matrix (Fin 2) (Fin 2) ℚ) (j : Fin 2) :
    |A.vecMul v M j - (v 0 * M 0 j + v 1 * M 1 j)| ≤ (|v 0 * M 0 j| + |v 1 * M 1 j|) / 2 ^ 51 :=
  dot2_err (by simpa [List.ofFn_succ] using hA.vecMul v M j)

theorem vecMul_double (hA : A.Products) (v : Fin 2 → ℚ) (M : Matrix (Fin 2) (Fin 2) ℚ) (j : Fin 2) : IsDouble (A.vecMul v M j) :=
  (hA.vecMul v M j).err.1

end Arith
end Dbl

/-! ### the lattice -/

/-- The square root of three in the matrix of the honeycomb lattice, as stored. -/
theorem honey_entry : fl (fl (flSqrt 3 * 1) / 2) = flSqrt 3 / 2 := by
  rw [mul_one, fl_of_isDouble (isDouble_flSqrt 3)]
  have e : flSqrt 3 / 2 = flSqrt 3 * 2 ^ (-1 : ℤ) := by rw [zpow_neg_one]; ring
  rw [e, fl_scale, fl_of_isDouble (isDouble_flSqrt 3)]

theorem sqrt3_bounds : (17320 / 10000 : ℝ) ≤ √3 ∧ √3 ≤ (17321 / 10000 : ℝ) :=
  ⟨Real.le_sqrt_of_sq_le (by norm_num), Real.sqrt_le_iff.2 (by norm_num)⟩

theorem flSqrt3_err : |((flSqrt 3 : ℚ) : ℝ) - √3| ≤ 1 / 2 ^ 52 := by
  have h := flSqrt_err (q := 3) (by norm_num)
  push_cast at h
  refine h.trans ?_
  have := sqrt3_bounds.2
  rw [div_le_div_iff₀ (by positivity) (by positivity)]
  linarith

/-- The square root of three that the matrix of the honeycomb lattice with `n` rows contains. -/
def honeyRoot (n : ℤ) : ℚ := 2 * fl (flSqrt 3 / 2 * n) / n

theorem honeyRoot_err {n : ℤ} (hn : 0 < n) : |((honeyRoot n : ℚ) : ℝ) - √3| ≤ 1 / 2 ^ 51 := by
  have hn' : (0 : ℚ) < n := by exact_mod_cast hn
  have h1 := abs_le.1 flSqrt3_err
  have hs := sqrt3_bounds
  have hq : (0 : ℚ) < flSqrt 3 ∧ flSqrt 3 ≤ 2 := by
    constructor
    · have : (0 : ℝ) < ((flSqrt 3 : ℚ) : ℝ) := by linarith
      exact_mod_cast this
    · have : ((flSqrt 3 : ℚ) : ℝ) ≤ ((2 : ℚ) : ℝ) := by push_cast; linarith
      exact_mod_cast this
  have h2 := fl_err (flSqrt 3 / 2 * n)
  have h3 : |honeyRoot n - flSqrt 3| ≤ 1 / 2 ^ 52 := by
    have e : honeyRoot n - flSqrt 3 = 2 * (fl (flSqrt 3 / 2 * n) - flSqrt 3 / 2 * n) / n := by
      rw [honeyRoot]; field_simp
    rw [e, abs_div, abs_mul, abs_of_pos hn', div_le_iff₀ hn', abs_two]
    rw [abs_mul, abs_of_pos hn', abs_of_pos (by linarith : 0 < flSqrt 3 / 2)] at h2
    have : flSqrt 3 / 2 * n / 2 ^ 53 ≤ 1 * n / 2 ^ 53 := by gcongr; linarith
    linarith
  have h3' : |((honeyRoot n : ℚ) : ℝ) - ((flSqrt 3 : ℚ) : ℝ)| ≤ 1 / 2 ^ 52 := by
    have : ((|honeyRoot n - flSqrt 3| : ℚ) : ℝ) ≤ ((1 / 2 ^ 52 : ℚ) : ℝ) := by exact_mod_cast h3
    push_cast at this
    exact this
  have h4 := abs_le.1 h3'
  rw [abs_le]
  constructor <;> linarith

theorem honeyRoot_bounds {n : ℤ} (hn : 0 < n) : 17319 / 10000 ≤ honeyRoot n ∧ honeyRoot n ≤ 17322 / 10000 := by
  have h := abs_le.1 (honeyRoot_err hn)
  have hs := sqrt3_bounds
  constructor
  · have : ((17319 / 10000 : ℚ) : ℝ) ≤ ((honeyRoot n : ℚ) : ℝ) := by push_cast; linarith
    exact_mod_cast this
  · have : ((honeyRoot n : ℚ) : ℝ) ≤ ((17322 / 10000 : ℚ) : ℝ) := by push_cast; linarith
    exact_mod_cast this

/-- The lattice of the structure. -/
theorem honey_scaled {n : Fin 2 → ℤ} (hn : ∀ k, 3 ≤ n k ∧ n k ≤ 2 ^ 10) :
    Dbl.scaled Dbl.honeyLattice n = (honeyLattice (honeyRoot (n 1))).scaled n := by
  have h1 : (0 : ℚ) < n 1 := by have := hn 1; exact_mod_cast (by omega : 0 < n 1)
  have i : ∀ m : ℤ, |m| ≤ 2 ^ 53 → fl ((m : ℚ) / 2) = m / 2 := fun m hm => by
    have := fl_repr hm (-1)
    rw [zpow_neg_one] at this
    exact this
  simp only [Dbl.scaled, Lattice.scaled, Dbl.honeyLattice, honeyLattice, honey_entry]
  congr 1
  ext a b
  have h2 : ∀ k, |n k| ≤ 2 ^ 53 := fun k => by have := hn k; rw [abs_le]; omega
  have half : fl (1 / 2) = 1 / 2 := by simpa using i 1 (by norm_num)
  fin_cases a <;> fin_cases b
  · simpa using fl_int (h2 0)
  · simp
  · have := i (n 1) (h2 1)
    simp only [half]
    simp
    rw [inv_mul_eq_div, this]
  · simp [honeyRoot]
    field_simp

/-! ### fractional coordinates -/

/-- Exact fractional coordinates. -/
def honeyFrac (R : ℚ) (n : Fin 2 → ℤ) (x : Fin 2 → ℚ) : Fin 2 → ℚ := ![(x 0 - x 1 / R) / n 0, 2 * x 1 / R / n 1]

/-- Exact locations. -/
def honeyCart (R : ℚ) (n : Fin 2 → ℤ) (f : Fin 2 → ℚ) : Fin 2 → ℚ := ![f 0 * n 0 + f 1 * n 1 / 2, f 1 * n 1 * R / 2]

theorem honey_inv {R : ℚ} (hR : R ≠ 0) {n : Fin 2 → ℤ} (hn : ∀ k, n k ≠ 0) :
    ((honeyLattice R).scaled n).mat⁻¹ = !![1 / (n 0 : ℚ), 0; -(1 / (n 0 * R)), 2 / (n 1 * R)] := by
  have h0 : (n 0 : ℚ) ≠ 0 := by exact_mod_cast hn 0
  have h1 : (n 1 : ℚ) ≠ 0 := by exact_mod_cast hn 1
  refine Matrix.inv_eq_right_inv ?_
  have e : ((honeyLattice R).scaled n).mat = !![(n 0 : ℚ), 0; n 1 / 2, R / 2 * n 1] := by
    ext a b
    fin_cases a <;> fin_cases b <;> simp [honeyLattice, Lattice.scaled]
    ring
  rw [e, Matrix.mul_fin_two, Matrix.one_fin_two]
  congr 1
  funext a
  fin_cases a <;> simp
  · field_simp
  · constructor <;> field_simp
    ring

section
variable {A : Dbl.Arith 2} {n : Fin 2 → ℤ}

/-- What the theorems assume about the arithmetic. -/
structure HoneyArith (A : Dbl.Arith 2) (n : Fin 2 → ℤ) : Prop where
  size : ∀ k, 3 ≤ n k ∧ n k ≤ 2 ^ 10
  prod : A.Products
  inv : InverseOf (Dbl.scaled Dbl.honeyLattice n).mat (A.inv (Dbl.scaled Dbl.honeyLattice n).mat)

variable (h : HoneyArith A n)
include h

theorem HoneyArith.posQ (k : Fin 2) : (3 : ℚ) ≤ n k ∧ (n k : ℚ) ≤ 1024 := by
  have := h.size k
  constructor
  · exact_mod_cast this.1
  · exact_mod_cast (by omega : n k ≤ 1024)

theorem HoneyArith.root : 17319 / 10000 ≤ honeyRoot (n 1) ∧ honeyRoot (n 1) ≤ 17322 / 10000 :=
  honeyRoot_bounds (by have := h.size 1; omega)

theorem HoneyArith.mat (i j : Fin 2) : |(Dbl.scaled Dbl.honeyLattice n).mat⁻¹ i j| ≤ 1 ∧
    |A.inv (Dbl.scaled Dbl.honeyLattice n).mat i j - (Dbl.scaled Dbl.honeyLattice n).mat⁻¹ i j| ≤ 1 / 2 ^ 49 := by
  obtain ⟨r1, r2⟩ := h.root
  have n0 := h.posQ 0
  have n1 := h.posQ 1
  have hin := h.inv i j
  have hinv := honey_inv (R := honeyRoot (n 1)) (by linarith) (n := n) (fun k => by have := h.size k; omega)
  rw [honey_scaled h.size] at hin ⊢
  rw [hinv] at hin ⊢
  set R := honeyRoot (n 1)
  have p0 : (0 : ℚ) < n 0 := by linarith
  have p1 : (0 : ℚ) < n 1 := by linarith
  have pR : 0 < R := by linarith
  have a1 : |1 / (n 0 : ℚ)| ≤ 1 / 3 := by
    rw [abs_of_pos (by positivity)]
    exact one_div_le_one_div_of_le (by norm_num) n0.1
  have a2 : |-(1 / ((n 0 : ℚ) * R))| ≤ 1 / 5 := by
    rw [abs_neg, abs_of_pos (by positivity)]
    exact one_div_le_one_div_of_le (by norm_num) (by nlinarith)
  have a3 : |2 / ((n 1 : ℚ) * R)| ≤ 2 / 5 := by
    rw [abs_of_pos (by positivity)]
    exact div_le_div_of_nonneg_left (by norm_num) (by norm_num) (by nlinarith)
  have hs : ∑ i, ∑ j, |(!![1 / (n 0 : ℚ), 0; -(1 / (n 0 * R)), 2 / (n 1 * R)] : Matrix (Fin 2) (Fin 2) ℚ) i j| ≤ 1 := by
    simp only [Fin.sum_univ_two, Matrix.of_apply, Matrix.cons_val_zero, Matrix.cons_val_one, Matrix.cons_val_fin_one, abs_zero, add_zero]
    linarith
  refine ⟨?_, hin.trans (by gcongr)⟩
  fin_cases i <;> fin_cases j
  · exact a1.trans (by norm_num)
  · simp
  · exact a2.trans (by norm_num)
  · exact a3.trans (by norm_num)

theorem HoneyArith.toFrac {x : Fin 2 → ℚ} (hx : |x 0| + |x 1| ≤ 5000) (j : Fin 2) :
    |A.toFrac (Dbl.scaled Dbl.honeyLattice n) x j - honeyFrac (honeyRoot (n 1)) n x j| ≤ 1 / 2 ^ 36 := by
  obtain ⟨r1, r2⟩ := h.root
  have n0 := h.posQ 0
  have n1 := h.posQ 1
  have e1 := Dbl.Arith.vecMul_err h.prod x (A.inv (Dbl.scaled Dbl.honeyLattice n).mat) j
  obtain ⟨b0, c0⟩ := h.mat 0 j
  obtain ⟨b1, c1⟩ := h.mat 1 j
  have hf : honeyFrac (honeyRoot (n 1)) n x j =
      x 0 * (Dbl.scaled Dbl.honeyLattice n).mat⁻¹ 0 j + x 1 * (Dbl.scaled Dbl.honeyLattice n).mat⁻¹ 1 j := by
    have hinv := honey_inv (R := honeyRoot (n 1)) (by linarith) (n := n) (fun k => by have := h.size k; omega)
    rw [honey_scaled h.size, hinv]
    fin_cases j <;> simp [honeyFrac] <;> field_simp
    ring
  rw [hf, Dbl.Arith.toFrac]
  generalize (Dbl.scaled Dbl.honeyLattice n).mat⁻¹ 0 j = I0 at *
  generalize (Dbl.scaled Dbl.honeyLattice n).mat⁻¹ 1 j = I1 at *
  generalize A.inv (Dbl.scaled Dbl.honeyLattice n).mat = N at *
  have x0 := abs_nonneg (x 0)
  have x1 := abs_nonneg (x 1)
  have d0 : |N 0 j| ≤ 2 := by
    have := abs_add_le (N 0 j - I0) I0
    rw [sub_add_cancel] at this
    linarith [(by norm_num : (1 : ℚ) / 2 ^ 49 ≤ 1)]
  have d1 : |N 1 j| ≤ 2 := by
    have := abs_add_le (N 1 j - I1) I1
    rw [sub_add_cancel] at this
    linarith [(by norm_num : (1 : ℚ) / 2 ^ 49 ≤ 1)]
  have e2 : |x 0 * N 0 j| + |x 1 * N 1 j| ≤ 10000 := by
    rw [abs_mul, abs_mul]
    have := mul_le_mul_of_nonneg_left d0 x0
    have := mul_le_mul_of_nonneg_left d1 x1
    linarith
  have e3 : |x 0 * (N 0 j - I0) + x 1 * (N 1 j - I1)| ≤ 5000 / 2 ^ 49 := by
    refine (abs_add_le _ _).trans ?_
    rw [abs_mul, abs_mul]
    have := mul_le_mul_of_nonneg_left c0 x0
    have := mul_le_mul_of_nonneg_left c1 x1
    have : (|x 0| + |x 1|) * (1 / 2 ^ 49) ≤ 5000 * (1 / 2 ^ 49) := by gcongr
    linarith
  have e4 : A.vecMul x N j - (x 0 * I0 + x 1 * I1) =
      (A.vecMul x N j - (x 0 * N 0 j + x 1 * N 1 j)) + (x 0 * (N 0 j - I0) + x 1 * (N 1 j - I1)) := by ring
  rw [e4]
  refine (abs_add_le _ _).trans ?_
  have e5 : (|x 0 * N 0 j| + |x 1 * N 1 j|) / 2 ^ 51 ≤ 10000 / 2 ^ 51 := by gcongr
  have : (10000 : ℚ) / 2 ^ 51 + 5000 / 2 ^ 49 ≤ 1 / 2 ^ 36 := by norm_num
  linarith

theorem HoneyArith.toCart {f : Fin 2 → ℚ} (hf : ∀ k, |f k| ≤ 2) (j : Fin 2) :
    |A.toCart (Dbl.scaled Dbl.honeyLattice n) f j - honeyCart (honeyRoot (n 1)) n f j| ≤ 1 / 2 ^ 38 := by
  obtain ⟨r1, r2⟩ := h.root
  have n0 := h.posQ 0
  have n1 := h.posQ 1
  have e1 := Dbl.Arith.vecMul_err h.prod f (Dbl.scaled Dbl.honeyLattice n).mat j
  rw [Dbl.Arith.toCart]
  rw [honey_scaled h.size] at e1 ⊢
  set R := honeyRoot (n 1)
  set v := A.vecMul f ((honeyLattice R).scaled n).mat j
  have hm : ∀ k, |((honeyLattice R).scaled n).mat k j| ≤ 1024 := by
    intro k
    fin_cases k <;> fin_cases j <;> simp [honeyLattice, Lattice.scaled]
    · rw [abs_le]; constructor <;> linarith
    · rw [abs_of_pos (by linarith : (0 : ℚ) < n 1)]; linarith
    · rw [abs_of_pos (by linarith : (0 : ℚ) < n 1), abs_of_pos (by linarith : (0 : ℚ) < R / 2)]; nlinarith
  have hb : ∀ k, |f k * ((honeyLattice R).scaled n).mat k j| ≤ 2048 := fun k => by
    rw [abs_mul]
    calc _ ≤ (2 : ℚ) * 1024 := mul_le_mul (hf k) (hm k) (abs_nonneg _) (by norm_num)
      _ = _ := by norm_num
  have e2 : honeyCart R n f j = f 0 * ((honeyLattice R).scaled n).mat 0 j + f 1 * ((honeyLattice R).scaled n).mat 1 j := by
    fin_cases j <;> simp [honeyCart, honeyLattice, Lattice.scaled] <;> ring
  rw [e2]
  refine e1.trans ?_
  calc _ ≤ ((2048 : ℚ) + 2048) / 2 ^ 51 := by gcongr <;> exact hb _
    _ ≤ _ := by norm_num

end

/-! ### locations in the box -/

/-- One fractional coordinate that is near the middle of a cell. -/
theorem axis_wrap {N c : ℤ} {f ε : ℚ} (hN : 3 ≤ N ∧ N ≤ 2 ^ 10) (hc : -N ≤ c ∧ c < 2 * N) (hε : |ε| ≤ 1 / 100)
    (hf : |f - (c + 1 / 2 + ε) / N| ≤ 1 / 2 ^ 36) :
    |fl (f - fl ((⌊f⌋ : ℚ) * 1)) - ((c % N : ℤ) + 1 / 2 + ε) / N| ≤ 1 / 2 ^ 36 + 1 / 2 ^ 53 ∧ |fl (f - fl ((⌊f⌋ : ℚ) * 1))| ≤ 2 := by
  have n1 : (3 : ℚ) ≤ N := by exact_mod_cast hN.1
  have n2 : (N : ℚ) ≤ 1024 := by exact_mod_cast (by omega : N ≤ 1024)
  have np : (0 : ℚ) < N := by linarith
  have b0 : 0 ≤ c % N := Int.emod_nonneg _ (by omega)
  have b1 : c % N < N := Int.emod_lt_of_pos _ (by omega)
  have hd := Int.mul_ediv_add_emod c N
  set b := c % N
  set q := c / N
  have q0 : -1 ≤ q := by
    by_contra hlt
    have : N * q ≤ N * (-2) := mul_le_mul_of_nonneg_left (by omega) (by omega)
    omega
  have q1 : q ≤ 1 := by
    by_contra hlt
    have : N * 2 ≤ N * q := mul_le_mul_of_nonneg_left (by omega) (by omega)
    omega
  have B0 : (0 : ℚ) ≤ b := by exact_mod_cast b0
  have B1 : (b : ℚ) + 1 ≤ N := by exact_mod_cast b1
  have ec : ((c : ℚ) + 1 / 2 + ε) / N = q + (b + 1 / 2 + ε) / N := by
    have : (c : ℚ) = N * q + b := by exact_mod_cast hd.symm
    rw [this]; field_simp; ring
  have hε' := abs_le.1 hε
  have lo : 1 / 4096 ≤ ((b : ℚ) + 1 / 2 + ε) / N := by
    rw [le_div_iff₀ np]; linarith
  have hi : ((b : ℚ) + 1 / 2 + ε) / N ≤ 1 - 1 / 4096 := by
    rw [div_le_iff₀ np]; linarith
  rw [ec] at hf
  have hf' := abs_le.1 hf
  have t36 : (1 : ℚ) / 2 ^ 36 ≤ 1 / 8192 := by norm_num
  have hfl : ⌊f⌋ = q := by
    rw [Int.floor_eq_iff]
    constructor <;> linarith
  have hq : fl ((⌊f⌋ : ℚ) * 1) = q := by
    rw [mul_one, hfl]
    exact fl_int (by rw [abs_le]; omega)
  rw [hq]
  have hr := fl_err (f - q)
  have h1 : |f - q| ≤ 1 := by rw [abs_le]; constructor <;> linarith
  have h2 : |f - q| / 2 ^ 53 ≤ 1 / 2 ^ 53 := by gcongr
  have hr' := abs_le.1 (hr.trans h2)
  have t53 : (1 : ℚ) / 2 ^ 53 ≤ 1 / 8192 := by norm_num
  have h1' := abs_le.1 h1
  constructor <;> rw [abs_le] <;> constructor <;> linarith

section
variable {A : Dbl.Arith 2} {n : Fin 2 → ℤ}

/-- The cells that are at most one period away from the box. -/
def NearBox (n c : Fin 2 → ℤ) : Prop := ∀ k, -n k ≤ c k ∧ c k < 2 * n k

/-- The cell of the box. -/
def wrapCell (n c : Fin 2 → ℤ) : Fin 2 → ℤ := fun k => c k % n k

variable (h : HoneyArith A n)
include h

theorem HoneyArith.size_hex {c : Fin 2 → ℤ} (hc : NearBox n c) {x : Fin 2 → ℚ} (hx : ∀ i, |x i - hexCentre (honeyRoot (n 1)) c i| ≤ 1 / 500) :
    |x 0| + |x 1| ≤ 5000 := by
  obtain ⟨r1, r2⟩ := h.root
  have n0 := h.posQ 0
  have n1 := h.posQ 1
  have c0 : -(n 0 : ℚ) ≤ c 0 ∧ (c 0 : ℚ) ≤ 2 * n 0 := ⟨by exact_mod_cast (hc 0).1, by exact_mod_cast (hc 0).2.le⟩
  have c1 : -(n 1 : ℚ) ≤ c 1 ∧ (c 1 : ℚ) ≤ 2 * n 1 := ⟨by exact_mod_cast (hc 1).1, by exact_mod_cast (hc 1).2.le⟩
  have x0 := abs_le.1 (hx 0)
  have x1 := abs_le.1 (hx 1)
  simp only [hexCentre, Matrix.cons_val_zero, Matrix.cons_val_one, Matrix.cons_val_fin_one] at x0 x1
  set R := honeyRoot (n 1)
  have y : |x 1| ≤ 1780 := by
    rw [abs_le]
    constructor <;> nlinarith
  have y' : |x 0| ≤ 3080 := by
    rw [abs_le]
    constructor <;> linarith
  linarith

/-- Fractional coordinates of a location near the middle of a hexagon. -/
theorem HoneyArith.frac_hex {c : Fin 2 → ℤ} {x : Fin 2 → ℚ} (hx : ∀ i, |x i - hexCentre (honeyRoot (n 1)) c i| ≤ 1 / 500) :
    ∃ ε : Fin 2 → ℚ, (∀ k, |ε k| ≤ 1 / 100) ∧ (∀ k, honeyFrac (honeyRoot (n 1)) n x k = (c k + 1 / 2 + ε k) / n k) ∧
      ∀ b : Fin 2 → ℤ, honeyCart (honeyRoot (n 1)) n (fun k => (b k + 1 / 2 + ε k) / n k) =
        fun i => hexCentre (honeyRoot (n 1)) b i + (x i - hexCentre (honeyRoot (n 1)) c i) := by
  obtain ⟨r1, r2⟩ := h.root
  have n0 := h.posQ 0
  have n1 := h.posQ 1
  have x0 := abs_le.1 (hx 0)
  have x1 := abs_le.1 (hx 1)
  set R := honeyRoot (n 1)
  have pR : 0 < R := by linarith
  have p0 : (n 0 : ℚ) ≠ 0 := by linarith
  have p1 : (n 1 : ℚ) ≠ 0 := by linarith
  set e0 := x 0 - hexCentre R c 0 with he0
  set e1 := x 1 - hexCentre R c 1 with he1
  have h1 : |e1 / R| ≤ 1 / 500 := by
    rw [abs_div, abs_of_pos pR, div_le_iff₀ pR]
    have := hx 1
    linarith
  have h1' := abs_le.1 h1
  refine ⟨![e0 - e1 / R, 2 * (e1 / R)], fun k => ?_, fun k => ?_, fun b => ?_⟩
  · fin_cases k
    · change |e0 - e1 / R| ≤ _
      rw [abs_le]; constructor <;> linarith
    · change |2 * (e1 / R)| ≤ _
      rw [abs_le]; constructor <;> linarith
  · fin_cases k <;> simp only [honeyFrac, he0, he1, hexCentre, Matrix.cons_val_zero, Matrix.cons_val_one, Matrix.cons_val_fin_one, Fin.zero_eta, Fin.mk_one] <;>
      field_simp <;> ring
  · have g0 : ((b 0 : ℚ) + 1 / 2 + (e0 - e1 / R)) / n 0 * n 0 = b 0 + 1 / 2 + (e0 - e1 / R) := div_mul_cancel₀ _ p0
    have g1 : ((b 1 : ℚ) + 1 / 2 + 2 * (e1 / R)) / n 1 * n 1 = b 1 + 1 / 2 + 2 * (e1 / R) := div_mul_cancel₀ _ p1
    funext i
    fin_cases i
    · simp only [honeyCart, Matrix.cons_val_zero, Matrix.cons_val_one, Matrix.cons_val_fin_one, Fin.zero_eta]
      rw [g0, g1]
      have he0' := he0
      simp only [hexCentre, Matrix.cons_val_zero] at he0' ⊢
      linear_combination he0'
    · simp only [honeyCart, Matrix.cons_val_one, Matrix.cons_val_fin_one, Fin.mk_one]
      rw [g1]
      have he1' := he1
      simp only [hexCentre, Matrix.cons_val_one, Matrix.cons_val_fin_one] at he1' ⊢
      linear_combination div_mul_cancel₀ e1 pR.ne' + he1'

/-- Small changes of the fractional coordinates. -/
theorem HoneyArith.cart_near {f g : Fin 2 → ℚ} {δ : ℚ} (hfg : ∀ k, |f k - g k| ≤ δ) (j : Fin 2) :
    |honeyCart (honeyRoot (n 1)) n f j - honeyCart (honeyRoot (n 1)) n g j| ≤ 1536 * δ := by
  obtain ⟨r1, r2⟩ := h.root
  have n0 := h.posQ 0
  have n1 := h.posQ 1
  set R := honeyRoot (n 1)
  have hδ : 0 ≤ δ := (abs_nonneg _).trans (hfg 0)
  have m : ∀ (a b N : ℚ), 0 ≤ N → N ≤ 1024 → |a - b| ≤ δ → |a * N - b * N| ≤ 1024 * δ := by
    intro a b N h0 h1 h2
    rw [← sub_mul, abs_mul, abs_of_nonneg h0, mul_comm]
    exact mul_le_mul h1 h2 (abs_nonneg _) (by norm_num)
  have m0 := abs_le.1 (m _ _ (n 0) (by linarith) n0.2 (hfg 0))
  have m1 := abs_le.1 (m _ _ (n 1) (by linarith) n1.2 (hfg 1))
  fin_cases j
  · simp only [honeyCart, Matrix.cons_val_zero, Fin.zero_eta]
    rw [abs_le]; constructor <;> linarith
  · simp only [honeyCart, Matrix.cons_val_one, Matrix.cons_val_fin_one, Fin.mk_one]
    have e : f 1 * n 1 * R / 2 - g 1 * n 1 * R / 2 = (f 1 * n 1 - g 1 * n 1) * (R / 2) := by ring
    rw [e, abs_mul, abs_of_pos (by linarith : 0 < R / 2)]
    calc _ ≤ (1024 * δ) * 1 := mul_le_mul (abs_le.2 m1) (by linarith) (by linarith) (by positivity)
      _ ≤ _ := by linarith

/-- A location near the middle of a hexagon is moved to the hexagon in the box. -/
theorem HoneyArith.periodized {c : Fin 2 → ℤ} (hc : NearBox n c) {x : Fin 2 → ℚ} (hx : ∀ i, |x i - hexCentre (honeyRoot (n 1)) c i| ≤ 1 / 500)
    (i : Fin 2) : |A.periodized (Dbl.scaled Dbl.honeyLattice n) x i -
      (hexCentre (honeyRoot (n 1)) (wrapCell n c) i + (x i - hexCentre (honeyRoot (n 1)) c i))| ≤ 1 / 2 ^ 25 := by
  obtain ⟨ε, hε, hf, hcart⟩ := h.frac_hex hx
  have key : ∀ k, _ := fun k => axis_wrap (h.size k) (hc k) (hε k) (by rw [← hf k]; exact h.toFrac (h.size_hex hc hx) k)
  have e : Dbl.periodizeFrac (Dbl.scaled Dbl.honeyLattice n).periodic (A.toFrac (Dbl.scaled Dbl.honeyLattice n) x) =
      fun k => fl (A.toFrac (Dbl.scaled Dbl.honeyLattice n) x k - fl ((⌊A.toFrac (Dbl.scaled Dbl.honeyLattice n) x k⌋ : ℚ) * 1)) := by
    funext k
    simp [Dbl.periodizeFrac, Dbl.scaled, Dbl.honeyLattice]
  rw [Dbl.Arith.periodized, e]
  have h1 := h.toCart (fun k => (key k).2) i
  have h2 := h.cart_near (fun k => (key k).1) i
  have h3 := congrFun (hcart (wrapCell n c)) i
  simp only [wrapCell] at h3 ⊢
  rw [h3] at h2
  have h1' := abs_le.1 h1
  have h2' := abs_le.1 h2
  have t : (1 : ℚ) / 2 ^ 38 + 1536 * (1 / 2 ^ 36 + 1 / 2 ^ 53) ≤ 1 / 2 ^ 25 := by norm_num
  rw [abs_le]; constructor <;> linarith

end

/-! ### thousandths -/

theorem round3_eq {x : ℚ} {k : ℤ} (hx : |x| ≤ 2 ^ 13) (h : |1000 * x - k| ≤ 1 / 2 - 1 / 2 ^ 21) : Dbl.round3 x = fl (k / 1000) := by
  have h1 := fl_err (x * 1000)
  have h2 : |x * 1000| / 2 ^ 53 ≤ 2 ^ 13 * 1000 / 2 ^ 53 := by
    rw [abs_mul, abs_of_pos (by norm_num : (0 : ℚ) < 1000)]
    gcongr
  have h3 := abs_le.1 (h1.trans h2)
  have h4 := abs_le.1 h
  rw [Dbl.round3, roundHalfEven_eq_iff.2 (.inl ?_ : Nearest (fl (x * 1000)) k)]
  rw [abs_lt]
  constructor <;> norm_num at h3 h4 ⊢ <;> linarith

theorem round3_err (x : ℚ) : |Dbl.round3 x - x| ≤ 1 / 1999 + |x| / 2 ^ 50 := by
  have h1 := fl_err (x * 1000)
  have h2 := abs_sub_roundHalfEven (fl (x * 1000))
  have h3 := fl_err ((roundHalfEven (fl (x * 1000)) : ℚ) / 1000)
  rw [Dbl.round3]
  generalize (roundHalfEven (fl (x * 1000)) : ℚ) = m at *
  generalize fl (m / 1000) = z at *
  generalize fl (x * 1000) = y at *
  rw [abs_mul, abs_of_pos (by norm_num : (0 : ℚ) < 1000)] at h1
  have hx := abs_nonneg x
  have a1 := abs_le.1 h1
  have a2 := abs_le.1 h2
  have a3 : |m / 1000 - x| ≤ 1 / 2000 + |x| / 2 ^ 53 := by
    rw [abs_le]; constructor <;> linarith
  have a4 : |m / 1000| ≤ |x| + (1 / 2000 + |x| / 2 ^ 53) := by
    have := abs_add_le x (m / 1000 - x)
    rw [add_sub_cancel] at this
    linarith
  have a5 : |m / 1000| / 2 ^ 53 ≤ (|x| + (1 / 2000 + |x| / 2 ^ 53)) / 2 ^ 53 := by gcongr
  have a6 := abs_le.1 (h3.trans a5)
  have a7 := abs_le.1 a3
  rw [abs_le]
  constructor <;> norm_num at a6 a7 ⊢ <;> linarith

theorem withOffset_err {x : ℚ} (hx : |x| ≤ 2 ^ 12) : |fl (x + fl (1 / 1000)) - (x + 1 / 1000)| ≤ 1 / 2 ^ 39 := by
  have h1 := fl_err (1 / 1000)
  rw [abs_of_pos (by norm_num : (0 : ℚ) < 1 / 1000)] at h1
  have h1' := abs_le.1 h1
  have h2 := fl_err (x + fl (1 / 1000))
  have hx' := abs_le.1 hx
  have h3 : |x + fl (1 / 1000)| ≤ 2 ^ 13 := by
    rw [abs_le]; constructor <;> norm_num at h1' hx' ⊢ <;> linarith
  have h4 : |x + fl (1 / 1000)| / 2 ^ 53 ≤ 2 ^ 13 / 2 ^ 53 := by gcongr
  have h5 := abs_le.1 (h2.trans h4)
  rw [abs_le]; constructor <;> norm_num at h1' h5 ⊢ <;> linarith

theorem withOffset_eq {x : Fin 2 → ℚ} {k : Fin 2 → ℤ} (hx : ∀ i, |x i| ≤ 2 ^ 12) (h : ∀ i, |1000 * x i - k i| ≤ 1 / 2 - 1 / 2 ^ 20) :
    Dbl.withOffset x = fun i => fl (((k i + 1 : ℤ) : ℚ) / 1000) := by
  funext i
  have h1 := abs_le.1 (withOffset_err (hx i))
  have h2 := abs_le.1 (h i)
  have h3 := abs_le.1 (hx i)
  refine round3_eq ?_ ?_
  · rw [abs_le]; constructor <;> norm_num at h1 h3 ⊢ <;> linarith
  · rw [abs_le]; push_cast; constructor <;> norm_num at h1 h2 ⊢ <;> linarith

theorem rounded_eq {x : Fin 2 → ℚ} {k : Fin 2 → ℤ} (hx : ∀ i, |x i| ≤ 2 ^ 12) (h : ∀ i, |1000 * x i - k i| ≤ 1 / 2 - 1 / 2 ^ 20) :
    Dbl.rounded x = fun i => fl ((k i : ℚ) / 1000) := by
  funext i
  have h2 := abs_le.1 (h i)
  have h3 := abs_le.1 (hx i)
  refine round3_eq ?_ ?_
  · rw [abs_le]; constructor <;> norm_num at h3 ⊢ <;> linarith
  · rw [abs_le]; constructor <;> norm_num at h2 ⊢ <;> linarith

/-- The middle of a row of hexagons is not close to a tie of the rounding to thousandths: checked row by row. -/
theorem honey_rows : ∀ c < 1024, (2 ^ 14 * (((2 * c + 1) * 433012701892219 + 500000000000) / 1000000000000) - 8191) ^ 2 ≤ 2 ^ 28 * (187500 * (2 * c + 1) ^ 2) ∧
    2 ^ 28 * (187500 * (2 * c + 1) ^ 2) ≤ (2 ^ 14 * (((2 * c + 1) * 433012701892219 + 500000000000) / 1000000000000) + 8191) ^ 2 ∧
      1 ≤ ((2 * c + 1) * 433012701892219 + 500000000000) / 1000000000000 := by
  decide +kernel

theorem honey_row {c : ℤ} (h0 : 0 ≤ c) (h1 : c < 1024) : ∃ k : ℤ, |(k : ℝ) - 1000 * ((2 * c + 1) / 4 * √3)| ≤ 1 / 2 - 1 / 2 ^ 14 := by
  obtain ⟨m, rfl⟩ := Int.eq_ofNat_of_zero_le h0
  obtain ⟨r1, r2, r3⟩ := honey_rows m (by omega)
  generalize ((2 * m + 1) * 433012701892219 + 500000000000) / 1000000000000 = k at *
  refine ⟨k, ?_⟩
  have q1 : ((2 : ℝ) ^ 14 * k - 8191) ^ 2 ≤ 2 ^ 28 * (187500 * (2 * m + 1) ^ 2) := by
    have hle : 8191 ≤ 2 ^ 14 * k := by omega
    have : (((2 ^ 14 * k - 8191 : ℕ) ^ 2 : ℕ) : ℝ) ≤ ((2 ^ 28 * (187500 * (2 * m + 1) ^ 2) : ℕ) : ℝ) := by exact_mod_cast r1
    rw [Nat.cast_pow, Nat.cast_sub hle] at this
    norm_num at this ⊢
    exact this
  have q2 : (2 : ℝ) ^ 28 * (187500 * (2 * m + 1) ^ 2) ≤ ((2 : ℝ) ^ 14 * k + 8191) ^ 2 := by exact_mod_cast r2
  have hk : (1 : ℝ) ≤ k := by exact_mod_cast r3
  have hw : ((2 : ℝ) ^ 14 * (250 * (2 * m + 1) * √3)) ^ 2 = 2 ^ 28 * (187500 * (2 * m + 1) ^ 2) := by
    rw [mul_pow, mul_pow, Real.sq_sqrt (by norm_num)]; ring
  have hw0 : 0 ≤ (2 : ℝ) ^ 14 * (250 * (2 * m + 1) * √3) := by positivity
  rw [← hw] at q1 q2
  have p1 := abs_le.1 (abs_le_of_sq_le_sq q1 hw0)
  have p2 := abs_le.1 (abs_le_of_sq_le_sq q2 (by positivity))
  push_cast
  rw [abs_le]
  constructor
  · have := p2.2
    norm_num at this ⊢
    linarith
  · have := p1.2
    norm_num at this ⊢
    linarith

/-- The thousandths nearest to the middle of a hexagon. -/
theorem honey_thousandths {n : Fin 2 → ℤ} (hn : ∀ k, n k ≤ 2 ^ 10) {c : Fin 2 → ℤ} (hc : ∀ k, 0 ≤ c k ∧ c k < n k) :
    ∃ k : Fin 2 → ℤ, ∀ i, |(k i : ℝ) - 1000 * hexCentre (√3) c i| ≤ 1 / 2 - 1 / 2 ^ 14 := by
  obtain ⟨k1, h1⟩ := honey_row (hc 1).1 (by have := (hc 1).2; have := hn 1; omega)
  refine ⟨![1000 * c 0 + 500 * c 1 + 750, k1], fun i => ?_⟩
  fin_cases i
  · have : ((1000 * c 0 + 500 * c 1 + 750 : ℤ) : ℝ) - 1000 * hexCentre (√3) c 0 = 0 := by
      simp only [hexCentre, Matrix.cons_val_zero]; push_cast; ring
    simp only [Fin.zero_eta, Matrix.cons_val_zero, this]
    norm_num
  · simpa [hexCentre] using h1

/-! ### keys -/

theorem vec2 {P : Fin 2 → Prop} (h0 : P 0) (h1 : P 1) : ∀ i, P i := fun i => by
  fin_cases i
  · exact h0
  · exact h1

theorem hexCentre_real {n c : Fin 2 → ℤ} (hn : ∀ k, 3 ≤ n k ∧ n k ≤ 2 ^ 10) (hc : NearBox n c) (i : Fin 2) :
    |((hexCentre (honeyRoot (n 1)) c i : ℚ) : ℝ) - hexCentre (√3) c i| ≤ 1 / 2 ^ 38 := by
  have hr := honeyRoot_err (n := n 1) (by have := hn 1; omega)
  revert i
  refine vec2 ?_ ?_
  · simp [hexCentre]
  · simp only [hexCentre, Matrix.cons_val_one, Matrix.cons_val_fin_one]
    push_cast
    rw [← mul_sub, abs_mul]
    have h1 : |(2 * (c 1 : ℝ) + 1) / 4| ≤ 1025 := by
      have c0 : -(n 1 : ℝ) ≤ c 1 ∧ (c 1 : ℝ) ≤ 2 * n 1 := ⟨by exact_mod_cast (hc 1).1, by exact_mod_cast (hc 1).2.le⟩
      have n1 : (n 1 : ℝ) ≤ 1024 := by exact_mod_cast (by have := hn 1; omega : n 1 ≤ 1024)
      rw [abs_le]; constructor <;> linarith
    calc _ ≤ (1025 : ℝ) * (1 / 2 ^ 51) := mul_le_mul h1 hr (abs_nonneg _) (by norm_num)
      _ ≤ _ := by norm_num

theorem inBox_near {n c : Fin 2 → ℤ} (hc : ∀ k, 0 ≤ c k ∧ c k < n k) : NearBox n c := fun k => by have := hc k; omega

theorem wrapCell_inBox {n : Fin 2 → ℤ} (hn : ∀ k, 3 ≤ n k) (c : Fin 2 → ℤ) (k : Fin 2) : 0 ≤ wrapCell n c k ∧ wrapCell n c k < n k :=
  ⟨Int.emod_nonneg _ (by have := hn k; omega), Int.emod_lt_of_pos _ (by have := hn k; omega)⟩

theorem wrapCell_of_inBox {n c : Fin 2 → ℤ} (hc : ∀ k, 0 ≤ c k ∧ c k < n k) : wrapCell n c = c :=
  funext fun k => Int.emod_eq_of_lt (hc k).1 (hc k).2

section
variable {A : Dbl.Arith 2} {n : Fin 2 → ℤ}
variable (h : HoneyArith A n)
include h

/-- The key and the stored location of a location near a hexagon. -/
theorem HoneyArith.key {c k : Fin 2 → ℤ} (hc : NearBox n c) {x : Fin 2 → ℚ}
    (hk : ∀ i, |(k i : ℝ) - 1000 * hexCentre (√3) (wrapCell n c) i| ≤ 1 / 2)
    (hx : ∀ i, |1000 * ((x i : ℝ) - hexCentre (√3) c i + hexCentre (√3) (wrapCell n c) i) - k i| ≤ 1 / 2 - 1 / 25000) :
    Dbl.rounded (A.periodized (Dbl.scaled Dbl.honeyLattice n) x) = (fun i => fl ((k i : ℚ) / 1000)) ∧
      A.transformed (Dbl.scaled Dbl.honeyLattice n) x = fun i => fl (((k i + 1 : ℤ) : ℚ) / 1000) := by
  have hb := wrapCell_inBox (fun k => (h.size k).1) c
  have hxc : ∀ i, |x i - hexCentre (honeyRoot (n 1)) c i| ≤ 1 / 500 := by
    intro i
    have h1 := abs_le.1 (hexCentre_real h.size hc i)
    have h2 := abs_le.1 (hk i)
    have h3 := abs_le.1 (hx i)
    have : |((x i : ℚ) : ℝ) - ((hexCentre (honeyRoot (n 1)) c i : ℚ) : ℝ)| ≤ 1 / 500 := by
      rw [abs_le]; constructor <;> norm_num at h1 h2 h3 ⊢ <;> linarith
    have : ((|x i - hexCentre (honeyRoot (n 1)) c i| : ℚ) : ℝ) ≤ ((1 / 500 : ℚ) : ℝ) := by push_cast; exact this
    exact_mod_cast this
  have hp := h.periodized hc hxc
  set y := A.periodized (Dbl.scaled Dbl.honeyLattice n) x with hy
  have hk1 : ∀ i, |1000 * y i - k i| ≤ 1 / 2 - 1 / 2 ^ 20 := by
    intro i
    have h1 := abs_le.1 (hexCentre_real h.size hc i)
    have h2 := abs_le.1 (hexCentre_real h.size (inBox_near hb) i)
    have h3 := abs_le.1 (hx i)
    have h4 : ((|y i - (hexCentre (honeyRoot (n 1)) (wrapCell n c) i + (x i - hexCentre (honeyRoot (n 1)) c i))| : ℚ) : ℝ) ≤ ((1 / 2 ^ 25 : ℚ) : ℝ) := by
      exact_mod_cast hp i
    push_cast at h4
    have h4' := abs_le.1 h4
    have : |1000 * ((y i : ℚ) : ℝ) - k i| ≤ 1 / 2 - 1 / 2 ^ 20 := by
      rw [abs_le]; constructor <;> norm_num at h1 h2 h3 h4' ⊢ <;> linarith
    have : ((|1000 * y i - k i| : ℚ) : ℝ) ≤ ((1 / 2 - 1 / 2 ^ 20 : ℚ) : ℝ) := by push_cast; exact this
    exact_mod_cast this
  have hy1 : ∀ i, |y i| ≤ 2 ^ 12 := by
    obtain ⟨r1, r2⟩ := h.root
    have n0 := h.posQ 0
    have n1 := h.posQ 1
    have c0 : (0 : ℚ) ≤ wrapCell n c 0 ∧ (wrapCell n c 0 : ℚ) ≤ n 0 := ⟨by exact_mod_cast (hb 0).1, by exact_mod_cast (hb 0).2.le⟩
    have c1 : (0 : ℚ) ≤ wrapCell n c 1 ∧ (wrapCell n c 1 : ℚ) ≤ n 1 := ⟨by exact_mod_cast (hb 1).1, by exact_mod_cast (hb 1).2.le⟩
    refine vec2 ?_ ?_
    · have h1 := abs_le.1 (hp 0)
      have h2 := abs_le.1 (hxc 0)
      have e : hexCentre (honeyRoot (n 1)) (wrapCell n c) 0 = wrapCell n c 0 + wrapCell n c 1 / 2 + 3 / 4 := rfl
      rw [e] at h1
      rw [abs_le]; constructor <;> norm_num at h1 ⊢ <;> linarith
    · have h1 := abs_le.1 (hp 1)
      have h2 := abs_le.1 (hxc 1)
      have e : hexCentre (honeyRoot (n 1)) (wrapCell n c) 1 = (2 * wrapCell n c 1 + 1) / 4 * honeyRoot (n 1) := rfl
      rw [e] at h1
      have e1 : 0 ≤ (2 * (wrapCell n c 1 : ℚ) + 1) / 4 * honeyRoot (n 1) := mul_nonneg (by linarith) (by linarith)
      have e2 : (2 * (wrapCell n c 1 : ℚ) + 1) / 4 * honeyRoot (n 1) ≤ 513 * 2 := mul_le_mul (by linarith) (by linarith) (by linarith) (by norm_num)
      rw [abs_le]; constructor <;> norm_num at h1 ⊢ <;> linarith
  exact ⟨rounded_eq hy1 hk1, withOffset_eq hy1 hk1⟩

/-- The location that the builder computes for a hexagon. -/
theorem HoneyArith.cellLoc {c : Fin 2 → ℤ} (hc : ∀ k, 0 ≤ c k ∧ c k < n k) (i : Fin 2) :
    |((A.toCart Dbl.honeyLattice (fun i => fl ((c i : ℚ) + 1 / 2)) i : ℚ) : ℝ) - hexCentre (√3) c i| ≤ 1 / 2 ^ 38 := by
  have half : (fun i => fl ((c i : ℚ) + 1 / 2)) = fun i => (c i : ℚ) + 1 / 2 := by
    funext i
    have := fl_repr (m := 2 * c i + 1) (by have := hc i; have := h.size i; rw [abs_le]; omega) (-1)
    rw [zpow_neg_one] at this
    have e : ((2 * c i + 1 : ℤ) : ℚ) * 2⁻¹ = c i + 1 / 2 := by push_cast; ring
    rwa [e] at this
  have fh : fl (1 / 2) = 1 / 2 := by
    have := fl_repr (m := 1) (by norm_num) (-1)
    rw [zpow_neg_one] at this
    simpa using this
  rw [half, Dbl.Arith.toCart]
  have e := Dbl.Arith.vecMul_err h.prod (fun i => (c i : ℚ) + 1 / 2) Dbl.honeyLattice.mat i
  have cb : ∀ k, (0 : ℚ) ≤ c k ∧ (c k : ℚ) ≤ 1024 := fun k =>
    ⟨by exact_mod_cast (hc k).1, by exact_mod_cast (by have := hc k; have := h.size k; omega : c k ≤ 1024)⟩
  have c0 := cb 0
  have c1 := cb 1
  set v := A.vecMul (fun i => (c i : ℚ) + 1 / 2) Dbl.honeyLattice.mat with hv
  clear_value v
  have hq := abs_le.1 flSqrt3_err
  have hs := sqrt3_bounds
  have q2 : |flSqrt 3 / 2| ≤ 1 := by
    have : ((|flSqrt 3 / 2| : ℚ) : ℝ) ≤ ((1 : ℚ) : ℝ) := by
      push_cast
      rw [abs_le]
      constructor <;> norm_num at hq ⊢ <;> linarith
    exact_mod_cast this
  have p0 : |(c 0 : ℚ) + 1 / 2| ≤ 1025 := by rw [abs_le]; constructor <;> linarith
  have p1 : |(c 1 : ℚ) + 1 / 2| ≤ 1025 := by rw [abs_le]; constructor <;> linarith
  revert i
  refine vec2 ?_ ?_
  · intro e
    simp only [Dbl.honeyLattice, fh, Matrix.of_apply, Matrix.cons_val_zero, Matrix.cons_val_one, mul_one] at e
    have e1 : (|(c 0 : ℚ) + 1 / 2| + |((c 1 : ℚ) + 1 / 2) * (1 / 2)|) / 2 ^ 51 ≤ (1025 + 1025 * 1) / 2 ^ 51 := by
      rw [abs_mul]
      gcongr
      norm_num
    have e2 : ((|v 0 - (c 0 + 1 / 2 + (c 1 + 1 / 2) * (1 / 2))| : ℚ) : ℝ) ≤ (((1025 + 1025 * 1) / 2 ^ 51 : ℚ) : ℝ) := by
      exact_mod_cast e.trans e1
    push_cast at e2
    have e3 := abs_le.1 e2
    have e4 : hexCentre (√3) c 0 = c 0 + c 1 / 2 + 3 / 4 := rfl
    rw [e4, abs_le]
    constructor <;> norm_num at e3 ⊢ <;> linarith
  · intro e
    simp only [Dbl.honeyLattice, honey_entry, Matrix.of_apply, Matrix.cons_val_zero, Matrix.cons_val_one, Matrix.cons_val_fin_one, mul_zero, abs_zero, zero_add] at e
    have e1 : (|((c 1 : ℚ) + 1 / 2) * (flSqrt 3 / 2)|) / 2 ^ 51 ≤ (1025 * 1) / 2 ^ 51 := by
      rw [abs_mul]
      gcongr
    have e2 : ((|v 1 - ((c 1 + 1 / 2) * (flSqrt 3 / 2))| : ℚ) : ℝ) ≤ (((1025 * 1) / 2 ^ 51 : ℚ) : ℝ) := by
      exact_mod_cast e.trans e1
    push_cast at e2
    have e4 : hexCentre (√3) c 1 = (2 * c 1 + 1) / 4 * √3 := rfl
    have e5 : |((c 1 : ℝ) + 1 / 2) * (((flSqrt 3 : ℚ) : ℝ) / 2) - (2 * c 1 + 1) / 4 * √3| ≤ 1025 * (1 / 2 ^ 52) := by
      have : ((c 1 : ℝ) + 1 / 2) * (((flSqrt 3 : ℚ) : ℝ) / 2) - (2 * c 1 + 1) / 4 * √3 =
          ((c 1 : ℝ) / 2 + 1 / 4) * (((flSqrt 3 : ℚ) : ℝ) - √3) := by ring
      rw [this, abs_mul]
      have c1' : (0 : ℝ) ≤ c 1 ∧ (c 1 : ℝ) ≤ 1024 := ⟨by exact_mod_cast c1.1, by exact_mod_cast c1.2⟩
      refine mul_le_mul ?_ flSqrt3_err (abs_nonneg _) (by norm_num)
      rw [abs_le]; constructor <;> linarith
    rw [e4]
    have e3 := abs_le.1 e2
    have e6 := abs_le.1 e5
    rw [abs_le]
    constructor <;> norm_num at e3 e6 ⊢ <;> linarith

omit h in
/-- The thousandths of a hexagon determine it. -/
theorem thousandths_inj {c c' k : Fin 2 → ℤ} (hk : ∀ i, |(k i : ℝ) - 1000 * hexCentre (√3) c i| ≤ 1 / 2)
    (hk' : ∀ i, |(k i : ℝ) - 1000 * hexCentre (√3) c' i| ≤ 1 / 2) : c = c' := by
  have hs := sqrt3_bounds
  have a0 := abs_le.1 (hk 0)
  have a1 := abs_le.1 (hk 1)
  have b0 := abs_le.1 (hk' 0)
  have b1 := abs_le.1 (hk' 1)
  simp only [hexCentre, Matrix.cons_val_zero, Matrix.cons_val_one, Matrix.cons_val_fin_one] at a0 a1 b0 b1
  have e1 : c 1 = c' 1 := by
    refine sub_eq_zero.1 (Int.abs_lt_one_iff.1 ?_)
    have : |((c 1 - c' 1 : ℤ) : ℝ)| * √3 ≤ 1 / 250 := by
      rw [← abs_of_nonneg (by linarith : 0 ≤ √3), ← abs_mul, abs_le]
      push_cast
      constructor <;> nlinarith
    have : |((c 1 - c' 1 : ℤ) : ℝ)| < 1 := by
      by_contra hge
      have := mul_le_mul_of_nonneg_right (not_lt.1 hge) (by linarith : 0 ≤ √3)
      linarith
    rw [← Int.cast_abs] at this
    exact_mod_cast this
  have e0 : c 0 = c' 0 := by
    refine sub_eq_zero.1 (Int.abs_lt_one_iff.1 ?_)
    have : |((c 0 - c' 0 : ℤ) : ℝ)| < 1 := by
      rw [e1] at a0
      push_cast
      rw [abs_lt]; constructor <;> linarith
    rw [← Int.cast_abs] at this
    exact_mod_cast this
  funext i
  revert i
  exact vec2 e0 e1

end

end Pyl
