import Verif.Model.Lattice
import Mathlib.Tactic.Linarith
import Mathlib.Tactic.Ring
import Mathlib.Tactic.Positivity
import Mathlib.Tactic.FieldSimp
import Mathlib.Tactic.Push
import Mathlib.Algebra.Order.Field.Basic
import Mathlib.Analysis.Real.Sqrt
import Mathlib.Algebra.Order.Archimedean.Real.Basic
/-
Facts about rounding half to even, and the link between `roundSqrt` and the real square root.
-/
set_option autoImplicit false
set_option linter.unusedSectionVars false

namespace Pyl
variable {K : Type} [Field K] [LinearOrder K] [IsStrictOrderedRing K] [FloorRing K]

/-- `n` is what `np.round(x)` should be: nearest, and even if there are two nearest. -/
def Nearest (x : K) (n : ℤ) : Prop := |2 * (x - n)| < 1 ∨ (|2 * (x - n)| = 1 ∧ n % 2 = 0)

theorem Nearest.le {x : K} {n : ℤ} (h : Nearest x n) : |2 * (x - n)| ≤ 1 := by
  rcases h with h | h
  · exact h.le
  · exact h.1.le

theorem nearest_roundHalfEven (x : K) : Nearest x (roundHalfEven x) := by
  have h0 := Int.floor_le x
  have h1 := Int.lt_floor_add_one x
  unfold Nearest roundHalfEven
  split_ifs with h2 h3 h4
  · left; rw [abs_lt]; constructor <;> linarith
  · left; push_cast; rw [abs_lt]; constructor <;> linarith
  · right
    refine ⟨?_, h4⟩
    have : 2 * (x - (⌊x⌋ : ℤ)) = 1 := le_antisymm (not_lt.1 h3) (not_lt.1 h2)
    rw [this, abs_one]
  · right
    have : 2 * (x - (⌊x⌋ : ℤ)) = 1 := le_antisymm (not_lt.1 h3) (not_lt.1 h2)
    refine ⟨?_, by omega⟩
    push_cast
    have : 2 * (x - ((⌊x⌋ : K) + 1)) = -1 := by linarith
    rw [this, abs_neg, abs_one]

theorem Nearest.unique {x : K} {n m : ℤ} (hn : Nearest x n) (hm : Nearest x m) : n = m := by
  by_contra hne
  have hn' := abs_le.1 hn.le
  have hm' := abs_le.1 hm.le
  rcases lt_or_gt_of_ne hne with h | h
  · have h1 : (n : K) + 1 ≤ m := by exact_mod_cast h
    have h2 : m = n + 1 := by
      have : (m : K) ≤ n + 1 := by linarith
      have : m ≤ n + 1 := by exact_mod_cast this
      omega
    subst h2
    push_cast at hm' h1
    have ha : 2 * (x - n) = 1 := by linarith
    have hb : 2 * (x - ((n + 1 : ℤ) : K)) = -1 := by push_cast; linarith
    rcases hn with hn | ⟨-, hn⟩
    · rw [ha, abs_one] at hn; exact lt_irrefl _ hn
    rcases hm with hm | ⟨-, hm⟩
    · rw [hb, abs_neg, abs_one] at hm; exact lt_irrefl _ hm
    omega
  · have h1 : (m : K) + 1 ≤ n := by exact_mod_cast h
    have h2 : n = m + 1 := by
      have : (n : K) ≤ m + 1 := by linarith
      have : n ≤ m + 1 := by exact_mod_cast this
      omega
    subst h2
    push_cast at hn' h1
    have ha : 2 * (x - m) = 1 := by linarith
    have hb : 2 * (x - ((m + 1 : ℤ) : K)) = -1 := by push_cast; linarith
    rcases hm with hm | ⟨-, hm⟩
    · rw [ha, abs_one] at hm; exact lt_irrefl _ hm
    rcases hn with hn | ⟨-, hn⟩
    · rw [hb, abs_neg, abs_one] at hn; exact lt_irrefl _ hn
    omega

theorem roundHalfEven_eq_iff {x : K} {n : ℤ} : roundHalfEven x = n ↔ Nearest x n :=
  ⟨fun h => h ▸ nearest_roundHalfEven x, fun h => (nearest_roundHalfEven x).unique h⟩

theorem abs_sub_roundHalfEven (x : K) : |2 * (x - roundHalfEven x)| ≤ 1 := (nearest_roundHalfEven x).le

@[simp] theorem roundHalfEven_int (n : ℤ) : roundHalfEven (n : K) = n :=
  roundHalfEven_eq_iff.2 (.inl (by simp))

theorem roundHalfEven_neg (x : K) : roundHalfEven (-x) = - roundHalfEven x := by
  refine roundHalfEven_eq_iff.2 ?_
  have e : 2 * (-x - ((-roundHalfEven x : ℤ) : K)) = -(2 * (x - roundHalfEven x)) := by push_cast; ring
  rcases nearest_roundHalfEven x with h | ⟨h, h'⟩
  · left; rw [e, abs_neg]; exact h
  · right; rw [e, abs_neg]; exact ⟨h, by omega⟩

/-- Moving by an even integer commutes with rounding. -/
theorem roundHalfEven_add_even (x : K) (n : ℤ) (hn : n % 2 = 0) : roundHalfEven (x + n) = roundHalfEven x + n := by
  refine roundHalfEven_eq_iff.2 ?_
  have e : 2 * (x + n - ((roundHalfEven x + n : ℤ) : K)) = 2 * (x - roundHalfEven x) := by push_cast; ring
  rcases nearest_roundHalfEven x with h | ⟨h, h'⟩
  · left; rw [e]; exact h
  · right; rw [e]; exact ⟨h, by omega⟩

/-- `x` lies half-way between two integers. -/
def Tie (x : K) : Prop := ∃ n : ℤ, 2 * x = 2 * n + 1

theorem not_tie_iff {x : K} : ¬ Tie x ↔ |2 * (x - roundHalfEven x)| < 1 := by
  constructor
  · intro h
    rcases nearest_roundHalfEven x with h' | ⟨h', -⟩
    · exact h'
    · exfalso; apply h
      rcases (abs_eq zero_le_one).1 h' with h' | h'
      · exact ⟨roundHalfEven x, by linarith⟩
      · exact ⟨roundHalfEven x - 1, by push_cast; linarith⟩
  · rintro h ⟨n, hn⟩
    rw [abs_lt] at h
    have h1 : ((2 * roundHalfEven x - 1 : ℤ) : K) < ((2 * n + 1 : ℤ) : K) := by push_cast; linarith
    have h2 : ((2 * n + 1 : ℤ) : K) < ((2 * roundHalfEven x + 1 : ℤ) : K) := by push_cast; linarith
    have h1' : 2 * roundHalfEven x - 1 < 2 * n + 1 := by exact_mod_cast h1
    have h2' : 2 * n + 1 < 2 * roundHalfEven x + 1 := by exact_mod_cast h2
    omega

/-- Away from ties moving by an integer commutes with rounding. -/
theorem roundHalfEven_add_int {x : K} (h : ¬ Tie x) (n : ℤ) : roundHalfEven (x + n) = roundHalfEven x + n := by
  refine roundHalfEven_eq_iff.2 (.inl ?_)
  have e : 2 * (x + n - ((roundHalfEven x + n : ℤ) : K)) = 2 * (x - roundHalfEven x) := by push_cast; ring
  rw [e]; exact not_tie_iff.1 h

/-- The distance to the rounded number does not change when moving by an integer. -/
theorem sq_sub_round_add_int (x : K) (n : ℤ) :
    (x + n - roundHalfEven (x + n)) ^ 2 = (x - roundHalfEven x) ^ 2 := by
  by_cases h : Tie x
  · have key : ∀ y : K, Tie y → 4 * (y - roundHalfEven y) ^ 2 = 1 := by
      rintro y hy
      have h1 : ¬ |2 * (y - roundHalfEven y)| < 1 := fun h' => (not_tie_iff.2 h') hy
      have h2 : |2 * (y - roundHalfEven y)| = 1 := le_antisymm (abs_sub_roundHalfEven y) (not_lt.1 h1)
      have : (2 * (y - roundHalfEven y)) ^ 2 = 1 := by rw [← sq_abs, h2, one_pow]
      linarith
    have h' : Tie (x + n) := by
      obtain ⟨m, hm⟩ := h
      exact ⟨m + n, by push_cast; linarith⟩
    linarith [key x h, key _ h']
  · rw [roundHalfEven_add_int h]; push_cast; ring

/-- Rounding minimises the distance to the integers. -/
theorem sq_sub_round_le (x : K) (n : ℤ) : (x - roundHalfEven x) ^ 2 ≤ (x - n) ^ 2 := by
  by_cases h : roundHalfEven x = n
  · rw [h]
  · have h1 := abs_le.1 (abs_sub_roundHalfEven x)
    rw [← sq_abs (x - roundHalfEven x), ← sq_abs (x - n)]
    refine pow_le_pow_left₀ (abs_nonneg _) ?_ 2
    have h2 : |x - roundHalfEven x| ≤ 1 / 2 := by rw [abs_le]; constructor <;> linarith
    refine h2.trans ?_
    rcases lt_or_gt_of_ne h with h' | h'
    · have : (roundHalfEven x : K) + 1 ≤ n := by exact_mod_cast h'
      refine le_trans ?_ (neg_le_abs _)
      linarith
    · have : (n : K) + 1 ≤ roundHalfEven x := by exact_mod_cast h'
      refine le_trans ?_ (le_abs_self _)
      linarith

/-! ### Rounding to decimals -/

theorem roundTo_of_mul_int {N : ℕ} (hN : N ≠ 0) {x : K} {m : ℤ} (h : x * N = m) : roundTo N x = x := by
  have hN' : (N : K) ≠ 0 := by exact_mod_cast hN
  rw [roundTo, h, roundHalfEven_int, ← h, mul_div_cancel_right₀ _ hN']

theorem roundTo_mul (N : ℕ) (hN : N ≠ 0) (x : K) : roundTo N x * N = roundHalfEven (x * N) := by
  have hN' : (N : K) ≠ 0 := by exact_mod_cast hN
  rw [roundTo, div_mul_cancel₀ _ hN']

@[simp] theorem roundTo_roundTo (N : ℕ) (hN : N ≠ 0) (x : K) : roundTo N (roundTo N x) = roundTo N x :=
  roundTo_of_mul_int hN (roundTo_mul N hN x)

theorem roundTo_inj {N : ℕ} (hN : N ≠ 0) {x y : K} : roundTo N x = roundTo N y ↔ roundHalfEven (x * N) = roundHalfEven (y * N) := by
  have hN' : (N : K) ≠ 0 := by exact_mod_cast hN
  rw [roundTo, roundTo, div_left_inj' hN']
  exact Int.cast_inj

/-! ### Rounded square roots -/

theorem roundSqrt_nonneg (N : ℕ) (q : K) : 0 ≤ roundSqrt N q := by
  unfold roundSqrt
  positivity

@[simp] theorem roundSqrt_zero (N : ℕ) : roundSqrt N (0 : K) = 0 := by
  simp [roundSqrt]

/-- `roundSqrt` is the rounded real square root. -/
theorem roundSqrt_real (N : ℕ) {q : ℝ} (hq : 0 ≤ q) : roundSqrt N q = roundTo N (Real.sqrt q) := by
  have hs : Real.sqrt q * N = Real.sqrt (q * N * N) := by
    rw [mul_assoc, Real.sqrt_mul hq, Real.sqrt_mul_self (Nat.cast_nonneg N)]
  unfold roundSqrt roundTo
  rw [hs]
  set t := q * N * N with ht
  have ht0 : 0 ≤ t := by positivity
  set m := Nat.sqrt ⌊t⌋.toNat with hm
  have hf : (⌊t⌋.toNat : ℤ) = ⌊t⌋ := Int.toNat_of_nonneg (Int.floor_nonneg.2 ht0)
  have hm1 : ((m : ℝ)) ^ 2 ≤ t := by
    have h1 : m * m ≤ ⌊t⌋.toNat := Nat.sqrt_le _
    have h2 : ((m * m : ℕ) : ℤ) ≤ ⌊t⌋ := by rw [← hf]; exact_mod_cast h1
    have h3 := Int.le_floor.1 h2
    push_cast at h3; rw [sq]; exact h3
  have hm2 : t < ((m : ℝ) + 1) ^ 2 := by
    have h1 : ⌊t⌋.toNat < (m + 1) * (m + 1) := Nat.lt_succ_sqrt _
    have h2 : ⌊t⌋ < (((m + 1) * (m + 1) : ℕ) : ℤ) := by rw [← hf]; exact_mod_cast h1
    have h3 := Int.floor_lt.1 h2
    push_cast at h3; rw [sq]; exact h3
  set s := Real.sqrt t with hsdef
  have hs0 : 0 ≤ s := Real.sqrt_nonneg t
  have hst : s ^ 2 = t := Real.sq_sqrt ht0
  have hms : (m : ℝ) ≤ s := by
    rw [← hst] at hm1; exact (sq_le_sq₀ (by positivity) hs0).1 hm1
  have hsm : s < m + 1 := by
    rw [← hst] at hm2; exact (sq_lt_sq₀ hs0 (by positivity)).1 hm2
  have hc : (4 * t : ℝ) = (2 * s) ^ 2 := by rw [← hst]; ring
  have key : ((if 4 * t < (2 * (m : ℝ) + 1) ^ 2 then m else if (2 * (m : ℝ) + 1) ^ 2 < 4 * t then m + 1
      else if m % 2 = 0 then m else m + 1 : ℕ) : ℤ) = roundHalfEven s := by
    symm
    rw [roundHalfEven_eq_iff, hc]
    have e1 : (2 * s) ^ 2 < (2 * (m : ℝ) + 1) ^ 2 ↔ 2 * s < 2 * m + 1 := sq_lt_sq₀ (by positivity) (by positivity)
    have e2 : (2 * (m : ℝ) + 1) ^ 2 < (2 * s) ^ 2 ↔ 2 * m + 1 < 2 * s := sq_lt_sq₀ (by positivity) (by positivity)
    simp only [e1, e2]
    split_ifs with h1 h2 h3
    · left; push_cast; rw [abs_lt]; constructor <;> linarith
    · left; push_cast; rw [abs_lt]; constructor <;> linarith
    · right
      have : 2 * (s - (m : ℝ)) = 1 := by linarith
      refine ⟨?_, by omega⟩
      push_cast; rw [this, abs_one]
    · right
      have : 2 * (s - ((m : ℝ) + 1)) = -1 := by linarith
      refine ⟨?_, by omega⟩
      push_cast; rw [this, abs_neg, abs_one]
  rw [← key]
  simp only [Int.cast_natCast, ← hm]

/-- The rounded square root in terms of squares, over any field. -/
theorem roundSqrt_bounds (N : ℕ) {q : K} (hq : 0 ≤ q) : ∃ k : ℕ, roundSqrt N q = k / N ∧
    (2 * (k : K) - 1 ≤ 0 ∨ (2 * (k : K) - 1) ^ 2 ≤ 4 * (q * N * N)) ∧ 4 * (q * N * N) ≤ (2 * (k : K) + 1) ^ 2 := by
  unfold roundSqrt
  set t := q * N * N with ht
  have ht0 : 0 ≤ t := by positivity
  set m := Nat.sqrt ⌊t⌋.toNat with hm
  have hf : (⌊t⌋.toNat : ℤ) = ⌊t⌋ := Int.toNat_of_nonneg (Int.floor_nonneg.2 ht0)
  have hm1 : ((m : K)) ^ 2 ≤ t := by
    have h1 : m * m ≤ ⌊t⌋.toNat := Nat.sqrt_le _
    have h2 : ((m * m : ℕ) : ℤ) ≤ ⌊t⌋ := by rw [← hf]; exact_mod_cast h1
    have h3 := Int.le_floor.1 h2
    push_cast at h3; rw [sq]; exact h3
  have hm2 : t < ((m : K) + 1) ^ 2 := by
    have h1 : ⌊t⌋.toNat < (m + 1) * (m + 1) := Nat.lt_succ_sqrt _
    have h2 : ⌊t⌋ < (((m + 1) * (m + 1) : ℕ) : ℤ) := by rw [← hf]; exact_mod_cast h1
    have h3 := Int.floor_lt.1 h2
    push_cast at h3; rw [sq]; exact h3
  have hm0 : (0 : K) ≤ m := Nat.cast_nonneg m
  refine ⟨_, rfl, ?_⟩
  split_ifs with h1 h2 h3
  · refine ⟨?_, h1.le⟩
    rcases Nat.eq_zero_or_pos m with h0 | h0
    · left; rw [← hm, h0]; simp
    · right
      have : (1 : K) ≤ m := by exact_mod_cast h0
      nlinarith
  · push_cast
    refine ⟨.inr ?_, ?_⟩
    · have : 2 * ((m : K) + 1) - 1 = 2 * m + 1 := by ring
      rw [this]; exact h2.le
    · nlinarith
  · refine ⟨?_, not_lt.1 h2⟩
    rcases Nat.eq_zero_or_pos m with h0 | h0
    · left; rw [← hm, h0]; simp
    · right
      have : (1 : K) ≤ m := by exact_mod_cast h0
      nlinarith
  · push_cast
    refine ⟨.inr ?_, ?_⟩
    · have : 2 * ((m : K) + 1) - 1 = 2 * m + 1 := by ring
      rw [this]; exact not_lt.1 h1
    · nlinarith

end Pyl
