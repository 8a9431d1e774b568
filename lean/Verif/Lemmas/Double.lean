import Verif.Spec.Double
import Verif.Lemmas.Round
import Mathlib.Tactic.Linarith
import Mathlib.Tactic.NormNum
import Mathlib.Tactic.Positivity
import Mathlib.Tactic.FieldSimp
import Mathlib.Tactic.Ring
import Mathlib.Algebra.Order.Field.Power
/-
Rounding to double precision.
-/
set_option autoImplicit false

namespace Pyl

@[simp] theorem fl_zero : fl 0 = 0 := by simp [fl]

theorem fl_of_ne {x : ℚ} (h : x ≠ 0) : fl x = (roundHalfEven (x / 2 ^ (Int.log 2 |x| - 52)) : ℚ) * 2 ^ (Int.log 2 |x| - 52) := by
  simp [fl, h]

/-- The exponent is the one with `2 ^ 52 ≤ |x| / 2 ^ e < 2 ^ 53`. -/
theorem fl_eq {x : ℚ} {e : ℤ} (h1 : (2 : ℚ) ^ (e + 52) ≤ |x|) (h2 : |x| < 2 ^ (e + 53)) :
    fl x = (roundHalfEven (x / 2 ^ e) : ℚ) * 2 ^ e := by
  have hx : 0 < |x| := lt_of_lt_of_le (by positivity) h1
  have hl : Int.log 2 |x| = e + 52 := by
    apply le_antisymm
    · have := (Int.lt_zpow_iff_log_lt (R := ℚ) (b := 2) (by norm_num) hx (x := e + 53)).1 (by exact_mod_cast h2)
      omega
    · exact (Int.zpow_le_iff_le_log (R := ℚ) (b := 2) (by norm_num) hx).1 (by exact_mod_cast h1)
  rw [fl_of_ne (abs_pos.1 hx), hl, show e + 52 - 52 = e by ring]

theorem fl_exp {x : ℚ} (h : x ≠ 0) : ∃ e : ℤ, (2 : ℚ) ^ (e + 52) ≤ |x| ∧ |x| < 2 ^ (e + 53) := by
  have hx : 0 < |x| := abs_pos.2 h
  refine ⟨Int.log 2 |x| - 52, ?_, ?_⟩
  · have := Int.zpow_log_le_self (R := ℚ) (b := 2) (by norm_num) hx
    rw [show Int.log 2 |x| - 52 + 52 = Int.log 2 |x| by ring]
    exact_mod_cast this
  · have := Int.lt_zpow_succ_log_self (R := ℚ) (b := 2) (by norm_num) |x|
    rw [show Int.log 2 |x| - 52 + 53 = Int.log 2 |x| + 1 by ring]
    exact_mod_cast this

/-- The relative error is at most `2 ^ (-53)`. -/
theorem fl_err (x : ℚ) : |fl x - x| ≤ |x| / 2 ^ 53 := by
  by_cases hx : x = 0
  · subst hx; simp
  obtain ⟨e, h1, h2⟩ := fl_exp hx
  rw [fl_eq h1 h2]
  have hp : (0 : ℚ) < 2 ^ e := by positivity
  have hr := abs_sub_roundHalfEven (x / 2 ^ e)
  have hx' : x = x / 2 ^ e * 2 ^ e := by field_simp
  set y := x / 2 ^ e with hy
  have h3 : (roundHalfEven y : ℚ) * 2 ^ e - x = (roundHalfEven y - y) * 2 ^ e := by rw [hx']; ring
  have h4 : |y - (roundHalfEven y : ℚ)| ≤ 1 / 2 := by
    rw [abs_mul, abs_of_pos (by norm_num : (0 : ℚ) < 2)] at hr; linarith
  rw [h3, abs_mul, abs_of_pos hp, abs_sub_comm]
  rw [zpow_add₀ (by norm_num)] at h1
  have h5 : (2 : ℚ) ^ (52 : ℤ) = 2 ^ 52 := by norm_cast
  rw [h5] at h1
  rw [le_div_iff₀ (by positivity)]
  calc |y - (roundHalfEven y : ℚ)| * 2 ^ e * 2 ^ 53 ≤ 1 / 2 * 2 ^ e * 2 ^ 53 := by gcongr
    _ = 2 ^ e * 2 ^ 52 := by ring
    _ ≤ |x| := h1

/-- Numbers with at most 53 binary digits are not changed. -/
theorem fl_repr {m : ℤ} (hm : |m| ≤ 2 ^ 53) (e : ℤ) : fl (m * 2 ^ e) = m * 2 ^ e := by
  by_cases h0 : m = 0
  · subst h0; simp
  have hx : (m : ℚ) * 2 ^ e ≠ 0 := by positivity
  obtain ⟨e', h1, h2⟩ := fl_exp hx
  rw [fl_eq h1 h2]
  have hp : (0 : ℚ) < 2 ^ e := by positivity
  have ha : |(m : ℚ) * 2 ^ e| = |(m : ℚ)| * 2 ^ e := by rw [abs_mul, abs_of_pos hp]
  have hmq : |(m : ℚ)| ≤ 2 ^ 53 := by exact_mod_cast hm
  rw [ha] at h1 h2
  have key : ∀ k : ℤ, (m : ℚ) * 2 ^ e = k * 2 ^ e' → (roundHalfEven ((m : ℚ) * 2 ^ e / 2 ^ e') : ℚ) * 2 ^ e' = m * 2 ^ e := by
    intro k hk
    rw [hk, mul_div_cancel_right₀ _ (by positivity), roundHalfEven_int]
  rcases le_or_gt e' e with h | h
  · obtain ⟨t, ht⟩ := Int.le.dest h
    refine key (m * 2 ^ t) ?_
    rw [← ht, zpow_add₀ (by norm_num)]
    push_cast
    rw [zpow_natCast]; ring
  · -- then `|m| = 2 ^ 53`
    have h3 : (2 : ℚ) ^ (e + 53) ≤ |(m : ℚ)| * 2 ^ e := le_trans (zpow_le_zpow_right₀ (by norm_num) (by omega)) h1
    rw [zpow_add₀ (by norm_num), mul_comm, mul_le_mul_iff_of_pos_right hp] at h3
    have h5 : (2 : ℚ) ^ (53 : ℤ) = 2 ^ 53 := by norm_cast
    rw [h5] at h3
    have h6 : |(m : ℚ)| = 2 ^ 53 := le_antisymm hmq h3
    have he : e' = e + 1 := by
      rw [h6, ← h5, ← zpow_add₀ (by norm_num)] at h1
      have := (zpow_le_zpow_iff_right₀ (by norm_num : (1 : ℚ) < 2)).1 h1
      omega
    have h7 : |m| = 2 ^ 53 := by exact_mod_cast h6
    rcases abs_eq (by norm_num) |>.1 h7 with rfl | rfl
    · refine key (2 ^ 52) ?_
      rw [he, zpow_add₀ (by norm_num)]; push_cast; ring
    · refine key (-2 ^ 52) ?_
      rw [he, zpow_add₀ (by norm_num)]; push_cast; ring

theorem fl_int {m : ℤ} (hm : |m| ≤ 2 ^ 53) : fl (m : ℚ) = m := by
  have := fl_repr hm 0
  simpa using this

/-- Rounded numbers have at most 53 binary digits. -/
theorem fl_digits (x : ℚ) : ∃ m e : ℤ, |m| ≤ 2 ^ 53 ∧ fl x = m * 2 ^ e := by
  by_cases hx : x = 0
  · exact ⟨0, 0, by norm_num, by subst hx; simp⟩
  obtain ⟨e, h1, h2⟩ := fl_exp hx
  refine ⟨roundHalfEven (x / 2 ^ e), e, ?_, fl_eq h1 h2⟩
  have hp : (0 : ℚ) < 2 ^ e := by positivity
  have hr := abs_le.1 (abs_sub_roundHalfEven (x / 2 ^ e))
  have h3 : |x / 2 ^ e| < 2 ^ 53 := by
    rw [abs_div, abs_of_pos hp, div_lt_iff₀ hp]
    rw [zpow_add₀ (by norm_num)] at h2
    have h5 : (2 : ℚ) ^ (53 : ℤ) = 2 ^ 53 := by norm_cast
    rw [h5] at h2; linarith
  have h4 := abs_lt.1 h3
  have h5 : |(roundHalfEven (x / 2 ^ e) : ℚ)| < 2 ^ 53 + 1 := by rw [abs_lt]; constructor <;> linarith
  have h6 : |roundHalfEven (x / 2 ^ e)| < 2 ^ 53 + 1 := by exact_mod_cast h5
  omega

theorem isDouble_fl (x : ℚ) : IsDouble (fl x) := fl_digits x

theorem fl_of_isDouble {x : ℚ} (h : IsDouble x) : fl x = x := by
  obtain ⟨m, e, h1, rfl⟩ := h
  exact fl_repr h1 e

theorem round_nearest (y : ℚ) (k : ℤ) : |(roundHalfEven y : ℚ) - y| ≤ |(k : ℚ) - y| := by
  have := sq_sub_round_le y k
  rw [abs_sub_comm, abs_sub_comm (k : ℚ)]
  exact sq_le_sq.1 this

/-- No double is nearer. -/
theorem fl_nearest (x : ℚ) {z : ℚ} (hz : IsDouble z) : |fl x - x| ≤ |z - x| := by
  by_cases hx : x = 0
  · subst hx; simp
  obtain ⟨m, e', hm, rfl⟩ := hz
  obtain ⟨e, h1, h2⟩ := fl_exp hx
  rw [fl_eq h1 h2]
  have hp : (0 : ℚ) < 2 ^ e := by positivity
  set y := x / 2 ^ e with hy
  have hx' : x = y * 2 ^ e := by rw [hy]; field_simp
  have key : ∀ k : ℤ, |(roundHalfEven y : ℚ) * 2 ^ e - x| ≤ |(k : ℚ) * 2 ^ e - x| := by
    intro k
    have := round_nearest y k
    rw [hx', ← sub_mul, ← sub_mul, abs_mul, abs_mul]
    gcongr
  rcases le_or_gt e e' with h | h
  · obtain ⟨t, ht⟩ := Int.le.dest h
    have := key (m * 2 ^ t)
    rwa [show ((m * 2 ^ t : ℤ) : ℚ) * 2 ^ e = m * 2 ^ e' by
      rw [← ht, zpow_add₀ (by norm_num)]; push_cast; rw [zpow_natCast]; ring] at this
  · have hmq : |(m : ℚ)| ≤ 2 ^ 53 := by exact_mod_cast hm
    have h5 : (2 : ℚ) ^ (52 : ℤ) = 2 ^ 52 := by norm_cast
    have hz : |(m : ℚ) * 2 ^ e'| ≤ 2 ^ 52 * 2 ^ e := by
      have hp' : (0 : ℚ) < 2 ^ e' := by positivity
      have h6 : (2 : ℚ) ^ (e' + 1) ≤ 2 ^ e := zpow_le_zpow_right₀ (by norm_num) (by omega)
      rw [zpow_add₀ (by norm_num), zpow_one] at h6
      rw [abs_mul, abs_of_pos hp']
      calc |(m : ℚ)| * 2 ^ e' ≤ 2 ^ 53 * 2 ^ e' := by gcongr
        _ = 2 ^ 52 * (2 ^ e' * 2) := by ring
        _ ≤ 2 ^ 52 * 2 ^ e := by gcongr
    rw [zpow_add₀ (by norm_num), h5] at h1
    have tri : |x| - |(m : ℚ) * 2 ^ e'| ≤ |(m : ℚ) * 2 ^ e' - x| := by
      rw [abs_sub_comm]; exact abs_sub_abs_le_abs_sub _ _
    rcases le_or_gt 0 x with h0 | h0
    · refine (key (2 ^ 52)).trans ?_
      rw [abs_of_nonneg h0] at h1 tri
      have c : ((2 ^ 52 : ℤ) : ℚ) = 2 ^ 52 := by norm_num
      rw [c, abs_sub_comm, abs_of_nonneg (by linarith)]
      linarith
    · refine (key (-2 ^ 52)).trans ?_
      rw [abs_of_neg h0] at h1 tri
      have c : ((-2 ^ 52 : ℤ) : ℚ) = -2 ^ 52 := by norm_num
      rw [c, abs_of_nonneg (by linarith)]
      linarith

@[simp] theorem fl_fl (x : ℚ) : fl (fl x) = fl x := by
  obtain ⟨m, e, h1, h2⟩ := fl_digits x
  rw [h2]; exact fl_repr h1 e

theorem fl_neg (x : ℚ) : fl (-x) = - fl x := by
  by_cases hx : x = 0
  · subst hx; simp
  obtain ⟨e, h1, h2⟩ := fl_exp hx
  rw [fl_eq (x := -x) (e := e) (by rwa [abs_neg]) (by rwa [abs_neg]), fl_eq h1 h2, neg_div, roundHalfEven_neg]
  push_cast; ring

/-- Scaling by a power of two changes nothing but the exponent. -/
theorem fl_scale (x : ℚ) (k : ℤ) : fl (x * 2 ^ k) = fl x * 2 ^ k := by
  by_cases hx : x = 0
  · subst hx; simp
  obtain ⟨e, h1, h2⟩ := fl_exp hx
  have hp : (0 : ℚ) < 2 ^ k := by positivity
  rw [fl_eq (x := x * 2 ^ k) (e := e + k), fl_eq h1 h2]
  · have : x * 2 ^ k / 2 ^ (e + k) = x / 2 ^ e := by rw [zpow_add₀ (by norm_num)]; field_simp
    rw [this, zpow_add₀ (by norm_num)]; ring
  · rw [abs_mul, abs_of_pos hp, show e + k + 52 = e + 52 + k by ring, zpow_add₀ (by norm_num) (e + 52) k]
    gcongr
  · rw [abs_mul, abs_of_pos hp, show e + k + 53 = e + 53 + k by ring, zpow_add₀ (by norm_num) (e + 53) k]
    gcongr

end Pyl
