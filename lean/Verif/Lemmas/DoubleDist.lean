import Verif.Lemmas.DoubleGrid
import Mathlib.Analysis.InnerProductSpace.PiL2
/-
Distances on square grids in double precision.
-/
set_option autoImplicit false
set_option linter.unusedSectionVars false

namespace Pyl
open Pyl.Lattice Structure
variable {d : ℕ}

/-! ### one axis -/

/-- The distance along one axis, as `pbc_diff_cart` computes it. -/
def axisDiff (N a b : ℤ) : ℚ :=
  fl (fl (fl (axisFrac N a - axisFrac N b) - (roundHalfEven (fl (axisFrac N a - axisFrac N b)) : ℤ)) * N)

theorem axisFrac_rel {N x : ℤ} (hN : 0 < N) : |axisFrac N x * N - x| ≤ 3 * |(x : ℚ)| / 2 ^ 53 := by
  have hN' : (0 : ℚ) < N := by exact_mod_cast hN
  have h1 := fl_err (1 / (N : ℚ))
  have h2 := fl_err ((x : ℚ) * fl (1 / N))
  rw [axisFrac]
  set r := fl (1 / (N : ℚ)) with hr
  set f := fl ((x : ℚ) * r) with hf
  have a1 : |r * N - 1| ≤ 1 / 2 ^ 53 := by
    have : r * N - 1 = (r - 1 / N) * N := by field_simp
    rw [this, abs_mul, abs_of_pos hN']
    rw [abs_of_pos (by positivity : (0 : ℚ) < 1 / N)] at h1
    calc |r - 1 / N| * N ≤ (1 / N / 2 ^ 53) * N := by gcongr
      _ = 1 / 2 ^ 53 := by field_simp
  have a3 : |r * N| ≤ 2 := by
    have := abs_le.1 a1
    rw [abs_le]; constructor <;> linarith [this.1, this.2]
  have a2 : |f * N - x * (r * N)| ≤ |(x : ℚ)| * 2 / 2 ^ 53 := by
    have : f * N - x * (r * N) = (f - x * r) * N := by ring
    rw [this, abs_mul, abs_of_pos hN']
    calc |f - x * r| * N ≤ |(x : ℚ) * r| / 2 ^ 53 * N := by gcongr
      _ = |(x : ℚ)| * |r * N| / 2 ^ 53 := by rw [abs_mul, abs_mul, abs_of_pos hN']; ring
      _ ≤ _ := by gcongr
  have a5 : |(x : ℚ) * (r * N) - x| ≤ |(x : ℚ)| * (1 / 2 ^ 53) := by
    have : (x : ℚ) * (r * N) - x = x * (r * N - 1) := by ring
    rw [this, abs_mul]; gcongr
  have b2 := abs_le.1 a2
  have b5 := abs_le.1 a5
  rw [abs_le]; constructor <;> linarith [b2.1, b2.2, b5.1, b5.2]

theorem axisFrac_bound {N x : ℤ} (hN : 0 < N) (hx : |x| ≤ 2 ^ 32) : |axisFrac N x| ≤ 2 ^ 33 := by
  have hN' : (1 : ℚ) ≤ N := by exact_mod_cast hN
  have e0 := abs_le.1 (axisFrac_err hN hx)
  have e1 : |(x : ℚ)| ≤ 2 ^ 32 := by exact_mod_cast hx
  have e2 := abs_le.1 e1
  set f := axisFrac N x
  rw [abs_le]
  constructor
  · by_contra hc
    rw [not_le] at hc
    have : f * N < -2 ^ 33 * 1 := by nlinarith
    linarith [e0.1, e2.1]
  · by_contra hc
    rw [not_le] at hc
    have : (2 : ℚ) ^ 33 * 1 < f * N := by nlinarith
    linarith [e0.2, e2.2]

theorem fl_round {D : ℚ} (hD : |D| ≤ 2 ^ 34) : fl (roundHalfEven (fl D) : ℤ) = (roundHalfEven (fl D) : ℤ) := by
  refine fl_int ?_
  have h1 := abs_le.1 ((fl_err D).trans (by gcongr : |D| / 2 ^ 53 ≤ 2 ^ 34 / 2 ^ 53))
  have h2 := abs_le.1 hD
  have h3 := abs_le.1 (abs_sub_roundHalfEven (fl D))
  have h4 : |((roundHalfEven (fl D) : ℤ) : ℚ)| ≤ 2 ^ 53 := by
    rw [abs_le]; constructor <;> linarith [h1.1, h1.2, h2.1, h2.2, h3.1, h3.2]
  exact_mod_cast h4

theorem circ_eq_abs {N x c : ℤ} (hN : 0 < N) (hc : 2 * |c| ≤ N) (hd : N ∣ x - c) : circ N x = |c| := by
  obtain ⟨q, hq⟩ := hd
  have e : x % N = c % N := by
    rw [show x = c + N * q by linarith, Int.add_mul_emod_self_left]
  unfold circ
  rw [e]
  rcases le_or_gt 0 c with h | h
  · rw [abs_of_nonneg h] at hc ⊢
    rw [Int.emod_eq_of_lt h (by omega)]
    omega
  · rw [abs_of_neg h] at hc ⊢
    have : c % N = c + N := by
      rw [← Int.add_emod_right]
      exact Int.emod_eq_of_lt (by omega) (by omega)
    rw [this]; omega

/-- One axis: the computed difference has the circular distance as its size, up to rounding errors. -/
theorem axisDiff_err {N a b : ℤ} (hN : 0 < N) (hN2 : N ≤ 2 ^ 40) (ha : 0 ≤ a ∧ a < N) (hb : 0 ≤ b ∧ b < N) :
    |(|axisDiff N a b| - circ N (a - b))| ≤ 10 * N / 2 ^ 53 := by
  have hN' : (1 : ℚ) ≤ N := by exact_mod_cast hN
  have hN0 : (0 : ℚ) < N := by linarith
  have hN2' : (N : ℚ) ≤ 2 ^ 40 := by exact_mod_cast hN2
  have frac : ∀ x : ℤ, 0 ≤ x ∧ x < N → |axisFrac N x - x / N| ≤ 3 / 2 ^ 53 := by
    intro x hx
    have h0 : (0 : ℚ) ≤ x := by exact_mod_cast hx.1
    have h1 : (x : ℚ) ≤ N := by exact_mod_cast hx.2.le
    have h := axisFrac_rel (x := x) hN
    rw [abs_of_nonneg h0] at h
    have e : axisFrac N x - x / N = (axisFrac N x * N - x) / N := by field_simp
    rw [e, abs_div, abs_of_pos hN0, div_le_iff₀ hN0]
    calc |axisFrac N x * N - x| ≤ 3 * x / 2 ^ 53 := h
      _ ≤ 3 * N / 2 ^ 53 := by gcongr
      _ = 3 / 2 ^ 53 * N := by ring
  have fa := abs_le.1 (frac a ha)
  have fb := abs_le.1 (frac b hb)
  have hda : (0 : ℚ) ≤ a / N ∧ (a : ℚ) / N ≤ 1 := by
    have h0 : (0 : ℚ) ≤ a := by exact_mod_cast ha.1
    have h1 : (a : ℚ) ≤ N := by exact_mod_cast ha.2.le
    exact ⟨by positivity, (div_le_one hN0).2 h1⟩
  have hdb : (0 : ℚ) ≤ b / N ∧ (b : ℚ) / N ≤ 1 := by
    have h0 : (0 : ℚ) ≤ b := by exact_mod_cast hb.1
    have h1 : (b : ℚ) ≤ N := by exact_mod_cast hb.2.le
    exact ⟨by positivity, (div_le_one hN0).2 h1⟩
  unfold axisDiff
  set D : ℚ := axisFrac N a - axisFrac N b with hD
  have hDabs : |D| ≤ 2 := by
    rw [abs_le, hD]; constructor <;> linarith [fa.1, fa.2, fb.1, fb.2, hda.1, hda.2, hdb.1, hdb.2]
  have e1 := abs_le.1 ((fl_err D).trans (by gcongr : |D| / 2 ^ 53 ≤ 2 / 2 ^ 53))
  set F := fl D with hF
  have hFe : |F - (a / N - b / N)| ≤ 8 / 2 ^ 53 := by
    rw [abs_le]; constructor <;> linarith [fa.1, fa.2, fb.1, fb.2, e1.1, e1.2]
  have hFe' := abs_le.1 hFe
  have hr := abs_sub_roundHalfEven F
  rw [abs_mul, abs_of_pos (by norm_num : (0 : ℚ) < 2)] at hr
  set r : ℤ := roundHalfEven F with hrdef
  have e2 := abs_le.1 ((fl_err (F - r)).trans (by gcongr; linarith : |F - r| / 2 ^ 53 ≤ 1 / 2 ^ 53))
  set G := fl (F - r) with hG
  have hr' := abs_le.1 (by linarith : |F - r| ≤ 1 / 2)
  have hGabs : |G * N| ≤ N := by
    rw [abs_mul, abs_of_pos hN0]
    have : |G| ≤ 1 := by rw [abs_le]; constructor <;> linarith [e2.1, e2.2, hr'.1, hr'.2]
    nlinarith
  have e3 := abs_le.1 ((fl_err (G * N)).trans (by gcongr : |G * N| / 2 ^ 53 ≤ N / 2 ^ 53))
  set V := fl (G * N) with hV
  -- the integer that is meant
  have hc : ((a - b - r * N : ℤ) : ℚ) = (a / N - b / N - r) * N := by push_cast; field_simp
  have hcirc : circ N (a - b) = |a - b - r * N| := by
    refine circ_eq_abs hN ?_ ⟨r, by ring⟩
    have h1 : (2 * |a - b - r * N| : ℤ) < N + 1 := by
      have : (2 : ℚ) * |((a - b - r * N : ℤ) : ℚ)| < N + 1 := by
        rw [hc, abs_mul, abs_of_pos hN0]
        have h2 : |(a : ℚ) / N - b / N - r| ≤ 1 / 2 + 8 / 2 ^ 53 := by
          rw [abs_le]; constructor <;> linarith [hFe'.1, hFe'.2, hr'.1, hr'.2]
        calc 2 * (|(a : ℚ) / N - b / N - r| * N) ≤ 2 * ((1 / 2 + 8 / 2 ^ 53) * N) := by gcongr
          _ = N + 16 / 2 ^ 53 * N := by ring
          _ ≤ N + 16 / 2 ^ 53 * 2 ^ 40 := by gcongr
          _ < N + 1 := by norm_num
      exact_mod_cast this
    omega
  rw [hcirc]
  push_cast
  refine (abs_abs_sub_abs_le _ _).trans ?_
  have hc' : (a : ℚ) - b - r * N = (a / N - b / N - r) * N := by rw [← hc]; push_cast; ring
  rw [hc']
  have h4 : |G * N - (a / N - b / N - r) * N| ≤ 9 / 2 ^ 53 * N := by
    rw [← sub_mul, abs_mul, abs_of_pos hN0]
    have : |G - (a / N - b / N - r)| ≤ 9 / 2 ^ 53 := by
      rw [abs_le]; constructor <;> linarith [e2.1, e2.2, hFe'.1, hFe'.2]
    gcongr
  have h4' := abs_le.1 h4
  rw [abs_le]; constructor <;> linarith [h4'.1, h4'.2, e3.1, e3.2]

/-! ### square roots -/

/-- The digits of the rounded square root. -/
theorem flSqrt_parts {q : ℚ} (h0 : 0 < q) : ∃ (k : ℕ) (e : ℤ) (w : ℝ), flSqrt q = (k : ℚ) * 2 ^ e ∧ Real.sqrt q = w * 2 ^ e ∧ 2 ^ 52 ≤ w ∧ w < 2 ^ 53 ∧
    |(k : ℝ) - w| ≤ 1 / 2 := by
  rw [flSqrt, if_neg (not_le.2 h0)]
  simp only
  set e : ℤ := Int.log 2 q / 2 - 52 with he
  have hlog := Int.zpow_log_le_self (R := ℚ) (b := 2) (by norm_num) h0
  set t : ℚ := q / 4 ^ e with ht
  have h4 : (0 : ℚ) < 4 ^ e := by positivity
  have ht0 : 0 ≤ t := by positivity
  have h42 : (4 : ℚ) ^ e = 2 ^ (2 * e) := by rw [zpow_mul]; norm_num
  have htlo : (2 : ℚ) ^ (104 : ℤ) ≤ t := by
    rw [ht, le_div_iff₀ h4, h42, ← zpow_add₀ (by norm_num)]
    refine le_trans (zpow_le_zpow_right₀ (by norm_num) ?_) hlog
    omega
  have hthi : t < (2 : ℚ) ^ (106 : ℤ) := by
    rw [ht, div_lt_iff₀ h4, h42, ← zpow_add₀ (by norm_num)]
    refine lt_of_lt_of_le (Int.lt_zpow_succ_log_self (R := ℚ) (b := 2) (by norm_num) q) (zpow_le_zpow_right₀ (by norm_num) ?_)
    omega
  obtain ⟨k, hk, hlo, hhi⟩ := roundSqrt_bounds 1 ht0
  simp only [Nat.cast_one, mul_one, div_one] at hk hlo hhi
  rw [hk]
  have hsq : Real.sqrt q = Real.sqrt t * 2 ^ e := by
    have e1 : (q : ℝ) = (t : ℝ) * (2 ^ e) ^ 2 := by
      have : q = t * (2 ^ e) ^ 2 := by
        rw [ht, ← zpow_natCast, ← zpow_mul, mul_comm e]
        rw [show ((2 : ℕ) : ℤ) * e = 2 * e by norm_num, ← h42, div_mul_cancel₀ _ h4.ne']
      have h' := congrArg (Rat.cast : ℚ → ℝ) this
      push_cast at h'
      exact h'
    rw [e1, Real.sqrt_mul (by exact_mod_cast ht0), Real.sqrt_sq (by positivity)]
  have hst : Real.sqrt t ^ 2 = t := Real.sq_sqrt (by exact_mod_cast ht0)
  set w := Real.sqrt (t : ℝ) with hw
  have hw0 : 0 ≤ w := Real.sqrt_nonneg _
  have hwlo : (2 : ℝ) ^ 52 ≤ w := by
    rw [hw]
    refine Real.le_sqrt_of_sq_le ?_
    have : ((2 : ℚ) ^ (104 : ℤ) : ℚ) ≤ t := htlo
    have h' : (((2 : ℚ) ^ (104 : ℤ) : ℚ) : ℝ) ≤ (t : ℝ) := by exact_mod_cast this
    calc ((2 : ℝ) ^ 52) ^ 2 = (((2 : ℚ) ^ (104 : ℤ) : ℚ) : ℝ) := by norm_num
      _ ≤ t := h'
  have hwhi : w < 2 ^ 53 := by
    rw [hw, Real.sqrt_lt' (by positivity)]
    have h' : (t : ℝ) < (((2 : ℚ) ^ (106 : ℤ) : ℚ) : ℝ) := by exact_mod_cast hthi
    calc (t : ℝ) < (((2 : ℚ) ^ (106 : ℤ) : ℚ) : ℝ) := h'
      _ = ((2 : ℝ) ^ 53) ^ 2 := by norm_num
  have hkw : |(k : ℝ) - w| ≤ 1 / 2 := by
    have hhi' : 4 * (t : ℝ) ≤ (2 * (k : ℝ) + 1) ^ 2 := by exact_mod_cast hhi
    rw [← hst] at hhi'
    have u1 : 2 * w ≤ 2 * k + 1 := by
      refine (sq_le_sq₀ (by positivity) (by positivity)).1 ?_
      linarith [hhi', (by ring : (2 * w) ^ 2 = 4 * w ^ 2)]
    have u2 : 2 * (k : ℝ) - 1 ≤ 2 * w := by
      rcases hlo with hlo | hlo
      · have : 2 * (k : ℝ) - 1 ≤ 0 := by exact_mod_cast hlo
        linarith
      · have hlo' : (2 * (k : ℝ) - 1) ^ 2 ≤ 4 * (t : ℝ) := by exact_mod_cast hlo
        rw [← hst] at hlo'
        exact abs_le_of_sq_le_sq' (by linarith [(by ring : (2 * w) ^ 2 = 4 * w ^ 2)]) (by positivity) |>.2
    rw [abs_le]; constructor <;> linarith
  exact ⟨k, e, w, rfl, hsq, hwlo, hwhi, hkw⟩

/-- The rounded square root is the square root up to one part in `2 ^ 53`. -/
theorem flSqrt_err {q : ℚ} (hq : 0 ≤ q) : |((flSqrt q : ℚ) : ℝ) - Real.sqrt q| ≤ Real.sqrt q / 2 ^ 53 := by
  rcases hq.eq_or_lt with h0 | h0
  · subst h0; simp [flSqrt]
  obtain ⟨k, e, w, hk, hsq, hwlo, -, hkw⟩ := flSqrt_parts h0
  rw [hk, hsq]
  push_cast
  have h2e : (0 : ℝ) < 2 ^ e := by positivity
  rw [← sub_mul, abs_mul, abs_of_pos h2e, mul_div_right_comm]
  refine mul_le_mul_of_nonneg_right (hkw.trans ?_) h2e.le
  rw [le_div_iff₀ (by positivity)]
  linarith

/-- The rounded square root is a double. -/
theorem isDouble_flSqrt (q : ℚ) : IsDouble (flSqrt q) := by
  by_cases h0 : 0 < q
  · obtain ⟨k, e, w, hk, -, -, hwhi, hkw⟩ := flSqrt_parts h0
    refine ⟨k, e, ?_, by rw [hk]; simp⟩
    have h1 := (abs_le.1 hkw).2
    have h2 : (k : ℝ) < 2 ^ 53 + 1 := by linarith
    have h3 : k < 2 ^ 53 + 1 := by exact_mod_cast h2
    rw [abs_of_nonneg (by positivity)]
    omega
  · rw [flSqrt, if_pos (not_lt.1 h0)]
    exact ⟨0, 0, by norm_num, by simp⟩

/-- No double is nearer to the square root. -/
theorem flSqrt_nearest {q : ℚ} (hq : 0 ≤ q) {z : ℚ} (hz : IsDouble z) :
    |((flSqrt q : ℚ) : ℝ) - Real.sqrt q| ≤ |(z : ℝ) - Real.sqrt q| := by
  rcases hq.eq_or_lt with h0 | h0
  · subst h0; simp [flSqrt]
  obtain ⟨k, e, w, hk, hsq, hwlo, -, hkw⟩ := flSqrt_parts h0
  obtain ⟨m, e', hm, rfl⟩ := hz
  rw [hk, hsq]
  push_cast
  have hp : (0 : ℝ) < 2 ^ e := by positivity
  have key : ∀ z : ℤ, |(k : ℝ) * 2 ^ e - w * 2 ^ e| ≤ |(z : ℝ) * 2 ^ e - w * 2 ^ e| := by
    intro z
    rw [← sub_mul, ← sub_mul, abs_mul, abs_mul]
    refine mul_le_mul_of_nonneg_right ?_ (abs_nonneg _)
    by_cases hz : z = k
    · subst hz; simp
    · refine hkw.trans ?_
      have h1 : (1 : ℝ) ≤ |(z : ℝ) - k| := by
        have : 1 ≤ |z - (k : ℤ)| := Int.one_le_abs (by omega)
        exact_mod_cast this
      have h2 := abs_sub_le (z : ℝ) w k
      rw [abs_sub_comm w] at h2
      linarith
  rcases le_or_gt e e' with h | h
  · obtain ⟨t, ht⟩ := Int.le.dest h
    have := key (m * 2 ^ t)
    rwa [show ((m * 2 ^ t : ℤ) : ℝ) * 2 ^ e = m * 2 ^ e' by
      rw [← ht, zpow_add₀ (by norm_num)]; push_cast; rw [zpow_natCast]; ring] at this
  · have hmq : (m : ℝ) ≤ 2 ^ 53 := by exact_mod_cast (abs_le.1 hm).2
    have hz : (m : ℝ) * 2 ^ e' ≤ 2 ^ 52 * 2 ^ e := by
      have hp' : (0 : ℝ) < 2 ^ e' := by positivity
      have h6 : (2 : ℝ) ^ (e' + 1) ≤ 2 ^ e := zpow_le_zpow_right₀ (by norm_num) (by omega)
      rw [zpow_add₀ (by norm_num), zpow_one] at h6
      calc (m : ℝ) * 2 ^ e' ≤ 2 ^ 53 * 2 ^ e' := by gcongr
        _ = 2 ^ 52 * (2 ^ e' * 2) := by ring
        _ ≤ 2 ^ 52 * 2 ^ e := by gcongr
    refine (key (2 ^ 52)).trans ?_
    have c : ((2 ^ 52 : ℤ) : ℝ) = 2 ^ 52 := by norm_num
    have hw2 : (2 : ℝ) ^ 52 * 2 ^ e ≤ w * 2 ^ e := by gcongr
    rw [c, abs_sub_comm, abs_of_nonneg (by linarith), abs_sub_comm, abs_of_nonneg (by linarith)]
    linarith

/-- Norms of vectors whose entries have almost the same sizes. -/
theorem sqrt_sum_near (v : Fin d → ℝ) (c : Fin d → ℝ) (δ : ℝ) (hδ : 0 ≤ δ) (hd : d ≤ 4) (h : ∀ j, |(|v j| - c j)| ≤ δ) :
    |Real.sqrt (∑ j, v j ^ 2) - Real.sqrt (∑ j, c j ^ 2)| ≤ 2 * δ := by
  have h1 := abs_norm_sub_norm_le (WithLp.toLp 2 fun j => |v j| : EuclideanSpace ℝ (Fin d)) (WithLp.toLp 2 c)
  rw [EuclideanSpace.norm_eq, EuclideanSpace.norm_eq, EuclideanSpace.norm_eq] at h1
  simp only [Real.norm_eq_abs, abs_abs, sq_abs, WithLp.ofLp_sub, Pi.sub_apply] at h1
  refine h1.trans ?_
  rw [Real.sqrt_le_left (by positivity)]
  calc ∑ j, (|v j| - c j) ^ 2 ≤ ∑ _j : Fin d, δ ^ 2 := Finset.sum_le_sum fun j _ => by
        rw [← sq_abs]; exact pow_le_pow_left₀ (abs_nonneg _) (h j) 2
    _ = d * δ ^ 2 := by simp
    _ ≤ 4 * δ ^ 2 := by gcongr; exact_mod_cast hd
    _ = (2 * δ) ^ 2 := by ring

/-- A number close to 1000 times the root of an integer is rounded to the nearest integer of the exact value, which is never half-way. -/
theorem round_near_sqrt {C : ℕ} {y : ℚ} (h : |(y : ℝ) - 1000 * Real.sqrt C| * (8000 * Real.sqrt C + 4) < 1) :
    |((roundHalfEven y : ℤ) : ℝ) - 1000 * Real.sqrt C| < 1 / 2 := by
  have hs0 : 0 ≤ Real.sqrt C := Real.sqrt_nonneg _
  have hs2 : Real.sqrt C ^ 2 = C := Real.sq_sqrt (Nat.cast_nonneg C)
  set w := Real.sqrt (C : ℝ) with hw
  set K := roundHalfEven y with hK
  have hy : |(y : ℝ) - K| ≤ 1 / 2 := by
    have := abs_sub_roundHalfEven y
    rw [abs_mul, abs_of_pos (by norm_num : (0 : ℚ) < 2)] at this
    have h2 : |y - K| ≤ 1 / 2 := by linarith
    have h3 : ((|y - K| : ℚ) : ℝ) ≤ ((1 / 2 : ℚ) : ℝ) := by exact_mod_cast h2
    push_cast at h3
    exact h3
  have hy' := abs_le.1 hy
  set η := |(y : ℝ) - 1000 * w| with hη
  have hη0 : 0 ≤ η := abs_nonneg _
  have hyw := abs_le.1 (le_refl η)
  have hyw' := abs_le.1 hη.symm.le
  by_contra hcon
  rw [not_lt] at hcon
  -- half-way points are not that close
  have far : ∀ m : ℤ, |1000 * w - (m + 1 / 2)| ≤ η → False := by
    intro m hm
    have hodd : (1 : ℝ) ≤ |4 * (1000 * w) ^ 2 - (2 * m + 1) ^ 2| := by
      have e : (4 * (1000 * w) ^ 2 - (2 * (m : ℝ) + 1) ^ 2) = ((4000000 * (C : ℤ) - (2 * m + 1) ^ 2 : ℤ) : ℝ) := by
        push_cast; rw [mul_pow, hs2]; ring
      rw [e, ← Int.cast_abs]
      have hne : (4000000 * (C : ℤ) - (2 * m + 1) ^ 2 : ℤ) ≠ 0 := by
        intro h0
        have : (4000000 * (C : ℤ) - (2 * m + 1) ^ 2) = 2 * (2000000 * C - 2 * m ^ 2 - 2 * m) - 1 := by ring
        omega
      exact_mod_cast Int.one_le_abs hne
    have hfac : |4 * (1000 * w) ^ 2 - (2 * (m : ℝ) + 1) ^ 2| = 4 * |1000 * w - (m + 1 / 2)| * |1000 * w + (m + 1 / 2)| := by
      have : 4 * (1000 * w) ^ 2 - (2 * (m : ℝ) + 1) ^ 2 = 4 * (1000 * w - (m + 1 / 2)) * (1000 * w + (m + 1 / 2)) := by ring
      rw [this, abs_mul, abs_mul, abs_of_pos (by norm_num : (0 : ℝ) < 4)]
    have hη1 : η ≤ 1 := by nlinarith
    have hm' := abs_le.1 hm
    have hsum : |1000 * w + (m + 1 / 2)| ≤ 2000 * w + 1 := by
      rw [abs_le]; constructor <;> linarith [hm'.1, hm'.2]
    rw [hfac] at hodd
    have : 4 * |1000 * w - (m + 1 / 2)| * |1000 * w + (m + 1 / 2)| ≤ 4 * η * (2000 * w + 1) := by gcongr
    have : 4 * η * (2000 * w + 1) = η * (8000 * w + 4) := by ring
    linarith
  rcases le_total (K : ℝ) (1000 * w) with hle | hle
  · refine far K ?_
    rw [abs_sub_comm, abs_of_nonneg (by linarith)] at hcon
    rw [abs_le]; constructor <;> linarith [hyw'.1, hyw'.2]
  · refine far (K - 1) ?_
    rw [abs_of_nonneg (by linarith)] at hcon
    push_cast
    rw [abs_le]; constructor <;> linarith [hyw'.1, hyw'.2]

/-! ### the distance -/

namespace Dbl

theorem toCart_diff_grid {L : Lattice ℚ d} {σ : Fin d → Fin d} (h : IsGrid L σ) {n : Fin d → ℤ} (hn : ∀ i, 0 < n i ∧ n i ≤ 2 ^ 30)
    {a b : Fin d → ℤ} (ha : ∀ j, |a j| ≤ 2 ^ 32) (hb : ∀ j, |b j| ≤ 2 ^ 32) (j : Fin d) :
    toCart (L.scaled n) (pbcDiffFrac (L.scaled n).periodic (toFrac (L.scaled n) (intPoint a)) (toFrac (L.scaled n) (intPoint b))) j =
      axisDiff (n (σ j)) (a j) (b j) := by
  have e : ∀ i, pbcDiffFrac (L.scaled n).periodic (toFrac (L.scaled n) (intPoint a)) (toFrac (L.scaled n) (intPoint b)) i =
      fl (fl (axisFrac (n i) (a (σ i)) - axisFrac (n i) (b (σ i))) -
        (roundHalfEven (fl (axisFrac (n i) (a (σ i)) - axisFrac (n i) (b (σ i)))) : ℤ)) := by
    intro i
    have hp : (L.scaled n).periodic i = true := h.per i
    rw [pbcDiffFrac, toFrac_grid h hn, toFrac_grid h hn, hp]
    simp only [if_true, mul_one]
    rw [fl_round]
    have h1 := abs_le.1 (axisFrac_bound (hn i).1 (ha (σ i)))
    have h2 := abs_le.1 (axisFrac_bound (hn i).1 (hb (σ i)))
    rw [abs_le]; constructor <;> linarith [h1.1, h1.2, h2.1, h2.2]
  rw [toCart, dot_single (σ j)]
  · simp only [e, h.inv j, mat_scaled h hn, if_true, axisDiff]
  · intro i hi
    rw [mat_scaled h hn, if_neg, mul_zero]
    rintro rfl
    exact hi (h.inv i).symm

/-- The distance of two locations of a square grid is, in double precision, the double nearest to the torus distance in thousandths. -/
theorem dist_grid {L : Lattice ℚ d} {σ : Fin d → Fin d} (h : IsGrid L σ) {n : Fin d → ℤ} (hn : ∀ i, 0 < n i ∧ n i ≤ 2 ^ 12) (hd : d ≤ 3)
    {sq : (Fin d → ℚ) → ℚ} (hsq : SumOfSquares sq) {a b : Fin d → ℤ} (ha : InBox (fun j => n (σ j)) a) (hb : InBox (fun j => n (σ j)) b) :
    ∃ k : ℤ, dist sq (L.scaled n) (intPoint a) (intPoint b) = fl (k / 1000) ∧
      |(k : ℝ) - 1000 * torusEuclid (fun j => n (σ j)) a b| < 1 / 2 := by
  have hn' : ∀ i, 0 < n i ∧ n i ≤ 2 ^ 30 := fun i => ⟨(hn i).1, (hn i).2.trans (by norm_num)⟩
  have big : ∀ c : Fin d → ℤ, InBox (fun j => n (σ j)) c → ∀ j, |c j| ≤ 2 ^ 32 := by
    intro c hc j
    have h1 := hc j; have h2 := hn (σ j)
    simp only at h1
    rw [abs_le]; constructor <;> linarith
  set v : Fin d → ℚ := toCart (L.scaled n)
    (pbcDiffFrac (L.scaled n).periodic (toFrac (L.scaled n) (intPoint a)) (toFrac (L.scaled n) (intPoint b))) with hv
  have hvj : ∀ j, v j = axisDiff (n (σ j)) (a j) (b j) := toCart_diff_grid h hn' (big a ha) (big b hb)
  set C : ℕ := (∑ j, circ (n (σ j)) (a j - b j) ^ 2).toNat with hC
  have hcast : ((C : ℕ) : ℝ) = ∑ j, (circ (n (σ j)) (a j - b j) : ℝ) ^ 2 := by
    have : ((C : ℕ) : ℤ) = ∑ j, circ (n (σ j)) (a j - b j) ^ 2 := Int.toNat_of_nonneg (Finset.sum_nonneg fun j _ => sq_nonneg _)
    exact_mod_cast congrArg (Int.cast : ℤ → ℝ) this
  have hE : torusEuclid (fun j => n (σ j)) a b = Real.sqrt C := by rw [torusEuclid, hcast]
  -- the entries
  set δ : ℝ := 10 * 2 ^ 12 / 2 ^ 53 with hδ
  have hnear : ∀ j, |(|((v j : ℚ) : ℝ)| - (circ (n (σ j)) (a j - b j) : ℝ))| ≤ δ := by
    intro j
    have h1 := axisDiff_err (hn (σ j)).1 ((hn (σ j)).2.trans (by norm_num)) (ha j) (hb j)
    rw [← hvj] at h1
    have h2 : ((n (σ j) : ℤ) : ℚ) ≤ 2 ^ 12 := by exact_mod_cast (hn (σ j)).2
    have h3 : |(|v j| - circ (n (σ j)) (a j - b j))| ≤ 10 * 2 ^ 12 / 2 ^ 53 := h1.trans (by gcongr)
    have h4 : ((|(|v j| - (circ (n (σ j)) (a j - b j) : ℚ))| : ℚ) : ℝ) ≤ ((10 * 2 ^ 12 / 2 ^ 53 : ℚ) : ℝ) := by exact_mod_cast h3
    push_cast at h4
    rw [hδ]; exact h4
  have hcle : ∀ j, (circ (n (σ j)) (a j - b j) : ℝ) ^ 2 ≤ 2 ^ 22 := by
    intro j
    have h0 : 0 ≤ circ (n (σ j)) (a j - b j) := by
      have h5 := Int.emod_nonneg (a j - b j) (hn (σ j)).1.ne'
      have h6 := Int.emod_lt_of_pos (a j - b j) (hn (σ j)).1
      unfold circ; omega
    have h1 : circ (n (σ j)) (a j - b j) ≤ 2 ^ 11 := by
      have := (hn (σ j)).2
      unfold circ; omega
    have h0' : (0 : ℝ) ≤ circ (n (σ j)) (a j - b j) := by exact_mod_cast h0
    have h1' : (circ (n (σ j)) (a j - b j) : ℝ) ≤ 2 ^ 11 := by exact_mod_cast h1
    calc (circ (n (σ j)) (a j - b j) : ℝ) ^ 2 ≤ (2 ^ 11) ^ 2 := by gcongr
      _ = 2 ^ 22 := by norm_num
  have hCle : Real.sqrt C ≤ 3548 := by
    rw [Real.sqrt_le_left (by norm_num), hcast]
    calc ∑ j, (circ (n (σ j)) (a j - b j) : ℝ) ^ 2 ≤ ∑ _j : Fin d, (2 : ℝ) ^ 22 := Finset.sum_le_sum fun j _ => hcle j
      _ = d * 2 ^ 22 := by simp
      _ ≤ 3 * 2 ^ 22 := by gcongr; exact_mod_cast hd
      _ ≤ 3548 ^ 2 := by norm_num
  have hsum := sqrt_sum_near (fun j => ((v j : ℚ) : ℝ)) (fun j => (circ (n (σ j)) (a j - b j) : ℝ)) δ (by rw [hδ]; positivity) (by omega) hnear
  rw [← hcast] at hsum
  set w := Real.sqrt (C : ℝ) with hw
  have hw0 : 0 ≤ w := Real.sqrt_nonneg _
  set A : ℚ := ∑ j, v j ^ 2 with hA
  have hA0 : 0 ≤ A := Finset.sum_nonneg fun j _ => sq_nonneg _
  have hAc : ((A : ℚ) : ℝ) = ∑ j, ((v j : ℚ) : ℝ) ^ 2 := by rw [hA]; push_cast; rfl
  rw [← hAc] at hsum
  set α := Real.sqrt (A : ℝ) with hα
  have hα0 : 0 ≤ α := Real.sqrt_nonneg _
  have hα2 : α ^ 2 = A := Real.sq_sqrt (by exact_mod_cast hA0)
  -- the sum and the root
  have hs := hsq v
  rw [← hA] at hs
  have hs' := abs_le.1 hs
  have hq0 : 0 ≤ sq v := by
    have : A / 2 ^ 50 ≤ A := div_le_self hA0 (by norm_num)
    linarith [hs'.1]
  have hsR : |((sq v : ℚ) : ℝ) - A| ≤ A / 2 ^ 50 := by
    have h3 : ((|sq v - A| : ℚ) : ℝ) ≤ ((A / 2 ^ 50 : ℚ) : ℝ) := by exact_mod_cast hs
    push_cast at h3
    exact h3
  have hsR' := abs_le.1 hsR
  set β := Real.sqrt ((sq v : ℚ) : ℝ) with hβ
  have hβ0 : 0 ≤ β := Real.sqrt_nonneg _
  have hβ2 : β ^ 2 = ((sq v : ℚ) : ℝ) := Real.sq_sqrt (by exact_mod_cast hq0)
  have hβα : |β - α| ≤ α / 2 ^ 50 := by
    rw [abs_le]
    constructor
    · have : (α * (1 - 1 / 2 ^ 50)) ^ 2 ≤ β ^ 2 := by
        rw [hβ2, mul_pow, hα2]
        have h1 : (A : ℝ) * (1 - 1 / 2 ^ 50) ^ 2 ≤ A * (1 - 1 / 2 ^ 50) := by
          refine mul_le_mul_of_nonneg_left ?_ (by exact_mod_cast hA0)
          norm_num
        linarith [hsR'.1]
      have := (sq_le_sq₀ (mul_nonneg hα0 (by norm_num)) hβ0).1 this
      linarith
    · have : β ^ 2 ≤ (α * (1 + 1 / 2 ^ 50)) ^ 2 := by
        rw [hβ2, mul_pow, hα2]
        have h1 : (A : ℝ) * (1 + 1 / 2 ^ 50) ≤ A * (1 + 1 / 2 ^ 50) ^ 2 := by
          refine mul_le_mul_of_nonneg_left ?_ (by exact_mod_cast hA0)
          norm_num
        linarith [hsR'.2]
      have := (sq_le_sq₀ hβ0 (by positivity)).1 this
      linarith
  have hx := flSqrt_err hq0
  rw [← hβ] at hx
  set x : ℚ := flSqrt (sq v) with hxdef
  have hx' := abs_le.1 hx
  have hβα' := abs_le.1 hβα
  have hsum' := abs_le.1 hsum
  have hδv : δ ≤ 1 / 2 ^ 37 := by rw [hδ]; norm_num
  clear_value δ w α β x A
  have hα1 : α ≤ 3549 := by
    have : (1 : ℝ) / 2 ^ 37 ≤ 1 / 2 := by norm_num
    linarith [hsum'.2]
  have hxα : |(x : ℝ) - α| ≤ 1 / 2 ^ 37 := by
    rw [abs_le]; constructor <;> linarith [hx'.1, hx'.2, hβα'.1, hβα'.2]
  have hxα' := abs_le.1 hxα
  have hy := fl_err (x * 1000)
  have hyR : |((fl (x * 1000) : ℚ) : ℝ) - x * 1000| ≤ |(x : ℝ) * 1000| / 2 ^ 53 := by
    have h3 : ((|fl (x * 1000) - x * 1000| : ℚ) : ℝ) ≤ ((|x * 1000| / 2 ^ 53 : ℚ) : ℝ) := by exact_mod_cast hy
    push_cast at h3
    exact h3
  have hxabs : |(x : ℝ) * 1000| ≤ 2 ^ 22 := by
    have : (1 : ℝ) / 2 ^ 37 ≤ 1 := by norm_num
    rw [abs_le]; constructor <;> linarith [hxα'.1, hxα'.2]
  have hyR' := abs_le.1 (hyR.trans (by gcongr : |(x : ℝ) * 1000| / 2 ^ 53 ≤ 2 ^ 22 / 2 ^ 53))
  refine ⟨roundHalfEven (fl (x * 1000)), ?_, ?_⟩
  · rw [dist, ← hv, ← hxdef, round3]
  · rw [hE]
    have herr : |((fl (x * 1000) : ℚ) : ℝ) - 1000 * w| ≤ 1 / 2 ^ 25 := by
      rw [abs_le]
      constructor <;> linarith [hyR'.1, hyR'.2, hxα'.1, hxα'.2, hsum'.1, hsum'.2]
    have hlt : |((fl (x * 1000) : ℚ) : ℝ) - 1000 * w| * (8000 * w + 4) < 1 := calc
      |((fl (x * 1000) : ℚ) : ℝ) - 1000 * w| * (8000 * w + 4) ≤ 1 / 2 ^ 25 * (8000 * 3548 + 4) := by gcongr
      _ < 1 := by norm_num
    rw [hw] at hlt ⊢
    exact round_near_sqrt hlt

end Dbl

end Pyl
