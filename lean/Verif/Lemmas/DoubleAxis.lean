import Verif.Lemmas.Double
/-
One coordinate of an integer location of a square grid in double precision.
-/
set_option autoImplicit false

namespace Pyl

/-- The fractional coordinate of the integer `x` on an axis with `N` cells. -/
def axisFrac (N x : ℤ) : ℚ := fl (x * fl (1 / N))

/-- The coordinate moved into the cell. -/
def axisIn (N x : ℤ) : ℚ := fl (fl (axisFrac N x - ⌊axisFrac N x⌋) * N)

/-- The cell of `x` is computed correctly. -/
def Wraps (N x : ℤ) : Prop := ⌊axisFrac N x⌋ = x / N

/-- The lookup key of the coordinate `k`. -/
def axisKey (k : ℤ) : ℚ := fl ((1000 * k + 1 : ℤ) / 1000)

section
variable {N x : ℤ}

theorem axisFrac_err (hN : 0 < N) (hx : |x| ≤ 2 ^ 32) : |axisFrac N x * N - x| ≤ 1 / 2 ^ 19 := by
  have hN' : (0 : ℚ) < N := by exact_mod_cast hN
  have hx' : |(x : ℚ)| ≤ 2 ^ 32 := by exact_mod_cast hx
  have h1 := fl_err (1 / (N : ℚ))
  have h2 := fl_err ((x : ℚ) * fl (1 / N))
  rw [axisFrac]
  set r := fl (1 / (N : ℚ)) with hr
  set f := fl ((x : ℚ) * r) with hf
  have a1 : |r * N - 1| ≤ 1 / 2 ^ 53 := by
    have : r * N - 1 = (r - 1 / N) * N := by field_simp
    rw [this, abs_mul, abs_of_pos hN']
    rw [abs_of_pos (by positivity : (0 : ℚ) < 1 / N)] at h1
    calc |r - 1 / N| * N ≤ (1 / N / 2 ^ 53) * N := by gcongr
      _ = 1 / 2 ^ 53 := by field_simp
  have a2 : |f * N - x * (r * N)| ≤ |(x : ℚ)| * |r * N| / 2 ^ 53 := by
    have : f * N - x * (r * N) = (f - x * r) * N := by ring
    rw [this, abs_mul, abs_of_pos hN']
    calc |f - x * r| * N ≤ |(x : ℚ) * r| / 2 ^ 53 * N := by gcongr
      _ = |(x : ℚ)| * |r * N| / 2 ^ 53 := by rw [abs_mul, abs_mul, abs_of_pos hN']; ring
  have a3 : |r * N| ≤ 2 := by
    have := abs_le.1 a1
    rw [abs_le]; constructor <;> linarith [this.1, this.2]
  have a4 : |(x : ℚ)| * |r * N| / 2 ^ 53 ≤ 2 ^ 32 * 2 / 2 ^ 53 := by gcongr
  have a5 : |(x : ℚ) * (r * N) - x| ≤ 2 ^ 32 * (1 / 2 ^ 53) := by
    have : (x : ℚ) * (r * N) - x = x * (r * N - 1) := by ring
    rw [this, abs_mul]; gcongr
  have b2 := abs_le.1 (a2.trans a4)
  have b5 := abs_le.1 a5
  rw [abs_le]; constructor <;> linarith [b2.1, b2.2, b5.1, b5.2]

/-- The coordinate lands where it should, or, at a positive multiple of the size, at the far end of the cell. -/
theorem axisIn_err (hN : 0 < N) (hN2 : N ≤ 2 ^ 30) (hx : |x| ≤ 2 ^ 32) :
    (Wraps N x ∧ |axisIn N x - (x % N : ℤ)| ≤ 1 / 2 ^ 18) ∨ (¬ Wraps N x ∧ N ∣ x ∧ x ≠ 0 ∧ |axisIn N x - N| ≤ 1 / 2 ^ 18) := by
  have hN' : (1 : ℚ) ≤ N := by exact_mod_cast hN
  have hN2' : (N : ℚ) ≤ 2 ^ 30 := by exact_mod_cast hN2
  have e0 := abs_le.1 (axisFrac_err hN hx)
  have hdiv : (x : ℚ) = N * (x / N : ℤ) + (x % N : ℤ) := by exact_mod_cast (Int.mul_ediv_add_emod x N).symm
  have hm0 : (0 : ℚ) ≤ (x % N : ℤ) := by exact_mod_cast Int.emod_nonneg x hN.ne'
  have hm1 : ((x % N : ℤ) : ℚ) + 1 ≤ N := by exact_mod_cast Int.emod_lt_of_pos x hN
  -- what follows from the cell that was computed
  have key : ∀ (q k : ℤ), ⌊axisFrac N x⌋ = q → (x : ℚ) = N * q + k → |axisIn N x - k| ≤ 1 / 2 ^ 18 := by
    intro q k hq hxk
    rw [axisIn, hq]
    have g0 : 0 ≤ axisFrac N x - q := by have := Int.floor_le (axisFrac N x); rw [hq] at this; linarith
    have g1 : axisFrac N x - q ≤ 1 := by have := Int.lt_floor_add_one (axisFrac N x); rw [hq] at this; linarith
    have h1 := fl_err (axisFrac N x - q)
    rw [abs_of_nonneg g0] at h1
    set f := axisFrac N x
    set g := fl (f - q)
    have h2 := fl_err (g * N)
    set p := fl (g * N)
    have c1 : |g - (f - q)| ≤ 1 / 2 ^ 53 := h1.trans (by gcongr)
    have c2 : |g * N - (f * N - q * N)| ≤ 2 ^ 30 / 2 ^ 53 := by
      have : g * N - (f * N - q * N) = (g - (f - q)) * N := by ring
      rw [this, abs_mul, abs_of_nonneg (by linarith : (0 : ℚ) ≤ N)]
      calc |g - (f - q)| * N ≤ 1 / 2 ^ 53 * 2 ^ 30 := by gcongr
        _ = 2 ^ 30 / 2 ^ 53 := by ring
    have c3 : |g * N| ≤ 2 * 2 ^ 30 := by
      rw [abs_mul, abs_of_nonneg (by linarith : (0 : ℚ) ≤ N)]
      have c1' := abs_le.1 c1
      have : |g| ≤ 2 := by
        have h53 : (1 : ℚ) / 2 ^ 53 ≤ 1 := by norm_num
        rw [abs_le]; constructor <;> linarith [c1'.1, c1'.2]
      gcongr
    have c4 : |p - g * N| ≤ 2 * 2 ^ 30 / 2 ^ 53 := h2.trans (by gcongr)
    have c2' := abs_le.1 c2
    have c4' := abs_le.1 c4
    rw [abs_le]; constructor <;> linarith [c2'.1, c2'.2, c4'.1, c4'.2, e0.1, e0.2]
  -- where the floor can be
  have hlo : ∀ q : ℤ, (q : ℚ) * N ≤ axisFrac N x * N → q ≤ ⌊axisFrac N x⌋ := by
    intro q h
    exact Int.le_floor.2 (le_of_mul_le_mul_right h (by linarith))
  have hhi : ∀ q : ℤ, axisFrac N x * N < (q : ℚ) * N → ⌊axisFrac N x⌋ < q := by
    intro q h
    exact Int.floor_lt.2 (lt_of_mul_lt_mul_right h (by linarith))
  by_cases hw : Wraps N x
  · exact .inl ⟨hw, key _ _ hw hdiv⟩
  · right
    have hmul : x % N = 0 := by
      by_contra hne
      apply hw
      have hp : (1 : ℚ) ≤ (x % N : ℤ) := by
        have := Int.emod_nonneg x hN.ne'
        exact_mod_cast (by omega : 1 ≤ x % N)
      have l1 := hlo (x / N) (by nlinarith [e0.1])
      have l2 := hhi (x / N + 1) (by push_cast; nlinarith [e0.2])
      unfold Wraps; omega
    rw [hmul] at hdiv
    push_cast at hdiv
    have l1 := hlo (x / N - 1) (by push_cast; nlinarith [e0.1])
    have l2 := hhi (x / N + 1) (by push_cast; nlinarith [e0.2])
    have hfl : ⌊axisFrac N x⌋ = x / N - 1 := by unfold Wraps at hw; omega
    refine ⟨hw, Int.dvd_of_emod_eq_zero hmul, ?_, key _ _ hfl (by push_cast; linarith)⟩
    rintro rfl
    apply hw
    simp [Wraps, axisFrac]

theorem wraps_of_not_dvd (hN : 0 < N) (hN2 : N ≤ 2 ^ 30) (hx : |x| ≤ 2 ^ 32) (h : ¬ N ∣ x) : Wraps N x := by
  rcases axisIn_err hN hN2 hx with h' | h'
  · exact h'.1
  · exact absurd h'.2.1 h

@[simp] theorem wraps_zero : Wraps N 0 := by simp [Wraps, axisFrac]

/-- The lookup key and the stored coordinate of a number close to the integer `k`. -/
theorem round3_near {p : ℚ} {k : ℤ} (hk0 : 0 ≤ k) (hk : k ≤ 2 ^ 30) (hp : |p - k| ≤ 1 / 2 ^ 18) :
    Dbl.round3 p = k ∧ Dbl.round3 (fl (p + fl (1 / 1000))) = axisKey k := by
  have hk0' : (0 : ℚ) ≤ k := by exact_mod_cast hk0
  have hk' : (k : ℚ) ≤ 2 ^ 30 := by exact_mod_cast hk
  have hp' := abs_le.1 hp
  have near : ∀ (y : ℚ) (m : ℤ), |y - m| ≤ 1 / 4 → roundHalfEven y = m := by
    intro y m h
    refine roundHalfEven_eq_iff.2 (.inl ?_)
    rw [abs_mul, abs_of_pos (by norm_num : (0 : ℚ) < 2)]; linarith
  constructor
  · have h1 := fl_err (p * 1000)
    have h2 : |p * 1000| ≤ 2 ^ 41 := by rw [abs_le]; constructor <;> linarith
    have h3 := abs_le.1 (h1.trans (by gcongr : |p * 1000| / 2 ^ 53 ≤ 2 ^ 41 / 2 ^ 53))
    have h4 : roundHalfEven (fl (p * 1000)) = 1000 * k := near _ _ (by
      push_cast; rw [abs_le]; constructor <;> linarith [h3.1, h3.2])
    rw [Dbl.round3, h4]
    push_cast
    rw [mul_div_cancel_left₀ _ (by norm_num)]
    exact fl_int (by rw [abs_le]; constructor <;> linarith)
  · have h0 := abs_le.1 (fl_err (1 / 1000))
    rw [abs_of_pos (by norm_num : (0 : ℚ) < 1 / 1000)] at h0
    set o := fl (1 / 1000)
    have h1 := fl_err (p + o)
    have h2 : |p + o| ≤ 2 ^ 31 := by rw [abs_le]; constructor <;> linarith [h0.1, h0.2]
    have h3 := abs_le.1 (h1.trans (by gcongr : |p + o| / 2 ^ 53 ≤ 2 ^ 31 / 2 ^ 53))
    set s := fl (p + o)
    have h4 := fl_err (s * 1000)
    have h5 : |s * 1000| ≤ 2 ^ 42 := by rw [abs_le]; constructor <;> linarith [h0.1, h0.2, h3.1, h3.2]
    have h6 := abs_le.1 (h4.trans (by gcongr : |s * 1000| / 2 ^ 53 ≤ 2 ^ 42 / 2 ^ 53))
    have h7 : roundHalfEven (fl (s * 1000)) = 1000 * k + 1 := near _ _ (by
      push_cast; rw [abs_le]; constructor <;> linarith [h0.1, h0.2, h3.1, h3.2, h6.1, h6.2])
    rw [Dbl.round3, h7, axisKey]

theorem axisKey_inj {k l : ℤ} (hk0 : 0 ≤ k) (hk : k ≤ 2 ^ 30) (hl0 : 0 ≤ l) (hl : l ≤ 2 ^ 30) (h : axisKey k = axisKey l) : k = l := by
  have err : ∀ m : ℤ, 0 ≤ m → m ≤ 2 ^ 30 → |axisKey m - m| ≤ 1 / 4 := by
    intro m h0 h1
    have h0' : (0 : ℚ) ≤ m := by exact_mod_cast h0
    have h1' : (m : ℚ) ≤ 2 ^ 30 := by exact_mod_cast h1
    have e := fl_err (((1000 * m + 1 : ℤ) : ℚ) / 1000)
    have : (((1000 * m + 1 : ℤ) : ℚ) / 1000) = m + 1 / 1000 := by push_cast; ring
    rw [axisKey]
    rw [this] at e ⊢
    rw [abs_of_nonneg (by linarith : (0 : ℚ) ≤ m + 1 / 1000)] at e
    have := abs_le.1 e
    rw [abs_le]; constructor <;> linarith [this.1, this.2]
  have a := abs_le.1 (err k hk0 hk)
  have b := abs_le.1 (err l hl0 hl)
  rw [h] at a
  have h1 : ((k - l : ℤ) : ℚ) < 1 := by push_cast; linarith [a.1, b.2]
  have h2 : (-1 : ℚ) < ((k - l : ℤ) : ℚ) := by push_cast; linarith [a.2, b.1]
  have h3 : k - l < 1 := by exact_mod_cast h1
  have h4 : -1 < k - l := by exact_mod_cast h2
  omega

/-! ### the far end of the axis -/

theorem fl_le_one {y : ℚ} (h0 : 1 / 2 ≤ y) (h1 : y ≤ 1 + 1 / 2 ^ 53) : fl y ≤ 1 := by
  have hy : 0 < y := by linarith
  rcases lt_or_ge y 1 with h | h
  · rw [fl_eq (e := -53) (by rw [abs_of_pos hy]; norm_num; linarith) (by rw [abs_of_pos hy]; norm_num; exact h)]
    have hr := abs_le.1 (abs_sub_roundHalfEven (y / 2 ^ (-53 : ℤ)))
    have e : y / 2 ^ (-53 : ℤ) = y * 2 ^ 53 := by rw [zpow_neg]; norm_cast; rw [div_inv_eq_mul]
    rw [e] at hr ⊢
    have hlt : (roundHalfEven (y * 2 ^ 53) : ℚ) < 2 ^ 53 + 1 := by linarith [hr.1]
    have hle : roundHalfEven (y * 2 ^ 53) ≤ 2 ^ 53 := by
      have : roundHalfEven (y * 2 ^ 53) < 2 ^ 53 + 1 := by exact_mod_cast hlt
      omega
    have hle' : (roundHalfEven (y * 2 ^ 53) : ℚ) ≤ 2 ^ 53 := by exact_mod_cast hle
    rw [zpow_neg]
    norm_cast
    rw [← div_eq_mul_inv, div_le_one (by positivity)]
    exact_mod_cast hle'
  · rw [fl_eq (e := -52) (by rw [abs_of_pos hy]; norm_num; linarith) (by rw [abs_of_pos hy]; norm_num; linarith)]
    have e : y / 2 ^ (-52 : ℤ) = y * 2 ^ 52 := by rw [zpow_neg]; norm_cast; rw [div_inv_eq_mul]
    have hr : roundHalfEven (y * 2 ^ 52) = 2 ^ 52 := by
      refine roundHalfEven_eq_iff.2 ?_
      rw [Nearest, show (((2 ^ 52 : ℤ)) : ℚ) = 2 ^ 52 by norm_num]
      rcases lt_or_eq_of_le h1 with h1 | h1
      · left; rw [abs_lt]; constructor <;> linarith
      · right; rw [h1]; norm_num
    rw [e, hr]
    norm_num

/-- One period away the cell is right exactly when `N` times the rounded reciprocal of `N` is 1. -/
theorem wraps_self_iff (hN : 0 < N) : Wraps N N ↔ fl (N * fl (1 / N)) = 1 := by
  have hN' : (0 : ℚ) < N := by exact_mod_cast hN
  have h1 := fl_err (1 / (N : ℚ))
  rw [abs_of_pos (by positivity : (0 : ℚ) < 1 / N)] at h1
  rw [Wraps, Int.ediv_self hN.ne', axisFrac]
  have a1 : |(N : ℚ) * fl (1 / N) - 1| ≤ 1 / 2 ^ 53 := by
    have : (N : ℚ) * fl (1 / N) - 1 = (fl (1 / N) - 1 / N) * N := by field_simp
    rw [this, abs_mul, abs_of_pos hN']
    calc |fl (1 / (N : ℚ)) - 1 / N| * N ≤ (1 / N / 2 ^ 53) * N := by gcongr
      _ = 1 / 2 ^ 53 := by field_simp
  have a2 := abs_le.1 a1
  constructor
  · intro h
    refine le_antisymm (fl_le_one (by linarith [a2.1]) (by linarith [a2.2])) ?_
    have := Int.floor_le (fl ((N : ℚ) * fl (1 / N)))
    rw [h] at this
    simpa using this
  · intro h; rw [h]; simp

end
end Pyl
