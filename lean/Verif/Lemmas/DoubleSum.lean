import Verif.Spec.DoubleSetup
import Verif.Lemmas.DoubleDist
/-
Sums of doubles, in any order.
-/
set_option autoImplicit false
set_option linter.unusedSectionVars false

namespace Pyl

theorem list_abs_sum_le (l : List ℚ) : |l.sum| ≤ (l.map fun x => |x|).sum := by
  induction l with
  | nil => simp
  | cons a l ih =>
    rw [List.sum_cons, List.map_cons, List.sum_cons]
    exact le_trans (abs_add_le _ _) (by linarith)

/-- The relative error of one operation. -/
def ulp : ℚ := 1 / 2 ^ 53

theorem fl_nonneg_bounds {x : ℚ} (hx : 0 ≤ x) : (1 - ulp) * x ≤ fl x ∧ fl x ≤ (1 + ulp) * x := by
  have h := abs_le.1 (fl_err x)
  rw [abs_of_nonneg hx] at h
  unfold ulp
  constructor <;> linarith [h.1, h.2]

theorem ulp_pos : 0 < ulp := by unfold ulp; positivity
theorem ulp_lt_one : ulp < 1 := by unfold ulp; norm_num
theorem ulp_small : 4 * ulp < 1 := by unfold ulp; norm_num

theorem one_le_pow_ulp (k : ℕ) : 1 ≤ (1 + ulp) ^ k := one_le_pow₀ (by linarith [ulp_pos])
theorem pow_ulp_le_one (k : ℕ) : (1 - ulp) ^ k ≤ 1 := pow_le_one₀ (by linarith [ulp_lt_one]) (by linarith [ulp_pos])
theorem pow_ulp_nonneg (k : ℕ) : 0 ≤ (1 - ulp) ^ k := pow_nonneg (by linarith [ulp_lt_one]) _

/-- One rounded operation on two numbers with relative error bounds. -/
theorem fl_add_bounds {a b T₁ T₂ : ℚ} {k₁ k₂ k : ℕ} (h₁ : 0 ≤ T₁) (h₂ : 0 ≤ T₂) (ha : (1 - ulp) ^ k₁ * T₁ ≤ a ∧ a ≤ (1 + ulp) ^ k₁ * T₁)
    (hb : (1 - ulp) ^ k₂ * T₂ ≤ b ∧ b ≤ (1 + ulp) ^ k₂ * T₂) (hk₁ : k₁ + 1 ≤ k) (hk₂ : k₂ + 1 ≤ k) :
    (1 - ulp) ^ k * (T₁ + T₂) ≤ fl (a + b) ∧ fl (a + b) ≤ (1 + ulp) ^ k * (T₁ + T₂) := by
  have hu : 0 ≤ 1 - ulp := by linarith [ulp_lt_one]
  have hu' : (0 : ℚ) ≤ 1 + ulp := by linarith [ulp_pos]
  have ha0 : 0 ≤ a := le_trans (mul_nonneg (pow_ulp_nonneg _) h₁) ha.1
  have hb0 : 0 ≤ b := le_trans (mul_nonneg (pow_ulp_nonneg _) h₂) hb.1
  obtain ⟨f1, f2⟩ := fl_nonneg_bounds (add_nonneg ha0 hb0)
  have lo : ∀ j, j + 1 ≤ k → ∀ T : ℚ, 0 ≤ T → (1 - ulp) ^ k * T ≤ (1 - ulp) * ((1 - ulp) ^ j * T) := by
    intro j hj T hT
    rw [← mul_assoc, ← pow_succ']
    exact mul_le_mul_of_nonneg_right (pow_le_pow_of_le_one hu (by linarith [ulp_pos]) hj) hT
  have hi : ∀ j, j + 1 ≤ k → ∀ T : ℚ, 0 ≤ T → (1 + ulp) * ((1 + ulp) ^ j * T) ≤ (1 + ulp) ^ k * T := by
    intro j hj T hT
    rw [← mul_assoc, ← pow_succ']
    exact mul_le_mul_of_nonneg_right (pow_le_pow_right₀ (by linarith [ulp_pos]) hj) hT
  constructor
  · have h3 := mul_le_mul_of_nonneg_left ha.1 hu
    have h4 := mul_le_mul_of_nonneg_left hb.1 hu
    have := lo k₁ hk₁ T₁ h₁
    have := lo k₂ hk₂ T₂ h₂
    linarith
  · have h3 := mul_le_mul_of_nonneg_left ha.2 hu'
    have h4 := mul_le_mul_of_nonneg_left hb.2 hu'
    have := hi k₁ hk₁ T₁ h₁
    have := hi k₂ hk₂ T₂ h₂
    linarith

theorem isDouble_zero : IsDouble 0 := ⟨0, 0, by norm_num, by simp⟩

/-- Sums of non-negative doubles: the result is a double with relative error at most one rounding per summand. -/
theorem SumOf.bounds {l : List ℚ} {a : ℚ} (h : SumOf l a) (h0 : ∀ x ∈ l, 0 ≤ x) (hd : ∀ x ∈ l, IsDouble x) :
    IsDouble a ∧ (1 - ulp) ^ l.length * l.sum ≤ a ∧ a ≤ (1 + ulp) ^ l.length * l.sum := by
  induction h with
  | nil => exact ⟨isDouble_zero, by simp, by simp⟩
  | one x =>
    have hx := h0 x (by simp)
    refine ⟨hd x (by simp), ?_, ?_⟩ <;> simp only [List.length_singleton, pow_one, List.sum_singleton] <;> nlinarith [ulp_pos]
  | @add l₁ l₂ a b h₁ h₂ ih₁ ih₂ =>
    obtain ⟨d1, b1⟩ := ih₁ (fun x hx => h0 x (by simp [hx])) (fun x hx => hd x (by simp [hx]))
    obtain ⟨d2, b2⟩ := ih₂ (fun x hx => h0 x (by simp [hx])) (fun x hx => hd x (by simp [hx]))
    refine ⟨isDouble_fl _, ?_⟩
    by_cases e1 : l₁ = []
    · subst e1
      simp only [List.length_nil, pow_zero, List.sum_nil, one_mul] at b1
      have : a = 0 := le_antisymm b1.2 b1.1
      rw [this, zero_add, fl_of_isDouble d2, List.nil_append]
      exact b2
    by_cases e2 : l₂ = []
    · subst e2
      simp only [List.length_nil, pow_zero, List.sum_nil, one_mul] at b2
      have : b = 0 := le_antisymm b2.2 b2.1
      rw [this, add_zero, fl_of_isDouble d1, List.append_nil]
      exact b1
    have p1 := List.length_pos_iff.2 e1
    have p2 := List.length_pos_iff.2 e2
    rw [List.sum_append, List.length_append]
    exact fl_add_bounds (List.sum_nonneg fun x hx => h0 x (by simp [hx])) (List.sum_nonneg fun x hx => h0 x (by simp [hx])) b1 b2 (by omega) (by omega)
  | @perm l₁ l₂ a hp h ih =>
    have := ih (fun x hx => h0 x (hp.mem_iff.1 hx)) (fun x hx => hd x (hp.mem_iff.1 hx))
    rwa [hp.length_eq, hp.sum_eq] at this

/-- Sums of multiples of `2 ^ e` that are not too large are exact. -/
theorem SumOf.exact {l : List ℚ} {a : ℚ} (h : SumOf l a) (e : ℤ) (hm : ∀ x ∈ l, ∃ m : ℤ, x = m * 2 ^ e) (hs : (l.map fun x => |x|).sum ≤ 2 ^ 53 * 2 ^ e) :
    a = l.sum := by
  have key : a = l.sum ∧ ∃ m : ℤ, l.sum = m * 2 ^ e := by
    induction h with
    | nil => exact ⟨by simp, 0, by simp⟩
    | one x => obtain ⟨m, hx⟩ := hm x (by simp); exact ⟨by simp, m, by simpa using hx⟩
    | @add l₁ l₂ a b h₁ h₂ ih₁ ih₂ =>
      have n1 : 0 ≤ (l₁.map fun x : ℚ => |x|).sum := List.sum_nonneg (by intro x hx; obtain ⟨y, -, rfl⟩ := List.mem_map.1 hx; exact abs_nonneg y)
      have n2 : 0 ≤ (l₂.map fun x : ℚ => |x|).sum := List.sum_nonneg (by intro x hx; obtain ⟨y, -, rfl⟩ := List.mem_map.1 hx; exact abs_nonneg y)
      have hs' := hs
      rw [List.map_append, List.sum_append] at hs'
      obtain ⟨r1, m1, e1⟩ := ih₁ (fun x hx => hm x (by simp [hx])) (by linarith)
      obtain ⟨r2, m2, e2⟩ := ih₂ (fun x hx => hm x (by simp [hx])) (by linarith)
      have et : l₁.sum + l₂.sum = ((m1 + m2 : ℤ) : ℚ) * 2 ^ e := by rw [e1, e2]; push_cast; ring
      refine ⟨?_, m1 + m2, by rw [List.sum_append, et]⟩
      rw [r1, r2, List.sum_append, et]
      refine fl_repr ?_ e
      have hp : (0 : ℚ) < 2 ^ e := by positivity
      have habs : |l₁.sum + l₂.sum| ≤ 2 ^ 53 * 2 ^ e := by
        have a1 : |l₁.sum| ≤ (l₁.map fun x => |x|).sum := list_abs_sum_le _
        have a2 : |l₂.sum| ≤ (l₂.map fun x => |x|).sum := list_abs_sum_le _
        have a3 := abs_add_le l₁.sum l₂.sum
        linarith
      rw [et, abs_mul, abs_of_pos hp] at habs
      have := le_of_mul_le_mul_right habs hp
      exact_mod_cast this
    | @perm l₁ l₂ a hp h ih =>
      have := ih (fun x hx => hm x (hp.mem_iff.1 hx)) (by rwa [(hp.map _).sum_eq])
      rwa [hp.sum_eq] at this
  exact key.1

/-- The products of a list of pairs. -/
def products (l : List (ℚ × ℚ)) : List ℚ := l.map fun p => p.1 * p.2

theorem DotOf.bounds {l : List (ℚ × ℚ)} {a : ℚ} (h : DotOf l a) (h0 : ∀ p ∈ l, 0 ≤ p.1 * p.2) :
    IsDouble a ∧ (1 - ulp) ^ l.length * (products l).sum ≤ a ∧ a ≤ (1 + ulp) ^ l.length * (products l).sum := by
  induction h with
  | nil => exact ⟨isDouble_zero, by simp [products], by simp [products]⟩
  | mul x y =>
    have hx := h0 (x, y) (by simp)
    refine ⟨isDouble_fl _, ?_⟩
    simpa [products] using fl_nonneg_bounds hx
  | @add l₁ l₂ a b h₁ h₂ ih₁ ih₂ =>
    obtain ⟨d1, b1⟩ := ih₁ (fun x hx => h0 x (by simp [hx]))
    obtain ⟨d2, b2⟩ := ih₂ (fun x hx => h0 x (by simp [hx]))
    refine ⟨isDouble_fl _, ?_⟩
    by_cases e1 : l₁ = []
    · subst e1
      simp only [products, List.map_nil, List.length_nil, pow_zero, List.sum_nil, one_mul] at b1
      have : a = 0 := le_antisymm b1.2 b1.1
      rw [this, zero_add, fl_of_isDouble d2, List.nil_append]
      exact b2
    by_cases e2 : l₂ = []
    · subst e2
      simp only [products, List.map_nil, List.length_nil, pow_zero, List.sum_nil, one_mul] at b2
      have : b = 0 := le_antisymm b2.2 b2.1
      rw [this, add_zero, fl_of_isDouble d1, List.append_nil]
      exact b1
    have p1 := List.length_pos_iff.2 e1
    have p2 := List.length_pos_iff.2 e2
    rw [products, List.map_append, List.sum_append, List.length_append]
    refine fl_add_bounds (List.sum_nonneg ?_) (List.sum_nonneg ?_) b1 b2 (by omega) (by omega)
    · intro x hx
      obtain ⟨p, hp, rfl⟩ := List.mem_map.1 hx
      exact h0 p (by simp [hp])
    · intro x hx
      obtain ⟨p, hp, rfl⟩ := List.mem_map.1 hx
      exact h0 p (by simp [hp])
  | @fma l a x y h ih =>
    obtain ⟨d1, b1⟩ := ih (fun x hx => h0 x (by simp [hx]))
    refine ⟨isDouble_fl _, ?_⟩
    have hxy : 0 ≤ x * y := h0 (x, y) (by simp)
    rw [products, List.map_cons, List.sum_cons, List.length_cons, add_comm (x * y)]
    refine fl_add_bounds (k₁ := l.length) (k₂ := 0) (List.sum_nonneg ?_) hxy b1 (by simp) (by omega) (by omega)
    intro z hz
    obtain ⟨p, hp, rfl⟩ := List.mem_map.1 hz
    exact h0 p (by simp [hp])
  | @perm l₁ l₂ a hp h ih =>
    have := ih (fun x hx => h0 x (hp.mem_iff.1 hx))
    have e : (products l₁).sum = (products l₂).sum := (hp.map _).sum_eq
    rwa [hp.length_eq, e] at this

/-- Sums of products that are multiples of `2 ^ e` and not too large are exact. -/
theorem DotOf.exact {l : List (ℚ × ℚ)} {a : ℚ} (h : DotOf l a) (e : ℤ) (hm : ∀ p ∈ l, ∃ m : ℤ, p.1 * p.2 = m * 2 ^ e)
    (hs : (l.map fun p => |p.1 * p.2|).sum ≤ 2 ^ 53 * 2 ^ e) : a = (products l).sum := by
  have hp : (0 : ℚ) < 2 ^ e := by positivity
  have nn : ∀ l : List (ℚ × ℚ), 0 ≤ (l.map fun p => |p.1 * p.2|).sum := fun l => List.sum_nonneg (by
    intro x hx; obtain ⟨y, -, rfl⟩ := List.mem_map.1 hx; exact abs_nonneg _)
  have ab : ∀ l : List (ℚ × ℚ), |(products l).sum| ≤ (l.map fun p => |p.1 * p.2|).sum := fun l => by
    have := list_abs_sum_le (products l)
    rwa [products, List.map_map] at this
  have fin : ∀ (m : ℤ), |(m : ℚ) * 2 ^ e| ≤ 2 ^ 53 * 2 ^ e → fl (m * 2 ^ e) = m * 2 ^ e := by
    intro m habs
    refine fl_repr ?_ e
    rw [abs_mul, abs_of_pos hp] at habs
    have := le_of_mul_le_mul_right habs hp
    exact_mod_cast this
  have key : a = (products l).sum ∧ ∃ m : ℤ, (products l).sum = m * 2 ^ e := by
    induction h with
    | nil => exact ⟨by simp [products], 0, by simp [products]⟩
    | mul x y =>
      obtain ⟨m, hx⟩ := hm (x, y) (by simp)
      simp only at hx
      refine ⟨?_, m, by simpa [products] using hx⟩
      simp only [products, List.map_cons, List.map_nil, List.sum_cons, List.sum_nil, add_zero]
      simp only [List.map_cons, List.map_nil, List.sum_cons, List.sum_nil, add_zero] at hs
      rw [hx] at hs ⊢
      exact fin m hs
    | @add l₁ l₂ a b h₁ h₂ ih₁ ih₂ =>
      have hs' := hs
      rw [List.map_append, List.sum_append] at hs'
      obtain ⟨r1, m1, e1⟩ := ih₁ (fun x hx => hm x (by simp [hx])) (by linarith [nn l₂])
      obtain ⟨r2, m2, e2⟩ := ih₂ (fun x hx => hm x (by simp [hx])) (by linarith [nn l₁])
      have et : (products l₁).sum + (products l₂).sum = ((m1 + m2 : ℤ) : ℚ) * 2 ^ e := by rw [e1, e2]; push_cast; ring
      have es : (products (l₁ ++ l₂)).sum = (products l₁).sum + (products l₂).sum := by simp [products]
      refine ⟨?_, m1 + m2, by rw [es, et]⟩
      rw [r1, r2, es, et]
      refine fin _ ?_
      rw [← et]
      have := abs_add_le (products l₁).sum (products l₂).sum
      linarith [ab l₁, ab l₂]
    | @fma l a x y h ih =>
      have hs' := hs
      rw [List.map_cons, List.sum_cons] at hs'
      simp only at hs'
      obtain ⟨r1, m1, e1⟩ := ih (fun x hx => hm x (by simp [hx])) (by linarith [abs_nonneg (x * y)])
      obtain ⟨m2, e2⟩ := hm (x, y) (by simp)
      simp only at e2
      have et : (products l).sum + x * y = ((m1 + m2 : ℤ) : ℚ) * 2 ^ e := by rw [e1, e2]; push_cast; ring
      have es : (products ((x, y) :: l)).sum = (products l).sum + x * y := by simp [products, add_comm]
      refine ⟨?_, m1 + m2, by rw [es, et]⟩
      rw [r1, es, et]
      refine fin _ ?_
      rw [← et]
      have := abs_add_le (products l).sum (x * y)
      linarith [ab l]
    | @perm l₁ l₂ a hp h ih =>
      have e : (products l₁).sum = (products l₂).sum := (hp.map _).sum_eq
      have := ih (fun x hx => hm x (hp.mem_iff.1 hx)) (by rwa [(hp.map _).sum_eq])
      rwa [e] at this
  exact key.1

variable {d : ℕ}

theorem products_squares (v : Fin d → ℚ) : (products (List.ofFn fun i => (v i, v i))).sum = ∑ i, v i ^ 2 := by
  rw [products, List.map_ofFn, List.sum_ofFn]
  exact Finset.sum_congr rfl fun i _ => by simp [sq]

/-- Every way to compute a sum of up to three squares is accurate to 50 binary digits. -/
theorem SquaresOf.accurate {sq : (Fin d → ℚ) → ℚ} (h : SquaresOf sq) (hd : d ≤ 3) : SumOfSquares sq := by
  intro v
  have hb := (h v).bounds (by
    intro p hp
    obtain ⟨i, rfl⟩ := (List.mem_ofFn' _ _).1 hp
    exact mul_self_nonneg _)
  rw [products_squares, List.length_ofFn] at hb
  set T := ∑ i, v i ^ 2
  have hT : 0 ≤ T := Finset.sum_nonneg fun i _ => sq_nonneg _
  have h1 : (1 + ulp) ^ d ≤ 1 + 1 / 2 ^ 50 :=
    le_trans (pow_le_pow_right₀ (by linarith [ulp_pos]) hd) (by unfold ulp; norm_num)
  have h2 : 1 - 1 / 2 ^ 50 ≤ (1 - ulp) ^ d :=
    le_trans (by unfold ulp; norm_num) (pow_le_pow_of_le_one (by linarith [ulp_lt_one]) (by linarith [ulp_pos]) hd)
  rw [abs_le]
  constructor
  · have := mul_le_mul_of_nonneg_right h2 hT
    linarith [hb.2.1]
  · have := mul_le_mul_of_nonneg_right h1 hT
    linarith [hb.2.2]

/-- Sums of squares of half integers are exact, if they are not too large. -/
theorem SquaresOf.halves {sq : (Fin d → ℚ) → ℚ} (h : SquaresOf sq) (m : Fin d → ℤ) (hm : ∑ i, m i ^ 2 ≤ 2 ^ 53) :
    sq (fun i => (m i : ℚ) / 2) = ((∑ i, m i ^ 2 : ℤ) : ℚ) / 4 := by
  have he : ∀ x : ℤ, (x : ℚ) / 2 * (x / 2) = ((x ^ 2 : ℤ) : ℚ) * 2 ^ (-2 : ℤ) := fun x => by
    rw [zpow_neg]; push_cast; norm_num; ring
  rw [(h _).exact (-2) ?_ ?_, products_squares]
  · push_cast
    rw [Finset.sum_div]
    exact Finset.sum_congr rfl fun i _ => by ring
  · intro p hp
    obtain ⟨i, rfl⟩ := (List.mem_ofFn' _ _).1 hp
    exact ⟨_, he (m i)⟩
  · rw [List.map_ofFn, List.sum_ofFn]
    have : ∀ i, ((fun p : ℚ × ℚ => |p.1 * p.2|) ∘ fun i => ((m i : ℚ) / 2, (m i : ℚ) / 2)) i = ((m i ^ 2 : ℤ) : ℚ) * 2 ^ (-2 : ℤ) := by
      intro i
      simp only [Function.comp]
      rw [he, abs_of_nonneg (by positivity)]
    rw [Finset.sum_congr rfl fun i _ => this i, ← Finset.sum_mul]
    refine mul_le_mul_of_nonneg_right ?_ (by positivity)
    exact_mod_cast hm

/-- Sums of squares of integers. -/
theorem SquaresOf.ints {sq : (Fin d → ℚ) → ℚ} (h : SquaresOf sq) (m : Fin d → ℤ) (hm : 4 * ∑ i, m i ^ 2 ≤ 2 ^ 53) :
    sq (fun i => (m i : ℚ)) = ((∑ i, m i ^ 2 : ℤ) : ℚ) := by
  have e : (fun i => (m i : ℚ)) = fun i => ((2 * m i : ℤ) : ℚ) / 2 := by funext i; push_cast; ring
  have e2 : ∑ i, (2 * m i) ^ 2 = 4 * ∑ i, m i ^ 2 := by
    rw [Finset.mul_sum]; exact Finset.sum_congr rfl fun i _ => by ring
  rw [e, h.halves _ (by rw [e2]; exact hm), e2]
  push_cast; ring

/-! ### comparing a rounded root with a double -/

theorem flSqrt_ge {q r : ℚ} (hq : 0 ≤ q) (hr : IsDouble r) (h : (r : ℝ) ≤ Real.sqrt q) : r ≤ flSqrt q := by
  by_contra hc
  push Not at hc
  have hn := flSqrt_nearest hq hr
  have hc' : ((flSqrt q : ℚ) : ℝ) < r := by exact_mod_cast hc
  rw [abs_of_nonpos (by linarith), abs_of_nonpos (by linarith)] at hn
  linarith

theorem flSqrt_le {q r : ℚ} (hq : 0 ≤ q) (hr : IsDouble r) (h : Real.sqrt q ≤ (r : ℝ)) : flSqrt q ≤ r := by
  by_contra hc
  push Not at hc
  have hn := flSqrt_nearest hq hr
  have hc' : (r : ℝ) < ((flSqrt q : ℚ) : ℝ) := by exact_mod_cast hc
  rw [abs_of_nonneg (by linarith), abs_of_nonneg (by linarith)] at hn
  linarith

/-- The root of a square of a double is found exactly. -/
theorem flSqrt_sq {r : ℚ} (h0 : 0 ≤ r) (hr : IsDouble r) : flSqrt (r ^ 2) = r := by
  have e : Real.sqrt ((r ^ 2 : ℚ) : ℝ) = r := by
    push_cast
    exact Real.sqrt_sq (by exact_mod_cast h0)
  exact le_antisymm (flSqrt_le (sq_nonneg r) hr e.le) (flSqrt_ge (sq_nonneg r) hr e.ge)

/-- `sqrt(Q / 4) < k / 2` is decided correctly for moderate integers. -/
theorem flSqrt_lt_half {Q : ℤ} (hQ : 0 ≤ Q) (hQ2 : Q ≤ 2 ^ 46) (k : ℤ) (hk : |k| ≤ 2 ^ 53) : flSqrt ((Q : ℚ) / 4) < (k : ℚ) / 2 ↔ 0 < k ∧ Q < k ^ 2 := by
  have hq : (0 : ℚ) ≤ (Q : ℚ) / 4 := by positivity
  have hd : IsDouble ((k : ℚ) / 2) := ⟨k, -1, hk, by rw [zpow_neg, zpow_one]; ring⟩
  have e : Real.sqrt (((Q : ℚ) / 4 : ℚ) : ℝ) = Real.sqrt Q / 2 := by
    push_cast
    rw [Real.sqrt_div (by exact_mod_cast hQ), show (4 : ℝ) = 2 ^ 2 by norm_num, Real.sqrt_sq (by norm_num)]
  constructor
  · intro h
    by_contra hc
    have : ((k : ℚ) / 2 : ℚ) ≤ flSqrt ((Q : ℚ) / 4) := by
      refine flSqrt_ge hq hd ?_
      rw [e]
      push_cast
      by_cases h0 : 0 < k
      · have hle : k ^ 2 ≤ Q := by by_contra hcc; exact hc ⟨h0, by omega⟩
        have : (k : ℝ) ≤ Real.sqrt Q := Real.le_sqrt_of_sq_le (by exact_mod_cast hle)
        linarith
      · have : (k : ℝ) ≤ 0 := by exact_mod_cast (not_lt.1 h0)
        have := Real.sqrt_nonneg (Q : ℝ)
        linarith
    linarith
  · rintro ⟨h0, h⟩
    have herr := abs_le.1 (flSqrt_err hq)
    rw [e] at herr
    set w := Real.sqrt (Q : ℝ) with hw
    have hw0 : 0 ≤ w := Real.sqrt_nonneg _
    have hww : w * w = Q := Real.mul_self_sqrt (by exact_mod_cast hQ)
    have hw2 : w ≤ 2 ^ 23 := by
      rw [hw, show (2 : ℝ) ^ 23 = Real.sqrt (2 ^ 46) by
        rw [show (2 : ℝ) ^ 46 = (2 ^ 23) ^ 2 by norm_num, Real.sqrt_sq (by norm_num)]]
      exact Real.sqrt_le_sqrt (by exact_mod_cast hQ2)
    have h1 : (Q : ℝ) + 1 ≤ k ^ 2 := by exact_mod_cast h
    have hk0 : (1 : ℝ) ≤ k := by exact_mod_cast h0
    clear_value w
    have hlt : w * (1 + 1 / 2 ^ 53) < k := by
      by_contra hc
      push Not at hc
      have hc2 : (k : ℝ) * k ≤ w * (1 + 1 / 2 ^ 53) * (w * (1 + 1 / 2 ^ 53)) := mul_le_mul hc hc (by linarith) (by positivity)
      have : w * (1 + 1 / 2 ^ 53) * (w * (1 + 1 / 2 ^ 53)) = Q * (1 + 1 / 2 ^ 53) ^ 2 := by rw [← hww]; ring
      have hQ' : (Q : ℝ) ≤ 2 ^ 46 := by exact_mod_cast hQ2
      have hQ0 : (0 : ℝ) ≤ Q := by exact_mod_cast hQ
      nlinarith
    have : ((flSqrt ((Q : ℚ) / 4) : ℚ) : ℝ) < (((k : ℚ) / 2 : ℚ) : ℝ) := by
      push_cast
      linarith [herr.2]
    exact_mod_cast this

end Pyl
