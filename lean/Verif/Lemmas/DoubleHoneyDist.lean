import Verif.Lemmas.DoubleHoneycomb
import Verif.Lemmas.DoubleArith
import Verif.Props.DoubleDist
/-
The honeycomb tiling in double precision: stored locations and distances.
-/
set_option autoImplicit false
set_option linter.unusedSectionVars false

namespace Pyl
open Pyl.Lattice Pyl.Structure

/-- The thousandths of a hexagon. -/
noncomputable def hexMil (c : Fin 2 → ℤ) (i : Fin 2) : ℤ := round (1000 * hexCentre (√3 : ℝ) c i)

theorem hexStored_eq (c : Fin 2 → ℤ) : hexStored c = fun i => fl ((hexMil c i : ℚ) / 1000) := rfl

theorem hexMil_half (c : Fin 2 → ℤ) (i : Fin 2) : |(hexMil c i : ℝ) - 1000 * hexCentre (√3) c i| ≤ 1 / 2 := by
  rw [abs_sub_comm]; exact abs_sub_round _

theorem hexMil_err {n c : Fin 2 → ℤ} (hn : ∀ k, n k ≤ 2 ^ 10) (hc : ∀ k, 0 ≤ c k ∧ c k < n k) (i : Fin 2) :
    |(hexMil c i : ℝ) - 1000 * hexCentre (√3) c i| ≤ 1 / 2 - 1 / 2 ^ 14 := by
  obtain ⟨k, hk⟩ := honey_thousandths hn hc
  have h1 := abs_le.1 (hk i)
  have h2 := abs_le.1 (hexMil_half c i)
  have : hexMil c i = k i := by
    refine sub_eq_zero.1 (Int.abs_lt_one_iff.1 ?_)
    have : |((hexMil c i - k i : ℤ) : ℝ)| < 1 := by
      push_cast
      rw [abs_lt]; constructor <;> norm_num at h1 h2 ⊢ <;> linarith
    rw [← Int.cast_abs] at this
    exact_mod_cast this
  rw [this]; exact hk i

theorem hexMil_small {n c : Fin 2 → ℤ} (hn : ∀ k, n k ≤ 2 ^ 10) (hc : ∀ k, 0 ≤ c k ∧ c k < n k) (i : Fin 2) : |hexMil c i| ≤ 2 ^ 30 := by
  have h1 := hexMil_half c i
  have cb : ∀ k, (0 : ℝ) ≤ c k ∧ (c k : ℝ) ≤ 1024 := fun k =>
    ⟨by exact_mod_cast (hc k).1, by exact_mod_cast (by have := hc k; have := hn k; omega : c k ≤ 1024)⟩
  have hs := sqrt3_bounds
  have h2 : |hexCentre (√3) c i| ≤ 5000 := by
    revert i
    refine vec2 ?_ ?_
    · intro _
      change |(c 0 : ℝ) + c 1 / 2 + 3 / 4| ≤ _
      have := cb 0; have := cb 1
      rw [abs_le]; constructor <;> linarith
    · intro _
      change |(2 * (c 1 : ℝ) + 1) / 4 * √3| ≤ _
      have := cb 1
      rw [abs_le]; constructor <;> nlinarith
  have h3 := abs_le.1 h1
  have h4 := abs_le.1 h2
  have : |(hexMil c i : ℝ)| ≤ 2 ^ 30 := by rw [abs_le]; constructor <;> linarith
  exact_mod_cast this

theorem fl_thousandth_inj {k m : ℤ} (hk : |k| ≤ 2 ^ 40) (hm : |m| ≤ 2 ^ 40) (h : fl ((k : ℚ) / 1000) = fl ((m : ℚ) / 1000)) : k = m := by
  rcases lt_trichotomy k m with hlt | he | hlt
  · exact absurd h ((fl_thousandth_lt hk hm).2 hlt).ne
  · exact he
  · exact absurd h ((fl_thousandth_lt hm hk).2 hlt).ne'

/-- Different hexagons of the box are stored at different places. -/
theorem hexMil_inj {c c' : Fin 2 → ℤ} (h : ∀ i, hexMil c i = hexMil c' i) : c = c' :=
  thousandths_inj (k := hexMil c) (hexMil_half c) fun i => by rw [h i]; exact hexMil_half c' i

theorem hexStored_inj {n c c' : Fin 2 → ℤ} (hn : ∀ k, n k ≤ 2 ^ 10) (hc : ∀ k, 0 ≤ c k ∧ c k < n k) (hc' : ∀ k, 0 ≤ c' k ∧ c' k < n k)
    (h : hexStored c = hexStored c') : c = c' := by
  refine hexMil_inj fun i => ?_
  exact fl_thousandth_inj ((hexMil_small hn hc i).trans (by norm_num)) ((hexMil_small hn hc' i).trans (by norm_num)) (congrFun h i)

/-- The stored location is near the middle of the hexagon. -/
theorem hexStored_near {n c : Fin 2 → ℤ} (hn : ∀ k, n k ≤ 2 ^ 10) (hc : ∀ k, 0 ≤ c k ∧ c k < n k) (i : Fin 2) :
    |1000 * ((hexStored c i : ℚ) : ℝ) - hexMil c i| ≤ 1 / 2 ^ 10 := by
  have h1 : |(hexMil c i : ℚ)| ≤ 2 ^ 30 := by exact_mod_cast hexMil_small hn hc i
  have h2 := fl_err ((hexMil c i : ℚ) / 1000)
  rw [abs_div, abs_of_pos (by norm_num : (0 : ℚ) < 1000)] at h2
  have h3 : |(hexMil c i : ℚ)| / 1000 / 2 ^ 53 ≤ 2 ^ 30 / 1000 / 2 ^ 53 := by gcongr
  have h4 := abs_le.1 (h2.trans h3)
  have h5 : |1000 * hexStored c i - hexMil c i| ≤ 1 / 2 ^ 10 := by
    rw [hexStored_eq]
    rw [abs_le]; constructor <;> norm_num at h4 ⊢ <;> linarith
  have : ((|1000 * hexStored c i - hexMil c i| : ℚ) : ℝ) ≤ ((1 / 2 ^ 10 : ℚ) : ℝ) := by exact_mod_cast h5
  push_cast at this
  exact this

/-- The same, for the lattice with rounded entries. -/
theorem hexStored_root {n c : Fin 2 → ℤ} (hn : ∀ k, 3 ≤ n k ∧ n k ≤ 2 ^ 10) (hc : ∀ k, 0 ≤ c k ∧ c k < n k) (i : Fin 2) :
    |hexStored c i - hexCentre (honeyRoot (n 1)) c i| ≤ 1 / 1900 := by
  have h1 := abs_le.1 (hexStored_near (fun k => (hn k).2) hc i)
  have h2 := abs_le.1 (hexMil_half c i)
  have h3 := abs_le.1 (hexCentre_real hn (inBox_near hc) i)
  have : |((hexStored c i : ℚ) : ℝ) - ((hexCentre (honeyRoot (n 1)) c i : ℚ) : ℝ)| ≤ 1 / 1900 := by
    rw [abs_le]; constructor <;> norm_num at h1 h2 h3 ⊢ <;> linarith
  have : ((|hexStored c i - hexCentre (honeyRoot (n 1)) c i| : ℚ) : ℝ) ≤ ((1 / 1900 : ℚ) : ℝ) := by push_cast; exact this
  exact_mod_cast this

/-! ### distances -/

/-- Steps to other hexagons are long. -/
theorem hex_far2 {r a b δ₀ δ₁ : ℚ} (h1 : 173 / 100 ≤ r) (h0 : |δ₀| ≤ 1 / 900) (h1' : |δ₁| ≤ 1 / 900) (p q : ℤ) (hz : ¬ (p = 0 ∧ q = 0))
    (hno : ![p, q] ∉ hexSteps) (ha : a = p + q / 2 + δ₀) (hb : b = q * r / 2 + δ₁) : 195 / 100 ≤ a ^ 2 + b ^ 2 := by
  have h := hex_far (δ := 0) h1 (by norm_num) p q hz hno
  have am : ∀ x δ : ℚ, |δ| ≤ 1 / 900 → 99 / 100 * x ^ 2 - 1 / 5000 ≤ (x + δ) ^ 2 := by
    intro x δ hδ
    have := abs_le.1 hδ
    have h2 : δ ^ 2 ≤ (1 / 900) ^ 2 := sq_le_sq' (by linarith) (by linarith)
    nlinarith [sq_nonneg (x / 10 + 10 * δ)]
  have a0 := am (p + q / 2) δ₀ h0
  have a1 := am (q * r / 2) δ₁ h1'
  rw [add_zero] at h
  rw [ha, hb]
  linarith

/-- Steps to touching hexagons have length one. -/
theorem hex_close2 {r a b δ₀ δ₁ : ℚ} (h1 : 17319 / 10000 ≤ r) (h2 : r ≤ 17322 / 10000) (h0 : |δ₀| ≤ 1 / 900) (h1' : |δ₁| ≤ 1 / 900) (p q : ℤ)
    (h : ![p, q] ∈ hexSteps) (ha : a = p + q / 2 + δ₀) (hb : b = q * r / 2 + δ₁) : 9962 / 10000 ≤ a ^ 2 + b ^ 2 ∧ a ^ 2 + b ^ 2 ≤ 10038 / 10000 := by
  have e : 9998 / 10000 ≤ ((p : ℚ) + q / 2) ^ 2 + (q * r / 2) ^ 2 ∧ ((p : ℚ) + q / 2) ^ 2 + (q * r / 2) ^ 2 ≤ 10002 / 10000 := by
    rw [mem_hexSteps] at h
    rcases h with ⟨rfl, rfl⟩ | ⟨rfl, rfl⟩ | ⟨rfl, rfl⟩ | ⟨rfl, rfl⟩ | ⟨rfl, rfl⟩ | ⟨rfl, rfl⟩ <;> push_cast <;> constructor <;> nlinarith
  have am : ∀ x δ : ℚ, |δ| ≤ 1 / 900 → 999 / 1000 * x ^ 2 - 125 / 100000 ≤ (x + δ) ^ 2 ∧ (x + δ) ^ 2 ≤ 1001 / 1000 * x ^ 2 + 125 / 100000 := by
    intro x δ hδ
    have := abs_le.1 hδ
    have h2 : δ ^ 2 ≤ (1 / 900) ^ 2 := sq_le_sq' (by linarith) (by linarith)
    constructor
    · nlinarith [sq_nonneg (x + 1000 * δ)]
    · nlinarith [sq_nonneg (x - 1000 * δ)]
  have a0 := am (p + q / 2) δ₀ h0
  have a1 := am (q * r / 2) δ₁ h1'
  rw [ha, hb]
  constructor <;> linarith [a0.1, a0.2, a1.1, a1.2, e.1, e.2]

/-- The measured distance of a vector whose exact length is known. -/
theorem measured {sq : (Fin 2 → ℚ) → ℚ} (hsq : SquaresOf sq) (v : Fin 2 → ℚ) :
    (195 / 100 ≤ v 0 ^ 2 + v 1 ^ 2 → 135 / 100 ≤ Dbl.round3 (flSqrt (sq v))) ∧
    (9962 / 10000 ≤ v 0 ^ 2 + v 1 ^ 2 → v 0 ^ 2 + v 1 ^ 2 ≤ 10038 / 10000 → |Dbl.round3 (flSqrt (sq v)) - 1| ≤ 1 / 400) := by
  have h1 := hsq.accurate (by norm_num) v
  rw [Fin.sum_univ_two] at h1
  set D := v 0 ^ 2 + v 1 ^ 2
  have hD : 0 ≤ D := by positivity
  have h1' := abs_le.1 h1
  have hq0 : 0 ≤ sq v := by norm_num at h1' ⊢; linarith
  have h2 := abs_le.1 (flSqrt_err hq0)
  have h3 := round3_err (flSqrt (sq v))
  set q := sq v
  set z := flSqrt q
  have low : ∀ s : ℚ, 0 ≤ s → s ^ 2 ≤ q → (s : ℝ) ≤ √(q : ℝ) := fun s hs h => Real.le_sqrt_of_sq_le (by exact_mod_cast h)
  have upp : ∀ s : ℚ, 0 ≤ s → q ≤ s ^ 2 → √(q : ℝ) ≤ (s : ℝ) := fun s hs h => Real.sqrt_le_iff.2 ⟨by exact_mod_cast hs, by exact_mod_cast h⟩
  have hr0 : 0 ≤ √(q : ℝ) := Real.sqrt_nonneg _
  constructor
  · intro hd
    have l := low (139 / 100) (by norm_num) (by norm_num at h1' ⊢; linarith)
    push_cast at l
    have hz : (137 / 100 : ℝ) ≤ (z : ℝ) := by norm_num at h2 ⊢; linarith
    have hz' : (137 / 100 : ℚ) ≤ z := by
      have : ((137 / 100 : ℚ) : ℝ) ≤ (z : ℝ) := by push_cast; exact hz
      exact_mod_cast this
    rw [abs_of_nonneg (by linarith : 0 ≤ z)] at h3
    have h3' := abs_le.1 h3
    norm_num at h3' ⊢; linarith
  · intro hd hd'
    have l := low (99805 / 100000) (by norm_num) (by norm_num at h1' ⊢; linarith)
    have u := upp (10019 / 10000) (by norm_num) (by norm_num at h1' ⊢; linarith)
    push_cast at l u
    have hz : (99804 / 100000 : ℝ) ≤ (z : ℝ) ∧ (z : ℝ) ≤ 100191 / 100000 := by constructor <;> norm_num at h2 ⊢ <;> linarith
    have hz' : (99804 / 100000 : ℚ) ≤ z ∧ z ≤ 100191 / 100000 := by
      constructor
      · have : ((99804 / 100000 : ℚ) : ℝ) ≤ (z : ℝ) := by push_cast; exact hz.1
        exact_mod_cast this
      · have : (z : ℝ) ≤ ((100191 / 100000 : ℚ) : ℝ) := by push_cast; exact hz.2
        exact_mod_cast this
    rw [abs_of_nonneg (by linarith : 0 ≤ z)] at h3
    have h3' := abs_le.1 h3
    rw [abs_le]
    constructor <;> norm_num at h3' ⊢ <;> linarith

section
variable {A : Dbl.Arith 2} {n : Fin 2 → ℤ}
variable (h : HoneyArith A n)
include h

omit h in
theorem honeyCart_sub (R : ℚ) (n : Fin 2 → ℤ) (f g : Fin 2 → ℚ) (i : Fin 2) :
    honeyCart R n (fun k => f k - g k) i = honeyCart R n f i - honeyCart R n g i := by
  revert i
  refine vec2 ?_ ?_
  · simp only [honeyCart, Matrix.cons_val_zero]; ring
  · simp only [honeyCart, Matrix.cons_val_one, Matrix.cons_val_fin_one]; ring

omit h in
/-- One coordinate of the periodic difference. -/
theorem axis_diff {N a b : ℤ} {f g ε ε' : ℚ} (hN : 3 ≤ N ∧ N ≤ 2 ^ 10) (ha : 0 ≤ a ∧ a < N) (hb : 0 ≤ b ∧ b < N) (hε : |ε| ≤ 1 / 100) (hε' : |ε'| ≤ 1 / 100)
    (hf : |f - (a + 1 / 2 + ε) / N| ≤ 1 / 2 ^ 36) (hg : |g - (b + 1 / 2 + ε') / N| ≤ 1 / 2 ^ 36) :
    ∃ p : ℤ, |2 * p| ≤ N ∧ N ∣ a - b - p ∧
      |fl (fl (f - g) - fl ((roundHalfEven (fl (f - g)) : ℚ) * 1)) - (p + ε - ε') / N| ≤ 1 / 2 ^ 34 ∧
      |fl (fl (f - g) - fl ((roundHalfEven (fl (f - g)) : ℚ) * 1))| ≤ 2 := by
  have n1 : (3 : ℚ) ≤ N := by exact_mod_cast hN.1
  have n2 : (N : ℚ) ≤ 1024 := by exact_mod_cast (by omega : N ≤ 1024)
  have np : (0 : ℚ) < N := by linarith
  have a0 : (0 : ℚ) ≤ a := by exact_mod_cast ha.1
  have a1 : (a : ℚ) + 1 ≤ N := by exact_mod_cast ha.2
  have b0 : (0 : ℚ) ≤ b := by exact_mod_cast hb.1
  have b1 : (b : ℚ) + 1 ≤ N := by exact_mod_cast hb.2
  have e1 := abs_le.1 hε
  have e2 := abs_le.1 hε'
  have hf' := abs_le.1 hf
  have hg' := abs_le.1 hg
  set u : ℚ := (a + 1 / 2 + ε) / N with hu
  set w : ℚ := (b + 1 / 2 + ε') / N with hw
  have u0 : 0 ≤ u ∧ u ≤ 1 := ⟨div_nonneg (by linarith) np.le, (div_le_one np).2 (by linarith)⟩
  have w0 : 0 ≤ w ∧ w ≤ 1 := ⟨div_nonneg (by linarith) np.le, (div_le_one np).2 (by linarith)⟩
  clear_value u w
  have hd := fl_err (f - g)
  have hfg : |f - g| ≤ 2 := by rw [abs_le]; constructor <;> norm_num at hf' hg' ⊢ <;> linarith
  have hd' := abs_le.1 (hd.trans (by gcongr : |f - g| / 2 ^ 53 ≤ 2 / 2 ^ 53))
  set D := fl (f - g)
  clear_value D
  have ht := abs_sub_roundHalfEven D
  set t := roundHalfEven D
  clear_value t
  have ht' := abs_le.1 ht
  have tb : |t| ≤ 3 := by
    have : |(t : ℚ)| < 4 := by rw [abs_lt]; constructor <;> norm_num at ht' hd' hf' hg' ⊢ <;> linarith
    have : |t| < 4 := by exact_mod_cast this
    omega
  have ft : fl ((t : ℚ) * 1) = t := by rw [mul_one]; exact fl_int (tb.trans (by norm_num))
  rw [ft]
  have hz := fl_err (D - t)
  have hDt : |D - t| ≤ 1 := by rw [abs_le]; constructor <;> linarith
  have hz' := abs_le.1 (hz.trans (by gcongr : |D - t| / 2 ^ 53 ≤ 1 / 2 ^ 53))
  have ew : (((a - b - t * N : ℤ) : ℚ) + ε - ε') / N = u - w - t := by
    rw [hu, hw]; push_cast; field_simp; ring
  refine ⟨a - b - t * N, ?_, ⟨t, by ring⟩, ?_, ?_⟩
  · have h1 : |u - w - t| ≤ 1 / 2 + 1 / 2 ^ 30 := by
      rw [abs_le]; constructor <;> norm_num at ht' hd' hf' hg' ⊢ <;> linarith
    rw [← ew, abs_div, abs_of_pos np, div_le_iff₀ np] at h1
    have h2 : |((a - b - t * N : ℤ) : ℚ) + ε - ε'| ≤ N / 2 + 1 / 100 := h1.trans (by norm_num; linarith)
    have h3 := abs_le.1 h2
    generalize a - b - t * N = p at *
    rw [abs_le]
    constructor
    · have : ((-N - 1 : ℤ) : ℚ) < ((2 * p : ℤ) : ℚ) := by push_cast; linarith
      have := Int.cast_lt.1 this
      omega
    · have : ((2 * p : ℤ) : ℚ) < ((N + 1 : ℤ) : ℚ) := by push_cast; linarith
      have := Int.cast_lt.1 this
      omega
  · rw [ew, abs_le]; constructor <;> norm_num at hz' hd' hf' hg' ⊢ <;> linarith
  · have := abs_le.1 hDt
    rw [abs_le]; constructor <;> norm_num at hz' ⊢ <;> linarith

/-- The vector between two stored hexagons, across the edges of the box. -/
theorem HoneyArith.diff {c c' : Fin 2 → ℤ} (hc : ∀ k, 0 ≤ c k ∧ c k < n k) (hc' : ∀ k, 0 ≤ c' k ∧ c' k < n k) :
    ∃ p q : ℤ, |2 * p| ≤ n 0 ∧ |2 * q| ≤ n 1 ∧ n 0 ∣ c 0 - c' 0 - p ∧ n 1 ∣ c 1 - c' 1 - q ∧ ∃ δ₀ δ₁ : ℚ, |δ₀| ≤ 1 / 900 ∧ |δ₁| ≤ 1 / 900 ∧
      A.toCart (Dbl.scaled Dbl.honeyLattice n) (Dbl.pbcDiffFrac (Dbl.scaled Dbl.honeyLattice n).periodic
        (A.toFrac (Dbl.scaled Dbl.honeyLattice n) (hexStored c)) (A.toFrac (Dbl.scaled Dbl.honeyLattice n) (hexStored c'))) =
          ![p + q / 2 + δ₀, q * honeyRoot (n 1) / 2 + δ₁] := by
  have x := hexStored_root h.size hc
  have y := hexStored_root h.size hc'
  have x' : ∀ i, |hexStored c i - hexCentre (honeyRoot (n 1)) c i| ≤ 1 / 500 := fun i => (x i).trans (by norm_num)
  have y' : ∀ i, |hexStored c' i - hexCentre (honeyRoot (n 1)) c' i| ≤ 1 / 500 := fun i => (y i).trans (by norm_num)
  obtain ⟨ε, hε, hf, hcart⟩ := h.frac_hex x'
  obtain ⟨ε', hε', hf', hcart'⟩ := h.frac_hex y'
  have key : ∀ k, _ := fun k => axis_diff (h.size k) (hc k) (hc' k) (hε k) (hε' k) (by rw [← hf k]; exact h.toFrac (h.size_hex (inBox_near hc) x') k)
    (by rw [← hf' k]; exact h.toFrac (h.size_hex (inBox_near hc') y') k)
  choose p k1 k2 k3 k4 using key
  have e : Dbl.pbcDiffFrac (Dbl.scaled Dbl.honeyLattice n).periodic
        (A.toFrac (Dbl.scaled Dbl.honeyLattice n) (hexStored c)) (A.toFrac (Dbl.scaled Dbl.honeyLattice n) (hexStored c')) =
      fun k => fl (fl (A.toFrac (Dbl.scaled Dbl.honeyLattice n) (hexStored c) k - A.toFrac (Dbl.scaled Dbl.honeyLattice n) (hexStored c') k) -
        fl ((roundHalfEven (fl (A.toFrac (Dbl.scaled Dbl.honeyLattice n) (hexStored c) k - A.toFrac (Dbl.scaled Dbl.honeyLattice n) (hexStored c') k)) : ℚ) * 1)) := by
    funext k
    simp [Dbl.pbcDiffFrac, Dbl.scaled, Dbl.honeyLattice]
  rw [e]
  have t1 := h.toCart k4
  have t2 := h.cart_near k3
  set g := fun k => fl (fl (A.toFrac (Dbl.scaled Dbl.honeyLattice n) (hexStored c) k - A.toFrac (Dbl.scaled Dbl.honeyLattice n) (hexStored c') k) -
        fl ((roundHalfEven (fl (A.toFrac (Dbl.scaled Dbl.honeyLattice n) (hexStored c) k - A.toFrac (Dbl.scaled Dbl.honeyLattice n) (hexStored c') k)) : ℚ) * 1))
  have e2 : ∀ i, honeyCart (honeyRoot (n 1)) n (fun k => ((p k : ℚ) + ε k - ε' k) / n k) i =
      hexCentre (honeyRoot (n 1)) (fun k => c' k + p k) i - hexCentre (honeyRoot (n 1)) c' i +
        ((hexStored c i - hexCentre (honeyRoot (n 1)) c i) - (hexStored c' i - hexCentre (honeyRoot (n 1)) c' i)) := by
    intro i
    have e3 : (fun k => ((p k : ℚ) + ε k - ε' k) / n k) = fun k => (((c' k + p k : ℤ) : ℚ) + 1 / 2 + ε k) / n k - ((c' k : ℚ) + 1 / 2 + ε' k) / n k := by
      funext k; push_cast; ring
    rw [e3, honeyCart_sub, congrFun (hcart fun k => c' k + p k) i, congrFun (hcart' c') i]
    ring
  set v := A.toCart (Dbl.scaled Dbl.honeyLattice n) g
  clear_value v g
  have s : (1 : ℚ) / 2 ^ 38 + 1536 * (1 / 2 ^ 34) ≤ 1 / 2 ^ 23 := by norm_num
  have tot : ∀ i, |v i - (hexCentre (honeyRoot (n 1)) (fun k => c' k + p k) i - hexCentre (honeyRoot (n 1)) c' i)| ≤ 1 / 900 := by
    intro i
    have a1 := abs_le.1 (t1 i)
    have a2 := abs_le.1 (t2 i)
    rw [e2 i] at a2
    have a3 := abs_le.1 (x i)
    have a4 := abs_le.1 (y i)
    rw [abs_le]; constructor <;> norm_num at a1 a2 a3 a4 s ⊢ <;> linarith
  refine ⟨p 0, p 1, k1 0, k1 1, k2 0, k2 1, v 0 - (p 0 + p 1 / 2), v 1 - p 1 * honeyRoot (n 1) / 2, ?_, ?_, ?_⟩
  · have e3 : hexCentre (honeyRoot (n 1)) (fun k => c' k + p k) 0 - hexCentre (honeyRoot (n 1)) c' 0 = p 0 + p 1 / 2 := by
      simp only [hexCentre, Matrix.cons_val_zero]; push_cast; ring
    rw [← e3]; exact tot 0
  · have e3 : hexCentre (honeyRoot (n 1)) (fun k => c' k + p k) 1 - hexCentre (honeyRoot (n 1)) c' 1 = p 1 * honeyRoot (n 1) / 2 := by
      simp only [hexCentre, Matrix.cons_val_one, Matrix.cons_val_fin_one]; push_cast; ring
    rw [← e3]; exact tot 1
  · funext i
    revert i
    refine vec2 ?_ ?_
    · simp
    · simp

/-- The distance between two stored hexagons. -/
theorem HoneyArith.dist {c c' : Fin 2 → ℤ} (hc : ∀ k, 0 ≤ c k ∧ c k < n k) (hc' : ∀ k, 0 ≤ c' k ∧ c' k < n k) (hne : c ≠ c') :
    ((∃ v ∈ hexSteps, ∀ k, n k ∣ c' k - c k - v k) → |A.dist (Dbl.scaled Dbl.honeyLattice n) (hexStored c) (hexStored c') - 1| ≤ 1 / 400) ∧
    (¬ (∃ v ∈ hexSteps, ∀ k, n k ∣ c' k - c k - v k) → 135 / 100 ≤ A.dist (Dbl.scaled Dbl.honeyLattice n) (hexStored c) (hexStored c')) := by
  obtain ⟨r1, r2⟩ := h.root
  obtain ⟨p, q, bp, bq, ⟨t0, hp⟩, ⟨t1, hq⟩, δ₀, δ₁, h0, h1, hv⟩ := h.diff hc hc'
  have hm := measured h.prod.sq ![(p : ℚ) + q / 2 + δ₀, q * honeyRoot (n 1) / 2 + δ₁]
  rw [Dbl.Arith.dist, hv]
  have uniq : ∀ (z w N : ℤ), 3 ≤ N → |2 * z| ≤ N → |w| ≤ 1 → N ∣ z - w → z = w := by
    intro z w N hN hz hw hd
    have a := abs_le.1 hz
    have b := abs_le.1 hw
    refine sub_eq_zero.1 (Int.eq_zero_of_abs_lt_dvd hd ?_)
    rw [abs_lt]; omega
  have bound : ∀ v ∈ hexSteps, |v 0| ≤ 1 ∧ |v 1| ≤ 1 := by decide
  have neg : ∀ v ∈ hexSteps, ![- v 0, - v 1] ∈ hexSteps := by decide
  constructor
  · rintro ⟨v, hvm, hd⟩
    have b := bound v hvm
    have e0 : p = - v 0 := by
      refine uniq p (- v 0) (n 0) (h.size 0).1 bp (by rw [abs_neg]; exact b.1) ?_
      obtain ⟨u, hu⟩ := hd 0
      exact ⟨-u - t0, by linarith⟩
    have e1 : q = - v 1 := by
      refine uniq q (- v 1) (n 1) (h.size 1).1 bq (by rw [abs_neg]; exact b.2) ?_
      obtain ⟨u, hu⟩ := hd 1
      exact ⟨-u - t1, by linarith⟩
    have hs : ![p, q] ∈ hexSteps := by rw [e0, e1]; exact neg v hvm
    have := hex_close2 r1 r2 h0 h1 p q hs rfl rfl
    exact hm.2 this.1 this.2
  · intro hno
    refine hm.1 (hex_far2 (r := honeyRoot (n 1)) (by linarith) h0 h1 p q ?_ ?_ rfl rfl)
    · rintro ⟨rfl, rfl⟩
      apply hne
      have z0 : c 0 - c' 0 = 0 := Int.eq_zero_of_abs_lt_dvd (m := n 0) ⟨t0, by linarith⟩
        (by have a := hc 0; have b := hc' 0; rw [abs_lt]; omega)
      have z1 : c 1 - c' 1 = 0 := Int.eq_zero_of_abs_lt_dvd (m := n 1) ⟨t1, by linarith⟩
        (by have a := hc 1; have b := hc' 1; rw [abs_lt]; omega)
      funext i
      revert i
      exact vec2 (sub_eq_zero.1 z0) (sub_eq_zero.1 z1)
    · intro hs
      refine hno ⟨_, neg _ hs, vec2 ⟨-t0, ?_⟩ ⟨-t1, ?_⟩⟩
      · simp; linarith
      · simp; linarith

end

end Pyl
