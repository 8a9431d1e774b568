import Verif.Model.DoubleAnalyzer
import Verif.Lemmas.Double
import Verif.Lemmas.DoubleSum
import Verif.Props.ResultAnalyzer
/-
C112, C113: fractions, plotted steps and chunk sizes in double precision.
-/
set_option autoImplicit false
set_option linter.unusedSectionVars false

namespace Pyl
open SimState Spec Analyzer SimResult ResultAnalyzer
variable {K : Type} [Field K] [LinearOrder K] [IsStrictOrderedRing K] [FloorRing K] {d : ℕ}

/-! ### Comparing rounded quotients -/

theorem fl_mono {x y : ℚ} (h : x ≤ y) : fl x ≤ fl y := by
  rcases h.eq_or_lt with rfl | h
  · exact le_rfl
  by_contra hc
  rw [not_le] at hc
  have h1 := sq_le_sq.2 (fl_nearest x (isDouble_fl y))
  have h2 := sq_le_sq.2 (fl_nearest y (isDouble_fl x))
  have h3 : fl x + fl y ≤ 2 * x := by
    by_contra h4
    nlinarith
  have h4 : 2 * y ≤ fl x + fl y := by
    by_contra h4
    nlinarith
  linarith

/-- Numbers that are far enough apart are rounded to different doubles. -/
theorem fl_lt {x y : ℚ} (h : |x| + |y| < 2 ^ 53 * (y - x)) : fl x < fl y := by
  have h1 := abs_le.1 (fl_err x)
  have h2 := abs_le.1 (fl_err y)
  have h3 : |x| / 2 ^ 53 + |y| / 2 ^ 53 < y - x := by
    rw [← add_div, div_lt_iff₀ (by positivity)]; linarith
  linarith [h1.2, h2.1]

/-- Rounded quotients compare like the quotients if the numbers are small enough. -/
theorem fl_div_lt {a b N M : ℕ} (hN : 0 < N) (hM : 0 < M) (h : a * M + b * N < 2 ^ 53) :
    fl ((a : ℚ) / N) < fl ((b : ℚ) / M) ↔ a * M < b * N := by
  have hN' : (0 : ℚ) < N := by exact_mod_cast hN
  have hM' : (0 : ℚ) < M := by exact_mod_cast hM
  constructor
  · intro h1
    by_contra h2
    refine absurd (fl_mono ?_) (not_le.2 h1)
    rw [div_le_div_iff₀ hM' hN']
    exact_mod_cast not_lt.1 h2
  · intro h1
    apply fl_lt
    rw [abs_of_nonneg (by positivity), abs_of_nonneg (by positivity), div_add_div _ _ hN'.ne' hM'.ne', div_sub_div _ _ hM'.ne' hN'.ne',
      mul_div_assoc', div_lt_div_iff₀ (by positivity) (by positivity)]
    have h2 : (a : ℚ) * M + b * N < 2 ^ 53 := by exact_mod_cast h
    have h3 : (a : ℚ) * M + 1 ≤ b * N := by exact_mod_cast h1
    have h4 : (a : ℚ) * M + N * b < 2 ^ 53 * (b * N - M * a) := by nlinarith
    nlinarith [mul_pos hN' hM']

theorem fl_div_lt_same {a b N : ℕ} (hN : 0 < N) (h : a + b < 2 ^ 53) : fl ((a : ℚ) / N) < fl ((b : ℚ) / N) ↔ a < b := by
  have hN' : (0 : ℚ) < N := by exact_mod_cast hN
  constructor
  · intro h1
    by_contra h2
    refine absurd (fl_mono ?_) (not_le.2 h1)
    rw [div_le_div_iff_of_pos_right hN']
    exact_mod_cast not_lt.1 h2
  · intro h1
    apply fl_lt
    rw [abs_of_nonneg (by positivity), abs_of_nonneg (by positivity), ← add_div, ← sub_div, mul_div_assoc', div_lt_div_iff_of_pos_right hN']
    have h2 : (a : ℚ) + b < 2 ^ 53 := by exact_mod_cast h
    have h3 : (a : ℚ) + 1 ≤ b := by exact_mod_cast h1
    linarith

theorem fl_one : fl 1 = 1 := by have := fl_int (m := 1) (by norm_num); simpa using this

theorem fl_div_eq_zero {a N : ℕ} (hN : 0 < N) : fl ((a : ℚ) / N) = 0 ↔ a = 0 := by
  have hN' : (0 : ℚ) < N := by exact_mod_cast hN
  constructor
  · intro h
    by_contra h0
    have ha : (0 : ℚ) < (a : ℚ) / N := by
      have : (0 : ℚ) < a := by exact_mod_cast Nat.pos_of_ne_zero h0
      positivity
    have := fl_lt (x := 0) (y := (a : ℚ) / N) (by rw [abs_zero, abs_of_pos ha]; linarith)
    rw [fl_zero, h] at this
    exact lt_irrefl _ this
  · rintro rfl; simp [fl]

theorem fl_div_eq_one {a N : ℕ} (hN : 0 < N) (h : a + N < 2 ^ 53) : fl ((a : ℚ) / N) = 1 ↔ a = N := by
  have hN' : (N : ℚ) ≠ 0 := by exact_mod_cast hN.ne'
  have h1 := fl_div_lt_same (a := a) (b := N) hN h
  have h2 := fl_div_lt_same (a := N) (b := a) hN (by omega)
  rw [div_self hN', fl_one] at h1 h2
  constructor
  · intro e
    rw [e] at h1 h2
    have h3 : ¬ a < N := fun h => lt_irrefl _ (h1.2 h)
    have h4 : ¬ N < a := fun h => lt_irrefl _ (h2.2 h)
    omega
  · rintro rfl; rw [div_self hN', fl_one]

theorem fl_div_le_one {a N : ℕ} (hN : 0 < N) (h : a ≤ N) : 0 ≤ fl ((a : ℚ) / N) ∧ fl ((a : ℚ) / N) ≤ 1 := by
  have hN' : (0 : ℚ) < N := by exact_mod_cast hN
  constructor
  · rw [← fl_zero]; exact fl_mono (by positivity)
  · rw [← fl_one]; exact fl_mono (by rw [div_le_one hN']; exact_mod_cast h)

/-! ### C112: fractions -/

theorem sitesWith_le (s : SimState) (v : Val) : sitesWith s v ≤ s.size := List.length_filter_le _ _

theorem sitesWith_eq_zero {s : SimState} {v : Val} : sitesWith s v = 0 ↔ ∀ k ∈ s.siteIds, occ? s k ≠ some v := by
  simp [sitesWith, List.filter_eq_nil_iff]

theorem sitesWith_eq_size {s : SimState} {v : Val} : sitesWith s v = s.size ↔ ∀ k ∈ s.siteIds, occ? s k = some v := by
  have e : s.size = s.siteIds.length := rfl
  rw [e, sitesWith, List.length_filter_eq_length_iff]
  simp

theorem dbl_cellFraction {A : Option (Structure K d)} {s : SimState} (h : Analyzable s) (hA : Fits A s) (h0 : s.size ≠ 0) {v : Val} (hv : v.hashable = true) :
    Dbl.cellFraction A s v = .ok (fl ((sitesWith s v : ℚ) / s.size)) := by
  unfold Dbl.cellFraction
  rw [C71_count A s h hA v hv, ok_bind, if_neg h0]; rfl

theorem dbl_cellFraction_none {s : SimState} (h : Analyzable s) (h0 : s.size ≠ 0) {v : Val} (hv : v.hashable = true) :
    Dbl.cellFraction (K := Unit) (d := 0) none s v = .ok (fl ((sitesWith s v : ℚ) / s.size)) := by
  have : Dbl.cellFraction (K := Unit) (d := 0) none s v = Dbl.cellFraction (K := ℚ) (d := 0) none s v := rfl
  rw [this]
  exact dbl_cellFraction h (by intro S hS; cases hS) h0 hv

/-- C112: `cell_fraction` in double precision lies between 0 and 1, is 0 exactly when no site has the phase, 1 exactly when all sites have it, and is off by
at most one part in 2^53. -/
theorem C112_fraction (A : Option (Structure K d)) (s : SimState) (h : Analyzable s) (hA : Fits A s) (h0 : s.size ≠ 0) (hN : s.size < 2 ^ 52) (v : Val)
    (hv : v.hashable = true) :
    ∃ f, Dbl.cellFraction A s v = .ok f ∧ 0 ≤ f ∧ f ≤ 1 ∧ |f - (sitesWith s v : ℚ) / s.size| ≤ 1 / 2 ^ 53 ∧
      (f = 0 ↔ ∀ k ∈ s.siteIds, occ? s k ≠ some v) ∧ (f = 1 ↔ ∀ k ∈ s.siteIds, occ? s k = some v) := by
  have hp : 0 < s.size := Nat.pos_of_ne_zero h0
  have hle := sitesWith_le s v
  refine ⟨_, dbl_cellFraction h hA h0 hv, (fl_div_le_one hp hle).1, (fl_div_le_one hp hle).2, ?_, ?_, ?_⟩
  · refine (fl_err _).trans (div_le_div_of_nonneg_right ?_ (by positivity))
    rw [abs_of_nonneg (by positivity), div_le_one (by exact_mod_cast hp)]
    exact_mod_cast hle
  · rw [fl_div_eq_zero hp, sitesWith_eq_zero]
  · rw [fl_div_eq_one hp (by omega), sitesWith_eq_size]

/-- C112: on a state without sites it raises ZeroDivisionError, as with exact fractions. -/
theorem C112_empty (A : Option (Structure K d)) (s : SimState) (h : Analyzable s) (hA : Fits A s) (h0 : s.size = 0) (v : Val) (hv : v.hashable = true) :
    Dbl.cellFraction A s v = .error .zeroDivisionError := by
  unfold Dbl.cellFraction
  rw [C71_count A s h hA v hv, ok_bind, if_pos h0]

/-- C112: of two phases, or of two states with the same number of sites, the larger fraction is the one of more sites; states of different sizes compare
like the exact fractions as long as the product of the sizes is below 2^52. -/
theorem C112_order (A B : Option (Structure K d)) (s t : SimState) (hs : Analyzable s) (ht : Analyzable t) (hA : Fits A s) (hB : Fits B t) (h0 : s.size ≠ 0)
    (h1 : t.size ≠ 0) (hN : s.size = t.size ∧ s.size < 2 ^ 52 ∨ s.size * t.size < 2 ^ 52) (v w : Val) (hv : v.hashable = true) (hw : w.hashable = true) :
    ∃ f g, Dbl.cellFraction A s v = .ok f ∧ Dbl.cellFraction B t w = .ok g ∧
      (f < g ↔ (sitesWith s v : ℚ) / s.size < (sitesWith t w : ℚ) / t.size) ∧ (f = g ↔ (sitesWith s v : ℚ) / s.size = (sitesWith t w : ℚ) / t.size) := by
  have hp : 0 < s.size := Nat.pos_of_ne_zero h0
  have hq : 0 < t.size := Nat.pos_of_ne_zero h1
  have hp' : (0 : ℚ) < s.size := by exact_mod_cast hp
  have hq' : (0 : ℚ) < t.size := by exact_mod_cast hq
  have hlt : (fl ((sitesWith s v : ℚ) / s.size) < fl ((sitesWith t w : ℚ) / t.size) ↔ (sitesWith s v : ℚ) / s.size < (sitesWith t w : ℚ) / t.size) ∧
      (fl ((sitesWith t w : ℚ) / t.size) < fl ((sitesWith s v : ℚ) / s.size) ↔ (sitesWith t w : ℚ) / t.size < (sitesWith s v : ℚ) / s.size) := by
    have h2 := sitesWith_le s v
    have h3 := sitesWith_le t w
    rcases hN with ⟨e, hN⟩ | hN
    · rw [← e] at h3 hq' ⊢
      rw [fl_div_lt_same hp (by omega), fl_div_lt_same hp (by omega), div_lt_div_iff_of_pos_right hp', div_lt_div_iff_of_pos_right hp']
      constructor <;> norm_cast
    · have h4 := Nat.mul_le_mul h2 (le_refl t.size)
      have h5 := Nat.mul_le_mul h3 (le_refl s.size)
      have h6 := Nat.mul_comm s.size t.size
      rw [fl_div_lt hp hq (by omega), fl_div_lt hq hp (by omega), div_lt_div_iff₀ hp' hq', div_lt_div_iff₀ hq' hp']
      constructor <;> norm_cast
  refine ⟨_, _, dbl_cellFraction hs hA h0 hv, dbl_cellFraction ht hB h1 hw, hlt.1, ?_⟩
  constructor
  · intro e
    have h2 := fun h => lt_irrefl _ (e ▸ hlt.1.2 h)
    have h3 := fun h => lt_irrefl _ (e ▸ hlt.2.2 h)
    exact le_antisymm (not_lt.1 h3) (not_lt.1 h2)
  · intro e; rw [e]

/-- C112: `cell_ratio` in double precision is below, equal to or above 1 as there are fewer, as many or more sites of the first phase than of the second; it raises
ZeroDivisionError if the second phase does not occur. -/
theorem C112_ratio (A : Option (Structure K d)) (s : SimState) (h : Analyzable s) (hA : Fits A s) (hN : s.size < 2 ^ 52) (v w : Val) (hv : v.hashable = true)
    (hw : w.hashable = true) :
    (sitesWith s w ≠ 0 → ∃ r, Dbl.cellRatio A s v w = .ok r ∧ |r - (sitesWith s v : ℚ) / sitesWith s w| ≤ (sitesWith s v : ℚ) / sitesWith s w / 2 ^ 53 ∧
      (r = 0 ↔ sitesWith s v = 0) ∧ (r < 1 ↔ sitesWith s v < sitesWith s w) ∧ (r = 1 ↔ sitesWith s v = sitesWith s w)) ∧
    (sitesWith s w = 0 → Dbl.cellRatio A s v w = .error .zeroDivisionError) := by
  have h2 := sitesWith_le s v
  have h3 := sitesWith_le s w
  unfold Dbl.cellRatio
  rw [C71_count A s h hA v hv, C71_count A s h hA w hw, ok_bind, ok_bind]
  refine ⟨fun h0 => ?_, fun h0 => by rw [if_pos h0]⟩
  rw [if_neg h0]
  have hp : 0 < sitesWith s w := Nat.pos_of_ne_zero h0
  refine ⟨_, rfl, ?_, fl_div_eq_zero hp, ?_, fl_div_eq_one hp (by omega)⟩
  · have := fl_err ((sitesWith s v : ℚ) / sitesWith s w)
    rwa [abs_of_nonneg (a := (sitesWith s v : ℚ) / sitesWith s w) (by positivity)] at this
  · have := fl_div_lt_same (a := sitesWith s v) hp (b := sitesWith s w) (by omega)
    rwa [div_self (by exact_mod_cast h0), fl_one] at this

/-- C112: the fractions of the phases of a state add up to 1 within one part in 2^53 (the sum being taken exactly, as `math.fsum` does before its last rounding). -/
theorem C112_sum (A : Option (Structure K d)) (s : SimState) (h : Analyzable s) (hA : Fits A s) (h0 : s.size ≠ 0) (order : List Val → List Val)
    (hord : ∀ l, (order l).Perm l) :
    ∃ (phases : List Val) (frac : Val → ℚ), phasesPresent order s = .ok phases ∧ (∀ v ∈ phases, Dbl.cellFraction A s v = .ok (frac v)) ∧
      |(phases.map frac).sum - 1| ≤ 1 / 2 ^ 53 := by
  obtain ⟨phases, h1, h2, h3, -, -, h4⟩ := C71_partition A s h hA order hord
  obtain ⟨frac, h5, h6⟩ := h4 h0
  have hh : ∀ v ∈ phases, v.hashable = true := fun v hv => by
    obtain ⟨k, hk⟩ := (h3 v).1 hv
    exact hashable_of_occ h.2.2 hk
  have h7 : ∀ v ∈ phases, frac v = (sitesWith s v : ℚ) / s.size := fun v hv => by
    have := h5 v hv
    unfold cellFraction at this
    rw [C71_count A s h hA v (hh v hv), ok_bind, if_neg h0] at this
    injection this with this
    exact this.symm
  refine ⟨phases, fun v => fl (frac v), h1, fun v hv => by simp only [dbl_cellFraction h hA h0 (hh v hv), h7 v hv], ?_⟩
  have h8 : ∀ l : List Val, (∀ v ∈ l, 0 ≤ frac v) → |(l.map fun v => fl (frac v)).sum - (l.map frac).sum| ≤ (l.map frac).sum / 2 ^ 53 := by
    intro l hl
    induction l with
    | nil => simp
    | cons v l ih =>
      simp only [List.map_cons, List.sum_cons]
      have h9 := fl_err (frac v)
      rw [abs_of_nonneg (hl v (by simp))] at h9
      have h10 := ih fun v hv => hl v (by simp [hv])
      rw [abs_le] at *
      rw [add_div]
      constructor <;> linarith [h9.1, h9.2, h10.1, h10.2]
  have h9 := h8 phases fun v hv => by rw [h7 v hv]; positivity
  rwa [h6] at h9

/-- C112: `phase_fraction_at` is the rounded fraction of the given step. -/
theorem C112_at (s0 : SimState) (ops : List ROp) (h : StepsAnalyzable (resultAfter s0 ops)) (k : ℕ) (hk : k < (resultAfter s0 ops).len) (v : Val)
    (hv : v.hashable = true) :
    ∃ s, (resultAfter s0 ops).getStep k = .ok s ∧ Dbl.phaseFractionAt (resultAfter s0 ops) k v = .ok (fl ((sitesWith s v : ℚ) / s.size)) := by
  obtain ⟨s, h1, h2, h3⟩ := h k hk
  refine ⟨s, h1, ?_⟩
  unfold Dbl.phaseFractionAt
  rw [h1, ok_bind]
  exact dbl_cellFraction_none h2 h3 hv

/-- C112: `final_phase_fractions` has the phases present at some step except the last, each once, with its rounded fraction at the last step; the values are 0
exactly for the phases that have died out. -/
theorem C112_final (s0 : SimState) (ops : List ROp) (h : StepsAnalyzable (resultAfter s0 ops)) (order : ℕ → List Val → List Val)
    (hord : ∀ t l, (order t l).Perm l) :
    ∃ (fr : Dict Val ℚ) (last : SimState), Dbl.finalPhaseFractions ResultAnalyzer.new (resultAfter s0 ops) order = .ok fr ∧ (resultAfter s0 ops).lastStep = .ok last ∧
      (Dict.keys fr).Nodup ∧ (∀ v, v ∈ Dict.keys fr ↔ ∃ k, k + 1 < (resultAfter s0 ops).len ∧ PhaseAt (resultAfter s0 ops) k v) ∧
      ∀ v f, (v, f) ∈ fr → f = fl ((sitesWith last v : ℚ) / last.size) ∧ (f = 0 ↔ ∀ k ∈ last.siteIds, occ? last k ≠ some v) := by
  obtain ⟨l, h1, h2, h3, h4⟩ := allPhases_eq s0 ops h order hord
  obtain ⟨last, h5, h6, h7⟩ := h ((resultAfter s0 ops).len - 1) (by rw [C30_len]; omega)
  rw [← lastStep_eq] at h5
  refine ⟨l.map fun v => (v, fl ((sitesWith last v : ℚ) / last.size)), last, ?_, h5, ?_, ?_, ?_⟩
  · unfold Dbl.finalPhaseFractions
    rw [h1, ok_bind]
    have := foldlM_set (f := fun v => fl ((sitesWith last v : ℚ) / last.size)) l h2 [] (by simp [Dict.keys]) (g := fun v => do
      let s ← (resultAfter s0 ops).lastStep
      Dbl.cellFraction (K := Unit) (d := 0) none s v) fun v hv => by
        simp only [h5, ok_bind]
        exact dbl_cellFraction_none h6 h7 (h4 v hv)
    simpa [bind_assoc] using this
  · simpa [Dict.keys, Function.comp_def] using h2
  · intro v
    rw [← h3]
    simp [Dict.keys]
  · intro v f hv
    obtain ⟨w, -, e⟩ := List.mem_map.1 hv
    injection e with e1 e2
    subst e1
    exact ⟨e2.symm, by rw [← e2, fl_div_eq_zero (Nat.pos_of_ne_zero h7), sitesWith_eq_zero]⟩

/-! ### C113: plotted steps and batches -/

theorem round_fl {n : ℕ} (hn : n < 2 ^ 53) : roundHalfEven (fl ((n : ℚ) / 100)) = roundHalfEven ((n : ℚ) / 100) := by
  obtain ⟨k, hk⟩ : ∃ k : ℤ, roundHalfEven ((n : ℚ) / 100) = k := ⟨_, rfl⟩
  rw [hk]
  have hN := roundHalfEven_eq_iff.1 hk
  rcases hN with h | ⟨h, h2⟩
  · rw [roundHalfEven_eq_iff]
    left
    have e : 2 * ((n : ℚ) / 100 - k) = ((2 * n - 200 * k : ℤ) : ℚ) / 100 := by push_cast; ring
    rw [e, abs_div, abs_of_pos (by norm_num : (0 : ℚ) < 100), div_lt_one (by norm_num)] at h
    have h3 : |(2 * n - 200 * k : ℤ)| < 100 := by exact_mod_cast h
    rw [abs_lt] at h3
    have h4 : -98 ≤ (2 * n - 200 * k : ℤ) ∧ (2 * n - 200 * k : ℤ) ≤ 98 := by omega
    have h5 : (-98 : ℚ) ≤ 2 * n - 200 * k ∧ (2 * n - 200 * k : ℚ) ≤ 98 := by
      constructor <;> [exact_mod_cast h4.1; exact_mod_cast h4.2]
    have h6 := fl_err ((n : ℚ) / 100)
    rw [abs_of_nonneg (a := (n : ℚ) / 100) (by positivity)] at h6
    have h7 : (n : ℚ) / 100 / 2 ^ 53 < 1 / 100 := by
      rw [div_lt_iff₀ (by positivity), div_lt_iff₀ (by norm_num)]
      have : (n : ℚ) < 2 ^ 53 := by exact_mod_cast hn
      linarith
    rw [abs_le] at h6
    rw [abs_lt]
    constructor <;> linarith [h6.1, h6.2, h5.1, h5.2]
  · have e : 2 * ((n : ℚ) / 100 - k) = ((2 * n - 200 * k : ℤ) : ℚ) / 100 := by push_cast; ring
    rw [← hk]
    congr 1
    apply fl_of_isDouble
    have h3 : ∃ m : ℤ, 2 * ((n : ℚ) / 100) = m := by
      rcases (abs_eq (by norm_num)).1 h with h | h
      · exact ⟨2 * k + 1, by push_cast; linarith⟩
      · exact ⟨2 * k - 1, by push_cast; linarith⟩
    obtain ⟨m, hm⟩ := h3
    refine ⟨m, -1, ?_, by rw [zpow_neg, zpow_one]; linarith⟩
    have h4 : (50 * m : ℤ) = n := by
      have : (50 * m : ℚ) = n := by rw [← hm]; ring
      exact_mod_cast this
    rw [abs_le]; omega

theorem stepSize_dbl {n : ℕ} (h0 : n ≠ 0) (hn : n < 2 ^ 53) : Dbl.stepSize n = stepSize n := by
  unfold Dbl.stepSize stepSize
  by_cases h : 100 ≤ n
  · rw [min_eq_left h]
    push_cast
    rw [round_fl hn]
  · rw [min_eq_right (by omega), div_self (by exact_mod_cast h0), fl_one]

theorem getStepsToPlot_dbl {r : SimResult} (hn : r.len < 2 ^ 53) : Dbl.getStepsToPlot r = getStepsToPlot r := by
  unfold Dbl.getStepsToPlot getStepsToPlot
  by_cases h0 : r.len = 0
  · rw [if_pos h0, if_pos h0]
  · rw [if_neg h0, if_neg h0, stepSize_dbl h0 hn]

/-- C113: with the step distance computed in double precision, the steps chosen for plotting start at 0, increase, are valid and at most 149; all steps are plotted
if there are fewer than 150; the states are those of the chosen steps and the result keeps its steps. -/
theorem C113_steps (s0 : SimState) (ops : List ROp) (h : StepsAnalyzable (resultAfter s0 ops)) (hn : (resultAfter s0 ops).len < 2 ^ 53) :
    ∃ (idxs : List ℤ) (states : List SimState) (r' : SimResult), Dbl.getStepsToPlot (resultAfter s0 ops) = .ok (idxs, states, r') ∧
      idxs.head? = some 0 ∧ idxs.Pairwise (· < ·) ∧ (∃ k : ℤ, 1 ≤ k ∧ ∀ x, x ∈ idxs ↔ 0 ≤ x ∧ x < (resultAfter s0 ops).len ∧ k ∣ x) ∧ idxs.length ≤ 149 ∧
      ((resultAfter s0 ops).len < 150 → idxs.length = (resultAfter s0 ops).len) ∧ states.length = idxs.length ∧
      (∀ (i : ℕ) (x : ℤ), idxs[i]? = some x → ∃ s, states[i]? = some s ∧ (resultAfter s0 ops).getStep x = .ok s) ∧
      r'.len = (resultAfter s0 ops).len ∧ ∀ j : ℕ, j < r'.len → r'.getStep j = (resultAfter s0 ops).getStep j := by
  obtain ⟨states, r', h1, -, h2, h3, h4, h5⟩ := C73_states s0 ops h
  obtain ⟨h6, h7, h8, h9, h10⟩ := C73_steps (resultAfter s0 ops).len (by rw [C30_len]; omega)
  exact ⟨_, states, r', by rw [getStepsToPlot_dbl hn, h1], h7, h8, h6, h9, h10, h2, h3, h4, h5⟩

theorem chunkSize_dbl {n w : ℕ} (hw : 0 < w) (hn : n < 2 ^ 53) : Dbl.chunkSize n w = chunkSize n w := by
  have hw' : (0 : ℚ) < w := by exact_mod_cast hw
  unfold Dbl.chunkSize chunkSize
  set c := (n + w - 1) / w with hc
  have h1 : n ≤ c * w := by
    have h2 := Nat.div_add_mod (n + w - 1) w
    have h3 := Nat.mod_lt (n + w - 1) hw
    rw [← hc] at h2
    have : w * c = c * w := Nat.mul_comm _ _
    omega
  have h2 : c * w < n + w := by
    have := Nat.div_mul_le_self (n + w - 1) w
    rw [← hc] at this
    omega
  have hcn : c ≤ n := by
    by_contra h3
    have h4 : (n + 1) * w ≤ c * w := Nat.mul_le_mul_right _ (by omega)
    nlinarith
  suffices ⌈fl ((n : ℚ) / w)⌉ = (c : ℤ) by rw [this]; rfl
  rw [Int.ceil_eq_iff]
  constructor
  · rcases Nat.eq_zero_or_pos c with h0 | h0
    · have : n = 0 := by nlinarith
      rw [this, h0]; norm_num [fl]
    · have h3 := (abs_le.1 (fl_err ((n : ℚ) / w))).1
      rw [abs_of_nonneg (a := (n : ℚ) / w) (by positivity)] at h3
      have h4 : ((c : ℚ) - 1) + 1 / w ≤ n / w := by
        rw [← sub_nonneg]
        have : (n : ℚ) / w - ((c - 1) + 1 / w) = (n + w - c * w - 1) / w := by field_simp; ring
        rw [this]
        have : (c : ℚ) * w + 1 ≤ n + w := by exact_mod_cast h2
        exact div_nonneg (by linarith) hw'.le
      have h5 : (n : ℚ) / w / 2 ^ 53 < 1 / w := by
        rw [div_div, div_lt_div_iff₀ (by positivity) hw']
        have : (n : ℚ) < 2 ^ 53 := by exact_mod_cast hn
        nlinarith
      push_cast
      linarith
  · have h3 : fl ((c : ℤ) : ℚ) = (c : ℤ) := fl_int (by clear_value c; rw [abs_le]; omega)
    rw [← h3]
    apply fl_mono
    rw [div_le_iff₀ hw']
    push_cast
    exact_mod_cast h1

/-- C113: the batch size `ceil(sites / workers)` in double precision is the smallest one for which that many batches hold all sites. -/
theorem C113_batch (n w : ℕ) (hw : 0 < w) (hn : n < 2 ^ 53) : n ≤ Dbl.chunkSize n w * w ∧ ∀ c, n ≤ c * w → Dbl.chunkSize n w ≤ c := by
  rw [chunkSize_dbl hw hn]
  unfold chunkSize
  constructor
  · have h2 := Nat.div_add_mod (n + w - 1) w
    have h3 := Nat.mod_lt (n + w - 1) hw
    have := Nat.mul_comm w ((n + w - 1) / w)
    omega
  · intro c hc
    have : (n + w - 1) / w < c + 1 := by rw [Nat.div_lt_iff_lt_mul hw, Nat.add_mul]; omega
    omega

/-- C113: a parallel run with the batch size computed in double precision is the run of C19-C22. -/
theorem C113_run {σ : Type} (c : Controller σ) (fork : ℕ → σ → σ) (st : σ) (s0 : SimState) (w n : ℕ) (sched : ℕ → StepSched)
    (hs : ∀ st' s1, c.preRun st s0 = .ok (st', s1) → s1.size < 2 ^ 53) :
    Dbl.runParallel c fork st s0 w n sched = runParallel c fork st s0 w n sched := by
  unfold Dbl.runParallel runParallel
  cases hp : c.preRun st s0 with
  | error e => rfl
  | ok x =>
    rw [ok_bind, ok_bind]
    obtain ⟨st', s1⟩ := x
    by_cases hw : w = 0
    · simp only [if_pos hw]
    · simp only [if_neg hw, chunkSize_dbl (Nat.pos_of_ne_zero hw) (hs _ _ hp)]

/-! ### The plot -/

/-- C112: with fractions and threshold in double precision, `plot_phase_fractions` draws exactly the phases (present at some step except the last) whose exact fraction
exceeds the threshold `p / q` at some plotted step. -/
theorem C112_plot (s0 : SimState) (ops : List ROp) (h : StepsAnalyzable (resultAfter s0 ops)) (order : ℕ → List Val → List Val)
    (hord : ∀ t l, (order t l).Perm l) (hn : (resultAfter s0 ops).len < 2 ^ 53) (p q : ℕ) (hq : 0 < q) (hpq : p ≤ q)
    (hN : ∀ (k : ℕ) s, (resultAfter s0 ops).getStep k = .ok s → q * s.size < 2 ^ 52) :
    ∃ traces right, Dbl.plotPhaseFractions ResultAnalyzer.new (resultAfter s0 ops) order (fl ((p : ℚ) / q)) = .ok (traces, right) ∧
      (traces.map fun t => t.1).Nodup ∧
      (∀ v, v ∈ (traces.map fun t => t.1) ↔ (∃ k, k + 1 < (resultAfter s0 ops).len ∧ PhaseAt (resultAfter s0 ops) k v) ∧
        ∃ x ∈ stepRange (resultAfter s0 ops).len (stepSize (resultAfter s0 ops).len), (p : ℚ) / q < fractionAt (resultAfter s0 ops) v x) ∧
      (∀ t ∈ traces, t.2.1 = stepRange (resultAfter s0 ops).len (stepSize (resultAfter s0 ops).len) ∧
        t.2.2 = t.2.1.map fun x => fl (fractionAt (resultAfter s0 ops) t.1 x)) ∧
      (stepRange (resultAfter s0 ops).len (stepSize (resultAfter s0 ops).len)).getLast? = some right := by
  obtain ⟨states, r', l, right, h1, hright, h4, h5, h7, hph, hst, hmap⟩ := plot_parts s0 ops h order hord
  set idxs := stepRange (resultAfter s0 ops).len (stepSize (resultAfter s0 ops).len) with hidx
  set fr := fun (v : Val) (x : ℤ) => fl (fractionAt (resultAfter s0 ops) v x) with hfr
  have hys : ∀ v : Val, v.hashable = true → (states.mapM fun s => Dbl.cellFraction (K := Unit) (d := 0) none s v) = .ok (idxs.map (fr v)) := by
    intro v hv
    rw [mapM_ok (g := fun s : SimState => fl ((sitesWith s v : ℚ) / s.size)) states fun s hs => by
      obtain ⟨k, -, -, h8, h9⟩ := hst s hs
      exact dbl_cellFraction_none h8 h9 hv]
    have := congrArg (List.map fl) (hmap v)
    rw [List.map_map, List.map_map] at this
    exact congrArg Except.ok this
  have hlt : ∀ v, ∀ x ∈ idxs, fl ((p : ℚ) / q) < fr v x ↔ (p : ℚ) / q < fractionAt (resultAfter s0 ops) v x := by
    intro v x hx
    have hm : fractionAt (resultAfter s0 ops) v x ∈ idxs.map (fractionAt (resultAfter s0 ops) v) := List.mem_map_of_mem hx
    rw [← hmap v] at hm
    obtain ⟨s, hs, e⟩ := List.mem_map.1 hm
    obtain ⟨k, -, h8, -, h9⟩ := hst s hs
    have hz : 0 < s.size := Nat.pos_of_ne_zero h9
    have h10 := hN k s h8
    have h11 := sitesWith_le s v
    simp only [hfr, ← e]
    rw [fl_div_lt hq hz (by nlinarith [Nat.mul_le_mul hpq (le_refl s.size), Nat.mul_le_mul h11 (le_refl q)]),
      div_lt_div_iff₀ (by exact_mod_cast hq) (by exact_mod_cast hz)]
    norm_cast
  have htr : ∀ t : Val × List ℤ × List ℚ, t ∈ (l.map fun v => (v, idxs, idxs.map (fr v))).filter
      (fun t => decide (∃ y ∈ t.2.2, fl ((p : ℚ) / q) < y)) ↔ t.1 ∈ l ∧ t.2.1 = idxs ∧ t.2.2 = idxs.map (fr t.1) ∧
        ∃ x ∈ idxs, (p : ℚ) / q < fractionAt (resultAfter s0 ops) t.1 x := by
    intro t
    rw [List.mem_filter, List.mem_map, decide_eq_true_eq]
    constructor
    · rintro ⟨⟨v, hv, rfl⟩, y, hy, hm⟩
      obtain ⟨x, hx, rfl⟩ := List.mem_map.1 hy
      exact ⟨hv, rfl, rfl, x, hx, (hlt v x hx).1 hm⟩
    · rintro ⟨h8, h9, h10, x, hx, hm⟩
      exact ⟨⟨t.1, h8, by rw [← h10, ← h9]⟩, _, h10 ▸ List.mem_map_of_mem hx, (hlt t.1 x hx).2 hm⟩
  refine ⟨(l.map fun v => (v, idxs, idxs.map (fr v))).filter fun t => decide (∃ y ∈ t.2.2, fl ((p : ℚ) / q) < y), right, ?_, ?_, ?_, ?_, hright⟩
  · unfold Dbl.plotPhaseFractions
    rw [getStepsToPlot_dbl hn, h1, ok_bind]
    simp only [hright, h4, ok_bind]
    rw [mapM_ok (g := fun v => (v, idxs, idxs.map (fr v))) l fun v hv => by rw [hys v (h7 v hv)]; rfl]
    rfl
  · refine List.Nodup.sublist (List.Sublist.map _ (List.filter_sublist)) ?_
    rw [List.map_map]
    simpa [Function.comp_def] using h5
  · intro v
    rw [List.mem_map]
    constructor
    · rintro ⟨t, ht, rfl⟩
      obtain ⟨h8, -, -, h9⟩ := (htr t).1 ht
      exact ⟨(hph _).1 h8, h9⟩
    · rintro ⟨h8, h9⟩
      exact ⟨(v, idxs, idxs.map (fr v)), (htr _).2 ⟨(hph v).2 h8, rfl, rfl, h9⟩, rfl⟩
  · intro t ht
    obtain ⟨-, h8, h9, -⟩ := (htr t).1 ht
    exact ⟨h8, by rw [h9, h8]⟩

/-! ### Concrete states -/

/-- Sites `0, 1, ..` with the listed phases. -/
def phaseState (l : List Val) : SimState :=
  ⟨(List.finRange l.length).map fun (i : Fin l.length) => (.int ((i : ℕ) : ℤ), [(SITE_ID, .num ((i : ℕ) : ℚ)), (DISCRETE_OCCUPANCY, l[i])]), some []⟩

theorem phaseState_get {l : List Val} {k : Key} {p : Props} (h : (phaseState l).getSiteState k = some p) :
    ∃ i : Fin l.length, k = .int ((i : ℕ) : ℤ) ∧ p = [(SITE_ID, .num ((i : ℕ) : ℚ)), (DISCRETE_OCCUPANCY, l[i])] := by
  have := Dict.mem_of_get? h
  simp only [phaseState, List.mem_map, Prod.mk.injEq] at this
  obtain ⟨i, -, h1, h2⟩ := this
  exact ⟨i, h1.symm, h2.symm⟩

theorem phaseState_nodup (l : List Val) : (phaseState l).siteIds.Nodup := by
  unfold siteIds Dict.keys phaseState
  rw [List.map_map]
  refine (List.nodup_finRange _).map fun i j h => ?_
  simp only [Function.comp_apply, Key.int.injEq] at h
  exact Fin.ext (by exact_mod_cast h)

theorem analyzable_phaseState {l : List Val} (hv : ∀ v ∈ l, v.hashable = true) (hw : ∀ v ∈ l, v.WF) : Analyzable (phaseState l) := by
  refine ⟨⟨phaseState_nodup l, ?_, ?_⟩, ?_, ?_⟩
  · intro kv hkv
    simp only [phaseState, List.mem_map] at hkv
    obtain ⟨i, -, rfl⟩ := hkv
    refine .dict (by simp [Dict.WF, Dict.keys, SITE_ID, DISCRETE_OCCUPANCY]) ?_
    intro kv hkv
    simp only [List.mem_cons, List.not_mem_nil, or_false] at hkv
    rcases hkv with rfl | rfl
    · exact .num _
    · exact hw _ (List.getElem_mem _)
  · intro g hg
    simp only [phaseState, Option.some.injEq] at hg
    subst hg
    exact .dict (by simp [Dict.WF, Dict.keys]) (by simp)
  · intro k p hp
    obtain ⟨i, rfl, rfl⟩ := phaseState_get hp
    exact congrArg some (congrArg Val.num (by simp))
  · intro k hk
    obtain ⟨p, hp⟩ := siteState_of_mem k hk
    obtain ⟨i, rfl, rfl⟩ := phaseState_get hp
    exact ⟨l[i], occ?_eq.2 ⟨_, hp, rfl⟩, hv _ (List.getElem_mem _)⟩

/-- Six sites with six phases. -/
def sixPhases : SimState := phaseState [.str "A", .str "B", .str "C", .str "D", .str "E", .str "F"]

theorem sixPhases_analyzable : Analyzable sixPhases := by
  refine analyzable_phaseState ?_ ?_ <;> intro v hv <;> simp only [List.mem_cons, List.not_mem_nil, or_false] at hv <;>
    rcases hv with rfl | rfl | rfl | rfl | rfl | rfl
  any_goals rfl
  all_goals exact .str _

/-- The fractions need not add up to 1 in double precision: six phases with one site each have fractions whose sum from left to right (Python's `sum`) is below 1. -/
theorem C112_sum_inexact (order : List Val → List Val) (hord : ∀ l, (order l).Perm l) :
    ∃ (phases : List Val) (frac : Val → ℚ), phasesPresent order sixPhases = .ok phases ∧
      (∀ v ∈ phases, Dbl.cellFraction (K := ℚ) (d := 0) none sixPhases v = .ok (frac v)) ∧ (phases.map frac).foldl (fun a x => fl (a + x)) 0 < 1 := by
  have ha := sixPhases_analyzable
  obtain ⟨phases, h1, h2, h3⟩ := phasesPresent_eq ha.1 ha.2.2 order hord
  have hp : phases.Perm [.str "A", .str "B", .str "C", .str "D", .str "E", .str "F"] := by
    refine (List.perm_ext_iff_of_nodup h2 (by decide)).2 fun v => ?_
    rw [h3]
    constructor
    · rintro ⟨k, hk⟩
      obtain ⟨p, hp, hv⟩ := occ?_eq.1 hk
      obtain ⟨i, rfl, rfl⟩ := phaseState_get hp
      have : Dict.get? [(SITE_ID, Val.num ((i : ℕ) : ℚ)), (DISCRETE_OCCUPANCY, [Val.str "A", .str "B", .str "C", .str "D", .str "E", .str "F"][i])] DISCRETE_OCCUPANCY =
        some ([Val.str "A", .str "B", .str "C", .str "D", .str "E", .str "F"][i]) := rfl
      rw [this] at hv
      injection hv with hv
      rw [← hv]
      exact List.getElem_mem _
    · intro hv
      simp only [List.mem_cons, List.not_mem_nil, or_false] at hv
      rcases hv with rfl | rfl | rfl | rfl | rfl | rfl
      · exact ⟨.int 0, by decide +kernel⟩
      · exact ⟨.int 1, by decide +kernel⟩
      · exact ⟨.int 2, by decide +kernel⟩
      · exact ⟨.int 3, by decide +kernel⟩
      · exact ⟨.int 4, by decide +kernel⟩
      · exact ⟨.int 5, by decide +kernel⟩
  have hh : ∀ v ∈ phases, v.hashable = true ∧ sitesWith sixPhases v = 1 := fun v hv => by
    have := hp.mem_iff.1 hv
    simp only [List.mem_cons, List.not_mem_nil, or_false] at this
    rcases this with rfl | rfl | rfl | rfl | rfl | rfl <;> exact ⟨rfl, by decide +kernel⟩
  refine ⟨phases, fun _ => fl (1 / 6), h1, fun v hv => ?_, ?_⟩
  · rw [dbl_cellFraction ha (by intro S hS; cases hS) (by decide) (hh v hv).1, (hh v hv).2]
    norm_num [show sixPhases.size = 6 from rfl]
  · rw [List.map_const', hp.length_eq]
    decide +kernel

/-- The fractions of a state with sites A, A, B. -/
example : ∃ f g, Dbl.cellFraction (K := ℚ) (d := 0) none (phaseState [.str "A", .str "A", .str "B"]) (.str "A") = .ok f ∧
    Dbl.cellFraction (K := ℚ) (d := 0) none (phaseState [.str "A", .str "A", .str "B"]) (.str "B") = .ok g ∧ g < f := by
  have ha : Analyzable (phaseState [.str "A", .str "A", .str "B"]) := by
    refine analyzable_phaseState ?_ ?_ <;> intro v hv <;> simp only [List.mem_cons, List.not_mem_nil, or_false] at hv <;> rcases hv with rfl | rfl | rfl
    any_goals rfl
    all_goals exact .str _
  have hF : Fits (K := ℚ) (d := 0) none (phaseState [.str "A", .str "A", .str "B"]) := by intro S hS; cases hS
  obtain ⟨g, f, h1, h2, h3, -⟩ := C112_order none none _ _ ha ha hF hF (by decide) (by decide) (.inl ⟨rfl, by decide⟩) (.str "B") (.str "A") rfl rfl
  refine ⟨f, g, h2, h1, h3.2 ?_⟩
  have e1 : sitesWith (phaseState [.str "A", .str "A", .str "B"]) (.str "A") = 2 := by decide +kernel
  have e2 : sitesWith (phaseState [.str "A", .str "A", .str "B"]) (.str "B") = 1 := by decide +kernel
  rw [e1, e2, show (phaseState [.str "A", .str "A", .str "B"]).size = 3 from rfl]
  norm_num

/-- The default threshold 0.01 on a result that goes from A to B. -/
example : ∃ traces right, Dbl.plotPhaseFractions ResultAnalyzer.new (resultAfter (oneSite (.str "A")) aToB) (fun _ l => l) (fl (1 / 100)) = .ok (traces, right) ∧
    (traces.map fun t => t.1).Nodup := by
  obtain ⟨traces, right, h1, h2, -⟩ := C112_plot _ _ aToB_analyzable (fun _ l => l) (fun _ _ => .refl _) (by decide) 1 100 (by norm_num) (by norm_num) (by
    intro k s hs
    have hs1 : s.size = 1 := by
      rcases Nat.lt_or_ge k 2 with hk | hk
      · rcases (by omega : k = 0 ∨ k = 1) with rfl | rfl
        · have h := aToB_steps.1.symm.trans hs
          injection h with h; subst h; rfl
        · have h := aToB_steps.2.1.symm.trans hs
          injection h with h; subst h; rfl
      · obtain ⟨e, he⟩ := C31_too_large_partial (oneSite (.str "A")) aToB k (by rw [aToB_steps.2.2]; exact_mod_cast hk)
        rw [hs] at he; cases he
    rw [hs1]; norm_num)
  refine ⟨traces, right, ?_, h2⟩
  convert h1 using 2
  norm_num

/-- 1000 sites on 7 workers: batches of 143. -/
example : Dbl.chunkSize 1000 7 = 143 := by rw [chunkSize_dbl (by norm_num) (by norm_num)]; rfl

end Pyl
