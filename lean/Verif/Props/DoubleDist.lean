import Verif.Props.Double
import Verif.Props.Neighborhood
import Verif.Lemmas.DoubleDist
/-
C102, C103: distances and distance neighbourhoods on square grids in double precision.
-/
set_option autoImplicit false
set_option linter.unusedSectionVars false

namespace Pyl
open Pyl.Lattice Structure
variable {d : ℕ}

theorem DoubleGrid.dim {N : Fin d → ℤ} {s : Structure ℚ d} (h : DoubleGrid d N s) : d ≤ 3 := by
  cases h <;> norm_num

theorem circ_neg_of_pos (n a : ℤ) (hn : 0 < n) : circ n (-a) = circ n a := by
  refine le_antisymm ?_ ?_
  · obtain ⟨k, hk⟩ := circ_exists hn a
    rw [← hk, circ_le_iff hn]
    exact ⟨-k, by rw [show -a + -k * n = -(a + k * n) by ring, abs_neg]⟩
  · obtain ⟨k, hk⟩ := circ_exists hn (-a)
    rw [← hk, circ_le_iff hn]
    exact ⟨-k, by rw [show a + -k * n = -(-a + k * n) by ring, abs_neg]⟩

theorem torusEuclid_comm {N : Fin d → ℤ} (hN : ∀ j, 0 < N j) (a b : Fin d → ℤ) : torusEuclid N a b = torusEuclid N b a := by
  unfold torusEuclid
  congr 1
  refine Finset.sum_congr rfl fun j _ => ?_
  rw [← circ_neg_of_pos (N j) (a j - b j) (hN j), neg_sub]

/-- The torus distance is the least Euclidean distance of `a` and an image of `b`. -/
theorem torusEuclid_least {N : Fin d → ℤ} (hN : ∀ j, 0 < N j) (a b : Fin d → ℤ) :
    (∀ k : Fin d → ℤ, torusEuclid N a b ≤ Real.sqrt (∑ j, ((a j - b j + k j * N j : ℤ) : ℝ) ^ 2)) ∧
    ∃ k : Fin d → ℤ, torusEuclid N a b = Real.sqrt (∑ j, ((a j - b j + k j * N j : ℤ) : ℝ) ^ 2) := by
  constructor
  · intro k
    unfold torusEuclid
    refine Real.sqrt_le_sqrt (Finset.sum_le_sum fun j _ => ?_)
    have h0 : 0 ≤ circ (N j) (a j - b j) := by
      obtain ⟨k, hk⟩ := circ_exists (hN j) (a j - b j)
      rw [← hk]; exact abs_nonneg _
    have h1 := circ_le_abs (hN j) (a j - b j) (k j)
    rw [← sq_abs ((a j - b j + k j * N j : ℤ) : ℝ), ← Int.cast_abs]
    exact pow_le_pow_left₀ (by exact_mod_cast h0) (by exact_mod_cast h1) 2
  · choose k hk using fun j => circ_exists (hN j) (a j - b j)
    refine ⟨k, ?_⟩
    unfold torusEuclid
    congr 1
    refine Finset.sum_congr rfl fun j _ => ?_
    rw [← hk j, Int.cast_abs, sq_abs]

theorem torusEuclid_zero_iff {N : Fin d → ℤ} {a b : Fin d → ℤ} (ha : InBox N a) (hb : InBox N b) : torusEuclid N a b = 0 ↔ a = b := by
  have hN : ∀ j, 0 < N j := fun j => by have := ha j; omega
  have h0 : ∀ j, 0 ≤ circ (N j) (a j - b j) := fun j => by
    obtain ⟨k, hk⟩ := circ_exists (hN j) (a j - b j)
    rw [← hk]; exact abs_nonneg _
  unfold torusEuclid
  rw [Real.sqrt_eq_zero (Finset.sum_nonneg fun j _ => sq_nonneg _), Finset.sum_eq_zero_iff_of_nonneg fun j _ => sq_nonneg _]
  constructor
  · intro h
    funext j
    have h1 := h j (Finset.mem_univ j)
    rw [sq_eq_zero_iff] at h1
    have h2 : circ (N j) (a j - b j) = 0 := by exact_mod_cast h1
    have h3 := ha j; have h4 := hb j
    unfold circ at h2
    have h5 := Int.emod_lt_of_pos (a j - b j) (hN j)
    have h6 := Int.emod_nonneg (a j - b j) (hN j).ne'
    have h7 : (a j - b j) % N j = 0 := by omega
    obtain ⟨q, hq⟩ := Int.dvd_of_emod_eq_zero h7
    have : q < 1 := by
      by_contra hc
      have : N j * 1 ≤ N j * q := by nlinarith
      omega
    have : -1 < q := by
      by_contra hc
      have : N j * q ≤ N j * (-1) := by nlinarith
      omega
    have : q = 0 := by omega
    subst this
    omega
  · rintro rfl j -
    have : circ (N j) (a j - a j) = 0 := by
      have := (hN j)
      unfold circ
      rw [sub_self, Int.zero_emod]
      omega
    rw [this]; simp

theorem torusEuclid_sq {N : Fin d → ℤ} (hN : ∀ j, 0 < N j ∧ N j ≤ 2 ^ 12) (hd : d ≤ 3) (a b : Fin d → ℤ) : torusEuclid N a b ≤ 3548 := by
  unfold torusEuclid
  rw [Real.sqrt_le_left (by norm_num)]
  calc ∑ j, (circ (N j) (a j - b j) : ℝ) ^ 2 ≤ ∑ _j : Fin d, (2 : ℝ) ^ 22 := Finset.sum_le_sum fun j _ => by
        obtain ⟨k, hk⟩ := circ_exists (hN j).1 (a j - b j)
        have h0 : 0 ≤ circ (N j) (a j - b j) := by rw [← hk]; exact abs_nonneg _
        have h1 : circ (N j) (a j - b j) ≤ 2 ^ 11 := by
          have := (hN j).2
          unfold circ; omega
        have h0' : (0 : ℝ) ≤ circ (N j) (a j - b j) := by exact_mod_cast h0
        have h1' : (circ (N j) (a j - b j) : ℝ) ≤ 2 ^ 11 := by exact_mod_cast h1
        calc (circ (N j) (a j - b j) : ℝ) ^ 2 ≤ (2 ^ 11) ^ 2 := by gcongr
          _ = 2 ^ 22 := by norm_num
    _ = d * 2 ^ 22 := by simp
    _ ≤ 3 * 2 ^ 22 := by gcongr; exact_mod_cast hd
    _ ≤ 3548 ^ 2 := by norm_num

/-- Different thousandths are different doubles, in the same order. -/
theorem fl_thousandth_lt {k m : ℤ} (hk : |k| ≤ 2 ^ 40) (hm : |m| ≤ 2 ^ 40) : fl (k / 1000) < fl (m / 1000) ↔ k < m := by
  have key : ∀ k m : ℤ, |k| ≤ 2 ^ 40 → |m| ≤ 2 ^ 40 → k < m → fl (k / 1000) < fl (m / 1000) := by
    intro k m hk hm hlt
    have bound : ∀ z : ℤ, |z| ≤ 2 ^ 40 → |fl ((z : ℚ) / 1000) - z / 1000| ≤ 1 / 2 ^ 20 := by
      intro z hz
      have h1 : |(z : ℚ)| ≤ 2 ^ 40 := by exact_mod_cast hz
      refine (fl_err _).trans ?_
      rw [abs_div, abs_of_pos (by norm_num : (0 : ℚ) < 1000)]
      calc |(z : ℚ)| / 1000 / 2 ^ 53 ≤ 2 ^ 40 / 1000 / 2 ^ 53 := by gcongr
        _ ≤ 1 / 2 ^ 20 := by norm_num
    have h1 := abs_le.1 (bound k hk)
    have h2 := abs_le.1 (bound m hm)
    have h3 : (k : ℚ) + 1 ≤ m := by exact_mod_cast hlt
    linarith [h1.1, h1.2, h2.1, h2.2]
  refine ⟨fun h => ?_, key k m hk hm⟩
  by_contra hc
  rcases eq_or_lt_of_le (not_lt.1 hc) with rfl | hlt
  · exact lt_irrefl _ h
  · exact lt_asymm h (key m k hm hk hlt)

theorem intPoint_injective {a b : Fin d → ℤ} (h : (intPoint a : Fin d → ℚ) = intPoint b) : a = b := by
  funext j
  have := congrFun h j
  simp only [intPoint] at this
  exact_mod_cast this

/-! ### C102 -/

/-- C102: the periodic distance of two sites of a square grid with at most 4096 sites per axis is, in double precision and however the library
sums the squares, the double nearest to the exact torus distance rounded to three decimals. -/
theorem C102_distance {N : Fin d → ℤ} {s : Structure ℚ d} (hs : DoubleGrid d N s) (hN : ∀ j, N j ≤ 2 ^ 12) (sq : (Fin d → ℚ) → ℚ)
    (hsq : SumOfSquares sq) (a b : Fin d → ℤ) (ha : InBox N a) (hb : InBox N b) :
    ∃ k : ℤ, Dbl.dist sq s.lattice (intPoint a) (intPoint b) = fl (k / 1000) ∧ |(k : ℝ) - 1000 * torusEuclid N a b| < 1 / 2 := by
  obtain ⟨s0, h⟩ := hs.behind
  have hl : s.lattice = s0.lattice := by rw [h.eq]; rfl
  have hsz := h.size
  obtain ⟨L, σ, n, hg, hn, rfl, hL⟩ := h.ex
  rw [hl, hL]
  obtain ⟨τ, hτ⟩ : ∃ τ : Fin d → Fin d, ∀ i, σ (τ i) = i := ⟨σ, hg.inv⟩
  exact Dbl.dist_grid hg (fun i => ⟨(hn i).1, by have := hN (τ i); simp only [hτ] at this; exact this⟩) hs.dim hsq ha hb

/-- C102: the distance is symmetric, zero only between a site and itself, at least 1 otherwise, and within `0.0005 + 2 ^ -40` of the exact one. -/
theorem C102_metric {N : Fin d → ℤ} {s : Structure ℚ d} (hs : DoubleGrid d N s) (hN : ∀ j, N j ≤ 2 ^ 12) (sq : (Fin d → ℚ) → ℚ)
    (hsq : SumOfSquares sq) (a b : Fin d → ℤ) (ha : InBox N a) (hb : InBox N b) :
    Dbl.dist sq s.lattice (intPoint a) (intPoint b) = Dbl.dist sq s.lattice (intPoint b) (intPoint a) ∧
    (Dbl.dist sq s.lattice (intPoint a) (intPoint b) = 0 ↔ a = b) ∧
    (a ≠ b → 1 ≤ Dbl.dist sq s.lattice (intPoint a) (intPoint b)) ∧
    |(Dbl.dist sq s.lattice (intPoint a) (intPoint b) : ℝ) - torusEuclid N a b| ≤ 0.0005 + 1 / 2 ^ 40 := by
  obtain ⟨s0, h⟩ := hs.behind
  have hN0 : ∀ j, 0 < N j := fun j => (h.size j).1
  obtain ⟨k, hk, hke⟩ := C102_distance hs hN sq hsq a b ha hb
  obtain ⟨k', hk', hke'⟩ := C102_distance hs hN sq hsq b a hb ha
  rw [torusEuclid_comm hN0] at hke'
  have hke0 := abs_lt.1 hke
  have hke1 := abs_lt.1 hke'
  have e : k = k' := by
    have h1 : (k : ℝ) < k' + 1 := by linarith
    have h2 : (k' : ℝ) < k + 1 := by linarith
    have h1' : k < k' + 1 := by exact_mod_cast h1
    have h2' : k' < k + 1 := by exact_mod_cast h2
    omega
  have hup := torusEuclid_sq (fun j => ⟨hN0 j, hN j⟩) hs.dim a b
  have hk1 : (k : ℝ) ≤ 2 ^ 22 := by linarith
  have hpos : (0 : ℝ) ≤ torusEuclid N a b := Real.sqrt_nonneg _
  have hk2 : (-1 : ℝ) < k := by linarith
  have hk1' : k ≤ 2 ^ 22 := by exact_mod_cast hk1
  have hk2' : -1 < k := by exact_mod_cast hk2
  have hkq : (0 : ℚ) ≤ k := by exact_mod_cast (by omega : 0 ≤ k)
  have hsep : a ≠ b → 1000 ≤ k := by
    intro hab
    have h1 : (1 : ℝ) ≤ torusEuclid N a b := by
      have h0 : torusEuclid N a b ≠ 0 := fun h0 => hab ((torusEuclid_zero_iff ha hb).1 h0)
      unfold torusEuclid at h0 ⊢
      rw [Real.one_le_sqrt]
      have h2 : (∑ j, (circ (N j) (a j - b j) : ℝ) ^ 2) = ((∑ j, circ (N j) (a j - b j) ^ 2 : ℤ) : ℝ) := by push_cast; rfl
      have h3 : (0 : ℤ) ≤ ∑ j, circ (N j) (a j - b j) ^ 2 := Finset.sum_nonneg fun j _ => sq_nonneg _
      have h4 : (∑ j, circ (N j) (a j - b j) ^ 2 : ℤ) ≠ 0 := fun h5 => h0 (by rw [h2, h5]; simp)
      rw [h2]
      exact_mod_cast (by omega : 1 ≤ ∑ j, circ (N j) (a j - b j) ^ 2)
    have : (999 : ℝ) < k := by linarith
    have : 999 < k := by exact_mod_cast this
    omega
  have h1000 : ((1000 : ℤ) : ℚ) / 1000 = ((1 : ℤ) : ℚ) := by norm_num
  have hge : a ≠ b → 1 ≤ Dbl.dist sq s.lattice (intPoint a) (intPoint b) := by
    intro hab
    rw [hk]
    by_contra hc
    rw [not_le] at hc
    have e1 : fl (((1000 : ℤ) : ℚ) / 1000) = 1 := by rw [h1000, fl_int (by norm_num)]; norm_num
    rw [← e1, fl_thousandth_lt (by rw [abs_le]; constructor <;> omega) (by norm_num)] at hc
    have := hsep hab
    omega
  refine ⟨by rw [hk, hk', e], ⟨fun h0 => ?_, fun hab => ?_⟩, hge, ?_⟩
  · by_contra hab
    have := hge hab
    rw [h0] at this
    norm_num at this
  · rw [(torusEuclid_zero_iff ha hb).2 hab] at hke0
    have h1 : (k : ℝ) < 1 := by linarith
    have h1' : k < 1 := by exact_mod_cast h1
    have : k = 0 := by omega
    rw [hk, this]
    norm_num [fl]
  · rw [hk]
    have h1 := fl_err ((k : ℚ) / 1000)
    have h2 : |(k : ℚ) / 1000| ≤ 2 ^ 13 := by
      have : (k : ℚ) ≤ 2 ^ 22 := by exact_mod_cast hk1'
      rw [abs_of_nonneg (by positivity)]
      rw [div_le_iff₀ (by norm_num)]
      linarith
    have h3 : |fl ((k : ℚ) / 1000) - k / 1000| ≤ 1 / 2 ^ 40 := h1.trans (by
      calc |(k : ℚ) / 1000| / 2 ^ 53 ≤ 2 ^ 13 / 2 ^ 53 := by gcongr
        _ = 1 / 2 ^ 40 := by norm_num)
    have h4 : |((fl ((k : ℚ) / 1000) : ℚ) : ℝ) - k / 1000| ≤ 1 / 2 ^ 40 := by
      have h5 : ((|fl ((k : ℚ) / 1000) - k / 1000| : ℚ) : ℝ) ≤ ((1 / 2 ^ 40 : ℚ) : ℝ) := by exact_mod_cast h3
      push_cast at h5
      exact h5
    have h5 := abs_le.1 h4
    rw [abs_le]
    constructor <;> linarith [h5.1, h5.2, hke0.1, hke0.2]

/-- C102: the torus distance is symmetric, the least distance to an image, and zero only for equal points of the box. -/
theorem C102_torus {N : Fin d → ℤ} (a b : Fin d → ℤ) (ha : InBox N a) (hb : InBox N b) :
    (∀ k : Fin d → ℤ, torusEuclid N a b ≤ Real.sqrt (∑ j, ((a j - b j + k j * N j : ℤ) : ℝ) ^ 2)) ∧
    (∃ k : Fin d → ℤ, torusEuclid N a b = Real.sqrt (∑ j, ((a j - b j + k j * N j : ℤ) : ℝ) ^ 2)) ∧
    (torusEuclid N a b = 0 ↔ a = b) := by
  have hN : ∀ j, 0 < N j := fun j => by have := ha j; omega
  exact ⟨(torusEuclid_least hN a b).1, (torusEuclid_least hN a b).2, torusEuclid_zero_iff ha hb⟩

/-- C102: the rounded root is a double and no double is nearer to the exact root. -/
theorem C102_root (q : ℚ) (hq : 0 ≤ q) : IsDouble (flSqrt q) ∧ ∀ z, IsDouble z → |((flSqrt q : ℚ) : ℝ) - Real.sqrt q| ≤ |(z : ℝ) - Real.sqrt q| :=
  ⟨isDouble_flSqrt q, fun _ hz => flSqrt_nearest hq hz⟩

/-- C102: summing the squares from left to right, with a rounding after every operation, is accurate enough. -/
theorem C102_left_to_right (hd : d ≤ 3) : SumOfSquares fun v : Fin d → ℚ => Dbl.dot v v := by
  intro v
  have step : ∀ (l : List (Fin d)) (acc S : ℚ) (k : ℕ), 0 ≤ S → |acc - S| ≤ (2 * k + 1) / 2 ^ 53 * S → k + l.length ≤ 3 →
      |l.foldl (fun acc i => fl (acc + fl (v i * v i))) acc - (S + (l.map fun i => v i ^ 2).sum)| ≤
        (2 * (k + l.length : ℕ) + 1) / 2 ^ 53 * (S + (l.map fun i => v i ^ 2).sum) := by
    intro l
    induction l with
    | nil => intro acc S k h0 h1 _; simpa using h1
    | cons i l ih =>
      intro acc S k h0 h1 h2
      simp only [List.length_cons] at h2
      rw [List.foldl_cons, List.map_cons, List.sum_cons, ← add_assoc, List.length_cons,
        show k + (l.length + 1) = (k + 1) + l.length by omega]
      have hx : 0 ≤ v i ^ 2 := sq_nonneg _
      refine ih _ (S + v i ^ 2) (k + 1) (by linarith) ?_ (by omega)
      have a1 := abs_le.1 (fl_err (v i * v i))
      rw [← pow_two, abs_of_nonneg hx] at a1
      set p := fl (v i ^ 2)
      rw [← pow_two]
      have a2 := abs_le.1 h1
      have a3 := abs_le.1 (fl_err (acc + p))
      have hk : (k : ℚ) ≤ 2 := by exact_mod_cast (by omega : k ≤ 2)
      have hk0 : (0 : ℚ) ≤ k := by positivity
      have hkS : (k : ℚ) * S ≤ 2 * S := by gcongr
      have hkx : (0 : ℚ) ≤ k * v i ^ 2 := by positivity
      have hkS0 : (0 : ℚ) ≤ k * S := by positivity
      have e1 : (2 * (k : ℚ) + 1) / 2 ^ 53 * S = (2 * (k * S) + S) / 2 ^ 53 := by ring
      rw [e1] at a2
      have b0 : |acc + p| ≤ (S + v i ^ 2) * (1 + 8 / 2 ^ 53) := by
        rw [abs_le]; constructor <;> linarith [a1.1, a1.2, a2.1, a2.2]
      have a3' := abs_le.1 ((fl_err (acc + p)).trans (by gcongr : |acc + p| / 2 ^ 53 ≤ (S + v i ^ 2) * (1 + 8 / 2 ^ 53) / 2 ^ 53))
      have e2 : (2 * ((k + 1 : ℕ) : ℚ) + 1) / 2 ^ 53 * (S + v i ^ 2) = (2 * (k * S) + 3 * S + 2 * (k * v i ^ 2) + 3 * v i ^ 2) / 2 ^ 53 := by
        push_cast; ring
      rw [e2, abs_le]
      constructor <;> linarith [a1.1, a1.2, a2.1, a2.2, a3'.1, a3'.2]
  have h := step (List.finRange d) 0 0 0 le_rfl (by simp) (by simpa using hd)
  simp only [zero_add, List.length_finRange] at h
  have e : ((List.finRange d).map fun i => v i ^ 2).sum = ∑ i, v i ^ 2 := by
    rw [← List.ofFn_eq_map, List.sum_ofFn]
  rw [e] at h
  have hA : 0 ≤ ∑ i, v i ^ 2 := Finset.sum_nonneg fun i _ => sq_nonneg _
  refine h.trans ?_
  have hd' : (d : ℚ) ≤ 3 := by exact_mod_cast hd
  calc (2 * (d : ℚ) + 1) / 2 ^ 53 * ∑ i, v i ^ 2 ≤ (2 * 3 + 1) / 2 ^ 53 * ∑ i, v i ^ 2 := by gcongr
    _ ≤ (∑ i, v i ^ 2) / 2 ^ 50 := by linarith

/-- Non-vacuity: on a 30 x 30 x 10 grid, with the squares summed from left to right. -/
example : ∃ s, DoubleGrid 3 ![30, 30, 10] s ∧
    ∃ k : ℤ, Dbl.dist (fun v => Dbl.dot v v) s.lattice (intPoint ![1, 2, 9]) (intPoint ![29, 0, 0]) = fl (k / 1000) ∧
      |(k : ℝ) - 1000 * torusEuclid ![30, 30, 10] ![1, 2, 9] ![29, 0, 0]| < 1 / 2 := by
  obtain ⟨s, -, hg, -⟩ := (C99_square3 1 30 30 10 (by norm_num) (by norm_num) (by norm_num) (by norm_num)).2
  exact ⟨s, hg, C102_distance hg (by intro j; fin_cases j <;> simp) _ (C102_left_to_right (by norm_num)) _ _
    (by intro j; fin_cases j <;> simp) (by intro j; fin_cases j <;> simp)⟩

/-! ### C103 -/

/-- The Distance (also Circular) and Annular builders: which distances are inside. -/
inductive DoubleByDistance (sq : (Fin d → ℚ) → ℚ) : (Structure ℚ d → Py (Graph ℚ)) → (ℚ → Prop) → Prop
  | distance (cutoff : ℚ) : DoubleByDistance sq (Dbl.distanceGet sq cutoff) fun r => r < cutoff
  | annular (inner outer : ℚ) : DoubleByDistance sq (Dbl.annularGet sq inner outer) fun r => inner < r ∧ r < outer

theorem DoubleByDistance.nbs {sq : (Fin d → ℚ) → ℚ} {get : Structure ℚ d → Py (Graph ℚ)} {P : ℚ → Prop} (h : DoubleByDistance sq get P) :
    ∃ nbs, get = Dbl.getWith nbs ∧ ∀ (s : Structure ℚ d) (t : Site ℚ d) (o : Option ℕ) (w : Option ℚ), (o, w) ∈ nbs t s ↔
      ∃ t' ∈ s.sitesOf none, o = some t'.id ∧ t.id ≠ t'.id ∧ P (Dbl.dist sq s.lattice t'.loc t.loc) ∧
        w = some (Dbl.dist sq s.lattice t'.loc t.loc) := by
  cases h with
  | distance cutoff =>
    refine ⟨Dbl.distanceNeighbors sq cutoff, rfl, fun s t o w => ?_⟩
    simp only [Dbl.distanceNeighbors, List.mem_filterMap]
    constructor
    · rintro ⟨t', ht', e⟩
      split_ifs at e with h1 h2
      injection e with e
      injection e with e1 e2
      exact ⟨t', ht', e1.symm, h1, h2, e2.symm⟩
    · rintro ⟨t', ht', rfl, h1, h2, rfl⟩
      exact ⟨t', ht', by rw [if_pos h1, if_pos h2]⟩
  | annular inner outer =>
    refine ⟨Dbl.annularNeighbors sq inner outer, rfl, fun s t o w => ?_⟩
    simp only [Dbl.annularNeighbors, List.mem_filterMap]
    constructor
    · rintro ⟨t', ht', e⟩
      split_ifs at e with h1 h2
      injection e with e
      injection e with e1 e2
      exact ⟨t', ht', e1.symm, h1, h2, e2.symm⟩
    · rintro ⟨t', ht', rfl, h1, h2, rfl⟩
      exact ⟨t', ht', by rw [if_pos h1, if_pos h2]⟩

/-- C103: on a square grid with at most 4096 sites per axis the Distance, Circular and Annular builders succeed in double precision, whatever the size;
`j` is a neighbour of `i` with weight `w` iff they are different sites, `w` is the double nearest to their torus distance rounded to three decimals, and `w` is
strictly inside the cutoff (annulus). -/
theorem C103_weights {N : Fin d → ℤ} {s : Structure ℚ d} (hs : DoubleGrid d N s) (hN : ∀ j, N j ≤ 2 ^ 12) (sq : (Fin d → ℚ) → ℚ)
    (hsq : SumOfSquares sq) (get : Structure ℚ d → Py (Graph ℚ)) (P : ℚ → Prop) (hb : DoubleByDistance sq get P) :
    ∃ g, get s = .ok g ∧ (∀ i j w, (j, w) ∈ g.weightedNeighborsOf i → i ∈ s.siteIds ∧ j ∈ s.siteIds) ∧
      ∀ i j a b w, SiteHas s i a → SiteHas s j b → ((j, w) ∈ g.weightedNeighborsOf i ↔
        j ≠ i ∧ ∃ k : ℤ, |(k : ℝ) - 1000 * torusEuclid N a b| < 1 / 2 ∧ w = some (fl (k / 1000)) ∧ P (fl (k / 1000))) := by
  obtain ⟨s0, h⟩ := hs.behind
  have hr := h.torus.reachable
  have hN0 : ∀ j, 0 < N j := fun j => (h.size j).1
  have hsites : s.sitesOf none = s0.sitesOf none := by rw [h.eq]; rfl
  have hids : s.siteIds = s0.siteIds := by rw [h.eq]; rfl
  obtain ⟨nbs, rfl, hmem⟩ := hb.nbs
  have hlt : ∀ t ∈ s0.sitesOf none, t.id < (s0.sitesOf none).length := fun t ht => (getSite_isSome_iff hr).1 ⟨t, (mem_sitesOf hr).1 ht⟩
  have hconn := (foldlM_connect (K := ℚ) (s0.sitesOf none).length (fun t => nbs t s) (s0.sitesOf none) hlt (by
      intro t ht nb hnb j hj
      obtain ⟨o, w⟩ := nb
      obtain ⟨t', ht', h1, -⟩ := (hmem s t o w).1 hnb
      simp only at hj
      rw [h1] at hj; injection hj with hj; subst hj
      rw [hsites] at ht'
      exact hlt t' ht') []).1 (by
      intro t ht nb hnb
      obtain ⟨o, w⟩ := nb
      obtain ⟨t', ht', h1, -⟩ := (hmem s t o w).1 hnb
      simp [h1])
  rw [List.nil_append] at hconn
  have hget : Dbl.getWith nbs s = .ok ⟨(s0.sitesOf none).length, (s0.sitesOf none).flatMap fun t => edgesFrom t.id (nbs t s)⟩ := by
    rw [Dbl.getWith, hsites, hconn]
  have hedge : ∀ i j w, (i, j, w) ∈ ((s0.sitesOf none).flatMap fun t => edgesFrom t.id (nbs t s)) ↔
      ∃ t t', s0.getSite i = some t ∧ s0.getSite j = some t' ∧ i ≠ j ∧ P (Dbl.dist sq s.lattice t'.loc t.loc) ∧
        w = some (Dbl.dist sq s.lattice t'.loc t.loc) := by
    intro i j w
    rw [List.mem_flatMap]
    constructor
    · rintro ⟨t, ht, he⟩
      obtain ⟨rfl, he'⟩ := mem_edgesFrom.1 he
      obtain ⟨t', ht', h1, h2, h3, h4⟩ := (hmem s t _ _).1 he'
      injection h1 with h1; subst h1
      rw [hsites] at ht'
      exact ⟨t, t', (mem_sitesOf hr).1 ht, (mem_sitesOf hr).1 ht', h2, h3, h4⟩
    · rintro ⟨t, t', h1, h2, h3, h4, h5⟩
      have e1 := id_of_getSite hr h1
      have e2 := id_of_getSite hr h2
      subst e1 e2
      exact ⟨t, (mem_sitesOf hr).2 h1, mem_edgesFrom.2 ⟨rfl, (hmem s t _ _).2 ⟨t', by rw [hsites]; exact (mem_sitesOf hr).2 h2, rfl, h3, h4, h5⟩⟩⟩
  have hw : ∀ i j w, (j, w) ∈ (⟨(s0.sitesOf none).length, (s0.sitesOf none).flatMap fun t => edgesFrom t.id (nbs t s)⟩ : Graph ℚ).weightedNeighborsOf i ↔
      ∃ t t', s0.getSite i = some t ∧ s0.getSite j = some t' ∧ i ≠ j ∧ P (Dbl.dist sq s.lattice t'.loc t.loc) ∧
        w = some (Dbl.dist sq s.lattice t'.loc t.loc) := by
    intro i j w
    have huniq : ∀ w w', (i, j, w) ∈ ((s0.sitesOf none).flatMap fun t => edgesFrom t.id (nbs t s)) →
        (i, j, w') ∈ ((s0.sitesOf none).flatMap fun t => edgesFrom t.id (nbs t s)) → w' = w := by
      intro w w' h1 h2
      obtain ⟨t, t', a1, a2, -, -, a3⟩ := (hedge _ _ _).1 h1
      obtain ⟨u, u', b1, b2, -, -, b3⟩ := (hedge _ _ _).1 h2
      rw [a1] at b1; injection b1 with b1; subst b1
      rw [a2] at b2; injection b2 with b2; subst b2
      rw [a3, b3]
    rw [Graph.mem_weighted, Graph.mem_neighbors, ← hedge]
    constructor
    · rintro ⟨⟨w', hw'⟩, rfl⟩
      rw [Graph.edgeData_eq hw' fun w'' h'' => huniq w' w'' hw' h'']; exact hw'
    · intro hw
      exact ⟨⟨w, hw⟩, (Graph.edgeData_eq hw fun w'' h'' => huniq w w'' hw h'').symm⟩
  refine ⟨_, hget, fun i j w hjw => ?_, fun i j a b w ha hb => ?_⟩
  · obtain ⟨t, t', h1, h2, -⟩ := (hw i j w).1 hjw
    rw [hids, siteIds_eq hr, List.mem_range, List.mem_range]
    exact ⟨(getSite_isSome_iff hr).1 ⟨t, h1⟩, (getSite_isSome_iff hr).1 ⟨t', h2⟩⟩
  · rw [hw]
    obtain ⟨t, ht, hl⟩ := siteLocation_iff.1 (h.siteHas.1 ha)
    obtain ⟨t', ht', hl'⟩ := siteLocation_iff.1 (h.siteHas.1 hb)
    have box : ∀ i t c, s0.getSite i = some t → t.loc = intPoint c → InBox N c := by
      intro i t c h1 h2
      have hid : i ∈ s0.siteIds := by
        rw [siteIds_eq hr, List.mem_range]; exact (getSite_isSome_iff hr).1 ⟨t, h1⟩
      obtain ⟨c', hc', hs'⟩ := h.torus.site i hid
      obtain ⟨t2, h3, h4⟩ := siteLocation_iff.1 hs'
      rw [h1] at h3; injection h3 with h3; subst h3
      have : c = c' := intPoint_injective (h2.symm.trans h4)
      rw [this]; exact hc'
    obtain ⟨k, hk, hke⟩ := C102_distance hs hN sq hsq b a (box j t' b ht' hl') (box i t a ht hl)
    rw [torusEuclid_comm hN0] at hke
    have huniq : ∀ k' : ℤ, |(k' : ℝ) - 1000 * torusEuclid N a b| < 1 / 2 → k' = k := by
      intro k' hk'
      have h1 := abs_lt.1 hke
      have h2 := abs_lt.1 hk'
      have h3 : (k : ℝ) < k' + 1 := by linarith
      have h4 : (k' : ℝ) < k + 1 := by linarith
      have h3' : k < k' + 1 := by exact_mod_cast h3
      have h4' : k' < k + 1 := by exact_mod_cast h4
      omega
    constructor
    · rintro ⟨u, u', h1, h2, h3, h4, h5⟩
      rw [ht] at h1; injection h1 with h1; subst h1
      rw [ht'] at h2; injection h2 with h2; subst h2
      rw [hl, hl', hk] at h4 h5
      exact ⟨h3.symm, k, hke, h5, h4⟩
    · rintro ⟨h3, k', hk', h4, h5⟩
      rw [huniq k' hk'] at h4 h5
      exact ⟨t, t', ht, ht', h3.symm, by rw [hl, hl', hk]; exact h5, by rw [hl, hl', hk]; exact h4⟩

theorem mem_neighborsOf_iff_weighted {g : Graph ℚ} {i j : ℕ} : j ∈ g.neighborsOf i ↔ ∃ w, (j, w) ∈ g.weightedNeighborsOf i := by
  simp [Graph.mem_weighted]

/-- The thousandth nearest to the torus distance of two sites of the box. -/
theorem exists_thousandth {N : Fin d → ℤ} {s : Structure ℚ d} (hs : DoubleGrid d N s) (hN : ∀ j, N j ≤ 2 ^ 12) (a b : Fin d → ℤ) (ha : InBox N a) (hb : InBox N b) :
    ∃ k : ℤ, |(k : ℝ) - 1000 * torusEuclid N a b| < 1 / 2 ∧ |k| ≤ 2 ^ 40 := by
  obtain ⟨s0, h⟩ := hs.behind
  obtain ⟨k, -, hk⟩ := C102_distance hs hN _ (C102_left_to_right hs.dim) a b ha hb
  have h1 := torusEuclid_sq (fun j => ⟨(h.size j).1, hN j⟩) hs.dim a b
  have h2 : (0 : ℝ) ≤ torusEuclid N a b := Real.sqrt_nonneg _
  have h3 := abs_lt.1 hk
  have h4 : |(k : ℝ)| ≤ 2 ^ 40 := by rw [abs_le]; constructor <;> linarith
  exact ⟨k, hk, by exact_mod_cast h4⟩

theorem siteHas_inBox {N : Fin d → ℤ} {s : Structure ℚ d} (hs : DoubleGrid d N s) {i : ℕ} {c : Fin d → ℤ} (h : SiteHas s i c) : InBox N c := by
  obtain ⟨s0, hB⟩ := hs.behind
  have hr := hB.torus.reachable
  obtain ⟨t, ht, hl⟩ := siteLocation_iff.1 (hB.siteHas.1 h)
  have hid : i ∈ s0.siteIds := by
    rw [siteIds_eq hr, List.mem_range]; exact (getSite_isSome_iff hr).1 ⟨t, ht⟩
  obtain ⟨c', hc', hs'⟩ := hB.torus.site i hid
  obtain ⟨t2, h3, h4⟩ := siteLocation_iff.1 hs'
  rw [ht] at h3; injection h3 with h3; subst h3
  rw [intPoint_injective (hl.symm.trans h4)]; exact hc'

/-- C103: with a cutoff of three decimals, `m / 1000`, exactly the sites closer than `(m - 1/2) / 1000` around the torus are neighbours. -/
theorem C103_cutoff {N : Fin d → ℤ} {s : Structure ℚ d} (hs : DoubleGrid d N s) (hN : ∀ j, N j ≤ 2 ^ 12) (sq : (Fin d → ℚ) → ℚ)
    (hsq : SumOfSquares sq) (m : ℤ) (hm : |m| ≤ 2 ^ 40) :
    ∃ g, Dbl.distanceGet sq (fl (m / 1000)) s = .ok g ∧ ∀ i j a b, SiteHas s i a → SiteHas s j b →
      (j ∈ g.neighborsOf i ↔ j ≠ i ∧ torusEuclid N a b < (m - 1 / 2) / 1000) := by
  obtain ⟨g, hg, -, hgw⟩ := C103_weights hs hN sq hsq _ _ (.distance (fl (m / 1000)))
  refine ⟨g, hg, fun i j a b ha hb => ?_⟩
  obtain ⟨k, hk, hkb⟩ := exists_thousandth hs hN a b (siteHas_inBox hs ha) (siteHas_inBox hs hb)
  have hk' := abs_lt.1 hk
  rw [mem_neighborsOf_iff_weighted]
  have key : k < m ↔ torusEuclid N a b < (m - 1 / 2) / 1000 := by
    rw [lt_div_iff₀ (by norm_num)]
    constructor
    · intro hlt
      have : (k : ℝ) + 1 ≤ m := by exact_mod_cast hlt
      linarith
    · intro hlt
      have : (k : ℝ) < m := by linarith
      exact_mod_cast this
  rw [← key]
  constructor
  · rintro ⟨w, hw⟩
    obtain ⟨h1, k', hk2, -, h2⟩ := (hgw i j a b w ha hb).1 hw
    have e : k' = k := by
      have h2 := abs_lt.1 hk2
      have h3 : (k : ℝ) < k' + 1 := by linarith
      have h4 : (k' : ℝ) < k + 1 := by linarith
      have h3' : k < k' + 1 := by exact_mod_cast h3
      have h4' : k' < k + 1 := by exact_mod_cast h4
      omega
    subst e
    exact ⟨h1, (fl_thousandth_lt hkb hm).1 h2⟩
  · rintro ⟨h1, h2⟩
    exact ⟨_, (hgw i j a b _ ha hb).2 ⟨h1, k, hk, rfl, (fl_thousandth_lt hkb hm).2 h2⟩⟩

/-- C103: with radii of three decimals, exactly the sites farther than `(m + 1/2) / 1000` and closer than `(m' - 1/2) / 1000` are neighbours. -/
theorem C103_annulus {N : Fin d → ℤ} {s : Structure ℚ d} (hs : DoubleGrid d N s) (hN : ∀ j, N j ≤ 2 ^ 12) (sq : (Fin d → ℚ) → ℚ)
    (hsq : SumOfSquares sq) (m m' : ℤ) (hm : |m| ≤ 2 ^ 40) (hm' : |m'| ≤ 2 ^ 40) :
    ∃ g, Dbl.annularGet sq (fl (m / 1000)) (fl (m' / 1000)) s = .ok g ∧ ∀ i j a b, SiteHas s i a → SiteHas s j b →
      (j ∈ g.neighborsOf i ↔ j ≠ i ∧ (m + 1 / 2) / 1000 < torusEuclid N a b ∧ torusEuclid N a b < (m' - 1 / 2) / 1000) := by
  obtain ⟨g, hg, -, hgw⟩ := C103_weights hs hN sq hsq _ _ (.annular (fl (m / 1000)) (fl (m' / 1000)))
  refine ⟨g, hg, fun i j a b ha hb => ?_⟩
  obtain ⟨k, hk, hkb⟩ := exists_thousandth hs hN a b (siteHas_inBox hs ha) (siteHas_inBox hs hb)
  have hk' := abs_lt.1 hk
  rw [mem_neighborsOf_iff_weighted]
  have key : k < m' ↔ torusEuclid N a b < (m' - 1 / 2) / 1000 := by
    rw [lt_div_iff₀ (by norm_num)]
    constructor
    · intro hlt
      have : (k : ℝ) + 1 ≤ m' := by exact_mod_cast hlt
      linarith
    · intro hlt
      have : (k : ℝ) < m' := by linarith
      exact_mod_cast this
  have key' : m < k ↔ (m + 1 / 2) / 1000 < torusEuclid N a b := by
    rw [div_lt_iff₀ (by norm_num)]
    constructor
    · intro hlt
      have : (m : ℝ) + 1 ≤ k := by exact_mod_cast hlt
      linarith
    · intro hlt
      have : (m : ℝ) < k := by linarith
      exact_mod_cast this
  rw [← key, ← key']
  constructor
  · rintro ⟨w, hw⟩
    obtain ⟨h1, k', hk2, -, h2⟩ := (hgw i j a b w ha hb).1 hw
    have e : k' = k := by
      have h2 := abs_lt.1 hk2
      have h3 : (k : ℝ) < k' + 1 := by linarith
      have h4 : (k' : ℝ) < k + 1 := by linarith
      have h3' : k < k' + 1 := by exact_mod_cast h3
      have h4' : k' < k + 1 := by exact_mod_cast h4
      omega
    subst e
    exact ⟨h1, (fl_thousandth_lt hm hkb).1 h2.1, (fl_thousandth_lt hkb hm').1 h2.2⟩
  · rintro ⟨h1, h2, h3⟩
    exact ⟨_, (hgw i j a b _ ha hb).2 ⟨h1, k, hk, rfl, (fl_thousandth_lt hm hkb).2 h2, (fl_thousandth_lt hkb hm').2 h3⟩⟩

/-- Non-vacuity: the 49 x 49 grid, on which the Moore builder raises TypeError, has a Distance neighbourhood: with cutoff 1.1 the four
nearest sites. -/
example : ∃ s g, DoubleGrid 2 ![49, 49] s ∧ Dbl.mooreGet 1 s = .error .typeError ∧ Dbl.distanceGet (fun v => Dbl.dot v v) (fl (1100 / 1000)) s = .ok g ∧
    ∀ i j, SiteHas s i ![0, 0] → SiteHas s j ![48, 0] → j ∈ g.neighborsOf i := by
  obtain ⟨s, hs, hg, -, hm, -⟩ := C100_false
  obtain ⟨g, h1, h2⟩ := C103_cutoff hg (by intro j; fin_cases j <;> simp) _ (C102_left_to_right (by norm_num)) 1100 (by norm_num)
  refine ⟨s, g, hg, hm, by simpa using h1, fun i j hi hj => (h2 i j _ _ hi hj).2 ⟨?_, ?_⟩⟩
  · rintro rfl
    obtain ⟨s0, h⟩ := hg.behind
    have e := hi.symm.trans hj
    injection e with e
    have := congrFun (intPoint_injective e) 0
    simp at this
  · have e : torusEuclid ![49, 49] ![0, 0] ![48, 0] = 1 := by
      unfold torusEuclid
      rw [Fin.sum_univ_two]
      have h1 : circ 49 (-48) = 1 := by decide
      have h2 : circ 49 0 = 0 := by decide
      simp [h1, h2]
    rw [e]; norm_num

end Pyl
