import Verif.Lemmas.Lattice
import Verif.Lemmas.Json
import Mathlib.Tactic.FinCases
import Mathlib.LinearAlgebra.Matrix.Notation
import Mathlib.LinearAlgebra.Matrix.Determinant.Basic
/-
C36-C42: lattices.
-/
set_option autoImplicit false
set_option linter.unusedSectionVars false

namespace Pyl
namespace Lattice
variable {K : Type} [Field K] [LinearOrder K] [IsStrictOrderedRing K] [FloorRing K] {d : ℕ}

/-- A skew lattice with one open axis, used to show that hypotheses can be met. -/
def demo : Lattice ℚ 2 := ⟨!![1, 0; 1/2, 1], fun i => i = 0⟩

theorem demo_regular : demo.Regular := regular_of_isUnit (by simp [demo, Matrix.det_fin_two])

/-! ### C36 -/

/-- C36: `get_cartesian_coords` gives the point with the given coordinates along the lattice vectors, and
`get_fractional_coords` is its inverse in both directions. -/
theorem C36_inverse (L : Lattice K d) (h : L.Regular) :
    (∀ f, L.toCart f = L.point f) ∧ (∀ f, L.toFrac (L.toCart f) = f) ∧ (∀ x, L.toCart (L.toFrac x) = x) :=
  ⟨toCart_eq_point, toFrac_toCart h, toCart_toFrac h⟩

example : demo.Regular ∧ demo.toCart ![1, 2] = ![2, 2] := by
  refine ⟨demo_regular, ?_⟩
  rw [toCart_eq_point]
  funext i
  fin_cases i <;> simp [point, demo, Fin.sum_univ_two]
  norm_num

/-! ### C37 -/

/-- C37: the periodized point is a periodic image of the point; its coordinates along the lattice vectors are in `[0, 1)` on
periodic axes and unchanged on the others; periodizing again changes nothing; images are periodized to the same point. -/
theorem C37_periodized (L : Lattice K d) (h : L.Regular) (x : Fin d → K) :
    L.Image (L.periodized x) x ∧
    (∃ f g, x = L.point f ∧ L.periodized x = L.point g ∧
      ∀ i, if L.periodic i then 0 ≤ g i ∧ g i < 1 else g i = f i) ∧
    L.periodized (L.periodized x) = L.periodized x ∧
    ∀ y, L.Image x y → L.periodized x = L.periodized y := by
  refine ⟨periodized_isImage h x, ⟨L.toFrac x, periodizeFrac L.periodic (L.toFrac x), ?_, rfl, ?_⟩,
    periodized_periodized h x, fun y hy => periodized_image h hy⟩
  · rw [← toCart_eq_point, toCart_toFrac h]
  · intro i
    simp only [periodizeFrac]
    cases hp : L.periodic i with
    | false => simp
    | true =>
      simp only [if_true, mul_one]
      exact ⟨Int.fract_nonneg _, Int.fract_lt_one _⟩

/-- C37: points that are not images of each other keep different periodized points. -/
theorem C37_injective (L : Lattice K d) (h : L.Regular) (x y : Fin d → K) (e : L.periodized x = L.periodized y) :
    L.Image x y := by
  have h1 := periodized_isImage h x
  rw [e] at h1
  exact h1.symm.trans (periodized_isImage h y)

/-- The open axis of the example lattice is not wrapped, the periodic one is. -/
example : demo.periodized (demo.point ![5/2, 5/2]) = demo.point ![1/2, 5/2] := by
  rw [periodized, toFrac_point demo_regular]
  have : periodizeFrac (K := ℚ) demo.periodic ![5/2, 5/2] = ![1/2, 5/2] := by
    have hfl : ⌊(5 / 2 : ℚ)⌋ = 2 := by norm_num [Int.floor_eq_iff]
    funext i
    fin_cases i <;> simp [periodizeFrac, demo, hfl]
    norm_num
  rw [this]; rfl

/-! ### C38 -/

/-- C38: vector `i` of the scaled lattice is `n i` times vector `i`; flags are kept; scaling twice multiplies the counts;
independent vectors stay independent for nonzero counts; translations of the scaled lattice are translations of the
original. -/
theorem C38_scaled (L : Lattice K d) (n : Fin d → ℤ) :
    (∀ i, (L.scaled n).mat i = (n i : K) • L.mat i) ∧ (L.scaled n).periodic = L.periodic ∧
    (∀ m, (L.scaled n).scaled m = L.scaled (n * m)) ∧
    (L.Regular → (∀ i, n i ≠ 0) → (L.scaled n).Regular) ∧
    (∀ t, (L.scaled n).Translation t → L.Translation t) := by
  have h1 : ∀ i, (L.scaled n).mat i = (n i : K) • L.mat i := by
    intro i; funext j; simp [scaled, mul_comm]
  refine ⟨h1, rfl, fun m => ?_, fun hr hn => ?_, fun t ht => ?_⟩
  · have : (fun i j => L.mat i j * (n i : K) * (m i : K)) = fun i j => L.mat i j * (((n * m) i : ℤ) : K) := by
      funext i j
      simp [mul_assoc]
    simp only [scaled, this]
  · have : (fun i => (L.scaled n).mat i) = fun i => (Units.mk0 (n i : K) (by exact_mod_cast hn i)) • L.mat i := by
      funext i; rw [h1 i]; rfl
    rw [Regular, this]
    exact hr.units_smul _
  · obtain ⟨m, hm, e⟩ := ht
    refine ⟨fun i => m i * n i, fun i hi => by simp [hm i hi], ?_⟩
    rw [e]; funext j
    simp only [point, scaled]
    refine Finset.sum_congr rfl fun i _ => ?_
    push_cast; ring

/-- C38: and the translations of the scaled lattice are exactly those of the original whose coefficients are multiples of
the counts. -/
theorem C38_sublattice (L : Lattice K d) (h : L.Regular) (n : Fin d → ℤ) (c : Fin d → ℤ)
    (hc : ∀ i, L.periodic i = false → c i = 0) :
    (L.scaled n).Translation (L.point fun i => (c i : K)) ↔ ∀ i, n i ∣ c i := by
  constructor
  · rintro ⟨m, -, e⟩ i
    have : L.toFrac (L.point fun i => (c i : K)) = fun i => (m i : K) * n i := by
      rw [e]
      have : (L.scaled n).point (fun i => (m i : K)) = L.point fun i => (m i : K) * n i := by
        funext j; simp only [point, scaled]; exact Finset.sum_congr rfl fun i _ => by ring
      rw [this, toFrac_point h]
    rw [toFrac_point h] at this
    have := congrFun this i
    have : c i = m i * n i := by exact_mod_cast this
    exact ⟨m i, by rw [this, mul_comm]⟩
  · intro hd
    choose m hm using hd
    refine ⟨fun i => if L.periodic i then m i else 0, fun i hi => ?_, ?_⟩
    · have : L.periodic i = false := hi
      simp [this]
    · funext j
      simp only [point, scaled]
      refine Finset.sum_congr rfl fun i _ => ?_
      cases hp : L.periodic i with
      | false => simp [hc i hp]
      | true =>
        simp only [if_true]
        rw [hm i]; push_cast; ring

example : (demo.scaled ![3, 4]).Regular := (C38_scaled demo ![3, 4]).2.2.2.1 demo_regular (by decide)

/-! ### C39 -/

/-- C39: the periodic distance is symmetric, nonnegative, and 0 between periodic images. -/
theorem C39_distance (L : Lattice K d) (h : L.Regular) (a b : Fin d → K) :
    L.dist a b = L.dist b a ∧ 0 ≤ L.dist a b ∧ (L.Image a b → L.dist a b = 0) := by
  refine ⟨?_, roundSqrt_nonneg _ _, fun hi => ?_⟩
  · rw [dist_def, dist_def]
    have : L.pbcVec b a = - L.pbcVec a b := by rw [pbcVec, pbcVec, pbcDiffFrac_swap, toCart_neg]
    rw [this, normSq_neg]
  · obtain ⟨n, hn, e⟩ := hi.frac h
    have : pbcDiffFrac L.periodic (L.toFrac a) (L.toFrac b) = 0 := by
      funext i
      have h1 : L.toFrac a i - L.toFrac b i = (n i : K) := by rw [e i]; ring
      simp only [pbcDiffFrac, h1, roundHalfEven_int, Pi.zero_apply]
      cases hp : L.periodic i with
      | false => simp [hn i hp]
      | true => simp
    rw [dist_def, pbcVec, this, toCart_zero]
    simp [normSq]

/-- C39: conversely, points at distance 0 have images less than 0.001 apart. -/
theorem C39_zero (L : Lattice ℝ d) (h : L.Regular) (a b : Fin d → ℝ) (h0 : L.dist a b = 0) :
    ∃ b', L.Image b' b ∧ Real.sqrt (normSq (a - b')) ≤ 1 / 2000 := by
  obtain ⟨n, hn, e⟩ := pbcVec_image h a b
  refine ⟨b + L.point fun i => (n i : ℝ), ⟨n, hn, by simp⟩, ?_⟩
  have e' : a - (b + L.point fun i => (n i : ℝ)) = L.pbcVec a b := by rw [e]; abel
  rw [e']
  rw [dist_def, roundSqrt_real _ (normSq_nonneg _), roundTo, div_eq_zero_iff] at h0
  rcases h0 with h0 | h0
  · have h1 : roundHalfEven (Real.sqrt (normSq (L.pbcVec a b)) * PRECISION) = 0 := by exact_mod_cast h0
    have h2 := abs_le.1 (abs_sub_roundHalfEven (Real.sqrt (normSq (L.pbcVec a b)) * PRECISION))
    rw [h1] at h2
    simp only [PRECISION] at h2
    push_cast at h2
    linarith [h2.2]
  · simp [PRECISION] at h0

/-! ### C40 -/

theorem dist_congr {L : Lattice K d} {a b a' b' : Fin d → K}
    (h : pbcDiffFrac L.periodic (L.toFrac a) (L.toFrac b) = pbcDiffFrac L.periodic (L.toFrac a') (L.toFrac b')) :
    L.dist a b = L.dist a' b' := by
  rw [dist_def, dist_def, pbcVec, pbcVec, h]

/-- C40 (the part that holds): moving either point to a periodic image does not change the distance, if the lattice vectors
are pairwise orthogonal, or if no periodic coordinate difference is exactly half-way between integers.
Missing: half-way differences on skew lattices (`C40_false`). -/
theorem C40_image_invariant_partial (L : Lattice K d) (h : L.Regular) (a a' b b' : Fin d → K)
    (ha : L.Image a a') (hb : L.Image b b')
    (hc : L.Orthogonal ∨ ∀ i, L.periodic i = true → ¬ Tie (L.toFrac a' i - L.toFrac b' i)) :
    L.dist a b = L.dist a' b' := by
  obtain ⟨n, hn, en⟩ := ha.frac h
  obtain ⟨m, hm, em⟩ := hb.frac h
  have key : ∀ i, L.toFrac a i - L.toFrac b i = (L.toFrac a' i - L.toFrac b' i) + ((n i - m i : ℤ) : K) := by
    intro i; rw [en i, em i]; push_cast; ring
  rcases hc with ho | ht
  · rw [dist_def, dist_def, pbcVec, pbcVec, toCart_eq_point, toCart_eq_point, normSq_point ho, normSq_point ho]
    congr 1
    refine Finset.sum_congr rfl fun i _ => ?_
    congr 1
    simp only [pbcDiffFrac, key i]
    cases hp : L.periodic i with
    | false => simp [hn i hp, hm i hp]
    | true => simpa using sq_sub_round_add_int (L.toFrac a' i - L.toFrac b' i) (n i - m i)
  · refine dist_congr ?_
    funext i
    simp only [pbcDiffFrac, key i]
    cases hp : L.periodic i with
    | false => simp [hn i hp, hm i hp]
    | true =>
      rw [roundHalfEven_add_int (ht i hp)]
      push_cast; simp

/-- C40: on every lattice the distance is unchanged by translations with even coefficients. -/
theorem C40_even (L : Lattice K d) (h : L.Regular) (a b : Fin d → K) (n : Fin d → ℤ)
    (hn : ∀ i, L.periodic i = false → n i = 0) :
    L.dist (a + L.point fun i => ((2 * n i : ℤ) : K)) b = L.dist a b := by
  refine dist_congr ?_
  funext i
  have e : L.toFrac (a + L.point fun i => ((2 * n i : ℤ) : K)) i = L.toFrac a i + ((2 * n i : ℤ) : K) := by
    rw [toFrac_add, toFrac_point h, Pi.add_apply]
  simp only [pbcDiffFrac, e]
  have e2 : L.toFrac a i + ((2 * n i : ℤ) : K) - L.toFrac b i = (L.toFrac a i - L.toFrac b i) + ((2 * n i : ℤ) : K) := by ring
  rw [e2, roundHalfEven_add_even _ _ (by omega)]
  cases hp : L.periodic i with
  | false => simp [hn i hp]
  | true => push_cast; simp

/-- The skew lattice of the counterexample. -/
def skew : Lattice ℚ 2 := ⟨!![1, 0; 1/2, 1], fun _ => true⟩

theorem skew_regular : skew.Regular := regular_of_isUnit (by simp [skew, Matrix.det_fin_two])

theorem roundHalfEven_of {x : K} {n : ℤ} (h : Nearest x n) : roundHalfEven x = n := roundHalfEven_eq_iff.2 h

/-- C40 is false: on the lattice with vectors (1,0) and (1/2,1), the point with coordinates (1/2, 1/4) is 0.673 from the origin, and
its image with coordinates (3/2, 1/4) is 0.451 from it. -/
theorem C40_false : ∃ a a' b : Fin 2 → ℚ, skew.Regular ∧ skew.Image a a' ∧ skew.dist a b ≠ skew.dist a' b := by
  refine ⟨skew.point ![3/2, 1/4], skew.point ![1/2, 1/4], skew.point ![0, 0], skew_regular, ⟨![1, 0], ?_, ?_⟩, ?_⟩
  · intro i hi; simp [skew] at hi
  · rw [← toCart_eq_point, ← toCart_eq_point, ← toCart_eq_point, ← toCart_sub]
    congr 1
    funext i; fin_cases i <;> simp
    norm_num
  · have r1 : roundHalfEven (3/2 : ℚ) = 2 := roundHalfEven_of (.inr ⟨by norm_num, by norm_num⟩)
    have r2 : roundHalfEven (1/2 : ℚ) = 0 := roundHalfEven_of (.inr ⟨by norm_num, by norm_num⟩)
    have r3 : roundHalfEven (1/4 : ℚ) = 0 := roundHalfEven_of (.inl (by norm_num [abs_lt]))
    have e1 : skew.dist (skew.point ![3/2, 1/4]) (skew.point ![0, 0]) = roundSqrt 1000 (13/64 : ℚ) := by
      rw [dist_def, pbcVec, toFrac_point skew_regular, toFrac_point skew_regular]
      have : pbcDiffFrac (K := ℚ) skew.periodic ![3/2, 1/4] ![0, 0] = ![-1/2, 1/4] := by
        funext i
        fin_cases i
        · simp only [pbcDiffFrac, skew]; simp; rw [r1]; norm_num
        · simp only [pbcDiffFrac, skew]; simp; rw [show (4⁻¹ : ℚ) = 1/4 by norm_num, r3]
      rw [this, toCart_eq_point]
      simp [normSq, point, skew, Fin.sum_univ_two, PRECISION]
      norm_num
    have e2 : skew.dist (skew.point ![1/2, 1/4]) (skew.point ![0, 0]) = roundSqrt 1000 (29/64 : ℚ) := by
      rw [dist_def, pbcVec, toFrac_point skew_regular, toFrac_point skew_regular]
      have : pbcDiffFrac (K := ℚ) skew.periodic ![1/2, 1/4] ![0, 0] = ![1/2, 1/4] := by
        funext i
        fin_cases i
        · simp only [pbcDiffFrac, skew]; simp; rw [show (2⁻¹ : ℚ) = 1/2 by norm_num, r2]
        · simp only [pbcDiffFrac, skew]; simp; rw [show (4⁻¹ : ℚ) = 1/4 by norm_num, r3]
      rw [this, toCart_eq_point]
      simp [normSq, point, skew, Fin.sum_univ_two, PRECISION]
      norm_num
    rw [e1, e2]
    decide +kernel

/-! ### C41 -/

/-- C41 (the part that holds): on orthogonal lattices the distance is the rounded minimum over the periodic images.
Missing: skew lattices (`C41_false`). -/
theorem C41_minimum_image_partial (L : Lattice K d) (h : L.Regular) (ho : L.Orthogonal) (a b : Fin d → K) :
    ∃ m, IsLeast {q | ∃ b', L.Image b' b ∧ q = normSq (a - b')} m ∧ L.dist a b = roundSqrt PRECISION m := by
  refine ⟨normSq (L.pbcVec a b), ⟨?_, ?_⟩, rfl⟩
  · obtain ⟨n, hn, e⟩ := pbcVec_image h a b
    refine ⟨b + L.point fun i => (n i : K), ⟨n, hn, by simp⟩, ?_⟩
    rw [e]; congr 1; abel
  · rintro q ⟨b', hb', rfl⟩
    obtain ⟨n, hn, e⟩ := hb'.frac h
    have hab : a - b' = L.point fun i => L.toFrac a i - L.toFrac b i - n i := by
      rw [← toCart_toFrac h (a - b'), toFrac_sub, toCart_eq_point]
      congr 1; funext i; rw [Pi.sub_apply, e i]; ring
    rw [hab, pbcVec, toCart_eq_point, normSq_point ho, normSq_point ho]
    refine Finset.sum_le_sum fun i _ => mul_le_mul_of_nonneg_right ?_ (normSq_nonneg _)
    simp only [pbcDiffFrac]
    cases hp : L.periodic i with
    | false => simp [hn i hp]
    | true => simpa using sq_sub_round_le (L.toFrac a i - L.toFrac b i) (n i)

/-- C41 over the reals, with the Euclidean distance spelled out. -/
theorem C41_real_partial (L : Lattice ℝ d) (h : L.Regular) (ho : L.Orthogonal) (a b : Fin d → ℝ) :
    ∃ m, IsLeast {r | ∃ b', L.Image b' b ∧ r = Real.sqrt (∑ i, (a i - b' i) ^ 2)} m ∧ L.dist a b = roundTo 1000 m := by
  obtain ⟨m, ⟨⟨b', hb', hm⟩, hl⟩, hd⟩ := C41_minimum_image_partial L h ho a b
  have hm0 : 0 ≤ m := hm ▸ normSq_nonneg _
  refine ⟨Real.sqrt m, ⟨⟨b', hb', by rw [hm]; rfl⟩, ?_⟩, by rw [hd, roundSqrt_real _ hm0]; rfl⟩
  rintro r ⟨b'', hb'', rfl⟩
  exact Real.sqrt_le_sqrt (hl ⟨b'', hb'', rfl⟩)

/-- C41: on every lattice the distance is the rounded distance to some periodic image (so it is never too small). -/
theorem C41_attained (L : Lattice ℝ d) (h : L.Regular) (a b : Fin d → ℝ) :
    ∃ b', L.Image b' b ∧ L.dist a b = roundTo 1000 (Real.sqrt (∑ i, (a i - b' i) ^ 2)) := by
  obtain ⟨n, hn, e⟩ := pbcVec_image h a b
  refine ⟨b + L.point fun i => (n i : ℝ), ⟨n, hn, by simp⟩, ?_⟩
  have e' : L.pbcVec a b = a - (b + L.point fun i => (n i : ℝ)) := by rw [e]; abel
  rw [dist_def, roundSqrt_real _ (normSq_nonneg _), e']
  rfl

/-- An orthogonal lattice that is not a box along the axes, with an open direction. -/
def tilted : Lattice ℝ 2 := ⟨!![3, 4; -4, 3], fun i => i = 0⟩
example : tilted.Regular ∧ tilted.Orthogonal := by
  refine ⟨regular_of_isUnit (by simp [tilted, Matrix.det_fin_two]; norm_num), ?_⟩
  intro i j hij
  fin_cases i <;> fin_cases j <;> simp [tilted, Fin.sum_univ_two] at hij ⊢ <;> norm_num

/-- A very skew lattice. -/
def sheared : Lattice ℚ 2 := ⟨!![1, 0; 10, 1], fun _ => true⟩
theorem sheared_regular : sheared.Regular := regular_of_isUnit (by simp [sheared, Matrix.det_fin_two])

theorem sheared_dist : sheared.dist (sheared.point ![0, 4/10]) (sheared.point ![0, 0]) = 402 / 100 := by
  have r1 : roundHalfEven (4/10 : ℚ) = 0 := roundHalfEven_of (.inl (by norm_num [abs_lt]))
  have r0 : roundHalfEven (0 : ℚ) = 0 := by simpa using roundHalfEven_int (K := ℚ) 0
  rw [dist_def, pbcVec, toFrac_point sheared_regular, toFrac_point sheared_regular]
  have : pbcDiffFrac (K := ℚ) sheared.periodic ![0, 4/10] ![0, 0] = ![0, 4/10] := by
    funext i
    fin_cases i
    · simp only [pbcDiffFrac, sheared]; simp [r0]
    · simp only [pbcDiffFrac, sheared]; simp [r1]
  rw [this, toCart_eq_point]
  have : normSq (sheared.point ![0, 4/10]) = (1616/100 : ℚ) := by
    simp [normSq, point, sheared, Fin.sum_univ_two]; norm_num
  rw [this]; decide +kernel

/-- C41 is false: on the lattice with vectors (1,0) and (10,1), the code says 4.020 for a point that has an image 0.4 from
the origin. -/
theorem C41_false : ∃ a b : Fin 2 → ℚ, sheared.Regular ∧
    ∃ b', sheared.Image b' b ∧ roundSqrt 1000 (normSq (a - b')) = 4 / 10 ∧ sheared.dist a b = 402 / 100 := by
  refine ⟨sheared.point ![0, 4/10], sheared.point ![0, 0], sheared_regular, sheared.point ![4, 0], ⟨![4, 0], ?_, ?_⟩, ?_, ?_⟩
  · intro i hi; simp [sheared] at hi
  · rw [← toCart_eq_point, ← toCart_eq_point, ← toCart_eq_point, ← toCart_sub]
    congr 1
    funext i; fin_cases i <;> simp
  · have : normSq (sheared.point ![0, 4/10] - sheared.point ![4, 0]) = (16/100 : ℚ) := by
      simp [normSq, point, sheared, Fin.sum_univ_two]; norm_num
    rw [this]; decide +kernel
  · exact sheared_dist

/-! ### C42 -/

theorem mapM_ofFn {α β : Type} {n : ℕ} (f : α → Py β) (g : Fin n → α) (k : Fin n → β) (h : ∀ i, f (g i) = .ok (k i)) :
    (List.ofFn g).mapM f = .ok (List.ofFn k) := by
  rw [List.ofFn_eq_map, List.ofFn_eq_map, List.mapM_map]
  exact mapM_ok _ fun i _ => h i

theorem toFlag_boolVal (b : Bool) : (boolVal b).toFlag = .ok b := by
  cases b <;> simp [boolVal, Val.toFlag]

theorem init_ofFn (hd : d ≠ 0) (L : Lattice ℚ d) :
    init (List.ofFn fun i => List.ofFn fun j => L.mat i j) (.many (List.ofFn L.periodic)) = .ok ⟨d, L⟩ := by
  have hl : (List.ofFn fun i => List.ofFn fun j => L.mat i j).length = d := by simp
  have hne : (List.ofFn fun i => List.ofFn fun j => L.mat i j) ≠ [] := by
    intro e; rw [e] at hl; exact hd hl.symm
  have hsq : ∀ v ∈ (List.ofFn fun i => List.ofFn fun j => L.mat i j),
      v.length = (List.ofFn fun i => List.ofFn fun j => L.mat i j).length := by
    intro v hv
    obtain ⟨i, rfl⟩ := List.mem_ofFn.1 hv
    simp
  have hpl : (List.ofFn L.periodic).length = (List.ofFn fun i => List.ofFn fun j => L.mat i j).length := by simp
  unfold init
  split
  · contradiction
  · rw [dif_pos hsq]
    simp only [dif_pos hpl]
    congr 1
    have : ∀ (n : ℕ) (hn : n = d) (m : Matrix (Fin n) (Fin n) ℚ) (p : Fin n → Bool),
        (∀ i j, m i j = L.mat (i.cast hn) (j.cast hn)) → (∀ i, p i = L.periodic (i.cast hn)) →
        (⟨n, m, p⟩ : Σ d, Lattice ℚ d) = ⟨d, L⟩ := by
      rintro n rfl m p hm hp
      have h1 : m = L.mat := by funext i j; exact hm i j
      have h2 : p = L.periodic := by funext i; exact hp i
      subst h1; subst h2; rfl
    refine this _ hl _ _ ?_ ?_
    · intro i j; simp [Fin.cast]
    · intro i; simp [Fin.cast]

/-- C42: a lattice is rebuilt from its dict, directly and after a trip through JSON (which turns the tuple of flags into a
list), with the same vectors and flags. -/
theorem C42_round_trip (hd : d ≠ 0) (L : Lattice ℚ d) :
    fromDict L.asDict = .ok ⟨d, L⟩ ∧ ∃ j, (Val.dict L.asDict).json = .dict j ∧ fromDict j = .ok ⟨d, L⟩ := by
  have hv : ∀ p : Val, p.toPeriodicArg = .ok (.many (List.ofFn L.periodic)) →
      fromDict [(.str "vectors", .list (List.ofFn fun i => .list (List.ofFn fun j => .num (L.mat i j)))),
        (.str "periodic", p)] = .ok ⟨d, L⟩ := by
    intro p hp
    have h1 : (List.ofFn fun i => Val.list (List.ofFn fun j => .num (L.mat i j))).mapM
        (fun r => do (← r.toItems).mapM Val.toNum) = .ok (List.ofFn fun i => List.ofFn fun j => L.mat i j) := by
      refine mapM_ofFn _ _ _ fun i => ?_
      simp only [Val.toItems, ok_bind]
      exact mapM_ofFn _ _ _ fun j => rfl
    have g1 : Dict.get? [((.str "vectors" : Key), Val.list (List.ofFn fun i => .list (List.ofFn fun j => .num (L.mat i j)))),
        (.str "periodic", p)] (.str "vectors") = some (.list (List.ofFn fun i => .list (List.ofFn fun j => .num (L.mat i j)))) := by
      rw [Dict.get?_cons, if_pos rfl]
    have g2 : Dict.get? [((.str "vectors" : Key), Val.list (List.ofFn fun i => .list (List.ofFn fun j => .num (L.mat i j)))),
        (.str "periodic", p)] (.str "periodic") = some p := by
      rw [Dict.get?_cons, if_neg (by decide), Dict.get?_cons, if_pos rfl]
    simp only [fromDict, g1, g2]
    rw [show ∀ l, (Val.list l).toItems = .ok l from fun _ => rfl, ok_bind, h1, ok_bind, hp, ok_bind]
    exact init_ofFn hd L
  have hflags : (List.ofFn fun i => boolVal (L.periodic i)).mapM Val.toFlag = .ok (List.ofFn L.periodic) :=
    mapM_ofFn _ _ _ fun i => toFlag_boolVal _
  refine ⟨hv _ ?_, _, ?_, hv (.list (List.ofFn fun i => boolVal (L.periodic i))) ?_⟩
  · simp only [Val.toPeriodicArg, hflags, ok_bind]; rfl
  · rw [asDict, Val.json, Val.jsonPairs, Val.jsonPairs, Val.jsonPairs, ofPairs_of_nodup _ (by simp [Dict.WF, Dict.keys, Key.json])]
    have hb : ∀ b, (boolVal b).json = boolVal b := by intro b; simp [boolVal, Val.json]
    simp only [Val.json, jsonList_eq, Key.json, List.map_ofFn, Function.comp_def, hb]
  · simp only [Val.toPeriodicArg, hflags, ok_bind]; rfl

example : fromDict demo.asDict = .ok ⟨2, demo⟩ := (C42_round_trip (by decide) demo).1

/-- A lattice with an open axis is not read back as fully periodic. -/
example : demo.periodic 1 = false := rfl

end Lattice
end Pyl
