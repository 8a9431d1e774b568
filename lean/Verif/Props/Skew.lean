import Verif.Spec.Skew
import Verif.Props.Distances
import Verif.Model.Honeycomb
/-
C144: on which lattices wrapped distances are right.
-/
set_option autoImplicit false
set_option linter.unusedSectionVars false

namespace Pyl
namespace Lattice
variable {K : Type} [Field K] [LinearOrder K] [IsStrictOrderedRing K] [FloorRing K] {d : ℕ}

theorem normSq_gram (L : Lattice K d) (f : Fin d → K) : normSq (L.point f) = ∑ i, ∑ j, f i * f j * ∑ k, L.mat i k * L.mat j k := by
  have e : ∀ k, L.point f k ^ 2 = ∑ i, ∑ j, f i * f j * (L.mat i k * L.mat j k) := by
    intro k
    rw [sq, point, Finset.sum_mul_sum]
    exact Finset.sum_congr rfl fun i _ => Finset.sum_congr rfl fun j _ => by ring
  simp only [normSq, e, Finset.mul_sum]
  rw [Finset.sum_comm]
  exact Finset.sum_congr rfl fun i _ => Finset.sum_comm

/-- Shortening coordinates along periodic axes shortens the vector. -/
theorem normSq_mono {L : Lattice K d} (ho : L.PeriodicOrthogonal) {f g : Fin d → K} (hp : ∀ i, L.periodic i = true → f i ^ 2 ≤ g i ^ 2)
    (hn : ∀ i, L.periodic i = false → f i = g i) : normSq (L.point f) ≤ normSq (L.point g) := by
  rw [normSq_gram, normSq_gram]
  refine Finset.sum_le_sum fun i _ => Finset.sum_le_sum fun j _ => ?_
  by_cases hij : i = j
  · subst hij
    refine mul_le_mul_of_nonneg_right ?_ (Finset.sum_nonneg fun k _ => mul_self_nonneg _)
    cases h : L.periodic i with
    | false => rw [hn i h]
    | true => rw [← sq, ← sq]; exact hp i h
  · cases h : L.periodic i with
    | true => rw [ho i j hij h, mul_zero, mul_zero]
    | false =>
      cases h' : L.periodic j with
      | true =>
        have := ho j i (Ne.symm hij) h'
        simp only [mul_comm (L.mat j _)] at this
        rw [this, mul_zero, mul_zero]
      | false => rw [hn i h, hn j h']

/-- **C144.** If every vector along a periodic axis is orthogonal to all others, the distance is the rounded minimum over the periodic
images; the vectors along open axes may form any angles. -/
theorem C144_right (L : Lattice K d) (h : L.Regular) (ho : L.PeriodicOrthogonal) (a b : Fin d → K) :
    ∃ m, IsLeast {q | ∃ b', L.Image b' b ∧ q = normSq (a - b')} m ∧ L.dist a b = roundSqrt PRECISION m := by
  refine ⟨normSq (L.pbcVec a b), ⟨?_, ?_⟩, rfl⟩
  · obtain ⟨n, hn, e⟩ := pbcVec_image h a b
    refine ⟨b + L.point fun i => (n i : K), ⟨n, hn, by simp⟩, ?_⟩
    rw [e]; congr 1; abel
  · rintro q ⟨b', hb', rfl⟩
    obtain ⟨n, hn, e⟩ := hb'.frac h
    have hab : a - b' = L.point fun i => L.toFrac a i - L.toFrac b i - n i := by
      rw [← toCart_toFrac h (a - b'), toFrac_sub, toCart_eq_point]
      congr 1; funext i; rw [Pi.sub_apply, e i]; ring
    rw [hab, pbcVec, toCart_eq_point]
    refine normSq_mono ho (fun i hp => ?_) fun i hp => ?_
    · simpa [pbcDiffFrac, hp] using sq_sub_round_le (L.toFrac a i - L.toFrac b i) (n i)
    · simp [pbcDiffFrac, hp, hn i hp]

theorem rightDistances_of {L : Lattice ℝ d} (h : L.Regular) (ho : L.PeriodicOrthogonal) : L.RightDistances := by
  intro a b
  obtain ⟨m, ⟨⟨b', hb', hm⟩, hl⟩, hd⟩ := C144_right L h ho a b
  have hm0 : 0 ≤ m := hm ▸ normSq_nonneg _
  refine ⟨Real.sqrt m, ⟨⟨b', hb', by rw [hm]; rfl⟩, ?_⟩, by rw [hd, roundSqrt_real _ hm0]; rfl⟩
  rintro r ⟨b'', hb'', rfl⟩
  exact Real.sqrt_le_sqrt (hl ⟨b'', hb'', rfl⟩)

theorem RightDistances.imageFree {L : Lattice ℝ d} (h : L.RightDistances) : L.ImageFree := by
  intro a a' b b' ha hb
  obtain ⟨m, hm, e⟩ := h a b
  obtain ⟨m', hm', e'⟩ := h a' b'
  have key : ∀ {x x' y y' : Fin d → ℝ}, L.Image x x' → L.Image y y' →
      {r | ∃ z, L.Image z y ∧ r = Real.sqrt (∑ i, (x i - z i) ^ 2)} ⊆ {r | ∃ z, L.Image z y' ∧ r = Real.sqrt (∑ i, (x' i - z i) ^ 2)} := by
    rintro x x' y y' hx hy r ⟨z, hz, rfl⟩
    refine ⟨z + (x' - x), ?_, ?_⟩
    · refine Image.trans (y := z) ?_ (hz.trans hy)
      have := hx.symm
      unfold Image at this ⊢
      rwa [add_sub_cancel_left]
    · congr 1
      refine Finset.sum_congr rfl fun i _ => ?_
      simp only [Pi.add_apply, Pi.sub_apply]
      ring
  have : m = m' := hm.unique (by rw [Set.Subset.antisymm (key ha hb) (key ha.symm hb.symm)]; exact hm')
  rw [e, e', this]

theorem abs_roundTo_sub (x : ℝ) : |roundTo 1000 x - x| ≤ 1 / 2000 := by
  have h := abs_le.1 (abs_sub_roundHalfEven (x * (1000 : ℕ)))
  unfold roundTo
  rw [abs_le]
  push_cast at h ⊢
  constructor <;> linarith [h.1, h.2]

theorem cube_point (L : Lattice K d) (k : ℕ) (f : Fin d → K) : (L.cube k).point f = (k : K) • L.point f := by
  funext j
  simp only [cube, scaled, point, Pi.smul_apply, smul_eq_mul, Finset.mul_sum]
  refine Finset.sum_congr rfl fun i _ => ?_
  push_cast
  ring

theorem cube_regular {L : Lattice K d} (h : L.Regular) {k : ℕ} (hk : 0 < k) : (L.cube k).Regular :=
  (C38_scaled L _).2.2.2.1 h fun _ => by exact_mod_cast hk.ne'

/-- The point with coordinates `u` along axis `i` and `t` along axis `j`. -/
def two (i j : Fin d) (u t : K) : Fin d → K := fun k => if k = i then u else if k = j then t else 0

theorem normSq_two (L : Lattice K d) {i j : Fin d} (hij : i ≠ j) (u t : K) : normSq (L.point (two i j u t)) =
    u ^ 2 * normSq (L.mat i) + t ^ 2 * normSq (L.mat j) + 2 * u * t * ∑ k, L.mat i k * L.mat j k := by
  have e : L.point (two i j u t) = fun k => u * L.mat i k + t * L.mat j k := by
    funext k
    unfold point
    rw [Finset.sum_eq_add_of_mem i j (Finset.mem_univ _) (Finset.mem_univ _) hij]
    · simp [two, Ne.symm hij]
    · rintro l - ⟨h1, h2⟩
      simp [two, h1, h2]
  rw [e]
  simp only [normSq, Finset.mul_sum, ← Finset.sum_add_distrib]
  exact Finset.sum_congr rfl fun k _ => by ring

/-- The distance of `(u, t)` from the origin, when the coordinates are wrapped to `(u', t)`. -/
theorem dist_two {L : Lattice ℝ d} (h : L.Regular) {i j : Fin d} (hij : i ≠ j) (hp : L.periodic i = true) {u t : ℝ} {n : ℤ} (hu : roundHalfEven u = n)
    (ht : roundHalfEven t = 0) : L.dist (L.point (two i j u t)) 0 = roundTo 1000 (Real.sqrt (normSq (L.point (two i j (u - n) t)))) := by
  have e : L.pbcVec (L.point (two i j u t)) 0 = L.point (two i j (u - n) t) := by
    unfold pbcVec
    rw [toFrac_point h, toCart_eq_point]
    have h0 : L.toFrac 0 = 0 := Matrix.zero_vecMul _
    rw [h0]
    congr 1
    funext k
    unfold pbcDiffFrac two
    by_cases hk : k = i
    · subst hk
      simp [hp, hu]
    · by_cases hk' : k = j
      · subst hk'
        simp [Ne.symm hij, ht]
      · have : roundHalfEven (0 : ℝ) = 0 := by simpa using roundHalfEven_int (K := ℝ) 0
        simp [hk, hk', this]
  rw [dist_def, roundSqrt_real _ (normSq_nonneg _), e]
  rfl

theorem periodicOrthogonal_of {L : Lattice ℝ d} (h : L.Regular) (hf : ∀ k : ℕ, 0 < k → (L.cube k).ImageFree) : L.PeriodicOrthogonal := by
  intro i j hij hp
  by_contra hc
  set c := ∑ k, L.mat i k * L.mat j k with hcdef
  set p := normSq (L.point (two i j (1 / 2 : ℝ) (1 / 4))) with hpdef
  set q := normSq (L.point (two i j (-1 / 2 : ℝ) (1 / 4))) with hqdef
  have hpq : p ≠ q := by
    rw [hpdef, hqdef, normSq_two L hij, normSq_two L hij]
    intro he
    apply hc
    linarith
  have hs : Real.sqrt p ≠ Real.sqrt q := fun he => hpq ((Real.sqrt_inj (normSq_nonneg _) (normSq_nonneg _)).1 he)
  have hδ : 0 < |Real.sqrt p - Real.sqrt q| := abs_pos.2 (sub_ne_zero.2 hs)
  obtain ⟨k, hk⟩ := exists_nat_gt (1 / |Real.sqrt p - Real.sqrt q|)
  have hk0 : (0 : ℝ) < k := lt_trans (by positivity) hk
  have hkn : 0 < k := by exact_mod_cast hk0
  have hreg := cube_regular h hkn
  have r1 : roundHalfEven (1 / 2 : ℝ) = ((0 : ℤ)) := by
    rw [roundHalfEven_eq_iff]
    exact Or.inr ⟨by norm_num, rfl⟩
  have r2 : roundHalfEven (3 / 2 : ℝ) = ((2 : ℤ)) := by
    rw [roundHalfEven_eq_iff]
    exact Or.inr ⟨by norm_num [abs_of_neg], rfl⟩
  have r3 : roundHalfEven (1 / 4 : ℝ) = ((0 : ℤ)) := by
    rw [roundHalfEven_eq_iff]
    exact Or.inl (by rw [abs_lt]; norm_num)
  have d1 := dist_two hreg hij (t := 1 / 4) hp r1 r3
  have d2 := dist_two hreg hij (t := 1 / 4) hp r2 r3
  have him : (L.cube k).Image ((L.cube k).point (two i j (3 / 2) (1 / 4))) ((L.cube k).point (two i j (1 / 2) (1 / 4))) := by
    refine ⟨fun l => if l = i then 1 else 0, fun l hl => ?_, ?_⟩
    · have : l ≠ i := by
        rintro rfl
        have : L.periodic l = false := hl
        rw [hp] at this
        cases this
      simp [this]
    · rw [← toCart_eq_point, ← toCart_eq_point, ← toCart_eq_point, ← toCart_sub]
      congr 1
      funext l
      unfold two
      by_cases h1 : l = i
      · rw [Pi.sub_apply]
        simp only [h1, if_true]
        norm_num
      · by_cases h2 : l = j
        · subst h2
          simp [h1]
        · simp [h1, h2]
  have := hf k hkn _ _ 0 0 him (Image.refl 0)
  rw [d1, d2, show (3 / 2 : ℝ) - ((2 : ℤ) : ℝ) = -1 / 2 by norm_num, show (1 / 2 : ℝ) - ((0 : ℤ) : ℝ) = 1 / 2 by norm_num, cube_point, cube_point,
    normSq_smul, normSq_smul, ← hpdef, ← hqdef, Real.sqrt_mul (sq_nonneg _), Real.sqrt_mul (sq_nonneg _), Real.sqrt_sq hk0.le] at this
  have b1 := abs_le.1 (abs_roundTo_sub (k * Real.sqrt p))
  have b2 := abs_le.1 (abs_roundTo_sub (k * Real.sqrt q))
  have hb : |(k : ℝ) * (Real.sqrt p - Real.sqrt q)| ≤ 1 / 1000 := by
    rw [abs_le]
    constructor <;> linarith [b1.1, b1.2, b2.1, b2.2]
  rw [abs_mul, abs_of_pos hk0] at hb
  rw [div_lt_iff₀ hδ] at hk
  linarith

/-- **C144.** The distances are right in the supercells of every size exactly if every vector along a periodic axis is orthogonal to all
other vectors; and exactly then they do not depend on the choice of the images. -/
theorem C144_exactly (L : Lattice ℝ d) (h : L.Regular) :
    ((∀ k : ℕ, 0 < k → (L.cube k).RightDistances) ↔ L.PeriodicOrthogonal) ∧ ((∀ k : ℕ, 0 < k → (L.cube k).ImageFree) ↔ L.PeriodicOrthogonal) := by
  have h1 : L.PeriodicOrthogonal → ∀ k : ℕ, 0 < k → (L.cube k).RightDistances := by
    intro ho k hk
    refine rightDistances_of (cube_regular h hk) fun i j hij hp => ?_
    have := ho i j hij hp
    have e : ∑ l, (L.cube k).mat i l * (L.cube k).mat j l = (k : ℝ) ^ 2 * ∑ l, L.mat i l * L.mat j l := by
      rw [Finset.mul_sum]
      refine Finset.sum_congr rfl fun l _ => ?_
      simp only [cube, scaled]
      push_cast
      ring
    rw [e, this, mul_zero]
  refine ⟨⟨fun hr => periodicOrthogonal_of h fun k hk => (hr k hk).imageFree, h1⟩, ⟨periodicOrthogonal_of h, fun ho k hk => (h1 ho k hk).imageFree⟩⟩

/-- **C144.** For such lattices the distance of two points does not depend on the choice of the images. -/
theorem C144_images (L : Lattice K d) (h : L.Regular) (ho : L.PeriodicOrthogonal) {a a' b b' : Fin d → K} (ha : L.Image a a') (hb : L.Image b b') :
    L.dist a b = L.dist a' b' := by
  obtain ⟨m, hm, e⟩ := C144_right L h ho a b
  obtain ⟨m', hm', e'⟩ := C144_right L h ho a' b'
  have key : ∀ {x x' y y' : Fin d → K}, L.Image x x' → L.Image y y' →
      {q | ∃ z, L.Image z y ∧ q = normSq (x - z)} ⊆ {q | ∃ z, L.Image z y' ∧ q = normSq (x' - z)} := by
    rintro x x' y y' hx hy r ⟨z, hz, rfl⟩
    refine ⟨z + (x' - x), ?_, ?_⟩
    · refine Image.trans (y := z) ?_ (hz.trans hy)
      have := hx.symm
      unfold Image at this ⊢
      rwa [add_sub_cancel_left]
    · congr 1
      abel
  have : m = m' := hm.unique (by rw [Set.Subset.antisymm (key ha hb) (key ha.symm hb.symm)]; exact hm')
  rw [e, e', this]

/-- **C144.** Distance and annular neighbourhoods on such lattices: exactly the sites whose closest image is inside the cutoff (annulus),
with that distance as weight. -/
theorem C144_neighbours {s : Structure K d} (h : s.Reachable) (ho : s.lattice.PeriodicOrthogonal) (b : Builder K d) (P : K → Prop) (hb : ByDistance b P) :
    ∃ g, b.get s none = .ok g ∧ ∀ i j w, (j, w) ∈ g.weightedNeighborsOf i ↔
      i ≠ j ∧ ∃ x y r, s.siteLocation i = .ok x ∧ s.siteLocation j = .ok y ∧ s.lattice.ClosestDistance x y r ∧ P r ∧ w = some r := by
  obtain ⟨g, hg, hmem⟩ := C56_distance h b P hb
  refine ⟨g, hg, fun i j w => (hmem i j w).trans (and_congr_right fun _ => ?_)⟩
  have key : ∀ x y r, s.lattice.dist x y = r ↔ s.lattice.ClosestDistance x y r := by
    intro x y r
    obtain ⟨m, ⟨⟨y', hy', e⟩, hl⟩, hd⟩ := C144_right s.lattice h.1 ho x y
    rw [hd]
    constructor
    · rintro rfl
      exact ⟨y', hy', fun y'' hy'' => e ▸ hl ⟨y'', hy'', rfl⟩, by rw [e]; rfl⟩
    · rintro ⟨z, hz, hmin, rfl⟩
      have : m = normSq (x - z) := le_antisymm (hl ⟨z, hz, rfl⟩) (e ▸ hmin y' hy')
      rw [this]; rfl
  simp only [key]

/-- A lattice in space with one periodic vector, orthogonal to two skew vectors along open axes. -/
def film : Lattice ℝ 3 := ⟨!![0, 0, 2; 1, 0, 0; 1, 3, 0], ![true, false, false]⟩

/-- The hypotheses are met by a lattice that is not orthogonal. -/
example : film.Regular ∧ film.PeriodicOrthogonal ∧ ¬ film.Orthogonal := by
  refine ⟨regular_of_isUnit (by simp [film, Matrix.det_fin_three]), ?_, ?_⟩
  · intro i j hij hp
    fin_cases i <;> fin_cases j <;> simp [film, Fin.sum_univ_three] at hij hp ⊢
  · intro h
    have := h 1 2 (by decide)
    simp [film, Fin.sum_univ_three] at this

/-- **C144.** The honeycomb tiling is such a case: in some of its supercells the distances depend on the images and are not the smallest
ones. -/
theorem C144_honeycomb : ∃ k : ℕ, 0 < k ∧ ¬ ((honeyLattice (Real.sqrt 3)).cube k).ImageFree ∧ ¬ ((honeyLattice (Real.sqrt 3)).cube k).RightDistances := by
  have hr : (honeyLattice (Real.sqrt 3)).Regular := regular_of_isUnit (by simp [honeyLattice, Matrix.det_fin_two])
  by_contra hc
  push Not at hc
  have h : ∀ k : ℕ, 0 < k → ((honeyLattice (Real.sqrt 3)).cube k).ImageFree := by
    intro k hk
    by_contra hi
    exact hi (hc k hk hi).imageFree
  have := ((C144_exactly _ hr).2.1 h) 0 1 (by decide) rfl
  simp [honeyLattice, Fin.sum_univ_two] at this

end Lattice
end Pyl
