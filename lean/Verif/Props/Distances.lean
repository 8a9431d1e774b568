import Verif.Props.Neighborhood
/-
C40, C41 for short distances on arbitrary lattices; C98: which sites a distance neighbourhood contains.
-/
set_option autoImplicit false
set_option linter.unusedSectionVars false

namespace Pyl
variable {K : Type} [Field K] [LinearOrder K] [IsStrictOrderedRing K] [FloorRing K] {d : ℕ}

theorem roundSqrt_mono {N : ℕ} (hN : N ≠ 0) {q q' : K} (hq : 0 ≤ q) (h : q ≤ q') : roundSqrt N q ≤ roundSqrt N q' := by
  obtain ⟨k, e, h1, -⟩ := roundSqrt_bounds N hq
  obtain ⟨k', e', -, h2⟩ := roundSqrt_bounds N (hq.trans h)
  have hNp : (0 : K) < N := by exact_mod_cast Nat.pos_of_ne_zero hN
  by_contra hlt
  rw [not_le, e, e', div_lt_div_iff_of_pos_right hNp] at hlt
  have hk : (k' : K) + 1 ≤ k := by exact_mod_cast Nat.succ_le_of_lt (Nat.cast_lt.1 hlt)
  have hk' : (0 : K) ≤ k' := Nat.cast_nonneg _
  have h3 : q * N * N ≤ q' * N * N := by gcongr
  rcases h1 with h1 | h1
  · linarith
  · have h4 : (2 * (k' : K) + 1) ^ 2 ≤ (2 * (k : K) - 1) ^ 2 := by
      apply pow_le_pow_left₀ <;> linarith
    have h5 : q * N * N = q' * N * N := le_antisymm h3 (by linarith)
    have h6 : q = q' := mul_right_cancel₀ hNp.ne' (mul_right_cancel₀ hNp.ne' h5)
    subst h6
    rw [e] at e'
    have := (div_left_inj' hNp.ne').1 e'
    linarith

/-- A length whose rounded value is below `c` is below `c` plus half a thousandth. -/
theorem lt_of_roundSqrt_lt {q c : K} (hq : 0 ≤ q) (h : roundSqrt PRECISION q < c) : q < (c + 1 / 2000) ^ 2 := by
  obtain ⟨k, e, -, h2⟩ := roundSqrt_bounds PRECISION hq
  rw [e] at h
  simp only [PRECISION] at h h2
  push_cast at h h2
  have hk : (0 : K) ≤ k := Nat.cast_nonneg _
  have h3 : q ≤ ((k : K) / 1000 + 1 / 2000) ^ 2 := by
    have : ((k : K) / 1000 + 1 / 2000) ^ 2 = (2 * k + 1) ^ 2 / 4000000 := by ring
    rw [this, le_div_iff₀ (by norm_num)]
    linarith
  refine h3.trans_lt (pow_lt_pow_left₀ (by linarith) ?_ (by norm_num))
  have : (0 : K) ≤ k / 1000 := by positivity
  linarith

namespace Lattice
variable {L : Lattice K d}

theorem normSq_smul (t : K) (x : Fin d → K) : normSq (t • x) = t ^ 2 * normSq x := by
  simp [normSq, mul_pow, Finset.mul_sum]

theorem point_smul (t : K) (f : Fin d → K) : L.point (t • f) = t • L.point f := by
  funext j
  simp [point, Finset.mul_sum, mul_assoc]

/-- A vector shorter than half the gap between two faces has a coordinate below one half. -/
theorem FacesApart.coord {i : Fin d} {r : K} (hr : L.FacesApart i (2 * r)) {f : Fin d → K} (hf : normSq (L.point f) < r ^ 2) : |f i| < 1 / 2 := by
  rcases eq_or_ne (f i) 0 with h0 | h0
  · rw [h0]; norm_num
  · have h1 := hr ((f i)⁻¹ • f) (by simp [h0])
    rw [point_smul, normSq_smul, inv_pow, ← div_eq_inv_mul, le_div_iff₀ (by positivity)] at h1
    rw [← abs_of_pos (show (0 : K) < 1 / 2 by norm_num), ← sq_lt_sq]
    have h2 : (2 * r) ^ 2 * f i ^ 2 < (2 * r) ^ 2 * (1 / 2) ^ 2 := by
      refine h1.trans_lt (hf.trans_eq ?_)
      ring
    exact lt_of_mul_lt_mul_left h2 (sq_nonneg _)

/-- What the code measures if an image is near. -/
theorem pbcVec_short (h : L.Regular) {r : K} (hr : ∀ i, L.periodic i = true → L.FacesApart i (2 * r)) {a b b' : Fin d → K} (hb : L.Image b' b)
    (hs : normSq (a - b') < r ^ 2) : L.pbcVec a b = a - b' := by
  obtain ⟨n, hn, e⟩ := hb.frac h
  have hab : a - b' = L.point fun i => L.toFrac a i - L.toFrac b i - n i := by
    rw [← toCart_toFrac h (a - b'), toFrac_sub, toCart_eq_point]
    congr 1; funext i; rw [Pi.sub_apply, e i]; ring
  rw [hab, pbcVec, toCart_eq_point]
  rw [hab] at hs
  congr 1
  funext i
  simp only [pbcDiffFrac]
  cases hp : L.periodic i with
  | false => simp [hn i hp]
  | true =>
    have := (hr i hp).coord hs
    have hround : roundHalfEven (L.toFrac a i - L.toFrac b i) = n i := roundHalfEven_of (.inl (by
      rw [abs_lt] at this ⊢
      constructor <;> linarith [this.1, this.2]))
    simp [hround]

/-- C41 on every lattice, for short distances: let all pairs of opposite faces of the cell across periodic axes be at least `2 r` apart.  If `b` has an image
`b'` closer to `a` than `r`, the distance is the rounded distance to `b'`, and `b'` is closer than all other images.
Missing: longer distances on skew lattices (`C41_false`). -/
theorem C41_short_partial (L : Lattice K d) (h : L.Regular) (r : K) (hr : ∀ i, L.periodic i = true → L.FacesApart i (2 * r)) (a b b' : Fin d → K)
    (hb : L.Image b' b) (hs : normSq (a - b') < r ^ 2) :
    L.dist a b = roundSqrt PRECISION (normSq (a - b')) ∧ ∀ b'', L.Image b'' b → b'' ≠ b' → normSq (a - b') < normSq (a - b'') := by
  refine ⟨by rw [dist_def, pbcVec_short h hr hb hs], fun b'' hb'' hne => ?_⟩
  by_contra hlt
  have h1 := pbcVec_short h hr hb'' (lt_of_le_of_lt (not_lt.1 hlt) hs)
  rw [pbcVec_short h hr hb hs] at h1
  exact hne (sub_right_injective h1).symm

/-- C40 on every lattice, for short distances: if some image of `b` is closer to `a` than half the gap between opposite faces of the cell, all images of `a` and `b`
have the same distance.  Missing: longer distances at half-way coordinate differences on skew lattices (`C40_false`). -/
theorem C40_short_partial (L : Lattice K d) (h : L.Regular) (r : K) (hr : ∀ i, L.periodic i = true → L.FacesApart i (2 * r)) (a a' b b' : Fin d → K)
    (ha : L.Image a a') (hb : L.Image b b') (hs : ∃ b'', L.Image b'' b ∧ normSq (a - b'') < r ^ 2) : L.dist a b = L.dist a' b' := by
  obtain ⟨c, hc, hs⟩ := hs
  have e : a' - (c - (a - a')) = a - c := by abel
  have hi : L.Image (c - (a - a')) b' := by
    have h1 : L.Image (c - (a - a')) c := by
      have := ha.symm
      unfold Image at this ⊢
      rwa [show c - (a - a') - c = a' - a by abel]
    exact h1.trans (hc.trans hb)
  rw [(C41_short_partial L h r hr a b c hc hs).1, (C41_short_partial L h r hr a' b' _ hi (by rw [e]; exact hs)).1, e]

/-- The faces of an orthogonal cell are as far apart as the lattice vectors are long. -/
theorem facesApart_orthogonal (ho : L.Orthogonal) (i : Fin d) {h : K} (hh : h ^ 2 ≤ normSq (L.mat i)) : L.FacesApart i h := by
  intro f hf
  rw [normSq_point ho]
  refine hh.trans ?_
  rw [← Finset.add_sum_erase _ _ (Finset.mem_univ i), hf]
  have : 0 ≤ ∑ x ∈ Finset.univ.erase i, f x ^ 2 * normSq (L.mat x) := Finset.sum_nonneg fun j _ => mul_nonneg (sq_nonneg _) (normSq_nonneg _)
  linarith

/-- The skew lattice of `C40_false`, with vectors (1,0) and (1/2,1): its faces are at least 0.88 apart. -/
theorem skew_faces (i : Fin 2) : skew.FacesApart i (88 / 100) := by
  intro f hf
  have e : normSq (skew.point f) = (f 0 + f 1 / 2) ^ 2 + f 1 ^ 2 := by
    simp [normSq, point, skew, Fin.sum_univ_two]; ring
  rw [e]
  fin_cases i
  · simp only [Fin.zero_eta] at hf
    rw [hf]
    nlinarith [sq_nonneg (f 1 + 2 / 5)]
  · simp only [Fin.mk_one] at hf
    rw [hf]
    nlinarith [sq_nonneg (f 0 + 1 / 2)]

/-- On that lattice the origin is at distance 0.224 from the point (0.9, 0.2), through the image (-0.1, 0.2). -/
example : skew.dist 0 ![9/10, 2/10] = 224 / 1000 := by
  rw [(C41_short_partial skew skew_regular (44 / 100) (fun i _ => by
    rw [show (2 : ℚ) * (44 / 100) = 88 / 100 by norm_num]; exact skew_faces i) 0 ![9/10, 2/10] ![-1/10, 2/10] ⟨![-1, 0], by simp [skew], ?_⟩ ?_).1]
  · rw [show normSq (0 - ![-1/10, 2/10] : Fin 2 → ℚ) = 5 / 100 by simp [normSq, Fin.sum_univ_two]; norm_num]
    decide +kernel
  · funext i; fin_cases i <;> simp [point, skew, Fin.sum_univ_two]; norm_num
  · simp [normSq, Fin.sum_univ_two]; norm_num

end Lattice

/-! ### C98 -/

open Pyl.Lattice Structure

/-- C98 on orthogonal lattices (see `ClosestDistance`): a Distance or Annular neighbourhood has exactly the sites whose closest image is inside the cutoff (annulus), with that
distance as weight.  Missing: skew lattices with long cutoffs (`C98_false`). -/
theorem C98_orthogonal_partial {s : Structure K d} (h : s.Reachable) (ho : s.lattice.Orthogonal) (b : Builder K d) (P : K → Prop) (hb : ByDistance b P) :
    ∃ g, b.get s none = .ok g ∧ ∀ i j w, (j, w) ∈ g.weightedNeighborsOf i ↔
      i ≠ j ∧ ∃ x y r, s.siteLocation i = .ok x ∧ s.siteLocation j = .ok y ∧ s.lattice.ClosestDistance x y r ∧ P r ∧ w = some r := by
  obtain ⟨g, hg, hmem⟩ := C56_distance h b P hb
  refine ⟨g, hg, fun i j w => (hmem i j w).trans (and_congr_right fun _ => ?_)⟩
  have key : ∀ x y r, s.lattice.dist x y = r ↔ s.lattice.ClosestDistance x y r := by
    intro x y r
    obtain ⟨m, ⟨⟨y', hy', e⟩, hl⟩, hd⟩ := C41_minimum_image_partial s.lattice h.1 ho x y
    rw [hd]
    constructor
    · rintro rfl
      exact ⟨y', hy', fun y'' hy'' => e ▸ hl ⟨y'', hy'', rfl⟩, by rw [e]; rfl⟩
    · rintro ⟨z, hz, hmin, rfl⟩
      have : m = normSq (x - z) := le_antisymm (hl ⟨z, hz, rfl⟩) (e ▸ hmin y' hy')
      rw [this]; rfl
  simp only [key]

/-- C98 on every lattice, for cutoffs that are short compared with the cell: the distances that the builder accepts are less than `c`, and opposite faces of the cell across
periodic axes are at least `2 c + 0.001` apart.  Missing: skew lattices with long cutoffs (`C98_false`). -/
theorem C98_short_partial {s : Structure K d} (h : s.Reachable) (b : Builder K d) (P : K → Prop) (hb : ByDistance b P) (c : K) (hP : ∀ r, P r → r < c)
    (hc : ∀ i, s.lattice.periodic i = true → s.lattice.FacesApart i (2 * c + 1 / 1000)) :
    ∃ g, b.get s none = .ok g ∧ ∀ i j w, (j, w) ∈ g.weightedNeighborsOf i ↔
      i ≠ j ∧ ∃ x y r, s.siteLocation i = .ok x ∧ s.siteLocation j = .ok y ∧ s.lattice.ClosestDistance x y r ∧ P r ∧ w = some r := by
  obtain ⟨g, hg, hmem⟩ := C56_distance h b P hb
  refine ⟨g, hg, fun i j w => (hmem i j w).trans (and_congr_right fun _ => ?_)⟩
  have hr : ∀ i, s.lattice.periodic i = true → s.lattice.FacesApart i (2 * (c + 1 / 2000)) := by
    intro i hi
    rw [show 2 * (c + 1 / 2000) = 2 * c + 1 / 1000 by ring]
    exact hc i hi
  have key : ∀ x y r, P r → (s.lattice.dist x y = r ↔ s.lattice.ClosestDistance x y r) := by
    intro x y r hPr
    constructor
    · rintro rfl
      obtain ⟨n, hn, e⟩ := pbcVec_image h.1 x y
      have e' : x - (y + s.lattice.point fun i => (n i : K)) = s.lattice.pbcVec x y := by rw [e]; abel
      have hi : s.lattice.Image (y + s.lattice.point fun i => (n i : K)) y := ⟨n, hn, by simp⟩
      refine ⟨_, hi, fun y'' hy'' => ?_, by rw [e']; rfl⟩
      by_cases hne : y'' = y + s.lattice.point fun i => (n i : K)
      · rw [hne]
      · refine ((C41_short_partial _ h.1 _ hr x y _ hi ?_).2 y'' hy'' hne).le
        rw [e']
        exact lt_of_roundSqrt_lt (normSq_nonneg _) (hP _ hPr)
    · rintro ⟨z, hz, hmin, rfl⟩
      exact (C41_short_partial _ h.1 _ hr x y z hz (lt_of_roundSqrt_lt (normSq_nonneg _) (hP _ hPr))).1
  constructor
  · rintro ⟨x, y, r, h1, h2, h3, h4, h5⟩; exact ⟨x, y, r, h1, h2, (key x y r h4).1 h3, h4, h5⟩
  · rintro ⟨x, y, r, h1, h2, h3, h4, h5⟩; exact ⟨x, y, r, h1, h2, (key x y r h4).2 h3, h4, h5⟩

/-- Two sites at given places. -/
theorem pair_structure {L : Lattice K d} (hr : L.Regular) (hL : ∀ i, Aligned (L.mat i)) {x y : Fin d → K} (hx : Aligned x) (hy : Aligned y) (cx : L.InCell x)
    (cy : L.InCell y) (hne : ¬ L.Image y x) :
    ∃ s : Structure K d, s.lattice = L ∧ s.Reachable ∧ s.siteLocation 0 = .ok x ∧ s.siteLocation 1 = .ok y := by
  have hk : keyOf L y ≠ keyOf L x := fun e => hne ((samePlace_iff_image hr hL hy hx).1 ((keyOf_eq_iff hr).1 e))
  have e : (history (new L) [("A", x), ("B", y)]).1 = built L [("A", x), ("B", y)] := by
    simp only [history]
    rw [← built_nil, addSite_built]
    simp only [List.map_nil, List.not_mem_nil, if_false, List.nil_append]
    rw [addSite_built]
    simp [hk]
  refine ⟨built L [("A", x), ("B", y)], rfl, ⟨hr, [("A", x), ("B", y)], e.symm⟩, ?_, ?_⟩
  · simp [siteLocation, getSite_built, cx.periodized hr, aligned_rounded hx]
  · simp [siteLocation, getSite_built, cy.periodized hr, aligned_rounded hy]

/-- C98 is false on skew lattices with a cutoff that is long compared with the cell: on the lattice with vectors (1,0) and (10,1), the sites (0,0) and (4,0.4) are not
neighbours within 1, although an image of the second is 0.4 from the first. -/
theorem C98_false : ∃ (s : Structure ℚ 2) (g : Graph ℚ) (x y : Fin 2 → ℚ), s.Reachable ∧ (Builder.distance 1).get s none = .ok g ∧ s.siteLocation 0 = .ok x ∧
    s.siteLocation 1 = .ok y ∧ (∃ y', s.lattice.Image y' y ∧ normSq (x - y') = (4 / 10) ^ 2) ∧ 1 ∉ g.neighborsOf 0 := by
  have hal : ∀ i, Aligned (sheared.mat i) := by
    intro i j
    fin_cases i <;> fin_cases j <;> simp [sheared]
    · exact ⟨1000, by norm_num⟩
    · exact ⟨0, by norm_num⟩
    · exact ⟨10000, by norm_num⟩
    · exact ⟨1000, by norm_num⟩
  have hx : Aligned (sheared.point ![0, 0]) := by
    intro i; fin_cases i
    · exact ⟨0, by norm_num [point, sheared, Fin.sum_univ_two]⟩
    · exact ⟨0, by norm_num [point, sheared, Fin.sum_univ_two]⟩
  have hy : Aligned (sheared.point ![0, 4/10]) := by
    intro i; fin_cases i
    · exact ⟨4000, by norm_num [point, sheared, Fin.sum_univ_two]⟩
    · exact ⟨400, by norm_num [point, sheared, Fin.sum_univ_two]⟩
  obtain ⟨s, hL, hs, h0, h1⟩ := pair_structure sheared_regular hal hx hy ⟨_, rfl, by intro i _; fin_cases i <;> norm_num⟩
    ⟨_, rfl, by intro i _; fin_cases i <;> norm_num⟩ (by
      rintro ⟨m, -, e⟩
      have e1 := congrFun e 1
      simp [point, sheared, Fin.sum_univ_two] at e1
      have : (10 * m 1 : ℤ) = 4 := by
        have : (10 * m 1 : ℚ) = 4 := by linarith
        exact_mod_cast this
      omega)
  obtain ⟨g, hg, hmem⟩ := C56_distance hs (.distance 1) _ (.distance 1)
  refine ⟨s, g, _, _, hs, hg, h0, h1, ⟨sheared.point ![-4, 4/10], ?_, ?_⟩, fun hj => ?_⟩
  · rw [hL]
    refine ⟨![-4, 0], by simp [sheared], ?_⟩
    funext i; fin_cases i <;> simp [point, sheared, Fin.sum_univ_two]
  · simp [normSq, point, sheared, Fin.sum_univ_two]
  · obtain ⟨-, x, y, r, hx', hy', hr, hlt, -⟩ := (hmem 0 1 _).1 (Graph.mem_weighted.2 ⟨hj, rfl⟩)
    rw [h0] at hx'; injection hx' with hx'; subst hx'
    rw [h1] at hy'; injection hy' with hy'; subst hy'
    rw [hL, (C39_distance sheared sheared_regular _ _).1, sheared_dist] at hr
    rw [← hr] at hlt
    norm_num at hlt

/-- Sites (0,0) and (0.9,0.2) on the skew lattice with vectors (1,0) and (1/2,1) are neighbours within 0.3, with weight 0.224. -/
example : ∃ (s : Structure ℚ 2) (g : Graph ℚ), s.Reachable ∧ (Builder.distance (3/10)).get s none = .ok g ∧ (1, some (224 / 1000)) ∈ g.weightedNeighborsOf 0 := by
  have hal : ∀ i, Aligned (skew.mat i) := by
    intro i j
    fin_cases i <;> fin_cases j <;> simp [skew]
    · exact ⟨1000, by norm_num⟩
    · exact ⟨0, by norm_num⟩
    · exact ⟨500, by norm_num⟩
    · exact ⟨1000, by norm_num⟩
  have hx : Aligned (skew.point ![0, 0]) := by
    intro i; fin_cases i
    · exact ⟨0, by norm_num [point, skew, Fin.sum_univ_two]⟩
    · exact ⟨0, by norm_num [point, skew, Fin.sum_univ_two]⟩
  have hy : Aligned (skew.point ![8/10, 2/10]) := by
    intro i; fin_cases i
    · exact ⟨900, by norm_num [point, skew, Fin.sum_univ_two]⟩
    · exact ⟨200, by norm_num [point, skew, Fin.sum_univ_two]⟩
  obtain ⟨s, hL, hs, h0, h1⟩ := pair_structure skew_regular hal hx hy ⟨_, rfl, by intro i _; fin_cases i <;> norm_num⟩
    ⟨_, rfl, by intro i _; fin_cases i <;> norm_num⟩ (by
      rintro ⟨m, -, e⟩
      have e1 := congrFun e 1
      simp [point, skew, Fin.sum_univ_two] at e1
      have : (5 * m 1 : ℤ) = 1 := by
        have : (5 * m 1 : ℚ) = 1 := by linarith
        exact_mod_cast this
      omega)
  obtain ⟨g, hg, hmem⟩ := C98_short_partial hs (.distance (3/10)) _ (.distance (3/10)) (3/10) (fun _ h => h) (by
    intro i _
    rw [hL]
    intro f hf
    exact le_trans (by norm_num) (skew_faces i f hf))
  refine ⟨s, g, hs, hg, (hmem 0 1 _).2 ⟨by decide, _, _, 224 / 1000, h0, h1, ?_, by norm_num, rfl⟩⟩
  have hi : skew.Image (skew.point ![-2/10, 2/10]) (skew.point ![8/10, 2/10]) := by
    refine ⟨![-1, 0], by simp [skew], ?_⟩
    funext i; fin_cases i <;> simp [point, skew, Fin.sum_univ_two]; norm_num
  have e : normSq (skew.point ![0, 0] - skew.point ![-2/10, 2/10]) = 5 / 100 := by
    simp [normSq, point, skew, Fin.sum_univ_two]; norm_num
  rw [hL]
  refine ⟨_, hi, fun y'' hy'' => ?_, by rw [e]; decide +kernel⟩
  by_cases hne : y'' = skew.point ![-2/10, 2/10]
  · rw [hne]
  · refine ((C41_short_partial skew skew_regular (44 / 100) (fun i _ => ?_) _ _ _ hi ?_).2 y'' hy'' hne).le
    · rw [show (2 : ℚ) * (44 / 100) = 88 / 100 by norm_num]; exact skew_faces i
    · rw [e]; norm_num

end Pyl
