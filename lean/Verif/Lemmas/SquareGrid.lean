import Verif.Model.SquareGrid
import Verif.Spec.SquareGrid
import Verif.Props.Neighborhood
/-
Square grids as tori.
-/
set_option autoImplicit false
set_option linter.unusedSectionVars false

namespace Pyl
open Pyl.Lattice Structure
variable {K : Type} [Field K] [LinearOrder K] [IsStrictOrderedRing K] [FloorRing K] {d : ℕ}

theorem history_of_distinct (L : Lattice K d) (ops acc : List (String × (Fin d → K))) (h : Distinct L (acc ++ ops)) :
    (history (built L acc) ops).1 = built L (acc ++ ops) := by
  induction ops generalizing acc with
  | nil => simp [history]
  | cons op ops ih =>
    have hk : keyOf L op.2 ∉ acc.map (fun c => keyOf L c.2) := by
      rw [Distinct, List.map_append, List.map_cons] at h
      intro hm
      exact (List.nodup_append.1 h).2.2 _ hm _ List.mem_cons_self rfl
    rw [history, addSite_built, if_neg hk]
    have e : acc ++ op :: ops = acc ++ [op] ++ ops := by simp
    rw [e] at h ⊢
    exact ih _ h

theorem reachable_built {L : Lattice K d} (hr : L.Regular) {acc : List (String × (Fin d → K))} (h : Distinct L acc) :
    (built L acc).Reachable := by
  refine ⟨hr, acc, ?_⟩
  have := history_of_distinct L acc [] (by simpa using h)
  simpa [built_nil] using this.symm

theorem alignedReachable_built {L : Lattice K d} (hr : L.Regular) (hL : ∀ i, Aligned (L.mat i)) {acc : List (String × (Fin d → K))}
    (hal : ∀ op ∈ acc, Aligned op.2) (h : Distinct L acc) : (built L acc).AlignedReachable := by
  refine ⟨hr, hL, acc, hal, ?_⟩
  have := history_of_distinct L acc [] (by simpa using h)
  simpa [built_nil] using this.symm

theorem aligned_int (c : Fin d → ℤ) : Aligned (intPoint c : Fin d → K) :=
  fun i => ⟨1000 * c i, by simp [intPoint]⟩

/-- What the theorems need to know about a square grid. -/
structure IsTorus (s : Structure K d) (N : Fin d → ℤ) : Prop where
  pos : ∀ j, 0 < N j
  reach : s.AlignedReachable
  image : ∀ x y : Fin d → ℤ, s.lattice.Image (intPoint x : Fin d → K) (intPoint y) ↔ ∀ j, N j ∣ x j - y j
  site : ∀ i ∈ s.siteIds, ∃ c, InBox N c ∧ SiteHas s i c
  ex : ∀ c, InBox N c → ∃ i ∈ s.siteIds, SiteHas s i c
  count : s.siteIds.length = ∏ j, (N j).toNat

/-- The rows of the matrix are the unit vectors, permuted by an involution, and all axes are periodic. -/
structure IsGrid (L : Lattice K d) (σ : Fin d → Fin d) : Prop where
  mat : ∀ i j, L.mat i j = if j = σ i then 1 else 0
  inv : ∀ i, σ (σ i) = i
  per : ∀ i, L.periodic i = true

namespace IsGrid
variable {L : Lattice K d} {σ : Fin d → Fin d}

theorem symm (h : IsGrid L σ) (i j : Fin d) : L.mat i j = L.mat j i := by
  rw [h.mat, h.mat]
  congr 1
  apply propext
  constructor
  · rintro rfl; exact (h.inv i).symm
  · rintro rfl; exact (h.inv j).symm

theorem point_scaled (h : IsGrid L σ) (n : Fin d → ℤ) (f : Fin d → K) (j : Fin d) : (L.scaled n).point f j = f (σ j) * n (σ j) := by
  rw [point, Finset.sum_eq_single (σ j)]
  · simp only [scaled, h.mat, h.inv, if_true, one_mul]
  · intro b _ hb
    have : j ≠ σ b := fun e => hb (by rw [e, h.inv])
    simp only [scaled, h.mat, if_neg this, zero_mul, mul_zero]
  · simp

theorem point (h : IsGrid L σ) (f : Fin d → K) (j : Fin d) : L.point f j = f (σ j) := by
  have := h.point_scaled (fun _ => 1) f j
  have e : L.scaled (fun _ => 1) = L := by
    rw [scaled]; congr; funext i j; simp
  rw [e] at this; simpa using this

theorem regular (h : IsGrid L σ) : L.Regular := by
  have hm : L.mat * L.mat = 1 := by
    funext i j
    rw [Matrix.mul_apply, Finset.sum_eq_single (σ i)]
    · rw [h.mat, h.mat, h.inv, Matrix.one_apply, if_pos rfl, one_mul]
      by_cases e : i = j <;> simp [e, eq_comm]
    · intro b _ hb
      rw [h.mat, if_neg hb, zero_mul]
    · simp
  refine regular_of_isUnit ?_
  have := congrArg Matrix.det hm
  rw [Matrix.det_mul, Matrix.det_one] at this
  exact IsUnit.of_mul_eq_one _ this

theorem aligned (h : IsGrid L σ) (i : Fin d) : Aligned (L.mat i) := by
  intro j
  rw [h.mat]
  split_ifs
  · exact ⟨1000, by norm_num⟩
  · exact ⟨0, by norm_num⟩

theorem image_iff (h : IsGrid L σ) {n : Fin d → ℤ} (x y : Fin d → ℤ) :
    (L.scaled n).Image (intPoint x : Fin d → K) (intPoint y) ↔ ∀ j, n (σ j) ∣ x j - y j := by
  constructor
  · rintro ⟨m, -, e⟩ j
    have := congrFun e j
    rw [h.point_scaled] at this
    simp only [intPoint, Pi.sub_apply] at this
    refine ⟨m (σ j), ?_⟩
    rw [mul_comm]
    exact_mod_cast this
  · intro hd
    choose q hq using hd
    refine ⟨fun i => q (σ i), fun i hi => ?_, ?_⟩
    · have hp : (L.scaled n).periodic i = true := h.per i
      rw [hp] at hi; cases hi
    · funext j
      rw [h.point_scaled]
      simp only [intPoint, Pi.sub_apply, h.inv]
      have := hq j
      rw [mul_comm] at this
      exact_mod_cast this

theorem entries_gridMotif : (gridMotif : Motif K d).entries = [("_A", 0)] := rfl

theorem siteIn_grid (h : IsGrid L σ) (c : Fin d → ℤ) : siteIn L false c ("_A", (0 : Fin d → K)) = ("_A", intPoint fun j => c (σ j)) := by
  simp only [siteIn, Bool.false_eq_true, if_false, zero_add, Prod.mk.injEq, true_and]
  funext j
  rw [h.point]; rfl

/-- The sites of the grid in order. -/
theorem tiling_grid (h : IsGrid L σ) (n : Fin d → ℤ) :
    tiling L n gridMotif false = (cells n).map fun p => ("_A", (intPoint fun j => cellVec d p (σ j) : Fin d → K)) := by
  rw [tiling_eq (.inr h.symm), entries_gridMotif]
  simp only [List.map_cons, List.map_nil, h.siteIn_grid]
  generalize cells n = ps
  induction ps with
  | nil => rfl
  | cons p ps ih => rw [List.flatMap_cons, ih]; rfl

theorem build_grid (h : IsGrid L σ) (n : Fin d → ℤ) (hn : ∀ i, 0 < n i) :
    ∃ s, buildFrom L n gridMotif false = .ok s ∧ s.lattice = L.scaled n ∧ IsTorus s (fun j => n (σ j)) ∧
      (∀ (q : ℕ) (p : List ℤ), (cells n)[q]? = some p → s.getSite q = some ⟨"_A", intPoint fun j => cellVec d p (σ j), q⟩) ∧
      s.siteIds = List.range (cells n).length := by
  have hr : (L.scaled n).Regular := (C38_scaled L n).2.2.2.1 h.regular fun i => (hn i).ne'
  have hal : ∀ op ∈ tiling L n gridMotif false, Aligned op.2 := by
    rw [h.tiling_grid]
    intro op hop
    obtain ⟨p, -, rfl⟩ := List.mem_map.1 hop
    exact aligned_int _
  have hD : Distinct (L.scaled n) (tiling L n gridMotif false) := by
    rw [Distinct, h.tiling_grid, List.map_map]
    refine (List.nodup_map_iff_inj_on (nodup_cells n)).2 ?_
    intro p hp q hq e
    simp only [Function.comp] at e
    have := (samePlace_iff_image hr (aligned_scaled h.aligned n) (aligned_int _) (aligned_int _)).1 ((keyOf_eq_iff hr).1 e)
    rw [h.image_iff] at this
    obtain ⟨hp1, hp2⟩ := mem_cells.1 hp
    obtain ⟨hq1, hq2⟩ := mem_cells.1 hq
    rw [← ofFn_cellVec hp1, ← ofFn_cellVec hq1]
    congr 1
    funext i
    have h1 := this (σ i)
    rw [h.inv] at h1
    have h2 := hp2 i
    have h3 := hq2 i
    have := Int.emod_emod_of_dvd (cellVec d p i) (dvd_refl (n i))
    have e1 := Int.emod_eq_emod_iff_emod_sub_eq_zero.2 (Int.emod_eq_zero_of_dvd h1)
    rwa [Int.emod_eq_of_lt h2.1 h2.2, Int.emod_eq_of_lt h3.1 h3.2] at e1
  have hlen : (tiling L n gridMotif false).length = (cells n).length := by rw [h.tiling_grid, List.length_map]
  have hsite : ∀ (q : ℕ) (p : List ℤ), (cells n)[q]? = some p →
      (built (L.scaled n) (tiling L n gridMotif false)).getSite q = some ⟨"_A", intPoint fun j => cellVec d p (σ j), q⟩ := by
    intro q p hp
    rw [getSite_built, h.tiling_grid, List.getElem?_map, hp]
    simp only [Option.map_some, Option.some.injEq, Site.mk.injEq, true_and, and_true]
    have hc := (mem_cells.1 (List.mem_of_getElem? hp)).2
    have hin : (L.scaled n).InCell (intPoint fun j => cellVec d p (σ j) : Fin d → K) := by
      refine ⟨fun i => (cellVec d p i : K) / n i, ?_, fun i _ => ?_⟩
      · funext j
        rw [h.point_scaled]
        have : (n (σ j) : K) ≠ 0 := by exact_mod_cast (hn (σ j)).ne'
        simp only [intPoint]
        field_simp
      · have h0 : (0 : K) < n i := by exact_mod_cast hn i
        have h1 : (0 : K) ≤ cellVec d p i := by exact_mod_cast (hc i).1
        have h2 : (cellVec d p i : K) < n i := by exact_mod_cast (hc i).2
        exact ⟨div_nonneg h1 h0.le, (div_lt_one h0).2 h2⟩
    rw [hin.periodized hr, aligned_rounded (aligned_int _)]
  refine ⟨_, (buildFrom_eq L n gridMotif false).1 hD, rfl, ?_, hsite, by rw [← hlen]; rfl⟩
  have hids : (built (L.scaled n) (tiling L n gridMotif false)).siteIds = List.range (cells n).length := by rw [← hlen]; rfl
  refine ⟨fun j => hn _, alignedReachable_built hr (aligned_scaled h.aligned n) hal hD, fun x y => h.image_iff x y, ?_, ?_, ?_⟩
  · intro i hi
    rw [hids, List.mem_range] at hi
    have hp := List.getElem?_eq_getElem hi
    refine ⟨fun j => cellVec d (cells n)[i] (σ j), fun j => (mem_cells.1 (List.mem_of_getElem? hp)).2 (σ j), ?_⟩
    exact siteLocation_iff.2 ⟨_, hsite i _ hp, rfl⟩
  · intro c hc
    have hm : List.ofFn (fun i => c (σ i)) ∈ cells n := mem_cells.2 ⟨by simp, fun i => by
      rw [cellVec_ofFn]; have := hc (σ i); simpa only [h.inv] using this⟩
    obtain ⟨q, hq⟩ := List.mem_iff_getElem?.1 hm
    refine ⟨q, by rw [hids, List.mem_range]; exact (List.getElem?_eq_some_iff.1 hq).1, siteLocation_iff.2 ⟨_, hsite q _ hq, ?_⟩⟩
    rw [cellVec_ofFn]
    funext j
    simp [intPoint, h.inv]
  · rw [hids, List.length_range, length_cells]
    exact (Fintype.prod_bijective σ (Function.Involutive.bijective h.inv) (fun j => (n (σ j)).toNat) (fun j => (n j).toNat) fun j => rfl).symm

end IsGrid

theorem isGrid2 : IsGrid (gridLattice2 : Lattice K 2) ![1, 0] where
  mat := by intro i j; fin_cases i <;> fin_cases j <;> simp [gridLattice2]
  inv := by decide
  per := fun _ => rfl

theorem isGrid3 : IsGrid (gridLattice3 : Lattice K 3) ![1, 0, 2] where
  mat := by intro i j; fin_cases i <;> fin_cases j <;> simp [gridLattice3]
  inv := by decide
  per := fun _ => rfl

namespace IsTorus
variable {s : Structure K d} {N : Fin d → ℤ}

theorem has_unique_coord {i : ℕ} {c c' : Fin d → ℤ} (h : SiteHas s i c) (h' : SiteHas s i c') : c = c' := by
  have e : (.ok (intPoint c) : Py (Fin d → K)) = .ok (intPoint c') := (Eq.symm h).trans h'
  injection e with e
  funext j
  have := congrFun e j
  simp only [intPoint] at this
  exact_mod_cast this

theorem mem_ids (_ : IsTorus s N) {i : ℕ} {c : Fin d → ℤ} (hs : s.Reachable) (h : SiteHas s i c) : i ∈ s.siteIds := by
  obtain ⟨t, ht, -⟩ := siteLocation_iff.1 h
  rw [siteIds_eq hs, List.mem_range]
  exact (getSite_isSome_iff hs).1 ⟨t, ht⟩

theorem reachable (h : IsTorus s N) : s.Reachable := AlignedReachable.reachable h.reach

theorem idAt_iff (h : IsTorus s N) {x : Fin d → ℤ} {i : ℕ} :
    s.idAt (intPoint x) = some i ↔ ∃ c, SiteHas s i c ∧ ∀ j, N j ∣ c j - x j := by
  rw [AlignedReachable.idAt_iff h.reach (aligned_int x)]
  constructor
  · rintro ⟨y, hy, hi⟩
    have hids : i ∈ s.siteIds := by
      obtain ⟨t, ht, -⟩ := siteLocation_iff.1 hy
      rw [siteIds_eq h.reachable, List.mem_range]
      exact (getSite_isSome_iff h.reachable).1 ⟨t, ht⟩
    obtain ⟨c, -, hc⟩ := h.site i hids
    have e : (.ok y : Py (Fin d → K)) = .ok (intPoint c) := (Eq.symm hy).trans hc
    injection e with e
    rw [e] at hi
    exact ⟨c, hc, (h.image c x).1 hi⟩
  · rintro ⟨c, hc, hd⟩
    exact ⟨_, hc, (h.image c x).2 hd⟩

/-- Two sites with coordinates congruent modulo the size are equal. -/
theorem site_unique (h : IsTorus s N) {i i' : ℕ} {c : Fin d → ℤ} (h1 : SiteHas s i c) (h2 : SiteHas s i' c) : i = i' := by
  have e1 := h.idAt_iff (x := c).2 ⟨c, h1, fun j => by simp⟩
  have e2 := h.idAt_iff (x := c).2 ⟨c, h2, fun j => by simp⟩
  rw [e1] at e2
  exact Option.some.inj e2

theorem inBox_of_has (h : IsTorus s N) {i : ℕ} {c : Fin d → ℤ} (hc : SiteHas s i c) : InBox N c := by
  obtain ⟨c', hb, hc'⟩ := h.site i (h.mem_ids h.reachable hc)
  rw [has_unique_coord hc hc']; exact hb

theorem inBox_mod (h : IsTorus s N) (x : Fin d → ℤ) : InBox N fun j => x j % N j :=
  fun j => ⟨Int.emod_nonneg _ (h.pos j).ne', Int.emod_lt_of_pos _ (h.pos j)⟩

/-- Every integer location holds a site. -/
theorem idAt_some (h : IsTorus s N) (x : Fin d → ℤ) : ∃ i, s.idAt (intPoint x) = some i ∧ SiteHas s i fun j => x j % N j := by
  obtain ⟨i, -, hi⟩ := h.ex _ (h.inBox_mod x)
  refine ⟨i, h.idAt_iff.2 ⟨_, hi, fun j => ?_⟩, hi⟩
  have := Int.emod_add_mul_ediv (x j) (N j)
  exact ⟨-(x j / N j), by linarith⟩

end IsTorus

/-! ### circular distance -/

theorem circ_le_iff {n : ℤ} (hn : 0 < n) (a r : ℤ) : circ n a ≤ r ↔ ∃ k, |a + k * n| ≤ r := by
  have h1 := Int.emod_nonneg a hn.ne'
  have h2 := Int.emod_lt_of_pos a hn
  have h3 := Int.emod_add_mul_ediv a n
  rw [circ, min_le_iff]
  constructor
  · rintro (h | h)
    · refine ⟨-(a / n), ?_⟩
      rw [abs_of_nonneg (by linarith)]; linarith
    · refine ⟨-(a / n) - 1, ?_⟩
      have e : a + (-(a / n) - 1) * n = a % n - n := by linarith
      rw [e, abs_of_nonpos (by linarith)]; linarith
  · rintro ⟨k, hk⟩
    have e : a + k * n = a % n + (a / n + k) * n := by linarith
    rw [e] at hk
    have := abs_le.1 hk
    rcases le_or_gt 0 (a / n + k) with h0 | h0
    · left; nlinarith
    · right
      have : a / n + k ≤ -1 := by omega
      nlinarith

theorem circ_exists {n : ℤ} (hn : 0 < n) (a : ℤ) : ∃ k, |a + k * n| = circ n a := by
  obtain ⟨k, hk⟩ := (circ_le_iff hn a (circ n a)).1 le_rfl
  exact ⟨k, le_antisymm hk ((circ_le_iff hn a _).2 ⟨k, le_rfl⟩)⟩

theorem circ_le_abs {n : ℤ} (hn : 0 < n) (a k : ℤ) : circ n a ≤ |a + k * n| := (circ_le_iff hn a _).2 ⟨k, le_rfl⟩

theorem sum_circ_le_iff {N : Fin d → ℤ} (hN : ∀ j, 0 < N j) (a : Fin d → ℤ) (r : ℤ) :
    (∑ j, circ (N j) (a j)) ≤ r ↔ ∃ k : Fin d → ℤ, (∑ j, |a j + k j * N j|) ≤ r := by
  constructor
  · intro h
    choose k hk using fun j => circ_exists (hN j) (a j)
    exact ⟨k, by simpa only [hk] using h⟩
  · rintro ⟨k, hk⟩
    exact le_trans (Finset.sum_le_sum fun j _ => circ_le_abs (hN j) (a j) (k j)) hk

end Pyl
