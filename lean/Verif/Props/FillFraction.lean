import Verif.Spec.FillFraction
import Verif.Props.FillSpeed
import Verif.Props.GrowthAnalyzer
import Mathlib.Analysis.SpecificLimits.Basic
/-
C173: what the result analyzer reports about asynchronous growth, on average.
-/
set_option autoImplicit false
set_option linter.unusedSectionVars false

namespace Pyl
open SimState Spec Growth Analyzer SimResult ResultAnalyzer GridSetup
open Pyl.Lattice Pyl.Structure
variable {K : Type} [Field K] [LinearOrder K] [FloorRing K] [IsStrictOrderedRing K] {d : ℕ}

/-- Counting the sites with the background is counting the others. -/
theorem sitesWith_grown {m : ℕ} {s : SimState} (hids : Numbered m s) (bg : Val) : sitesWith s bg + (grownIn m bg s).card = m := by
  classical
  unfold sitesWith grownIn
  rw [← List.countP_eq_length_filter, hids.countP_eq, List.countP_map]
  have h1 : (List.range m).countP ((fun k => decide (occ? s k = some bg)) ∘ fun i : ℕ => Key.int i) = ((Finset.range m).filter fun i : ℕ => occ? s (.int i) = some bg).card := by
    rw [List.countP_eq_length_filter, Finset.card_def]
    have : ((Finset.range m).filter fun i : ℕ => occ? s (.int i) = some bg).val = (((List.range m).filter fun i : ℕ => decide (occ? s (.int i) = some bg) : List ℕ) : Multiset ℕ) := by
      rw [Finset.filter_val, Finset.range_val, Multiset.range, Multiset.filter_coe]
    rw [this, Multiset.coe_card]
    rfl
  rw [h1, Finset.card_filter_add_card_filter_not, Finset.card_range]

section
variable {S : Structure K d} (hS : S.Reachable) (hne : S.siteIds ≠ []) (s0 : SimState) (hst : StartState S s0)
    (hh : ∀ k v, occ? s0 k = some v → v.hashable = true) (bg : Val) (hbg : bg.hashable = true) (nb : Option (Builder K d)) (order : ℕ → List ℕ → List ℕ)
    (hord : ∀ t l, (order t l).Perm l) (c : Ctl) (hc : Growth.init order S bg nb = .ok c)
include hS hne hst hh hbg hord hc

/-- C173: the analyzer reports the fraction of the background for every sequence of draws, and it is the part of the sites that the growth has not reached. -/
theorem C173_reported : ∃ fr, ReportsFraction c s0 S.siteIds.length bg fr ∧
    ∀ n f, (fr n f : ℝ) = 1 - ((grownAfter c s0 S.siteIds.length n (outcome f)).card : ℝ) / S.siteIds.length := by
  classical
  set m := S.siteIds.length with hm
  have hpos : 0 < m := List.length_pos_of_ne_nil hne
  have hids : Numbered m s0 := idsTo_of_sameSites hS hst.1 hst.2.2.1
  have hg : s0.getGeneralState ≠ none := by rw [hst.2.1]; simp
  obtain ⟨-, -, -, -, hb, hnb⟩ := growthRun_init hS hst hord hc
  have key : ∀ n (f : Fin n → Fin m), ∃ q : ℚ, (∃ a, runAsync (controller.inherit (outcome f)) (c, 0) s0 n = .ok a ∧ phaseFractionAt a.res n bg = .ok q) ∧
      (q : ℝ) = 1 - ((grownAfter c s0 m n (outcome f)).card : ℝ) / m := by
    intro n f
    obtain ⟨a, h1, -⟩ := C97_growth c s0 hst.1 hg m hpos hids hst.2.2.2.1 hnb n (outcome f)
    have hrun : GrowthRun S bg nb s0 n a.res := .inl ⟨order, c, hord, hc, .inr ⟨_, a, h1, rfl⟩⟩
    obtain ⟨-, -, hsteps⟩ := growthRun_steps hS hne hst hrun
    obtain ⟨s, g1, -, -, g4, -⟩ := hsteps n le_rfl
    obtain ⟨a1, a2, a3⟩ := growthRun_analyzable hS hne hst hh hrun le_rfl g1
    refine ⟨_, ⟨a, h1, by unfold phaseFractionAt; rw [g1, ok_bind, cellFraction_none a1 a3 hbg]⟩, ?_⟩
    have hgr : grownAfter c s0 m n (outcome f) = grownIn m bg s := by
      unfold grownAfter grownIn
      refine Finset.filter_congr fun i _ => ?_
      rw [← hb]
      constructor
      · rintro ⟨s', ⟨a', e1, e2⟩, e3⟩
        rw [h1] at e1; cases e1
        rw [g1] at e2; cases e2
        exact e3
      · intro e
        exact ⟨s, ⟨a, h1, g1⟩, e⟩
    have hids' : Numbered m s := by
      unfold Numbered; rw [g4]; exact hids
    have hsz : s.size = m := by
      unfold SimState.size
      rw [hids'.length_eq]; simp
    have hcount := sitesWith_grown hids' bg
    have hmR : (m : ℝ) ≠ 0 := by exact_mod_cast hpos.ne'
    have hcR : (sitesWith s bg : ℝ) + (grownIn m bg s).card = m := by exact_mod_cast hcount
    rw [hgr, hsz]
    push_cast
    field_simp
    linarith
  choose fr h1 h2 using key
  exact ⟨fr, h1, h2⟩

/-- What the reports average to, in terms of the sites reached. -/
theorem fraction_mean {fr : (n : ℕ) → (Fin n → Fin S.siteIds.length) → ℚ} (hfr : ReportsFraction c s0 S.siteIds.length bg fr) (n : ℕ) :
    (∀ f, (fr n f : ℝ) = 1 - ((grownAfter c s0 S.siteIds.length n (outcome f)).card : ℝ) / S.siteIds.length) ∧
    mean S.siteIds.length n (fun f => (fr n f : ℝ)) =
      1 - mean S.siteIds.length n (fun f => ((grownAfter c s0 S.siteIds.length n (outcome f)).card : ℝ)) / S.siteIds.length := by
  obtain ⟨fr', h1, h2⟩ := C173_reported hS hne s0 hst hh bg hbg nb order hord c hc
  have hpos : 0 < S.siteIds.length := List.length_pos_of_ne_nil hne
  have heq : ∀ f, (fr n f : ℝ) = 1 - ((grownAfter c s0 S.siteIds.length n (outcome f)).card : ℝ) / S.siteIds.length := by
    intro f
    rw [← h2 n f]
    obtain ⟨a, e1, e2⟩ := hfr n f
    obtain ⟨a', e3, e4⟩ := h1 n f
    rw [e1] at e3; cases e3
    rw [e2] at e4
    injection e4 with e4
    rw [e4]
  refine ⟨heq, ?_⟩
  simp only [heq]
  rw [← mean_sub, mean_const hpos]
  congr 1
  simp only [div_eq_inv_mul]
  rw [mean_mul]

/-- The neighbour lists of the controller are those of the graph. -/
theorem controller_graph {g : Graph K} (hget : (nb.getD (moore 1)).get S none = .ok g) : c.background = bg ∧
    (∀ t, ∀ i, i < S.siteIds.length → ∃ l, c.nbs t (.int i) = .ok l ∧ ∀ j, j ∈ l ↔ j ∈ g.neighborsOf i) ∧
    ∀ i, i < S.siteIds.length → ∀ j ∈ g.neighborsOf i, j < S.siteIds.length := by
  have hSmem : ∀ i, i ∈ S.siteIds ↔ i < S.siteIds.length := fun i => by rw [siteIds_eq hS]; simp
  have hc' : Growth.init order S bg (some (nb.getD (moore 1))) = .ok c := by rw [← hc]; rfl
  obtain ⟨h1, h2⟩ := init_nbs hget hc'
  exact ⟨h1, fun t i _ => ⟨_, h2 t i, fun j => (hord t _).mem_iff⟩, fun i _ j hj => (hSmem j).1 ((C55_known_and_other hS _ none g hget i).1 j hj).1⟩

/-- C173: one more step lowers the average report by the average part of the sites that can change, divided by the number of sites. -/
theorem C173_step {g : Graph K} (hget : (nb.getD (moore 1)).get S none = .ok g) {fr : (n : ℕ) → (Fin n → Fin S.siteIds.length) → ℚ}
    (hfr : ReportsFraction c s0 S.siteIds.length bg fr) (n : ℕ) :
    mean S.siteIds.length (n + 1) (fun f => (fr (n + 1) f : ℝ)) = mean S.siteIds.length n (fun f => (fr n f : ℝ)) -
      mean S.siteIds.length n (fun f => ((rim S.siteIds.length g.neighborsOf (grownAfter c s0 S.siteIds.length n (outcome f))).card : ℝ)) / S.siteIds.length ^ 2 := by
  have hpos : 0 < S.siteIds.length := List.length_pos_of_ne_nil hne
  have hids : Numbered S.siteIds.length s0 := idsTo_of_sameSites hS hst.1 hst.2.2.1
  have hg : s0.getGeneralState ≠ none := by rw [hst.2.1]; simp
  obtain ⟨hb, hnb, hin⟩ := controller_graph hS hne s0 hst hh bg hbg nb order hord c hc hget
  rw [(fraction_mean hS hne s0 hst hh bg hbg nb order hord c hc hfr _).2, (fraction_mean hS hne s0 hst hh bg hbg nb order hord c hc hfr _).2,
    C169_step c s0 hst.1 hg _ hpos hids hst.2.2.2.1 _ hnb hin n]
  ring

/-- C173: if no site is a neighbour of more than `D` sites, the average report after `n` steps is at least `1 - (a / m) (1 + D / m) ^ n`. -/
theorem C173_lower {g : Graph K} (hget : (nb.getD (moore 1)).get S none = .ok g) {fr : (n : ℕ) → (Fin n → Fin S.siteIds.length) → ℚ}
    (hfr : ReportsFraction c s0 S.siteIds.length bg fr) (D : ℕ)
    (hD : ∀ j, j < S.siteIds.length → ((Finset.range S.siteIds.length).filter fun i => j ∈ g.neighborsOf i).card ≤ D) (n : ℕ) :
    1 - ((grownIn S.siteIds.length bg s0).card : ℝ) / S.siteIds.length * (1 + (D : ℝ) / S.siteIds.length) ^ n ≤
      mean S.siteIds.length n (fun f => (fr n f : ℝ)) := by
  have hpos : 0 < S.siteIds.length := List.length_pos_of_ne_nil hne
  have hids : Numbered S.siteIds.length s0 := idsTo_of_sameSites hS hst.1 hst.2.2.1
  have hg : s0.getGeneralState ≠ none := by rw [hst.2.1]; simp
  obtain ⟨hb, hnb, hin⟩ := controller_graph hS hne s0 hst hh bg hbg nb order hord c hc hget
  rw [(fraction_mean hS hne s0 hst hh bg hbg nb order hord c hc hfr _).2]
  have := C169_upper c s0 hst.1 hg _ hpos hids hst.2.2.2.1 _ hnb hin D hD n
  rw [hb] at this
  have h2 := div_le_div_of_nonneg_right this (show (0 : ℝ) ≤ (S.siteIds.length : ℝ) by positivity)
  rw [mul_div_right_comm] at h2
  linarith

/-- C173: if `h` moves lead from every site to one that is not background at the start, the average report after `n` steps is at most the fraction at the start times
`(2 ^ h - 1) (1 - 1 / (2 m)) ^ n`; so it tends to 0. -/
theorem C173_upper {g : Graph K} (hget : (nb.getD (moore 1)).get S none = .ok g) {fr : (n : ℕ) → (Fin n → Fin S.siteIds.length) → ℚ}
    (hfr : ReportsFraction c s0 S.siteIds.length bg fr) (h : ℕ)
    (hreach : ∀ i, i < S.siteIds.length → ∃ j, j < S.siteIds.length ∧ occ? s0 (.int j) ≠ some bg ∧ Hops g.neighborsOf h i j) :
    (∀ n, mean S.siteIds.length n (fun f => (fr n f : ℝ)) ≤
      (sitesWith s0 bg : ℝ) / S.siteIds.length * ((2 ^ h - 1) * (1 - 1 / (2 * (S.siteIds.length : ℝ))) ^ n)) ∧
    Filter.Tendsto (fun n => mean S.siteIds.length n (fun f => (fr n f : ℝ))) Filter.atTop (nhds 0) := by
  classical
  have hpos : 0 < S.siteIds.length := List.length_pos_of_ne_nil hne
  have hids : Numbered S.siteIds.length s0 := idsTo_of_sameSites hS hst.1 hst.2.2.1
  have hg : s0.getGeneralState ≠ none := by rw [hst.2.1]; simp
  obtain ⟨hb, hnb, hin⟩ := controller_graph hS hne s0 hst hh bg hbg nb order hord c hc hget
  have hmean := fun n => fraction_mean hS hne s0 hst hh bg hbg nb order hord c hc hfr n
  have hchance := fun i j hi hj hjo hops n => C172_chance c s0 hst.1 hg _ hpos hids hst.2.2.2.1 _ hnb hin i j h hi hj hjo hops 2 (by norm_num) n
  have hgeq := fun n f => (grownAfter_eq c s0 hst.1 hg _ hpos hids hst.2.2.2.1 _ hnb hin n f).1
  have hcount := sitesWith_grown hids bg
  generalize S.siteIds.length = m at *
  have hmR : (0 : ℝ) < m := by exact_mod_cast hpos
  have hm1 : (1 : ℝ) ≤ m := by exact_mod_cast hpos
  set B : ℕ → ℝ := fun n => (2 ^ h - 1) * (1 - 1 / (2 * (m : ℝ))) ^ n with hB
  -- the part of the sites not reached, as a sum over the sites
  have hcard : ∀ n (f : Fin n → Fin m), (1 : ℝ) - ((grownAfter c s0 m n (outcome f)).card : ℝ) / m ≤
      (m : ℝ)⁻¹ * ∑ i ∈ Finset.range m \ grownIn m bg s0, if i ∉ grownAfter c s0 m n (outcome f) then (1 : ℝ) else 0 := by
    intro n f
    have hsub : grownIn m bg s0 ⊆ grownAfter c s0 m n (outcome f) := by
      rw [hgeq, hb]; exact (walk_inv (outcome f) _ n).1
    have hsub2 : grownAfter c s0 m n (outcome f) ⊆ Finset.range m := by
      unfold grownAfter; exact Finset.filter_subset _ _
    rw [Finset.sum_boole]
    have e : (Finset.range m \ grownIn m bg s0).filter (fun i => i ∉ grownAfter c s0 m n (outcome f)) = Finset.range m \ grownAfter c s0 m n (outcome f) := by
      ext i
      simp only [Finset.mem_filter, Finset.mem_sdiff]
      exact ⟨fun ⟨⟨a, _⟩, b⟩ => ⟨a, b⟩, fun ⟨a, b⟩ => ⟨⟨a, fun q => b (hsub q)⟩, b⟩⟩
    rw [e, Finset.card_sdiff_of_subset hsub2, Nat.cast_sub (Finset.card_le_card hsub2), Finset.card_range]
    apply le_of_eq
    field_simp
  have hbR : ((Finset.range m \ grownIn m bg s0).card : ℝ) = sitesWith s0 bg := by
    have hsub : grownIn m bg s0 ⊆ Finset.range m := by
      unfold grownIn; exact Finset.filter_subset _ _
    rw [Finset.card_sdiff_of_subset hsub, Finset.card_range]
    have : m - (grownIn m bg s0).card = sitesWith s0 bg := by omega
    rw [this]
  have hup : ∀ n, mean m n (fun f => (fr n f : ℝ)) ≤ (sitesWith s0 bg : ℝ) / m * B n := by
    intro n
    have h1 : mean m n (fun f => (fr n f : ℝ)) ≤ (m : ℝ)⁻¹ * ∑ i ∈ Finset.range m \ grownIn m bg s0, chance m n (fun f => i ∉ grownAfter c s0 m n (outcome f)) := by
      simp only [← mean_indicator]
      rw [← mean_sum, ← mean_mul]
      refine mean_mono fun f => ?_
      rw [(hmean n).1 f]
      exact hcard n f
    have h2 : ∑ i ∈ Finset.range m \ grownIn m bg s0, chance m n (fun f => i ∉ grownAfter c s0 m n (outcome f)) ≤ ∑ _i ∈ Finset.range m \ grownIn m bg s0, B n := by
      refine Finset.sum_le_sum fun i hi => ?_
      have him := Finset.mem_range.1 (Finset.mem_sdiff.1 hi).1
      obtain ⟨j, hj, hjo, hops⟩ := hreach i him
      have := hchance i j him hj (by rw [hb]; exact hjo) hops n
      rw [show (2 : ℝ) - 1 = 1 by norm_num, div_one, show (1 : ℝ) - 1 / 2 = 1 / 2 by norm_num, div_div] at this
      exact this
    rw [Finset.sum_const, nsmul_eq_mul, hbR] at h2
    calc _ ≤ _ := h1
      _ ≤ (m : ℝ)⁻¹ * ((sitesWith s0 bg : ℝ) * B n) := mul_le_mul_of_nonneg_left h2 (by positivity)
      _ = _ := by ring
  refine ⟨hup, ?_⟩
  have hρ : Filter.Tendsto (fun n => (1 - 1 / (2 * (m : ℝ))) ^ n) Filter.atTop (nhds 0) := by
    have hq : 1 / (2 * (m : ℝ)) ≤ 1 := by rw [div_le_one (by positivity)]; linarith
    have hq0 : 0 < 1 / (2 * (m : ℝ)) := by positivity
    exact tendsto_pow_atTop_nhds_zero_of_lt_one (by linarith) (by linarith)
  have hlim : Filter.Tendsto (fun n => (sitesWith s0 bg : ℝ) / m * B n) Filter.atTop (nhds 0) := by
    have := (hρ.const_mul ((2 : ℝ) ^ h - 1)).const_mul ((sitesWith s0 bg : ℝ) / m)
    rw [mul_zero, mul_zero] at this
    exact this
  refine squeeze_zero (fun n => ?_) hup hlim
  have h0 : mean m n (fun _ => (0 : ℝ)) = 0 := mean_const hpos 0
  rw [← h0]
  refine mean_mono fun f => ?_
  rw [(hmean n).1 f]
  have hsub2 : grownAfter c s0 m n (outcome f) ⊆ Finset.range m := by
    unfold grownAfter; exact Finset.filter_subset _ _
  have hle : ((grownAfter c s0 m n (outcome f)).card : ℝ) ≤ m := by
    exact_mod_cast (Finset.card_le_card hsub2).trans (by rw [Finset.card_range])
  have : ((grownAfter c s0 m n (outcome f)).card : ℝ) / m ≤ 1 := by rw [div_le_one hmR]; exact hle
  linarith

end

/-- C173 on square grids with the default (Moore) neighbourhood: if no side is longer than `2 h + 1` and some site is not background at the start, the average report after `n`
steps is at most the fraction at the start times `(2 ^ h - 1) (1 - 1 / (2 m)) ^ n`; if no side is shorter than 3 it is at least `1 - (a / m) (1 + (3 ^ d - 1) / m) ^ n`. -/
theorem C173_grid {S : Structure K d} {N : Fin d → ℤ} (hS : SquareGrid d N S) (s0 : SimState) (hst : StartState S s0)
    (hh : ∀ k v, occ? s0 k = some v → v.hashable = true) (bg : Val) (hbg : bg.hashable = true) (order : ℕ → List ℕ → List ℕ) (hord : ∀ t l, (order t l).Perm l)
    (m : ℕ) (hm : m = S.siteIds.length) :
    ∃ c fr, Growth.init order S bg = .ok c ∧ ReportsFraction c s0 m bg fr ∧
      ((∀ j, 3 ≤ N j) → ∀ n, 1 - ((m : ℝ) - sitesWith s0 bg) / m * (1 + ((3 ^ d - 1 : ℕ) : ℝ) / m) ^ n ≤ mean m n (fun f => (fr n f : ℝ))) ∧
      ∀ h : ℕ, (∀ j, N j ≤ 2 * h + 1) → (∃ i ∈ S.siteIds, occ? s0 (.int i) ≠ some bg) →
        (∀ n, mean m n (fun f => (fr n f : ℝ)) ≤ (sitesWith s0 bg : ℝ) / m * ((2 ^ h - 1) * (1 - 1 / (2 * (m : ℝ))) ^ n)) ∧
        Filter.Tendsto (fun n => mean m n (fun f => (fr n f : ℝ))) Filter.atTop (nhds 0) := by
  classical
  subst hm
  have ht := hS.isTorus
  have hids : Numbered S.siteIds.length s0 := idsTo_of_sameSites ht.reachable hst.1 hst.2.2.1
  have hg : s0.getGeneralState ≠ none := by rw [hst.2.1]; simp
  have hSmem : ∀ i, i ∈ S.siteIds ↔ i < S.siteIds.length := fun i => by rw [siteIds_eq ht.reachable]; simp
  obtain ⟨g, hget, hgn⟩ := C53_moore hS 1
  obtain ⟨c, _, hc, -, -, hup, -⟩ := C169_grid hS bg order hord s0 hst.1 hg hst.2.2.1 hst.2.2.2.1 _ rfl
  obtain ⟨fr, hfr, -⟩ := C173_reported ht.reachable ht.ids_ne s0 hst hh bg hbg none order hord c hc
  have hcount := sitesWith_grown hids bg
  refine ⟨c, fr, hc, hfr, fun hN n => ?_, fun h hN ⟨j, hj, hjo⟩ => ?_⟩
  · rw [(fraction_mean ht.reachable ht.ids_ne s0 hst hh bg hbg none order hord c hc hfr n).2]
    have hcR : (S.siteIds.length : ℝ) - sitesWith s0 bg = (grownIn S.siteIds.length bg s0).card := by
      have : (sitesWith s0 bg : ℝ) + (grownIn S.siteIds.length bg s0).card = S.siteIds.length := by exact_mod_cast hcount
      linarith
    rw [hcR]
    have h2 := div_le_div_of_nonneg_right (hup hN n) (show (0 : ℝ) ≤ (S.siteIds.length : ℝ) by positivity)
    rw [mul_div_right_comm] at h2
    linarith
  · refine C173_upper ht.reachable ht.ids_ne s0 hst hh bg hbg none order hord c hc hget hfr h fun i hi => ?_
    obtain ⟨x, -, hx⟩ := ht.site i ((hSmem i).2 hi)
    obtain ⟨y, -, hy⟩ := ht.site j hj
    exact ⟨j, (hSmem j).1 hj, hjo, (moore_dist ht hgn (fun i _ j hj => ((C55_known_and_other ht.reachable _ none g hget i).1 j hj).1) hy h i x hx).2
      fun q => circ_le_half (ht.pos q) _ (by exact_mod_cast hN q)⟩

/-- The 4 by 4 start state of `setup_interface` with the background "A": the hypotheses hold, so the average report tends to 0. -/
example (order : ℕ → List ℕ → List ℕ) (hord : ∀ t l, (order t l).Perm l) : ∃ (S : Structure ℚ 2) (s : SimState) (c : Ctl) (fr : (n : ℕ) → (Fin n → Fin S.siteIds.length) → ℚ),
    (gridSetup2 (K := ℚ)).interface (.int 4) (.str "A") (.str "B") = .ok ⟨s, S⟩ ∧ Growth.init order S (.str "A") = .ok c ∧
    ReportsFraction c s S.siteIds.length (.str "A") fr ∧ Filter.Tendsto (fun n => mean S.siteIds.length n (fun f => (fr n f : ℝ))) Filter.atTop (nhds 0) := by
  obtain ⟨S, s, h1, h2, h3, h4⟩ := C64_interface (K := ℚ) StdSetup.two 4 (by norm_num) (.str "A") (.str "B") (.str _) (.str _)
  have ht := h2.isTorus
  have hhash : ∀ k v, occ? s k = some v → v.hashable = true := by
    intro k v hv
    obtain ⟨p, hp, -⟩ := occ?_eq.1 hv
    obtain ⟨i, hi, rfl⟩ := (h3.2.2.1 k).1 (mem_of_siteState hp)
    obtain ⟨c, -, hc⟩ := ht.site i hi
    rw [h4 i c hc] at hv
    injection hv with hv
    rw [← hv]
    dsimp only
    split_ifs <;> rfl
  obtain ⟨c, fr, e1, e2, -, e4⟩ := C173_grid h2 s h3 hhash (.str "A") rfl order hord _ rfl
  refine ⟨S, s, c, fr, h1, e1, e2, (e4 2 (fun j => by norm_num) ?_).2⟩
  by_contra hall
  push Not at hall
  obtain ⟨i0, m0, c0⟩ := ht.ex ![0, 0] (by intro j; fin_cases j <;> simp)
  obtain ⟨i1, m1, c1⟩ := ht.ex ![3, 0] (by intro j; fin_cases j <;> simp)
  have q0 := hall i0 m0
  have q1 := hall i1 m1
  rw [h4 _ _ c0] at q0
  rw [h4 _ _ c1] at q1
  revert q0 q1
  simp

end Pyl
