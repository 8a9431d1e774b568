import Verif.Spec.FillTime
import Verif.Props.EdenLaw
import Verif.Props.LifeSoup
import Verif.Props.RandomGrowth
import Mathlib.Topology.Algebra.InfiniteSum.Real
/-
C169: how fast asynchronous growth covers a structure on average.
-/
set_option autoImplicit false
set_option linter.unusedSectionVars false

namespace Pyl
open SimState Spec Growth
open Pyl.Lattice Pyl.Structure
variable {K : Type} [Field K] [LinearOrder K] [FloorRing K] [IsStrictOrderedRing K] {d : ℕ}

/-! ### Averages -/

theorem mean_snoc {m k : ℕ} (X : (Fin (k + 1) → Fin m) → ℝ) :
    mean m (k + 1) X = (∑ i : Fin m, mean m k fun f => X (Fin.snoc f i)) / m := by
  unfold mean
  rw [← Finset.sum_div, div_div, ← pow_succ]
  congr 1
  rw [← Finset.sum_product']
  refine Finset.sum_bij' (fun f _ => ((f (Fin.last k), Fin.init f) : Fin m × (Fin k → Fin m))) (fun p _ => Fin.snoc p.2 p.1) ?_ ?_ ?_ ?_ ?_
  · intro f _; simp
  · intro p _; simp
  · intro f _; exact Fin.snoc_init_self f
  · intro p _; simp
  · intro f _; simp

theorem mean_mono {m k : ℕ} {X Y : (Fin k → Fin m) → ℝ} (h : ∀ f, X f ≤ Y f) : mean m k X ≤ mean m k Y := by
  unfold mean
  exact div_le_div_of_nonneg_right (Finset.sum_le_sum fun f _ => h f) (by positivity)

/-! ### Walks on sets -/

section
variable {m : ℕ} {nb : ℕ → List ℕ}

theorem visitSet_card_eq {x : ℕ} (hx : x < m) (O : Finset ℕ) : ((visitSet nb x O).card : ℝ) = O.card + if x ∈ rim m nb O then 1 else 0 := by
  unfold visitSet
  by_cases h : ∃ y ∈ nb x, y ∈ O
  · rw [if_pos h]
    by_cases hO : x ∈ O
    · rw [Finset.insert_eq_of_mem hO, if_neg fun h' => (Finset.mem_filter.1 h').2.1 hO, add_zero]
    · rw [Finset.card_insert_of_notMem hO, if_pos (show x ∈ rim m nb O from Finset.mem_filter.2 ⟨Finset.mem_range.2 hx, hO, h⟩)]
      push_cast; rfl
  · rw [if_neg h, if_neg fun h' => h (Finset.mem_filter.1 h').2.2, add_zero]

theorem walk_mean (hm : 0 < m) (O : Finset ℕ) (n : ℕ) :
    mean m (n + 1) (fun f => ((walk (visitSet nb) (outcome f) O (n + 1)).card : ℝ)) =
      mean m n (fun f => ((walk (visitSet nb) (outcome f) O n).card : ℝ)) + mean m n (fun f => ((rim m nb (walk (visitSet nb) (outcome f) O n)).card : ℝ)) / m := by
  have hmR : (m : ℝ) ≠ 0 := by positivity
  rw [mean_snoc]
  have h1 : ∀ x : Fin m, mean m n (fun f => ((walk (visitSet nb) (outcome (Fin.snoc f x : Fin (n + 1) → Fin m)) O (n + 1)).card : ℝ)) =
      mean m n (fun f => ((walk (visitSet nb) (outcome f) O n).card : ℝ)) +
        mean m n (fun f => if (x : ℕ) ∈ rim m nb (walk (visitSet nb) (outcome f) O n) then (1 : ℝ) else 0) := by
    intro x
    rw [← mean_add]
    congr 1
    funext f
    rw [show walk (visitSet nb) (outcome (Fin.snoc f x : Fin (n + 1) → Fin m)) O (n + 1) =
      visitSet nb (outcome (Fin.snoc f x : Fin (n + 1) → Fin m) n) (walk (visitSet nb) (outcome (Fin.snoc f x : Fin (n + 1) → Fin m)) O n) from rfl,
      outcome_snoc_last, walk_congr (visitSet nb) (g := outcome f) O (fun t ht => outcome_snoc_lt f x ht), visitSet_card_eq x.2]
  rw [Finset.sum_congr rfl fun x _ => h1 x, Finset.sum_add_distrib, Finset.sum_const, Finset.card_univ, Fintype.card_fin, nsmul_eq_mul, ← mean_sum, add_div,
    mul_div_cancel_left₀ _ hmR]
  congr 3
  funext f
  rw [sum_if_in (fun _ => (1 : ℝ)) rim_sub, Finset.sum_const, nsmul_eq_mul, mul_one]

theorem rim_card_le {D : ℕ} (hD : ∀ j, j < m → ((Finset.range m).filter fun i => j ∈ nb i).card ≤ D) {O : Finset ℕ} (hO : ∀ i ∈ O, i < m) :
    (rim m nb O).card ≤ O.card * D := by
  have h1 : rim m nb O ⊆ O.biUnion fun j => (Finset.range m).filter fun i => j ∈ nb i := by
    intro i hi
    obtain ⟨hi, -, j, hj, hjO⟩ := Finset.mem_filter.1 hi
    exact Finset.mem_biUnion.2 ⟨j, hjO, Finset.mem_filter.2 ⟨hi, hj⟩⟩
  exact (Finset.card_le_card h1).trans (Finset.card_biUnion_le_card_mul _ _ _ fun j hj => hD j (hO j hj))

theorem harmonicSum_mono {a b : ℕ} (h : a ≤ b) : harmonicSum a ≤ harmonicSum b := by
  unfold harmonicSum
  exact Finset.sum_le_sum_of_subset_of_nonneg (Finset.range_mono h) fun k _ _ => by positivity

theorem harmonicSum_visit {x : ℕ} (hx : x < m) {O : Finset ℕ} (hO : ∀ i ∈ O, i < m) :
    harmonicSum (m - (visitSet nb x O).card) = harmonicSum (m - O.card) - if x ∈ rim m nb O then 1 / ((m : ℝ) - O.card) else 0 := by
  have hc := visitSet_card_eq (nb := nb) hx O
  by_cases h : x ∈ rim m nb O
  · rw [if_pos h] at hc ⊢
    have hc' : (visitSet nb x O).card = O.card + 1 := by exact_mod_cast hc
    have hlt : O.card < m := by
      have h1 : insert x O ⊆ Finset.range m := by
        intro i hi
        rcases Finset.mem_insert.1 hi with rfl | hi
        · exact Finset.mem_range.2 hx
        · exact Finset.mem_range.2 (hO i hi)
      have h2 := Finset.card_le_card h1
      rw [Finset.card_insert_of_notMem (Finset.mem_filter.1 h).2.1, Finset.card_range] at h2
      omega
    obtain ⟨u, hu⟩ : ∃ u, m = O.card + u + 1 := ⟨m - O.card - 1, by omega⟩
    rw [hc', show m - O.card = u + 1 by omega, show m - (O.card + 1) = u by omega]
    have : (m : ℝ) - O.card = u + 1 := by rw [hu]; push_cast; ring
    rw [this]
    unfold harmonicSum
    rw [Finset.sum_range_succ]
    ring
  · rw [if_neg h, add_zero] at hc
    have hc' : (visitSet nb x O).card = O.card := by exact_mod_cast hc
    rw [if_neg h, hc', sub_zero]

/-- On average a visit takes at most `1 / m` off the sum, as long as a site is left. -/
theorem harmonicSum_visits {O : Finset ℕ} (hO : ∀ i ∈ O, i < m) :
    (m : ℝ) * harmonicSum (m - O.card) - (if O = Finset.range m then 0 else 1) ≤ ∑ x : Fin m, harmonicSum (m - (visitSet nb x O).card) := by
  have hsub : O ⊆ Finset.range m := fun i hi => Finset.mem_range.2 (hO i hi)
  have hle : O.card ≤ m := by
    have := Finset.card_le_card hsub
    rwa [Finset.card_range] at this
  rw [Finset.sum_congr rfl fun (x : Fin m) _ => harmonicSum_visit (nb := nb) x.2 hO, Finset.sum_sub_distrib, Finset.sum_const, Finset.card_univ, Fintype.card_fin, nsmul_eq_mul,
    sum_if_in (fun _ => 1 / ((m : ℝ) - O.card)) rim_sub, Finset.sum_const, nsmul_eq_mul]
  refine sub_le_sub_left ?_ _
  have hr : (rim m nb O).card ≤ m - O.card := by
    have h1 : rim m nb O ⊆ Finset.range m \ O := fun i hi => Finset.mem_sdiff.2 ⟨(Finset.mem_filter.1 hi).1, (Finset.mem_filter.1 hi).2.1⟩
    have := Finset.card_le_card h1
    rwa [Finset.card_sdiff_of_subset hsub, Finset.card_range] at this
  have hr' : ((rim m nb O).card : ℝ) ≤ (m : ℝ) - O.card := by
    rw [← Nat.cast_sub hle]
    exact_mod_cast hr
  split
  · rename_i e
    rw [e, Finset.card_range] at hr
    have : (rim m nb O).card = 0 := by rw [e]; omega
    rw [this]; simp
  · rw [mul_one_div]
    exact div_le_one_of_le₀ hr' (le_trans (by positivity) hr')

theorem rim_nonempty (hin : ∀ i, i < m → ∀ j ∈ nb i, j < m) {O : Finset ℕ} : ∀ (k i j : ℕ), i < m → i ∉ O → j ∈ O → Hops nb k i j → 0 < (rim m nb O).card := by
  intro k
  induction k with
  | zero => rintro i j - h1 h2 rfl; exact absurd h2 h1
  | succ k ih =>
    rintro i j hi h1 h2 (h3 | ⟨x, hx, h3⟩)
    · exact ih i j hi h1 h2 h3
    · by_cases hxO : x ∈ O
      · exact Finset.card_pos.2 ⟨i, Finset.mem_filter.2 ⟨Finset.mem_range.2 hi, h1, x, hx, hxO⟩⟩
      · exact ih x j (hin i hi x hx) hxO h2 h3

end

/-! ### Runs -/

/-- The set of sites that are not background does the walk, whatever the phases. -/
theorem occupied_run (c : Ctl) (s0 : SimState) (hs : s0.WF) (hg : s0.getGeneralState ≠ none) (m : ℕ) (hm : 0 < m) (hids : Numbered m s0) (hocc : AllOccupied s0)
    (nb : ℕ → List ℕ) (hnb : ∀ t, ∀ i, i < m → ∃ l, c.nbs t (.int i) = .ok l ∧ ∀ j, j ∈ l ↔ j ∈ nb i) (hin : ∀ i, i < m → ∀ j ∈ nb i, j < m)
    (n : ℕ) (draw : ℕ → ℕ) (hd : ∀ t, draw t < m) :
    ∃ a, runAsync (controller.inherit draw) (c, 0) s0 n = .ok a ∧ ∀ k : ℕ, k ≤ n → ∃ s, a.res.getStep k = .ok s ∧ (∀ i, i < m → ∃ v, occ? s (.int i) = some v) ∧
      ∀ i, i < m → (occ? s (.int i) ≠ some c.background ↔ i ∈ walk (visitSet nb) draw (grownIn m c.background s0) k) := by
  have hmem : ∀ k : Key, k ∈ s0.siteIds ↔ ∃ i, i < m ∧ k = .int (i : ℕ) := by
    intro k
    unfold Numbered at hids
    rw [hids.mem_iff, List.mem_map]
    simp only [List.mem_range, eq_comm]
  obtain ⟨a, h1, -, h2, h3⟩ := C97_growth c s0 hs hg m hm hids hocc (fun t k hk => by
    obtain ⟨i, hi, rfl⟩ := (hmem k).1 hk
    obtain ⟨l, e1, e2⟩ := hnb t i hi
    exact ⟨l, e1, fun j hj => (hmem _).2 ⟨j, hin i hi j ((e2 j).1 hj), rfl⟩⟩) n draw
  refine ⟨a, h1, fun k => ?_⟩
  induction k with
  | zero =>
    intro _
    refine ⟨s0, h2, fun i hi => hocc _ ((hmem _).2 ⟨i, hi, rfl⟩), fun i hi => ?_⟩
    show _ ↔ i ∈ grownIn m c.background s0
    simp [grownIn, hi]
  | succ k ih =>
    intro hk
    obtain ⟨x, q1, q2, q3⟩ := ih (by omega)
    obtain ⟨x', y, e1, e2, -, -, e3, t, l, v, v', e4, e5, e6, e7, -⟩ := h3 k (by omega)
    rw [q1] at e1; cases e1
    have e2' : a.res.getStep ((k + 1 : ℕ) : ℤ) = .ok y := by push_cast; exact e2
    rw [Nat.mod_eq_of_lt (hd k)] at e3 e4 e5 e6
    obtain ⟨l', f1, f2⟩ := hnb t (draw k) (hd k)
    rw [e4] at f1; cases f1
    have hkeep : ∀ i, i ≠ draw k → occ? y (.int i) = occ? x (.int i) := fun i hi => by
      unfold occ?
      rw [e3 (.int i) fun e => hi (by injection e with e; exact_mod_cast e)]
    refine ⟨y, e2', fun i hi => ?_, fun i hi => ?_⟩
    · by_cases e : i = draw k
      · subst e; exact ⟨v', e6⟩
      · rw [hkeep i e]; exact q2 i hi
    · show _ ↔ i ∈ visitSet nb (draw k) (walk (visitSet nb) draw (grownIn m c.background s0) k)
      set O := walk (visitSet nb) draw (grownIn m c.background s0) k with hO
      have hvis : (∃ z ∈ nb (draw k), z ∈ O) ↔ ∃ j ∈ l, occ? x (.int j) ≠ some c.background := by
        constructor
        · rintro ⟨z, hz, hzO⟩
          exact ⟨z, (f2 z).2 hz, (q3 z (hin _ (hd k) z hz)).2 hzO⟩
        · rintro ⟨z, hz, hzO⟩
          exact ⟨z, (f2 z).1 hz, (q3 z (hin _ (hd k) z ((f2 z).1 hz))).1 hzO⟩
      by_cases e : i = draw k
      · rw [e, e6]
        have hx : v ≠ c.background ↔ draw k ∈ O := by
          rw [← q3 (draw k) (hd k), e5]; simp
        unfold visitSet
        by_cases hb : v = c.background
        · by_cases hn : ∃ z ∈ nb (draw k), z ∈ O
          · rw [if_pos hn]
            have := (e7.2.2 hb (hvis.1 hn)).1
            simpa using this
          · rw [if_neg hn]
            have hall : ∀ j ∈ l, occ? x (.int j) = some c.background := by
              intro j hj
              by_contra hc
              exact hn (hvis.2 ⟨j, hj, hc⟩)
            have h' := e7.2.1 hb hall
            rw [h']
            exact ⟨fun h => absurd rfl h, fun h => absurd hb (hx.2 h)⟩
        · rw [e7.1 hb]
          have hin' : draw k ∈ O := hx.1 hb
          refine ⟨fun _ => ?_, fun _ => by simpa using hb⟩
          split
          · exact Finset.mem_insert_self _ _
          · exact hin'
      · rw [hkeep i e, q3 i hi]
        unfold visitSet
        split
        · rw [Finset.mem_insert]; simp [e]
        · rfl

section
variable (c : Ctl) (s0 : SimState) (hs : s0.WF) (hg : s0.getGeneralState ≠ none) (m : ℕ) (hm : 0 < m) (hids : Numbered m s0) (hocc : AllOccupied s0)
    (nb : ℕ → List ℕ) (hnb : ∀ t, ∀ i, i < m → ∃ l, c.nbs t (.int i) = .ok l ∧ ∀ j, j ∈ l ↔ j ∈ nb i) (hin : ∀ i, i < m → ∀ j ∈ nb i, j < m)
include hs hg hm hids hocc hnb hin

theorem grownIn_lt (bg : Val) (s : SimState) : ∀ i ∈ grownIn m bg s, i < m := fun i hi => by
  unfold grownIn at hi
  exact Finset.mem_range.1 (Finset.mem_filter.1 hi).1

theorem grownAfter_eq (n : ℕ) (f : Fin n → Fin m) :
    grownAfter c s0 m n (outcome f) = walk (visitSet nb) (outcome f) (grownIn m c.background s0) n ∧
      (FilledAfter c s0 m n (outcome f) ↔ walk (visitSet nb) (outcome f) (grownIn m c.background s0) n = Finset.range m) := by
  obtain ⟨a, h1, h2⟩ := occupied_run c s0 hs hg m hm hids hocc nb hnb hin n (outcome f) (outcome_lt hm f)
  obtain ⟨s, h3, h4, h5⟩ := h2 n le_rfl
  have huniq : ∀ s', GrowthStepIs c s0 n (outcome f) s' ↔ s' = s := by
    intro s'
    constructor
    · rintro ⟨a', e1, e2⟩
      rw [h1] at e1; cases e1
      rw [h3] at e2; cases e2; rfl
    · rintro rfl; exact ⟨a, h1, h3⟩
  have hlt := walk_lt (nb := nb) (fun t => outcome_lt hm f t) (grownIn_lt c s0 hs hg m hm hids hocc nb hnb hin c.background s0) n
  constructor
  · ext i
    simp only [grownAfter, Finset.mem_filter, Finset.mem_range, huniq, exists_eq_left]
    exact ⟨fun h => (h5 i h.1).1 h.2, fun h => ⟨hlt i h, (h5 i (hlt i h)).2 h⟩⟩
  · simp only [FilledAfter, huniq, exists_eq_left]
    constructor
    · intro h
      ext i
      rw [Finset.mem_range]
      refine ⟨hlt i, fun hi => (h5 i hi).1 ?_⟩
      obtain ⟨v, hv, hvb⟩ := h i hi
      rw [hv]; simpa using hvb
    · intro h i hi
      obtain ⟨v, hv⟩ := h4 i hi
      refine ⟨v, hv, fun e => (h5 i hi).2 (by rw [h, Finset.mem_range]; exact hi) ?_⟩
      rw [hv, e]

/-- C169: with every step the average number of sites that are not background grows by the average part of the sites that are background and touch one that is not. -/
theorem C169_step (n : ℕ) :
    mean m (n + 1) (fun f => ((grownAfter c s0 m (n + 1) (outcome f)).card : ℝ)) =
      mean m n (fun f => ((grownAfter c s0 m n (outcome f)).card : ℝ)) + mean m n (fun f => ((rim m nb (grownAfter c s0 m n (outcome f))).card : ℝ)) / m := by
  simp only [fun n f => (grownAfter_eq c s0 hs hg m hm hids hocc nb hnb hin n f).1]
  exact walk_mean hm _ n

theorem mean_start : mean m 0 (fun f => ((grownAfter c s0 m 0 (outcome f)).card : ℝ)) = (grownIn m c.background s0).card := by
  simp only [fun f => (grownAfter_eq c s0 hs hg m hm hids hocc nb hnb hin 0 f).1]
  exact mean_const (m := m) (k := 0) hm ((grownIn m c.background s0).card : ℝ)

/-- C169: if no site is a neighbour of more than `D` sites, the average number grows at most by the factor `1 + D / m` a step. -/
theorem C169_upper (D : ℕ) (hD : ∀ j, j < m → ((Finset.range m).filter fun i => j ∈ nb i).card ≤ D) (n : ℕ) :
    mean m n (fun f => ((grownAfter c s0 m n (outcome f)).card : ℝ)) ≤ (grownIn m c.background s0).card * (1 + (D : ℝ) / m) ^ n := by
  classical
  have hmR : (0 : ℝ) < m := by exact_mod_cast hm
  induction n with
  | zero => rw [mean_start c s0 hs hg m hm hids hocc nb hnb hin, pow_zero, mul_one]
  | succ n ih =>
    rw [C169_step c s0 hs hg m hm hids hocc nb hnb hin n]
    have h1 : mean m n (fun f => ((rim m nb (grownAfter c s0 m n (outcome f))).card : ℝ)) ≤ D * mean m n (fun f => ((grownAfter c s0 m n (outcome f)).card : ℝ)) := by
      rw [← mean_mul]
      refine mean_mono fun f => ?_
      have := rim_card_le (nb := nb) hD (O := grownAfter c s0 m n (outcome f)) fun i hi => by
        unfold grownAfter at hi
        exact Finset.mem_range.1 (Finset.mem_filter.1 hi).1
      rw [mul_comm]
      exact_mod_cast this
    have h2 : 0 ≤ 1 + (D : ℝ) / m := by positivity
    calc _ ≤ mean m n (fun f => ((grownAfter c s0 m n (outcome f)).card : ℝ)) + D * mean m n (fun f => ((grownAfter c s0 m n (outcome f)).card : ℝ)) / m := by
          gcongr
      _ = mean m n (fun f => ((grownAfter c s0 m n (outcome f)).card : ℝ)) * (1 + (D : ℝ) / m) := by field_simp
      _ ≤ _ := by rw [pow_succ, ← mul_assoc]; exact mul_le_mul_of_nonneg_right ih h2

/-- C169: the chances that the structure is not yet covered after `0, 1, 2, ...` steps add up to at most `m` times the number of background sites at the start, if every
site can be reached. -/
theorem C169_sum (hreach : ∀ i, i < m → ∃ k j, Hops nb k i j ∧ j < m ∧ occ? s0 (.int j) ≠ some c.background) (n : ℕ) :
    ∑ k ∈ Finset.range n, chance m k (fun f => ¬ FilledAfter c s0 m k (outcome f)) ≤ m * (m - (grownIn m c.background s0).card) := by
  classical
  have hmR : (0 : ℝ) < m := by exact_mod_cast hm
  have h1 : ∀ k, chance m k (fun f => ¬ FilledAfter c s0 m k (outcome f)) ≤ mean m k (fun f => ((rim m nb (grownAfter c s0 m k (outcome f))).card : ℝ)) := by
    intro k
    rw [← mean_indicator]
    refine mean_mono fun f => ?_
    split
    · rename_i hf
      obtain ⟨e1, e2⟩ := grownAfter_eq c s0 hs hg m hm hids hocc nb hnb hin k f
      rw [e2, ← e1] at hf
      obtain ⟨i, hi, hiO⟩ : ∃ i, i < m ∧ i ∉ grownAfter c s0 m k (outcome f) := by
        by_contra hc
        push Not at hc
        refine hf (Finset.Subset.antisymm (Finset.filter_subset _ _) fun i hi => hc i (Finset.mem_range.1 hi))
      obtain ⟨h, j, hj, hjm, hjb⟩ := hreach i hi
      have hjO : j ∈ grownAfter c s0 m k (outcome f) := by
        rw [e1]
        refine walk_grows _ _ _ ?_
        unfold grownIn
        exact Finset.mem_filter.2 ⟨Finset.mem_range.2 hjm, hjb⟩
      have := rim_nonempty hin h i j hi hiO hjO hj
      exact_mod_cast this
    · positivity
  have h2 : ∀ n, ∑ k ∈ Finset.range n, mean m k (fun f => ((rim m nb (grownAfter c s0 m k (outcome f))).card : ℝ)) =
      m * (mean m n (fun f => ((grownAfter c s0 m n (outcome f)).card : ℝ)) - (grownIn m c.background s0).card) := by
    intro n
    induction n with
    | zero => rw [mean_start c s0 hs hg m hm hids hocc nb hnb hin]; simp
    | succ n ih =>
      rw [Finset.sum_range_succ, ih, C169_step c s0 hs hg m hm hids hocc nb hnb hin n]
      field_simp
      ring
  refine (Finset.sum_le_sum fun k _ => h1 k).trans ?_
  rw [h2]
  refine mul_le_mul_of_nonneg_left (sub_le_sub_right ?_ _) hmR.le
  rw [← mean_const (m := m) (k := n) hm (m : ℝ)]
  refine mean_mono fun f => ?_
  have : (grownAfter c s0 m n (outcome f)).card ≤ (Finset.range m).card := Finset.card_le_card (Finset.filter_subset _ _)
  rw [Finset.card_range] at this
  exact_mod_cast this

/-- C169: the average number of steps until the structure is covered (the sum of the chances that it is not covered after `0, 1, 2, ...` steps) is finite and at
most `m` times the number of background sites at the start. -/
theorem C169_time (hreach : ∀ i, i < m → ∃ k j, Hops nb k i j ∧ j < m ∧ occ? s0 (.int j) ≠ some c.background) :
    Summable (fun k => chance m k fun f => ¬ FilledAfter c s0 m k (outcome f)) ∧
      ∑' k, chance m k (fun f => ¬ FilledAfter c s0 m k (outcome f)) ≤ m * (m - (grownIn m c.background s0).card) :=
  ⟨summable_of_sum_range_le (fun _ => chance_nonneg _) (C169_sum c s0 hs hg m hm hids hocc nb hnb hin hreach),
    Real.tsum_le_of_sum_range_le (fun _ => chance_nonneg _) (C169_sum c s0 hs hg m hm hids hocc nb hnb hin hreach)⟩

/-- C169: every site that is background at the start has to be visited, so the average number of steps is at least that of collecting as many coupons: `m` times
`1 + 1/2 + ... + 1/b` for `b` background sites. -/
theorem C169_coupons (hreach : ∀ i, i < m → ∃ k j, Hops nb k i j ∧ j < m ∧ occ? s0 (.int j) ≠ some c.background) :
    m * harmonicSum (m - (grownIn m c.background s0).card) ≤ ∑' k, chance m k (fun f => ¬ FilledAfter c s0 m k (outcome f)) := by
  classical
  have hmR : (0 : ℝ) < m := by exact_mod_cast hm
  set O0 := grownIn m c.background s0 with hO0
  have hlt0 := grownIn_lt c s0 hs hg m hm hids hocc nb hnb hin c.background s0
  rw [← hO0] at hlt0
  have heq : ∀ k (f : Fin k → Fin m), FilledAfter c s0 m k (outcome f) ↔ walk (visitSet nb) (outcome f) O0 k = Finset.range m :=
    fun k f => (grownAfter_eq c s0 hs hg m hm hids hocc nb hnb hin k f).2
  have hlt : ∀ k (f : Fin k → Fin m), ∀ i ∈ walk (visitSet nb) (outcome f) O0 k, i < m := fun k f => walk_lt (fun t => outcome_lt hm f t) hlt0 k
  set p := fun k => chance m k (fun f => ¬ FilledAfter c s0 m k (outcome f)) with hp
  set h := fun k => mean m k (fun f => harmonicSum (m - (walk (visitSet nb) (outcome f) O0 k).card)) with hh
  have hstep : ∀ k, h k - p k / m ≤ h (k + 1) := by
    intro k
    simp only [hh, hp]
    rw [mean_snoc, ← mean_sum, ← mean_indicator, le_div_iff₀ hmR, sub_mul, div_mul_cancel₀ _ hmR.ne', mul_comm, ← mean_mul]
    have e : ∀ X Y : (Fin k → Fin m) → ℝ, mean m k X - mean m k Y = mean m k fun f => X f - Y f := by
      intro X Y
      unfold mean
      rw [Finset.sum_sub_distrib, sub_div]
    rw [e]
    refine mean_mono fun f => ?_
    have h1 := harmonicSum_visits (nb := nb) (hlt k f)
    have h2 : ∀ x : Fin m, walk (visitSet nb) (outcome (Fin.snoc f x : Fin (k + 1) → Fin m)) O0 (k + 1) = visitSet nb x (walk (visitSet nb) (outcome f) O0 k) := by
      intro x
      show visitSet nb (outcome (Fin.snoc f x : Fin (k + 1) → Fin m) k) (walk (visitSet nb) (outcome (Fin.snoc f x : Fin (k + 1) → Fin m)) O0 k) = _
      rw [outcome_snoc_last, walk_congr (visitSet nb) (g := outcome f) O0 (fun t ht => outcome_snoc_lt f x ht)]
    simp only [h2]
    refine le_trans (le_of_eq ?_) h1
    congr 1
    by_cases g : walk (visitSet nb) (outcome f) O0 k = Finset.range m
    · rw [if_pos g, if_neg (not_not.2 ((heq k f).2 g))]
    · rw [if_neg g, if_pos fun g' => g ((heq k f).1 g')]
  have hend : ∀ k, h k ≤ harmonicSum (m - O0.card) * p k := by
    intro k
    simp only [hh, hp]
    rw [← mean_indicator, ← mean_mul]
    refine mean_mono fun f => ?_
    by_cases g : walk (visitSet nb) (outcome f) O0 k = Finset.range m
    · rw [if_neg (not_not.2 ((heq k f).2 g)), g, Finset.card_range, mul_zero, Nat.sub_self]
      simp [harmonicSum]
    · rw [if_pos fun g' => g ((heq k f).1 g'), mul_one]
      refine harmonicSum_mono (Nat.sub_le_sub_left (Finset.card_le_card ?_) m)
      exact (walk_inv (nb := nb) (outcome f) O0 k).1
  have hstart : h 0 = harmonicSum (m - O0.card) := mean_const (m := m) (k := 0) hm (harmonicSum (m - O0.card))
  have hsum : ∀ n, m * harmonicSum (m - O0.card) - m * h n ≤ ∑ k ∈ Finset.range n, p k := by
    intro n
    induction n with
    | zero => rw [hstart]; simp
    | succ n ih =>
      rw [Finset.sum_range_succ]
      have := mul_le_mul_of_nonneg_left (hstep n) hmR.le
      rw [mul_sub, mul_div_cancel₀ _ hmR.ne'] at this
      linarith
  have hS := (C169_time c s0 hs hg m hm hids hocc nb hnb hin hreach).1
  have h0 : Filter.Tendsto p Filter.atTop (nhds 0) := hS.tendsto_atTop_zero
  have hT : Filter.Tendsto (fun n => ∑ k ∈ Finset.range n, p k + m * (harmonicSum (m - O0.card) * p n)) Filter.atTop (nhds (∑' k, p k + m * (harmonicSum (m - O0.card) * 0))) :=
    hS.hasSum.tendsto_sum_nat.add ((h0.const_mul _).const_mul _)
  rw [mul_zero, mul_zero, add_zero] at hT
  refine ge_of_tendsto' hT fun n => ?_
  have h1 := hsum n
  have h2 := mul_le_mul_of_nonneg_left (hend n) hmR.le
  linarith

/-- C169: covering takes at least as many steps as there are background sites at the start, whatever is drawn. -/
theorem C169_lower (n : ℕ) (h : (grownIn m c.background s0).card + n < m) (f : Fin n → Fin m) : ¬ FilledAfter c s0 m n (outcome f) := by
  rw [(grownAfter_eq c s0 hs hg m hm hids hocc nb hnb hin n f).2]
  intro e
  have h1 := (walk_inv (nb := nb) (outcome f) (grownIn m c.background s0) n).2.2
  rw [e, Finset.card_range] at h1
  omega

end

/-- C169 on square grids of any size with the default (Moore) neighbourhood: the hypotheses on the controller hold for what `GrowthController.__init__` makes,
whatever order the graph lists neighbours in; a site has `3 ^ d - 1` neighbours if all sides are at least 3. -/
theorem C169_grid {S : Structure K d} {N : Fin d → ℤ} (hS : SquareGrid d N S) (bg : Val) (order : ℕ → List ℕ → List ℕ) (hord : ∀ t l, (order t l).Perm l)
    (s0 : SimState) (hs : s0.WF) (hg : s0.getGeneralState ≠ none) (hsites : SameSites S s0) (hocc : AllOccupied s0) (m : ℕ) (hm : m = S.siteIds.length) :
    ∃ c nb, Growth.init order S bg = .ok c ∧
      (∀ i j x y, SiteHas S i x → SiteHas S j y → (j ∈ nb i ↔ j ≠ i ∧ ChebyshevLE N x y 1)) ∧
      (∀ n, mean m (n + 1) (fun f => ((grownAfter c s0 m (n + 1) (outcome f)).card : ℝ)) =
        mean m n (fun f => ((grownAfter c s0 m n (outcome f)).card : ℝ)) + mean m n (fun f => ((rim m nb (grownAfter c s0 m n (outcome f))).card : ℝ)) / m) ∧
      ((∀ j, 3 ≤ N j) → ∀ n, mean m n (fun f => ((grownAfter c s0 m n (outcome f)).card : ℝ)) ≤
        (grownIn m bg s0).card * (1 + ((3 ^ d - 1 : ℕ) : ℝ) / m) ^ n) ∧
      ((grownIn m bg s0).Nonempty → Summable (fun k => chance m k fun f => ¬ FilledAfter c s0 m k (outcome f)) ∧
        ∑' k, chance m k (fun f => ¬ FilledAfter c s0 m k (outcome f)) ≤ m * (m - (grownIn m bg s0).card) ∧
        m * harmonicSum (m - (grownIn m bg s0).card) ≤ ∑' k, chance m k (fun f => ¬ FilledAfter c s0 m k (outcome f))) ∧
      ∀ n, (grownIn m bg s0).card + n < m → ∀ f : Fin n → Fin m, ¬ FilledAfter c s0 m n (outcome f) := by
  classical
  subst hm
  have ht := hS.isTorus
  have hids : Numbered S.siteIds.length s0 := idsTo_of_sameSites ht.reachable hs hsites
  obtain ⟨g, hget, hgn⟩ := C53_moore hS 1
  have hpos : 0 < S.siteIds.length := List.length_pos_of_ne_nil ht.ids_ne
  have hSmem : ∀ i, i ∈ S.siteIds ↔ i < S.siteIds.length := fun i => by rw [siteIds_eq ht.reachable]; simp
  obtain ⟨c, hc⟩ : ∃ c, Growth.init order S bg = .ok c := by
    unfold Growth.init
    rw [Option.getD_none, hget]
    exact ⟨_, rfl⟩
  obtain ⟨h1, h2⟩ := init_nbs (order := order) (bg := bg) hget hc
  have hnb : ∀ t, ∀ i, i < S.siteIds.length → ∃ l, c.nbs t (.int i) = .ok l ∧ ∀ j, j ∈ l ↔ j ∈ g.neighborsOf i :=
    fun t i _ => ⟨_, h2 t i, fun j => (hord t _).mem_iff⟩
  have hin : ∀ i, i < S.siteIds.length → ∀ j ∈ g.neighborsOf i, j < S.siteIds.length :=
    fun i _ j hj => (hSmem j).1 ((C55_known_and_other ht.reachable _ none g hget i).1 j hj).1
  refine ⟨c, g.neighborsOf, hc, hgn, fun n => C169_step c s0 hs hg _ hpos hids hocc _ hnb hin n, fun h3 n => ?_, fun hne => ?_, fun n hn f => ?_⟩
  · rw [← h1]
    refine C169_upper c s0 hs hg _ hpos hids hocc _ hnb hin _ (fun j hj => ?_) n
    have hlen := C53_count hS 1 (by simpa using h3) g (by simpa using hget) j ((hSmem j).2 hj)
    have hsub : ((Finset.range S.siteIds.length).filter fun i => j ∈ g.neighborsOf i) ⊆ (g.neighborsOf j).toFinset := by
      intro i hi
      obtain ⟨hi1, hi2⟩ := Finset.mem_filter.1 hi
      obtain ⟨x, -, hx⟩ := ht.site i ((hSmem i).2 (Finset.mem_range.1 hi1))
      obtain ⟨y, -, hy⟩ := ht.site j ((hSmem j).2 hj)
      obtain ⟨e1, e2⟩ := (hgn i j x y hx hy).1 hi2
      rw [List.mem_toFinset]
      refine (hgn j i y x hy hx).2 ⟨e1.symm, fun k => ?_⟩
      have := circ_neg (ht.pos k) (e2 k)
      rwa [neg_sub] at this
    calc _ ≤ (g.neighborsOf j).toFinset.card := Finset.card_le_card hsub
      _ ≤ (g.neighborsOf j).length := List.toFinset_card_le _
      _ = _ := by rw [hlen]
  · rw [← h1] at hne ⊢
    obtain ⟨j, hj⟩ := hne
    unfold grownIn at hj
    obtain ⟨hj1, hj2⟩ := Finset.mem_filter.1 hj
    have hreach : ∀ i, i < S.siteIds.length → ∃ k j, Hops g.neighborsOf k i j ∧ j < S.siteIds.length ∧ occ? s0 (.int j) ≠ some c.background := fun i hi => by
      obtain ⟨k, hk⟩ := moore_hops_any ht hgn ((hSmem i).2 hi) ((hSmem j).2 (Finset.mem_range.1 hj1))
      exact ⟨k, j, hk, Finset.mem_range.1 hj1, hj2⟩
    exact ⟨(C169_time c s0 hs hg _ hpos hids hocc _ hnb hin hreach).1, (C169_time c s0 hs hg _ hpos hids hocc _ hnb hin hreach).2,
      C169_coupons c s0 hs hg _ hpos hids hocc _ hnb hin hreach⟩
  · rw [← h1] at hn
    exact C169_lower c s0 hs hg _ hpos hids hocc _ hnb hin n hn f

/-- A 5 by 4 grid whose cells at (1,1), (2,1), (3,1) are occupied: covering it takes a finite number of steps on average. -/
example (order : ℕ → List ℕ → List ℕ) (hord : ∀ t l, (order t l).Perm l) : ∃ (S : Structure ℚ 2) (s0 : SimState) (c : Ctl), SquareGrid 2 ![5, 4] S ∧
    ShowsLife S s0 blinker ∧ Growth.init order S (.str "dead") = .ok c ∧
    Summable (fun k => chance S.siteIds.length k fun f => ¬ FilledAfter c s0 S.siteIds.length k (outcome f)) := by
  obtain ⟨-, S, hS, -⟩ := C52_square2 (K := ℚ) 1 (by norm_num) 4 5 (by norm_num) (by norm_num)
  have hg : SquareGrid 2 ![5, 4] S := .two _ S 5 4 (by norm_num) (by norm_num) (.inl rfl) hS
  obtain ⟨s0, h1, h2, h3, h4⟩ := life_state_exists hg.isTorus blinker
  have hocc : ∀ i c, SiteHas S i c → (c ∈ blinker → occ? s0 (.int i) = some (.str "alive")) ∧ (c ∉ blinker → occ? s0 (.int i) = some (.str "dead")) := by
    intro i c hi
    obtain ⟨p, e1, e2, e3⟩ := h4 i c hi
    unfold occ?
    rw [e1]
    exact ⟨e2, e3⟩
  have hall : AllOccupied s0 := by
    intro k hk
    obtain ⟨i, hi, rfl⟩ := (h3 k).1 hk
    obtain ⟨x, -, hx⟩ := hg.isTorus.site i hi
    by_cases h : x ∈ blinker
    · exact ⟨_, (hocc i _ hx).1 h⟩
    · exact ⟨_, (hocc i _ hx).2 h⟩
  obtain ⟨c, nb, e1, -, -, -, e2, -⟩ := C169_grid hg (.str "dead") order hord s0 h1 h2 h3 hall _ rfl
  refine ⟨S, s0, c, hg, h4, e1, (e2 ?_).1⟩
  obtain ⟨i, hi, hc⟩ := hg.isTorus.ex ![1, 1] (by intro j; fin_cases j <;> simp)
  have := (hocc i _ hc).1 (by show ![1, 1] ∈ blinker; decide)
  refine ⟨i, ?_⟩
  unfold grownIn
  refine Finset.mem_filter.2 ⟨?_, by rw [this]; decide⟩
  rw [siteIds_eq hg.isTorus.reachable] at hi
  rw [siteIds_eq hg.isTorus.reachable, List.length_range]
  simpa using hi

end Pyl
