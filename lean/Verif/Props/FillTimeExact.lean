import Verif.Props.FillTime
/-
C171: the average number of steps until asynchronous growth has covered a structure, exactly.
-/
set_option autoImplicit false
set_option linter.unusedSectionVars false

namespace Pyl
open SimState Spec Growth
open Pyl.Lattice Pyl.Structure
variable {K : Type} [Field K] [LinearOrder K] [FloorRing K] [IsStrictOrderedRing K] {d : ℕ}

/-! ### Walks on sets -/

section
variable {m : ℕ} {nb : ℕ → List ℕ}

/-- What is left to wait, in units of `m` steps, from `a` sites on, if each of `r k` sites can join `k` sites. -/
noncomputable def waits (r : ℕ → ℕ) (a m : ℕ) : ℝ := ∑ k ∈ Finset.Ico a m, 1 / (r k : ℝ)

theorem waits_anti (r : ℕ → ℕ) {a b m : ℕ} (h : a ≤ b) : waits r b m ≤ waits r a m :=
  Finset.sum_le_sum_of_subset_of_nonneg (Finset.Ico_subset_Ico_left h) fun k _ _ => by positivity

theorem waits_visit (r : ℕ → ℕ) {x : ℕ} (hx : x < m) {O : Finset ℕ} (hO : ∀ i ∈ O, i < m) :
    waits r (visitSet nb x O).card m = waits r O.card m - if x ∈ rim m nb O then 1 / (r O.card : ℝ) else 0 := by
  have hc := visitSet_card_eq (nb := nb) hx O
  by_cases h : x ∈ rim m nb O
  · rw [if_pos h] at hc ⊢
    have hc' : (visitSet nb x O).card = O.card + 1 := by exact_mod_cast hc
    have hlt : O.card < m := by
      have h1 : insert x O ⊆ Finset.range m := by
        intro i hi
        rcases Finset.mem_insert.1 hi with rfl | hi
        · exact Finset.mem_range.2 hx
        · exact Finset.mem_range.2 (hO i hi)
      have h2 := Finset.card_le_card h1
      rw [Finset.card_insert_of_notMem (Finset.mem_filter.1 h).2.1, Finset.card_range] at h2
      omega
    rw [hc']
    unfold waits
    rw [Finset.sum_eq_sum_Ico_succ_bot hlt]
    ring
  · rw [if_neg h, add_zero] at hc
    have hc' : (visitSet nb x O).card = O.card := by exact_mod_cast hc
    rw [if_neg h, hc', sub_zero]

/-- On average a visit takes `1 / m` off the sum, as long as a site is left. -/
theorem waits_visits (r : ℕ → ℕ) {O : Finset ℕ} (hO : ∀ i ∈ O, i < m) (hr : O.card < m → (rim m nb O).card = r O.card ∧ 0 < r O.card) :
    ∑ x : Fin m, waits r (visitSet nb x O).card m = (m : ℝ) * waits r O.card m - (if O = Finset.range m then 0 else 1) := by
  have hsub : O ⊆ Finset.range m := fun i hi => Finset.mem_range.2 (hO i hi)
  rw [Finset.sum_congr rfl fun (x : Fin m) _ => waits_visit (nb := nb) r x.2 hO, Finset.sum_sub_distrib, Finset.sum_const, Finset.card_univ, Fintype.card_fin, nsmul_eq_mul,
    sum_if_in (fun _ => 1 / (r O.card : ℝ)) rim_sub, Finset.sum_const, nsmul_eq_mul]
  congr 1
  by_cases e : O = Finset.range m
  · rw [if_pos e]
    have : rim m nb O = ∅ := by
      rw [Finset.eq_empty_iff_forall_notMem]
      intro i hi
      obtain ⟨h1, h2, -⟩ := Finset.mem_filter.1 hi
      exact h2 (e ▸ h1)
    rw [this]; simp
  · rw [if_neg e]
    have hlt : O.card < m := by
      rcases Nat.lt_or_ge O.card m with h | h
      · exact h
      · exact absurd (Finset.eq_of_subset_of_card_le hsub (by rw [Finset.card_range]; exact h)) e
    obtain ⟨h1, h2⟩ := hr hlt
    rw [h1]
    have : (r O.card : ℝ) ≠ 0 := by positivity
    field_simp

theorem place_surj {q : ℕ → ℕ} (hq : ∀ i, i < m → q i < m) (hinj : ∀ i j, i < m → j < m → q i = q j → i = j) : ∀ y, y < m → ∃ i, i < m ∧ q i = y := by
  intro y hy
  have himg : (Finset.range m).image q = Finset.range m := by
    refine Finset.eq_of_subset_of_card_le ?_ ?_
    · intro z hz
      obtain ⟨i, hi, rfl⟩ := Finset.mem_image.1 hz
      exact Finset.mem_range.2 (hq i (Finset.mem_range.1 hi))
    · rw [Finset.card_image_of_injOn]
      intro i hi j hj h
      exact hinj i j (by simpa using hi) (by simpa using hj) h
  have : y ∈ (Finset.range m).image q := by rw [himg]; exact Finset.mem_range.2 hy
  obtain ⟨i, hi, e⟩ := Finset.mem_image.1 this
  exact ⟨i, Finset.mem_range.1 hi, e⟩

theorem place_card {q : ℕ → ℕ} (hq : ∀ i, i < m → q i < m) (hinj : ∀ i j, i < m → j < m → q i = q j → i = j) {O : Finset ℕ} {l : ℕ} (hlm : l ≤ m) (hOm : ∀ i ∈ O, i < m)
    (hO : ∀ i, i < m → (i ∈ O ↔ q i < l)) : O.card = l := by
  have : O.image q = Finset.range l := by
    ext y
    rw [Finset.mem_image, Finset.mem_range]
    constructor
    · rintro ⟨i, hi, rfl⟩; exact (hO i (hOm i hi)).1 hi
    · intro hy
      obtain ⟨i, hi, e⟩ := place_surj hq hinj y (by omega)
      exact ⟨i, (hO i hi).2 (by omega), e⟩
  rw [← Finset.card_range l, ← this, Finset.card_image_of_injOn]
  intro i hi j hj h
  exact hinj i j (hOm i hi) (hOm j hj) h

end

/-! ### Runs -/

section
variable (c : Ctl) (s0 : SimState) (hs : s0.WF) (hg : s0.getGeneralState ≠ none) (m : ℕ) (hm : 0 < m) (hids : Numbered m s0) (hocc : AllOccupied s0)
    (nb : ℕ → List ℕ) (hnb : ∀ t, ∀ i, i < m → ∃ l, c.nbs t (.int i) = .ok l ∧ ∀ j, j ∈ l ↔ j ∈ nb i) (hin : ∀ i, i < m → ∀ j ∈ nb i, j < m)
include hs hg hm hids hocc hnb hin

/-- C171: if, whenever `k < m` sites are not background, the number of background sites with a neighbour that is not is `r k` (for the sets of sites that can come up, a
family `P`), then the average number of steps until no site is background is `m` times the sum of the `1 / r k`, from the number at the start on. -/
theorem C171_exact (P : Finset ℕ → Prop) (r : ℕ → ℕ) (h0 : P (grownIn m c.background s0)) (hP : ∀ O, P O → ∀ x ∈ rim m nb O, P (insert x O))
    (hr : ∀ O, P O → (∀ i ∈ O, i < m) → O.card < m → (rim m nb O).card = r O.card ∧ 0 < r O.card) :
    Summable (fun k => chance m k fun f => ¬ FilledAfter c s0 m k (outcome f)) ∧
      ∑' k, chance m k (fun f => ¬ FilledAfter c s0 m k (outcome f)) = m * ∑ k ∈ Finset.Ico (grownIn m c.background s0).card m, 1 / (r k : ℝ) := by
  classical
  have hmR : (0 : ℝ) < m := by exact_mod_cast hm
  set O0 := grownIn m c.background s0 with hO0
  have hlt0 := grownIn_lt c s0 hs hg m hm hids hocc nb hnb hin c.background s0
  rw [← hO0] at hlt0
  have heq : ∀ k (f : Fin k → Fin m), FilledAfter c s0 m k (outcome f) ↔ walk (visitSet nb) (outcome f) O0 k = Finset.range m :=
    fun k f => (grownAfter_eq c s0 hs hg m hm hids hocc nb hnb hin k f).2
  have hlt : ∀ k (f : Fin k → Fin m), ∀ i ∈ walk (visitSet nb) (outcome f) O0 k, i < m := fun k f => walk_lt (fun t => outcome_lt hm f t) hlt0 k
  have hPw : ∀ (g : ℕ → ℕ), (∀ t, g t < m) → ∀ k, P (walk (visitSet nb) g O0 k) := by
    intro g hgm k
    induction k with
    | zero => exact h0
    | succ k ih =>
      show P (visitSet nb (g k) (walk (visitSet nb) g O0 k))
      by_cases hx : g k ∈ rim m nb (walk (visitSet nb) g O0 k)
      · rw [show visitSet nb (g k) (walk (visitSet nb) g O0 k) = insert (g k) (walk (visitSet nb) g O0 k) from if_pos (Finset.mem_filter.1 hx).2.2]
        exact hP _ ih _ hx
      · rw [show visitSet nb (g k) (walk (visitSet nb) g O0 k) = walk (visitSet nb) g O0 k from ?_]
        · exact ih
        · by_cases hy : ∃ y ∈ nb (g k), y ∈ walk (visitSet nb) g O0 k
          · refine (if_pos hy).trans (Finset.insert_eq_of_mem ?_)
            by_contra hn
            exact hx (Finset.mem_filter.2 ⟨Finset.mem_range.2 (hgm k), hn, hy⟩)
          · exact if_neg hy
  set p := fun k => chance m k (fun f => ¬ FilledAfter c s0 m k (outcome f)) with hp
  set h := fun k => mean m k (fun f => waits r (walk (visitSet nb) (outcome f) O0 k).card m) with hh
  have hstep : ∀ k, h (k + 1) = h k - p k / m := by
    intro k
    simp only [hh, hp]
    rw [mean_snoc, ← mean_sum, ← mean_indicator, div_eq_iff hmR.ne', sub_mul, div_mul_cancel₀ _ hmR.ne', mul_comm _ (m : ℝ), ← mean_mul]
    have e : ∀ X Y : (Fin k → Fin m) → ℝ, mean m k X - mean m k Y = mean m k fun f => X f - Y f := by
      intro X Y
      unfold mean
      rw [Finset.sum_sub_distrib, sub_div]
    rw [e]
    congr 1
    funext f
    have h1 := waits_visits (nb := nb) r (hlt k f) (hr _ (hPw _ (fun t => outcome_lt hm f t) k) (hlt k f))
    have h2 : ∀ x : Fin m, walk (visitSet nb) (outcome (Fin.snoc f x : Fin (k + 1) → Fin m)) O0 (k + 1) = visitSet nb x (walk (visitSet nb) (outcome f) O0 k) := by
      intro x
      show visitSet nb (outcome (Fin.snoc f x : Fin (k + 1) → Fin m) k) (walk (visitSet nb) (outcome (Fin.snoc f x : Fin (k + 1) → Fin m)) O0 k) = _
      rw [outcome_snoc_last, walk_congr (visitSet nb) (g := outcome f) O0 (fun t ht => outcome_snoc_lt f x ht)]
    simp only [h2]
    refine h1.trans ?_
    congr 1
    by_cases g : walk (visitSet nb) (outcome f) O0 k = Finset.range m
    · rw [if_pos g, if_neg (not_not.2 ((heq k f).2 g))]
    · rw [if_neg g, if_pos fun g' => g ((heq k f).1 g')]
  have hend : ∀ k, 0 ≤ h k ∧ h k ≤ waits r O0.card m * p k := by
    intro k
    simp only [hh, hp]
    constructor
    · unfold mean
      refine div_nonneg (Finset.sum_nonneg fun f _ => ?_) (by positivity)
      unfold waits
      exact Finset.sum_nonneg fun _ _ => by positivity
    · rw [← mean_indicator, ← mean_mul]
      refine mean_mono fun f => ?_
      by_cases g : walk (visitSet nb) (outcome f) O0 k = Finset.range m
      · rw [if_neg (not_not.2 ((heq k f).2 g)), g, Finset.card_range, mul_zero]
        simp [waits]
      · rw [if_pos fun g' => g ((heq k f).1 g'), mul_one]
        exact waits_anti r (Finset.card_le_card (walk_inv (nb := nb) (outcome f) O0 k).1)
  have hstart : h 0 = waits r O0.card m := mean_const (m := m) (k := 0) hm (waits r O0.card m)
  have hsum : ∀ n, ∑ k ∈ Finset.range n, p k = m * waits r O0.card m - m * h n := by
    intro n
    induction n with
    | zero => rw [hstart]; simp
    | succ n ih =>
      rw [Finset.sum_range_succ, ih, hstep n, mul_sub, mul_div_cancel₀ _ hmR.ne']
      ring
  have hS : Summable p := summable_of_sum_range_le (c := m * waits r O0.card m) (fun _ => chance_nonneg _) fun n => by
    rw [hsum n]
    have := mul_nonneg hmR.le (hend n).1
    linarith
  refine ⟨hS, ?_⟩
  have hz : Filter.Tendsto p Filter.atTop (nhds 0) := hS.tendsto_atTop_zero
  have hh0 : Filter.Tendsto h Filter.atTop (nhds 0) := by
    have := hz.const_mul (waits r O0.card m)
    rw [mul_zero] at this
    exact squeeze_zero (fun n => (hend n).1) (fun n => (hend n).2) this
  have hT : Filter.Tendsto (fun n => ∑ k ∈ Finset.range n, p k) Filter.atTop (nhds (m * waits r O0.card m - m * 0)) := by
    simp only [hsum]
    exact tendsto_const_nhds.sub (hh0.const_mul _)
  rw [mul_zero, sub_zero] at hT
  exact tendsto_nhds_unique hS.hasSum.tendsto_sum_nat hT

/-- C171: the lower bound of C169 is reached if every site is a neighbour of every other site. -/
theorem C171_complete (hall : ∀ i j, i < m → j < m → i ≠ j → j ∈ nb i) (hne : (grownIn m c.background s0).Nonempty) :
    ∑' k, chance m k (fun f => ¬ FilledAfter c s0 m k (outcome f)) = m * harmonicSum (m - (grownIn m c.background s0).card) := by
  have hlt0 := grownIn_lt c s0 hs hg m hm hids hocc nb hnb hin c.background s0
  rw [(C171_exact c s0 hs hg m hm hids hocc nb hnb hin Finset.Nonempty (fun k => m - k) hne (fun O _ x _ => Finset.insert_nonempty _ _) fun O hO hOm hc => ?_).2]
  · congr 1
    have hle : (grownIn m c.background s0).card ≤ m := by
      have := Finset.card_le_card (show grownIn m c.background s0 ⊆ Finset.range m from fun i hi => Finset.mem_range.2 (hlt0 i hi))
      rwa [Finset.card_range] at this
    unfold harmonicSum
    rw [← Finset.sum_range_reflect, Finset.sum_Ico_eq_sum_range]
    refine Finset.sum_congr rfl fun k hk => ?_
    have hk := Finset.mem_range.1 hk
    congr 1
    rw [← Nat.cast_add_one]
    congr 1
    omega
  · have : rim m nb O = Finset.range m \ O := by
      ext i
      rw [Finset.mem_sdiff]
      unfold rim
      rw [Finset.mem_filter]
      refine ⟨fun h => ⟨h.1, h.2.1⟩, fun h => ⟨h.1, h.2, ?_⟩⟩
      obtain ⟨j, hj⟩ := hO
      exact ⟨j, hall i j (Finset.mem_range.1 h.1) (hOm j hj) (fun e => h.2 (e ▸ hj)), hj⟩
    rw [this, Finset.card_sdiff_of_subset fun i hi => Finset.mem_range.2 (hOm i hi), Finset.card_range]
    exact ⟨rfl, by omega⟩

/-- C171: the upper bound of C169 is reached if the sites stand in a row (`q i` is the place of site `i`), the only neighbour of a site other than the first is the one before
it, and the first `a` sites are occupied. -/
theorem C171_oneWay (q : ℕ → ℕ) (hq : ∀ i, i < m → q i < m) (hinj : ∀ i j, i < m → j < m → q i = q j → i = j)
    (hway : ∀ i j, i < m → j < m → 0 < q i → (j ∈ nb i ↔ q j + 1 = q i)) (a : ℕ) (ha : 0 < a) (ham : a ≤ m)
    (hstart : ∀ i, i < m → (i ∈ grownIn m c.background s0 ↔ q i < a)) :
    ∑' k, chance m k (fun f => ¬ FilledAfter c s0 m k (outcome f)) = m * (m - a) := by
  have hlt0 := grownIn_lt c s0 hs hg m hm hids hocc nb hnb hin c.background s0
  have hrim : ∀ (O : Finset ℕ) l, 0 < l → l < m → (∀ i, i < m → (i ∈ O ↔ q i < l)) → ∀ i, i ∈ rim m nb O ↔ i < m ∧ q i = l := by
    intro O l hl hlm hO i
    unfold rim
    rw [Finset.mem_filter, Finset.mem_range]
    refine and_congr_right fun hi => ?_
    rw [hO i hi]
    constructor
    · rintro ⟨h2, j, h3, h4⟩
      have hj := hin i hi j h3
      rw [hway i j hi hj (by omega)] at h3
      rw [hO j hj] at h4
      omega
    · intro e
      obtain ⟨j, hj, e'⟩ := place_surj hq hinj (l - 1) (by omega)
      exact ⟨by omega, j, (hway i j hi hj (by omega)).2 (by omega), (hO j hj).2 (by omega)⟩
  rw [(C171_exact c s0 hs hg m hm hids hocc nb hnb hin (fun O => ∃ l, 0 < l ∧ l ≤ m ∧ ∀ i, i < m → (i ∈ O ↔ q i < l)) (fun _ => 1) ⟨a, ha, ham, hstart⟩ ?_ ?_).2,
    place_card hq hinj ham hlt0 hstart]
  · simp [Nat.cast_sub ham]
  · rintro O ⟨l, hl, hlm, hO⟩ x hx
    have hxm := Finset.mem_range.1 (Finset.mem_filter.1 hx).1
    have hxO := (Finset.mem_filter.1 hx).2.1
    rw [hO x hxm] at hxO
    have hqx := hq x hxm
    have e := ((hrim O l hl (by omega) hO x).1 hx).2
    refine ⟨l + 1, by omega, by omega, fun i hi => ?_⟩
    rw [Finset.mem_insert, hO i hi]
    constructor
    · rintro (rfl | h) <;> omega
    · intro h
      rcases Nat.lt_or_ge (q i) l with h' | h'
      · exact .inr h'
      · exact .inl (hinj i x hi hxm (by omega))
  · rintro O ⟨l, hl, hlm, hO⟩ hOm hc
    rw [place_card hq hinj hlm hOm hO] at hc
    obtain ⟨z, hz, ez⟩ := place_surj hq hinj l hc
    have : rim m nb O = {z} := by
      ext i
      rw [hrim O l hl hc hO, Finset.mem_singleton]
      exact ⟨fun h => hinj i z h.1 hz (by omega), by rintro rfl; exact ⟨hz, ez⟩⟩
    rw [this]
    simp

/-- C171: on a ring of at least two sites, from one site, it is `m * m / 2` steps.  `q i` is the place of site `i` on the ring. -/
theorem C171_ring (h2 : 2 ≤ m) (q : ℕ → ℕ) (hq : ∀ i, i < m → q i < m) (hinj : ∀ i j, i < m → j < m → q i = q j → i = j)
    (hnext : ∀ i j, i < m → j < m → (j ∈ nb i ↔ q j = (q i + 1) % m ∨ q i = (q j + 1) % m)) (hone : (grownIn m c.background s0).card = 1) :
    ∑' k, chance m k (fun f => ¬ FilledAfter c s0 m k (outcome f)) = m * m / 2 := by
  have hlt0 := grownIn_lt c s0 hs hg m hm hids hocc nb hnb hin c.background s0
  -- the sets that come up are arcs: the sites with place below `l` after turning the ring
  let P : Finset ℕ → Prop := fun O => ∃ (q : ℕ → ℕ) (l : ℕ), (∀ i, i < m → q i < m) ∧ (∀ i j, i < m → j < m → q i = q j → i = j) ∧
    (∀ i j, i < m → j < m → (j ∈ nb i ↔ q j = (q i + 1) % m ∨ q i = (q j + 1) % m)) ∧ 0 < l ∧ l ≤ m ∧ ∀ i, i < m → (i ∈ O ↔ q i < l)
  have hturn : ∀ q : ℕ → ℕ, (∀ i, i < m → q i < m) → (∀ i j, i < m → j < m → q i = q j → i = j) →
      (∀ i j, i < m → j < m → (j ∈ nb i ↔ q j = (q i + 1) % m ∨ q i = (q j + 1) % m)) → ∀ a,
      (∀ i, i < m → (q i + a) % m < m) ∧ (∀ i j, i < m → j < m → (q i + a) % m = (q j + a) % m → i = j) ∧
      (∀ i j, i < m → j < m → (j ∈ nb i ↔ (q j + a) % m = ((q i + a) % m + 1) % m ∨ (q i + a) % m = ((q j + a) % m + 1) % m)) := by
    intro q hq hinj hnext a
    have key : ∀ x y, x < m → y < m → ((x + a) % m = (y + a) % m ↔ x = y) := by
      intro x y hx hy
      constructor
      · intro h
        have h' : x ≡ y [MOD m] := Nat.ModEq.add_right_cancel' a h
        unfold Nat.ModEq at h'
        rwa [Nat.mod_eq_of_lt hx, Nat.mod_eq_of_lt hy] at h'
      · rintro rfl; rfl
    have key2 : ∀ x, ((x + a) % m + 1) % m = ((x + 1) % m + a) % m := by
      intro x
      rw [Nat.mod_add_mod, Nat.mod_add_mod]
      congr 1
      omega
    refine ⟨fun i _ => Nat.mod_lt _ hm, fun i j hi hj h => hinj i j hi hj ((key _ _ (hq i hi) (hq j hj)).1 h), fun i j hi hj => ?_⟩
    rw [key2, key2, key _ _ (hq j hj) (Nat.mod_lt _ hm), key _ _ (hq i hi) (Nat.mod_lt _ hm)]
    exact hnext i j hi hj
  have hsurj := fun (q : ℕ → ℕ) h1 h2 => place_surj (m := m) (q := q) h1 h2
  have hmod : ∀ x, x < m → (x + 1) % m = if x + 1 = m then 0 else x + 1 := by
    intro x hx
    split
    · rename_i e; rw [e, Nat.mod_self]
    · exact Nat.mod_eq_of_lt (by omega)
  have hrim : ∀ (O : Finset ℕ) (q : ℕ → ℕ) (l : ℕ), (∀ i, i < m → q i < m) → (∀ i j, i < m → j < m → q i = q j → i = j) →
      (∀ i j, i < m → j < m → (j ∈ nb i ↔ q j = (q i + 1) % m ∨ q i = (q j + 1) % m)) → 0 < l → l < m → (∀ i, i < m → (i ∈ O ↔ q i < l)) →
      ∀ i, i ∈ rim m nb O ↔ i < m ∧ (q i = l ∨ q i = m - 1) := by
    intro O q l hq hinj hnext hl hlm hO i
    unfold rim
    rw [Finset.mem_filter, Finset.mem_range]
    refine and_congr_right fun hi => ?_
    rw [hO i hi]
    constructor
    · rintro ⟨h1, j, h3, h4⟩
      have hj := hin i hi j h3
      rw [hnext i j hi hj, hmod _ (hq i hi), hmod _ (hq j hj)] at h3
      rw [hO j hj] at h4
      have := hq i hi
      split at h3 <;> split at h3 <;> omega
    · rintro (e | e)
      · obtain ⟨j, hj, e'⟩ := hsurj q hq hinj (l - 1) (by omega)
        refine ⟨by omega, j, ?_, (hO j hj).2 (by omega)⟩
        rw [hnext i j hi hj, hmod _ (hq j hj), e', e]
        right
        rw [if_neg (by omega)]
        omega
      · obtain ⟨j, hj, e'⟩ := hsurj q hq hinj 0 (by omega)
        refine ⟨by omega, j, ?_, (hO j hj).2 (by omega)⟩
        rw [hnext i j hi hj, hmod _ (hq i hi), e', e]
        left
        rw [if_pos (by omega)]
  obtain ⟨z, hz⟩ := Finset.card_eq_one.1 hone
  have hzm : z < m := hlt0 z (by rw [hz]; exact Finset.mem_singleton_self _)
  have hstart : P (grownIn m c.background s0) := by
    obtain ⟨t1, t2, t3⟩ := hturn q hq hinj hnext (m - q z)
    refine ⟨fun i => (q i + (m - q z)) % m, 1, t1, t2, t3, by omega, by omega, fun i hi => ?_⟩
    rw [hz, Finset.mem_singleton]
    show _ ↔ (q i + (m - q z)) % m < 1
    have h0 : (q z + (m - q z)) % m = 0 := by
      have := hq z hzm
      rw [show q z + (m - q z) = m by omega, Nat.mod_self]
    constructor
    · rintro rfl; rw [h0]; omega
    · intro h
      exact t2 i z hi hzm (by rw [h0]; omega)
  rw [(C171_exact c s0 hs hg m hm hids hocc nb hnb hin P (fun k => if k + 1 < m then 2 else 1) hstart ?_ ?_).2, hone]
  · obtain ⟨u, rfl⟩ : ∃ u, m = u + 2 := ⟨m - 2, by omega⟩
    rw [Finset.sum_Ico_succ_top (by omega), Finset.sum_congr rfl (g := fun _ => (1 : ℝ) / 2)]
    · rw [if_neg (by omega), Finset.sum_const, Nat.card_Ico]
      push_cast
      simp
      ring
    · intro k hk
      have := Finset.mem_Ico.1 hk
      rw [if_pos (by omega)]
      norm_num
  · rintro O ⟨q, l, a1, a2, a3, hl, hlm, hO⟩ x hx
    have hxm := Finset.mem_range.1 (Finset.mem_filter.1 hx).1
    have hxO := (Finset.mem_filter.1 hx).2.1
    rw [hO x hxm] at hxO
    have hqx := a1 x hxm
    rcases ((hrim O q l a1 a2 a3 hl (by omega) hO x).1 hx).2 with e | e
    · refine ⟨q, l + 1, a1, a2, a3, by omega, by omega, fun i hi => ?_⟩
      rw [Finset.mem_insert, hO i hi]
      constructor
      · rintro (rfl | h) <;> omega
      · intro h
        rcases Nat.lt_or_ge (q i) l with h' | h'
        · exact .inr h'
        · exact .inl (a2 i x hi hxm (by omega))
    · obtain ⟨t1, t2, t3⟩ := hturn q a1 a2 a3 1
      refine ⟨fun i => (q i + 1) % m, l + 1, t1, t2, t3, by omega, by omega, fun i hi => ?_⟩
      rw [Finset.mem_insert, hO i hi]
      show _ ↔ (q i + 1) % m < l + 1
      rw [hmod _ (a1 i hi)]
      have hqi := a1 i hi
      constructor
      · rintro (rfl | h)
        · rw [if_pos (by omega)]; omega
        · split <;> omega
      · intro h
        by_cases e' : q i + 1 = m
        · exact .inl (a2 i x hi hxm (by omega))
        · rw [if_neg e'] at h
          exact .inr (by omega)
  · rintro O ⟨q, l, a1, a2, a3, hl, hlm, hO⟩ hOm hc
    have hcl := place_card a1 a2 hlm hOm hO
    rw [hcl] at hc ⊢
    refine ⟨?_, by split <;> omega⟩
    have himg : (rim m nb O).image q = {l, m - 1} := by
      ext y
      rw [Finset.mem_image, Finset.mem_insert, Finset.mem_singleton]
      constructor
      · rintro ⟨i, hi, rfl⟩
        exact ((hrim O q l a1 a2 a3 hl hc hO i).1 hi).2
      · intro hy
        obtain ⟨i, hi, e⟩ := hsurj q a1 a2 y (by omega)
        exact ⟨i, (hrim O q l a1 a2 a3 hl hc hO i).2 ⟨hi, by omega⟩, e⟩
    have hci : ((rim m nb O).image q).card = (rim m nb O).card := by
      rw [Finset.card_image_of_injOn]
      intro i hi j hj h
      exact a2 i j ((hrim O q l a1 a2 a3 hl hc hO i).1 hi).1 ((hrim O q l a1 a2 a3 hl hc hO j).1 hj).1 h
    rw [← hci, himg]
    split
    · exact Finset.card_pair (by omega)
    · rw [show m - 1 = l by omega]; simp

end

theorem circ_small {n : ℤ} (hn : 0 < n) (h3 : n ≤ 3) (a : ℤ) : circ n a ≤ 1 := by
  unfold circ
  have h1 := Int.emod_nonneg a hn.ne'
  have h2 := Int.emod_lt_of_pos a hn
  omega

theorem circ_ring {n : ℕ} {a b : ℤ} (ha : 0 ≤ a ∧ a < n) (hb : 0 ≤ b ∧ b < n) (hab : a ≠ b) :
    circ n (a - b) ≤ 1 ↔ b.toNat = (a.toNat + 1) % n ∨ a.toNat = (b.toNat + 1) % n := by
  have hmod : ∀ x : ℕ, x < n → (x + 1) % n = if x + 1 = n then 0 else x + 1 := by
    intro x hx
    split
    · rename_i e; rw [e, Nat.mod_self]
    · exact Nat.mod_eq_of_lt (by omega)
  rw [hmod _ (by omega), hmod _ (by omega)]
  unfold circ
  have he : (a - b) % (n : ℤ) = if b ≤ a then a - b else a - b + n := by
    split
    · exact Int.emod_eq_of_lt (by omega) (by omega)
    · rw [← Int.add_emod_right]
      exact Int.emod_eq_of_lt (by omega) (by omega)
  rw [he]
  split <;> split <;> split <;> omega

/-- C171 on square grids with the default (Moore) neighbourhood, as `GrowthController.__init__` makes it, whatever order the graph lists neighbours in: grids with no side
longer than 3, and rings (all sides but one are 1). -/
theorem C171_grid {S : Structure K d} {N : Fin d → ℤ} (hS : SquareGrid d N S) (bg : Val) (order : ℕ → List ℕ → List ℕ) (hord : ∀ t l, (order t l).Perm l)
    (s0 : SimState) (hs : s0.WF) (hg : s0.getGeneralState ≠ none) (hsites : SameSites S s0) (hocc : AllOccupied s0) (m : ℕ) (hm : m = S.siteIds.length) :
    ∃ c, Growth.init order S bg = .ok c ∧
      ((∀ j, N j ≤ 3) → (grownIn m bg s0).Nonempty →
        ∑' k, chance m k (fun f => ¬ FilledAfter c s0 m k (outcome f)) = m * harmonicSum (m - (grownIn m bg s0).card)) ∧
      ∀ e, (∀ j, j ≠ e → N j = 1) → 2 ≤ N e → (grownIn m bg s0).card = 1 →
        (m : ℤ) = N e ∧ ∑' k, chance m k (fun f => ¬ FilledAfter c s0 m k (outcome f)) = m * m / 2 := by
  classical
  subst hm
  have ht := hS.isTorus
  have hids : Numbered S.siteIds.length s0 := idsTo_of_sameSites ht.reachable hs hsites
  obtain ⟨g, hget, hgn⟩ := C53_moore hS 1
  have hpos : 0 < S.siteIds.length := List.length_pos_of_ne_nil ht.ids_ne
  have hSmem : ∀ i, i ∈ S.siteIds ↔ i < S.siteIds.length := fun i => by rw [siteIds_eq ht.reachable]; simp
  obtain ⟨c, hc⟩ : ∃ c, Growth.init order S bg = .ok c := by
    unfold Growth.init
    rw [Option.getD_none, hget]
    exact ⟨_, rfl⟩
  obtain ⟨h1, h2⟩ := init_nbs (order := order) (bg := bg) hget hc
  have hnb : ∀ t, ∀ i, i < S.siteIds.length → ∃ l, c.nbs t (.int i) = .ok l ∧ ∀ j, j ∈ l ↔ j ∈ g.neighborsOf i :=
    fun t i _ => ⟨_, h2 t i, fun j => (hord t _).mem_iff⟩
  have hin : ∀ i, i < S.siteIds.length → ∀ j ∈ g.neighborsOf i, j < S.siteIds.length :=
    fun i _ j hj => (hSmem j).1 ((C55_known_and_other ht.reachable _ none g hget i).1 j hj).1
  choose! x hxb hx using fun i (hi : i < S.siteIds.length) => ht.site i ((hSmem i).2 hi)
  refine ⟨c, hc, fun h3 hne => ?_, fun e he h2' hone => ?_⟩
  · rw [← h1] at hne ⊢
    exact C171_complete c s0 hs hg _ hpos hids hocc _ hnb hin
      (fun i j hi hj hij => (hgn i j _ _ (hx i hi) (hx j hj)).2 ⟨hij.symm, fun k => circ_small (ht.pos k) (h3 k) _⟩) hne
  · have hlen : (S.siteIds.length : ℤ) = N e := by
      rw [ht.count, Finset.prod_eq_single e (fun j _ hj => by rw [he j hj]; rfl) (fun h => absurd (Finset.mem_univ e) h)]
      omega
    refine ⟨hlen, ?_⟩
    rw [← h1] at hone
    have hsame : ∀ i j, i < S.siteIds.length → j < S.siteIds.length → x i e = x j e → i = j := by
      intro i j hi hj h
      have : x i = x j := by
        funext k
        by_cases hk : k = e
        · rw [hk]; exact h
        · have a1 := hxb i hi k
          have a2 := hxb j hj k
          rw [he k hk] at a1 a2
          omega
      exact ht.site_unique (hx i hi) (this ▸ hx j hj)
    refine C171_ring c s0 hs hg _ hpos hids hocc _ hnb hin (by omega) (fun i => (x i e).toNat) (fun i hi => ?_) (fun i j hi hj h => hsame i j hi hj ?_) (fun i j hi hj => ?_) hone
    · have := hxb i hi e
      show (x i e).toNat < _
      omega
    · have a1 := hxb i hi e
      have a2 := hxb j hj e
      have h : (x i e).toNat = (x j e).toNat := h
      omega
    · have a1 := hxb i hi e
      have a2 := hxb j hj e
      rw [hgn i j _ _ (hx i hi) (hx j hj)]
      rw [← hlen] at a1 a2
      by_cases hij : x i e = x j e
      · obtain rfl := hsame i j hi hj hij
        refine ⟨fun h => absurd rfl h.1, fun h => ?_⟩
        have hmod : ∀ y : ℕ, y < S.siteIds.length → (y + 1) % S.siteIds.length = if y + 1 = S.siteIds.length then 0 else y + 1 := by
          intro y hy
          split
          · rename_i e; rw [e, Nat.mod_self]
          · exact Nat.mod_eq_of_lt (by omega)
        have h : (x i e).toNat = ((x i e).toNat + 1) % S.siteIds.length := by simpa using h
        rw [hmod _ (by omega)] at h
        split at h <;> omega
      · show _ ↔ (x j e).toNat = ((x i e).toNat + 1) % _ ∨ (x i e).toNat = ((x j e).toNat + 1) % _
        rw [← circ_ring a1 a2 hij, hlen]
        refine ⟨fun h => h.2 e, fun h => ⟨fun h' => hij (by rw [h']), fun k => ?_⟩⟩
        by_cases hk : k = e
        · rw [hk]; exact h
        · exact circ_small (ht.pos k) (by rw [he k hk]; norm_num) _

/-- C171 on rings (all sides but one are 1) with the motif neighbourhood of the one offset -1 along the ring: from one cell it takes `m * (m - 1)` steps, the upper bound of
C169. -/
theorem C171_motif {S : Structure K d} {N : Fin d → ℤ} (hS : SquareGrid d N S) (bg : Val) (order : ℕ → List ℕ → List ℕ) (hord : ∀ t l, (order t l).Perm l)
    (s0 : SimState) (hs : s0.WF) (hg : s0.getGeneralState ≠ none) (hsites : SameSites S s0) (hocc : AllOccupied s0) (m : ℕ) (hm : m = S.siteIds.length)
    (e : Fin d) (he : ∀ j, j ≠ e → N j = 1) (hNe : 2 ≤ N e) (v : Fin d → ℤ) (hv : v e = -1) (hone : (grownIn m bg s0).card = 1) :
    ∃ c, Growth.init order S bg (some (.motif [intPoint v])) = .ok c ∧
      ∑' k, chance m k (fun f => ¬ FilledAfter c s0 m k (outcome f)) = m * (m - 1) := by
  classical
  subst hm
  have ht := hS.isTorus
  have hids : Numbered S.siteIds.length s0 := idsTo_of_sameSites ht.reachable hs hsites
  obtain ⟨g, hget, hgn⟩ := torus_motif ht [v]
  have hget : (Builder.motif [intPoint v]).get S none = .ok g := hget
  have hpos : 0 < S.siteIds.length := List.length_pos_of_ne_nil ht.ids_ne
  have hSmem : ∀ i, i ∈ S.siteIds ↔ i < S.siteIds.length := fun i => by rw [siteIds_eq ht.reachable]; simp
  obtain ⟨c, hc⟩ : ∃ c, Growth.init order S bg (some (.motif [intPoint v])) = .ok c := by
    unfold Growth.init
    rw [Option.getD_some, hget]
    exact ⟨_, rfl⟩
  obtain ⟨h1, h2⟩ := init_nbs (order := order) (bg := bg) hget hc
  have hnb : ∀ t, ∀ i, i < S.siteIds.length → ∃ l, c.nbs t (.int i) = .ok l ∧ ∀ j, j ∈ l ↔ j ∈ g.neighborsOf i :=
    fun t i _ => ⟨_, h2 t i, fun j => (hord t _).mem_iff⟩
  have hin : ∀ i, i < S.siteIds.length → ∀ j ∈ g.neighborsOf i, j < S.siteIds.length :=
    fun i _ j hj => (hSmem j).1 ((C55_known_and_other ht.reachable _ none g hget i).1 j hj).1
  choose! x hxb hx using fun i (hi : i < S.siteIds.length) => ht.site i ((hSmem i).2 hi)
  refine ⟨c, hc, ?_⟩
  have hlen : (S.siteIds.length : ℤ) = N e := by
    rw [ht.count, Finset.prod_eq_single e (fun j _ hj => by rw [he j hj]; rfl) (fun h => absurd (Finset.mem_univ e) h)]
    omega
  rw [← h1] at hone
  have hsame : ∀ i j, i < S.siteIds.length → j < S.siteIds.length → x i e = x j e → i = j := by
    intro i j hi hj h
    have : x i = x j := by
      funext k
      by_cases hk : k = e
      · rw [hk]; exact h
      · have a1 := hxb i hi k
        have a2 := hxb j hj k
        rw [he k hk] at a1 a2
        omega
    exact ht.site_unique (hx i hi) (this ▸ hx j hj)
  obtain ⟨z, hz⟩ := Finset.card_eq_one.1 hone
  have hzm : z < S.siteIds.length := grownIn_lt c s0 hs hg _ hpos hids hocc _ hnb hin c.background s0 z (by rw [hz]; exact Finset.mem_singleton_self _)
  have hb : ∀ i, i < S.siteIds.length → 0 ≤ x i e ∧ x i e < N e := fun i hi => hxb i hi e
  -- the place of a site: how far it is from the occupied one, going up
  have hmod : ∀ i, i < S.siteIds.length → (x i e - x z e) % N e = if x z e ≤ x i e then x i e - x z e else x i e - x z e + N e := by
    intro i hi
    have a1 := hb i hi
    have a2 := hb z hzm
    split
    · exact Int.emod_eq_of_lt (by omega) (by omega)
    · rw [← Int.add_emod_right]
      exact Int.emod_eq_of_lt (by omega) (by omega)
  have key := C171_oneWay c s0 hs hg _ hpos hids hocc _ hnb hin (fun i => ((x i e - x z e) % N e).toNat) (fun i hi => ?_) (fun i j hi hj h => hsame i j hi hj ?_)
    (fun i j hi hj hp => ?_) 1 (by omega) (by omega) (fun i hi => ?_)
  · rw [key]; norm_num
  · have a1 := hb i hi
    have a2 := hb z hzm
    show ((x i e - x z e) % N e).toNat < _
    rw [hmod i hi]
    split <;> omega
  · have a1 := hb i hi
    have a2 := hb z hzm
    have a3 := hb j hj
    have h : ((x i e - x z e) % N e).toNat = ((x j e - x z e) % N e).toNat := h
    rw [hmod i hi, hmod j hj] at h
    split at h <;> split at h <;> omega
  · have a1 := hb i hi
    have a2 := hb z hzm
    have a3 := hb j hj
    have hp : 0 < ((x i e - x z e) % N e).toNat := hp
    show _ ↔ ((x j e - x z e) % N e).toNat + 1 = ((x i e - x z e) % N e).toNat
    rw [hmod i hi] at hp
    rw [hmod i hi, hmod j hj, hgn i j _ _ (hx i hi) (hx j hj)]
    constructor
    · rintro ⟨-, w, hw, hd⟩
      obtain rfl := List.mem_singleton.1 hw
      have := hd e
      rw [hv] at this
      obtain ⟨t, ht'⟩ := this
      have t1 : -2 < t := by
        by_contra hcon
        have : N e * t ≤ N e * (-2) := mul_le_mul_of_nonneg_left (by omega) (by omega)
        omega
      have t2 : t < 2 := by
        by_contra hcon
        have : N e * 2 ≤ N e * t := mul_le_mul_of_nonneg_left (by omega) (by omega)
        omega
      obtain rfl | rfl | rfl : t = -1 ∨ t = 0 ∨ t = 1 := by omega
      all_goals split at hp <;> split <;> (try split) <;> omega
    · intro h
      refine ⟨fun hji => ?_, v, List.mem_singleton_self v, fun k => ?_⟩
      · rw [hji] at h
        omega
      · by_cases hk : k = e
        · rw [hk, hv]
          split at h <;> split at h
          · exact ⟨0, by omega⟩
          · exact ⟨1, by omega⟩
          · exact ⟨-1, by omega⟩
          · exact ⟨0, by omega⟩
        · rw [he k hk]; exact one_dvd _
  · rw [hz, Finset.mem_singleton]
    have a1 := hb i hi
    have a2 := hb z hzm
    show _ ↔ ((x i e - x z e) % N e).toNat < 1
    rw [hmod i hi]
    constructor
    · rintro rfl; simp
    · intro h
      refine hsame i z hi hzm ?_
      split at h <;> omega

/-- On a ring of 7 cells, from one cell, it takes 49/2 steps on average until every cell is occupied. -/
example (order : ℕ → List ℕ → List ℕ) (hord : ∀ t l, (order t l).Perm l) : ∃ (S : Structure ℚ 2) (s0 : SimState) (c : Ctl), SquareGrid 2 ![7, 1] S ∧
    ShowsLife S s0 {![2, 0]} ∧ Growth.init order S (.str "dead") = .ok c ∧
    ∑' k, chance S.siteIds.length k (fun f => ¬ FilledAfter c s0 S.siteIds.length k (outcome f)) = 49 / 2 := by
  obtain ⟨-, S, hS, -⟩ := C52_square2 (K := ℚ) 1 (by norm_num) 1 7 (by norm_num) (by norm_num)
  have hg : SquareGrid 2 ![7, 1] S := .two _ S 7 1 (by norm_num) (by norm_num) (.inl rfl) hS
  obtain ⟨s0, h1, h2, h3, h4⟩ := life_state_exists hg.isTorus {![2, 0]}
  have hocc : ∀ i c, SiteHas S i c → (c = ![2, 0] → occ? s0 (.int i) = some (.str "alive")) ∧ (c ≠ ![2, 0] → occ? s0 (.int i) = some (.str "dead")) := by
    intro i c hi
    obtain ⟨p, e1, e2, e3⟩ := h4 i c hi
    unfold occ?
    rw [e1]
    exact ⟨fun h => e2 (by simpa using h), fun h => e3 (by simpa using h)⟩
  have hall : AllOccupied s0 := by
    intro k hk
    obtain ⟨i, hi, rfl⟩ := (h3 k).1 hk
    obtain ⟨x, -, hx⟩ := hg.isTorus.site i hi
    by_cases h : x = ![2, 0]
    · exact ⟨_, (hocc i _ hx).1 h⟩
    · exact ⟨_, (hocc i _ hx).2 h⟩
  have hSmem : ∀ i, i ∈ S.siteIds ↔ i < S.siteIds.length := fun i => by rw [siteIds_eq hg.isTorus.reachable]; simp
  obtain ⟨c, e1, -, e2⟩ := C171_grid hg (.str "dead") order hord s0 h1 h2 h3 hall _ rfl
  obtain ⟨z, hz, hzc⟩ := hg.isTorus.ex ![2, 0] (by intro j; fin_cases j <;> simp)
  have hone : grownIn S.siteIds.length (.str "dead") s0 = {z} := by
    ext i
    unfold grownIn
    rw [Finset.mem_filter, Finset.mem_singleton, Finset.mem_range]
    constructor
    · rintro ⟨hi, h⟩
      obtain ⟨x, -, hx⟩ := hg.isTorus.site i ((hSmem i).2 hi)
      by_cases hx2 : x = ![2, 0]
      · exact hg.isTorus.site_unique (hx2 ▸ hx) hzc
      · exact absurd ((hocc i _ hx).2 hx2) h
    · rintro rfl
      exact ⟨(hSmem i).1 hz, by rw [(hocc i _ hzc).1 rfl]; decide⟩
  obtain ⟨e3, e4⟩ := e2 0 (by intro j hj; fin_cases j <;> simp_all) (by simp) (by rw [hone]; simp)
  refine ⟨S, s0, c, hg, h4, e1, e4.trans ?_⟩
  have : S.siteIds.length = 7 := by
    have e3 : (S.siteIds.length : ℤ) = 7 := e3
    exact_mod_cast e3
  rw [this]
  norm_num

end Pyl
