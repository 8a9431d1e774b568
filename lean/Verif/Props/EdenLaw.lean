import Verif.Spec.EdenLaw
import Verif.Props.AsyncGrains
import Verif.Lemmas.Chance
/-
C158: the law of clusters grown one site at a time.
-/
set_option autoImplicit false
set_option linter.unusedSectionVars false

namespace Pyl
open SimState Spec Growth
open Pyl.Lattice Pyl.Structure
variable {K : Type} [Field K] [LinearOrder K] [FloorRing K] [IsStrictOrderedRing K] {d : ℕ}

/-! ### Chances -/

/-- The last draw and those before it. -/
theorem chance_snoc {m k : ℕ} (P : (Fin (k + 1) → Fin m) → Prop) :
    chance m (k + 1) P = (∑ i : Fin m, chance m k fun f => P (Fin.snoc f i)) / m := by
  classical
  unfold chance
  rw [← Finset.sum_div, div_div, ← pow_succ, ← Nat.cast_sum]
  congr 2
  rw [← Finset.card_sigma]
  refine Finset.card_bij' (fun f _ => (⟨f (Fin.last k), Fin.init f⟩ : (_ : Fin m) × (Fin k → Fin m))) (fun p _ => Fin.snoc p.2 p.1) ?_ ?_ ?_ ?_
  · intro f hf
    simp only [Finset.mem_filter, Finset.mem_univ, true_and, Finset.mem_sigma] at hf ⊢
    rwa [Fin.snoc_init_self]
  · intro p hp
    simp only [Finset.mem_filter, Finset.mem_univ, true_and, Finset.mem_sigma] at hp ⊢
    exact hp
  · intro f _; exact Fin.snoc_init_self f
  · intro p _; simp

theorem chance_or {m k : ℕ} {P Q : (Fin k → Fin m) → Prop} (h : ∀ f, P f → ¬ Q f) : chance m k (fun f => P f ∨ Q f) = chance m k P + chance m k Q := by
  classical
  unfold chance
  rw [← add_div, ← Nat.cast_add, ← Finset.card_union_of_disjoint]
  · congr 2
    congr 1
    ext f
    simp
  · rw [Finset.disjoint_left]
    intro f hf hg
    simp only [Finset.mem_filter, Finset.mem_univ, true_and] at hf hg
    exact h f hf hg

theorem outcome_snoc_last {m k : ℕ} (f : Fin k → Fin m) (i : Fin m) : outcome (Fin.snoc f i : Fin (k + 1) → Fin m) k = i := by
  unfold outcome
  rw [dif_pos (by omega)]
  have : (⟨k, by omega⟩ : Fin (k + 1)) = Fin.last k := rfl
  rw [this, Fin.snoc_last]

theorem outcome_snoc_lt {m k : ℕ} (f : Fin k → Fin m) (i : Fin m) {t : ℕ} (h : t < k) : outcome (Fin.snoc f i : Fin (k + 1) → Fin m) t = outcome f t := by
  rw [← outcome_init _ h, Fin.init_snoc]

/-! ### Walks on sets -/

section
variable {m : ℕ} {nb : ℕ → List ℕ}

theorem visitSet_eq_iff {x : ℕ} (hx : x < m) {O T : Finset ℕ} :
    visitSet nb x O = T ↔ (O = T ∧ x ∉ rim m nb T) ∨ (O = T.erase x ∧ x ∈ lastJoined nb T) := by
  simp only [rim, lastJoined, Finset.mem_filter, Finset.mem_range, not_and, not_exists]
  constructor
  · rintro rfl
    unfold visitSet
    by_cases h : ∃ y ∈ nb x, y ∈ O
    · rw [if_pos h]
      by_cases hxO : x ∈ O
      · rw [Finset.insert_eq_of_mem hxO]
        exact .inl ⟨rfl, fun _ h' => absurd hxO h'⟩
      · refine .inr ⟨(Finset.erase_insert hxO).symm, Finset.mem_insert_self _ _, ?_⟩
        rw [Finset.erase_insert hxO]; exact h
    · rw [if_neg h]
      exact .inl ⟨rfl, fun _ _ y hy hyO => h ⟨y, hy, hyO⟩⟩
  · rintro (⟨rfl, h⟩ | ⟨rfl, h1, h2⟩)
    · unfold visitSet
      by_cases hn : ∃ y ∈ nb x, y ∈ O
      · rw [if_pos hn]
        refine Finset.insert_eq_of_mem ?_
        by_contra hxO
        obtain ⟨y, hy, hyO⟩ := hn
        exact h hx hxO y hy hyO
      · rw [if_neg hn]
    · unfold visitSet
      rw [if_pos h2, Finset.insert_erase h1]

theorem walk_lt {f : ℕ → ℕ} (hf : ∀ t, f t < m) {seeds : Finset ℕ} (hseeds : ∀ i ∈ seeds, i < m) (k : ℕ) : ∀ i ∈ walk (visitSet nb) f seeds k, i < m := by
  induction k with
  | zero => exact hseeds
  | succ k ih =>
    intro i hi
    have hi : i ∈ visitSet nb (f k) (walk (visitSet nb) f seeds k) := hi
    unfold visitSet at hi
    split at hi
    · rcases Finset.mem_insert.1 hi with rfl | h
      · exact hf k
      · exact ih i h
    · exact ih i hi

theorem walk_grows (f : ℕ → ℕ) (O : Finset ℕ) (k : ℕ) : O ⊆ walk (visitSet nb) f O k := by
  induction k with
  | zero => exact subset_rfl
  | succ k ih => exact ih.trans visitSet_sub

theorem sum_if_notin (c : ℝ) {R : Finset ℕ} (hR : R ⊆ Finset.range m) : ∑ x : Fin m, (if (x : ℕ) ∉ R then c else 0) = (m - R.card) * c := by
  rw [Fin.sum_univ_eq_sum_range fun x => if x ∉ R then c else 0, ← Finset.sum_filter, Finset.sum_const, nsmul_eq_mul]
  congr 1
  have : (Finset.range m).filter (fun x => x ∉ R) = Finset.range m \ R := by ext x; simp
  rw [this, Finset.card_sdiff_of_subset hR, Finset.card_range, Nat.cast_sub]
  simpa using Finset.card_le_card hR

theorem sum_if_in (c : ℕ → ℝ) {R : Finset ℕ} (hR : R ⊆ Finset.range m) : ∑ x : Fin m, (if (x : ℕ) ∈ R then c x else 0) = ∑ x ∈ R, c x := by
  rw [Fin.sum_univ_eq_sum_range fun x => if x ∈ R then c x else 0, ← Finset.sum_filter]
  congr 1
  ext x
  simp only [Finset.mem_filter]
  exact ⟨fun h => h.2, fun h => ⟨hR h, h⟩⟩

theorem rim_sub {T : Finset ℕ} : rim m nb T ⊆ Finset.range m := Finset.filter_subset _ _

theorem walk_master (hm : 0 < m) (seeds T : Finset ℕ) (hT : ∀ i ∈ T, i < m) (n : ℕ) :
    chance m (n + 1) (fun f => walk (visitSet nb) (outcome f) seeds (n + 1) = T) =
      (1 - (rim m nb T).card / m) * chance m n (fun f => walk (visitSet nb) (outcome f) seeds n = T) +
        (∑ i ∈ lastJoined nb T, chance m n fun f => walk (visitSet nb) (outcome f) seeds n = T.erase i) / m := by
  have hmR : (m : ℝ) ≠ 0 := by positivity
  rw [chance_snoc]
  have h1 : ∀ x : Fin m, chance m n (fun f => walk (visitSet nb) (outcome (Fin.snoc f x : Fin (n + 1) → Fin m)) seeds (n + 1) = T) =
      (if (x : ℕ) ∉ rim m nb T then chance m n (fun f => walk (visitSet nb) (outcome f) seeds n = T) else 0) +
      (if (x : ℕ) ∈ lastJoined nb T then chance m n (fun f => walk (visitSet nb) (outcome f) seeds n = T.erase x) else 0) := by
    intro x
    have h2 : ∀ f : Fin n → Fin m, walk (visitSet nb) (outcome (Fin.snoc f x : Fin (n + 1) → Fin m)) seeds (n + 1) = T ↔
        (walk (visitSet nb) (outcome f) seeds n = T ∧ (x : ℕ) ∉ rim m nb T) ∨
        (walk (visitSet nb) (outcome f) seeds n = T.erase x ∧ (x : ℕ) ∈ lastJoined nb T) := by
      intro f
      rw [show walk (visitSet nb) (outcome (Fin.snoc f x : Fin (n + 1) → Fin m)) seeds (n + 1) =
        visitSet nb (outcome (Fin.snoc f x : Fin (n + 1) → Fin m) n) (walk (visitSet nb) (outcome (Fin.snoc f x : Fin (n + 1) → Fin m)) seeds n) from rfl,
        outcome_snoc_last, walk_congr (visitSet nb) (g := outcome f) seeds (fun t ht => outcome_snoc_lt f x ht), visitSet_eq_iff (m := m) x.2]
    rw [chance_congr h2, chance_or]
    · congr 1
      · by_cases h : (x : ℕ) ∉ rim m nb T
        · rw [if_pos h]; exact chance_congr fun f => by simp [h]
        · rw [if_neg h, ← chance_false (m := m) (k := n)]; exact chance_congr fun f => by simp [h]
      · by_cases h : (x : ℕ) ∈ lastJoined nb T
        · rw [if_pos h]; exact chance_congr fun f => by simp [h]
        · rw [if_neg h, ← chance_false (m := m) (k := n)]; exact chance_congr fun f => by simp [h]
    · rintro f ⟨e, -⟩ ⟨e', h⟩
      have hx : (x : ℕ) ∈ T := (Finset.mem_filter.1 h).1
      rw [← e, e] at e'
      rw [e'] at hx
      simp at hx
  rw [Finset.sum_congr rfl fun x _ => h1 x, Finset.sum_add_distrib, sum_if_notin _ rim_sub,
    sum_if_in (R := lastJoined nb T) (fun x => chance m n fun f => walk (visitSet nb) (outcome f) seeds n = T.erase x)
      (fun i hi => Finset.mem_range.2 (hT i (Finset.mem_filter.1 hi).1))]
  field_simp

theorem walk_wait (hm : 0 < m) (seeds : Finset ℕ) (n : ℕ) :
    chance m n (fun f => walk (visitSet nb) (outcome f) seeds n = seeds) = (1 - ((rim m nb seeds).card : ℝ) / m) ^ n := by
  have hmR : (m : ℝ) ≠ 0 := by positivity
  induction n with
  | zero => rw [pow_zero, ← chance_true (m := m) (k := 0) hm]; exact chance_congr fun f => by simp [walk]
  | succ n ih =>
    rw [chance_succ]
    have h1 : ∀ x : Fin m, chance m n (fun f => walk (visitSet nb) (outcome (Fin.cons x f : Fin (n + 1) → Fin m)) seeds (n + 1) = seeds) =
        if (x : ℕ) ∉ rim m nb seeds then (1 - ((rim m nb seeds).card : ℝ) / m) ^ n else 0 := by
      intro x
      have h2 : ∀ f : Fin n → Fin m, walk (visitSet nb) (outcome (Fin.cons x f : Fin (n + 1) → Fin m)) seeds (n + 1) =
          walk (visitSet nb) (outcome f) (visitSet nb x seeds) n := fun f => by
        rw [walk_succ, outcome_cons_zero]
        exact walk_congr _ _ fun t _ => outcome_cons_succ x f t
      by_cases h : (x : ℕ) ∉ rim m nb seeds
      · rw [if_pos h, ← ih]
        exact chance_congr fun f => by rw [h2, (visitSet_eq_iff (m := m) x.2).2 (.inl ⟨rfl, h⟩)]
      · rw [if_neg h, ← chance_false (m := m) (k := n)]
        refine chance_congr fun f => ?_
        rw [h2, iff_false]
        intro e
        push Not at h
        have h3 := Finset.mem_filter.1 h
        have h4 : (x : ℕ) ∈ visitSet nb x seeds := by
          unfold visitSet
          rw [if_pos h3.2.2]; exact Finset.mem_insert_self _ _
        have h5 := walk_grows (nb := nb) (outcome f) _ n h4
        rw [e] at h5
        exact h3.2.1 h5
    rw [Finset.sum_congr rfl fun x _ => h1 x, sum_if_notin _ rim_sub, pow_succ]
    field_simp

theorem walk_first (hm : 0 < m) (seeds : Finset ℕ) {i : ℕ} (hi : i ∈ rim m nb seeds) (n : ℕ) :
    chance m n (fun f => ∃ k, k ≤ n ∧ walk (visitSet nb) (outcome f) seeds k = insert i seeds) =
      (1 - (1 - ((rim m nb seeds).card : ℝ) / m) ^ n) / (rim m nb seeds).card := by
  have hmR : (m : ℝ) ≠ 0 := by positivity
  have hbR : ((rim m nb seeds).card : ℝ) ≠ 0 := by
    have : 0 < (rim m nb seeds).card := Finset.card_pos.2 ⟨i, hi⟩
    positivity
  have hi' := Finset.mem_filter.1 hi
  have hne : seeds ≠ insert i seeds := fun e => hi'.2.1 (by rw [e]; exact Finset.mem_insert_self _ _)
  induction n with
  | zero =>
    rw [pow_zero, sub_self, zero_div, ← chance_false (m := m) (k := 0)]
    refine chance_congr fun f => ?_
    rw [iff_false]
    rintro ⟨k, hk, e⟩
    obtain rfl : k = 0 := by omega
    exact hne e
  | succ n ih =>
    rw [chance_succ]
    have h1 : ∀ x : Fin m, chance m n (fun f => ∃ k, k ≤ n + 1 ∧ walk (visitSet nb) (outcome (Fin.cons x f : Fin (n + 1) → Fin m)) seeds k = insert i seeds) =
        (if (x : ℕ) ∉ rim m nb seeds then (1 - (1 - ((rim m nb seeds).card : ℝ) / m) ^ n) / (rim m nb seeds).card else 0) +
        (if (x : ℕ) ∈ ({i} : Finset ℕ) then 1 else 0) := by
      intro x
      have h2 : ∀ f : Fin n → Fin m, (∃ k, k ≤ n + 1 ∧ walk (visitSet nb) (outcome (Fin.cons x f : Fin (n + 1) → Fin m)) seeds k = insert i seeds) ↔
          ∃ k, k ≤ n ∧ walk (visitSet nb) (outcome f) (visitSet nb x seeds) k = insert i seeds := by
        intro f
        have h3 : ∀ k, walk (visitSet nb) (outcome (Fin.cons x f : Fin (n + 1) → Fin m)) seeds (k + 1) =
            walk (visitSet nb) (outcome f) (visitSet nb x seeds) k := fun k => by
          rw [walk_succ, outcome_cons_zero]
          exact walk_congr _ _ fun t _ => outcome_cons_succ x f t
        constructor
        · rintro ⟨k, hk, e⟩
          cases k with
          | zero => exact absurd e hne
          | succ k => exact ⟨k, by omega, (h3 k) ▸ e⟩
        · rintro ⟨k, hk, e⟩
          exact ⟨k + 1, by omega, (h3 k).trans e⟩
      rw [chance_congr h2]
      by_cases h : (x : ℕ) ∉ rim m nb seeds
      · have hx : (x : ℕ) ∉ ({i} : Finset ℕ) := by
          rw [Finset.mem_singleton]; rintro rfl; exact h hi
        rw [if_pos h, if_neg hx, add_zero, ← ih]
        exact chance_congr fun f => by rw [(visitSet_eq_iff (m := m) x.2).2 (.inl ⟨rfl, h⟩)]
      · rw [if_neg h, zero_add]
        push Not at h
        have h3 := Finset.mem_filter.1 h
        have h4 : visitSet nb x seeds = insert (x : ℕ) seeds := by
          unfold visitSet
          rw [if_pos h3.2.2]
        by_cases hx : (x : ℕ) = i
        · rw [if_pos (by simpa using hx), ← chance_true (m := m) (k := n) hm]
          refine chance_congr fun f => iff_true_intro ⟨0, by omega, ?_⟩
          show visitSet nb x seeds = _
          rw [h4, hx]
        · rw [if_neg (by simpa using hx), ← chance_false (m := m) (k := n)]
          refine chance_congr fun f => ?_
          rw [iff_false]
          rintro ⟨k, -, e⟩
          have h5 := walk_grows (nb := nb) (outcome f) _ k (show (x : ℕ) ∈ visitSet nb x seeds by rw [h4]; exact Finset.mem_insert_self _ _)
          rw [e, Finset.mem_insert] at h5
          exact h5.elim hx h3.2.1
    rw [Finset.sum_congr rfl fun x _ => h1 x, Finset.sum_add_distrib, sum_if_notin _ rim_sub,
      sum_if_in (fun _ => (1 : ℝ)) (by simpa using hi'.1), Finset.sum_singleton, pow_succ]
    field_simp
    ring

end

/-! ### Runs -/

theorem endsAs_iff (c : Ctl) (s0 : SimState) (hs : s0.WF) (hg : s0.getGeneralState ≠ none) (m : ℕ) (hm : 0 < m) (hids : Numbered m s0)
    (nb : ℕ → List ℕ) (hnb : ∀ t, ∀ i, i < m → ∃ l, c.nbs t (.int i) = .ok l ∧ ∀ j, j ∈ l ↔ j ∈ nb i) (hin : ∀ i, i < m → ∀ j ∈ nb i, j < m)
    (p : Val) (hp : p ≠ c.background) (seeds : Finset ℕ) (hseeds : ∀ i ∈ seeds, i < m) (h0 : ShowsCluster m p c.background seeds s0) (n : ℕ)
    (T : Finset ℕ) (hT : ∀ i ∈ T, i < m) (f : Fin n → Fin m) :
    (EndsAs c s0 m p n T (outcome f) ↔ walk (visitSet nb) (outcome f) seeds n = T) ∧
      (PassesAs c s0 m p n T (outcome f) ↔ ∃ k, k ≤ n ∧ walk (visitSet nb) (outcome f) seeds k = T) := by
  obtain ⟨a, h1, h2⟩ := cluster_run c s0 hs hg m hm hids nb hnb hin p hp seeds h0 n (outcome f)
  have e : (fun t => outcome f t % m) = outcome f := funext fun t => Nat.mod_eq_of_lt (outcome_lt hm f t)
  rw [e] at h2
  have key : ∀ k, k ≤ n → ∀ s, a.res.getStep k = .ok s → (ShowsCluster m p c.background T s ↔ walk (visitSet nb) (outcome f) seeds k = T) := by
    intro k hk s hsk
    obtain ⟨s', h3, h4⟩ := h2 k hk
    rw [hsk] at h3; injection h3 with h3; subst h3
    refine ⟨fun h => ?_, fun h => h ▸ h4⟩
    ext i
    have hw := walk_lt (nb := nb) (fun t => outcome_lt hm f t) hseeds k i
    have hT' := hT i
    by_cases hi : i < m
    · have h5 := (h i hi).symm.trans (h4 i hi)
      injection h5 with h5
      by_cases h6 : i ∈ T <;> by_cases h7 : i ∈ walk (visitSet nb) (outcome f) seeds k <;> simp_all
    · exact ⟨fun h => absurd (hw h) hi, fun h => absurd (hT' h) hi⟩
  constructor
  · constructor
    · rintro ⟨a', s, h3, h4, h5⟩
      rw [h1] at h3; injection h3 with h3; subst h3
      exact (key n le_rfl s h4).1 h5
    · intro h
      obtain ⟨s, h4, -⟩ := h2 n le_rfl
      exact ⟨a, s, h1, h4, (key n le_rfl s h4).2 h⟩
  · constructor
    · rintro ⟨a', h3, k, hk, s, h4, h5⟩
      rw [h1] at h3; injection h3 with h3; subst h3
      exact ⟨k, hk, (key k hk s h4).1 h5⟩
    · rintro ⟨k, hk, h⟩
      obtain ⟨s, h4, -⟩ := h2 k hk
      exact ⟨a, h1, k, hk, s, h4, (key k hk s h4).2 h⟩

/-- C158: an asynchronous growth run from a set of seeds is the following random process.  The set of occupied sites is a Markov chain: to have the cluster
`T` after `n + 1` steps, either it was there after `n` steps and the site drawn was not one of the vacant sites that touch it, or one site was missing, touched
the rest and was drawn. -/
theorem C158_master (c : Ctl) (s0 : SimState) (hs : s0.WF) (hg : s0.getGeneralState ≠ none) (m : ℕ) (hm : 0 < m) (hids : Numbered m s0)
    (nb : ℕ → List ℕ) (hnb : ∀ t, ∀ i, i < m → ∃ l, c.nbs t (.int i) = .ok l ∧ ∀ j, j ∈ l ↔ j ∈ nb i) (hin : ∀ i, i < m → ∀ j ∈ nb i, j < m)
    (p : Val) (hp : p ≠ c.background) (seeds : Finset ℕ) (hseeds : ∀ i ∈ seeds, i < m) (h0 : ShowsCluster m p c.background seeds s0) (n : ℕ)
    (T : Finset ℕ) (hT : ∀ i ∈ T, i < m) :
    chance m (n + 1) (fun f => EndsAs c s0 m p (n + 1) T (outcome f)) =
      (1 - (rim m nb T).card / m) * chance m n (fun f => EndsAs c s0 m p n T (outcome f)) +
        (∑ i ∈ lastJoined nb T, chance m n fun f => EndsAs c s0 m p n (T.erase i) (outcome f)) / m := by
  have h := fun n T hT f => (endsAs_iff c s0 hs hg m hm hids nb hnb hin p hp seeds hseeds h0 n T hT f).1
  rw [chance_congr (h (n + 1) T hT), chance_congr (h n T hT), walk_master hm seeds T hT n,
    Finset.sum_congr rfl fun i _ => (chance_congr (h n (T.erase i) fun j hj => hT j (Finset.mem_of_mem_erase hj))).symm]

/-- C158: the time until the cluster grows is geometric: after `n` steps it is unchanged with probability `(1 - b / m) ^ n`, where `b` of the `m` sites are
vacant and touch it. -/
theorem C158_wait (c : Ctl) (s0 : SimState) (hs : s0.WF) (hg : s0.getGeneralState ≠ none) (m : ℕ) (hm : 0 < m) (hids : Numbered m s0)
    (nb : ℕ → List ℕ) (hnb : ∀ t, ∀ i, i < m → ∃ l, c.nbs t (.int i) = .ok l ∧ ∀ j, j ∈ l ↔ j ∈ nb i) (hin : ∀ i, i < m → ∀ j ∈ nb i, j < m)
    (p : Val) (hp : p ≠ c.background) (seeds : Finset ℕ) (hseeds : ∀ i ∈ seeds, i < m) (h0 : ShowsCluster m p c.background seeds s0) (n : ℕ) :
    chance m n (fun f => EndsAs c s0 m p n seeds (outcome f)) = (1 - ((rim m nb seeds).card : ℝ) / m) ^ n := by
  rw [chance_congr fun f => (endsAs_iff c s0 hs hg m hm hids nb hnb hin p hp seeds hseeds h0 n seeds hseeds f).1, walk_wait hm seeds n]

/-- C158: the first site to join is equally likely to be any of the `b` vacant sites that touch the seeds: within `n` steps it is a given one of them with
probability `(1 - (1 - b / m) ^ n) / b`. -/
theorem C158_first (c : Ctl) (s0 : SimState) (hs : s0.WF) (hg : s0.getGeneralState ≠ none) (m : ℕ) (hm : 0 < m) (hids : Numbered m s0)
    (nb : ℕ → List ℕ) (hnb : ∀ t, ∀ i, i < m → ∃ l, c.nbs t (.int i) = .ok l ∧ ∀ j, j ∈ l ↔ j ∈ nb i) (hin : ∀ i, i < m → ∀ j ∈ nb i, j < m)
    (p : Val) (hp : p ≠ c.background) (seeds : Finset ℕ) (hseeds : ∀ i ∈ seeds, i < m) (h0 : ShowsCluster m p c.background seeds s0) (n : ℕ)
    (i : ℕ) (hi : i ∈ rim m nb seeds) :
    chance m n (fun f => PassesAs c s0 m p n (insert i seeds) (outcome f)) =
      (1 - (1 - ((rim m nb seeds).card : ℝ) / m) ^ n) / (rim m nb seeds).card := by
  have hT : ∀ j ∈ insert i seeds, j < m := by
    intro j hj
    rcases Finset.mem_insert.1 hj with rfl | h
    · exact Finset.mem_range.1 (rim_sub hi)
    · exact hseeds j h
  rw [chance_congr fun f => (endsAs_iff c s0 hs hg m hm hids nb hnb hin p hp seeds hseeds h0 n _ hT f).2, walk_first hm seeds hi n]

/-- C158 on square grids with the default (Moore) neighbourhood: the hypotheses on the controller hold for what `GrowthController.__init__` makes, whatever
order the graph lists neighbours in. -/
theorem C158_grid {S : Structure K d} {N : Fin d → ℤ} (hS : SquareGrid d N S) (bg p : Val) (hp : p ≠ bg) (order : ℕ → List ℕ → List ℕ)
    (hord : ∀ t l, (order t l).Perm l) (s0 : SimState) (hs : s0.WF) (hg : s0.getGeneralState ≠ none) (hsites : SameSites S s0) (seeds : Finset ℕ)
    (hseeds : ∀ i ∈ seeds, i < S.siteIds.length) (h0 : ShowsCluster S.siteIds.length p bg seeds s0) (m : ℕ) (hm : m = S.siteIds.length) :
    ∃ c nb, Growth.init order S bg = .ok c ∧
      (∀ i j x y, SiteHas S i x → SiteHas S j y → (j ∈ nb i ↔ j ≠ i ∧ ChebyshevLE N x y 1)) ∧
      (∀ n (T : Finset ℕ), (∀ i ∈ T, i < m) →
        chance m (n + 1) (fun f => EndsAs c s0 m p (n + 1) T (outcome f)) =
          (1 - (rim m nb T).card / m) * chance m n (fun f => EndsAs c s0 m p n T (outcome f)) +
            (∑ i ∈ lastJoined nb T, chance m n fun f => EndsAs c s0 m p n (T.erase i) (outcome f)) / m) ∧
      (∀ n, chance m n (fun f => EndsAs c s0 m p n seeds (outcome f)) = (1 - ((rim m nb seeds).card : ℝ) / m) ^ n) ∧
      ∀ n, ∀ i ∈ rim m nb seeds, chance m n (fun f => PassesAs c s0 m p n (insert i seeds) (outcome f)) =
        (1 - (1 - ((rim m nb seeds).card : ℝ) / m) ^ n) / (rim m nb seeds).card := by
  subst hm
  have ht := hS.isTorus
  have hids : Numbered S.siteIds.length s0 := idsTo_of_sameSites ht.reachable hs hsites
  obtain ⟨g, hget, hgn⟩ := C53_moore hS 1
  have hpos : 0 < S.siteIds.length := List.length_pos_of_ne_nil ht.ids_ne
  have hSmem : ∀ i, i ∈ S.siteIds ↔ i < S.siteIds.length := fun i => by rw [siteIds_eq ht.reachable]; simp
  obtain ⟨c, hc⟩ : ∃ c, Growth.init order S bg = .ok c := by
    unfold Growth.init
    rw [Option.getD_none, hget]
    exact ⟨_, rfl⟩
  obtain ⟨h1, h2⟩ := init_nbs (order := order) (bg := bg) hget hc
  have hnb : ∀ t, ∀ i, i < S.siteIds.length → ∃ l, c.nbs t (.int i) = .ok l ∧ ∀ j, j ∈ l ↔ j ∈ g.neighborsOf i :=
    fun t i _ => ⟨_, h2 t i, fun j => (hord t _).mem_iff⟩
  have hin : ∀ i, i < S.siteIds.length → ∀ j ∈ g.neighborsOf i, j < S.siteIds.length :=
    fun i _ j hj => (hSmem j).1 ((C55_known_and_other ht.reachable _ none g hget i).1 j hj).1
  have hp' : p ≠ c.background := by rw [h1]; exact hp
  have h0' : ShowsCluster S.siteIds.length p c.background seeds s0 := by rw [h1]; exact h0
  exact ⟨c, g.neighborsOf, hc, hgn, fun n T hT => C158_master c s0 hs hg _ hpos hids _ hnb hin p hp' seeds hseeds h0' n T hT,
    fun n => C158_wait c s0 hs hg _ hpos hids _ hnb hin p hp' seeds hseeds h0' n,
    fun n i hi => C158_first c s0 hs hg _ hpos hids _ hnb hin p hp' seeds hseeds h0' n i hi⟩

/-- Four sites in a row, the second occupied: the first and the third touch it, the fourth does not. -/
example : rim 4 (fun i => if i = 0 then [1] else if i = 3 then [2] else [i - 1, i + 1]) {1} = {0, 2} := by decide

/-- Of the sites 0, 1 and 3 in a row, 0 and 1 touch another one, 3 does not. -/
example : lastJoined (fun i => if i = 0 then [1] else if i = 3 then [2] else [i - 1, i + 1]) {0, 1, 3} = {0, 1} := by decide

end Pyl
