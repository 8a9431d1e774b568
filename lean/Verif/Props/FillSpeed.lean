import Verif.Props.FillTime
import Verif.Props.GrowthCount
import Mathlib.Analysis.SpecialFunctions.Log.Basic
/-
C172: asynchronous growth reaches a site, and covers a structure, in a time proportional to the distance.
-/
set_option autoImplicit false
set_option linter.unusedSectionVars false

namespace Pyl
open SimState Spec Growth
open Pyl.Lattice Pyl.Structure
variable {K : Type} [Field K] [LinearOrder K] [FloorRing K] [IsStrictOrderedRing K] {d : ℕ}

/-! ### How far a site is from a set -/

section
variable {m : ℕ} {nb : ℕ → List ℕ}

/-- The number of moves from `i` to the set. -/
noncomputable def gap (nb : ℕ → List ℕ) (i : ℕ) (O : Finset ℕ) : ℕ := sInf {k | ∃ j ∈ O, Hops nb k i j}

theorem gap_le {i j k : ℕ} {O : Finset ℕ} (hj : j ∈ O) (h : Hops nb k i j) : gap nb i O ≤ k := Nat.sInf_le ⟨j, hj, h⟩

theorem gap_reach {i : ℕ} {O : Finset ℕ} (h : ∃ k, ∃ j ∈ O, Hops nb k i j) : ∃ j ∈ O, Hops nb (gap nb i O) i j :=
  Nat.sInf_mem (s := {k | ∃ j ∈ O, Hops nb k i j}) h

theorem gap_zero {i : ℕ} {O : Finset ℕ} (h : ∃ k, ∃ j ∈ O, Hops nb k i j) : gap nb i O = 0 ↔ i ∈ O := by
  constructor
  · intro e
    obtain ⟨j, hj, h'⟩ := gap_reach h
    rw [e] at h'
    obtain rfl : i = j := h'
    exact hj
  · intro hi
    exact Nat.le_zero.1 (gap_le (k := 0) hi rfl)

theorem gap_anti {i : ℕ} {O O' : Finset ℕ} (hsub : O ⊆ O') (h : ∃ k, ∃ j ∈ O, Hops nb k i j) : gap nb i O' ≤ gap nb i O := by
  obtain ⟨j, hj, h'⟩ := gap_reach h
  exact gap_le (hsub hj) h'

/-- The last site before the set on the way there can join it. -/
theorem hops_last (hin : ∀ i, i < m → ∀ j ∈ nb i, j < m) {O : Finset ℕ} : ∀ (k i j : ℕ), i < m → i ∉ O → j ∈ O → Hops nb k i j →
    ∃ y ∈ rim m nb O, ∃ k', k' + 1 ≤ k ∧ Hops nb k' i y := by
  intro k
  induction k with
  | zero => rintro i j - h1 h2 rfl; exact absurd h2 h1
  | succ k ih =>
    rintro i j hi h1 h2 (h3 | ⟨x, hx, h3⟩)
    · obtain ⟨y, hy, k', hk', h4⟩ := ih i j hi h1 h2 h3
      exact ⟨y, hy, k', by omega, h4⟩
    · by_cases hxO : x ∈ O
      · exact ⟨i, Finset.mem_filter.2 ⟨Finset.mem_range.2 hi, h1, x, hx, hxO⟩, 0, by omega, rfl⟩
      · obtain ⟨y, hy, k', hk', h4⟩ := ih x j (hin i hi x hx) hxO h2 h3
        exact ⟨y, hy, k' + 1, by omega, .inr ⟨x, hx, h4⟩⟩

/-- One of the `m` visits brings the set one move nearer. -/
theorem gap_visits (hin : ∀ i, i < m → ∀ j ∈ nb i, j < m) {i : ℕ} (hi : i < m) {O : Finset ℕ} (h : ∃ k, ∃ j ∈ O, Hops nb k i j) {ψ : ℕ → ℝ} (hψ : Monotone ψ) :
    ∑ x : Fin m, ψ (gap nb i (visitSet nb x O)) ≤ m * ψ (gap nb i O) - (ψ (gap nb i O) - ψ (gap nb i O - 1)) := by
  have hall : ∀ x : Fin m, ψ (gap nb i (visitSet nb x O)) ≤ ψ (gap nb i O) := fun x => hψ (gap_anti visitSet_sub h)
  by_cases hiO : i ∈ O
  · have h0 := (gap_zero h).2 hiO
    refine (Finset.sum_le_sum fun x _ => hall x).trans (le_of_eq ?_)
    rw [Finset.sum_const, Finset.card_univ, Fintype.card_fin, nsmul_eq_mul, h0]
    simp
  · obtain ⟨j, hj, h'⟩ := gap_reach h
    obtain ⟨y, hy, k', hk', h4⟩ := hops_last hin _ i j hi hiO hj h'
    obtain ⟨hy1, hy2, hy3⟩ := Finset.mem_filter.1 hy
    have hym := Finset.mem_range.1 hy1
    have hvis : visitSet nb y O = insert y O := if_pos hy3
    have hdrop : ψ (gap nb i (visitSet nb y O)) ≤ ψ (gap nb i O - 1) := by
      refine hψ ?_
      rw [hvis]
      have := gap_le (O := insert y O) (Finset.mem_insert_self y O) h4
      omega
    rw [← Finset.add_sum_erase Finset.univ _ (Finset.mem_univ (⟨y, hym⟩ : Fin m))]
    have hrest : ∑ x ∈ Finset.univ.erase (⟨y, hym⟩ : Fin m), ψ (gap nb i (visitSet nb x O)) ≤ (m - 1) * ψ (gap nb i O) := by
      refine (Finset.sum_le_sum fun x _ => hall x).trans (le_of_eq ?_)
      rw [Finset.sum_const, Finset.card_erase_of_mem (Finset.mem_univ _), Finset.card_univ, Fintype.card_fin, nsmul_eq_mul, Nat.cast_sub (by omega)]
      norm_num
    have hdrop' : ψ (gap nb i (visitSet nb ((⟨y, hym⟩ : Fin m) : ℕ) O)) ≤ ψ (gap nb i O - 1) := hdrop
    linarith

theorem mean_sub {k : ℕ} (X Y : (Fin k → Fin m) → ℝ) : mean m k X - mean m k Y = mean m k fun f => X f - Y f := by
  unfold mean
  rw [Finset.sum_sub_distrib, sub_div]

/-- What holds for the sum over one visit holds for the averages. -/
theorem gap_mean (hm : 0 < m) (hin : ∀ i, i < m → ∀ j ∈ nb i, j < m) {i : ℕ} (hi : i < m) {O : Finset ℕ} (h : ∃ k, ∃ j ∈ O, Hops nb k i j) {ψ : ℕ → ℝ} (hψ : Monotone ψ) (n : ℕ) :
    mean m (n + 1) (fun f => ψ (gap nb i (walk (visitSet nb) (outcome f) O (n + 1)))) ≤
      mean m n (fun f => ψ (gap nb i (walk (visitSet nb) (outcome f) O n))) -
        mean m n (fun f => ψ (gap nb i (walk (visitSet nb) (outcome f) O n)) - ψ (gap nb i (walk (visitSet nb) (outcome f) O n) - 1)) / m := by
  have hmR : (0 : ℝ) < m := by exact_mod_cast hm
  rw [mean_snoc, ← mean_sum, div_le_iff₀ hmR, sub_mul, div_mul_cancel₀ _ hmR.ne', mul_comm _ (m : ℝ), ← mean_mul, mean_sub]
  refine mean_mono fun f => ?_
  have h2 : ∀ x : Fin m, walk (visitSet nb) (outcome (Fin.snoc f x : Fin (n + 1) → Fin m)) O (n + 1) = visitSet nb x (walk (visitSet nb) (outcome f) O n) := by
    intro x
    show visitSet nb (outcome (Fin.snoc f x : Fin (n + 1) → Fin m) n) (walk (visitSet nb) (outcome (Fin.snoc f x : Fin (n + 1) → Fin m)) O n) = _
    rw [outcome_snoc_last, walk_congr (visitSet nb) (g := outcome f) O (fun t ht => outcome_snoc_lt f x ht)]
  simp only [h2]
  refine gap_visits hin hi ?_ hψ
  obtain ⟨k, j, hj, hk⟩ := h
  exact ⟨k, j, (walk_inv (nb := nb) (outcome f) O n).1 hj, hk⟩

end

/-! ### Runs -/

section
variable (c : Ctl) (s0 : SimState) (hs : s0.WF) (hg : s0.getGeneralState ≠ none) (m : ℕ) (hm : 0 < m) (hids : Numbered m s0) (hocc : AllOccupied s0)
    (nb : ℕ → List ℕ) (hnb : ∀ t, ∀ i, i < m → ∃ l, c.nbs t (.int i) = .ok l ∧ ∀ j, j ∈ l ↔ j ∈ nb i) (hin : ∀ i, i < m → ∀ j ∈ nb i, j < m)
include hs hg hm hids hocc hnb hin

/-- C172: the average number of steps in which a site `h` moves from an occupied one is still background is at most `m * h`. -/
theorem C172_wait (i j h : ℕ) (hi : i < m) (hj : j < m) (hjo : occ? s0 (.int j) ≠ some c.background) (hops : Hops nb h i j) :
    Summable (fun k => chance m k fun f => i ∉ grownAfter c s0 m k (outcome f)) ∧
      ∑' k, chance m k (fun f => i ∉ grownAfter c s0 m k (outcome f)) ≤ m * h := by
  classical
  have hmR : (0 : ℝ) < m := by exact_mod_cast hm
  simp only [fun k f => (grownAfter_eq c s0 hs hg m hm hids hocc nb hnb hin k f).1]
  set O0 := grownIn m c.background s0 with hO0
  have hjO : j ∈ O0 := by
    rw [hO0]; unfold grownIn
    exact Finset.mem_filter.2 ⟨Finset.mem_range.2 hj, hjo⟩
  have hex : ∃ k, ∃ j ∈ O0, Hops nb k i j := ⟨h, j, hjO, hops⟩
  have hexw : ∀ k (f : Fin k → Fin m), ∃ k', ∃ j ∈ walk (visitSet nb) (outcome f) O0 k, Hops nb k' i j :=
    fun k f => ⟨h, j, (walk_inv (nb := nb) (outcome f) O0 k).1 hjO, hops⟩
  set p := fun k => chance m k (fun f => i ∉ walk (visitSet nb) (outcome f) O0 k) with hp
  set e := fun k => mean m k (fun f => ((gap nb i (walk (visitSet nb) (outcome f) O0 k) : ℕ) : ℝ)) with he
  have hstep : ∀ k, e (k + 1) ≤ e k - p k / m := by
    intro k
    refine (gap_mean hm hin hi hex Nat.mono_cast k).trans (le_of_eq ?_)
    simp only [he, hp]
    rw [← mean_indicator]
    congr 2
    congr 1
    funext f
    by_cases g : i ∈ walk (visitSet nb) (outcome f) O0 k
    · rw [(gap_zero (hexw k f)).2 g]; simp [g]
    · have : gap nb i (walk (visitSet nb) (outcome f) O0 k) ≠ 0 := fun e => g ((gap_zero (hexw k f)).1 e)
      rw [if_pos g, Nat.cast_sub (by omega)]
      norm_num
  have hpos : ∀ k, 0 ≤ e k := fun k => by
    simp only [he]
    unfold mean
    exact div_nonneg (Finset.sum_nonneg fun f _ => by positivity) (by positivity)
  have hstart : e 0 ≤ h := by
    have e0 : e 0 = (gap nb i O0 : ℝ) := mean_const (m := m) (k := 0) hm ((gap nb i O0 : ℕ) : ℝ)
    rw [e0]
    exact_mod_cast gap_le hjO hops
  have hsum : ∀ n, ∑ k ∈ Finset.range n, p k ≤ m * h - m * e n := by
    intro n
    induction n with
    | zero =>
      have := mul_le_mul_of_nonneg_left hstart hmR.le
      rw [Finset.sum_range_zero]
      linarith
    | succ n ih =>
      rw [Finset.sum_range_succ]
      have := mul_le_mul_of_nonneg_left (hstep n) hmR.le
      rw [mul_sub, mul_div_cancel₀ _ hmR.ne'] at this
      linarith
  have hb : ∀ n, ∑ k ∈ Finset.range n, p k ≤ m * h := fun n => by
    have h1 := hsum n
    have h2 := mul_nonneg hmR.le (hpos n)
    linarith
  exact ⟨summable_of_sum_range_le (fun _ => chance_nonneg _) hb, Real.tsum_le_of_sum_range_le (fun _ => chance_nonneg _) hb⟩

/-- C172: the chance that a site `h` moves from an occupied one is still background after `n` steps; for every `x > 1`. -/
theorem C172_chance (i j h : ℕ) (hi : i < m) (hj : j < m) (hjo : occ? s0 (.int j) ≠ some c.background) (hops : Hops nb h i j) (x : ℝ) (hx : 1 < x) (n : ℕ) :
    chance m n (fun f => i ∉ grownAfter c s0 m n (outcome f)) ≤ (x ^ h - 1) / (x - 1) * (1 - (1 - 1 / x) / m) ^ n := by
  classical
  have hmR : (0 : ℝ) < m := by exact_mod_cast hm
  have hm1 : (1 : ℝ) ≤ m := by exact_mod_cast hm
  have hx0 : (0 : ℝ) < x := by linarith
  have hx1 : 0 < x - 1 := by linarith
  have hinv : 0 ≤ 1 - 1 / x ∧ 1 - 1 / x ≤ 1 := by
    have h1 : 1 / x ≤ 1 := by rw [div_le_one hx0]; exact hx.le
    have h2 : 0 ≤ 1 / x := by positivity
    constructor <;> linarith
  have hρ : 0 ≤ 1 - (1 - 1 / x) / m := by
    have : (1 - 1 / x) / m ≤ 1 := by
      rw [div_le_one hmR]; linarith [hinv.2]
    linarith
  simp only [fun k f => (grownAfter_eq c s0 hs hg m hm hids hocc nb hnb hin k f).1]
  set O0 := grownIn m c.background s0 with hO0
  have hjO : j ∈ O0 := by
    rw [hO0]; unfold grownIn
    exact Finset.mem_filter.2 ⟨Finset.mem_range.2 hj, hjo⟩
  have hex : ∃ k, ∃ j ∈ O0, Hops nb k i j := ⟨h, j, hjO, hops⟩
  have hexw : ∀ k (f : Fin k → Fin m), ∃ k', ∃ j ∈ walk (visitSet nb) (outcome f) O0 k, Hops nb k' i j :=
    fun k f => ⟨h, j, (walk_inv (nb := nb) (outcome f) O0 k).1 hjO, hops⟩
  let ψ : ℕ → ℝ := fun g => x ^ g - 1
  have hψ : Monotone ψ := fun a b hab => sub_le_sub_right (pow_le_pow_right₀ hx.le hab) 1
  have hdrop : ∀ g, (1 - 1 / x) * ψ g ≤ ψ g - ψ (g - 1) := by
    intro g
    rcases g with _ | g
    · simp [ψ]
    · simp only [ψ, Nat.add_sub_cancel]
      have : (1 - 1 / x) * (x ^ (g + 1) - 1) = x ^ (g + 1) - x ^ g - (1 - 1 / x) := by
        rw [pow_succ]; field_simp
      rw [this]
      linarith [hinv.1]
  set e := fun k => mean m k (fun f => ψ (gap nb i (walk (visitSet nb) (outcome f) O0 k))) with he
  have hstep : ∀ k, e (k + 1) ≤ (1 - (1 - 1 / x) / m) * e k := by
    intro k
    refine (gap_mean hm hin hi hex hψ k).trans ?_
    have h1 : (1 - 1 / x) * e k ≤
        mean m k (fun f => ψ (gap nb i (walk (visitSet nb) (outcome f) O0 k)) - ψ (gap nb i (walk (visitSet nb) (outcome f) O0 k) - 1)) := by
      simp only [he]
      rw [← mean_mul]
      exact mean_mono fun f => hdrop _
    have h2 := div_le_div_of_nonneg_right h1 hmR.le
    have h3 : (1 - (1 - 1 / x) / m) * e k = e k - (1 - 1 / x) * e k / m := by ring
    rw [h3]
    linarith
  have hbound : ∀ k, e k ≤ (x ^ h - 1) * (1 - (1 - 1 / x) / m) ^ k := by
    intro k
    induction k with
    | zero =>
      have e0 : e 0 = ψ (gap nb i O0) := mean_const (m := m) (k := 0) hm (ψ (gap nb i O0))
      rw [e0, pow_zero, mul_one]
      exact hψ (gap_le hjO hops)
    | succ k ih =>
      refine (hstep k).trans ((mul_le_mul_of_nonneg_left ih hρ).trans (le_of_eq ?_))
      rw [pow_succ]; ring
  have hP : (x - 1) * chance m n (fun f => i ∉ walk (visitSet nb) (outcome f) O0 n) ≤ e n := by
    rw [← mean_indicator, ← mean_mul]
    refine mean_mono fun f => ?_
    by_cases g : i ∈ walk (visitSet nb) (outcome f) O0 n
    · rw [if_neg (not_not.2 g), mul_zero, (gap_zero (hexw n f)).2 g]; simp [ψ]
    · rw [if_pos g, mul_one]
      have h1 : 1 ≤ gap nb i (walk (visitSet nb) (outcome f) O0 n) := Nat.one_le_iff_ne_zero.2 fun e => g ((gap_zero (hexw n f)).1 e)
      have h2 := hψ h1
      simp only [ψ, pow_one] at h2 ⊢
      exact h2
  rw [div_mul_eq_mul_div, le_div_iff₀ hx1, mul_comm]
  exact hP.trans (hbound n)

/-- C172: if every site is at most `h` moves from an occupied one and `b` sites are background at the start, the chance that some site is background after `n` steps. -/
theorem C172_covered (h : ℕ) (hreach : ∀ i, i < m → ∃ j, j < m ∧ occ? s0 (.int j) ≠ some c.background ∧ Hops nb h i j) (x : ℝ) (hx : 1 < x) (n : ℕ) :
    chance m n (fun f => ¬ FilledAfter c s0 m n (outcome f)) ≤
      ((m : ℝ) - (grownIn m c.background s0).card) * ((x ^ h - 1) / (x - 1) * (1 - (1 - 1 / x) / m) ^ n) := by
  classical
  have hlt0 := grownIn_lt c s0 hs hg m hm hids hocc nb hnb hin c.background s0
  have hsub : grownIn m c.background s0 ⊆ Finset.range m := fun i hi => Finset.mem_range.2 (hlt0 i hi)
  have hcard : ((Finset.range m \ grownIn m c.background s0).card : ℝ) = (m : ℝ) - (grownIn m c.background s0).card := by
    rw [Finset.card_sdiff_of_subset hsub, Nat.cast_sub (Finset.card_le_card hsub), Finset.card_range]
  have h1 : chance m n (fun f => ¬ FilledAfter c s0 m n (outcome f)) ≤
      ∑ i ∈ Finset.range m \ grownIn m c.background s0, chance m n (fun f => i ∉ grownAfter c s0 m n (outcome f)) := by
    simp only [← mean_indicator]
    rw [← mean_sum]
    refine mean_mono fun f => ?_
    obtain ⟨e1, e2⟩ := grownAfter_eq c s0 hs hg m hm hids hocc nb hnb hin n f
    have hnn : ∀ i ∈ Finset.range m \ grownIn m c.background s0, (0 : ℝ) ≤ if i ∉ grownAfter c s0 m n (outcome f) then 1 else 0 := fun i _ => by split <;> norm_num
    by_cases hf : FilledAfter c s0 m n (outcome f)
    · rw [if_neg (not_not.2 hf)]
      exact Finset.sum_nonneg hnn
    · rw [if_pos hf]
      rw [e2, ← e1] at hf
      have hlt : grownAfter c s0 m n (outcome f) ⊆ Finset.range m := by
        unfold grownAfter
        exact Finset.filter_subset _ _
      obtain ⟨i, hi, hiO⟩ : ∃ i, i ∈ Finset.range m ∧ i ∉ grownAfter c s0 m n (outcome f) := by
        by_contra hc
        push Not at hc
        exact hf (Finset.Subset.antisymm hlt hc)
      have hiS : i ∈ Finset.range m \ grownIn m c.background s0 := by
        refine Finset.mem_sdiff.2 ⟨hi, fun h0 => hiO ?_⟩
        rw [e1]
        exact (walk_inv (nb := nb) (outcome f) _ n).1 h0
      refine le_trans (le_of_eq ?_) (Finset.single_le_sum hnn hiS)
      rw [if_pos hiO]
  refine h1.trans ((Finset.sum_le_sum (g := fun _ => (x ^ h - 1) / (x - 1) * (1 - (1 - 1 / x) / m) ^ n) fun i hi => ?_).trans (le_of_eq ?_))
  · have him := Finset.mem_range.1 (Finset.mem_sdiff.1 hi).1
    obtain ⟨j, hj, hjo, hops⟩ := hreach i him
    exact C172_chance c s0 hs hg m hm hids hocc nb hnb hin i j h him hj hjo hops x hx n
  · rw [Finset.sum_const, nsmul_eq_mul, hcard]

/-- C172: the average number of steps until no site is background is proportional to the distance and the logarithm of the number of background sites. -/
theorem C172_time (h : ℕ) (hreach : ∀ i, i < m → ∃ j, j < m ∧ occ? s0 (.int j) ≠ some c.background ∧ Hops nb h i j)
    (b : ℕ) (hb : 0 < b) (hcard : (grownIn m c.background s0).card + b = m) :
    Summable (fun k => chance m k fun f => ¬ FilledAfter c s0 m k (outcome f)) ∧
      ∑' k, chance m k (fun f => ¬ FilledAfter c s0 m k (outcome f)) ≤ 2 * m * (h * Real.log 2 + Real.log b + 1) + 1 := by
  classical
  have hmR : (0 : ℝ) < m := by exact_mod_cast hm
  have hm1 : (1 : ℝ) ≤ m := by exact_mod_cast hm
  have hbR : (1 : ℝ) ≤ b := by exact_mod_cast hb
  have hcR : (m : ℝ) - (grownIn m c.background s0).card = b := by
    have : ((grownIn m c.background s0).card : ℝ) + b = m := by exact_mod_cast hcard
    linarith
  set p := fun k => chance m k (fun f => ¬ FilledAfter c s0 m k (outcome f)) with hp
  set A : ℝ := b * 2 ^ h with hA
  set ρ : ℝ := 1 - 1 / (2 * m) with hρd
  have h2pos : (1 : ℝ) ≤ 2 ^ h := one_le_pow₀ (by norm_num)
  have hA1 : 1 ≤ A := by rw [hA]; nlinarith
  have hfrac : 0 < 1 / (2 * (m : ℝ)) ∧ 1 / (2 * (m : ℝ)) ≤ 1 / 2 := by
    constructor
    · positivity
    · rw [div_le_div_iff₀ (by positivity) (by norm_num)]; linarith
  have hρ0 : 0 ≤ ρ := by rw [hρd]; linarith [hfrac.2]
  have hρ1 : ρ < 1 := by rw [hρd]; linarith [hfrac.1]
  have hpb : ∀ n, p n ≤ A * ρ ^ n := by
    intro n
    have := C172_covered c s0 hs hg m hm hids hocc nb hnb hin h hreach 2 (by norm_num) n
    rw [hcR] at this
    refine this.trans ?_
    have e : (1 : ℝ) - (1 - 1 / 2) / m = ρ := by rw [hρd]; field_simp; ring
    rw [e, show (2 : ℝ) - 1 = 1 by norm_num, div_one, hA, mul_assoc]
    refine mul_le_mul_of_nonneg_left ?_ (by linarith)
    exact mul_le_mul_of_nonneg_right (by linarith) (pow_nonneg hρ0 n)
  have hgeo : Summable fun n => A * ρ ^ n := (summable_geometric_of_lt_one hρ0 hρ1).mul_left A
  have hS : Summable p := Summable.of_nonneg_of_le (fun _ => chance_nonneg _) hpb hgeo
  refine ⟨hS, ?_⟩
  set n0 := ⌈2 * m * Real.log A⌉₊ with hn0
  have hlogA : 0 ≤ Real.log A := Real.log_nonneg hA1
  have hn0le : (n0 : ℝ) ≤ 2 * m * Real.log A + 1 := (Nat.ceil_lt_add_one (by positivity)).le
  have hdecay : A * ρ ^ n0 ≤ 1 := by
    have h1 : ρ ≤ Real.exp (-(1 / (2 * m))) := by
      rw [hρd]
      have := Real.add_one_le_exp (-(1 / (2 * (m : ℝ))))
      linarith
    have h2 : ρ ^ n0 ≤ Real.exp (-(1 / (2 * m))) ^ n0 := pow_le_pow_left₀ hρ0 h1 n0
    rw [← Real.exp_nat_mul] at h2
    have h3 : (n0 : ℝ) * -(1 / (2 * m)) ≤ -Real.log A := by
      have h4 : 2 * m * Real.log A ≤ n0 := Nat.le_ceil _
      rw [mul_neg, neg_le_neg_iff, mul_one_div, le_div_iff₀ (by positivity)]
      linarith
    have h5 : ρ ^ n0 ≤ 1 / A := by
      refine h2.trans ((Real.exp_le_exp.2 h3).trans (le_of_eq ?_))
      rw [Real.exp_neg, Real.exp_log (by linarith), one_div]
    calc A * ρ ^ n0 ≤ A * (1 / A) := mul_le_mul_of_nonneg_left h5 (by linarith)
      _ = 1 := by field_simp
  have hlog : Real.log A = Real.log b + h * Real.log 2 := by
    rw [hA, Real.log_mul (by positivity) (by positivity), Real.log_pow]
  have hhead : ∑ k ∈ Finset.range n0, p k ≤ n0 := by
    refine (Finset.sum_le_sum fun k _ => chance_le_one hm _).trans (le_of_eq ?_)
    simp
  have htail : ∑' k, p (k + n0) ≤ 2 * m := by
    have hg2 : Summable fun k => A * ρ ^ n0 * ρ ^ k := (summable_geometric_of_lt_one hρ0 hρ1).mul_left _
    have h1 : ∑' k, p (k + n0) ≤ ∑' k, A * ρ ^ n0 * ρ ^ k := by
      refine Summable.tsum_le_tsum (fun k => (hpb _).trans (le_of_eq ?_)) ((summable_nat_add_iff n0).2 hS) hg2
      rw [pow_add]; ring
    rw [tsum_mul_left, tsum_geometric_of_lt_one hρ0 hρ1] at h1
    refine h1.trans ?_
    have : (1 - ρ)⁻¹ = 2 * m := by rw [hρd]; field_simp; ring
    rw [this]
    have := mul_le_mul_of_nonneg_right hdecay (show (0 : ℝ) ≤ 2 * m by positivity)
    linarith
  rw [← hS.sum_add_tsum_nat_add n0]
  rw [hlog] at hn0le
  have : 2 * (m : ℝ) * (h * Real.log 2 + Real.log b + 1) + 1 = 2 * m * (Real.log b + h * Real.log 2) + 1 + 2 * m := by ring
  rw [this]
  linarith

end

/-- C172 on square grids of any size with the default (Moore) neighbourhood, as `GrowthController.__init__` makes it, whatever order the graph lists neighbours in: the moves
are the Chebyshev distance on the torus, at most half the longest side. -/
theorem C172_grid {S : Structure K d} {N : Fin d → ℤ} (hS : SquareGrid d N S) (bg : Val) (order : ℕ → List ℕ → List ℕ) (hord : ∀ t l, (order t l).Perm l)
    (s0 : SimState) (hs : s0.WF) (hg : s0.getGeneralState ≠ none) (hsites : SameSites S s0) (hocc : AllOccupied s0) (m : ℕ) (hm : m = S.siteIds.length) :
    ∃ c, Growth.init order S bg = .ok c ∧
      (∀ i j x y h, SiteHas S i x → SiteHas S j y → occ? s0 (.int j) ≠ some bg → ChebyshevLE N x y (h : ℕ) →
        ∑' k, chance m k (fun f => i ∉ grownAfter c s0 m k (outcome f)) ≤ m * h ∧
        ∀ n, chance m n (fun f => i ∉ grownAfter c s0 m n (outcome f)) ≤ (2 ^ h - 1) * (1 - 1 / (2 * (m : ℝ))) ^ n) ∧
      ∀ h b : ℕ, (∀ j, N j ≤ 2 * h + 1) → 0 < b → b < m → (grownIn m bg s0).card + b = m →
        ∑' k, chance m k (fun f => ¬ FilledAfter c s0 m k (outcome f)) ≤ 2 * m * (h * Real.log 2 + Real.log b + 1) + 1 := by
  classical
  subst hm
  have ht := hS.isTorus
  have hids : Numbered S.siteIds.length s0 := idsTo_of_sameSites ht.reachable hs hsites
  obtain ⟨g, hget, hgn⟩ := C53_moore hS 1
  have hpos : 0 < S.siteIds.length := List.length_pos_of_ne_nil ht.ids_ne
  have hSmem : ∀ i, i ∈ S.siteIds ↔ i < S.siteIds.length := fun i => by rw [siteIds_eq ht.reachable]; simp
  obtain ⟨c, hc⟩ : ∃ c, Growth.init order S bg = .ok c := by
    unfold Growth.init
    rw [Option.getD_none, hget]
    exact ⟨_, rfl⟩
  obtain ⟨h1, h2⟩ := init_nbs (order := order) (bg := bg) hget hc
  have hnb : ∀ t, ∀ i, i < S.siteIds.length → ∃ l, c.nbs t (.int i) = .ok l ∧ ∀ j, j ∈ l ↔ j ∈ g.neighborsOf i :=
    fun t i _ => ⟨_, h2 t i, fun j => (hord t _).mem_iff⟩
  have hin : ∀ i, i < S.siteIds.length → ∀ j ∈ g.neighborsOf i, j < S.siteIds.length :=
    fun i _ j hj => (hSmem j).1 ((C55_known_and_other ht.reachable _ none g hget i).1 j hj).1
  have hdist := fun {j : ℕ} {y : Fin d → ℤ} (hy : SiteHas S j y) (k i : ℕ) x hx =>
    moore_dist ht hgn (fun i _ j hj => ((C55_known_and_other ht.reachable _ none g hget i).1 j hj).1) hy k i x hx
  refine ⟨c, hc, fun i j x y h hx hy hjo hd => ?_, fun h b hN hb hbm hcard => ?_⟩
  · rw [← h1] at hjo
    have hi := (hSmem i).1 (ht.mem_ids ht.reachable hx)
    have hj := (hSmem j).1 (ht.mem_ids ht.reachable hy)
    have hops := (hdist hy h i x hx).2 hd
    refine ⟨(C172_wait c s0 hs hg _ hpos hids hocc _ hnb hin i j h hi hj hjo hops).2, fun n => ?_⟩
    have := C172_chance c s0 hs hg _ hpos hids hocc _ hnb hin i j h hi hj hjo hops 2 (by norm_num) n
    rw [show (2 : ℝ) - 1 = 1 by norm_num, div_one, show (1 : ℝ) - 1 / 2 = 1 / 2 by norm_num, div_div] at this
    exact this
  · rw [← h1] at hcard
    refine (C172_time c s0 hs hg _ hpos hids hocc _ hnb hin h (fun i hi => ?_) b hb hcard).2
    have hne : (grownIn S.siteIds.length c.background s0).Nonempty := by
      rw [← Finset.card_pos]; omega
    obtain ⟨j, hj⟩ := hne
    unfold grownIn at hj
    obtain ⟨hj1, hj2⟩ := Finset.mem_filter.1 hj
    have hjm := Finset.mem_range.1 hj1
    obtain ⟨x, -, hx⟩ := ht.site i ((hSmem i).2 hi)
    obtain ⟨y, -, hy⟩ := ht.site j ((hSmem j).2 hjm)
    exact ⟨j, hjm, hj2, (hdist hy h i x hx).2 fun q => circ_le_half (ht.pos q) _ (by exact_mod_cast hN q)⟩

/-- A 5 by 4 grid whose cells at (1,1), (2,1), (3,1) are occupied: on average at most 40 (2 log 2 + log 17 + 1) + 1 steps (about 210; C169 gives 340). -/
example (order : ℕ → List ℕ → List ℕ) (hord : ∀ t l, (order t l).Perm l) : ∃ (S : Structure ℚ 2) (s0 : SimState) (c : Ctl), SquareGrid 2 ![5, 4] S ∧
    ShowsLife S s0 blinker ∧ Growth.init order S (.str "dead") = .ok c ∧
    ∑' k, chance S.siteIds.length k (fun f => ¬ FilledAfter c s0 S.siteIds.length k (outcome f)) ≤ 40 * (2 * Real.log 2 + Real.log 17 + 1) + 1 := by
  obtain ⟨-, S, hS, -⟩ := C52_square2 (K := ℚ) 1 (by norm_num) 4 5 (by norm_num) (by norm_num)
  have hg : SquareGrid 2 ![5, 4] S := .two _ S 5 4 (by norm_num) (by norm_num) (.inl rfl) hS
  have ht := hg.isTorus
  obtain ⟨s0, h1, h2, h3, h4⟩ := life_state_exists ht blinker
  have hocc : ∀ i c, SiteHas S i c → (c ∈ blinker → occ? s0 (.int i) = some (.str "alive")) ∧ (c ∉ blinker → occ? s0 (.int i) = some (.str "dead")) := by
    intro i c hi
    obtain ⟨p, e1, e2, e3⟩ := h4 i c hi
    unfold occ?
    rw [e1]
    exact ⟨e2, e3⟩
  have hall : AllOccupied s0 := by
    intro k hk
    obtain ⟨i, hi, rfl⟩ := (h3 k).1 hk
    obtain ⟨x, -, hx⟩ := ht.site i hi
    by_cases h : x ∈ blinker
    · exact ⟨_, (hocc i _ hx).1 h⟩
    · exact ⟨_, (hocc i _ hx).2 h⟩
  have hlen : S.siteIds.length = 20 := by rw [ht.count]; simp
  have hSmem : ∀ i, i ∈ S.siteIds ↔ i < 20 := fun i => by rw [siteIds_eq ht.reachable, ← hlen]; simp [siteIds_eq ht.reachable]
  obtain ⟨i1, m1, c1⟩ := ht.ex ![1, 1] (by intro j; fin_cases j <;> simp)
  obtain ⟨i2, m2, c2⟩ := ht.ex ![2, 1] (by intro j; fin_cases j <;> simp)
  obtain ⟨i3, m3, c3⟩ := ht.ex ![3, 1] (by intro j; fin_cases j <;> simp)
  have hgrown : grownIn 20 (.str "dead") s0 = {i1, i2, i3} := by
    ext i
    unfold grownIn
    rw [Finset.mem_filter, Finset.mem_range]
    simp only [Finset.mem_insert, Finset.mem_singleton]
    constructor
    · rintro ⟨hi, h⟩
      obtain ⟨x, -, hx⟩ := ht.site i ((hSmem i).2 hi)
      by_cases hb : x ∈ blinker
      · have hb : x = ![1, 1] ∨ x = ![2, 1] ∨ x = ![3, 1] := hb
        rcases hb with rfl | rfl | rfl
        · exact .inl (ht.site_unique hx c1)
        · exact .inr (.inl (ht.site_unique hx c2))
        · exact .inr (.inr (ht.site_unique hx c3))
      · exact absurd ((hocc i _ hx).2 hb) h
    · rintro (rfl | rfl | rfl)
      · exact ⟨(hSmem _).1 m1, by rw [(hocc _ _ c1).1 (by decide)]; decide⟩
      · exact ⟨(hSmem _).1 m2, by rw [(hocc _ _ c2).1 (by decide)]; decide⟩
      · exact ⟨(hSmem _).1 m3, by rw [(hocc _ _ c3).1 (by decide)]; decide⟩
  have hcard : (grownIn 20 (.str "dead") s0).card = 3 := by
    have e12 : i1 ≠ i2 := fun e => by
      have := congrFun (IsTorus.has_unique_coord (e ▸ c1) c2) 0
      simp at this
    have e13 : i1 ≠ i3 := fun e => by
      have := congrFun (IsTorus.has_unique_coord (e ▸ c1) c3) 0
      simp at this
    have e23 : i2 ≠ i3 := fun e => by
      have := congrFun (IsTorus.has_unique_coord (e ▸ c2) c3) 0
      simp at this
    rw [hgrown]
    simp [e12, e13, e23]
  obtain ⟨c, e1, -, e2⟩ := C172_grid hg (.str "dead") order hord s0 h1 h2 h3 hall 20 hlen.symm
  refine ⟨S, s0, c, hg, h4, e1, ?_⟩
  rw [hlen]
  refine (e2 2 17 (by intro j; fin_cases j <;> simp) (by norm_num) (by norm_num) (by rw [hcard])).trans (le_of_eq ?_)
  norm_num

end Pyl
