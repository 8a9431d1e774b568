import Verif.Spec.Chance
import Mathlib.Tactic.Ring
import Mathlib.Tactic.FieldSimp
import Mathlib.Tactic.Linarith
import Mathlib.Tactic.Positivity
/-
Counting outcomes of independent draws.
-/
set_option autoImplicit false

namespace Pyl
open Spec
variable {m k : ℕ}

theorem chance_congr {P Q : (Fin k → Fin m) → Prop} (h : ∀ f, P f ↔ Q f) : chance m k P = chance m k Q := by
  have : P = Q := funext fun f => propext (h f)
  rw [this]

theorem chance_nonneg (P : (Fin k → Fin m) → Prop) : 0 ≤ chance m k P := by unfold chance; positivity

theorem chance_mono {P Q : (Fin k → Fin m) → Prop} (h : ∀ f, P f → Q f) : chance m k P ≤ chance m k Q := by
  classical
  unfold chance
  have : (Finset.univ.filter P).card ≤ (Finset.univ.filter Q).card :=
    Finset.card_le_card fun f hf => by simp at hf ⊢; exact h f hf
  have h2 : ((Finset.univ.filter P).card : ℝ) ≤ (Finset.univ.filter Q).card := by exact_mod_cast this
  exact div_le_div_of_nonneg_right h2 (by positivity)

theorem chance_true (hm : 0 < m) : chance m k (fun _ => True) = 1 := by
  unfold chance
  simp only [Finset.filter_true, Finset.card_univ, Fintype.card_pi, Fintype.card_fin, Finset.prod_const]
  push_cast
  exact div_self (by positivity)

theorem chance_false : chance m k (fun _ => False) = 0 := by
  unfold chance; simp

theorem chance_not (hm : 0 < m) (P : (Fin k → Fin m) → Prop) : chance m k (fun f => ¬ P f) = 1 - chance m k P := by
  classical
  have h : chance m k (fun f => ¬ P f) + chance m k P = 1 := by
    rw [← chance_true (m := m) (k := k) hm]
    unfold chance
    rw [← add_div]
    congr 1
    have := Finset.card_filter_add_card_filter_not (s := (Finset.univ : Finset (Fin k → Fin m))) P
    rw [Finset.filter_true, ← this, add_comm]
    push_cast
    congr!
  linarith

/-- The first draw and the rest. -/
theorem chance_succ (P : (Fin (k + 1) → Fin m) → Prop) :
    chance m (k + 1) P = (∑ i : Fin m, chance m k fun f => P (Fin.cons i f)) / m := by
  classical
  unfold chance
  rw [← Finset.sum_div, div_div, ← pow_succ, ← Nat.cast_sum]
  congr 2
  rw [← Finset.card_sigma]
  refine Finset.card_bij' (fun f _ => (⟨f 0, Fin.tail f⟩ : (_ : Fin m) × (Fin k → Fin m))) (fun p _ => Fin.cons p.1 p.2) ?_ ?_ ?_ ?_
  · intro f hf
    simp only [Finset.mem_filter, Finset.mem_univ, true_and, Finset.mem_sigma] at hf ⊢
    rwa [Fin.cons_self_tail]
  · intro p hp
    simp only [Finset.mem_filter, Finset.mem_univ, true_and, Finset.mem_sigma] at hp ⊢
    exact hp
  · intro f _; exact Fin.cons_self_tail f
  · intro p _; simp

/-- What the last draw does not influence. -/
theorem chance_init (hm : 0 < m) (P : (Fin k → Fin m) → Prop) : chance m (k + 1) (fun f => P (Fin.init f)) = chance m k P := by
  induction k with
  | zero =>
    rw [chance_succ]
    have : ∀ i : Fin m, chance m 0 (fun f => P (Fin.init (Fin.cons i f : Fin 1 → Fin m))) = chance m 0 P := fun i =>
      chance_congr fun f => by
        have : Fin.init (Fin.cons i f : Fin 1 → Fin m) = f := by funext j; exact j.elim0
        rw [this]
    simp only [this, Finset.sum_const, Finset.card_univ, Fintype.card_fin, nsmul_eq_mul]
    have : (m : ℝ) ≠ 0 := by positivity
    field_simp
  | succ k ih =>
    rw [chance_succ, chance_succ]
    congr 1
    refine Finset.sum_congr rfl fun i _ => ?_
    rw [← ih]
    refine chance_congr fun f => ?_
    have : Fin.init (Fin.cons i f : Fin (k + 2) → Fin m) = Fin.cons i (Fin.init f) := by
      funext j
      refine Fin.cases ?_ (fun j => ?_) j
      · rfl
      · rfl
    rw [this]

theorem outcome_zero (f : Fin (k + 1) → Fin m) : outcome f 0 = f 0 := by simp [outcome]

theorem outcome_cons_zero (i : Fin m) (f : Fin k → Fin m) : outcome (Fin.cons i f : Fin (k + 1) → Fin m) 0 = i := by simp [outcome]

theorem outcome_cons_succ (i : Fin m) (f : Fin k → Fin m) (t : ℕ) : outcome (Fin.cons i f : Fin (k + 1) → Fin m) (t + 1) = outcome f t := by
  unfold outcome
  by_cases h : t < k
  · rw [dif_pos (by omega), dif_pos h]
    have : (⟨t + 1, by omega⟩ : Fin (k + 1)) = Fin.succ ⟨t, h⟩ := rfl
    rw [this, Fin.cons_succ]
  · rw [dif_neg (by omega), dif_neg h]

theorem outcome_of_lt (f : Fin k → Fin m) {t : ℕ} (h : t < k) : outcome f t = f ⟨t, h⟩ := dif_pos h

theorem outcome_lt (hm : 0 < m) (f : Fin k → Fin m) (t : ℕ) : outcome f t < m := by
  unfold outcome
  split
  · exact Fin.isLt _
  · exact hm

theorem outcome_init (f : Fin (k + 1) → Fin m) {t : ℕ} (h : t < k) : outcome (Fin.init f) t = outcome f t := by
  rw [outcome_of_lt _ h, outcome_of_lt _ (by omega)]
  rfl

section Walk
variable {τ : Type} (step : ℕ → τ → τ)

theorem walk_succ (f : ℕ → ℕ) (x : τ) (k : ℕ) : walk step f x (k + 1) = walk step (fun t => f (t + 1)) (step (f 0) x) k := by
  induction k with
  | zero => rfl
  | succ k ih =>
    rw [show walk step f x (k + 1 + 1) = step (f (k + 1)) (walk step f x (k + 1)) from rfl, ih]
    rfl

theorem walk_congr {f g : ℕ → ℕ} (x : τ) {k : ℕ} (h : ∀ t, t < k → f t = g t) : walk step f x k = walk step g x k := by
  induction k with
  | zero => rfl
  | succ k ih => simp only [walk]; rw [ih fun t ht => h t (by omega), h k (by omega)]

/-- The outcomes along which a walk driven by the draws stays in `A` are counted by `walkChance`. -/
theorem chance_walk (hm : 0 < m) (n : ℕ) (A : ℕ → Set τ) (x : τ) :
    chance m n (fun f => ∀ k, k ≤ n → walk step (outcome f) x k ∈ A k) = walkChance m step n A x := by
  classical
  induction n generalizing A x with
  | zero =>
    by_cases h : x ∈ A 0
    · rw [walkChance, if_pos h, ← chance_true (m := m) (k := 0) hm]
      exact chance_congr fun f => by simpa [walk] using h
    · rw [walkChance, if_neg h, ← chance_false (m := m) (k := 0)]
      exact chance_congr fun f => by simpa [walk] using h
  | succ n ih =>
    by_cases h : x ∈ A 0
    · rw [walkChance, if_pos h, chance_succ]
      congr 1
      refine Finset.sum_congr rfl fun i _ => ?_
      rw [← ih]
      refine chance_congr fun f => ?_
      have e : ∀ k, walk step (outcome (Fin.cons i f : Fin (n + 1) → Fin m)) x (k + 1) = walk step (outcome f) (step i x) k := by
        intro k
        rw [walk_succ, outcome_cons_zero]
        exact walk_congr step _ fun t _ => outcome_cons_succ i f t
      constructor
      · intro hA k hk
        rw [← e]; exact hA (k + 1) (by omega)
      · intro hA k hk
        cases k with
        | zero => exact h
        | succ k => rw [e]; exact hA k (by omega)
    · rw [walkChance, if_neg h, ← chance_false (m := m) (k := n + 1)]
      refine chance_congr fun f => ⟨fun hA => h (hA 0 (by omega)), fun hf => hf.elim⟩

variable {step} in
/-- A walk that never raises `μ` and has at least `w` ways to lower it: the probability that `μ` is not yet 0. -/
theorem chance_settle_many (hm : 0 < m) {Inv : τ → Prop} {μ : τ → ℕ} (hle : ∀ x, Inv x → ∀ i, i < m → Inv (step i x) ∧ μ (step i x) ≤ μ x)
    {w : ℕ} (hwm : w ≤ m) (hlt : ∀ x, Inv x → 0 < μ x → w ≤ ((Finset.range m).filter fun i => μ (step i x) < μ x).card) (n : ℕ) (x : τ) (hx : Inv x) :
    chance m n (fun f => 0 < μ (walk step (outcome f) x n)) ≤ 2 ^ μ x * (1 - w / (2 * m)) ^ n := by
  have hmR : (1 : ℝ) ≤ m := by exact_mod_cast hm
  have hwR : (w : ℝ) ≤ m := by exact_mod_cast hwm
  have hρ : (0 : ℝ) ≤ 1 - w / (2 * m) := by
    have : (w : ℝ) / (2 * m) ≤ 1 := by rw [div_le_one (by linarith)]; linarith
    linarith
  induction n generalizing x with
  | zero =>
    have h1 : chance m 0 (fun f => 0 < μ (walk step (outcome f) x 0)) ≤ 1 := by
      rw [← chance_true (m := m) (k := 0) hm]
      exact chance_mono fun _ _ => trivial
    have h2 : (1 : ℝ) ≤ 2 ^ μ x := one_le_pow₀ (by norm_num)
    rw [pow_zero, mul_one]
    linarith
  | succ n ih =>
    have hw : ∀ (i : Fin m) (f : Fin n → Fin m), walk step (outcome (Fin.cons i f : Fin (n + 1) → Fin m)) x (n + 1) =
        walk step (outcome f) (step i x) n := by
      intro i f
      rw [walk_succ, outcome_cons_zero]
      exact walk_congr step _ fun t _ => outcome_cons_succ i f t
    have h0 : chance m (n + 1) (fun f => 0 < μ (walk step (outcome f) x (n + 1))) =
        (∑ i : Fin m, chance m n fun f => 0 < μ (walk step (outcome f) (step i x) n)) / m := by
      rw [chance_succ]
      congr 1
      refine Finset.sum_congr rfl fun i _ => chance_congr fun f => ?_
      rw [hw]
    rw [h0]
    have h1 : ∑ i : Fin m, chance m n (fun f => 0 < μ (walk step (outcome f) (step i x) n)) ≤
        ∑ i : Fin m, (2 : ℝ) ^ μ (step i x) * (1 - w / (2 * m)) ^ n :=
      Finset.sum_le_sum fun i _ => ih _ (hle x hx i i.isLt).1
    by_cases hz : μ x = 0
    · have hstay : ∀ (f : ℕ → ℕ), (∀ t, f t < m) → ∀ k, Inv (walk step f x k) ∧ μ (walk step f x k) = 0 := by
        intro f hf k
        induction k with
        | zero => exact ⟨hx, hz⟩
        | succ k ihk =>
          obtain ⟨a, b⟩ := hle _ ihk.1 (f k) (hf k)
          exact ⟨a, by show μ (step (f k) (walk step f x k)) = 0; omega⟩
      rw [← h0]
      have : chance m (n + 1) (fun f => 0 < μ (walk step (outcome f) x (n + 1))) = 0 := by
        rw [← chance_false (m := m) (k := n + 1)]
        refine chance_congr fun f => ?_
        rw [(hstay (outcome f) (outcome_lt hm f) (n + 1)).2]
        simp
      rw [this]
      positivity
    · have hcard := hlt x hx (by omega)
      have h2 : ∑ i : Fin m, (2 : ℝ) ^ μ (step i x) ≤ m * 2 ^ μ x - w * 2 ^ (μ x - 1) := by
        have h6 : (2 : ℝ) ^ μ x = 2 * 2 ^ (μ x - 1) := by
          rw [← pow_succ']; congr 1; omega
        have h3 : (w : ℝ) * 2 ^ (μ x - 1) ≤ ∑ i ∈ Finset.range m, ((2 : ℝ) ^ μ x - 2 ^ μ (step i x)) := by
          have h4 : ∀ i ∈ Finset.range m, (0 : ℝ) ≤ 2 ^ μ x - 2 ^ μ (step i x) := fun i hi => by
            have : (2 : ℝ) ^ μ (step i x) ≤ 2 ^ μ x := pow_le_pow_right₀ (by norm_num) (hle x hx i (Finset.mem_range.1 hi)).2
            linarith
          refine le_trans ?_ (Finset.sum_le_sum_of_subset_of_nonneg (Finset.filter_subset (fun i => μ (step i x) < μ x) _) fun i hi _ => h4 i hi)
          have hcR : (w : ℝ) ≤ (((Finset.range m).filter fun i => μ (step i x) < μ x).card : ℝ) := by exact_mod_cast hcard
          refine le_trans (mul_le_mul_of_nonneg_right hcR (by positivity)) ?_
          rw [← nsmul_eq_mul]
          refine Finset.card_nsmul_le_sum _ _ _ fun i hi => ?_
          have h5 : (2 : ℝ) ^ μ (step i x) ≤ 2 ^ (μ x - 1) := pow_le_pow_right₀ (by norm_num) (by have := (Finset.mem_filter.1 hi).2; omega)
          linarith
        rw [Finset.sum_range fun i => (2 : ℝ) ^ μ x - 2 ^ μ (step i x), Finset.sum_sub_distrib, Finset.sum_const, Finset.card_univ, Fintype.card_fin,
          nsmul_eq_mul] at h3
        linarith
      rw [← Finset.sum_mul] at h1
      have h6 : (2 : ℝ) ^ μ x = 2 * 2 ^ (μ x - 1) := by
        rw [← pow_succ']; congr 1; omega
      have h7 : (0 : ℝ) ≤ (1 - w / (2 * m)) ^ n := pow_nonneg hρ n
      have hm0 : (m : ℝ) ≠ 0 := by positivity
      rw [div_le_iff₀ (by linarith)]
      calc _ ≤ (∑ i : Fin m, (2 : ℝ) ^ μ (step i x)) * (1 - w / (2 * m)) ^ n := h1
        _ ≤ (m * 2 ^ μ x - w * 2 ^ (μ x - 1)) * (1 - w / (2 * m)) ^ n := mul_le_mul_of_nonneg_right h2 h7
        _ = _ := by
          rw [h6, pow_succ]
          field_simp
          try ring

variable {step} in
/-- A walk that can always lower `μ` and never raises it. -/
theorem chance_settle (hm : 0 < m) {Inv : τ → Prop} {μ : τ → ℕ} (hle : ∀ x, Inv x → ∀ i, i < m → Inv (step i x) ∧ μ (step i x) ≤ μ x)
    (hlt : ∀ x, Inv x → 0 < μ x → ∃ i, i < m ∧ μ (step i x) < μ x) (n : ℕ) (x : τ) (hx : Inv x) :
    chance m n (fun f => 0 < μ (walk step (outcome f) x n)) ≤ 2 ^ μ x * (1 - 1 / (2 * m)) ^ n := by
  have := chance_settle_many hm hle (w := 1) hm (fun x hx hpos => by
    obtain ⟨i, hi, h⟩ := hlt x hx hpos
    exact Finset.card_pos.2 ⟨i, Finset.mem_filter.2 ⟨Finset.mem_range.2 hi, h⟩⟩) n x hx
  simpa using this

end Walk

/-- Every single outcome has the same probability. -/
theorem chance_eq (g : Fin k → Fin m) : chance m k (fun f => f = g) = 1 / (m : ℝ) ^ k := by
  classical
  unfold chance
  rw [Finset.card_eq_one.2 ⟨g, by ext f; simp⟩]
  simp

/-- An event about a single draw. -/
theorem chance_one (P : Fin m → Prop) [DecidablePred P] : chance m 1 (fun f => P (f 0)) = ((Finset.univ.filter P).card : ℝ) / m := by
  unfold chance
  rw [pow_one]
  congr 2
  refine Finset.card_bij (fun f _ => f 0) (fun f hf => by simpa using hf) (fun f _ g _ e => ?_) fun a ha => ⟨fun _ => a, by simpa using ha, rfl⟩
  funext t
  rw [Subsingleton.elim t 0, e]

/-- Independent events about the single draws. -/
theorem chance_prod (P : Fin k → Fin m → Prop) :
    chance m k (fun f => ∀ i, P i (f i)) = ∏ i, chance m 1 (fun f => P i (f 0)) := by
  classical
  rw [Finset.prod_congr rfl fun i _ => chance_one (P i), Finset.prod_div_distrib, Finset.prod_const, Finset.card_univ, Fintype.card_fin]
  unfold chance
  congr 1
  rw [← Nat.cast_prod, ← Fintype.card_piFinset]
  congr 2
  ext f
  simp

/-- Renaming the values drawn does not change probabilities. -/
theorem chance_perm (σ : Equiv.Perm (Fin m)) (P : (Fin k → Fin m) → Prop) : chance m k (fun f => P fun t => σ (f t)) = chance m k P := by
  classical
  unfold chance
  congr 2
  refine Finset.card_bij (fun f _ t => σ (f t)) (fun f hf => by simpa using hf) (fun f _ g _ e => ?_) fun g hg => ⟨fun t => σ.symm (g t), by simpa using hg, ?_⟩
  · funext t
    exact σ.injective (congrFun e t)
  · funext t
    simp

end Pyl
