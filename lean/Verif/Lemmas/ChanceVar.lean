import Verif.Lemmas.Chance
import Mathlib.Data.Fin.Tuple.Basic
import Mathlib.Logic.Equiv.Fin.Basic
/-
Random processes whose moves use a varying number of draws, known before the move.
-/
set_option autoImplicit false

namespace Pyl
open Spec
variable {τ : Type} {q : ℕ}

/-- Drawing first `c` numbers and then `M` more. -/
theorem chance_append (c M : ℕ) (P : (Fin (c + M) → Fin q) → Prop) :
    chance q (c + M) P = (∑ g : Fin c → Fin q, chance q M fun h => P (Fin.append g h)) / (q : ℝ) ^ c := by
  classical
  unfold chance
  rw [← Finset.sum_div, div_div, ← pow_add, add_comm M c]
  congr 1
  rw [← Nat.cast_sum]
  congr 1
  rw [← Finset.card_sigma]
  refine (Finset.card_bij (fun (x : Σ _ : Fin c → Fin q, Fin M → Fin q) _ => Fin.append x.1 x.2) ?_ ?_ ?_).symm
  · rintro ⟨g, h⟩ hx
    simpa using hx
  · rintro ⟨g, h⟩ - ⟨g', h'⟩ - e
    have e' : (Fin.appendEquiv c M) (g, h) = (Fin.appendEquiv c M) (g', h') := e
    have := (Fin.appendEquiv c M).injective e'
    injection this with e1 e2
    subst e1 e2; rfl
  · intro f hf
    obtain ⟨⟨g, h⟩, e⟩ := (Fin.appendEquiv (α := Fin q) c M).surjective f
    have e' : Fin.append g h = f := e
    refine ⟨⟨g, h⟩, ?_, e'⟩
    simp only [Finset.mem_sigma, Finset.mem_univ, true_and, Finset.mem_filter]
    rw [e']; simpa using hf

theorem outcome_append_lt {c M : ℕ} (g : Fin c → Fin q) (h : Fin M → Fin q) {t : ℕ} (ht : t < c) : outcome (Fin.append g h) t = outcome g t := by
  unfold outcome
  rw [dif_pos (by omega), dif_pos ht]
  have : (⟨t, by omega⟩ : Fin (c + M)) = Fin.castAdd M ⟨t, ht⟩ := rfl
  rw [this, Fin.append_left]

theorem outcome_append_add {c M : ℕ} (g : Fin c → Fin q) (h : Fin M → Fin q) (t : ℕ) : outcome (Fin.append g h) (t + c) = outcome h t := by
  unfold outcome
  by_cases ht : t < M
  · rw [dif_pos (by omega), dif_pos ht]
    have : (⟨t + c, by omega⟩ : Fin (c + M)) = Fin.natAdd c ⟨t, ht⟩ := by ext; simp [add_comm]
    rw [this, Fin.append_right]
  · rw [dif_neg (by omega), dif_neg ht]

/-- One given draw has one given value. -/
theorem chance_hit (hq : 0 < q) {c : ℕ} (p : Fin c) (r : Fin q) : chance q c (fun g => g p = r) = 1 / q := by
  classical
  have h := chance_prod (m := q) (k := c) fun i y => i = p → y = r
  rw [chance_congr (Q := fun g : Fin c → Fin q => g p = r) fun g => ⟨fun h => h p rfl, fun h i e => by rw [e, h]⟩] at h
  rw [h, Finset.prod_eq_single p]
  · rw [chance_one fun y => p = p → y = r]
    congr 1
    have : (Finset.univ.filter fun y : Fin q => p = p → y = r) = {r} := by ext y; simp
    rw [this]; simp
  · intro b _ hb
    rw [chance_congr (Q := fun _ => True) fun g => by simp [hb], chance_true hq]
  · simp

/-- Where the process is after `n` moves.  A move from `x` uses the first `cost x` of the coming draws. -/
def walkVar (cost : τ → ℕ) (step : (ℕ → ℕ) → τ → τ) : ℕ → (ℕ → ℕ) → τ → τ
  | 0, _, x => x
  | n + 1, g, x => walkVar cost step n (fun t => g (t + cost x)) (step g x)

theorem chance_settle_var (hq : 0 < q) {cost : τ → ℕ} {step : (ℕ → ℕ) → τ → τ} {Inv : τ → Prop} {μ : τ → ℕ} {m : ℕ}
    (hcost : ∀ x, Inv x → cost x ≤ m)
    (hloc : ∀ x, Inv x → ∀ g g' : ℕ → ℕ, (∀ t, g' t < q) → (∀ t, t < cost x → g t = g' t) → step g x = step g' x)
    (hle : ∀ x, Inv x → ∀ g : ℕ → ℕ, (∀ t, g t < q) → Inv (step g x) ∧ μ (step g x) ≤ μ x)
    (hlt : ∀ x, Inv x → 0 < μ x → ∃ p, p < cost x ∧ ∃ r, r < q ∧ ∀ g : ℕ → ℕ, (∀ t, g t < q) → g p = r → μ (step g x) < μ x)
    (n M : ℕ) (hM : m * n ≤ M) (x : τ) (hx : Inv x) :
    chance q M (fun f => 0 < μ (walkVar cost step n (outcome f) x)) ≤ 2 ^ μ x * (1 - 1 / (2 * q)) ^ n := by
  have hqR : (1 : ℝ) ≤ q := by exact_mod_cast hq
  have hρ : (0 : ℝ) ≤ 1 - 1 / (2 * q) := by
    have : (1 : ℝ) / (2 * q) ≤ 1 := by rw [div_le_one (by linarith)]; linarith
    linarith
  induction n generalizing x M with
  | zero =>
    have h1 : chance q M (fun f => 0 < μ (walkVar cost step 0 (outcome f) x)) ≤ 1 := by
      rw [← chance_true (m := q) (k := M) hq]
      exact chance_mono fun _ _ => trivial
    have h2 : (1 : ℝ) ≤ 2 ^ μ x := one_le_pow₀ (by norm_num)
    rw [pow_zero, mul_one]
    linarith
  | succ n ih =>
    by_cases hz : μ x = 0
    · have hstay : ∀ (n : ℕ) (y : τ), Inv y → μ y = 0 → ∀ g : ℕ → ℕ, (∀ t, g t < q) → μ (walkVar cost step n g y) = 0 := by
        intro n
        induction n with
        | zero => intro y _ h g _; exact h
        | succ n ihn =>
          intro y hy h g hg
          obtain ⟨a, b⟩ := hle y hy g hg
          exact ihn _ a (by omega) _ fun t => hg _
      have : chance q M (fun f => 0 < μ (walkVar cost step (n + 1) (outcome f) x)) = 0 := by
        rw [← chance_false (m := q) (k := M)]
        refine chance_congr fun f => ?_
        rw [hstay (n + 1) x hx hz _ (outcome_lt hq f)]
        simp
      rw [this]
      positivity
    · obtain ⟨p, hp, r, hr, hhit⟩ := hlt x hx (by omega)
      have hc := hcost x hx
      obtain ⟨M', rfl⟩ : ∃ M', M = cost x + M' := ⟨M - cost x, by rw [Nat.mul_succ] at hM; omega⟩
      have hM' : m * n ≤ M' := by rw [Nat.mul_succ] at hM; omega
      rw [chance_append]
      have hqc : (0 : ℝ) < (q : ℝ) ^ cost x := by positivity
      rw [div_le_iff₀ hqc]
      have h1 : ∀ g : Fin (cost x) → Fin q, chance q M' (fun h => 0 < μ (walkVar cost step (n + 1) (outcome (Fin.append g h)) x)) ≤
          2 ^ μ (step (outcome g) x) * (1 - 1 / (2 * q)) ^ n := by
        intro g
        refine le_trans (le_of_eq (chance_congr fun h => ?_)) (ih M' hM' _ (hle x hx _ (outcome_lt hq g)).1)
        rw [walkVar, hloc x hx (outcome (Fin.append g h)) (outcome g) (outcome_lt hq g) fun t ht => outcome_append_lt g h ht]
        simp only [outcome_append_add]
      refine le_trans (Finset.sum_le_sum fun g _ => h1 g) ?_
      rw [← Finset.sum_mul]
      have h7 : (0 : ℝ) ≤ (1 - 1 / (2 * q)) ^ n := pow_nonneg hρ n
      have h6 : (2 : ℝ) ^ μ x = 2 * 2 ^ (μ x - 1) := by
        rw [← pow_succ']; congr 1; omega
      have hcard : ((Finset.univ.filter fun g : Fin (cost x) → Fin q => g ⟨p, hp⟩ = ⟨r, hr⟩).card : ℝ) = (q : ℝ) ^ cost x / q := by
        have := chance_hit hq (⟨p, hp⟩ : Fin (cost x)) ⟨r, hr⟩
        unfold chance at this
        rw [div_eq_iff hqc.ne'] at this
        rw [show (q : ℝ) ^ cost x / q = 1 / q * (q : ℝ) ^ cost x by ring, ← this]
        congr!
      have h2 : ∑ g : Fin (cost x) → Fin q, (2 : ℝ) ^ μ (step (outcome g) x) ≤ (q : ℝ) ^ cost x * 2 ^ μ x - (q : ℝ) ^ cost x / q * 2 ^ (μ x - 1) := by
        have h3 : (q : ℝ) ^ cost x / q * 2 ^ (μ x - 1) ≤ ∑ g : Fin (cost x) → Fin q, ((2 : ℝ) ^ μ x - 2 ^ μ (step (outcome g) x)) := by
          have h4 : ∀ g ∈ (Finset.univ : Finset (Fin (cost x) → Fin q)), (0 : ℝ) ≤ 2 ^ μ x - 2 ^ μ (step (outcome g) x) := fun g _ => by
            have : (2 : ℝ) ^ μ (step (outcome g) x) ≤ 2 ^ μ x := pow_le_pow_right₀ (by norm_num) (hle x hx _ (outcome_lt hq g)).2
            linarith
          refine le_trans ?_ (Finset.sum_le_sum_of_subset_of_nonneg (Finset.filter_subset (fun g => g ⟨p, hp⟩ = ⟨r, hr⟩) _) fun g hg _ => h4 g hg)
          rw [← hcard, ← nsmul_eq_mul]
          refine Finset.card_nsmul_le_sum _ _ _ fun g hg => ?_
          have h8 := hhit (outcome g) (outcome_lt hq g) (by rw [outcome_of_lt g hp, (Finset.mem_filter.1 hg).2])
          have h5 : (2 : ℝ) ^ μ (step (outcome g) x) ≤ 2 ^ (μ x - 1) := pow_le_pow_right₀ (by norm_num) (by omega)
          linarith
        rw [Finset.sum_sub_distrib, Finset.sum_const, Finset.card_univ, Fintype.card_fun, Fintype.card_fin, Fintype.card_fin,
          nsmul_eq_mul, Nat.cast_pow] at h3
        linarith
      have hq0 : (q : ℝ) ≠ 0 := by positivity
      calc _ ≤ ((q : ℝ) ^ cost x * 2 ^ μ x - (q : ℝ) ^ cost x / q * 2 ^ (μ x - 1)) * (1 - 1 / (2 * q)) ^ n := mul_le_mul_of_nonneg_right h2 h7
        _ = _ := by
          rw [h6, pow_succ]
          field_simp
          try ring

end Pyl
