import Verif.Spec.Particles
import Verif.Props.RandomSetup
import Mathlib.Analysis.SpecificLimits.Basic
/-
C138: `setup_random_particles` when every draw is uniform and independent.
-/
set_option autoImplicit false
set_option linter.unusedSectionVars false

namespace Pyl
open SimState Spec GridSetup
open Pyl.Lattice Pyl.Structure

section Share
variable {Ω Ω' : Type} [Fintype Ω] [Fintype Ω']

theorem fraction_eq (P : Ω → Prop) [DecidablePred P] : fraction P = ((Finset.univ.filter P).card : ℝ) / (Fintype.card Ω : ℝ) := by
  unfold fraction
  congr!

theorem fraction_congr {P Q : Ω → Prop} (h : ∀ x, P x ↔ Q x) : fraction P = fraction Q := by
  have : P = Q := funext fun x => propext (h x)
  rw [this]

theorem fraction_equiv (e : Ω ≃ Ω') (P : Ω' → Prop) : fraction (fun x => P (e x)) = fraction P := by
  classical
  unfold fraction
  rw [Fintype.card_congr e]
  congr 2
  refine Finset.card_bij (fun x _ => e x) (fun x hx => ?_) (fun x _ y _ h => e.injective h) fun y hy => ⟨e.symm y, ?_, e.apply_symm_apply y⟩
  · simpa using hx
  · simpa using hy

theorem fraction_prod (P : Ω → Prop) (Q : Ω' → Prop) : fraction (fun x : Ω × Ω' => P x.1 ∧ Q x.2) = fraction P * fraction Q := by
  classical
  rw [fraction_eq, fraction_eq, fraction_eq]
  have : (Finset.univ.filter fun x : Ω × Ω' => P x.1 ∧ Q x.2) = (Finset.univ.filter P) ×ˢ (Finset.univ.filter Q) := by
    ext x; simp
  rw [this, Finset.card_product, Fintype.card_prod]
  push_cast
  rw [mul_div_mul_comm]

theorem fraction_true [Nonempty Ω] : fraction (fun _ : Ω => True) = 1 := by
  classical
  unfold fraction
  rw [Finset.filter_true, Finset.card_univ]
  exact div_self (by exact_mod_cast Fintype.card_ne_zero)

theorem fraction_or {P Q : Ω → Prop} (h : ∀ x, P x → ¬ Q x) : fraction (fun x => P x ∨ Q x) = fraction P + fraction Q := by
  classical
  rw [fraction_eq, fraction_eq, fraction_eq]
  rw [Finset.filter_or, Finset.card_union_of_disjoint, Nat.cast_add, add_div]
  exact Finset.disjoint_filter.2 fun x _ hp hq => h x hp hq

theorem fraction_not [Nonempty Ω] (P : Ω → Prop) : fraction (fun x => ¬ P x) = 1 - fraction P := by
  have := fraction_or (P := P) (Q := fun x => ¬ P x) fun x hp hq => hq hp
  rw [fraction_congr (Q := fun _ => True) fun x => ⟨fun _ => trivial, fun _ => em _⟩, fraction_true] at this
  linarith

theorem fraction_fst [Nonempty Ω'] (P : Ω → Prop) : fraction (fun x : Ω × Ω' => P x.1) = fraction P := by
  rw [fraction_congr (Q := fun x : Ω × Ω' => P x.1 ∧ True) fun x => by simp, fraction_prod P fun _ : Ω' => True, fraction_true, mul_one]

/-- One more draw: if the last draw settles the matter with `B`, or leaves it as the draws before had it. -/
theorem fraction_last [Nonempty Ω] (k : ℕ) (A B : Ω → Prop) (Q : (Fin k → Ω) → Prop) :
    fraction (fun f : Fin (k + 1) → Ω => (A (f (Fin.last k)) ∧ B (f (Fin.last k))) ∨ (¬ A (f (Fin.last k)) ∧ Q (Fin.init f))) =
      fraction (fun x => A x ∧ B x) + (1 - fraction A) * fraction Q := by
  rw [← fraction_equiv (Fin.snocEquiv fun _ : Fin (k + 1) => Ω)]
  have e : ∀ x : Ω × (Fin k → Ω), ((A ((Fin.snocEquiv fun _ : Fin (k + 1) => Ω) x (Fin.last k)) ∧ B ((Fin.snocEquiv fun _ : Fin (k + 1) => Ω) x (Fin.last k))) ∨
      (¬ A ((Fin.snocEquiv fun _ : Fin (k + 1) => Ω) x (Fin.last k)) ∧ Q (Fin.init ((Fin.snocEquiv fun _ : Fin (k + 1) => Ω) x)))) ↔
      (A x.1 ∧ B x.1) ∨ (¬ A x.1 ∧ Q x.2) := by
    intro x
    simp [Fin.snocEquiv]
  refine (fraction_congr e).trans ?_
  rw [fraction_or (P := fun x : Ω × (Fin k → Ω) => A x.1 ∧ B x.1) fun x h h' => h'.1 h.1, fraction_fst fun x => A x ∧ B x, fraction_prod (fun x => ¬ A x) Q, fraction_not]

end Share

variable {K : Type} [Field K] [LinearOrder K] [FloorRing K] [IsStrictOrderedRing K] {d : ℕ}

theorem lastDropped_iff {r : K} {centre : ℕ → Fin d → ℤ} {phase : ℕ → Val} {k : ℕ} {bulk : Val} {c : Fin d → ℤ} {v : Val} :
    LastDropped r centre phase (k + 1) bulk c v ↔
      (Closer c (centre k) r ∧ v = phase k) ∨ (¬ Closer c (centre k) r ∧ LastDropped r centre phase k bulk c v) := by
  constructor
  · rintro (⟨p, hp, h1, h2, h3⟩ | ⟨h1, h2⟩)
    · by_cases e : p = k
      · subst e; exact .inl ⟨h1, h3⟩
      · exact .inr ⟨h2 k (by omega) (by omega), .inl ⟨p, by omega, h1, fun q hq hq' => h2 q hq (by omega), h3⟩⟩
    · exact .inr ⟨h1 k (by omega), .inr ⟨fun p hp => h1 p (by omega), h2⟩⟩
  · rintro (⟨h1, h2⟩ | ⟨h0, ⟨p, hp, h1, h2, h3⟩ | ⟨h1, h2⟩⟩)
    · exact .inl ⟨k, by omega, h1, fun q hq hq' => by omega, h2⟩
    · refine .inl ⟨p, by omega, h1, fun q hq hq' => ?_, h3⟩
      by_cases e : q = k
      · subst e; exact h0
      · exact h2 q hq (by omega)
    · refine .inr ⟨fun p hp => ?_, h2⟩
      by_cases e : p = k
      · subst e; exact h0
      · exact h1 p (by omega)

theorem lastDropped_congr {r : K} {centre centre' : ℕ → Fin d → ℤ} {phase phase' : ℕ → Val} {k : ℕ} {bulk : Val} {c : Fin d → ℤ} {v : Val}
    (h : ∀ p < k, centre p = centre' p ∧ phase p = phase' p) :
    LastDropped r centre phase k bulk c v ↔ LastDropped r centre' phase' k bulk c v := by
  induction k with
  | zero => simp [LastDropped]
  | succ k ih => rw [lastDropped_iff, lastDropped_iff, (h k (by omega)).1, (h k (by omega)).2, ih fun p hp => h p (by omega)]

theorem lastDropped_unique {r : K} {centre : ℕ → Fin d → ℤ} {phase : ℕ → Val} {k : ℕ} {bulk : Val} {c : Fin d → ℤ} {v w : Val}
    (h : LastDropped r centre phase k bulk c v) (h' : LastDropped r centre phase k bulk c w) : v = w := by
  induction k with
  | zero => simp [LastDropped] at h h'; rw [h, h']
  | succ k ih =>
    rw [lastDropped_iff] at h h'
    rcases h with ⟨h1, h2⟩ | ⟨h1, h2⟩ <;> rcases h' with ⟨h3, h4⟩ | ⟨h3, h4⟩
    · rw [h2, h4]
    · exact absurd h1 h3
    · exact absurd h3 h1
    · exact ih h2 h4

open Classical in
/-- The law of the last particle dropped on a cell. -/
theorem fraction_lastDropped {n : ℕ} (hn : 0 < n) (r : K) (bulk : Val) (phases : List Val) (hne : phases ≠ []) (c : Fin d → ℤ) (v : Val) (k : ℕ) :
    fraction (fun ω : Fin k → Drop d n phases.length => LastDropped r (fun p j => (dropCoord ω p j : ℤ)) (fun p => (phases[dropPhase ω p]?).getD .pyNone) k bulk c v) =
      (1 - (1 - coverage n r c) ^ k) * ((phases.count v : ℝ) / phases.length) + if v = bulk then (1 - coverage n r c) ^ k else 0 := by
  have hm : 0 < phases.length := List.length_pos_of_ne_nil hne
  have : Nonempty (Fin n) := ⟨⟨0, hn⟩⟩
  have : Nonempty (Fin phases.length) := ⟨⟨0, hm⟩⟩
  have hA : fraction (fun x : Fin d → Fin n => Closer c (fun j => ((x j : ℕ) : ℤ)) r) = coverage n r c := by
    unfold fraction coverage
    rw [Fintype.card_fun, Fintype.card_fin, Fintype.card_fin]
    push_cast
    rfl
  have hB : fraction (fun i : Fin phases.length => v = phases[(i : ℕ)]) = (phases.count v : ℝ) / phases.length := by
    rw [fraction_eq, Fintype.card_fin]
    have e1 : phases.count v = phases.countP fun p => decide (v = p) := by
      unfold List.count
      refine List.countP_congr fun p _ => ?_
      rw [beq_iff_eq, decide_eq_true_iff, eq_comm]
    rw [e1, ← card_countP phases fun p => v = p]
    rfl
  induction k with
  | zero =>
    have h0 : ∀ ω : Fin 0 → Drop d n phases.length, LastDropped r (fun p j => (dropCoord ω p j : ℤ)) (fun p => (phases[dropPhase ω p]?).getD .pyNone) 0 bulk c v ↔ v = bulk := by
      intro ω; simp [LastDropped]
    rw [fraction_congr h0]
    by_cases e : v = bulk
    · rw [if_pos e, fraction_congr (Q := fun _ => True) fun _ => by simp [e], fraction_true]; simp
    · rw [if_neg e, fraction_congr (Q := fun x => ¬ True) fun _ => by simp [e], fraction_not, fraction_true]; simp
  | succ k ih =>
    have h1 : ∀ ω : Fin (k + 1) → Drop d n phases.length,
        LastDropped r (fun p j => (dropCoord ω p j : ℤ)) (fun p => (phases[dropPhase ω p]?).getD .pyNone) (k + 1) bulk c v ↔
        ((fun x : Drop d n phases.length => Closer c (fun j => ((x.1 j : ℕ) : ℤ)) r) (ω (Fin.last k)) ∧ (fun x : Drop d n phases.length => v = phases[(x.2 : ℕ)]) (ω (Fin.last k))) ∨
        (¬ (fun x : Drop d n phases.length => Closer c (fun j => ((x.1 j : ℕ) : ℤ)) r) (ω (Fin.last k)) ∧
          (fun ω : Fin k → Drop d n phases.length =>
            LastDropped r (fun p j => (dropCoord ω p j : ℤ)) (fun p => (phases[dropPhase ω p]?).getD .pyNone) k bulk c v) (Fin.init ω)) := by
      intro ω
      rw [lastDropped_iff]
      have e1 : (fun j => (dropCoord ω k j : ℤ)) = fun j => (((ω (Fin.last k)).1 j : ℕ) : ℤ) := by
        funext j
        unfold dropCoord
        rw [dif_pos (Nat.lt_succ_self k)]
        rfl
      have e2 : (phases[dropPhase ω k]?).getD .pyNone = phases[((ω (Fin.last k)).2 : ℕ)] := by
        unfold dropPhase
        rw [dif_pos (Nat.lt_succ_self k), show (⟨k, Nat.lt_succ_self k⟩ : Fin (k + 1)) = Fin.last k from rfl, List.getElem?_eq_getElem (ω (Fin.last k)).2.isLt]
        rfl
      have e3 := lastDropped_congr (r := r) (centre := fun p j => (dropCoord ω p j : ℤ)) (centre' := fun p j => (dropCoord (Fin.init ω) p j : ℤ))
        (phase := fun p => (phases[dropPhase ω p]?).getD .pyNone) (phase' := fun p => (phases[dropPhase (Fin.init ω) p]?).getD .pyNone)
        (k := k) (bulk := bulk) (c := c) (v := v) (fun p hp => by
          constructor
          · funext j
            unfold dropCoord
            rw [dif_pos (by omega), dif_pos hp]
            rfl
          · unfold dropPhase
            rw [dif_pos (by omega), dif_pos hp]
            rfl)
      rw [e1, e2, e3]
    have h2 := (fraction_congr h1).trans (fraction_last k (fun x : Drop d n phases.length => Closer c (fun j => ((x.1 j : ℕ) : ℤ)) r)
      (fun x : Drop d n phases.length => v = phases[(x.2 : ℕ)])
      (fun ω : Fin k → Drop d n phases.length =>
            LastDropped r (fun p j => (dropCoord ω p j : ℤ)) (fun p => (phases[dropPhase ω p]?).getD .pyNone) k bulk c v))
    refine h2.trans ?_
    rw [ih, fraction_fst fun x : Fin d → Fin n => Closer c (fun j => ((x j : ℕ) : ℤ)) r, hA,
      fraction_prod (fun x : Fin d → Fin n => Closer c (fun j => ((x j : ℕ) : ℤ)) r) fun i : Fin phases.length => v = phases[(i : ℕ)], hA, hB]
    split_ifs <;> ring

open Classical in
/-- C138: the probability that `setup_random_particles` gives a cell the phase `v`, when centres and phases are drawn uniformly and independently.  A cell stays bulk with probability
`(1 - coverage) ^ num`; otherwise it has the phase of a particle, and each entry of the list of phases is equally likely. -/
theorem C138_law {G : GridSetup K d} (hG : StdSetup d G) (n : ℕ) (hn : 0 < n) (r : K) (num : ℕ) (bulk : Val) (hbulk : bulk.WF)
    (phases : GridSetup.PhasesArg) (hne : phases.seq ≠ []) (hp : ∀ p ∈ phases.seq, p.WF) :
    ∃ S, G.builder (.int n) = .ok S ∧ SquareGrid d (fun _ => (n : ℤ)) S ∧ ∀ i c, SiteHas S i c → ∀ v,
      fraction (fun ω : Fin num → Drop d n phases.seq.length => ∃ s, G.randomParticles (.int n) r num bulk phases (dropCoord ω) (dropPhase ω) = .ok ⟨s, S⟩ ∧
        occ? s (.int i) = some v) =
      (1 - (1 - coverage n r c) ^ num) * ((phases.seq.count v : ℝ) / phases.seq.length) + if v = bulk then (1 - coverage n r c) ^ num else 0 := by
  have hn' : (0 : ℤ) < n := by exact_mod_cast hn
  have hm : 0 < phases.seq.length := List.length_pos_of_ne_nil hne
  obtain ⟨S, hb, hsq, hlen, -⟩ := setup_builds hG hn'
  refine ⟨S, hb, hsq, fun i c hc v => ?_⟩
  rw [← fraction_lastDropped hn r bulk phases.seq hne c v num]
  refine fraction_congr fun ω => ?_
  obtain ⟨S', s, centre, phase, h1, -, -, -, h2, h3, h4⟩ := C83_particles_partial hG n hn' r num bulk hbulk phases hne hp (dropCoord ω) (dropPhase ω)
  have hSS : S' = S := by
    have h5 := h1
    unfold GridSetup.randomParticles at h5
    rw [hb, ok_bind, hlen, ok_bind] at h5
    obtain ⟨s', -, h5⟩ := bind_ok h5
    injection h5 with h5; injection h5 with _ h5; exact h5.symm
  subst hSS
  obtain ⟨w, h5, h6⟩ := h4 i c hc
  have h7 : LastDropped r (fun p j => (dropCoord ω p j : ℤ)) (fun p => (phases.seq[dropPhase ω p]?).getD .pyNone) num bulk c w := by
    refine (lastDropped_congr fun p hp' => ⟨funext fun j => ?_, ?_⟩).1 h6
    · rw [h2 p j]
      unfold dropCoord
      rw [dif_pos hp']
      exact Int.emod_eq_of_lt (by positivity) (by exact_mod_cast ((ω ⟨p, hp'⟩).1 j).isLt)
    · have h8 := h3 p
      have h9 : dropPhase ω p < phases.seq.length := by
        unfold dropPhase
        rw [dif_pos hp']
        exact (ω ⟨p, hp'⟩).2.isLt
      rw [Nat.mod_eq_of_lt h9] at h8
      rw [h8]
      rfl
  constructor
  · rintro ⟨s', h8, h9⟩
    rw [h1] at h8; injection h8 with h8; injection h8 with h8; subst h8
    rw [h5] at h9; injection h9 with h9; subst h9
    exact h7
  · intro h8
    exact ⟨s, h1, by rw [h5, lastDropped_unique h7 h8]⟩

/-- C138: the probability that a cell stays bulk, when no particle has the bulk phase. -/
theorem C138_bulk {G : GridSetup K d} (hG : StdSetup d G) (n : ℕ) (hn : 0 < n) (r : K) (num : ℕ) (bulk : Val) (hbulk : bulk.WF)
    (phases : GridSetup.PhasesArg) (hne : phases.seq ≠ []) (hp : ∀ p ∈ phases.seq, p.WF) (hnb : bulk ∉ phases.seq) :
    ∃ S, G.builder (.int n) = .ok S ∧ ∀ i c, SiteHas S i c →
      fraction (fun ω : Fin num → Drop d n phases.seq.length => ∃ s, G.randomParticles (.int n) r num bulk phases (dropCoord ω) (dropPhase ω) = .ok ⟨s, S⟩ ∧
        occ? s (.int i) = some bulk) = (1 - coverage n r c) ^ num := by
  obtain ⟨S, h1, -, h2⟩ := C138_law hG n hn r num bulk hbulk phases hne hp
  refine ⟨S, h1, fun i c hc => ?_⟩
  rw [h2 i c hc bulk, if_pos rfl, List.count_eq_zero_of_not_mem hnb]
  simp

theorem coverage_le_one {n : ℕ} (hn : 0 < n) (r : K) (c : Fin d → ℤ) : coverage n r c ≤ 1 := by
  classical
  unfold coverage
  rw [div_le_one (by positivity)]
  refine le_trans (Nat.cast_le.2 (Finset.card_le_univ _)) ?_
  rw [Fintype.card_fun, Fintype.card_fin, Fintype.card_fin]
  push_cast
  exact le_rfl

theorem coverage_pos {n : ℕ} (hn : 0 < n) {r : K} (hr : 0 < r) {c : Fin d → ℤ} (hc : InBox (fun _ => (n : ℤ)) c) : 0 < coverage n r c := by
  classical
  unfold coverage
  refine div_pos (Nat.cast_pos.2 (Finset.card_pos.2 ⟨fun j => ⟨(c j).toNat, ?_⟩, ?_⟩)) (by positivity)
  · have := hc j
    dsimp only at this
    omega
  · rw [Finset.mem_filter]
    refine ⟨Finset.mem_univ _, hr, ?_⟩
    have : ∀ j, (c j - (((c j).toNat : ℕ) : ℤ)) ^ 2 = 0 := fun j => by
      rw [Int.toNat_of_nonneg (hc j).1]; simp
    simp only [this, Finset.sum_const_zero, Int.cast_zero]
    positivity

/-- C138: with a positive radius the probability that a given cell is still bulk tends to 0 with the number of particles. -/
theorem C138_covered {G : GridSetup K d} (hG : StdSetup d G) (n : ℕ) (hn : 0 < n) (r : K) (hr : 0 < r) (bulk : Val) (hbulk : bulk.WF)
    (phases : GridSetup.PhasesArg) (hne : phases.seq ≠ []) (hp : ∀ p ∈ phases.seq, p.WF) (hnb : bulk ∉ phases.seq) :
    ∃ S, G.builder (.int n) = .ok S ∧ ∀ i ∈ S.siteIds,
      Filter.Tendsto (fun num => fraction (fun ω : Fin num → Drop d n phases.seq.length =>
        ∃ s, G.randomParticles (.int n) r num bulk phases (dropCoord ω) (dropPhase ω) = .ok ⟨s, S⟩ ∧ occ? s (.int i) = some bulk)) Filter.atTop (nhds 0) := by
  obtain ⟨S, h1, hsq, -⟩ := C138_law hG n hn r 0 bulk hbulk phases hne hp
  refine ⟨S, h1, fun i hi => ?_⟩
  obtain ⟨c, hin, hc⟩ := hsq.isTorus.site i hi
  have e : ∀ num, fraction (fun ω : Fin num → Drop d n phases.seq.length =>
        ∃ s, G.randomParticles (.int n) r num bulk phases (dropCoord ω) (dropPhase ω) = .ok ⟨s, S⟩ ∧ occ? s (.int i) = some bulk) = (1 - coverage n r c) ^ num := by
    intro num
    obtain ⟨S', h2, h3⟩ := C138_bulk hG n hn r num bulk hbulk phases hne hp hnb
    rw [h1] at h2; injection h2 with h2; subst h2
    exact h3 i c hc
  simp only [e]
  have h4 := coverage_le_one hn r c
  have h5 := coverage_pos hn hr hin
  exact tendsto_pow_atTop_nhds_zero_of_lt_one (by linarith) (by linarith)

theorem sq_sum_le_one {y : Fin d → ℤ} (h : ∑ j, y j ^ 2 ≤ 1) : y = 0 ∨ ∃ j, (y j = 1 ∨ y j = -1) ∧ ∀ k, k ≠ j → y k = 0 := by
  by_cases h0 : y = 0
  · exact .inl h0
  · obtain ⟨j, hj⟩ : ∃ j, y j ≠ 0 := by by_contra hh; push Not at hh; exact h0 (funext hh)
    have h1 : 1 ≤ y j ^ 2 := by have := sq_pos_of_ne_zero hj (R := ℤ); omega
    have h2 : ∑ k, y k ^ 2 = y j ^ 2 + ∑ k ∈ Finset.univ.erase j, y k ^ 2 := (Finset.add_sum_erase _ _ (Finset.mem_univ j)).symm
    have h3 : 0 ≤ ∑ k ∈ Finset.univ.erase j, y k ^ 2 := Finset.sum_nonneg fun k _ => sq_nonneg _
    refine .inr ⟨j, ?_, fun k hk => ?_⟩
    · have h4 : y j ^ 2 ≤ 1 := by omega
      have h5 := abs_le_of_sq_le_sq' (a := y j) (b := 1) (by linarith) (by norm_num)
      omega
    · have h4 : ∑ k ∈ Finset.univ.erase j, y k ^ 2 = 0 := by omega
      have h5 := (Finset.sum_eq_zero_iff_of_nonneg fun k _ => sq_nonneg (y k)).1 h4 k (Finset.mem_erase.2 ⟨hk, Finset.mem_univ k⟩)
      exact pow_eq_zero_iff (two_ne_zero) |>.1 h5

/-- C138: particles do not reach across the border of the periodic grid, so cells are not covered equally often: with a radius between 1 and the square root of 2 a
particle covers the corner cell with probability at most `(d + 1) / n ^ d`, and a cell away from the border with probability at least `(2 d + 1) / n ^ d`. -/
theorem C138_border {n : ℕ} (hn : 0 < n) {r : K} (hr : 1 < r) (hr2 : r ^ 2 ≤ 2) :
    coverage n r (fun _ : Fin d => 0) ≤ (d + 1) / (n : ℝ) ^ d ∧
    ∀ c : Fin d → ℤ, (∀ j, 1 ≤ c j ∧ c j + 1 < n) → (2 * d + 1) / (n : ℝ) ^ d ≤ coverage n r c := by
  classical
  have hr0 : 0 < r := lt_trans one_pos hr
  have hcl : ∀ a b : Fin d → ℤ, Closer a b r ↔ ∑ j, (a j - b j) ^ 2 ≤ 1 := by
    intro a b
    unfold Closer
    constructor
    · rintro ⟨-, h⟩
      have : ((∑ j, (a j - b j) ^ 2 : ℤ) : K) < ((2 : ℤ) : K) := lt_of_lt_of_le h (by push_cast; exact hr2)
      have := Int.cast_lt.1 this
      omega
    · intro h
      refine ⟨hr0, lt_of_le_of_lt (b := ((1 : ℤ) : K)) (Int.cast_le.2 h) ?_⟩
      push_cast
      nlinarith
  constructor
  · unfold coverage
    refine div_le_div_of_nonneg_right ?_ (by positivity)
    let g : Option (Fin d) → Fin d → ℤ := fun o j => match o with
      | none => 0
      | some k => if j = k then 1 else 0
    let v : (Fin d → Fin n) → Fin d → ℤ := fun x j => ((x j : ℕ) : ℤ)
    have hinj : Function.Injective v := fun x y h => funext fun j => Fin.ext (by have := congrFun h j; dsimp only [v] at this; exact_mod_cast this)
    have h1 : ((Finset.univ.filter fun x : Fin d → Fin n => Closer (fun _ : Fin d => (0 : ℤ)) (fun j => ((x j : ℕ) : ℤ)) r).image v) ⊆ Finset.univ.image g := by
      intro y hy
      obtain ⟨x, hx, rfl⟩ := Finset.mem_image.1 hy
      have hx := (hcl _ _).1 (Finset.mem_filter.1 hx).2
      rw [Finset.mem_image]
      rcases sq_sum_le_one hx with h | ⟨j, hj, hk⟩
      · exact ⟨none, Finset.mem_univ _, funext fun j => by have := congrFun h j; simp only [Pi.zero_apply] at this; dsimp only [g, v]; omega⟩
      · refine ⟨some j, Finset.mem_univ _, funext fun k => ?_⟩
        dsimp only [g, v]
        split_ifs with e
        · subst e; omega
        · have := hk k e; omega
    have h2 := Finset.card_le_card h1
    rw [Finset.card_image_of_injective _ hinj] at h2
    have h3 : (Finset.univ.image g).card ≤ d + 1 := by
      refine Finset.card_image_le.trans ?_
      rw [Finset.card_univ, Fintype.card_option, Fintype.card_fin]
    have h4 := h2.trans h3
    exact_mod_cast h4
  · intro c hc
    unfold coverage
    refine div_le_div_of_nonneg_right ?_ (by positivity)
    let y : Option (Fin d × Bool) → Fin d → ℤ := fun o j => match o with
      | none => 0
      | some k => if j = k.1 then (if k.2 then 1 else -1) else 0
    have hy : ∀ o j, -1 ≤ y o j ∧ y o j ≤ 1 := by
      intro o j
      rcases o with _ | ⟨k, b⟩
      · exact ⟨by norm_num [y], by norm_num [y]⟩
      · dsimp only [y]
        split_ifs <;> omega
    have hyi : Function.Injective y := by
      intro o o' h
      rcases o with _ | ⟨k, b⟩ <;> rcases o' with _ | ⟨k', b'⟩
      · rfl
      · have := congrFun h k'
        dsimp only [y] at this
        rw [if_pos rfl] at this
        cases b' <;> simp at this
      · have := congrFun h k
        dsimp only [y] at this
        rw [if_pos rfl] at this
        cases b <;> simp at this
      · have := congrFun h k
        dsimp only [y] at this
        rw [if_pos rfl] at this
        by_cases e : k = k'
        · subst e
          rw [if_pos rfl] at this
          cases b <;> cases b' <;> simp at this ⊢
        · rw [if_neg e] at this
          cases b <;> simp at this
    have hlt : ∀ o j, (c j + y o j).toNat < n := fun o j => by
      have := hc j; have := hy o j; omega
    let g : Option (Fin d × Bool) → Fin d → Fin n := fun o j => ⟨(c j + y o j).toNat, hlt o j⟩
    have hg : ∀ o j, (((g o j : Fin n) : ℕ) : ℤ) = c j + y o j := fun o j => by
      have := hc j; have := hy o j
      show (((c j + y o j).toNat : ℕ) : ℤ) = _
      omega
    have hgi : Function.Injective g := fun o o' h => hyi (funext fun j => by
      have h1 := hg o j
      have h2 := hg o' j
      rw [h] at h1
      omega)
    have h1 : Finset.univ.image g ⊆ Finset.univ.filter fun x : Fin d → Fin n => Closer c (fun j => ((x j : ℕ) : ℤ)) r := by
      intro x hx
      obtain ⟨o, -, rfl⟩ := Finset.mem_image.1 hx
      refine Finset.mem_filter.2 ⟨Finset.mem_univ _, (hcl _ _).2 ?_⟩
      have : ∀ j, (c j - (((g o j : Fin n) : ℕ) : ℤ)) ^ 2 = y o j ^ 2 := fun j => by rw [hg]; ring
      simp only [this]
      rcases o with _ | ⟨k, b⟩
      · simp [y]
      · rw [Finset.sum_eq_single k]
        · dsimp only [y]
          rw [if_pos rfl]
          split_ifs <;> norm_num
        · intro j _ hj
          dsimp only [y]
          rw [if_neg hj]
          norm_num
        · simp
    have h2 := Finset.card_le_card h1
    rw [Finset.card_image_of_injective _ hgi, Finset.card_univ, Fintype.card_option, Fintype.card_prod, Fintype.card_fin, Fintype.card_bool] at h2
    have h3 : ((d * 2 + 1 : ℕ) : ℝ) ≤ _ := Nat.cast_le.2 h2
    push_cast at h3
    linarith

/-- A case that meets the hypotheses: a particle of radius 0.5 covers one cell, so with `num` particles of phases A, B, B on a 10 x 10 grid every cell is `B` with probability 2 / 3 of
being covered. -/
example (num : ℕ) : ∃ S, gridSetup2.builder (K := ℚ) (.int 10) = .ok S ∧ ∀ i ∈ S.siteIds,
    fraction (fun ω : Fin num → Drop 2 10 3 => ∃ s, gridSetup2.randomParticles (.int 10) (1 / 2 : ℚ) num (.str "C") (.list [.str "A", .str "B", .str "B"]) (dropCoord ω) (dropPhase ω) =
      .ok ⟨s, S⟩ ∧ occ? s (.int i) = some (.str "B")) = (1 - (99 / 100) ^ num) * (2 / 3) := by
  obtain ⟨S, hb, hsq, h⟩ := C138_law (K := ℚ) .two 10 (by norm_num) (1 / 2) num (.str "C") (.str _) (.list [.str "A", .str "B", .str "B"]) (by simp [PhasesArg.seq])
    (by intro p hp; simp [PhasesArg.seq] at hp; rcases hp with rfl | rfl <;> exact .str _)
  refine ⟨S, hb, fun i hi => ?_⟩
  obtain ⟨c, hin, hc⟩ := hsq.isTorus.site i hi
  have e : coverage 10 (1 / 2 : ℚ) c = 1 / 100 := by
    classical
    unfold coverage
    have h1 : (Finset.univ.filter fun x : Fin 2 → Fin 10 => Closer c (fun j => ((x j : ℕ) : ℤ)) (1 / 2 : ℚ)) =
        {fun j => ⟨(c j).toNat, by have := hin j; dsimp only at this; omega⟩} := by
      ext x
      rw [Finset.mem_filter, Finset.mem_singleton]
      constructor
      · rintro ⟨-, -, h2⟩
        have h3 : (∑ j, (c j - ((x j : ℕ) : ℤ)) ^ 2 : ℤ) < 1 := by
          have : ((∑ j, (c j - ((x j : ℕ) : ℤ)) ^ 2 : ℤ) : ℚ) < ((1 : ℤ) : ℚ) := lt_trans h2 (by norm_num)
          exact Int.cast_lt.1 this
        have h4 : ∀ j, (c j - ((x j : ℕ) : ℤ)) ^ 2 = 0 := fun j => by
          have h5 := Finset.single_le_sum (f := fun j => (c j - ((x j : ℕ) : ℤ)) ^ 2) (fun j _ => sq_nonneg _) (Finset.mem_univ j)
          have := sq_nonneg (c j - ((x j : ℕ) : ℤ))
          omega
        funext j
        have := pow_eq_zero_iff (two_ne_zero) |>.1 (h4 j)
        exact Fin.ext (by show (x j : ℕ) = (c j).toNat; omega)
      · rintro rfl
        refine ⟨Finset.mem_univ _, by norm_num, ?_⟩
        have : ∀ j, (c j - (((c j).toNat : ℕ) : ℤ)) ^ 2 = 0 := fun j => by
          rw [Int.toNat_of_nonneg (hin j).1]; simp
        simp only [this, Finset.sum_const_zero, Int.cast_zero]
        norm_num
    rw [h1, Finset.card_singleton]
    norm_num
  have h2 := h i c hc (.str "B")
  rw [e, if_neg (by simp)] at h2
  refine Eq.trans h2 ?_
  have e2 : List.count (.str "B") (PhasesArg.list [.str "A", .str "B", .str "B"]).seq = 2 := by decide
  have e3 : (PhasesArg.list [.str "A", .str "B", .str "B"]).seq.length = 3 := rfl
  rw [e2, e3, add_zero]
  norm_num

end Pyl
