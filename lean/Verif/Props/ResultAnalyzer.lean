import Verif.Props.Phases
import Verif.Lemmas.Round
import Verif.Lemmas.Json
/-
C72, C73, C84: the phases of a result, plotted steps, plotted traces.
-/
set_option autoImplicit false
set_option linter.unusedSectionVars false

namespace Pyl
open SimState Spec Analyzer SimResult ResultAnalyzer

/-- Every step of the result can be computed and analyzed. -/
def Spec.StepsAnalyzable (r : SimResult) : Prop := ∀ k : ℕ, k < r.len → ∃ s, r.getStep k = .ok s ∧ Analyzable s ∧ s.size ≠ 0

/-- The phase `v` is present at step `k`. -/
def Spec.PhaseAt (r : SimResult) (k : ℕ) (v : Val) : Prop := ∃ s key, r.getStep k = .ok s ∧ occ? s key = some v

theorem hashable_of_occ {s : SimState} (ho : Occupied s) {k : Key} {v : Val} (h : occ? s k = some v) : v.hashable = true := by
  obtain ⟨p, hp, -⟩ := occ?_eq.1 h
  obtain ⟨w, hw, hh⟩ := ho k (mem_of_siteState hp)
  rw [h] at hw; injection hw with hw; rw [hw]; exact hh

theorem cellFraction_none {s : SimState} (h : Analyzable s) (h0 : s.size ≠ 0) {v : Val} (hv : v.hashable = true) :
    cellFraction (K := Unit) (d := 0) none s v = .ok ((sitesWith s v : ℚ) / s.size) := by
  have : cellFraction (K := Unit) (d := 0) none s v = cellFraction (K := ℚ) (d := 0) none s v := rfl
  rw [this]
  unfold cellFraction
  rw [C71_count (K := ℚ) none s h (by intro S hS; cases hS) v hv, ok_bind, if_neg h0]; rfl

theorem foldlM_collect (order : ℕ → List Val → List Val) (hord : ∀ t l, (order t l).Perm l) (l : List SimState) (hl : ∀ s ∈ l, Analyzable s) (acc : List Val) (t : ℕ) :
    ∃ out t', l.foldlM (fun (x : List Val × ℕ) s => do
        let curr ← phasesPresent (order x.2) s
        pure (x.1 ++ curr, x.2 + 1)) (acc, t) = Except.ok (out, t') ∧ ∀ v, v ∈ out ↔ v ∈ acc ∨ ∃ s ∈ l, ∃ k, occ? s k = some v := by
  induction l generalizing acc t with
  | nil => exact ⟨acc, t, rfl, by simp⟩
  | cons s l ih =>
    have hs := hl s (by simp)
    obtain ⟨ph, h1, -, h3⟩ := phasesPresent_eq hs.1 hs.2.2 (order t) (hord t)
    obtain ⟨out, t', h4, h5⟩ := ih (fun s hs => hl s (by simp [hs])) (acc ++ ph) (t + 1)
    refine ⟨out, t', ?_, fun v => ?_⟩
    · rw [List.foldlM_cons]
      simp only [h1, ok_bind, pure, Except.pure] at h4 ⊢
      exact h4
    · rw [h5, List.mem_append, h3]
      simp only [List.mem_cons, exists_eq_or_imp]
      tauto

/-- What a first call of `all_phases` gives. -/
theorem allPhases_eq (s0 : SimState) (ops : List ROp) (h : StepsAnalyzable (resultAfter s0 ops)) (order : ℕ → List Val → List Val)
    (hord : ∀ t l, (order t l).Perm l) :
    ∃ l, ResultAnalyzer.new.allPhases (resultAfter s0 ops) order = .ok (l, ⟨some l⟩) ∧ l.Nodup ∧
      (∀ v, v ∈ l ↔ ∃ k, k + 1 < (resultAfter s0 ops).len ∧ PhaseAt (resultAfter s0 ops) k v) ∧ ∀ v ∈ l, v.hashable = true := by
  have hlast : ∃ s1, stepState s0 (added ops) (added ops).length = .ok s1 := by
    obtain ⟨s1, h1, -⟩ := h (added ops).length (by rw [C30_len]; omega)
    rw [C30_get_step _ _ _ (by rw [C30_len]; omega)] at h1
    exact ⟨s1, h1⟩
  obtain ⟨s1, hs1⟩ := hlast
  obtain ⟨l, h1, h2, h3⟩ := C32_steps_partial s0 s1 ops hs1
  have hl : ∀ s ∈ l, Analyzable s := by
    intro s hs
    obtain ⟨k, hk, rfl⟩ := List.getElem_of_mem hs
    obtain ⟨sk, h4, h5⟩ := h3 k hk
    rw [List.getElem?_eq_getElem hk] at h4; injection h4 with h4
    obtain ⟨s', h6, h7, -⟩ := h k (by omega)
    rw [h5] at h6; injection h6 with h6
    rw [h4, h6]; exact h7
  obtain ⟨out, t', h4, h5⟩ := foldlM_collect order hord l hl [] 0
  have hmem : ∀ v, v ∈ out ↔ ∃ k, k + 1 < (resultAfter s0 ops).len ∧ PhaseAt (resultAfter s0 ops) k v := by
    intro v
    rw [h5]
    constructor
    · rintro (h | ⟨s, hs, key, hk⟩)
      · simp at h
      · obtain ⟨k, hk', rfl⟩ := List.getElem_of_mem hs
        obtain ⟨sk, h6, h7⟩ := h3 k hk'
        rw [List.getElem?_eq_getElem hk'] at h6; injection h6 with h6
        exact ⟨k, by omega, _, key, h7, h6 ▸ hk⟩
    · rintro ⟨k, hk, s, key, h6, h7⟩
      obtain ⟨sk, h8, h9⟩ := h3 k (by omega)
      rw [h6] at h9; injection h9 with h9
      exact .inr ⟨s, List.mem_of_getElem? (h9 ▸ h8), key, h7⟩
  have hh : ∀ v ∈ out, v.hashable = true := by
    intro v hv
    rcases (h5 v).1 hv with h | ⟨s, hs, key, hk⟩
    · simp at h
    · exact hashable_of_occ (hl s hs).2.2 hk
  obtain ⟨r, h6, h7, h8⟩ := foldlM_addToSet out hh [] (by simp)
  have hr : ∀ v, v ∈ r ↔ v ∈ out := by intro v; rw [h8]; simp
  refine ⟨r, ?_, h7, fun v => by rw [hr, hmem], fun v hv => hh v ((hr v).1 hv)⟩
  have h9 : collect order l = .ok out := by unfold collect; rw [h4]; rfl
  unfold allPhases ResultAnalyzer.new
  simp only [h1, ok_bind, h9, h6]; rfl

/-- C72 (part): the first call of `all_phases` returns, without repetition, exactly the phases present at some step except the last one. -/
theorem C72_all_phases_partial (s0 : SimState) (ops : List ROp) (h : StepsAnalyzable (resultAfter s0 ops)) (order : ℕ → List Val → List Val)
    (hord : ∀ t l, (order t l).Perm l) :
    ∃ l A, ResultAnalyzer.new.allPhases (resultAfter s0 ops) order = .ok (l, A) ∧ l.Nodup ∧
      ∀ v, v ∈ l ↔ ∃ k, k + 1 < (resultAfter s0 ops).len ∧ PhaseAt (resultAfter s0 ops) k v := by
  obtain ⟨l, h1, h2, h3, -⟩ := allPhases_eq s0 ops h order hord
  exact ⟨l, _, h1, h2, h3⟩

theorem lastStep_eq (s0 : SimState) (ops : List ROp) : (resultAfter s0 ops).lastStep = (resultAfter s0 ops).getStep (((resultAfter s0 ops).len - 1 : ℕ) : ℤ) := by
  unfold lastStep
  congr 1
  rw [C30_len]; push_cast; omega

theorem foldlM_set {f : Val → ℚ} (l : List Val) (hn : l.Nodup) (acc : Dict Val ℚ) (ha : ∀ v ∈ l, v ∉ Dict.keys acc) {g : Val → Py ℚ}
    (hg : ∀ v ∈ l, g v = .ok (f v)) :
    l.foldlM (fun fracs v => do
      let y ← g v
      pure (Dict.set fracs v y)) acc = .ok (acc ++ l.map fun v => (v, f v)) := by
  induction l generalizing acc with
  | nil => simp [pure, Except.pure]
  | cons v l ih =>
    rw [List.foldlM_cons, hg v (by simp), ok_bind]
    simp only [pure, Except.pure, ok_bind]
    have h1 : Dict.set acc v (f v) = acc ++ [(v, f v)] := Structure.set_fresh _ _ _ (ha v (by simp))
    have h2 := ih (List.nodup_cons.1 hn).2 (acc ++ [(v, f v)]) (by
      intro w hw
      simp only [Dict.keys, List.map_append, List.mem_append, List.map_cons, List.map_nil, List.mem_singleton]
      rintro (h | rfl)
      · exact ha w (by simp [hw]) h
      · exact (List.nodup_cons.1 hn).1 hw) fun w hw => hg w (by simp [hw])
    simp only [pure, Except.pure] at h2
    rw [h1, h2]; simp

/-- C72 (part): `final_phase_fractions` gives, for each phase present at some step except the last, the part of the last step's sites that have it.  These
add up to 1 exactly when every phase of the last step occurs at an earlier step. -/
theorem C72_final_partial (s0 : SimState) (ops : List ROp) (h : StepsAnalyzable (resultAfter s0 ops)) (order : ℕ → List Val → List Val)
    (hord : ∀ t l, (order t l).Perm l) :
    ∃ (fr : Dict Val ℚ) (last : SimState), finalPhaseFractions ResultAnalyzer.new (resultAfter s0 ops) order = .ok fr ∧ (resultAfter s0 ops).lastStep = .ok last ∧
      (Dict.keys fr).Nodup ∧ (∀ v, v ∈ Dict.keys fr ↔ ∃ k, k + 1 < (resultAfter s0 ops).len ∧ PhaseAt (resultAfter s0 ops) k v) ∧
      (∀ v f, (v, f) ∈ fr → f = (sitesWith last v : ℚ) / last.size) ∧
      ((Dict.values fr).sum = 1 ↔ ∀ key v, occ? last key = some v → ∃ k, k + 1 < (resultAfter s0 ops).len ∧ PhaseAt (resultAfter s0 ops) k v) := by
  obtain ⟨l, h1, h2, h3, h4⟩ := allPhases_eq s0 ops h order hord
  obtain ⟨last, h5, h6, h7⟩ := h ((resultAfter s0 ops).len - 1) (by rw [C30_len]; omega)
  rw [← lastStep_eq] at h5
  refine ⟨l.map fun v => (v, (sitesWith last v : ℚ) / last.size), last, ?_, h5, ?_, ?_, ?_, ?_⟩
  · unfold finalPhaseFractions
    rw [h1, ok_bind]
    have := foldlM_set (f := fun v => (sitesWith last v : ℚ) / last.size) l h2 [] (by simp [Dict.keys]) (g := fun v => do
      let s ← (resultAfter s0 ops).lastStep
      cellFraction (K := Unit) (d := 0) none s v) (by
        intro v hv
        simp only [h5, ok_bind]
        exact cellFraction_none h6 h7 (h4 v hv))
    simp only [h5, ok_bind] at this ⊢
    rw [this]; rfl
  · simpa [Dict.keys, Function.comp_def] using h2
  · intro v
    rw [← h3]
    simp [Dict.keys, Function.comp_def]
  · intro v f hf
    obtain ⟨w, -, e⟩ := List.mem_map.1 hf
    injection e with e1 e2
    subst e1; exact e2.symm
  · have hz : (last.size : ℚ) ≠ 0 := by exact_mod_cast h7
    have hv : (Dict.values (l.map fun v => (v, (sitesWith last v : ℚ) / last.size))).sum = ((l.map fun v => sitesWith last v).sum : ℕ) / (last.size : ℚ) := by
      simp only [Dict.values, List.map_map, Function.comp_def]
      clear h1 h2 h3 h4
      induction l with
      | nil => simp
      | cons v l ih => rw [List.map_cons, List.sum_cons, ih, List.map_cons, List.sum_cons]; push_cast; ring
    rw [hv, div_eq_one_iff_eq hz]
    simp only [← h3]
    constructor
    · intro he key v hk
      by_contra hc
      have he' : (l.map fun v => sitesWith last v).sum = last.size := by exact_mod_cast he
      obtain ⟨ph, -, hn, hph⟩ := phasesPresent_eq h6.1 h6.2.2 id (fun _ => .refl _)
      have h8 : ((l ++ ph.filter fun v => v ∉ l).map fun v => sitesWith last v).sum = last.size := by
        refine sum_sitesWith h6.2.2 ?_ ?_
        · refine List.nodup_append.2 ⟨h2, hn.filter _, ?_⟩
          intro a ha b hb e
          subst e
          simpa [ha] using (List.mem_filter.1 hb).2
        · intro k v hk
          by_cases hv : v ∈ l
          · simp [hv]
          · rw [List.mem_append, List.mem_filter]
            exact .inr ⟨(hph v).2 ⟨k, hk⟩, by simpa using hv⟩
      rw [List.map_append, List.sum_append, he'] at h8
      have h9 : sitesWith last v = 0 := by
        have h10 : ((ph.filter fun v => v ∉ l).map fun v => sitesWith last v).sum = 0 := by omega
        exact (List.sum_eq_zero_iff.1 h10) _ (List.mem_map.2 ⟨v, List.mem_filter.2 ⟨(hph v).2 ⟨key, hk⟩, by simpa using hc⟩, rfl⟩)
      unfold sitesWith at h9
      rw [List.length_eq_zero_iff] at h9
      obtain ⟨p, hp, -⟩ := occ?_eq.1 hk
      have : key ∈ last.siteIds.filter fun k => decide (occ? last k = some v) := List.mem_filter.2 ⟨mem_of_siteState hp, by simpa using hk⟩
      rw [h9] at this; simp at this
    · intro hc
      have := sum_sitesWith h6.2.2 h2 hc
      exact_mod_cast this

/-! ### C73 -/

theorem stepSize_pos (n : ℕ) : 1 ≤ stepSize n := le_max_left _ _

theorem stepSize_small {n : ℕ} (h0 : n ≠ 0) (h : n < 150) : stepSize n = 1 := by
  have h1 : roundHalfEven ((n : ℚ) / (min 100 n : ℕ)) = 1 := by
    refine roundHalfEven_eq_iff.2 (.inl ?_)
    by_cases hn : n ≤ 100
    · rw [min_eq_right hn, div_self (by exact_mod_cast h0)]; norm_num
    · rw [min_eq_left (by omega)]
      have h1 : (100 : ℚ) < n := by exact_mod_cast (by omega : 100 < n)
      have h2 : (n : ℚ) < 150 := by exact_mod_cast h
      rw [abs_lt]; push_cast
      constructor <;> linarith
  unfold stepSize
  rw [h1]; rfl

theorem stepSize_large {n : ℕ} (h : 150 ≤ n) : 2 ≤ stepSize n ∧ (n : ℤ) ≤ 100 * stepSize n + 50 := by
  have hr := nearest_roundHalfEven ((n : ℚ) / (min 100 n : ℕ))
  rw [min_eq_left (by omega : 100 ≤ n)] at hr
  have h1 := abs_le.1 hr.le
  have hn : (150 : ℚ) ≤ n := by exact_mod_cast h
  set k := roundHalfEven ((n : ℚ) / ((100 : ℕ) : ℚ)) with hk
  push_cast at h1
  have hk2 : 2 ≤ k := by
    by_contra hc
    have hk1 : (k : ℚ) ≤ 1 := by exact_mod_cast (by omega : k ≤ 1)
    have : k = 1 := by
      have : (1 : ℚ) ≤ k := by linarith [h1.2]
      have : 1 ≤ k := by exact_mod_cast this
      omega
    rcases hr with h2 | ⟨-, h2⟩
    · rw [abs_lt] at h2; push_cast at h2; rw [this] at h2; push_cast at h2; linarith [h2.2]
    · omega
  have he : stepSize n = k := by
    unfold stepSize
    rw [min_eq_left (by omega : 100 ≤ n), ← hk]; omega
  rw [he]
  refine ⟨hk2, ?_⟩
  have : (n : ℚ) ≤ 100 * k + 50 := by linarith [h1.2]
  exact_mod_cast this

theorem stepRange_mem {n : ℕ} {k : ℤ} (hk : 1 ≤ k) {x : ℤ} (hx : x ∈ stepRange n k) : 0 ≤ x ∧ x < n ∧ k ∣ x := by
  obtain ⟨i, hi, rfl⟩ := List.mem_map.1 hx
  rw [List.mem_range] at hi
  have h1 : (i : ℤ) + 1 ≤ ((n : ℤ) + k - 1) / k := by omega
  have h2 := Int.mul_le_of_le_ediv (by omega) h1
  refine ⟨by positivity, by nlinarith, dvd_mul_left _ _⟩

theorem stepRange_strict {n : ℕ} {k : ℤ} (hk : 1 ≤ k) : (stepRange n k).Pairwise (· < ·) := by
  refine List.pairwise_map.2 ((List.pairwise_lt_range).imp ?_)
  intro a b h
  have : (a : ℤ) < b := by exact_mod_cast h
  nlinarith

theorem stepRange_length {n : ℕ} {k : ℤ} : (stepRange n k).length = (((n : ℤ) + k - 1) / k).toNat := by simp [stepRange]

theorem mem_stepRange {n : ℕ} {k : ℤ} (hk : 1 ≤ k) {x : ℤ} : x ∈ stepRange n k ↔ 0 ≤ x ∧ x < n ∧ k ∣ x := by
  refine ⟨stepRange_mem hk, ?_⟩
  rintro ⟨h1, h2, i, rfl⟩
  have hi : 0 ≤ i := by by_contra hc; nlinarith
  refine List.mem_map.2 ⟨i.toNat, ?_, by rw [Int.toNat_of_nonneg hi, mul_comm]⟩
  rw [List.mem_range]
  have h3 : i + 1 ≤ ((n : ℤ) + k - 1) / k := by rw [Int.le_ediv_iff_mul_le (by omega)]; nlinarith
  omega

/-- C73: the plotted step numbers are the multiples, below the number of steps, of some distance; they start at 0, increase, and are at most 149, the bound
being attained. -/
theorem C73_steps (n : ℕ) (h : n ≠ 0) :
    (∃ k : ℤ, 1 ≤ k ∧ ∀ x, x ∈ stepRange n (stepSize n) ↔ 0 ≤ x ∧ x < n ∧ k ∣ x) ∧ (stepRange n (stepSize n)).head? = some 0 ∧
      (stepRange n (stepSize n)).Pairwise (· < ·) ∧ (stepRange n (stepSize n)).length ≤ 149 ∧ (n < 150 → (stepRange n (stepSize n)).length = n) := by
  have hk := stepSize_pos n
  refine ⟨⟨_, hk, fun x => mem_stepRange hk⟩, ?_, stepRange_strict hk, ?_, ?_⟩
  · unfold stepRange
    have : 1 ≤ ((n : ℤ) + stepSize n - 1) / stepSize n := by rw [Int.le_ediv_iff_mul_le (by omega)]; omega
    obtain ⟨m, hm⟩ : ∃ m, (((n : ℤ) + stepSize n - 1) / stepSize n).toNat = m + 1 := ⟨(((n : ℤ) + stepSize n - 1) / stepSize n).toNat - 1, by omega⟩
    rw [hm, List.range_succ_eq_map]; simp
  · rw [stepRange_length]
    by_cases hn : n < 150
    · rw [stepSize_small h hn]; omega
    · obtain ⟨h1, h2⟩ := stepSize_large (by omega : 150 ≤ n)
      have : ((n : ℤ) + stepSize n - 1) / stepSize n < 150 := by
        rw [Int.ediv_lt_iff_lt_mul (by omega)]; omega
      omega
  · intro hn
    rw [stepRange_length, stepSize_small h hn]; omega

theorem loadSteps_after (s0 : SimState) (ops : List ROp) (h : StepsAnalyzable (resultAfter s0 ops)) (k : ℤ) (hk : 1 ≤ k) :
    (resultAfter s0 ops).loadSteps k = .ok (resultAfter s0 (ops ++ [.load k])) := by
  have hlast : ∃ s1, stepState s0 (added ops) (added ops).length = .ok s1 := by
    obtain ⟨s1, h1, -⟩ := h (added ops).length (by rw [C30_len]; omega)
    rw [C30_get_step _ _ _ (by rw [C30_len]; omega)] at h1
    exact ⟨s1, h1⟩
  obtain ⟨s1, hs1⟩ := hlast
  have hrep : replay (resultAfter s0 ops).initial (resultAfter s0 ops).diffs = .ok s1 := by
    rw [after_initial, after_diffs]
    rw [stepState_eq _ _ _ le_rfl, replayTo_length] at hs1
    exact hs1
  obtain ⟨r', hr'⟩ := C34_succeeds _ s1 hrep k (by omega)
  rw [hr']
  have he : resultAfter s0 (ops ++ [.load k]) = ((resultAfter s0 ops).loadStepsEff k).1 := by
    simp [resultAfter, List.foldl_append, ROp.effect]
  rw [he]
  unfold loadSteps at hr'
  simp only [loadLoop_eff] at hr'
  unfold loadStepsEff
  simp only
  generalize loadLoopEff k 0 (resultAfter s0 ops).initial.copy (resultAfter s0 ops).diffs
    (Dict.set (resultAfter s0 ops).stored 0 (resultAfter s0 ops).initial.copy) = x at hr' ⊢
  obtain ⟨st, e⟩ := x
  cases e with
  | none => simp only [ok_bind, pure, Except.pure] at hr'; exact hr'.symm
  | some e => simp only [bind, Except.bind] at hr'; cases hr'

theorem added_load (ops : List ROp) (k : ℤ) : added (ops ++ [.load k]) = added ops := by
  induction ops with
  | nil => rfl
  | cons o ops ih => cases o <;> simp [added, ih]

/-- C73: `_get_steps_to_plot` succeeds, the states it returns are the steps with the returned numbers, and it changes no step of the result. -/
theorem C73_states (s0 : SimState) (ops : List ROp) (h : StepsAnalyzable (resultAfter s0 ops)) :
    ∃ states r', getStepsToPlot (resultAfter s0 ops) = .ok (stepRange (resultAfter s0 ops).len (stepSize (resultAfter s0 ops).len), states, r') ∧
      (∃ k, r' = resultAfter s0 (ops ++ [.load k])) ∧
      states.length = (stepRange (resultAfter s0 ops).len (stepSize (resultAfter s0 ops).len)).length ∧
      (∀ (i : ℕ) (x : ℤ), (stepRange (resultAfter s0 ops).len (stepSize (resultAfter s0 ops).len))[i]? = some x →
        ∃ s, states[i]? = some s ∧ (resultAfter s0 ops).getStep x = .ok s) ∧
      r'.len = (resultAfter s0 ops).len ∧ ∀ j : ℕ, j < r'.len → r'.getStep j = (resultAfter s0 ops).getStep j := by
  have hk := stepSize_pos (resultAfter s0 ops).len
  set k := stepSize (resultAfter s0 ops).len with hkd
  have hlen : (resultAfter s0 (ops ++ [.load k])).len = (resultAfter s0 ops).len := by rw [C30_len, C30_len, added_load]
  have hget : ∀ j : ℕ, j < (resultAfter s0 ops).len → (resultAfter s0 (ops ++ [.load k])).getStep j = (resultAfter s0 ops).getStep j := by
    intro j hj
    rw [C30_get_step _ _ _ hj, C30_get_step _ _ _ (by rw [hlen]; exact hj), added_load]
  have hne : (resultAfter s0 ops).len ≠ 0 := by rw [C30_len]; omega
  have hst : ∀ x ∈ stepRange (resultAfter s0 ops).len k, (resultAfter s0 (ops ++ [.load k])).getStep x =
      .ok (((resultAfter s0 ops).getStep x).toOption.getD .empty) ∧ (resultAfter s0 ops).getStep x = .ok (((resultAfter s0 ops).getStep x).toOption.getD .empty) := by
    intro x hx
    obtain ⟨h1, h2, -⟩ := stepRange_mem hk hx
    obtain ⟨j, rfl⟩ := Int.eq_ofNat_of_zero_le h1
    have hj : j < (resultAfter s0 ops).len := by omega
    obtain ⟨s, hs, -⟩ := h j hj
    rw [hget j hj, hs]
    exact ⟨rfl, rfl⟩
  refine ⟨(stepRange (resultAfter s0 ops).len k).map fun x => ((resultAfter s0 ops).getStep x).toOption.getD .empty, resultAfter s0 (ops ++ [.load k]),
    ?_, ⟨k, rfl⟩, by simp, ?_, hlen, fun j hj => hget j (hlen ▸ hj)⟩
  · unfold getStepsToPlot
    rw [if_neg hne]
    simp only [← hkd]
    rw [loadSteps_after s0 ops h k hk, ok_bind, hlen, mapM_ok _ fun x hx => (hst x hx).1, ok_bind]; rfl
  · intro i x hi
    refine ⟨_, by rw [List.getElem?_map, hi]; rfl, (hst x (List.mem_of_getElem? hi)).2⟩

/-! ### C84 -/

theorem phaseAt_load (s0 : SimState) (ops : List ROp) (m : ℤ) {k : ℕ} (hk : k < (resultAfter s0 ops).len) (v : Val) :
    PhaseAt (resultAfter s0 (ops ++ [.load m])) k v ↔ PhaseAt (resultAfter s0 ops) k v := by
  unfold PhaseAt
  rw [C30_get_step _ _ _ hk, C30_get_step _ _ _ (by rw [C30_len, added_load, ← C30_len s0 ops]; exact hk), added_load]

theorem stepsAnalyzable_load {s0 : SimState} {ops : List ROp} (h : StepsAnalyzable (resultAfter s0 ops)) (m : ℤ) :
    StepsAnalyzable (resultAfter s0 (ops ++ [.load m])) := by
  intro k hk
  have hk' : k < (resultAfter s0 ops).len := by rwa [C30_len, added_load, ← C30_len s0 ops] at hk
  obtain ⟨s, h1, h2⟩ := h k hk'
  refine ⟨s, ?_, h2⟩
  rw [C30_get_step _ _ _ hk, added_load, ← C30_get_step _ _ _ hk', h1]

/-- The fraction of the phase at a step. -/
noncomputable def Spec.fractionAt (r : SimResult) (v : Val) (x : ℤ) : ℚ :=
  match r.getStep x with
  | .ok s => (sitesWith s v : ℚ) / s.size
  | .error _ => 0

/-- What `plot_phase_fractions` works with: the plotted steps, their states, and the phases. -/
theorem plot_parts (s0 : SimState) (ops : List ROp) (h : StepsAnalyzable (resultAfter s0 ops)) (order : ℕ → List Val → List Val)
    (hord : ∀ t l, (order t l).Perm l) :
    ∃ (states : List SimState) (r' : SimResult) (l : List Val) (right : ℤ),
      getStepsToPlot (resultAfter s0 ops) = .ok (stepRange (resultAfter s0 ops).len (stepSize (resultAfter s0 ops).len), states, r') ∧
      (stepRange (resultAfter s0 ops).len (stepSize (resultAfter s0 ops).len)).getLast? = some right ∧
      ResultAnalyzer.new.allPhases r' order = .ok (l, ⟨some l⟩) ∧ l.Nodup ∧ (∀ v ∈ l, v.hashable = true) ∧
      (∀ v, v ∈ l ↔ ∃ k, k + 1 < (resultAfter s0 ops).len ∧ PhaseAt (resultAfter s0 ops) k v) ∧
      (∀ s ∈ states, ∃ k : ℕ, k < (resultAfter s0 ops).len ∧ (resultAfter s0 ops).getStep k = .ok s ∧ Analyzable s ∧ s.size ≠ 0) ∧
      ∀ v, states.map (fun s => (sitesWith s v : ℚ) / s.size) =
        (stepRange (resultAfter s0 ops).len (stepSize (resultAfter s0 ops).len)).map (fractionAt (resultAfter s0 ops) v) := by
  obtain ⟨states, r', h1, ⟨m, rfl⟩, h2, h3, -, -⟩ := C73_states s0 ops h
  obtain ⟨l, h4, h5, h6, h7⟩ := allPhases_eq s0 (ops ++ [.load m]) (stepsAnalyzable_load h m) order hord
  have hne : (resultAfter s0 ops).len ≠ 0 := by rw [C30_len]; omega
  have hhead := (C73_steps _ hne).2.1
  set idxs := stepRange (resultAfter s0 ops).len (stepSize (resultAfter s0 ops).len) with hidx
  have hin : idxs ≠ [] := by rintro e; rw [e] at hhead; simp at hhead
  obtain ⟨right, hright⟩ : ∃ x, idxs.getLast? = some x := by rw [List.getLast?_eq_some_getLast hin]; exact ⟨_, rfl⟩
  have hst : ∀ s ∈ states, ∃ k : ℕ, k < (resultAfter s0 ops).len ∧ (resultAfter s0 ops).getStep k = .ok s ∧ Analyzable s ∧ s.size ≠ 0 := by
    intro s hs
    obtain ⟨i, hi, rfl⟩ := List.getElem_of_mem hs
    obtain ⟨s', h8, h9⟩ := h3 i idxs[i] (List.getElem?_eq_getElem (h2 ▸ hi))
    rw [List.getElem?_eq_getElem hi] at h8; injection h8 with h8
    obtain ⟨h10, h11, -⟩ := stepRange_mem (stepSize_pos _) (List.getElem_mem (h2 ▸ hi : i < idxs.length))
    obtain ⟨k, hk⟩ := Int.eq_ofNat_of_zero_le h10
    rw [hk] at h9
    have hk' : k < (resultAfter s0 ops).len := by rw [hk] at h11; omega
    obtain ⟨s2, h12, h13⟩ := h k hk'
    rw [h9] at h12; injection h12 with h12
    exact ⟨k, hk', h8 ▸ h9, by rw [h8, h12]; exact h13⟩
  have hys : ∀ v : Val, states.map (fun s => (sitesWith s v : ℚ) / s.size) = idxs.map (fractionAt (resultAfter s0 ops) v) := by
    intro v
    refine List.ext_getElem? fun i => ?_
    rw [List.getElem?_map, List.getElem?_map]
    cases hi : idxs[i]? with
    | none =>
      rw [List.getElem?_eq_none_iff] at hi
      rw [List.getElem?_eq_none (h2 ▸ hi)]; rfl
    | some x =>
      obtain ⟨s', h8, h9⟩ := h3 i x hi
      rw [h8]
      simp only [Option.map_some, fractionAt, h9]
  have hph : ∀ v, v ∈ l ↔ ∃ k, k + 1 < (resultAfter s0 ops).len ∧ PhaseAt (resultAfter s0 ops) k v := by
    intro v
    rw [h6]
    have : (resultAfter s0 (ops ++ [.load m])).len = (resultAfter s0 ops).len := by rw [C30_len, C30_len, added_load]
    rw [this]
    constructor
    · rintro ⟨k, hk, hv⟩; exact ⟨k, hk, (phaseAt_load s0 ops m (by omega) v).1 hv⟩
    · rintro ⟨k, hk, hv⟩; exact ⟨k, hk, (phaseAt_load s0 ops m (by omega) v).2 hv⟩
  exact ⟨states, _, l, right, h1, hright, h4, h5, h7, hph, hst, hys⟩

/-- C84 (part): the traces of `plot_phase_fractions` are, once each, the phases present at some step except the last whose fraction exceeds the threshold at
a plotted step; the x values are the plotted steps, the y values the phase's fractions at these steps; the x axis ends at the last plotted step. -/
theorem C84_traces_partial (s0 : SimState) (ops : List ROp) (h : StepsAnalyzable (resultAfter s0 ops)) (order : ℕ → List Val → List Val)
    (hord : ∀ t l, (order t l).Perm l) (minPrevalence : ℚ) :
    ∃ traces right, plotPhaseFractions ResultAnalyzer.new (resultAfter s0 ops) order minPrevalence = .ok (traces, right) ∧
      (traces.map fun t => t.1).Nodup ∧
      (∀ v, v ∈ (traces.map fun t => t.1) ↔ (∃ k, k + 1 < (resultAfter s0 ops).len ∧ PhaseAt (resultAfter s0 ops) k v) ∧
        ∃ x ∈ stepRange (resultAfter s0 ops).len (stepSize (resultAfter s0 ops).len), minPrevalence < fractionAt (resultAfter s0 ops) v x) ∧
      (∀ t ∈ traces, t.2.1 = stepRange (resultAfter s0 ops).len (stepSize (resultAfter s0 ops).len) ∧ t.2.2 = t.2.1.map (fractionAt (resultAfter s0 ops) t.1)) ∧
      (stepRange (resultAfter s0 ops).len (stepSize (resultAfter s0 ops).len)).getLast? = some right := by
  obtain ⟨states, r', l, right, h1, hright, h4, h5, h7, hph, hst, hmap⟩ := plot_parts s0 ops h order hord
  set idxs := stepRange (resultAfter s0 ops).len (stepSize (resultAfter s0 ops).len) with hidx
  have hys : ∀ v : Val, v.hashable = true → (states.mapM fun s => cellFraction (K := Unit) (d := 0) none s v) = .ok (idxs.map (fractionAt (resultAfter s0 ops) v)) := by
    intro v hv
    rw [mapM_ok (g := fun s : SimState => (sitesWith s v : ℚ) / s.size) states fun s hs => by
      obtain ⟨k, -, -, h8, h9⟩ := hst s hs
      exact cellFraction_none h8 h9 hv, hmap]
  have htr : ∀ t : Val × List ℤ × List ℚ, t ∈ (l.map fun v => (v, idxs, idxs.map (fractionAt (resultAfter s0 ops) v))).filter
      (fun t => decide (∃ y ∈ t.2.2, minPrevalence < y)) ↔ t.1 ∈ l ∧ t.2.1 = idxs ∧ t.2.2 = idxs.map (fractionAt (resultAfter s0 ops) t.1) ∧
        ∃ x ∈ idxs, minPrevalence < fractionAt (resultAfter s0 ops) t.1 x := by
    intro t
    rw [List.mem_filter, List.mem_map, decide_eq_true_eq]
    constructor
    · rintro ⟨⟨v, hv, rfl⟩, y, hy, hm⟩
      obtain ⟨x, hx, rfl⟩ := List.mem_map.1 hy
      exact ⟨hv, rfl, rfl, x, hx, hm⟩
    · rintro ⟨h8, h9, h10, x, hx, hm⟩
      exact ⟨⟨t.1, h8, by rw [← h10, ← h9]⟩, _, h10 ▸ List.mem_map_of_mem hx, hm⟩
  refine ⟨(l.map fun v => (v, idxs, idxs.map (fractionAt (resultAfter s0 ops) v))).filter fun t => decide (∃ y ∈ t.2.2, minPrevalence < y), right, ?_, ?_, ?_, ?_, hright⟩
  · unfold plotPhaseFractions
    rw [h1, ok_bind]
    simp only [hright, h4, ok_bind]
    rw [mapM_ok (g := fun v => (v, idxs, idxs.map (fractionAt (resultAfter s0 ops) v))) l fun v hv => by rw [hys v (h7 v hv)]; rfl]
    rfl
  · refine List.Nodup.sublist (List.Sublist.map _ (List.filter_sublist)) ?_
    rw [List.map_map]
    simpa [Function.comp_def] using h5
  · intro v
    rw [List.mem_map]
    constructor
    · rintro ⟨t, ht, rfl⟩
      obtain ⟨h8, -, -, h9⟩ := (htr t).1 ht
      exact ⟨(hph _).1 h8, h9⟩
    · rintro ⟨h8, h9⟩
      exact ⟨(v, idxs, idxs.map (fractionAt (resultAfter s0 ops) v)), (htr _).2 ⟨(hph v).2 h8, rfl, rfl, h9⟩, rfl⟩
  · intro t ht
    obtain ⟨-, h8, h9, -⟩ := (htr t).1 ht
    exact ⟨h8, by rw [h9, h8]⟩

/-! ### A result whose last step has a new phase -/

/-- One site with the given phase. -/
def oneSite (v : Val) : SimState := ⟨[(.int 0, [(SITE_ID, .num 0), (DISCRETE_OCCUPANCY, v)])], some []⟩

/-- The site changes from A to B. -/
def aToB : List ROp := [.add (some [(.int 0, .dict [(DISCRETE_OCCUPANCY, .str "B")])])]

theorem oneSite_get {v : Val} {k : Key} {p : Props} (h : (oneSite v).getSiteState k = some p) :
    k = .int 0 ∧ p = [(SITE_ID, .num 0), (DISCRETE_OCCUPANCY, v)] := by
  have := Dict.mem_of_get? h
  simp only [oneSite, List.mem_singleton, Prod.mk.injEq] at this
  exact this

theorem oneSite_occ {v w : Val} {k : Key} : occ? (oneSite v) k = some w ↔ k = .int 0 ∧ w = v := by
  rw [occ?_eq]
  constructor
  · rintro ⟨p, hp, hw⟩
    obtain ⟨rfl, rfl⟩ := oneSite_get hp
    have : Dict.get? [(SITE_ID, Val.num 0), (DISCRETE_OCCUPANCY, v)] DISCRETE_OCCUPANCY = some v := rfl
    rw [this] at hw; injection hw with hw
    exact ⟨rfl, hw.symm⟩
  · rintro ⟨rfl, rfl⟩
    exact ⟨_, rfl, rfl⟩

theorem analyzable_oneSite {v : Val} (hv : v.hashable = true) (hw : v.WF) : Analyzable (oneSite v) := by
  refine ⟨⟨by simp [oneSite, Dict.WF, Dict.keys], ?_, ?_⟩, ?_, ?_⟩
  · intro kv hkv
    simp only [oneSite, List.mem_singleton] at hkv
    subst hkv
    refine .dict (by simp [Dict.WF, Dict.keys, SITE_ID, DISCRETE_OCCUPANCY]) ?_
    intro kv hkv
    simp only [List.mem_cons, List.not_mem_nil, or_false] at hkv
    rcases hkv with rfl | rfl
    · exact .num _
    · exact hw
  · intro g hg
    simp only [oneSite, Option.some.injEq] at hg
    subst hg
    exact .dict (by simp [Dict.WF, Dict.keys]) (by simp)
  · intro k p hp
    obtain ⟨rfl, rfl⟩ := oneSite_get hp
    rfl
  · intro k hk
    have : k = .int 0 := by simpa [SimState.siteIds, oneSite, Dict.keys] using hk
    exact ⟨v, oneSite_occ.2 ⟨this, rfl⟩, hv⟩

theorem aToB_steps : (resultAfter (oneSite (.str "A")) aToB).getStep 0 = .ok (oneSite (.str "A")) ∧
    (resultAfter (oneSite (.str "A")) aToB).getStep 1 = .ok (oneSite (.str "B")) ∧ (resultAfter (oneSite (.str "A")) aToB).len = 2 :=
  ⟨rfl, rfl, rfl⟩

theorem aToB_analyzable : StepsAnalyzable (resultAfter (oneSite (.str "A")) aToB) := by
  intro k hk
  obtain ⟨h0, h1, h2⟩ := aToB_steps
  rw [h2] at hk
  rcases (by omega : k = 0 ∨ k = 1) with rfl | rfl
  · exact ⟨_, h0, analyzable_oneSite rfl (.str _), by decide⟩
  · exact ⟨_, h1, analyzable_oneSite rfl (.str _), by decide⟩

theorem aToB_phases (v : Val) : (∃ k, k + 1 < (resultAfter (oneSite (.str "A")) aToB).len ∧ PhaseAt (resultAfter (oneSite (.str "A")) aToB) k v) ↔ v = .str "A" := by
  obtain ⟨h0, h1, h2⟩ := aToB_steps
  rw [h2]
  constructor
  · rintro ⟨k, hk, s, key, h3, h4⟩
    have : k = 0 := by omega
    subst this
    have h5 := h0.symm.trans h3
    injection h5 with h5; subst h5
    exact (oneSite_occ.1 h4).2
  · rintro rfl
    exact ⟨0, by omega, _, .int 0, h0, oneSite_occ.2 ⟨rfl, rfl⟩⟩

/-- C72 is false: when the site of a one-site state goes from A to B, `all_phases` is {A} although B is present at step 1, and `final_phase_fractions` is
{A: 0}, which does not add up to 1. -/
theorem C72_false (order : ℕ → List Val → List Val) (hord : ∀ t l, (order t l).Perm l) :
    PhaseAt (resultAfter (oneSite (.str "A")) aToB) 1 (.str "B") ∧
    (∃ A, ResultAnalyzer.new.allPhases (resultAfter (oneSite (.str "A")) aToB) order = .ok ([.str "A"], A)) ∧
    finalPhaseFractions ResultAnalyzer.new (resultAfter (oneSite (.str "A")) aToB) order = .ok [(.str "A", 0)] := by
  refine ⟨⟨_, .int 0, aToB_steps.2.1, oneSite_occ.2 ⟨rfl, rfl⟩⟩, ?_, ?_⟩
  · obtain ⟨l, A, h1, h2, h3⟩ := C72_all_phases_partial _ _ aToB_analyzable order hord
    have : l = [.str "A"] := List.Perm.eq_singleton ((List.perm_ext_iff_of_nodup h2 (by simp)).2 fun v => by rw [h3, aToB_phases]; simp)
    exact ⟨A, this ▸ h1⟩
  · obtain ⟨fr, last, h1, h2, h3, h4, h5, -⟩ := C72_final_partial _ _ aToB_analyzable order hord
    rw [h1]
    have hl : last = oneSite (.str "B") := by
      have h6 : (resultAfter (oneSite (.str "A")) aToB).lastStep = .ok (oneSite (.str "B")) := rfl
      rw [h6] at h2; injection h2 with h2; exact h2.symm
    have hk : Dict.keys fr = [.str "A"] := List.Perm.eq_singleton ((List.perm_ext_iff_of_nodup h3 (by simp)).2 fun v => by rw [h4, aToB_phases]; simp)
    match fr, hk, h5 with
    | [], hk, _ => simp [Dict.keys] at hk
    | [(v, f)], hk, h5 =>
      simp only [Dict.keys, List.map_cons, List.map_nil, List.cons.injEq, and_true] at hk
      have h6 := h5 v f (by simp)
      subst hl
      have h7 : sitesWith (oneSite (.str "B")) (.str "A") = 0 := by decide +kernel
      rw [hk, h7] at h6
      rw [hk, h6]; simp
    | _ :: _ :: _, hk, _ => simp [Dict.keys] at hk

/-- C72: later calls on the same analyzer repeat the first answer, whatever was added to the result in between. -/
theorem C72_stale (order order' : ℕ → List Val → List Val) (hord : ∀ t l, (order t l).Perm l) (ops : List ROp) (s0 : SimState)
    (h : StepsAnalyzable (resultAfter s0 ops)) (later : List ROp) :
    ∃ l A, ResultAnalyzer.new.allPhases (resultAfter s0 ops) order = .ok (l, A) ∧ A.allPhases (resultAfter s0 (ops ++ later)) order' = .ok (l, A) := by
  obtain ⟨l, h1, -, -, -⟩ := allPhases_eq s0 ops h order hord
  exact ⟨l, _, h1, rfl⟩

/-- C84 is false: in the same run, phase B has fraction 1 at the plotted step 1 but no trace. -/
theorem C84_false (order : ℕ → List Val → List Val) (hord : ∀ t l, (order t l).Perm l) :
    ∃ traces right, plotPhaseFractions ResultAnalyzer.new (resultAfter (oneSite (.str "A")) aToB) order (1/100) = .ok (traces, right) ∧ right = 1 ∧
      fractionAt (resultAfter (oneSite (.str "A")) aToB) (.str "B") 1 = 1 ∧ ∀ t ∈ traces, t.1 ≠ .str "B" := by
  obtain ⟨traces, right, h1, -, h2, -, h3⟩ := C84_traces_partial _ _ aToB_analyzable order hord (1/100)
  rw [aToB_steps.2.2, stepSize_small (by omega) (by omega)] at h3
  refine ⟨traces, right, h1, ?_, ?_, ?_⟩
  · have : (stepRange 2 1).getLast? = some 1 := rfl
    rw [this] at h3; injection h3 with h3; exact h3.symm
  · unfold fractionAt
    rw [aToB_steps.2.1]
    have h7 : sitesWith (oneSite (.str "B")) (.str "B") = 1 := by decide +kernel
    have h8 : (oneSite (.str "B")).size = 1 := rfl
    simp [h7, h8]
  · intro t ht e
    have := ((h2 t.1).1 (List.mem_map_of_mem ht)).1
    rw [aToB_phases, e] at this
    simp at this

end Pyl
