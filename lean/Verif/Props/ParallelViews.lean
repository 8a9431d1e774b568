import Verif.Spec.Parallel
import Verif.Lemmas.ParallelBy
/-
C89: what a parallel run computes, for every schedule.
-/
set_option autoImplicit false

namespace Pyl
open SimState Spec

theorem seenL_reached (sched : ℕ → StepSched) (v : ℕ) (ds : List Props) (k : ℕ) (hk : k ≤ ds.length) :
    seenL sched v (ds.take k) = (reached sched v k).map fun m => ds.getD m [] := by
  induction k with
  | zero => simp [seenL, reached]
  | succ k ih =>
    have hlt : k < ds.length := by omega
    rw [List.take_succ_eq_append_getElem hlt, seenL_snoc, ih (by omega)]
    unfold reached
    rw [List.range_succ, List.filter_append, List.map_append, List.length_take, Nat.min_eq_left hlt.le]
    congr 1
    by_cases h : v ∈ (sched (k + 1)).workers
    · have h' : v ∈ (sched (k + 1)).map Prod.snd := h
      rw [if_pos h, List.filter_cons_of_pos (by simpa using h')]
      simp [List.getElem?_eq_getElem hlt]
    · have h' : v ∉ (sched (k + 1)).map Prod.snd := h
      rw [if_neg h, List.filter_cons_of_neg (by simpa using h')]
      simp

theorem stateOf_after {ids : List Key} {s : SimState} (hs : ViewOf ids s) (ds : List Props) (hds : ∀ p ∈ ds, PatchOf ids p) (l : List ℕ)
    (hl : ∀ m ∈ l, m < ds.length ∧ ds.getD m [] ≠ []) :
    stateOf s (ds.map fun p => (updOf p).map Upd.toProps) l = .ok (after s (l.map fun m => ds.getD m [])) := by
  induction l generalizing s with
  | nil => rfl
  | cons m l ih =>
    obtain ⟨h1, h2⟩ := hl m (by simp)
    have hm : ds.getD m [] ∈ ds := by
      rw [List.getD_eq_getElem?_getD, List.getElem?_eq_getElem h1]
      exact List.getElem_mem h1
    have e : (ds.map fun p => (updOf p).map Upd.toProps).getD m none = some (Upd.toProps ⟨ds.getD m [], []⟩) := by
      have : (updOf (ds.getD m [])).map Upd.toProps = some (Upd.toProps ⟨ds.getD m [], []⟩) := by simp only [updOf, if_neg h2]; rfl
      rw [← this]
      simp [List.getElem?_eq_getElem h1]
    have h := hs.apply (hds _ hm)
    have h3 : s.batchUpdateO (some (Upd.toProps ⟨ds.getD m [], []⟩)) = .ok (setSitesP s (ds.getD m [])) := h.1
    unfold stateOf
    rw [List.foldlM_cons, e, h3, ok_bind]
    exact ih h.2 fun m' hm' => hl m' (by simp [hm'])

/-- C89: for every site-local rule, every number of workers and every schedule: what a parallel run records for a site at step `k` is the rule's answer
on the state that consists of the initial state and the updates of exactly those earlier steps that reached the worker; these always include the
step just before. -/
theorem C89_views (f : Key → SimState → Resp) (hf : SiteLocal f) (hw : RuleWF f) (s0 : SimState) (hs : s0.WF) (hg : s0.getGeneralState ≠ none)
    (w : ℕ) (hw0 : 0 < w) (n : ℕ) (fork : ℕ → Unit → Unit) (sched : ℕ → StepSched)
    (hv : ∀ k, k < n → (sched k).Valid w (chunks s0.siteIds (chunkSize s0.siteIds.length w)).length)
    (res : SimResult) (h : runParallel (ofRule f) fork () s0 w n sched = .ok res) :
    res.initial = s0 ∧ res.diffs.length = n ∧
    ∀ k, k < n → ∀ b v, (b, v) ∈ sched k → ∀ i ∈ (chunks s0.siteIds (chunkSize s0.siteIds.length w)).getD b [],
      (0 < k → k - 1 ∈ reached sched v k) ∧
      ∃ view p, stateOf s0 res.diffs (reached sched v k) = .ok view ∧ Answers i (f i view) p ∧ Records (res.diffs.getD k none) i p := by
  by_cases hne : s0.siteIds = []
  · cases n with
    | zero =>
      have : res = ⟨s0, [], [], some s0⟩ := by
        unfold runParallel at h
        have hpre : (ofRule f).preRun () s0 = .ok ((), s0) := rfl
        rw [hpre, ok_bind] at h
        simp only at h
        rw [if_neg (by omega)] at h
        simpa [parallelLoop, SimResult.setOutput, SimResult.new, copy, pure, Except.pure, eq_comm] using h
      subst this
      exact ⟨rfl, rfl, by intro k hk; omega⟩
    | succ n =>
      exfalso
      unfold runParallel at h
      have hpre : (ofRule f).preRun () s0 = .ok ((), s0) := rfl
      rw [hpre, ok_bind] at h
      simp only at h
      rw [if_neg (by omega)] at h
      have hc : chunkSize s0.size w = 0 := by
        have : s0.size = 0 := by
          have : s0.size = s0.siteIds.length := rfl
          rw [this, hne]; rfl
        rw [this]; unfold chunkSize
        exact Nat.div_eq_of_lt (by omega)
      unfold parallelLoop takeStepParallel at h
      rw [if_pos hc] at h
      simp at h
  · have hA : AnswersOpt (ofRule f) s0.siteIds (fun _ => True) (fun _ => True) (fun i s p => Answers i (f i s) p) := by
      intro st s _ _ _ i _
      obtain ⟨p, hp⟩ := hf i s
      exact ⟨(), f i s, p, rfl, hp, hw i s, hp, trivial⟩
    obtain ⟨ds, h1, h2, h3, h4, h5⟩ := runParallel_by hA (fun _ _ _ _ _ => trivial) hs hg hne trivial w hw0 fork () () rfl (fun _ => trivial) n sched hv
      (.inr ⟨res, h⟩)
    rw [h] at h1
    injection h1 with h1
    subst h1
    refine ⟨rfl, by simp [h2], fun k hk b v hbv i hi => ⟨fun h0 => ?_, ?_⟩⟩
    · unfold reached
      simp only [List.mem_filter, List.mem_range, decide_eq_true_eq]
      refine ⟨by omega, ?_⟩
      have : k - 1 + 1 = k := by omega
      rw [this]
      exact List.mem_map.2 ⟨_, hbv, rfl⟩
    · obtain ⟨p, e1, e2⟩ := h5 k hk b v i hbv hi
      rw [seenL_reached sched v ds k (by omega)] at e2
      refine ⟨_, p, stateOf_after ⟨hs, rfl, hg⟩ ds (fun q hq => (h3 q hq).1) _ ?_, e2, ?_⟩
      · intro m hm
        unfold reached at hm
        simp only [List.mem_filter, List.mem_range] at hm
        exact ⟨by omega, h4 m (by omega)⟩
      · have hk' : k < ds.length := by omega
        have e : (ds.map fun p => (updOf p).map Upd.toProps).getD k none = (updOf (ds.getD k [])).map Upd.toProps := by
          simp [List.getElem?_eq_getElem hk']
        show Records ((ds.map fun p => (updOf p).map Upd.toProps).getD k none) i p
        rw [e]
        by_cases h0 : ds.getD k [] = []
        · rw [h0] at e1 ⊢
          left
          refine ⟨by simp [updOf], ?_⟩
          cases p with
          | none => rfl
          | some q => simp [Dict.get?] at e1
        · right
          exact ⟨Upd.toProps ⟨ds.getD k [], []⟩, ds.getD k [], by simp only [updOf, if_neg h0]; rfl, by simp [Upd.toProps, Dict.get?], e1⟩

/-- A schedule in which worker 1 misses the first two updates but one: the hypotheses of `C89_views` hold and its third step is computed from a
state that lacks the updates of step 0. -/
example : ∃ res, runParallel (ofRule flagRule) (fun _ st => st) () flagInit 2 3 absentSched = .ok res ∧ SiteLocal flagRule ∧
    (∀ k, k < 3 → (absentSched k).Valid 2 (chunks flagInit.siteIds (chunkSize flagInit.siteIds.length 2)).length) ∧
    reached absentSched 1 2 = [1] ∧ reached absentSched 0 2 = [0, 1] := by
  refine ⟨_, rfl, flagRule_local, ?_, by decide, by decide⟩
  intro k hk
  have : k = 0 ∨ k = 1 ∨ k = 2 := by omega
  unfold StepSched.Valid
  rcases this with rfl | rfl | rfl <;> decide

end Pyl
