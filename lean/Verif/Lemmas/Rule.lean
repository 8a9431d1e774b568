import Verif.Props.Sync
import Verif.Lemmas.Replay
/-
Serial runs of rules that always answer with an update of the visited site and may keep internal state (random draws, call counters).
-/
set_option autoImplicit false

namespace Pyl
open SimState Spec
variable {σ : Type}

/-- Every site's dict is overwritten with a dict that `R` allows for it on the old state. -/
def StepBy (R : Key → SimState → Props → Prop) (s s' : SimState) : Prop :=
  s'.siteIds = s.siteIds ∧ s'.getGeneralState = s.getGeneralState ∧
  ∀ i old, s.getSiteState i = some old → ∃ q new, R i s q ∧ s'.getSiteState i = some new ∧ Merged old q new

/-- In a situation where `Inv` holds the rule answers, with a dict that `R` allows, and `Inv` stays true of its internal state. -/
def AnswersBy (c : Controller σ) (Inv : σ → SimState → Prop) (R : Key → SimState → Props → Prop) : Prop :=
  ∀ st s, s.WF → Inv st s → ∀ i ∈ s.siteIds, ∃ st' r q, c.update st i s = .ok (st', r) ∧ Answers i r (some q) ∧ (Val.dict q).WF ∧
    R i s q ∧ Inv st' s

theorem visited_by {c : Controller σ} {Inv : σ → SimState → Prop} {R : Key → SimState → Props → Prop} (hA : AnswersBy c Inv R)
    {s : SimState} (hs : s.WF) (ids : List Key) (hids : ∀ i ∈ ids, i ∈ s.siteIds) (st : σ) (hI : Inv st s) :
    ∃ rs st' m, Visited c s st ids rs st' ∧ AnswersAll (ids.zip rs) m ∧ m.map Prod.fst = ids ∧ Inv st' s ∧
      ∀ i p, (i, p) ∈ m → ∃ q, p = some q ∧ (Val.dict q).WF ∧ R i s q := by
  induction ids generalizing st with
  | nil => exact ⟨[], st, [], .nil _, .nil, rfl, hI, by simp⟩
  | cons i ids ih =>
    obtain ⟨st1, r, q, h1, h2, h3, h4, h5⟩ := hA st s hs hI i (hids i (by simp))
    obtain ⟨rs, st', m, h6, h7, h8, h9, h10⟩ := ih (fun j hj => hids j (by simp [hj])) st1 h5
    refine ⟨r :: rs, st', (i, some q) :: m, .cons h1 h6, .cons h2 h7, by simp [h8], h9, ?_⟩
    intro j p hj
    rcases List.mem_cons.1 hj with hj | hj
    · injection hj with e1 e2; subst e1 e2
      exact ⟨q, rfl, h3, h4⟩
    · exact h10 j p hj

theorem stepBy_of_patches {R : Key → SimState → Props → Prop} {s : SimState} {m : List (Key × Option Props)} (hs : s.WF)
    (hk : m.map Prod.fst = s.siteIds) (hR : ∀ i p, (i, p) ∈ m → ∃ q, p = some q ∧ (Val.dict q).WF ∧ R i s q)
    {g0 : Props} (hg : s.general = some g0) :
    StepBy R s { setSitesP s (patches m) with general := some (Dict.update g0 []) } := by
  have hnd : (m.map Prod.fst).Nodup := by rw [hk]; exact hs.sites
  have hpw : (Val.dict (patches m)).WF := wf_patches hnd fun i p hm => by
    obtain ⟨q, e, h, -⟩ := hR i _ hm
    injection e with e; subst e; exact h
  refine ⟨?_, by simp [getGeneralState, hg], ?_⟩
  · have h1 := siteIds_setSitesP s (patches m)
    have key : ∀ (l acc : List Key), (∀ k ∈ l, k ∈ acc) → addIds acc l = acc := by
      intro l
      induction l with
      | nil => intros; rfl
      | cons a l ih =>
        intro acc h
        have ha : a ∈ acc := h a (by simp)
        have : addIds acc (a :: l) = addIds (if a ∈ acc then acc else acc ++ [a]) l := rfl
        rw [this, if_pos ha]
        exact ih acc fun k hk => h k (by simp [hk])
    rw [key _ _ fun k h => hk ▸ keys_patches_subset m k h] at h1
    exact h1
  · intro i old hold
    have hi : i ∈ s.siteIds := Dict.mem_keys_of_get? hold
    rw [← hk] at hi
    obtain ⟨⟨i', p⟩, hm, rfl⟩ := List.mem_map.1 hi
    have hp := get?_patches hnd hm
    have hold' : Dict.get? s.sites i' = some old := hold
    obtain ⟨q, rfl, hq, hr⟩ := hR _ _ hm
    refine ⟨q, Dict.update old q, hr, ?_, merged_update hq.keys⟩
    simp only [getSiteState]
    rw [get?_setSitesP hpw.keys, hp]
    simp [oldOf, hold', dictOf]

/-- One serial step. -/
theorem takeStep_by {c : Controller σ} {Inv : σ → SimState → Prop} {R : Key → SimState → Props → Prop} (hA : AnswersBy c Inv R)
    {s : SimState} (hs : s.WF) (hg : s.getGeneralState ≠ none) (hne : s.siteIds ≠ []) (st : σ) (hI : Inv st s) :
    ∃ st' u s', takeStep c st s = .ok (st', some u) ∧ s.batchUpdateO (some u.toProps) = .ok s' ∧ Inv st' s ∧ s'.WF ∧ StepBy R s s' := by
  obtain ⟨rs, st', m, h1, h2, h3, h4, h5⟩ := visited_by hA hs s.siteIds (fun _ h => h) st hI
  obtain ⟨g0, hg⟩ := Option.ne_none_iff_exists'.1 hg
  have hlen := h1.length
  have hz : (s.siteIds.zip rs).map Prod.fst = s.siteIds := by rw [List.map_fst_zip]; omega
  have hm := mergeAll_answers h2 (by rw [hz]; exact hs.sites) none (by simp [Upd.empty])
  have hst := stepBy_of_patches hs h3 h5 hg
  have hnd : (m.map Prod.fst).Nodup := by rw [h3]; exact hs.sites
  have hpw : (Val.dict (patches m)).WF := wf_patches hnd fun i p hm => by
    obtain ⟨q, e, h, -⟩ := h5 i _ hm
    injection e with e; subst e; exact h
  cases hp : patches m with
  | nil =>
    cases hmm : m with
    | nil => rw [hmm] at h3; exact absurd h3.symm hne
    | cons a m' =>
      have := patches_eq_nil.1 hp a.1 a.2 (by rw [hmm]; simp)
      obtain ⟨q, e, -⟩ := h5 a.1 a.2 (by rw [hmm]; simp)
      rw [this] at e; cases e
  | cons p ps =>
    rw [hp] at hm hst hpw
    have h6 : ∀ kv ∈ (⟨p :: ps, []⟩ : Upd).sites, ∃ q, kv.2 = .dict q := by
      show ∀ kv ∈ p :: ps, _
      rw [← hp]; exact patches_dicts m
    have h7 := batchUpdate_toProps_of (g0 := g0) hg h6
    refine ⟨st', ⟨p :: ps, []⟩, _, ?_, h7, h4, WF_upd hs hpw (.dict Dict.WF.nil (by simp)) h7, hst⟩
    exact stepBatch_of_visited h1 (by rw [hm]; rfl)

theorem chain_by {c : Controller σ} {Inv : σ → SimState → Prop} {R : Key → SimState → Props → Prop} (hA : AnswersBy c Inv R)
    (hI' : ∀ st s s', s.WF → Inv st s → StepBy R s s' → Inv st s') (n : ℕ) {s : SimState} (hs : s.WF)
    (hg : s.getGeneralState ≠ none) (hne : s.siteIds ≠ []) (st : σ) (hI : Inv st s) :
    ∃ ds st' s', SyncChain c n st s ds st' s' ∧ ∀ k, k < n → ∃ a b, SimResult.replayTo s ds k = .ok a ∧
      SimResult.replayTo s ds (k + 1) = .ok b ∧ a.WF ∧ b.WF ∧ (∃ st, Inv st a) ∧ StepBy R a b := by
  induction n generalizing s st with
  | zero => exact ⟨[], st, s, .zero _ _, by omega⟩
  | succ n ih =>
    obtain ⟨st1, u, s1, h1, h2, h3, h4, h5⟩ := takeStep_by hA hs hg hne st hI
    obtain ⟨ds, st', s', h6, h7⟩ := ih h4 (by rw [h5.2.1]; exact hg) (by rw [h5.1]; exact hne) st1 (hI' _ _ _ hs h3 h5)
    refine ⟨_, st', s', .succ h1 h2 h6, fun k hk => ?_⟩
    cases k with
    | zero =>
      refine ⟨s, s1, by simp, ?_, hs, h4, ⟨st, hI⟩, h5⟩
      have h2' : s.batchUpdateO (Option.map Upd.toProps (some u)) = .ok s1 := h2
      simp only [SimResult.replayTo, h2', ok_bind]
    | succ k =>
      obtain ⟨a, b, h8, h9, h10⟩ := h7 k (by omega)
      have h2' : s.batchUpdateO (Option.map Upd.toProps (some u)) = .ok s1 := h2
      refine ⟨a, b, ?_, ?_, h10⟩
      · simp only [SimResult.replayTo, h2', ok_bind, h8]
      · rw [SimResult.replayTo_cons, h2', ok_bind, h9]

/-- A serial run: it succeeds, and each step overwrites the dicts with what `R` allows. -/
theorem runSync_by {c : Controller σ} {Inv : σ → SimState → Prop} {R : Key → SimState → Props → Prop} (hA : AnswersBy c Inv R)
    (hI' : ∀ st s s', s.WF → Inv st s → StepBy R s s' → Inv st s') (n : ℕ) {s : SimState} (hs : s.WF)
    (hg : s.getGeneralState ≠ none) (hne : s.siteIds ≠ []) (st0 st : σ) (hp : c.preRun st0 s = .ok (st, s)) (hI : Inv st s) :
    ∃ st' res, runSync c st0 s n = .ok (st', res) ∧ res.len = n + 1 ∧ res.getStep 0 = .ok s ∧
      ∀ k : ℕ, k < n → ∃ a b, res.getStep k = .ok a ∧ res.getStep (k + 1) = .ok b ∧ a.WF ∧ b.WF ∧ (∃ st, Inv st a) ∧ StepBy R a b := by
  obtain ⟨ds, st', s', h1, h2⟩ := chain_by hA hI' n hs hg hne st hI
  refine ⟨st', ⟨s, ds, [], some s'⟩, ?_, ?_, by simp [SimResult.getStep, SimResult.replayTo_zero, copy, Dict.get?], fun k hk => ?_⟩
  · have h3 := syncLoop_of_chain h1 (SimResult.new s.copy)
    simp only [runSync, hp, ok_bind, copy] at h3 ⊢
    rw [h3]
    simp [SimResult.setOutput, SimResult.new, pure, Except.pure]
  · simp [SimResult.len, h1.length]
  · exact h2 k hk

end Pyl
