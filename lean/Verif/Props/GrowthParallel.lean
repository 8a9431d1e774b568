import Verif.Props.Growth
import Verif.Lemmas.ParallelBy
/-
C90, C91: growth with the parallel runner.
-/
set_option autoImplicit false
set_option linter.unusedSectionVars false

namespace Pyl
open SimState Spec Growth
open Pyl.Lattice Pyl.Structure
variable {K : Type} [Field K] [LinearOrder K] [FloorRing K] [IsStrictOrderedRing K] {d : ℕ}

/-- Every site belongs to a batch that some worker executes. -/
theorem sched_cover {ids : List Key} (hne : ids ≠ []) {w : ℕ} (hw0 : 0 < w) {sc : StepSched}
    (hv : sc.Valid w (chunks ids (chunkSize ids.length w)).length) {i : Key} (hi : i ∈ ids) :
    ∃ b v, (b, v) ∈ sc ∧ i ∈ (chunks ids (chunkSize ids.length w)).getD b [] := by
  rw [← C17_partition ids w hw0 hne] at hi
  obtain ⟨bt, hbt, hib⟩ := List.mem_flatten.1 hi
  obtain ⟨b, hb, rfl⟩ := List.mem_iff_getElem.1 hbt
  have : b ∈ sc.map Prod.fst := hv.1.mem_iff.2 (List.mem_range.2 hb)
  obtain ⟨⟨b', v⟩, hp, rfl⟩ := List.mem_map.1 this
  refine ⟨b', v, hp, ?_⟩
  rw [List.getD_eq_getElem?_getD, List.getElem?_eq_getElem hb]
  exact hib

theorem occ?_setSitesP {ids : List Key} {s : SimState} (hs : ViewOf ids s) {p : Props} (hp : PatchOf ids p) {i : Key} (hi : i ∈ ids) :
    (Dict.get? p i = none ∧ occ? (setSitesP s p) i = occ? s i) ∨
    ∃ q, Dict.get? p i = some (.dict q) ∧ occ? (setSitesP s p) i = (Dict.get? q DISCRETE_OCCUPANCY).or (occ? s i) := by
  have hg := get?_setSitesP hp.wf.keys s i
  rw [← hs.ids] at hi
  obtain ⟨old, hold⟩ : ∃ o, Dict.get? s.sites i = some o := by
    cases h : Dict.get? s.sites i with
    | none => exact absurd hi (Dict.get?_eq_none_iff.1 h)
    | some o => exact ⟨o, rfl⟩
  cases h : Dict.get? p i with
  | none =>
    left
    refine ⟨rfl, ?_⟩
    rw [h] at hg
    unfold occ? getSiteState
    rw [hg]
  | some v =>
    right
    obtain ⟨q, hq⟩ := hp.dicts _ (Dict.mem_of_get? h)
    simp only at hq
    subst hq
    refine ⟨q, rfl, ?_⟩
    rw [h] at hg
    have hqw : Dict.WF q := (hp.wf.get? h).keys
    unfold occ? getSiteState
    rw [hg, hold]
    simp [oldOf, hold, dictOf, Dict.get?_update hqw]

/-- What a worker may answer for site `i` on the state `s` it sees. -/
def GrowthAnswer (bg : Val) (ids : List Key) (Nb : Key → List ℕ → Prop) (i : Key) (s : SimState) (p : Option Props) : Prop :=
  ∃ q v l, p = some q ∧ occ? s i = some v ∧ Nb i l ∧ (∀ j ∈ l, Key.int j ∈ ids) ∧
    (q = [] ∧ GrowthStep bg s l v v ∨ ∃ v', q = [(DISCRETE_OCCUPANCY, v')] ∧ GrowthStep bg s l v v' ∧ v' ≠ bg)

/-- What every state a worker may see has: every site is occupied by the background or by a phase of the start; the seeds keep their phase. -/
def GrowthView (bg : Val) (s0 s : SimState) : Prop :=
  (∀ i ∈ s0.siteIds, ∃ v, occ? s i = some v ∧ (v = bg ∨ ∃ j ∈ s0.siteIds, occ? s0 j = some v)) ∧
  ∀ i ∈ s0.siteIds, ∀ v, occ? s0 i = some v → v ≠ bg → occ? s i = some v

theorem growthView_patch {bg : Val} {s0 : SimState} {Nb : Key → List ℕ → Prop} (s : SimState) (p : Props) (hs : ViewOf s0.siteIds s)
    (hg : GrowthView bg s0 s) (hp : PatchBy s0.siteIds (GrowthView bg s0) (GrowthAnswer bg s0.siteIds Nb) p) : GrowthView bg s0 (setSitesP s p) := by
  have key : ∀ i ∈ s0.siteIds, (occ? (setSitesP s p) i = occ? s i) ∨ ∃ t v v', ∃ l : List ℕ, GrowthView bg s0 t ∧ occ? t i = some v ∧
      (∀ j ∈ l, Key.int j ∈ s0.siteIds) ∧ GrowthStep bg t l v v' ∧ v' ≠ bg ∧ occ? (setSitesP s p) i = some v' := by
    intro i hi
    rcases occ?_setSitesP hs hp.1 hi with ⟨-, h⟩ | ⟨q, h1, h2⟩
    · exact .inl h
    · obtain ⟨t, -, ht, ⟨q', v, l, e, hv, -, hl, hq⟩, -⟩ := hp.2 i q h1
      injection e with e; subst e
      rcases hq with ⟨rfl, -⟩ | ⟨v', rfl, hG, hne⟩
      · left; simpa using h2
      · right
        exact ⟨t, v, v', l, ht, hv, hl, hG, hne, by rw [h2]; simp [Dict.get?]⟩
  refine ⟨fun i hi => ?_, fun i hi u hu hne => ?_⟩
  · rcases key i hi with h | ⟨t, v, v', l, ht, hv, hl, hG, hne, h⟩
    · rw [h]; exact hg.1 i hi
    · refine ⟨v', h, .inr ?_⟩
      by_cases hb : v = bg
      · by_cases hall : ∀ j ∈ l, occ? t (.int j) = some bg
        · exact absurd (hG.2.1 hb hall) hne
        · push Not at hall
          obtain ⟨-, ⟨j, hj, hjv⟩, -⟩ := hG.2.2 hb hall
          obtain ⟨v2, hv2, h3⟩ := ht.1 _ (hl j hj)
          rw [hjv] at hv2; injection hv2 with hv2; subst hv2
          exact h3.resolve_left hne
      · rw [hG.1 hb]
        obtain ⟨v2, hv2, h3⟩ := ht.1 _ hi
        rw [hv] at hv2; injection hv2 with hv2; subst hv2
        exact h3.resolve_left hb
  · rcases key i hi with h | ⟨t, v, v', l, ht, hv, hl, hG, -, h⟩
    · rw [h]; exact hg.2 i hi u hu hne
    · have := ht.2 i hi u hu hne
      rw [hv] at this; injection this with this; subst this
      rw [h, hG.1 hne]

/-- The invariant of the workers' controllers. -/
def GrowthCtl (bg : Val) (ids : List Key) (Nb : Key → List ℕ → Prop) (c : Ctl) : Prop :=
  c.background = bg ∧ ∀ t, ∀ i ∈ ids, ∃ l, c.nbs t i = .ok l ∧ Nb i l ∧ ∀ j ∈ l, Key.int j ∈ ids

theorem growth_answers (bg : Val) (s0 : SimState) (Nb : Key → List ℕ → Prop) :
    AnswersOpt controller s0.siteIds (GrowthCtl bg s0.siteIds Nb) (GrowthView bg s0) (GrowthAnswer bg s0.siteIds Nb) := by
  rintro st s hs ⟨h1, h2⟩ hg i hi
  obtain ⟨v, hv, -⟩ := hg.1 i hi
  obtain ⟨l, hl, hN, hlj⟩ := h2 st.calls i hi
  obtain ⟨st', q, h5, h6, h7, h8⟩ := growth_update hv hl fun j hj => by
    obtain ⟨u, hu, -⟩ := hg.1 _ (hlj j hj)
    exact ⟨u, hu⟩
  rw [h1] at h8
  have hI : GrowthCtl bg s0.siteIds Nb st' := ⟨by rw [h6, h1], by rw [h7]; exact h2⟩
  rcases h8 with ⟨rfl, h8⟩ | ⟨v', k, rfl, hk, h8, hne⟩
  · exact ⟨st', _, some [], h5, .patch _ ⟨by simp, by simp, Or.inl rfl⟩, .dict Dict.WF.nil (by simp), ⟨_, v, l, rfl, hv, hN, hlj, .inl ⟨rfl, h8⟩⟩, hI⟩
  · have hw : (Val.dict [(DISCRETE_OCCUPANCY, v')]).WF := by
      obtain ⟨p, hp, hpv⟩ := occ?_eq.1 hk
      refine .dict (by simp [Dict.WF]) (by
        intro kv hkv
        rw [List.mem_singleton] at hkv
        subst hkv
        exact (hs.wf.site _ (Dict.mem_of_get? hp)).get? hpv)
    exact ⟨st', _, some _, h5, .patch _ (isPatch_occ _), hw, ⟨_, v, l, rfl, hv, hN, hlj, .inr ⟨v', rfl, h8, hne⟩⟩, hI⟩

theorem growthView_self {bg : Val} {s0 : SimState} (hocc : AllOccupied s0) : GrowthView bg s0 s0 :=
  ⟨fun i hi => by obtain ⟨v, hv⟩ := hocc i hi; exact ⟨v, hv, .inr ⟨i, hi, hv⟩⟩, fun _ _ _ h _ => h⟩

/-- The recorded updates of a parallel growth run. -/
theorem growth_runs (bg : Val) (Nb : Key → List ℕ → Prop) (c : Ctl) (s0 : SimState) (hs : s0.WF) (hg : s0.getGeneralState ≠ none)
    (hne : s0.siteIds ≠ []) (hocc : AllOccupied s0) (fork : ℕ → Ctl → Ctl) (hfork : ∀ v, GrowthCtl bg s0.siteIds Nb (fork v c))
    (w : ℕ) (hw0 : 0 < w) (n : ℕ) (sched : ℕ → StepSched)
    (hv : ∀ k, k < n → (sched k).Valid w (chunks s0.siteIds (chunkSize s0.siteIds.length w)).length) :
    ∃ (ds : List Props) (res : SimResult), runParallel controller fork c s0 w n sched = .ok res ∧ res.len = n + 1 ∧ ds.length = n ∧
      (∀ p ∈ ds, PatchBy s0.siteIds (GrowthView bg s0) (GrowthAnswer bg s0.siteIds Nb) p) ∧
      (∀ k : ℕ, k ≤ n → res.getStep k = .ok (after s0 (ds.take k))) ∧
      ∀ k, k < n → ∀ i ∈ s0.siteIds, ∃ v q, v ∈ (sched k).workers ∧ Dict.get? (ds.getD k []) i = some (.dict q) ∧
        GrowthAnswer bg s0.siteIds Nb i (after s0 (seenL sched v (ds.take k))) (some q) := by
  have hR : ∀ i s p, GrowthAnswer bg s0.siteIds Nb i s p → p ≠ none := by
    rintro i s p ⟨q, v, l, rfl, -⟩ h; cases h
  obtain ⟨ds, h1, h2, h3, -, h5⟩ := runParallel_by (growth_answers bg s0 Nb) growthView_patch hs hg hne (growthView_self hocc) w hw0 fork c c rfl hfork n
    sched hv (.inl hR)
  have h6 : ∀ k, k < n → ∀ i ∈ s0.siteIds, ∃ v q, v ∈ (sched k).workers ∧ Dict.get? (ds.getD k []) i = some (.dict q) ∧
        GrowthAnswer bg s0.siteIds Nb i (after s0 (seenL sched v (ds.take k))) (some q) := by
    intro k hk i hi
    obtain ⟨b, v, hbv, hib⟩ := sched_cover hne hw0 (hv k hk) hi
    obtain ⟨p, e1, e2⟩ := h5 k hk b v i hbv hib
    cases p with
    | none => exact absurd rfl (hR _ _ _ e2)
    | some q => exact ⟨v, q, List.mem_map.2 ⟨_, hbv, rfl⟩, e1, e2⟩
  refine ⟨ds, _, h1, by simp [SimResult.len, h2], h2, h3, fun k hk => ?_, h6⟩
  have : SimResult.replayTo s0 (ds.map fun p => (updOf p).map Upd.toProps) k = .ok (after s0 (ds.take k)) := by
    refine replayTo_after ⟨hs, rfl, hg⟩ ds (fun p hp => (h3 p hp).1) k (by omega) fun j hj e => ?_
    obtain ⟨i, hi⟩ := List.exists_mem_of_ne_nil _ hne
    obtain ⟨v, q, -, hq, -⟩ := h6 j (by omega) i hi
    rw [e] at hq
    simp [Dict.get?] at hq
  simpa [SimResult.getStep, Dict.get?, copy] using this

/-- Some update of the list occupies the site. -/
def Writes (p : Props) (i : Key) : Prop := ∃ q v, Dict.get? p i = some (.dict q) ∧ Dict.get? q DISCRETE_OCCUPANCY = some v

theorem occ_after {bg : Val} {s0 : SimState} {Nb : Key → List ℕ → Prop} (hs : ViewOf s0.siteIds s0) (l : List Props)
    (hl : ∀ p ∈ l, PatchBy s0.siteIds (GrowthView bg s0) (GrowthAnswer bg s0.siteIds Nb) p) {i : Key} (hi : i ∈ s0.siteIds) :
    occ? (after s0 l) i ≠ some bg ↔ occ? s0 i ≠ some bg ∨ ∃ p ∈ l, Writes p i := by
  induction l using List.reverseRecOn with
  | nil => simp [after]
  | append_singleton l p ih =>
    have hv : ViewOf s0.siteIds (after s0 l) := hs.after fun p hp => (hl p (by simp [hp])).1
    have hp := hl p (by simp)
    rw [after_snoc]
    have ih := ih fun p hp => hl p (by simp [hp])
    have hiff : occ? (setSitesP (after s0 l) p) i ≠ some bg ↔ occ? (after s0 l) i ≠ some bg ∨ Writes p i := by
      rcases occ?_setSitesP hv hp.1 hi with ⟨h1, h2⟩ | ⟨q, h1, h2⟩
      · rw [h2]
        refine ⟨.inl, fun h => h.resolve_right ?_⟩
        rintro ⟨q, v, hq, -⟩
        rw [h1] at hq; cases hq
      · rw [h2]
        obtain ⟨t, -, -, ⟨q', v, l', e, -, -, -, hq⟩, -⟩ := hp.2 i q h1
        injection e with e; subst e
        rcases hq with ⟨rfl, -⟩ | ⟨v', rfl, -, hne⟩
        · simp only [Dict.get?_nil, Option.none_or]
          refine ⟨.inl, fun h => h.resolve_right ?_⟩
          rintro ⟨q, v, hq, hqv⟩
          rw [h1] at hq
          injection hq with hq; injection hq with hq; subst hq
          simp at hqv
        · have : Dict.get? [(DISCRETE_OCCUPANCY, v')] DISCRETE_OCCUPANCY = some v' := by simp [Dict.get?]
          rw [this]
          refine ⟨fun _ => .inr ⟨_, v', h1, this⟩, fun _ => ?_⟩
          simpa using hne
    rw [hiff, ih]
    simp only [List.mem_append, List.mem_singleton]
    constructor
    · rintro ((h | ⟨p', hp', h⟩) | h)
      · exact .inl h
      · exact .inr ⟨p', .inl hp', h⟩
      · exact .inr ⟨p, .inr rfl, h⟩
    · rintro (h | ⟨p', hp' | rfl, h⟩)
      · exact .inl (.inl h)
      · exact .inl (.inr ⟨p', hp', h⟩)
      · exact .inr h

/-- C90: growth with the parallel runner, from any state all of whose sites have an occupancy, with any neighbourhood (any answers of `neighbors_of`,
also random and different in every worker) that lists sites of the state, for every number of workers and every schedule: the run succeeds; in every recorded step every site
is occupied by the background or by a phase of the initial state, the sites occupied at the start have kept their phase, and a site that is
occupied is not background again later. -/
theorem C90_growth (bg : Val) (c : Ctl) (s0 : SimState) (hs : s0.WF) (hg : s0.getGeneralState ≠ none)
    (hne : s0.siteIds ≠ []) (hocc : AllOccupied s0) (fork : ℕ → Ctl → Ctl) (hbg : ∀ v, (fork v c).background = bg)
    (hnb : ∀ v t, ∀ i ∈ s0.siteIds, ∃ l, (fork v c).nbs t i = .ok l ∧ ∀ j ∈ l, Key.int j ∈ s0.siteIds)
    (w : ℕ) (hw0 : 0 < w) (n : ℕ) (sched : ℕ → StepSched)
    (hv : ∀ k, k < n → (sched k).Valid w (chunks s0.siteIds (chunkSize s0.siteIds.length w)).length) :
    ∃ res, runParallel controller fork c s0 w n sched = .ok res ∧ res.len = n + 1 ∧
      ∀ k : ℕ, k ≤ n → ∃ a, res.getStep k = .ok a ∧ a.siteIds = s0.siteIds ∧
        (∀ i ∈ s0.siteIds, ∃ v, occ? a i = some v ∧ (v = bg ∨ ∃ j ∈ s0.siteIds, occ? s0 j = some v)) ∧
        (∀ i ∈ s0.siteIds, ∀ v, occ? s0 i = some v → v ≠ bg → occ? a i = some v) ∧
        ∀ m : ℕ, k ≤ m → m ≤ n → ∃ b, res.getStep m = .ok b ∧ ∀ i ∈ s0.siteIds, occ? a i ≠ some bg → occ? b i ≠ some bg := by
  obtain ⟨ds, res, h1, h2, h3, h4, h5, -⟩ := growth_runs bg (fun _ _ => True) c s0 hs hg hne hocc fork
    (fun v => ⟨hbg v, fun t i hi => by obtain ⟨l, hl, hl'⟩ := hnb v t i hi; exact ⟨l, hl, trivial, hl'⟩⟩) w hw0 n sched hv
  have hv0 : ViewOf s0.siteIds s0 := ⟨hs, rfl, hg⟩
  refine ⟨res, h1, h2, fun k hk => ⟨_, h5 k hk, ?_⟩⟩
  have hview := good_after growthView_patch hv0 (growthView_self (bg := bg) hocc) (l := ds.take k) fun p hp => h4 p (List.mem_of_mem_take hp)
  refine ⟨hview.1.ids, hview.2.1, hview.2.2, fun m hkm hm => ⟨_, h5 m hm, fun i hi h => ?_⟩⟩
  rw [occ_after hv0 _ (fun p hp => h4 p (List.mem_of_mem_take hp)) hi] at h ⊢
  refine h.imp id ?_
  rintro ⟨p, hp, h⟩
  refine ⟨p, ?_, h⟩
  have : ds.take k = (ds.take m).take k := by rw [List.take_take, Nat.min_eq_left hkm]
  rw [this] at hp
  exact List.mem_of_mem_take hp

/-- Next a site is occupied iff it or one of its neighbours is. -/
theorem growthStep_occ {bg : Val} {s : SimState} {l : List ℕ} {v v' : Val} (hG : GrowthStep bg s l v v') :
    v' ≠ bg ↔ v ≠ bg ∨ ∃ j ∈ l, occ? s (.int j) ≠ some bg := by
  by_cases hb : v = bg
  · by_cases hall : ∀ j ∈ l, occ? s (.int j) = some bg
    · rw [hG.2.1 hb hall]
      simp only [hb, ne_eq, not_true_eq_false, false_or, false_iff]
      rintro ⟨j, hj, h⟩
      exact h (hall j hj)
    · push Not at hall
      simp only [hb, ne_eq, not_true_eq_false, false_or]
      exact ⟨fun _ => hall, fun _ => (hG.2.2 hb hall).1⟩
  · rw [hG.1 hb]
    exact ⟨fun h => .inl h, fun _ => hb⟩

theorem mem_seenL_last (sched : ℕ → StepSched) (v : ℕ) (ds : List Props) (k : ℕ) (hk : k < ds.length) (hv : v ∈ (sched (k + 1)).workers) :
    ds.getD k [] ∈ seenL sched v (ds.take (k + 1)) := by
  rw [List.take_succ_eq_append_getElem hk, seenL_snoc, List.length_take, Nat.min_eq_left hk.le, if_pos hv]
  simp [List.getElem?_eq_getElem hk]

/-- The occupied sites one step on, whatever the workers have missed: those occupied and those with an occupied neighbour. -/
theorem growth_front (bg : Val) (nb : Key → List ℕ) (c : Ctl) (s0 : SimState) (hs : s0.WF) (hg : s0.getGeneralState ≠ none)
    (hne : s0.siteIds ≠ []) (hocc : AllOccupied s0) (fork : ℕ → Ctl → Ctl)
    (hfork : ∀ v, GrowthCtl bg s0.siteIds (fun i l => l.Perm (nb i)) (fork v c))
    (w : ℕ) (hw0 : 0 < w) (n : ℕ) (sched : ℕ → StepSched)
    (hv : ∀ k, k < n → (sched k).Valid w (chunks s0.siteIds (chunkSize s0.siteIds.length w)).length) :
    ∃ (E : ℕ → SimState) (res : SimResult), runParallel controller fork c s0 w n sched = .ok res ∧ res.len = n + 1 ∧ E 0 = s0 ∧
      (∀ k : ℕ, k ≤ n → res.getStep k = .ok (E k) ∧ (E k).siteIds = s0.siteIds ∧ GrowthView bg s0 (E k)) ∧
      ∀ k : ℕ, k < n → ∀ i ∈ s0.siteIds, (occ? (E (k + 1)) i ≠ some bg ↔ occ? (E k) i ≠ some bg ∨ ∃ j ∈ nb i, occ? (E k) (.int j) ≠ some bg) := by
  obtain ⟨ds, res, h1, h2, h3, h4, h5, h6⟩ := growth_runs bg _ c s0 hs hg hne hocc fork hfork w hw0 n sched hv
  have hv0 : ViewOf s0.siteIds s0 := ⟨hs, rfl, hg⟩
  have hpt : ∀ k, ∀ p ∈ ds.take k, PatchBy s0.siteIds (GrowthView bg s0) (GrowthAnswer bg s0.siteIds fun i l => l.Perm (nb i)) p :=
    fun k p hp => h4 p (List.mem_of_mem_take hp)
  refine ⟨fun k => after s0 (ds.take k), res, h1, h2, by simp [after], fun k hk => ⟨h5 k hk, ?_⟩, ?_⟩
  · have := good_after growthView_patch hv0 (growthView_self (bg := bg) hocc) (l := ds.take k) (hpt k)
    exact ⟨this.1.ids, this.2⟩
  -- occupied after k + 1 iff occupied after k or written at step k
  have hsucc : ∀ k, k < n → ∀ i ∈ s0.siteIds, (occ? (after s0 (ds.take (k + 1))) i ≠ some bg ↔
      occ? (after s0 (ds.take k)) i ≠ some bg ∨ Writes (ds.getD k []) i) := by
    intro k hk i hi
    rw [occ_after hv0 _ (hpt _) hi, occ_after hv0 _ (hpt _) hi]
    have hkl : k < ds.length := by omega
    have e : ds.getD k [] = ds[k] := by simp [List.getElem?_eq_getElem hkl]
    rw [List.take_succ_eq_append_getElem hkl, e]
    simp only [List.mem_append, List.mem_singleton]
    constructor
    · rintro (h | ⟨p, hp | rfl, h⟩)
      · exact .inl (.inl h)
      · exact .inl (.inr ⟨p, hp, h⟩)
      · exact .inr h
    · rintro ((h | ⟨p, hp, h⟩) | h)
      · exact .inl h
      · exact .inr ⟨p, .inl hp, h⟩
      · exact .inr ⟨_, .inr rfl, h⟩
  have hmono : ∀ k m, k ≤ m → m ≤ n → ∀ i ∈ s0.siteIds, occ? (after s0 (ds.take k)) i ≠ some bg → occ? (after s0 (ds.take m)) i ≠ some bg := by
    intro k m hkm
    induction m, hkm using Nat.le_induction with
    | base => exact fun _ _ _ h => h
    | succ m hkm ih => exact fun hm i hi h => (hsucc m (by omega) i hi).2 (.inl (ih (by omega) i hi h))
  intro k
  induction k using Nat.strong_induction_on with
  | _ k ih =>
    intro hk i hi
    obtain ⟨v, q, hvw, hq, q', u, l, e, hu, hl, hlj, hans⟩ := h6 k hk i hi
    injection e with e; subst e
    have hseen : ∀ j ∈ s0.siteIds, occ? (after s0 (seenL sched v (ds.take k))) j ≠ some bg → occ? (after s0 (ds.take k)) j ≠ some bg := by
      intro j hj h
      have hsub := (seenL_sublist sched v (ds.take k)).subset
      rw [occ_after hv0 _ (fun p hp => hpt k p (hsub hp)) hj] at h
      rw [occ_after hv0 _ (hpt k) hj]
      exact h.imp id fun ⟨p, hp, h⟩ => ⟨p, hsub hp, h⟩
    have hW : Writes (ds.getD k []) i ↔ ∃ v', q = [(DISCRETE_OCCUPANCY, v')] := by
      constructor
      · rintro ⟨q2, v2, hq2, hv2⟩
        rw [hq] at hq2
        injection hq2 with hq2; injection hq2 with hq2; subst hq2
        rcases hans with ⟨rfl, -⟩ | ⟨v', rfl, -⟩
        · simp at hv2
        · exact ⟨v', rfl⟩
      · rintro ⟨v', rfl⟩
        exact ⟨_, v', hq, by simp [Dict.get?]⟩
    show occ? (after s0 (ds.take (k + 1))) i ≠ some bg ↔ occ? (after s0 (ds.take k)) i ≠ some bg ∨ ∃ j ∈ nb i, occ? (after s0 (ds.take k)) (.int j) ≠ some bg
    rw [hsucc k hk i hi]
    constructor
    · rintro (h | h)
      · exact .inl h
      · obtain ⟨v', rfl⟩ := hW.1 h
        rcases hans with ⟨h0, -⟩ | ⟨v2, e, hG, hv2⟩
        · cases h0
        · rcases (growthStep_occ hG).1 hv2 with h' | ⟨j, hj, h'⟩
          · exact .inl (hseen i hi (by rw [hu]; simpa using h'))
          · exact .inr ⟨j, hl.mem_iff.1 hj, hseen _ (hlj j hj) h'⟩
    · rintro (h | ⟨j, hj, h⟩)
      · exact .inl h
      · by_cases hocck : occ? (after s0 (ds.take k)) i = some bg
        swap
        · exact .inl hocck
        right
        have hj' : j ∈ l := hl.mem_iff.2 hj
        have hjs := hlj j hj'
        -- the neighbour has been occupied just now, so the worker knows
        have hjview : occ? (after s0 (seenL sched v (ds.take k))) (.int j) ≠ some bg := by
          rw [occ_after hv0 _ (fun p hp => hpt k p ((seenL_sublist sched v (ds.take k)).subset hp)) hjs]
          cases k with
          | zero => left; simpa [after] using h
          | succ k =>
            have h7 := (hsucc k (by omega) _ hjs).1 h
            rcases h7 with h7 | h7
            · exact absurd hocck ((ih k (by omega) (by omega) i hi).2 (.inr ⟨j, hj, h7⟩))
            · exact .inr ⟨_, mem_seenL_last sched v ds k (by omega) hvw, h7⟩
        have hiview : u = bg := by
          by_contra hub
          exact hseen i hi (by rw [hu]; simpa using hub) hocck
        rcases hans with ⟨rfl, hG⟩ | ⟨v', rfl, hG, -⟩
        · exact absurd hiview ((growthStep_occ hG).2 (.inr ⟨j, hj', hjview⟩))
        · exact hW.2 ⟨v', rfl⟩

theorem init_nbs {S : Structure K d} {bl : Builder K d} {g : Graph K} (hb : bl.get S none = .ok g) {bg : Val} {order : ℕ → List ℕ → List ℕ}
    {c : Ctl} (h : Growth.init order S bg (some bl) = .ok c) : c.background = bg ∧ ∀ (t : ℕ) (i : ℕ), c.nbs t (.int i) = .ok (order t (g.neighborsOf i)) := by
  unfold Growth.init at h
  rw [Option.getD_some, hb] at h
  injection h with h
  subst h
  exact ⟨rfl, fun t i => by simp [neighborsOfKey, Except.map]⟩

theorem growthCtl_reorders {S : Structure K d} (hS : S.Reachable) {bl : Builder K d} {g : Graph K} (hb : bl.get S none = .ok g) {bg : Val}
    {order : ℕ → List ℕ → List ℕ} (horder : ∀ t l, (order t l).Perm l) {s0 : SimState} (hsites : SameSites S s0)
    {c c' : Ctl} (h : Growth.init order S bg (some bl) = .ok c) (hc : Reorders c c') :
    GrowthCtl bg s0.siteIds (fun i l => l.Perm (match i with | .int z => g.neighborsOf z.toNat | .str _ => [])) c' := by
  obtain ⟨h1, h2⟩ := init_nbs hb h
  refine ⟨by rw [hc.1, h1], fun t k hk => ?_⟩
  obtain ⟨i, hi, rfl⟩ := (hsites k).1 hk
  obtain ⟨l, hl, hp⟩ := hc.2 t _ _ (h2 t i)
  have hp' : l.Perm (g.neighborsOf i) := hp.trans (horder t _)
  refine ⟨l, hl, by simpa using hp', fun j hj => ?_⟩
  exact (hsites _).2 ⟨j, ((C55_known_and_other hS bl none g hb i).1 j (hp'.mem_iff.1 hj)).1, rfl⟩

/-- C90 for a controller constructed with a neighbourhood builder: for every number of workers, every schedule and whatever the order in which every
worker's copy of the graph lists neighbours, the parallel run occupies at every step exactly the sites the serial run occupies. -/
theorem C90_same_sites {S : Structure K d} (hS : S.Reachable) (bl : Builder K d) (g : Graph K) (hb : bl.get S none = .ok g) (bg : Val)
    (order : ℕ → List ℕ → List ℕ) (horder : ∀ t l, (order t l).Perm l) (s0 : SimState) (hs : s0.WF)
    (hg : s0.getGeneralState ≠ none) (hne : S.siteIds ≠ []) (hsites : SameSites S s0) (hocc : AllOccupied s0) (n : ℕ)
    (c : Ctl) (hc : Growth.init order S bg (some bl) = .ok c) (fork : ℕ → Ctl → Ctl) (hfork : ∀ v, Reorders c (fork v c))
    (w : ℕ) (hw0 : 0 < w) (sched : ℕ → StepSched)
    (hv : ∀ k, k < n → (sched k).Valid w (chunks s0.siteIds (chunkSize s0.siteIds.length w)).length) :
    ∃ res c' res', runParallel controller fork c s0 w n sched = .ok res ∧ runSync controller c s0 n = .ok (c', res') ∧ res.len = res'.len ∧
      ∀ k : ℕ, k ≤ n → ∃ a b, res.getStep k = .ok a ∧ res'.getStep k = .ok b ∧ ∀ i ∈ S.siteIds,
        (occ? a (.int i) ≠ some bg ↔ occ? b (.int i) ≠ some bg) := by
  obtain ⟨c1, c2, res', e1, e2, e3, e4, e5⟩ := C62_builder hS bl g hb bg order horder s0 hs hg hne hsites hocc n
  rw [hc] at e1; injection e1 with e1; subst e1
  obtain ⟨E, res, h1, h2, h3, h4, h5⟩ := growth_front bg _ c s0 hs hg (sameSites_ne hsites hne) hocc fork (fun v => growthCtl_reorders hS hb horder hsites hc (hfork v)) w hw0 n sched hv
  refine ⟨res, c2, res', h1, e2, by rw [h2, e3], fun k => ?_⟩
  induction k with
  | zero => exact fun _ => ⟨s0, s0, by rw [← h3]; exact (h4 0 (by omega)).1, e4, fun _ _ => Iff.rfl⟩
  | succ k ih =>
    intro hk
    obtain ⟨a, b, ha, hb', hab⟩ := ih (by omega)
    have ha' := (h4 k (by omega)).1
    rw [ha] at ha'; injection ha' with ha'
    obtain ⟨b1, b2, f1, f2, -, f3⟩ := e5 k (by omega)
    rw [hb'] at f1; injection f1 with f1; subst f1
    refine ⟨E (k + 1), b2, (h4 (k + 1) hk).1, by exact_mod_cast f2, fun i hi => ?_⟩
    rw [h5 k (by omega) _ ((hsites _).2 ⟨i, hi, rfl⟩), ← ha']
    obtain ⟨v, v', hv, hv', hG⟩ := f3 i hi
    have := growthStep_occ hG
    rw [hv']
    have e : (some v' ≠ some bg) ↔ v' ≠ bg := by simp
    rw [e, this, hab i hi, hv]
    refine or_congr (by simp) ?_
    show (∃ j ∈ g.neighborsOf ((i : ℤ)).toNat, _) ↔ _
    rw [Int.toNat_natCast]
    refine exists_congr fun j => and_congr_right fun hj => hab j ((C55_known_and_other hS bl none g hb i).1 j hj).1

theorem noAbsence_all {sched : ℕ → StepSched} {n : ℕ} (hna : NoAbsence sched n) {k : ℕ} (hk : k < n) {m : ℕ} (hm : m ≤ k) :
    ∀ x ∈ (sched k).workers, x ∈ (sched m).workers := by
  induction k, hm using Nat.le_induction with
  | base => exact fun x hx => hx
  | succ k hmk ih => exact fun x hx => ih (by omega) x (hna k hk x hx)

/-- C91, the part that is true: if every worker used at some step was also used at every earlier step, then from every step to the next every site makes a growth step with
respect to its neighbours in the graph, as in the serial run (C62); in particular no occupied site changes. -/
theorem C91_no_absence_partial {S : Structure K d} (hS : S.Reachable) (bl : Builder K d) (g : Graph K) (hb : bl.get S none = .ok g) (bg : Val)
    (order : ℕ → List ℕ → List ℕ) (horder : ∀ t l, (order t l).Perm l) (s0 : SimState) (hs : s0.WF) (hg : s0.getGeneralState ≠ none)
    (hne : S.siteIds ≠ []) (hsites : SameSites S s0) (hocc : AllOccupied s0) (n : ℕ)
    (c : Ctl) (hc : Growth.init order S bg (some bl) = .ok c) (fork : ℕ → Ctl → Ctl) (hfork : ∀ v, Reorders c (fork v c))
    (w : ℕ) (hw0 : 0 < w) (sched : ℕ → StepSched)
    (hv : ∀ k, k < n → (sched k).Valid w (chunks s0.siteIds (chunkSize s0.siteIds.length w)).length) (hna : NoAbsence sched n) :
    ∃ res, runParallel controller fork c s0 w n sched = .ok res ∧ res.len = n + 1 ∧ res.getStep 0 = .ok s0 ∧
      ∀ k : ℕ, k < n → ∃ a b, res.getStep k = .ok a ∧ res.getStep (k + 1) = .ok b ∧ SameSites S b ∧
        ∀ i ∈ S.siteIds, ∃ v v', occ? a (.int i) = some v ∧ occ? b (.int i) = some v' ∧ GrowthStep bg a (g.neighborsOf i) v v' := by
  obtain ⟨ds, res, h1, h2, h3, h4, h5, h6⟩ := growth_runs bg _ c s0 hs hg (sameSites_ne hsites hne) hocc fork (fun v => growthCtl_reorders hS hb horder hsites hc (hfork v)) w hw0 n sched hv
  have hv0 : ViewOf s0.siteIds s0 := ⟨hs, rfl, hg⟩
  have hpt : ∀ k, ∀ p ∈ ds.take k, PatchOf s0.siteIds p := fun k p hp => (h4 p (List.mem_of_mem_take hp)).1
  refine ⟨res, h1, h2, by simpa [after] using h5 0 (by omega), fun k hk => ⟨_, _, h5 k (by omega), by exact_mod_cast h5 (k + 1) (by omega), ?_, ?_⟩⟩
  · intro q
    rw [(hv0.after (hpt (k + 1))).ids]; exact hsites q
  intro i hi
  have his := (hsites _).2 ⟨i, hi, rfl⟩
  obtain ⟨v, q, hvw, hq, q', u, l, e, hu, hl, -, hans⟩ := h6 k hk _ his
  injection e with e; subst e
  -- the worker has seen everything
  have hseen : ∀ m, m ≤ k → seenL sched v (ds.take m) = ds.take m := by
    intro m
    induction m with
    | zero => intro _; simp [seenL]
    | succ m ih =>
      intro hm
      have hlt : m < ds.length := by omega
      rw [List.take_succ_eq_append_getElem hlt, seenL_snoc, ih (by omega), List.length_take, Nat.min_eq_left hlt.le, if_pos (noAbsence_all hna hk hm v hvw)]
  rw [hseen k le_rfl] at hu hans
  have hkl : k < ds.length := by omega
  have hlast : after s0 (ds.take (k + 1)) = setSitesP (after s0 (ds.take k)) (ds.getD k []) := by
    rw [List.take_succ_eq_append_getElem hkl, after_snoc]
    simp [List.getElem?_eq_getElem hkl]
  have hmem : ds.getD k [] ∈ ds := by
    rw [List.getD_eq_getElem?_getD, List.getElem?_eq_getElem hkl]; exact List.getElem_mem hkl
  have hl' : l.Perm (g.neighborsOf i) := by simpa using hl
  rcases occ?_setSitesP (hv0.after (hpt k)) (h4 _ hmem).1 his with ⟨h7, -⟩ | ⟨q2, h7, h8⟩
  · rw [hq] at h7; cases h7
  · rw [hq] at h7; injection h7 with h7; injection h7 with h7; subst h7
    rw [hlast]
    rcases hans with ⟨rfl, hG⟩ | ⟨v', rfl, hG, -⟩
    · exact ⟨u, u, hu, by rw [h8, hu]; simp, growthStep_perm hl' hG⟩
    · exact ⟨u, v', hu, by rw [h8]; simp [Dict.get?], growthStep_perm hl' hG⟩

/-- Growth on a 5 x 4 grid from the three cells of `blinker` with three workers of which the first two share the work: the hypotheses of the two theorems
above are met. -/
example : ∃ (S : Structure ℚ 2) (s0 : SimState) (c : Ctl) (b : ℕ) (res : SimResult), SquareGrid 2 ![5, 4] S ∧ ShowsLife S s0 blinker ∧
    Growth.init (fun _ l => l) S (.str "dead") (some (moore 1)) = .ok c ∧
    runParallel controller (fun _ c => c) c s0 3 2 (fun _ => (List.range b).map fun i => (i, i % 2)) = .ok res ∧
    ∀ k : ℕ, k < 2 → ∃ s t, res.getStep k = .ok s ∧ res.getStep (k + 1) = .ok t ∧
      ∀ i ∈ S.siteIds, ∀ v, occ? s (.int i) = some v → v ≠ .str "dead" → occ? t (.int i) = some v := by
  obtain ⟨-, S, hS, -⟩ := C52_square2 (K := ℚ) 1 (by norm_num) 4 5 (by norm_num) (by norm_num)
  have hg : SquareGrid 2 ![5, 4] S := .two _ S 5 4 (by norm_num) (by norm_num) (.inl rfl) hS
  have ht := hg.isTorus
  obtain ⟨s0, h1, h2, h3, h4⟩ := life_state_exists ht blinker
  obtain ⟨g, hb, -⟩ := C53_moore hg 1
  obtain ⟨c, hc⟩ : ∃ c, Growth.init (fun _ l => l) S (.str "dead") (some (moore 1)) = .ok c := by
    unfold Growth.init
    rw [Option.getD_some, hb]
    exact ⟨_, rfl⟩
  obtain ⟨res, h5, -, -, h6⟩ := C91_no_absence_partial ht.reachable (moore 1) g hb (.str "dead") (fun _ l => l) (fun _ _ => .refl _) s0 h1 h2 ht.ids_ne h3
    (showsLife_allOccupied ht h3 h4) 2 c hc (fun _ c => c) (fun _ => ⟨rfl, fun _ _ l hl => ⟨l, hl, .refl _⟩⟩) 3 (by norm_num)
    (fun _ => (List.range (chunks s0.siteIds (chunkSize s0.siteIds.length 3)).length).map fun i => (i, i % 2)) (by
      intro k _
      refine ⟨?_, ?_⟩
      · simp only [List.map_map, Function.comp_def, List.map_id']
        exact .refl _
      · intro p hp
        obtain ⟨i, -, rfl⟩ := List.mem_map.1 hp
        show i % 2 < 3
        omega) (fun k _ v hv => hv)
  refine ⟨S, s0, c, _, res, hg, h4, hc, h5, fun k hk => ?_⟩
  obtain ⟨a, b, ha, hb', -, hst⟩ := h6 k hk
  refine ⟨a, b, ha, hb', fun i hi v hv hne => ?_⟩
  obtain ⟨u, u', hu, hu', hG⟩ := hst i hi
  rw [hv] at hu; injection hu with hu; subst hu
  rw [hu', hG.1 hne]

/-! ### A schedule in which an occupied site changes its phase -/

/-- The Moore neighbours of cell `6 x + y` on a torus of 6 by 6 cells. -/
def torus6 (i : ℕ) : List ℕ :=
  [(5, 5), (5, 0), (5, 1), (0, 5), (0, 1), (1, 5), (1, 0), (1, 1)].map fun ab : ℕ × ℕ => 6 * ((i / 6 + ab.1) % 6) + (i % 6 + ab.2) % 6

/-- Three nuclei, any two of them more than two cells apart: `A` at (0, 2) and (3, 0), `B` at (0, 5). -/
def grains6 (i : ℕ) : Val := if i = 2 ∨ i = 18 then .str "A" else if i = 5 then .str "B" else .str "bg"

def init6 : SimState :=
  ⟨(List.range 36).map fun i : ℕ => (Key.int i, [(SITE_ID, .num i), (DISCRETE_OCCUPANCY, grains6 i)]), some []⟩

def ctl6 : Ctl := ⟨.str "bg", fun _ i => match i with
  | .int z => if 0 ≤ z ∧ z < 36 then .ok (torus6 z.toNat) else .error .keyError
  | .str _ => .error .keyError, 0⟩

/-- Two batches, two workers; worker 1 does nothing until step 2. -/
def sched6 (k : ℕ) : StepSched := if k < 2 then [(0, 0), (1, 0)] else [(0, 1), (1, 0)]

def occAt (r : Py SimResult) (k : ℤ) (i : Key) : Option Val :=
  match r with
  | .ok res => match res.getStep k with
    | .ok s => occ? s i
    | .error _ => none
  | .error _ => none

theorem run6 : occAt (runParallel controller (fun _ c => c) ctl6 init6 2 3 sched6) 2 (.int 10) = some (.str "B") ∧
    occAt (runParallel controller (fun _ c => c) ctl6 init6 2 3 sched6) 3 (.int 10) = some (.str "A") := by
  decide +kernel

theorem wf6 : init6.WF := by
  refine ⟨by unfold Dict.WF; decide +kernel, ?_, fun g hg => by injection hg with hg; subst hg; exact .dict Dict.WF.nil (by simp)⟩
  intro kv hkv
  obtain ⟨i, -, rfl⟩ := List.mem_map.1 hkv
  refine .dict (by simp [Dict.WF, SITE_ID, DISCRETE_OCCUPANCY]) ?_
  intro q hq
  simp only [List.mem_cons, List.not_mem_nil, or_false] at hq
  rcases hq with rfl | rfl
  · exact .num _
  · show (grains6 i).WF
    unfold grains6
    split_ifs <;> exact .str _

theorem mem6 {k : Key} : k ∈ init6.siteIds ↔ ∃ i : ℕ, i < 36 ∧ k = .int i := by
  have : init6.siteIds = (List.range 36).map fun i : ℕ => Key.int i := rfl
  rw [this]
  simp [eq_comm]

/-- C91 is false: under some schedules a site that is occupied changes its phase. Three nuclei, any two more than two cells apart, on
a 6 by 6 torus with the Moore neighbourhood: cell (1, 4) is `B` after two steps and `A` after the third, which was computed by a worker that had missed
the first update. All hypotheses of `C90_growth` hold. -/
theorem C91_false : ∃ (bg : Val) (c : Ctl) (s0 : SimState) (w n : ℕ) (sched : ℕ → StepSched) (res : SimResult),
    s0.WF ∧ s0.getGeneralState ≠ none ∧ s0.siteIds ≠ [] ∧ AllOccupied s0 ∧ c.background = bg ∧
    (∀ t, ∀ i ∈ s0.siteIds, ∃ l, c.nbs t i = .ok l ∧ ∀ j ∈ l, Key.int j ∈ s0.siteIds) ∧ 0 < w ∧
    (∀ k, k < n → (sched k).Valid w (chunks s0.siteIds (chunkSize s0.siteIds.length w)).length) ∧
    runParallel controller (fun _ c => c) c s0 w n sched = .ok res ∧
    ∃ (k m : ℕ) (a b : SimState) (i : Key) (u v : Val), k ≤ m ∧ m ≤ n ∧ res.getStep k = .ok a ∧ res.getStep m = .ok b ∧ i ∈ s0.siteIds ∧
      occ? a i = some u ∧ occ? b i = some v ∧ u ≠ bg ∧ v ≠ bg ∧ u ≠ v := by
  have hocc : AllOccupied init6 := by
    intro k hk
    obtain ⟨i, hi, rfl⟩ := mem6.1 hk
    have : ∀ i < 36, (occ? init6 (.int (i : ℕ))).isSome = true := by decide +kernel
    exact Option.isSome_iff_exists.1 (this i hi)
  have hnb : ∀ t, ∀ i ∈ init6.siteIds, ∃ l, ctl6.nbs t i = .ok l ∧ ∀ j ∈ l, Key.int j ∈ init6.siteIds := by
    intro t k hk
    obtain ⟨i, hi, rfl⟩ := mem6.1 hk
    refine ⟨torus6 i, ?_, fun j hj => mem6.2 ⟨j, ?_, rfl⟩⟩
    · show (if (0 : ℤ) ≤ (i : ℤ) ∧ (i : ℤ) < 36 then Except.ok (torus6 (i : ℤ).toNat) else _) = _
      rw [if_pos (by omega), Int.toNat_natCast]
    · unfold torus6 at hj
      obtain ⟨ab, -, rfl⟩ := List.mem_map.1 hj
      omega
  have hval : ∀ k, k < 3 → (sched6 k).Valid 2 (chunks init6.siteIds (chunkSize init6.siteIds.length 2)).length := by
    intro k hk
    have : k = 0 ∨ k = 1 ∨ k = 2 := by omega
    unfold StepSched.Valid
    rcases this with rfl | rfl | rfl <;> decide +kernel
  obtain ⟨res, h1, h2, h3⟩ := C90_growth (.str "bg") ctl6 init6 wf6 (by decide) (by decide) hocc (fun _ c => c) (fun _ => rfl) (fun _ => hnb) 2
    (by omega) 3 sched6 hval
  have h := run6
  rw [h1] at h
  obtain ⟨a, ha, -⟩ := h3 2 (by omega)
  obtain ⟨b, hb, -⟩ := h3 3 (by omega)
  have ha' : res.getStep 2 = .ok a := ha
  have hb' : res.getStep 3 = .ok b := hb
  simp only [occAt, ha', hb'] at h
  exact ⟨.str "bg", ctl6, init6, 2, 3, sched6, res, wf6, by decide, by decide, hocc, rfl, hnb, by omega, hval, h1, 2, 3, a, b, .int 10, _, _, by omega, by omega,
    ha, hb, mem6.2 ⟨10, by omega, rfl⟩, h.1, h.2, by decide, by decide, by decide⟩

end Pyl
