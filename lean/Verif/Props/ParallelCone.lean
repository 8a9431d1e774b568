import Verif.Props.ParallelViews
import Verif.Props.Dynamics
/-
C145: how far information travels in a parallel run.
-/
set_option autoImplicit false

namespace Pyl
open SimState Spec

theorem Within.succ {N : Key → Key → Prop} {k : ℕ} {i j : Key} (h : Within N k i j) : Within N (k + 1) i j := by
  induction h with
  | here k i => exact .here _ i
  | hop h1 _ ih => exact .hop h1 ih

theorem Within.mono {N : Key → Key → Prop} {k l : ℕ} {i j : Key} (h : Within N k i j) (hl : k ≤ l) : Within N l i j := by
  induction hl with
  | refl => exact h
  | step _ ih => exact Within.succ ih

/-- Updates that say the same about a site do the same to it. -/
theorem after_congr {ids : List Key} (j : Key) : ∀ (l : List (Props × Props)) {s t : SimState}, (∀ p ∈ l, PatchOf ids p.1 ∧ PatchOf ids p.2) →
    s.getSiteState j = t.getSiteState j → (∀ p ∈ l, Dict.get? p.1 j = Dict.get? p.2 j) →
    (after s (l.map Prod.fst)).getSiteState j = (after t (l.map Prod.snd)).getSiteState j := by
  intro l
  induction l with
  | nil => intro s t _ h _; exact h
  | cons p l ih =>
    intro s t hp h he
    refine ih (s := setSitesP s p.1) (t := setSitesP t p.2) (fun q hq => hp q (by simp [hq])) ?_ fun q hq => he q (by simp [hq])
    have h1 := hp p (by simp)
    show Dict.get? (setSitesP s p.1).sites j = Dict.get? (setSitesP t p.2).sites j
    rw [get?_setSitesP h1.1.wf.keys, get?_setSitesP h1.2.wf.keys, he p (by simp), oldOf_congr h]
    cases Dict.get? p.2 j with
    | none => exact h
    | some v => rfl

theorem after_general (s : SimState) (l : List Props) : (after s l).general = s.general := by
  induction l generalizing s with
  | nil => rfl
  | cons p l ih => exact (ih (setSitesP s p)).trans (general_setSitesP s p)

/-- A step that can be replayed needs recorded updates. -/
theorem replayTo_needs : ∀ (ds : List (Option Props)) (s a : SimState) (k : ℕ), k ≤ ds.length → SimResult.replayTo s ds k = .ok a →
    ∀ j, j < k → ds.getD j none ≠ none := by
  intro ds
  induction ds with
  | nil => intro s a k hk _ j hj; simp at hk; omega
  | cons d ds ih =>
    intro s a k hk h j hj
    cases k with
    | zero => omega
    | succ k =>
      rw [SimResult.replayTo_cons] at h
      obtain ⟨s1, h1, h2⟩ := bind_ok h
      cases j with
      | zero =>
        rintro e
        simp at e
        subst e
        simp [batchUpdateO] at h1
      | succ j => simpa using ih s1 a k (by simpa using hk) h2 j (by omega)

/-- The patches of a parallel run, and what they are. -/
theorem parallel_patches {f : Key → SimState → Resp} (hf : SiteLocal f) (hw : RuleWF f) {s0 : SimState} (hs : s0.WF) (hg : s0.getGeneralState ≠ none)
    (hne : s0.siteIds ≠ []) {w : ℕ} (hw0 : 0 < w) {n : ℕ} {fork : ℕ → Unit → Unit} {sched : ℕ → StepSched}
    (hv : ∀ k, k < n → (sched k).Valid w (chunks s0.siteIds (chunkSize s0.siteIds.length w)).length)
    {res : SimResult} (h : runParallel (ofRule f) fork () s0 w n sched = .ok res) :
    ∃ ds : List Props, res = ⟨s0, ds.map fun p => (updOf p).map Upd.toProps, [], some s0⟩ ∧ ds.length = n ∧ (∀ p ∈ ds, PatchOf s0.siteIds p) ∧
      (∀ j, j + 1 < n → ds.getD j [] ≠ []) ∧
      ∀ j, j < n → ∀ b v i, (b, v) ∈ sched j → i ∈ (chunks s0.siteIds (chunkSize s0.siteIds.length w)).getD b [] →
        ∃ p, Dict.get? (ds.getD j []) i = p.map Val.dict ∧ Answers i (f i (after s0 ((reached sched v j).map fun m => ds.getD m []))) p := by
  have hA : AnswersOpt (ofRule f) s0.siteIds (fun _ => True) (fun _ => True) (fun i s p => Answers i (f i s) p) := by
    intro st s _ _ _ i _
    obtain ⟨p, hp⟩ := hf i s
    exact ⟨(), f i s, p, rfl, hp, hw i s, hp, trivial⟩
  obtain ⟨ds, h1, h2, h3, h4, h5⟩ := runParallel_by hA (fun _ _ _ _ _ => trivial) hs hg hne trivial w hw0 fork () () rfl (fun _ => trivial) n sched hv
    (.inr ⟨res, h⟩)
  rw [h] at h1
  injection h1 with h1
  refine ⟨ds, h1, h2, fun p hp => (h3 p hp).1, h4, fun j hj b v i hbv hi => ?_⟩
  obtain ⟨p, e1, e2⟩ := h5 j hj b v i hbv hi
  rw [seenL_reached sched v ds j (by omega)] at e2
  exact ⟨p, e1, e2⟩

/-- What two parallel runs with the same schedule record for a site at step `k` agrees if the initial states agree within `k + 1` hops. -/
theorem patches_cone {f : Key → SimState → Resp} {N : Key → Key → Prop} (hN : ReadsOnly f N)
    {s0 t0 : SimState} (hids : s0.siteIds = t0.siteIds) (hg : s0.getGeneralState = t0.getGeneralState) {w : ℕ} {ds ds' : List Props}
    (hw0 : 0 < w) {sched : ℕ → StepSched} (hp : ∀ p ∈ ds, PatchOf s0.siteIds p) (hp' : ∀ p ∈ ds', PatchOf s0.siteIds p)
    {n : ℕ} (hn : n ≤ ds.length) (hn' : n ≤ ds'.length)
    (hv : ∀ k, k < n → (sched k).Valid w (chunks s0.siteIds (chunkSize s0.siteIds.length w)).length)
    (ha : ∀ j, j < n → ∀ b v i, (b, v) ∈ sched j → i ∈ (chunks s0.siteIds (chunkSize s0.siteIds.length w)).getD b [] →
        ∃ p, Dict.get? (ds.getD j []) i = p.map Val.dict ∧ Answers i (f i (after s0 ((reached sched v j).map fun m => ds.getD m []))) p)
    (ha' : ∀ j, j < n → ∀ b v i, (b, v) ∈ sched j → i ∈ (chunks s0.siteIds (chunkSize s0.siteIds.length w)).getD b [] →
        ∃ p, Dict.get? (ds'.getD j []) i = p.map Val.dict ∧ Answers i (f i (after t0 ((reached sched v j).map fun m => ds'.getD m []))) p)
    (k : ℕ) (hk : k < n) (i : Key) (hi : ∀ j, Within N (k + 1) i j → s0.getSiteState j = t0.getSiteState j) :
    Dict.get? (ds.getD k []) i = Dict.get? (ds'.getD k []) i := by
  have memD : ∀ {l : List Props}, (∀ p ∈ l, PatchOf s0.siteIds p) → ∀ m, m < l.length → PatchOf s0.siteIds (l.getD m []) := by
    intro l hl m hm
    rw [List.getD_eq_getElem?_getD, List.getElem?_eq_getElem hm]
    exact hl _ (List.getElem_mem hm)
  induction k using Nat.strong_induction_on generalizing i with
  | _ k ih =>
    by_cases hmem : i ∈ s0.siteIds
    · have hfl : i ∈ (chunks s0.siteIds (chunkSize s0.siteIds.length w)).flatten := by
        rw [C17_partition _ _ hw0 (List.ne_nil_of_mem hmem)]; exact hmem
      obtain ⟨ch, hch, hic⟩ := List.mem_flatten.1 hfl
      obtain ⟨b, hb, rfl⟩ := List.getElem_of_mem hch
      have hbs : b ∈ (sched k).map Prod.fst := (hv k hk).1.symm.subset (List.mem_range.2 hb)
      obtain ⟨⟨b', v⟩, hbv, rfl⟩ := List.mem_map.1 hbs
      have hic' : i ∈ (chunks s0.siteIds (chunkSize s0.siteIds.length w)).getD b' [] := by
        rw [List.getD_eq_getElem?_getD, List.getElem?_eq_getElem hb]; exact hic
      obtain ⟨p, e1, e2⟩ := ha k hk b' v i hbv hic'
      obtain ⟨p', e1', e2'⟩ := ha' k hk b' v i hbv hic'
      have views : ∀ j, (∀ l, Within N k j l → s0.getSiteState l = t0.getSiteState l) →
          (after s0 ((reached sched v k).map fun m => ds.getD m [])).getSiteState j =
          (after t0 ((reached sched v k).map fun m => ds'.getD m [])).getSiteState j := by
        intro j hj
        have hlt : ∀ m ∈ reached sched v k, m < k := by
          intro m hm
          unfold reached at hm
          exact List.mem_range.1 (List.mem_filter.1 hm).1
        have := after_congr (ids := s0.siteIds) (s := s0) (t := t0) j ((reached sched v k).map fun m => (ds.getD m [], ds'.getD m [])) (by
            intro q hq
            obtain ⟨m, hm, rfl⟩ := List.mem_map.1 hq
            have := hlt m hm
            exact ⟨memD hp m (by omega), memD hp' m (by omega)⟩) (hj j (.here k j)) (by
            intro q hq
            obtain ⟨m, hm, rfl⟩ := List.mem_map.1 hq
            have := hlt m hm
            exact ih m this (by omega) j fun l hl => hj l (Within.mono hl (by omega)))
        simpa [List.map_map, Function.comp_def] using this
      have hff := hN i (after s0 ((reached sched v k).map fun m => ds.getD m [])) (after t0 ((reached sched v k).map fun m => ds'.getD m []))
        (by show SimState.general _ = SimState.general _; rw [after_general, after_general]; exact hg)
        (views i fun l hl => hi l (Within.succ hl)) fun j hj => views j fun l hl => hi l (.hop hj hl)
      rw [hff] at e2
      rw [e1, e1', answers_unique e2 e2']
    · have h1 := Dict.get?_eq_none_iff.2 fun hc => hmem ((memD hp k (by omega)).sub i hc)
      have h2 := Dict.get?_eq_none_iff.2 fun hc => hmem ((memD hp' k (by omega)).sub i hc)
      rw [h1, h2]

/-- A step of a parallel run that can be asked for. -/
theorem getStep_patches {s0 : SimState} (hs : s0.WF) (hg : s0.getGeneralState ≠ none) {ds : List Props} (hp : ∀ p ∈ ds, PatchOf s0.siteIds p)
    (out : Option SimState) {k : ℕ} (hk : k ≤ ds.length) {a : SimState}
    (h : SimResult.getStep ⟨s0, ds.map fun p => (updOf p).map Upd.toProps, [], out⟩ k = .ok a) : a = after s0 (ds.take k) := by
  have h1 : SimResult.replayTo s0 (ds.map fun p => (updOf p).map Upd.toProps) k = .ok a := by
    simpa [SimResult.getStep, Dict.get?, copy] using h
  have h2 := replayTo_needs _ _ _ _ (by simpa using hk) h1
  rw [replayTo_after ⟨hs, rfl, hg⟩ ds hp k hk fun j hj e => h2 j hj (by
    have hj' : j < ds.length := by omega
    rw [List.getD_eq_getElem?_getD, List.getElem?_eq_getElem hj', Option.getD_some] at e
    simp [List.getElem?_eq_getElem hj', e, updOf])] at h1
  exact (Except.ok.inj h1).symm

theorem parallel_zero {f : Key → SimState → Resp} {s0 : SimState} {w : ℕ} (hw0 : 0 < w)
    {fork : ℕ → Unit → Unit} {sched : ℕ → StepSched} {res : SimResult} (h : runParallel (ofRule f) fork () s0 w 0 sched = .ok res) :
    res = ⟨s0, [], [], some s0⟩ := by
  unfold runParallel at h
  have hpre : (ofRule f).preRun () s0 = .ok ((), s0) := rfl
  rw [hpre, ok_bind] at h
  simp only at h
  rw [if_neg (by omega)] at h
  simpa [parallelLoop, SimResult.setOutput, SimResult.new, copy, pure, Except.pure, eq_comm] using h

/-- A parallel run without sites fails. -/
theorem parallel_empty {f : Key → SimState → Resp} {s0 : SimState} (hne : s0.siteIds = []) {w : ℕ} (hw0 : 0 < w) {n : ℕ} (hn : 0 < n)
    {fork : ℕ → Unit → Unit} {sched : ℕ → StepSched} {res : SimResult} (h : runParallel (ofRule f) fork () s0 w n sched = .ok res) : False := by
  obtain ⟨n, rfl⟩ := Nat.exists_eq_succ_of_ne_zero (Nat.pos_iff_ne_zero.1 hn)
  unfold runParallel at h
  have hpre : (ofRule f).preRun () s0 = .ok ((), s0) := rfl
  rw [hpre, ok_bind] at h
  simp only at h
  rw [if_neg (by omega)] at h
  have hc : chunkSize s0.size w = 0 := by
    have : s0.size = 0 := by
      have : s0.size = s0.siteIds.length := rfl
      rw [this, hne]; rfl
    rw [this]; unfold chunkSize
    exact Nat.div_eq_of_lt (by omega)
  unfold parallelLoop takeStepParallel at h
  rw [if_pos hc] at h
  simp at h

/-- C145: information travels at most one hop per step in a parallel run too, however its batches are handed out.  For two parallel runs with the same
number of workers and the same schedule, on the same sites and with the same general state: if the rule at a site reads only this site, its neighbours
and the general state, the state of a site after `k` steps depends only on the initial states of the sites within `k` hops. -/
theorem C145_light_cone {f : Key → SimState → Resp} (hf : SiteLocal f) (hw : RuleWF f) {N : Key → Key → Prop} (hN : ReadsOnly f N)
    {s0 t0 : SimState} (hs : s0.WF) (ht : t0.WF) (hids : s0.siteIds = t0.siteIds) (hg0 : s0.getGeneralState ≠ none)
    (hg : s0.getGeneralState = t0.getGeneralState) {w : ℕ} (hw0 : 0 < w) {n m : ℕ} {fork : ℕ → Unit → Unit} {sched : ℕ → StepSched}
    (hv : ∀ k, (k < n ∨ k < m) → (sched k).Valid w (chunks s0.siteIds (chunkSize s0.siteIds.length w)).length) {res res' : SimResult}
    (h : runParallel (ofRule f) fork () s0 w n sched = .ok res) (h' : runParallel (ofRule f) fork () t0 w m sched = .ok res')
    (k : ℕ) (hk : k ≤ n) (hk' : k ≤ m) {a b : SimState} (hsa : res.getStep k = .ok a) (hsb : res'.getStep k = .ok b)
    (i : Key) (hi : ∀ j, Within N k i j → s0.getSiteState j = t0.getSiteState j) : a.getSiteState i = b.getSiteState i := by
  by_cases hne : s0.siteIds = []
  · have hn0 : n = 0 := by
      by_contra hc
      exact parallel_empty hne hw0 (Nat.pos_of_ne_zero hc) h
    have hm0 : m = 0 := by
      by_contra hc
      exact parallel_empty (hids ▸ hne) hw0 (Nat.pos_of_ne_zero hc) h'
    subst hn0 hm0
    obtain rfl : k = 0 := by omega
    rw [parallel_zero hw0 h] at hsa
    rw [parallel_zero hw0 h'] at hsb
    have e1 : s0 = a := by simpa [SimResult.getStep, Dict.get?, copy, SimResult.replayTo] using hsa
    have e2 : t0 = b := by simpa [SimResult.getStep, Dict.get?, copy, SimResult.replayTo] using hsb
    rw [← e1, ← e2]
    exact hi i (.here 0 i)
  · obtain ⟨ds, rfl, h2, h3, h4, h5⟩ := parallel_patches hf hw hs hg0 hne hw0 (fun k hk => hv k (.inl hk)) h
    obtain ⟨ds', rfl, h2', h3', h4', h5'⟩ := parallel_patches hf hw ht (hg ▸ hg0) (hids ▸ hne) hw0 (fun k hk => by rw [← hids]; exact hv k (.inr hk)) h'
    have e1 := getStep_patches hs hg0 h3 _ (by omega) hsa
    have e2 := getStep_patches ht (hg ▸ hg0) h3' _ (by omega) hsb
    rw [← hids] at h3' h5'
    subst e1 e2
    have hz : (ds.take k).zip (ds'.take k) = (List.range k).map fun m => (ds.getD m [], ds'.getD m []) := by
      apply List.ext_getElem
      · simp; omega
      · intro x hx1 hx2
        simp at hx1 hx2
        simp [List.getElem?_eq_getElem (show x < ds.length by omega), List.getElem?_eq_getElem (show x < ds'.length by omega)]
    have key := after_congr (ids := s0.siteIds) (s := s0) (t := t0) i ((ds.take k).zip (ds'.take k)) (by
        intro q hq
        have := List.of_mem_zip hq
        exact ⟨h3 _ (List.mem_of_mem_take this.1), h3' _ (List.mem_of_mem_take this.2)⟩) (hi i (.here k i)) (by
        intro q hq
        rw [hz] at hq
        obtain ⟨x, hx, rfl⟩ := List.mem_map.1 hq
        have hx := List.mem_range.1 hx
        exact patches_cone (n := k) hN hids hg hw0 h3 h3' (by omega) (by omega) (fun j hj => hv j (.inl (by omega)))
          (fun j hj => h5 j (by omega)) (fun j hj => h5' j (by omega)) x hx i fun l hl => hi l (Within.mono hl (by omega)))
    rwa [List.map_fst_zip (by simp; omega), List.map_snd_zip (by simp; omega)] at key

/-- C145: every step but the last of a parallel run can be asked for, and the last one too if some site was given an update in it. -/
theorem C145_steps {f : Key → SimState → Resp} (hf : SiteLocal f) (hw : RuleWF f) {s0 : SimState} (hs : s0.WF) (hg0 : s0.getGeneralState ≠ none)
    {w : ℕ} (hw0 : 0 < w) {n : ℕ} {fork : ℕ → Unit → Unit} {sched : ℕ → StepSched}
    (hv : ∀ k, k < n → (sched k).Valid w (chunks s0.siteIds (chunkSize s0.siteIds.length w)).length) {res : SimResult}
    (h : runParallel (ofRule f) fork () s0 w n sched = .ok res) (k : ℕ) (hk : k ≤ n) (hlast : k < n ∨ n = 0 ∨ res.diffs.getD (n - 1) none ≠ none) :
    ∃ a, res.getStep k = .ok a ∧ a.siteIds = s0.siteIds ∧ a.getGeneralState = s0.getGeneralState := by
  by_cases hne : s0.siteIds = []
  · have hn0 : n = 0 := by
      by_contra hc
      exact parallel_empty hne hw0 (Nat.pos_of_ne_zero hc) h
    subst hn0
    obtain rfl : k = 0 := by omega
    rw [parallel_zero hw0 h]
    exact ⟨s0, by simp [SimResult.getStep, Dict.get?, copy, SimResult.replayTo], rfl, rfl⟩
  · obtain ⟨ds, rfl, h2, h3, h4, h5⟩ := parallel_patches hf hw hs hg0 hne hw0 hv h
    have hz : ∀ j, j < k → ds.getD j [] ≠ [] := by
      intro j hj
      by_cases hj' : j + 1 < n
      · exact h4 j hj'
      · have hjn : j = n - 1 := by omega
        subst hjn
        have hl : n - 1 < ds.length := by omega
        rcases hlast with hl' | hl' | hl'
        · omega
        · omega
        · intro e
          apply hl'
          rw [List.getD_eq_getElem?_getD, List.getElem?_eq_getElem hl, Option.getD_some] at e
          simp [List.getElem?_eq_getElem hl, e, updOf]
    have hr := replayTo_after ⟨hs, rfl, hg0⟩ ds h3 k (by omega) hz
    have hvw := ViewOf.after (ids := s0.siteIds) ⟨hs, rfl, hg0⟩ (l := ds.take k) fun p hp => h3 p (List.mem_of_mem_take hp)
    exact ⟨_, by simpa [SimResult.getStep, Dict.get?, copy] using hr, hvw.ids, after_general _ _⟩

/-- C145: in a parallel run too, a set of sites that no hop leaves evolves on its own. -/
theorem C145_closed {f : Key → SimState → Resp} (hf : SiteLocal f) (hw : RuleWF f) {N : Key → Key → Prop} (hN : ReadsOnly f N)
    {A : Key → Prop} (hA : ClosedUnder N A) {s0 t0 : SimState} (hs : s0.WF) (ht : t0.WF) (hids : s0.siteIds = t0.siteIds)
    (hg0 : s0.getGeneralState ≠ none) (hg : s0.getGeneralState = t0.getGeneralState) (hi : ∀ j, A j → s0.getSiteState j = t0.getSiteState j)
    {w : ℕ} (hw0 : 0 < w) {n m : ℕ} {fork : ℕ → Unit → Unit} {sched : ℕ → StepSched}
    (hv : ∀ k, (k < n ∨ k < m) → (sched k).Valid w (chunks s0.siteIds (chunkSize s0.siteIds.length w)).length) {res res' : SimResult}
    (h : runParallel (ofRule f) fork () s0 w n sched = .ok res) (h' : runParallel (ofRule f) fork () t0 w m sched = .ok res')
    (k : ℕ) (hk : k ≤ n) (hk' : k ≤ m) {a b : SimState} (hsa : res.getStep k = .ok a) (hsb : res'.getStep k = .ok b) :
    ∀ i, A i → a.getSiteState i = b.getSiteState i := by
  intro i hAi
  refine C145_light_cone hf hw hN hs ht hids hg0 hg hw0 hv h h' k hk hk' hsa hsb i fun j hj => hi j ?_
  clear hk hk' hsa hsb hv h h'
  induction hj with
  | here => exact hAi
  | hop h1 _ ih => exact ih (hA _ _ hAi h1)

/-! ### an example: the ring of `C133`, run by two workers of which one misses the first steps -/

theorem absent_valid (s : SimState) (hs : s.siteIds.length = 3) (k : ℕ) :
    (absentSched k).Valid 2 (chunks s.siteIds (chunkSize s.siteIds.length 2)).length := by
  have : (chunks s.siteIds (chunkSize s.siteIds.length 2)).length = 2 := by
    rw [hs]; simp [chunks, chunkSize, hs]
  rw [this]
  unfold absentSched StepSched.Valid
  split_ifs <;> decide

/-- `C145_light_cone` for the first step of this run: site 1 does not depend on site 2. -/
example (res res' : SimResult) (h : runParallel (ofRule shiftRule) (fun _ st => st) () (shiftStart 1 0 0) 2 3 absentSched = .ok res)
    (h' : runParallel (ofRule shiftRule) (fun _ st => st) () (shiftStart 1 0 1) 2 3 absentSched = .ok res') :
    ∃ a b, res.getStep (1 : ℕ) = .ok a ∧ res'.getStep (1 : ℕ) = .ok b ∧ a.getSiteState (.int 1) = b.getSiteState (.int 1) := by
  obtain ⟨a, ha, -⟩ := C145_steps shift_local shift_wf (shiftStart_wf 1 0 0) (by simp [shiftStart, getGeneralState]) (by omega)
    (fun k _ => absent_valid _ rfl k) h 1 (by omega) (.inl (by omega))
  obtain ⟨b, hb, -⟩ := C145_steps shift_local shift_wf (shiftStart_wf 1 0 1) (by simp [shiftStart, getGeneralState]) (by omega)
    (fun k _ => absent_valid _ rfl k) h' 1 (by omega) (.inl (by omega))
  refine ⟨a, b, ha, hb, C145_light_cone shift_local shift_wf shift_reads (shiftStart_wf 1 0 0) (shiftStart_wf 1 0 1) rfl
    (by simp [shiftStart, getGeneralState]) rfl (by omega) (fun k _ => absent_valid _ rfl k) h h' 1 (by omega) (by omega) ha hb _ ?_⟩
  intro j hj
  cases hj with
  | here => rfl
  | hop h1 h2 =>
    subst h1
    cases h2
    rfl

/-- These runs return. -/
example : (runParallel (ofRule shiftRule) (fun _ st => st) () (shiftStart 1 0 0) 2 3 absentSched).toOption.map (fun r => r.getStep 3) =
      some (.ok (shiftStart 1 0 0)) ∧
    (runParallel (ofRule shiftRule) (fun _ st => st) () (shiftStart 1 0 1) 2 3 absentSched).toOption.map (fun r => r.getStep 3) =
      some (.ok (shiftStart 1 0 1)) := by
  decide +kernel

end Pyl
