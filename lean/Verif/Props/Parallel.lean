import Verif.Props.Sync
import Verif.Lemmas.Replay
import Mathlib.Data.List.Infix
import Mathlib.Tactic.Ring
import Mathlib.Algebra.Order.Ring.Nat
/-
C17 - C21: the parallel synchronous runner.
-/
set_option linter.unusedSectionVars false
set_option autoImplicit false

namespace Pyl
open SimState Spec
variable {σ : Type}

/-! ### C17 -/

theorem chunks_flatten_aux (c : Nat) (m : Nat) (ids : List Key) (h : ids.length ≤ m * c) :
    ((List.range m).map fun j => (ids.drop (j * c)).take c).flatten = ids := by
  induction m generalizing ids with
  | zero => simp at h; simp [h]
  | succ m ih =>
    rw [List.range_succ_eq_map, List.map_cons, List.flatten_cons, List.map_map]
    have e : ((List.range m).map ((fun j => (ids.drop (j * c)).take c) ∘ Nat.succ)) =
        (List.range m).map fun j => ((ids.drop c).drop (j * c)).take c := by
      refine List.map_congr_left fun j _ => ?_
      simp only [Function.comp, List.drop_drop]
      congr 2
      rw [Nat.succ_mul, Nat.add_comm]
    rw [e, ih (ids.drop c) (by rw [List.length_drop]; rw [Nat.succ_mul] at h; omega)]
    simp

/-- C17: the batches of a parallel step contain every site id exactly once, in order: concatenated they are the id list. -/
theorem C17_partition (ids : List Key) (w : Nat) (hw : 0 < w) (hn : ids ≠ []) :
    (chunks ids (chunkSize ids.length w)).flatten = ids := by
  have hlen : 0 < ids.length := List.length_pos_iff.2 hn
  have hc : 0 < chunkSize ids.length w := by
    unfold chunkSize; exact Nat.div_pos (by omega) hw
  refine chunks_flatten_aux _ _ ids ?_
  set c := chunkSize ids.length w
  have := Nat.div_add_mod (ids.length + c - 1) c
  have h2 := Nat.mod_lt (ids.length + c - 1) hc
  rw [Nat.mul_comm] at this
  omega

/-- C17: there are at most as many batches as workers. -/
theorem C17_at_most_workers (ids : List Key) (w : Nat) (hw : 0 < w) (hn : ids ≠ []) :
    (chunks ids (chunkSize ids.length w)).length ≤ w := by
  have hlen : 0 < ids.length := List.length_pos_iff.2 hn
  have hc : 0 < chunkSize ids.length w := by
    unfold chunkSize; exact Nat.div_pos (by omega) hw
  have hcw : ids.length ≤ chunkSize ids.length w * w := by
    unfold chunkSize
    have := Nat.div_add_mod (ids.length + w - 1) w
    have h2 := Nat.mod_lt (ids.length + w - 1) hw
    rw [Nat.mul_comm] at this
    omega
  simp only [chunks, List.length_map, List.length_range]
  rw [← Nat.lt_succ_iff, Nat.div_lt_iff_lt_mul hc, Nat.succ_mul]
  have : chunkSize ids.length w * w = w * chunkSize ids.length w := Nat.mul_comm _ _
  omega

/-- C17: no batch is empty and none is longer than the chunk size. -/
theorem C17_batch_sizes (ids : List Key) (c : Nat) (hc : 0 < c) :
    ∀ b ∈ chunks ids c, b ≠ [] ∧ b.length ≤ c := by
  intro b hb
  simp only [chunks, List.mem_map, List.mem_range] at hb
  obtain ⟨j, hj, rfl⟩ := hb
  refine ⟨?_, by simp⟩
  rw [Nat.lt_iff_add_one_le, Nat.le_div_iff_mul_le hc, Nat.add_mul] at hj
  intro h
  have : ((ids.drop (j * c)).take c).length = 0 := by rw [h]; rfl
  simp at this
  omega

example : chunks ((List.range 7).map fun (i : Nat) => Key.int (i : Int)) (chunkSize 7 3) =
    [[.int 0, .int 1, .int 2], [.int 3, .int 4, .int 5], [.int 6]] := by decide

/-! ### site-local steps, with the answers as a function -/

/-- The update of a list of sites: `None` if nobody answers. -/
def updOf (ps : Props) : Option Upd := if ps = [] then none else some ⟨ps, []⟩

/-- Answers of a batch. -/
def ansOf (P : Key → SimState → Option Props) (s : SimState) (ids : List Key) : List (Key × Option Props) :=
  ids.map fun i => (i, P i s)

theorem ansOf_fst (P : Key → SimState → Option Props) (s : SimState) (ids : List Key) :
    (ansOf P s ids).map Prod.fst = ids := by simp [ansOf, Function.comp_def]

theorem stepBatch_ans {f : Key → SimState → Resp} {P : Key → SimState → Option Props}
    (hP : ∀ i s, Answers i (f i s) (P i s)) (s : SimState) (ids : List Key) (hnd : ids.Nodup) :
    stepBatch (ofRule f) () ids s = .ok ((), updOf (patches (ansOf P s ids))) := by
  have hall : AnswersAll (ids.zip (ids.map fun i => f i s)) (ansOf P s ids) := by
    clear hnd
    induction ids with
    | nil => exact .nil
    | cons i ids ih => exact .cons (hP i s) ih
  refine stepBatch_of_visited (visited_ofRule f s ids) ?_
  rw [mergeAll_answers hall (by rw [zip_map_fst]; exact hnd) none (by simp [Upd.empty])]
  unfold updOf
  cases patches (ansOf P s ids) <;> simp [Upd.empty]

theorem get?_patches_ans (P : Key → SimState → Option Props) (s : SimState) (ids : List Key) (hnd : ids.Nodup)
    (i : Key) : Dict.get? (patches (ansOf P s ids)) i = if i ∈ ids then (P i s).map Val.dict else none := by
  split_ifs with h
  · exact get?_patches (by rw [ansOf_fst]; exact hnd) (List.mem_map.2 ⟨i, h, rfl⟩)
  · rw [Dict.get?_eq_none_iff]
    exact fun hk => h (by simpa [ansOf_fst] using keys_patches_subset _ i hk)

theorem wf_patches_ans {f : Key → SimState → Resp} (hw : RuleWF f) {P : Key → SimState → Option Props}
    (hP : ∀ i s, Answers i (f i s) (P i s)) (s : SimState) (ids : List Key) (hnd : ids.Nodup) :
    (Val.dict (patches (ansOf P s ids))).WF := by
  refine wf_patches (by rw [ansOf_fst]; exact hnd) ?_
  intro i p h
  obtain ⟨j, _, hj⟩ := List.mem_map.1 h
  injection hj with h1 h2
  subst h1
  have := hP j s
  rw [h2] at this
  exact answers_wf this (hw j s)

/-! ### merging the batch results -/

theorem mergeUpdates_upd (all r : Option Upd) :
    mergeUpdates (all.map Upd.toProps) r none = .ok (match all with
      | none => r
      | some u => some ⟨Dict.update (r.getD Upd.empty).sites u.sites, Dict.update (r.getD Upd.empty).general u.general⟩) := by
  cases all with
  | none => rfl
  | some u =>
    simp [mergeUpdates, Upd.toProps, Dict.has, Dict.get?, SITES, GENERAL, dictPart, pure, Except.pure]

theorem updOf_sites (ps : Props) : ((updOf ps).getD Upd.empty).sites = ps := by
  unfold updOf; split_ifs with h <;> simp [h, Upd.empty]

theorem updOf_general (ps : Props) : ((updOf ps).getD Upd.empty).general = [] := by
  unfold updOf; split_ifs with h <;> simp [Upd.empty]

/-- What the first dict in the list that has the key says about it. -/
def firstSays : List Props → Key → Option Val
  | [], _ => none
  | d :: ds, k => (Dict.get? d k).or (firstSays ds k)

theorem mergeBatches_updOf (l : List Props) (hl : ∀ d ∈ l, Dict.WF d) (acc : Props) (hacc : Dict.WF acc) :
    ∃ ps, (l.map updOf).foldlM (fun (all : Option Upd) (r : Option Upd) =>
        mergeUpdates (all.map Upd.toProps) r none) (updOf acc) = (Except.ok (updOf ps) : Py _) ∧
      Dict.WF ps ∧ ∀ k, Dict.get? ps k = (Dict.get? acc k).or (firstSays l k) := by
  induction l generalizing acc with
  | nil => exact ⟨acc, rfl, hacc, by simp [firstSays]⟩
  | cons d l ih =>
    have hd : Dict.WF d := hl d (by simp)
    have step : mergeUpdates ((updOf acc).map Upd.toProps) (updOf d) none =
        .ok (updOf (Dict.update d acc)) := by
      rw [mergeUpdates_upd]
      by_cases ha : acc = []
      · simp [updOf, ha]
      · have : updOf acc = some ⟨acc, []⟩ := by simp [updOf, ha]
        rw [this]
        simp only [updOf_sites, updOf_general]
        have hne : Dict.update d acc ≠ [] := by
          intro h0
          cases acc with
          | nil => exact ha rfl
          | cons p acc =>
            have : p.1 ∈ Dict.keys (Dict.update d (p :: acc)) := Dict.mem_keys_update.2 (Or.inr (by simp))
            rw [h0] at this; simp at this
        simp [updOf, hne]
    rw [List.map_cons, List.foldlM_cons, step, ok_bind]
    obtain ⟨ps, h1, h2, h3⟩ := ih (fun e he => hl e (by simp [he])) (Dict.update d acc) (hd.update acc)
    refine ⟨ps, h1, h2, fun k => ?_⟩
    rw [h3, Dict.get?_update hacc]
    simp only [firstSays]
    cases Dict.get? acc k <;> simp

theorem firstSays_flat (P : Key → SimState → Option Props) (s : SimState) (bs : List (List Key))
    (hnd : bs.flatten.Nodup) (k : Key) :
    firstSays (bs.map fun b => patches (ansOf P s b)) k =
      if k ∈ bs.flatten then (P k s).map Val.dict else none := by
  induction bs with
  | nil => simp [firstSays]
  | cons b bs ih =>
    rw [List.flatten_cons, List.nodup_append] at hnd
    simp only [List.map_cons, firstSays, ih hnd.2.1, get?_patches_ans P s b hnd.1]
    by_cases hk : k ∈ b
    · have hk' : k ∉ bs.flatten := fun h => hnd.2.2 k hk k h rfl
      rw [if_pos hk, if_neg hk', if_pos (by simp [hk])]; simp
    · rw [if_neg hk]; simp [hk]

/-! ### two updates with the same lookups do the same -/

theorem setSitesP_congr {s : SimState} (hs : s.WF) {d e : Props} (hd : (Val.dict d).WF) (he : (Val.dict e).WF)
    (h : ∀ k, Dict.get? d k = Dict.get? e k) (hmem : ∀ k ∈ Dict.keys d, k ∈ s.siteIds) :
    setSitesP s d = setSitesP s e := by
  have hmem' : ∀ k ∈ Dict.keys e, k ∈ s.siteIds := by
    intro k hk
    refine hmem k ?_
    rw [← Dict.get?_isSome_iff] at hk ⊢
    rw [h]; exact hk
  have key : ∀ (l acc : List Key), (∀ k ∈ l, k ∈ acc) → addIds acc l = acc := by
    intro l
    induction l with
    | nil => intros; rfl
    | cons a l ih =>
      intro acc h
      have ha : a ∈ acc := h a (by simp)
      have : addIds acc (a :: l) = addIds (if a ∈ acc then acc else acc ++ [a]) l := rfl
      rw [this, if_pos ha]
      exact ih acc fun k hk => h k (by simp [hk])
  refine ext' (Dict.ext_keys ?_ ?_ ?_) (by simp)
  · exact (hs.setSitesP fun _ h => hd.entry h).sites
  · have h1 := siteIds_setSitesP s d
    have h2 := siteIds_setSitesP s e
    rw [key _ _ hmem] at h1
    rw [key _ _ hmem'] at h2
    unfold siteIds at h1 h2
    rw [h1, h2]
  · intro k
    rw [get?_setSitesP hd.keys, get?_setSitesP he.keys, h]

/-! ### one parallel step of a site-local rule -/

/-- Workers of a step. -/
def StepSched.workers (sc : StepSched) : List Nat := sc.map Prod.snd

/-- Running the tasks when every worker involved ends up in the same state `s`. -/
theorem runTasks_same {f : Key → SimState → Resp} {P : Key → SimState → Option Props}
    (hP : ∀ i s, Answers i (f i s) (P i s)) (bs : List (List Key)) (hnd : ∀ b ∈ bs, b.Nodup)
    (last : Option Props) (s : SimState) (hself : s.batchUpdateO last = .ok s) (sc : StepSched)
    (ws : Nat → Worker Unit) (hws : ∀ v ∈ sc.workers, (ws v).state.batchUpdateO last = .ok s) :
    ∃ ws', runTasks (ofRule f) bs last sc ws =
        .ok (ws', sc.map fun p => (p.1, updOf (patches (ansOf P s (bs.getD p.1 []))))) ∧
      (∀ v ∈ sc.workers, (ws' v).state = s) ∧ (∀ v, v ∉ sc.workers → ws' v = ws v) := by
  induction sc generalizing ws with
  | nil => exact ⟨ws, rfl, by simp [StepSched.workers], fun _ _ => rfl⟩
  | cons p sc ih =>
    obtain ⟨b, w⟩ := p
    have hb : (bs.getD b []).Nodup := by
      rw [List.getD_eq_getElem?_getD]
      cases h : bs[b]? with
      | none => simp
      | some x => exact hnd x (List.mem_of_getElem? h)
    have hw : (ws w).state.batchUpdateO last = .ok s := hws w (by simp [StepSched.workers])
    have task : workerTask (ofRule f) (ws w) (bs.getD b []) last =
        .ok (⟨(), s⟩, updOf (patches (ansOf P s (bs.getD b [])))) := by
      unfold workerTask
      rw [hw, ok_bind, stepBatch_ans hP s _ hb, ok_bind]; rfl
    obtain ⟨ws', h1, h2, h3⟩ := ih (fun i => if i = w then ⟨(), s⟩ else ws i) (by
      intro v hv
      by_cases hvw : v = w
      · simp [hvw, hself]
      · simp only [hvw, if_false]
        exact hws v (by simp [StepSched.workers] at hv ⊢; exact Or.inr hv))
    refine ⟨ws', ?_, ?_, ?_⟩
    · unfold runTasks
      rw [task, ok_bind]
      simp only [h1, ok_bind, pure, Except.pure, List.map_cons]
    · intro v hv
      by_cases hv' : v ∈ StepSched.workers sc
      · exact h2 v hv'
      · rw [h3 v hv']
        have : v = w := by
          simp only [StepSched.workers, List.map_cons, List.mem_cons] at hv hv'
          tauto
        simp [this]
    · intro v hv
      simp only [StepSched.workers, List.map_cons, List.mem_cons, not_or] at hv
      rw [h3 v hv.2]; simp [hv.1]

theorem collect_results (g : Nat → Option Upd) (m : Nat) (sc : StepSched)
    (hsc : (sc.map Prod.fst).Perm (List.range m)) :
    (List.range m).map (fun b => (Dict.get? (sc.map fun p => (p.1, g p.1)) b).getD none) =
      (List.range m).map g := by
  refine List.map_congr_left fun b hb => ?_
  have hmem : b ∈ sc.map Prod.fst := hsc.mem_iff.2 hb
  have hwf : Dict.WF (sc.map fun p => (p.1, g p.1)) := by
    unfold Dict.WF Dict.keys
    rw [List.map_map]
    exact hsc.nodup_iff.2 List.nodup_range
  obtain ⟨p, hp, rfl⟩ := List.mem_map.1 hmem
  have := Dict.get?_of_mem hwf (k := p.1) (v := g p.1) (List.mem_map.2 ⟨p, hp, rfl⟩)
  rw [this]; rfl

theorem range_getD (bs : List (List Key)) : (List.range bs.length).map (fun b => bs.getD b []) = bs := by
  apply List.ext_getElem
  · simp
  · intro i h1 h2; simp [List.getElem?_eq_getElem h2]

/-- The update recorded by a parallel step whose workers all see `s` has the same entries as the serial one. -/
theorem takeStepParallel_same {f : Key → SimState → Resp} (hw : RuleWF f) {P : Key → SimState → Option Props}
    (hP : ∀ i s, Answers i (f i s) (P i s)) (ids : List Key) (hnd : ids.Nodup) (hne : ids ≠ []) (w : Nat)
    (hw0 : 0 < w) (last : Option Props) (s : SimState) (hself : s.batchUpdateO last = .ok s) (sc : StepSched)
    (hsc : sc.Valid w (chunks ids (chunkSize ids.length w)).length) (ws : Nat → Worker Unit)
    (hws : ∀ v ∈ sc.workers, (ws v).state.batchUpdateO last = .ok s) :
    ∃ ws' ps, takeStepParallel (ofRule f) ids (chunkSize ids.length w) sc last ws = .ok (ws', updOf ps) ∧
      (∀ v ∈ sc.workers, (ws' v).state = s) ∧ (∀ v, v ∉ sc.workers → ws' v = ws v) ∧ Dict.WF ps ∧
      ∀ k, Dict.get? ps k = Dict.get? (patches (ansOf P s ids)) k := by
  have hlen : 0 < ids.length := List.length_pos_iff.2 hne
  have hc : chunkSize ids.length w ≠ 0 := by
    have : 0 < chunkSize ids.length w := by unfold chunkSize; exact Nat.div_pos (by omega) hw0
    omega
  have hflat := C17_partition ids w hw0 hne
  set bs := chunks ids (chunkSize ids.length w) with hbs
  have hbnd : ∀ b ∈ bs, b.Nodup := by
    intro b hb
    have : b.Sublist bs.flatten := List.sublist_flatten_of_mem hb
    exact (hflat ▸ hnd : bs.flatten.Nodup).sublist this
  obtain ⟨ws', h1, h2, h3⟩ := runTasks_same hP bs hbnd last s hself sc ws hws
  obtain ⟨ps, h4, h5, h6⟩ := mergeBatches_updOf (bs.map fun b => patches (ansOf P s b)) (by
    intro d hd
    obtain ⟨b, hb, rfl⟩ := List.mem_map.1 hd
    exact (wf_patches_ans hw hP s b (hbnd b hb)).keys) [] Dict.WF.nil
  refine ⟨ws', ps, ?_, h2, h3, h5, ?_⟩
  · unfold takeStepParallel
    rw [if_neg hc, ← hbs]
    simp only
    rw [h1, ok_bind]
    have e : (List.range bs.length).map (fun b =>
        (Dict.get? (sc.map fun p => (p.1, updOf (patches (ansOf P s (bs.getD p.1 []))))) b).getD none) =
        (bs.map fun b => patches (ansOf P s b)).map updOf := by
      rw [collect_results (fun b => updOf (patches (ansOf P s (bs.getD b [])))) _ sc hsc.1]
      conv_rhs => rw [← range_getD bs]
      simp [List.map_map, Function.comp_def]
    simp only [e]
    unfold mergeBatches
    have h4' : ((bs.map fun b => patches (ansOf P s b)).map updOf).foldlM (fun (all : Option Upd) (r : Option Upd) =>
        mergeUpdates (all.map Upd.toProps) r none) none = (Except.ok (updOf ps) : Py _) := by
      have : updOf [] = none := by simp [updOf]
      rw [← this]; exact h4
    rw [h4', ok_bind]; rfl
  · intro k
    rw [h6, firstSays_flat P s bs (by rw [hflat]; exact hnd), hflat, get?_patches_ans P s ids hnd]
    simp

/-- A schedule in which every worker used at some step was also used at every earlier step. -/
def NoAbsence (sched : Nat → StepSched) (n : Nat) : Prop :=
  ∀ k, k + 1 < n → ∀ v ∈ (sched (k + 1)).workers, v ∈ (sched k).workers

theorem updOf_ne_nil {ps : Props} (h : updOf ps ≠ none) : ps ≠ [] := by
  rintro rfl; simp [updOf] at h

theorem get?_ne_nil {d e : Props} (h : ∀ k, Dict.get? d k = Dict.get? e k) : d = [] ↔ e = [] := by
  have key : ∀ {d e : Props}, (∀ k, Dict.get? d k = Dict.get? e k) → d = [] → e = [] := by
    rintro d e h rfl
    cases e with
    | nil => rfl
    | cons p e =>
      have := h p.1
      rw [Dict.get?_cons] at this
      simp at this
  exact ⟨key h, key fun k => (h k).symm⟩

theorem wf_of_get? {d e : Props} (hd : Dict.WF d) (he : (Val.dict e).WF) (h : ∀ k, Dict.get? d k = Dict.get? e k) :
    (Val.dict d).WF := by
  refine .dict hd fun kv hkv => ?_
  have := Dict.get?_of_mem hd (k := kv.1) (v := kv.2) hkv
  rw [h] at this
  exact he.get? this

theorem entries_of_get? {d e : Props} (hd : Dict.WF d) (h : ∀ k, Dict.get? d k = Dict.get? e k) :
    ∀ kv ∈ d, kv ∈ e := by
  intro kv hkv
  have := Dict.get?_of_mem hd (k := kv.1) (v := kv.2) hkv
  rw [h] at this
  exact Dict.mem_of_get? this

/-- The parallel loop follows the serial chain as long as no worker skips a step. -/
theorem parallelLoop_follows {f : Key → SimState → Resp} (hw : RuleWF f) {P : Key → SimState → Option Props}
    (hP : ∀ i s, Answers i (f i s) (P i s)) (ids : List Key) (w : Nat) (hw0 : 0 < w)
    (sched : Nat → StepSched) (n : Nat) :
    ∀ (k : Nat) (st st' : Unit) (s s' : SimState) (ds : List (Option Props)), SyncChain (ofRule f) n st s ds st' s' →
      s.WF → s.siteIds = ids → ∀ (last : Option Props) (ws : Nat → Worker Unit) (res : SimResult),
      s.batchUpdateO last = .ok s →
      (∀ j, k ≤ j → j < k + n → (sched j).Valid w (chunks ids (chunkSize ids.length w)).length) →
      (∀ j, k ≤ j → j + 1 < k + n → ∀ v ∈ (sched (j + 1)).workers, v ∈ (sched j).workers) →
      (0 < n → ∀ v ∈ (sched k).workers, (ws v).state.batchUpdateO last = .ok s) →
      ∃ ds', parallelLoop (ofRule f) ids (chunkSize ids.length w) sched k n last ws res =
          .ok { res with diffs := res.diffs ++ ds' } ∧ ds'.length = n ∧
        ∀ j, j ≤ n → SimResult.replayTo s ds' j = SimResult.replayTo s ds j := by
  induction n with
  | zero =>
    intro k st st' s s' ds hchain hs hids last ws res hself hv hna hws
    exact ⟨[], by simp [parallelLoop], rfl, fun j hj => by
      obtain rfl : j = 0 := by omega
      simp⟩
  | succ n ih =>
    intro k st st' s s' ds hchain hs hids last ws res hself hv hna hws
    cases hchain with
    | @succ _ _ st1 _ _ s1 _ u ds h1 h2 h3 =>
      have hnd : ids.Nodup := hids ▸ hs.sites
      have hstep : takeStep (ofRule f) st s = .ok ((), updOf (patches (ansOf P s ids))) := by
        unfold takeStep; rw [hids]; exact stepBatch_ans hP s ids hnd
      rw [hstep] at h1
      simp only [Except.ok.injEq, Prod.mk.injEq] at h1
      obtain ⟨_, rfl⟩ := h1
      have hpne : patches (ansOf P s ids) ≠ [] := by
        intro h0
        rw [h0] at h2; simp [updOf, batchUpdateO] at h2
      have hne : ids ≠ [] := by
        rintro rfl; simp [ansOf, patches] at hpne
      obtain ⟨ws', ps, h4, h5, h6, h7, h8⟩ := takeStepParallel_same hw hP ids hnd hne w hw0 last s hself (sched k)
        (hv k le_rfl (by omega)) ws (hws (by omega))
      have hpw := wf_patches_ans hw hP s ids hnd
      have hpsw := wf_of_get? h7 hpw h8
      have hpsne : ps ≠ [] := fun h0 => hpne ((get?_ne_nil h8).1 h0)
      have e1 : updOf (patches (ansOf P s ids)) = some ⟨patches (ansOf P s ids), []⟩ := by simp [updOf, hpne]
      have e2 : updOf ps = some ⟨ps, []⟩ := by simp [updOf, hpsne]
      rw [e1] at h2
      obtain ⟨g0, hg, _, hs1⟩ := batchUpdate_toProps_ok h2
      have hmem : ∀ i ∈ Dict.keys ps, i ∈ s.siteIds := by
        intro i hi
        rw [← Dict.get?_isSome_iff, h8, Dict.get?_isSome_iff] at hi
        rw [hids]
        simpa [ansOf_fst] using keys_patches_subset _ i hi
      have hsame : s.batchUpdate (Upd.toProps ⟨ps, []⟩) = .ok s1 := by
        rw [batchUpdate_toProps_of hg]
        · rw [hs1, setSitesP_congr hs hpsw hpw h8 hmem]
        · intro kv hkv
          exact patches_dicts _ kv (entries_of_get? h7 h8 kv hkv)
      have hswf1 : s1.WF := WF_upd hs hpw (.dict Dict.WF.nil (by simp)) h2
      have hids1 : s1.siteIds = ids := by
        have : s1.siteIds = (setSitesP s (patches (ansOf P s ids))).siteIds := by rw [hs1]; rfl
        rw [this, siteIds_setSitesP]
        have key : ∀ (l acc : List Key), (∀ k ∈ l, k ∈ acc) → addIds acc l = acc := by
          intro l
          induction l with
          | nil => intros; rfl
          | cons a l ih =>
            intro acc h
            have ha : a ∈ acc := h a (by simp)
            have : addIds acc (a :: l) = addIds (if a ∈ acc then acc else acc ++ [a]) l := rfl
            rw [this, if_pos ha]
            exact ih acc fun k hk => h k (by simp [hk])
        rw [key _ _ (by intro i hi; rw [hids]; simpa [ansOf_fst] using keys_patches_subset _ i hi), hids]
      have hself1 : s1.batchUpdate (Upd.toProps ⟨ps, []⟩) = .ok s1 :=
        C06_batch_idempotent s s1 hs _ (wf_toProps hpsw (.dict Dict.WF.nil (by simp))) hsame
      obtain ⟨ds', h9, h10, h11⟩ := ih (k + 1) st1 st' s1 s' ds h3 hswf1 hids1 (some (Upd.toProps ⟨ps, []⟩)) ws'
        (res.addStep (some (Upd.toProps ⟨ps, []⟩))) hself1 (fun j h1 h2 => hv j (by omega) (by omega))
        (fun j h1 h2 => hna j (by omega) (by omega)) (by
          intro hn v hv'
          have : v ∈ (sched k).workers := hna k le_rfl (by omega) v hv'
          rw [h5 v this]; exact hsame)
      refine ⟨some (Upd.toProps ⟨ps, []⟩) :: ds', ?_, by simp [h10], ?_⟩
      · unfold parallelLoop
        rw [h4, ok_bind]
        simp only [e2, Option.map_some]
        rw [h9]; simp [SimResult.addStep]
      · intro j hj
        cases j with
        | zero => simp
        | succ j =>
          rw [SimResult.replayTo_cons, SimResult.replayTo_cons, e1]
          have a1 : s.batchUpdateO (some (Upd.toProps ⟨ps, []⟩)) = .ok s1 := hsame
          have a2 : s.batchUpdateO (Option.map Upd.toProps (some ⟨patches (ansOf P s ids), []⟩)) = .ok s1 := h2
          rw [a1, a2, ok_bind, ok_bind]
          exact h11 j (by omega)

/-! ### C18 -/

/-- C18 (partial): for a site-local rule, if the serial run goes through, the parallel run goes through and
`get_step(k)` is the same state for every step, for every worker count and every assignment of batches to workers in which
no worker sits out a step before being used again.  Missing: schedules with such absences, for which the claim is
false (`C18_false`); for rules that always rewrite the same keys see C19, for one worker see `C18_one_worker`. -/
theorem C18_parallel_eq_serial_partial (f : Key → SimState → Resp) (hf : SiteLocal f) (hw : RuleWF f)
    (s0 : SimState) (hs : s0.WF) (w : Nat) (hw0 : 0 < w) (n : Nat) (fork : Nat → Unit → Unit) (sched : Nat → StepSched)
    (hv : ∀ k, k < n → (sched k).Valid w (chunks s0.siteIds (chunkSize s0.siteIds.length w)).length)
    (hna : NoAbsence sched n) (res : SimResult) (hser : runSync (ofRule f) () s0 n = .ok ((), res)) :
    ∃ res', runParallel (ofRule f) fork () s0 w n sched = .ok res' ∧ res'.len = res.len ∧
      ∀ k : Nat, k ≤ n → res'.getStep k = res.getStep k := by
  choose P hP using hf
  obtain ⟨st1, live, ds, h1, h2, rfl⟩ := runSync_ok (c := ofRule f)
    (by intro _ _ _ _ h; injection h with h; injection h with h1 h2; exact h2.symm) hser
  obtain ⟨ds', h3, h4, h5⟩ := parallelLoop_follows hw hP s0.siteIds w hw0 sched n 0 st1 () s0 live ds h2 hs rfl
    (some []) (fun _ => ⟨(), s0⟩) (SimResult.new s0.copy) rfl (fun j _ hj => hv j (by omega))
    (fun j _ hj => hna j (by omega)) (fun _ _ _ => rfl)
  refine ⟨⟨s0, ds', [], some s0⟩, ?_, by simp [SimResult.len, h4, h2.length], fun k hk => ?_⟩
  · have hpre : (ofRule f).preRun () s0 = .ok ((), s0) := rfl
    simp only [runParallel, hpre, ok_bind]
    rw [if_neg (by omega)]
    have : s0.size = s0.siteIds.length := rfl
    rw [this, h3]
    simp [SimResult.setOutput, SimResult.new, pure, Except.pure, copy]
  · simp only [SimResult.getStep, Dict.get?, copy]
    simpa using h5 k hk

/-- A rule that sets a flag once and otherwise reads it: site 0 writes `a = 1` only if it is missing, site 1 copies `a`. -/
def flagRule (i : Key) (s : SimState) : Resp :=
  let a := (s.getSiteState (.int 0)).bind fun p => Dict.get? p (.str "a")
  if i = .int 0 then (if a = none then .dict [(.str "a", .num 1)] else .dict [])
  else .dict [(.str "b", a.getD (.num 0))]

/-- Worker 1 sits out the first two steps. -/
def absentSched (k : Nat) : StepSched := if k < 2 then [(0, 0), (1, 0)] else [(0, 0), (1, 1)]

def flagInit : SimState := ⟨[(.int 0, []), (.int 1, [])], some []⟩

theorem flagRule_local : SiteLocal flagRule := by
  intro i s
  unfold flagRule
  simp only
  split_ifs
  · exact ⟨_, .patch _ ⟨by simp [SITES], by simp [GENERAL], Or.inr ⟨"a", by simp⟩⟩⟩
  · exact ⟨_, .patch _ ⟨by simp, by simp, Or.inl rfl⟩⟩
  · exact ⟨_, .patch _ ⟨by simp [SITES], by simp [GENERAL], Or.inr ⟨"b", by simp⟩⟩⟩

/-- Compare two results step by step. -/
def sameSteps (n : Nat) (r r' : SimResult) : Bool :=
  (List.range (n + 1)).all fun k => (r.getStep k).toOption == (r'.getStep k).toOption

/-- C18 is false as stated: a site-local rule, two workers and a schedule that a pool can produce, for which the parallel
run records a different step than the serial run. -/
theorem C18_false : ∃ (f : Key → SimState → Resp) (s0 : SimState) (w n : Nat) (sched : Nat → StepSched)
    (res res' : SimResult), SiteLocal f ∧
    (∀ k, k < n → (sched k).Valid w (chunks s0.siteIds (chunkSize s0.siteIds.length w)).length) ∧
    runSync (ofRule f) () s0 n = .ok ((), res) ∧ runParallel (ofRule f) (fun _ st => st) () s0 w n sched = .ok res' ∧
    ∃ k : Nat, k ≤ n ∧ (res'.getStep k).toOption ≠ (res.getStep k).toOption := by
  refine ⟨flagRule, flagInit, 2, 3, absentSched, _, _, flagRule_local, ?_, rfl, rfl, 3, le_rfl, by decide⟩
  intro k hk
  have : k = 0 ∨ k = 1 ∨ k = 2 := by omega
  unfold StepSched.Valid
  rcases this with rfl | rfl | rfl <;> decide

/-- A run that satisfies the hypotheses of `C18_one_worker`: two sites writing each other's state. -/
example : ∃ r st', runSync (ofRule flagRule) () flagInit 3 = .ok (st', r) ∧ flagInit.siteIds ≠ [] ∧
    ∀ k : Nat, k ≤ 3 → (r.getStep k).toOption.map SimState.siteIds = some flagInit.siteIds := by
  refine ⟨_, _, rfl, by decide, ?_⟩
  decide

/-- A schedule that satisfies the hypotheses of the partial theorem (two workers, both used at every step). -/
example : NoAbsence (fun _ => [(1, 0), (0, 1)]) 5 ∧
    StepSched.Valid 2 (chunks flagInit.siteIds (chunkSize flagInit.siteIds.length 2)).length [(1, 0), (0, 1)] := by
  refine ⟨fun k _ v hv => hv, ?_⟩
  unfold StepSched.Valid; decide

example : ∃ r r', runSync (ofRule flagRule) () flagInit 3 = .ok ((), r) ∧
    runParallel (ofRule flagRule) (fun _ st => st) () flagInit 2 3 (fun _ => [(1, 0), (0, 1)]) = .ok r' ∧ sameSteps 3 r r' = true :=
  ⟨_, _, rfl, rfl, by decide⟩

/-! ### one worker: everything, including conflicts and stateful controllers -/

theorem chunks_one (ids : List Key) (hne : ids ≠ []) : chunks ids (chunkSize ids.length 1) = [ids] := by
  have hlen : 0 < ids.length := List.length_pos_iff.2 hne
  have hc : chunkSize ids.length 1 = ids.length := by simp [chunkSize]
  rw [hc]
  have : (ids.length + ids.length - 1) / ids.length = 1 := by
    apply Nat.div_eq_of_lt_le <;> omega
  unfold chunks
  rw [this]
  simp [List.range_succ]

theorem valid_one {sc : StepSched} (h : sc.Valid 1 1) : sc = [(0, 0)] := by
  obtain ⟨h1, h2⟩ := h
  have hl : sc.length = 1 := by simpa using h1.length_eq
  obtain ⟨p, rfl⟩ := List.length_eq_one_iff.1 hl
  have h3 : p.1 ∈ List.range 1 := h1.mem_iff.1 (by simp)
  have h4 := h2 p (by simp)
  simp at h3
  have : p = (0, 0) := by
    obtain ⟨a, b⟩ := p
    simp_all
  rw [this]

theorem step_wf_or {c : Controller σ} {st st' : σ} {s : SimState} {u : Option Upd}
    (h : takeStep c st s = .ok (st', u)) : s.siteIds ≠ [] ∨ u = none := by
  by_cases hne : s.siteIds = []
  · right
    unfold takeStep stepBatch at h
    rw [hne] at h
    simp [pure, Except.pure] at h
    exact h.2.symm
  · exact Or.inl hne

/-- The sites visited are those of the initial state in parallel, and those of the live state in serial; they agree if
the id list never changes. -/
theorem parallelLoop_one (c : Controller σ) (ids : List Key) (hne : ids ≠ []) (sched : Nat → StepSched) (n : Nat) :
    ∀ (k : Nat) (st st' : σ) (s s' : SimState) (ds : List (Option Props)), SyncChain c n st s ds st' s' →
      (∀ j sj, SimResult.replayTo s ds j = .ok sj → sj.siteIds = ids) →
      ∀ (last : Option Props) (ws : Nat → Worker σ) (res : SimResult),
      (ws 0).st = st → (ws 0).state.batchUpdateO last = .ok s →
      (∀ j, k ≤ j → j < k + n → sched j = [(0, 0)]) →
      parallelLoop c ids (chunkSize ids.length 1) sched k n last ws res =
          .ok { res with diffs := res.diffs ++ ds } := by
  have hlen : 0 < ids.length := List.length_pos_iff.2 hne
  have hc : chunkSize ids.length 1 = ids.length := by simp [chunkSize]
  induction n with
  | zero =>
    intro k st st' s s' ds hchain _ last ws res _ _ _
    cases hchain
    simp [parallelLoop]
  | succ n ih =>
    intro k st st' s s' ds hchain hids last ws res hst hws hsc
    cases hchain with
    | @succ _ _ st1 _ _ s1 _ u ds h1 h2 h3 =>
      have hid0 : s.siteIds = ids := hids 0 s (by simp)
      have hstep : stepBatch c st ids s = .ok (st1, u) := by rw [← hid0]; exact h1
      have htask : runTasks c [ids] last [(0, 0)] ws =
          .ok (fun i => if i = 0 then ⟨st1, s⟩ else ws i, [(0, u)]) := by
        simp only [runTasks, workerTask, hws, ok_bind, hst]
        have : ([ids] : List (List Key)).getD 0 [] = ids := rfl
        rw [this, hstep]; rfl
      unfold parallelLoop takeStepParallel
      rw [if_neg (by omega), chunks_one ids hne, hsc k le_rfl (by omega)]
      simp only
      rw [htask, ok_bind]
      have hm : mergeBatches ((List.range [ids].length).map fun b => (Dict.get? [(0, u)] b).getD none) = .ok u := by
        simp [mergeBatches, List.range_succ, Dict.get?, mergeUpdates]
      simp only [hm, ok_bind, pure, Except.pure]
      have hrep : ∀ j sj, SimResult.replayTo s1 ds j = .ok sj → sj.siteIds = ids := by
        intro j sj hj
        refine hids (j + 1) sj ?_
        rw [SimResult.replayTo_cons, h2, ok_bind]; exact hj
      have := ih (k + 1) st1 st' s1 s' ds h3 hrep (u.map Upd.toProps) (fun i => if i = 0 then ⟨st1, s⟩ else ws i)
        (res.addStep (u.map Upd.toProps)) (by simp) (by simpa using h2) (fun j a b => hsc j (by omega) (by omega))
      rw [this]; simp [SimResult.addStep]

/-- C18 with one worker: for every controller (stateful, random, with conflicting updates) whose run does not change the
list of sites, the parallel run with one worker records exactly the diffs of the serial run.  (`hfork`: the fork is an exact copy, which holds
for controllers that do not use Python's `random`; that generator is seeded anew in a forked process.) -/
theorem C18_one_worker (c : Controller σ) (hp : PreRunPure c) (fork : Nat → σ → σ) (hfork : ∀ st, fork 0 st = st) (st st' : σ) (s0 : SimState) (hne : s0.siteIds ≠ [])
    (n : Nat) (sched : Nat → StepSched) (hv : ∀ k, k < n → (sched k).Valid 1 1) (res : SimResult)
    (hser : runSync c st s0 n = .ok (st', res))
    (hids : ∀ (k : Nat) sk, res.getStep k = .ok sk → sk.siteIds = s0.siteIds) :
    ∃ res', runParallel c fork st s0 1 n sched = .ok res' ∧ res'.diffs = res.diffs ∧ res'.initial = res.initial := by
  obtain ⟨st1, live, ds, h1, h2, rfl⟩ := runSync_ok hp hser
  have := parallelLoop_one c s0.siteIds hne sched n 0 st1 st' s0 live ds h2 (by
      intro j sj hj
      refine hids j sj ?_
      simp only [SimResult.getStep, Dict.get?, copy]
      simpa using hj) (some []) (fun v => ⟨fork v st1, s0⟩) (SimResult.new s0.copy) (hfork st1) rfl
    (fun j _ hj => valid_one (hv j (by omega)))
  refine ⟨⟨s0, ds, [], some s0⟩, ?_, rfl, rfl⟩
  simp only [runParallel, h1, ok_bind]
  rw [if_neg (by omega)]
  have hsz : s0.size = s0.siteIds.length := rfl
  rw [hsz, this]
  simp [SimResult.setOutput, SimResult.new, pure, Except.pure, copy]

/-! ### C20 -/

/-- C20 (partial): for serial and asynchronous runs the output is the last step (`C15_serial`, `C15_async`); here the
serial statement once more.  Missing: parallel runs, for which it is false (`C20_false`). -/
theorem C20_output_partial (c : Controller σ) (hp : PreRunPure c) (st st' : σ) (s0 : SimState) (n : Nat)
    (res : SimResult) (h : runSync c st s0 n = .ok (st', res)) : ∃ out, res.output = some out ∧ res.lastStep = .ok out := by
  obtain ⟨log, h'⟩ := (logged_transparent c hp st st' s0 n res).1 h
  obtain ⟨_, h2, h3, _⟩ := C15_serial c hp st st' s0 n res log h'
  obtain ⟨out, ho⟩ := Option.isSome_iff_exists.1 h3
  refine ⟨out, ho, ?_⟩
  rw [ho] at h2
  cases hl : res.lastStep with
  | error e => rw [hl] at h2; simp [Except.toOption] at h2
  | ok s => rw [hl] at h2; simp [Except.toOption] at h2; rw [h2]

theorem parallelLoop_output (c : Controller σ) (ids : List Key) (chunk : Nat) (sched : Nat → StepSched) (n : Nat) :
    ∀ (k : Nat) (last : Option Props) (ws : Nat → Worker σ) (res res' : SimResult),
      parallelLoop c ids chunk sched k n last ws res = .ok res' → res'.output = res.output := by
  induction n with
  | zero => intro k last ws res res' h; simp [parallelLoop] at h; rw [h]
  | succ n ih =>
    intro k last ws res res' h
    unfold parallelLoop at h
    obtain ⟨⟨ws1, u⟩, _, h2⟩ := bind_ok h
    exact (ih _ _ _ _ _ h2).trans rfl

/-- C20: what the output of a parallel run really is: the initial state, for every rule, schedule and number of steps. -/
theorem C20_parallel_output (c : Controller σ) (hp : PreRunPure c) (fork : Nat → σ → σ) (st : σ) (s0 : SimState) (w n : Nat)
    (sched : Nat → StepSched) (res : SimResult) (h : runParallel c fork st s0 w n sched = .ok res) :
    res.output = some s0 := by
  unfold runParallel at h
  obtain ⟨⟨st1, s1⟩, h1, h2⟩ := bind_ok h
  have := hp _ _ _ _ h1; subst this
  simp only at h2
  split_ifs at h2
  obtain ⟨r, _, h3⟩ := bind_ok h2
  simp [pure, Except.pure] at h3
  rw [← h3]; rfl

/-- C20 is false for parallel runs: the output is not the last step. -/
theorem C20_false : ∃ (f : Key → SimState → Resp) (s0 : SimState) (w n : Nat) (sched : Nat → StepSched)
    (res : SimResult), (∀ k, k < n → (sched k).Valid w (chunks s0.siteIds (chunkSize s0.siteIds.length w)).length) ∧
    runParallel (ofRule f) (fun _ st => st) () s0 w n sched = .ok res ∧ res.output ≠ res.lastStep.toOption := by
  refine ⟨flagRule, flagInit, 2, 1, fun _ => [(0, 0), (1, 1)], _, ?_, rfl, by decide⟩
  intro k _
  show StepSched.Valid 2 _ [(0, 0), (1, 1)]
  unfold StepSched.Valid; decide

/-! ### C21 -/

/-- Both sites write site 0. -/
def clashRule (i : Key) (_ : SimState) : Resp := .dict [(.int 0, .dict [(.str "by", i.toVal)])]

/-- C21 is false: with conflicting updates serial and parallel runs keep different ones (the serial run the last visited,
the parallel run the first batch's). -/
theorem C21_false : ∃ (f : Key → SimState → Resp) (s0 : SimState) (w n : Nat) (sched : Nat → StepSched)
    (res res' : SimResult),
    (∀ k, k < n → (sched k).Valid w (chunks s0.siteIds (chunkSize s0.siteIds.length w)).length) ∧ NoAbsence sched n ∧
    runSync (ofRule f) () s0 n = .ok ((), res) ∧ runParallel (ofRule f) (fun _ st => st) () s0 w n sched = .ok res' ∧
    (res'.lastStep).toOption ≠ (res.lastStep).toOption := by
  refine ⟨clashRule, flagInit, 2, 1, fun _ => [(0, 0), (1, 1)], _, _, ?_, fun k hk => by omega, rfl, rfl, by decide⟩
  intro k _
  show StepSched.Valid 2 _ [(0, 0), (1, 1)]
  unfold StepSched.Valid; decide

/-- C21 (partial): with one worker conflicts resolve as in the serial run, for every rule that keeps the list of sites.
Missing: more than one worker (`C21_false`); what happens then is `C21_parallel_rule`. -/
theorem C21_one_worker_partial (c : Controller σ) (hp : PreRunPure c) (fork : Nat → σ → σ) (hfork : ∀ st, fork 0 st = st) (st st' : σ) (s0 : SimState)
    (hne : s0.siteIds ≠ []) (n : Nat) (sched : Nat → StepSched) (hv : ∀ k, k < n → (sched k).Valid 1 1) (res : SimResult)
    (hser : runSync c st s0 n = .ok (st', res))
    (hids : ∀ (k : Nat) sk, res.getStep k = .ok sk → sk.siteIds = s0.siteIds) (k : Nat) :
    ∃ res', runParallel c fork st s0 1 n sched = .ok res' ∧ res'.getStep k = res.getStep k := by
  obtain ⟨res', h1, h2, h3⟩ := C18_one_worker c hp fork hfork st st' s0 hne n sched hv res hser hids
  refine ⟨res', h1, ?_⟩
  have hst : ∀ (c : Controller σ) (ids : List Key) (chunk : Nat) (sched : Nat → StepSched) (n k : Nat)
      (last : Option Props) (ws : Nat → Worker σ) (res res' : SimResult),
      parallelLoop c ids chunk sched k n last ws res = .ok res' → res'.stored = res.stored := by
    intro c ids chunk sched n
    induction n with
    | zero => intro k last ws res res' h; simp [parallelLoop] at h; rw [h]
    | succ n ih =>
      intro k last ws res res' h
      unfold parallelLoop at h
      obtain ⟨⟨ws1, u⟩, _, h2⟩ := bind_ok h
      exact (ih _ _ _ _ _ h2).trans rfl
  have h4 : res'.stored = [] := by
    unfold runParallel at h1
    obtain ⟨⟨st1, s1⟩, _, h5⟩ := bind_ok h1
    simp only at h5
    rw [if_neg (by omega)] at h5
    obtain ⟨r, h6, h7⟩ := bind_ok h5
    simp [pure, Except.pure] at h7
    have := hst _ _ _ _ _ _ _ _ _ _ h6
    rw [← h7]; exact this
  obtain ⟨_, _, _, _, _, h5⟩ := runSync_ok hp hser
  have h6 : res.stored = [] := by rw [h5]
  simp [SimResult.getStep, h2, h3, h4, h6]

/-- C21, what a parallel step does with conflicts: for the results of the batches (in batch order) the merged update says
about each site and each general key what the *first* batch mentioning it says. -/
theorem C21_parallel_rule (results : List Upd) (hr : ∀ u ∈ results, Dict.WF u.sites ∧ Dict.WF u.general)
    (hne : results ≠ []) :
    ∃ u, mergeBatches (results.map some) = .ok (some u) ∧
      (∀ k, Dict.get? u.sites k = firstSays (results.map Upd.sites) k) ∧
      (∀ k, Dict.get? u.general k = firstSays (results.map Upd.general) k) := by
  have key : ∀ (l : List Upd) (acc : Upd), Dict.WF acc.sites → Dict.WF acc.general →
      (∀ u ∈ l, Dict.WF u.sites ∧ Dict.WF u.general) →
      ∃ u, (l.map some).foldlM (fun (all : Option Upd) (r : Option Upd) =>
        mergeUpdates (all.map Upd.toProps) r none) (some acc) = (Except.ok (some u) : Py _) ∧
      (∀ k, Dict.get? u.sites k = (Dict.get? acc.sites k).or (firstSays (l.map Upd.sites) k)) ∧
      (∀ k, Dict.get? u.general k = (Dict.get? acc.general k).or (firstSays (l.map Upd.general) k)) := by
    intro l
    induction l with
    | nil => intro acc _ _ _; exact ⟨acc, rfl, by simp [firstSays], by simp [firstSays]⟩
    | cons d l ih =>
      intro acc h1 h2 h3
      have hd := h3 d (by simp)
      rw [List.map_cons, List.foldlM_cons, mergeUpdates_upd]
      simp only [Option.getD_some, ok_bind]
      obtain ⟨u, h4, h5, h6⟩ := ih ⟨Dict.update d.sites acc.sites, Dict.update d.general acc.general⟩
        (hd.1.update _) (hd.2.update _) fun u hu => h3 u (by simp [hu])
      refine ⟨u, h4, fun k => ?_, fun k => ?_⟩
      · rw [h5, Dict.get?_update h1]; simp only [List.map_cons, firstSays]; cases Dict.get? acc.sites k <;> simp
      · rw [h6, Dict.get?_update h2]; simp only [List.map_cons, firstSays]; cases Dict.get? acc.general k <;> simp
  cases results with
  | nil => exact absurd rfl hne
  | cons d l =>
    have hd := hr d (by simp)
    obtain ⟨u, h1, h2, h3⟩ := key l d hd.1 hd.2 fun u hu => hr u (by simp [hu])
    refine ⟨u, ?_, fun k => by rw [h2]; rfl, fun k => by rw [h3]; rfl⟩
    unfold mergeBatches
    rw [List.map_cons, List.foldlM_cons]
    simpa [mergeUpdates] using h1

end Pyl
