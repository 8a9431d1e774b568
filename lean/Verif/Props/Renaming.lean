import Verif.Spec.Renaming
import Verif.Model.Result
import Verif.Props.Growth
import Mathlib.Logic.Equiv.Basic
/-
C137: the names of phases (and of other values) do not matter.
-/
set_option autoImplicit false

namespace Pyl
open SimState Spec

/-! ### Maps of successful results -/

theorem bind_map {α α' β β' : Type} {x : Py α} {x' : Py α'} {f : α → α'} (hx : x' = x.map f) {g : α → Py β} {g' : α' → Py β'} {k : β → β'}
    (hg : ∀ a, g' (f a) = (g a).map k) : (x' >>= g') = (x >>= g).map k := by
  subst hx
  cases x with
  | error e => rfl
  | ok a => exact hg a

theorem foldlM_map' {α α' β β' : Type} {f : α → α'} {φ : β → β'} {g : α → β → Py α} {g' : α' → β' → Py α'}
    (hg : ∀ a b, g' (f a) (φ b) = (g a b).map f) (l : List β) (a : α) : (l.map φ).foldlM g' (f a) = (l.foldlM g a).map f := by
  induction l generalizing a with
  | nil => rfl
  | cons b l ih =>
    rw [List.map_cons, List.foldlM_cons, List.foldlM_cons]
    exact bind_map (hg a b) fun a => ih a

/-! ### Dicts -/

section Dicts
variable {κ ν μ : Type} [DecidableEq κ] (F : κ → ν → μ)

theorem get?_mapD (d : Dict κ ν) (k : κ) : Dict.get? (mapD F d) k = (Dict.get? d k).map (F k) := by
  induction d with
  | nil => rfl
  | cons a d ih =>
    show (if a.1 = k then some (F a.1 a.2) else Dict.get? (mapD F d) k) = Option.map (F k) (if a.1 = k then some a.2 else Dict.get? d k)
    split_ifs with h
    · subst h; rfl
    · exact ih

theorem has_mapD (d : Dict κ ν) (k : κ) : Dict.has (mapD F d) k = Dict.has d k := by
  unfold Dict.has
  rw [get?_mapD]
  cases Dict.get? d k <;> rfl

theorem set_mapD (d : Dict κ ν) (k : κ) (v : ν) : Dict.set (mapD F d) k (F k v) = mapD F (Dict.set d k v) := by
  induction d with
  | nil => rfl
  | cons a d ih =>
    show (if a.1 = k then (a.1, F k v) :: mapD F d else (a.1, F a.1 a.2) :: Dict.set (mapD F d) k (F k v)) =
      mapD F (if a.1 = k then (a.1, v) :: d else (a.1, a.2) :: Dict.set d k v)
    split_ifs with h
    · subst h; rfl
    · rw [ih]; rfl

theorem update_mapD (d u : Dict κ ν) : Dict.update (mapD F d) (mapD F u) = mapD F (Dict.update d u) := by
  unfold Dict.update
  induction u generalizing d with
  | nil => rfl
  | cons a u ih =>
    show List.foldl _ (Dict.set (mapD F d) a.1 (F a.1 a.2)) (mapD F u) = mapD F (List.foldl _ (Dict.set d a.1 a.2) u)
    rw [set_mapD]
    exact ih _

theorem keys_mapD (d : Dict κ ν) : Dict.keys (mapD F d) = Dict.keys d := by
  simp [Dict.keys, mapD]

end Dicts

theorem allIntKeys_mapD (F : Key → Val → Val) (d : Props) : allIntKeys (mapD F d) = allIntKeys d := by
  unfold allIntKeys mapD
  rw [List.isEmpty_map, List.all_map]
  rfl

/-! ### States -/

variable {h : Key → Val → Val}

theorem renState_siteIds (s : SimState) : (renState h s).siteIds = s.siteIds := keys_mapD (fun _ p => mapD h p) s.sites

theorem renState_size (s : SimState) : (renState h s).size = s.size := by
  unfold SimState.size
  rw [renState_siteIds]

theorem renState_get (s : SimState) (i : Key) : (renState h s).getSiteState i = (s.getSiteState i).map (mapD h) := get?_mapD (fun _ p => mapD h p) s.sites i

theorem setSiteState_ren (hid : KeepsIds h) (s : SimState) (i : Key) (u : Props) :
    setSiteState (renState h s) i (mapD h u) = renState h (setSiteState s i u) := by
  have hget := renState_get (h := h) s i
  unfold getSiteState at hget
  unfold setSiteState
  rw [hget]
  cases Dict.get? s.sites i with
  | none =>
    have e : ([(SITE_ID, i.toVal)] : Props) = mapD h [(SITE_ID, i.toVal)] := by simp [mapD, hid i]
    simp only [Option.map_none]
    conv_lhs => rw [e]
    rw [update_mapD]
    exact congrArg (fun x => SimState.mk x s.general) (set_mapD (fun _ p => mapD h p) s.sites i _)
  | some o =>
    simp only [Option.map_some]
    rw [update_mapD]
    exact congrArg (fun x => SimState.mk x s.general) (set_mapD (fun _ p => mapD h p) s.sites i _)

theorem setSiteStateV_ren (hid : KeepsIds h) (s : SimState) (i : Key) (v : Val) :
    setSiteStateV (renState h s) i (renVal h v) = (setSiteStateV s i v).map (renState h) := by
  cases v <;> first | rfl | exact congrArg Except.ok (setSiteState_ren hid s i _)

theorem setSites_ren (hid : KeepsIds h) (s : SimState) (d : Props) : setSites (renState h s) (renSites h d) = (setSites s d).map (renState h) :=
  foldlM_map' (φ := fun kv : Key × Val => (kv.1, renVal h kv.2)) (fun s kv => setSiteStateV_ren hid s kv.1 kv.2) d s

theorem setGeneralStateV_ren (s : SimState) (v : Val) : setGeneralStateV (renState h s) v = (setGeneralStateV s v).map (renState h) := by
  cases v with
  | dict u =>
    show setGeneralState _ _ = (setGeneralState _ _).map _
    unfold setGeneralState renState
    cases s.general <;> rfl
  | _ => rfl

theorem get?_renSection (d : Props) (k : Key) (hk : k ≠ SITES) : Dict.get? (renSection h d) k = Dict.get? d k := by
  unfold renSection
  rw [get?_mapD]
  cases Dict.get? d k <;> simp [hk]

theorem get?_renSection_sites (d : Props) : Dict.get? (renSection h d) SITES =
    (Dict.get? d SITES).map (renBlock h) := by
  unfold renSection
  rw [get?_mapD]
  cases Dict.get? d SITES <;> simp

theorem batchUpdate_ren (hid : KeepsIds h) (s : SimState) (b : Props) :
    batchUpdate (renState h s) (renDiff h b) = (batchUpdate s b).map (renState h) := by
  unfold renDiff
  by_cases hg : Dict.has b GENERAL = true
  · rw [if_pos hg]
    unfold batchUpdate
    rw [get?_renSection b GENERAL (by decide), get?_renSection_sites]
    unfold Dict.has at hg
    obtain ⟨g, hg⟩ := Option.isSome_iff_exists.1 hg
    rw [hg]
    cases hs : Dict.get? b SITES with
    | none => exact bind_map (setSites_ren hid s []) fun s => setGeneralStateV_ren s g
    | some v =>
      cases v with
      | dict d => exact bind_map (setSites_ren hid s d) fun s => setGeneralStateV_ren s g
      | _ => rfl
  · rw [if_neg hg]
    have hn : Dict.get? b GENERAL = none := by
      unfold Dict.has at hg
      simpa using hg
    unfold batchUpdate
    rw [hn, show Dict.get? (renSites h b) GENERAL = none by unfold renSites; rw [get?_mapD, hn]; rfl]
    exact setSites_ren hid s b

theorem batchUpdateO_ren (hid : KeepsIds h) (s : SimState) (b : Option Props) :
    batchUpdateO (renState h s) (b.map (renDiff h)) = (batchUpdateO s b).map (renState h) := by
  cases b with
  | none => rfl
  | some b => exact batchUpdate_ren hid s b

/-! ### Updates -/

/-- A merged update with its site part renamed. -/
def renUpd (h : Key → Val → Val) (u : Upd) : Upd := ⟨renSites h u.sites, u.general⟩

theorem renDiff_toProps (u : Upd) : renDiff h u.toProps = (renUpd h u).toProps := by
  unfold renDiff
  rw [if_pos (by simp [Upd.toProps, Dict.has, Dict.get?, SITES, GENERAL])]
  simp [renSection, mapD, Upd.toProps, renUpd, renBlock, SITES, GENERAL]

theorem renDiff_map (u : Option Upd) : (u.map Upd.toProps).map (renDiff h) = (u.map (renUpd h)).map Upd.toProps := by
  cases u with
  | none => rfl
  | some u => exact congrArg some (renDiff_toProps u)

theorem dictPart_general (d : Props) : dictPart (renSection h d) GENERAL = dictPart d GENERAL := by
  unfold dictPart
  rw [get?_renSection d GENERAL (by decide)]

theorem dictPart_sites (d : Props) : dictPart (renSection h d) SITES = (dictPart d SITES).map (renSites h) := by
  unfold dictPart
  rw [get?_renSection_sites]
  cases Dict.get? d SITES with
  | none => rfl
  | some v => cases v <;> rfl

theorem mergeUpdates_ren (new : Option Props) (curr : Option Upd) (sid : Option Key) :
    mergeUpdates (new.map (renAnswer h)) (curr.map (renUpd h)) sid = (mergeUpdates new curr sid).map (Option.map (renUpd h)) := by
  cases new with
  | none => rfl
  | some d =>
    have hc : (curr.map (renUpd h)).getD Upd.empty = renUpd h (curr.getD Upd.empty) := by cases curr <;> rfl
    have hsec : ∀ k, Dict.has (renSection h d) k = Dict.has d k := fun k => has_mapD _ _ _
    show mergeUpdates (some (renAnswer h d)) _ _ = _
    unfold mergeUpdates
    simp only [hc]
    by_cases h1 : (Dict.has d SITES || Dict.has d GENERAL) = true
    · have e : renAnswer h d = renSection h d := by unfold renAnswer; rw [if_pos h1]
      rw [e, hsec, hsec, if_pos h1, if_pos h1]
      refine bind_map (dictPart_sites d) fun ss => ?_
      rw [dictPart_general]
      refine bind_map (f := id) (by cases dictPart d GENERAL <;> rfl) fun gs => ?_
      show (pure _ : Py _) = Except.map _ (pure _)
      exact congrArg (fun x => Except.ok (some (Upd.mk x _))) (update_mapD (fun _ v => renVal h v) (curr.getD Upd.empty).sites ss)
    · have hk : ∀ F : Key → Val → Val, (Dict.has (mapD F d) SITES || Dict.has (mapD F d) GENERAL) = (Dict.has d SITES || Dict.has d GENERAL) :=
        fun F => by rw [has_mapD, has_mapD]
      by_cases h2 : allIntKeys d = true
      · have e : renAnswer h d = renSites h d := by unfold renAnswer; rw [if_neg h1, if_pos h2]
        rw [e]
        unfold renSites
        rw [hk, allIntKeys_mapD, if_neg h1, if_neg h1, if_pos h2, if_pos h2]
        exact congrArg (fun x => Except.ok (some (Upd.mk x _))) (update_mapD (fun _ v => renVal h v) (curr.getD Upd.empty).sites d)
      · have e : renAnswer h d = mapD h d := by unfold renAnswer; rw [if_neg h1, if_neg h2]
        rw [e, hk, allIntKeys_mapD, if_neg h1, if_neg h1, if_neg h2, if_neg h2]
        cases sid with
        | none => rfl
        | some i => exact congrArg (fun x => Except.ok (some (Upd.mk x _))) (update_mapD (fun _ v => renVal h v) (curr.getD Upd.empty).sites [(i, Val.dict d)])

theorem mergeResp_ren (r : Resp) (curr : Option Upd) (i : Key) :
    mergeResp (renResp h r) (curr.map (renUpd h)) i = (mergeResp r curr i).map (Option.map (renUpd h)) := by
  cases r with
  | noUpdate => exact mergeUpdates_ren none curr (some i)
  | dict d => exact mergeUpdates_ren (some d) curr (some i)
  | tuple d n => rfl

/-! ### Runs -/

section Runs
variable {σ σ' : Type} {θ : σ → σ'} {c : Controller σ} {c' : Controller σ'}

theorem stepBatch_ren (hr : Renames h θ c c') (ids : List Key) (st : σ) (s : SimState) :
    stepBatch c' (θ st) ids (renState h s) = (stepBatch c st ids s).map fun r => (θ r.1, r.2.map (renUpd h)) := by
  unfold stepBatch
  have := foldlM_map' (f := fun a : σ × Option Upd => (θ a.1, a.2.map (renUpd h))) (φ := (id : Key → Key))
    (g := fun (acc : σ × Option Upd) sid => do
      let (st', r) ← c.update acc.1 sid s
      let b ← mergeResp r acc.2 sid
      pure (st', b))
    (g' := fun (acc : σ' × Option Upd) sid => do
      let (st', r) ← c'.update acc.1 sid (renState h s)
      let b ← mergeResp r acc.2 sid
      pure (st', b)) (fun a i => by
      refine bind_map (hr.update a.1 i s) fun r => ?_
      exact bind_map (mergeResp_ren r.2 a.2 i) fun u => rfl) ids (st, none)
  rw [List.map_id] at this
  exact this

theorem addStep_ren (r : SimResult) (u : Option Upd) :
    (renResult h r).addStep ((u.map (renUpd h)).map Upd.toProps) = renResult h (r.addStep (u.map Upd.toProps)) := by
  rw [← renDiff_map]
  simp [renResult, SimResult.addStep]

theorem syncLoop_ren (hid : KeepsIds h) (hr : Renames h θ c c') (n : ℕ) (st : σ) (s : SimState) (res : SimResult) :
    syncLoop c' n (θ st) (renState h s) (renResult h res) =
      (syncLoop c n st s res).map fun r => (θ r.1, renState h r.2.1, renResult h r.2.2) := by
  induction n generalizing st s res with
  | zero => rfl
  | succ n ih =>
    unfold syncLoop
    refine bind_map (f := fun r : σ × Option Upd => (θ r.1, r.2.map (renUpd h))) (by
      unfold takeStep
      rw [renState_siteIds]
      exact stepBatch_ren hr _ st s) fun r => ?_
    simp only
    rw [addStep_ren]
    refine bind_map (f := renState h) ?_ fun s' => ih r.1 s' _
    rw [← renDiff_map]
    exact batchUpdateO_ren hid s _

theorem setOutput_ren (r : SimResult) (s : SimState) : (renResult h r).setOutput (renState h s) = renResult h (r.setOutput s) := rfl

theorem mergeBatches_ren (l : List (Option Upd)) : mergeBatches (l.map (Option.map (renUpd h))) = (mergeBatches l).map (Option.map (renUpd h)) := by
  unfold mergeBatches
  refine foldlM_map' (f := Option.map (renUpd h)) (φ := Option.map (renUpd h)) (fun a b => ?_) l none
  have : (a.map (renUpd h)).map Upd.toProps = (a.map Upd.toProps).map (renAnswer h) := by
    cases a with
    | none => rfl
    | some u =>
      refine congrArg some ?_
      unfold renAnswer
      rw [if_pos (by simp [Upd.toProps, Dict.has, Dict.get?, SITES, GENERAL]), ← renDiff_toProps]
      unfold renDiff
      rw [if_pos (by simp [Upd.toProps, Dict.has, Dict.get?, SITES, GENERAL])]
  rw [this]
  exact mergeUpdates_ren _ b none

/-- A worker's memory, renamed. -/
def renWorker (h : Key → Val → Val) (θ : σ → σ') (w : Worker σ) : Worker σ' := ⟨θ w.st, renState h w.state⟩

theorem workerTask_ren (hid : KeepsIds h) (hr : Renames h θ c c') (w : Worker σ) (batch : List Key) (last : Option Props) :
    workerTask c' (renWorker h θ w) batch (last.map (renDiff h)) = (workerTask c w batch last).map fun r => (renWorker h θ r.1, r.2.map (renUpd h)) := by
  unfold workerTask
  refine bind_map (batchUpdateO_ren hid w.state last) fun s => ?_
  exact bind_map (stepBatch_ren hr batch w.st s) fun r => rfl

theorem runTasks_ren (hid : KeepsIds h) (hr : Renames h θ c c') (bs : List (List Key)) (last : Option Props) (sc : StepSched) (ws : ℕ → Worker σ) :
    runTasks c' bs (last.map (renDiff h)) sc (fun v => renWorker h θ (ws v)) =
      (runTasks c bs last sc ws).map fun r => (fun v => renWorker h θ (r.1 v), mapD (fun _ => Option.map (renUpd h)) r.2) := by
  induction sc generalizing ws with
  | nil => rfl
  | cons bw sc ih =>
    unfold runTasks
    refine bind_map (workerTask_ren hid hr (ws bw.2) _ last) fun r => ?_
    have hw : (fun i => if i = bw.2 then renWorker h θ r.1 else renWorker h θ (ws i)) = fun i => renWorker h θ (if i = bw.2 then r.1 else ws i) := by
      funext i
      split_ifs <;> rfl
    simp only
    rw [hw]
    exact bind_map (ih _) fun _ => rfl

theorem takeStepParallel_ren (hid : KeepsIds h) (hr : Renames h θ c c') (ids : List Key) (chunk : ℕ) (sc : StepSched) (last : Option Props) (ws : ℕ → Worker σ) :
    takeStepParallel c' ids chunk sc (last.map (renDiff h)) (fun v => renWorker h θ (ws v)) =
      (takeStepParallel c ids chunk sc last ws).map fun r => (fun v => renWorker h θ (r.1 v), r.2.map (renUpd h)) := by
  unfold takeStepParallel
  split_ifs with hc
  · rfl
  · refine bind_map (runTasks_ren hid hr _ last sc ws) fun r => ?_
    refine bind_map (f := Option.map (renUpd h)) ?_ fun u => rfl
    rw [← mergeBatches_ren, List.map_map]
    congr 1
    refine List.map_congr_left fun b _ => ?_
    show (Dict.get? (mapD (fun _ => Option.map (renUpd h)) r.2) b).getD none = Option.map (renUpd h) ((Dict.get? r.2 b).getD none)
    rw [get?_mapD]
    cases Dict.get? r.2 b <;> rfl

theorem parallelLoop_ren (hid : KeepsIds h) (hr : Renames h θ c c') (ids : List Key) (chunk : ℕ) (sched : ℕ → StepSched) (n : ℕ) :
    ∀ (k : ℕ) (last : Option Props) (ws : ℕ → Worker σ) (res : SimResult),
      parallelLoop c' ids chunk sched k n (last.map (renDiff h)) (fun v => renWorker h θ (ws v)) (renResult h res) =
        (parallelLoop c ids chunk sched k n last ws res).map (renResult h) := by
  induction n with
  | zero => exact fun _ _ _ _ => rfl
  | succ n ih =>
    intro k last ws res
    unfold parallelLoop
    refine bind_map (takeStepParallel_ren hid hr ids chunk (sched k) last ws) fun r => ?_
    simp only
    rw [addStep_ren, ← renDiff_map]
    exact ih _ _ _ _

/-- The state of the asynchronous loop, renamed. -/
def renAsync (h : Key → Val → Val) (θ : σ → σ') (a : AsyncSt σ) : AsyncSt σ' := ⟨θ a.st, renState h a.live, a.queue, renResult h a.res, a.trace⟩

theorem addSites_ren (hr : Renames h θ c c') (st : σ) (s : SimState) (q : List Key) :
    addSites c' (θ st) (renState h s) q = (addSites c st s q).map fun r => (θ r.1, r.2) := by
  unfold addSites
  refine bind_map (hr.randomSite st s) fun r => ?_
  obtain ⟨st', r⟩ := r
  cases r <;> rfl

theorem split_ren (r : Resp) : (renResp h r).split = (r.split.1.map (renAnswer h), r.split.2) := by cases r <;> rfl

theorem asyncStep_ren (hid : KeepsIds h) (hr : Renames h θ c c') (a : AsyncSt σ) : asyncStep c' (renAsync h θ a) = (asyncStep c a).map (renAsync h θ) := by
  unfold asyncStep
  show (match a.queue with | [] => _ | sid :: q => _) = _
  cases hq : a.queue with
  | nil => rfl
  | cons sid q =>
    refine bind_map (hr.update a.st sid a.live) fun r => ?_
    simp only [split_ren]
    refine bind_map (mergeUpdates_ren r.2.split.1 none (some sid)) fun u => ?_
    rw [show (renAsync h θ a).res = renResult h a.res from rfl, addStep_ren]
    refine bind_map (f := renState h) (by rw [← renDiff_map]; exact batchUpdateO_ren hid a.live _) fun s => ?_
    refine bind_map (f := fun r : σ × List Key => (θ r.1, r.2)) ?_ fun r => rfl
    split_ifs
    · exact addSites_ren hr _ _ _
    · rfl

theorem asyncLoop_ren (hid : KeepsIds h) (hr : Renames h θ c c') (n : ℕ) (a : AsyncSt σ) : asyncLoop c' n (renAsync h θ a) = (asyncLoop c n a).map (renAsync h θ) := by
  induction n generalizing a with
  | zero => rfl
  | succ n ih =>
    unfold asyncLoop
    refine bind_map (asyncStep_ren hid hr a) fun a' => ?_
    show (if a'.queue.isEmpty then _ else _) = Except.map _ (if a'.queue.isEmpty then _ else _)
    split_ifs
    · rfl
    · exact ih a'

/-- A result, renamed, shows the renamed states at every step. -/
theorem getStep_ren (hid : KeepsIds h) (r : SimResult) (k : ℤ) : (renResult h r).getStep k = (r.getStep k).map (renState h) := by
  have hto : ∀ (l : List (Option Props)) (n : ℕ) (s : SimState),
      SimResult.replayTo (renState h s) (l.map (Option.map (renDiff h))) n = (SimResult.replayTo s l n).map (renState h) := by
    intro l
    induction l with
    | nil => intro n s; cases n <;> rfl
    | cons d l ih =>
      intro n s
      cases n with
      | zero => rfl
      | succ n => exact bind_map (batchUpdateO_ren hid s d) fun s => ih n s
  unfold SimResult.getStep
  rw [show Dict.get? (renResult h r).stored k = (Dict.get? r.stored k).map (renState h) from get?_mapD (fun _ s => renState h s) r.stored k]
  cases Dict.get? r.stored k with
  | none => exact hto r.diffs k.toNat r.initial
  | some s => rfl

/-- C137: if the controller is put into other words, a serial run on the renamed state is the renamed run, exceptions included. -/
theorem C137_serial (hid : KeepsIds h) (hr : Renames h θ c c') (st : σ) (s0 : SimState) (n : ℕ) :
    runSync c' (θ st) (renState h s0) n = (runSync c st s0 n).map fun r => (θ r.1, renResult h r.2) := by
  unfold runSync
  refine bind_map (hr.preRun st s0) fun r => ?_
  exact bind_map (syncLoop_ren hid hr n r.1 r.2 (SimResult.new s0.copy)) fun r => rfl

/-- C137 for the parallel runner, with the same workers and schedule. -/
theorem C137_parallel (hid : KeepsIds h) (hr : Renames h θ c c') {fork : ℕ → σ → σ} {fork' : ℕ → σ' → σ'} (hf : ∀ v st, fork' v (θ st) = θ (fork v st))
    (st : σ) (s0 : SimState) (w n : ℕ) (sched : ℕ → StepSched) :
    runParallel c' fork' (θ st) (renState h s0) w n sched = (runParallel c fork st s0 w n sched).map (renResult h) := by
  unfold runParallel
  refine bind_map (hr.preRun st s0) fun r => ?_
  simp only
  split_ifs with hw
  · rfl
  · rw [renState_siteIds, renState_size]
    have hws : (fun v => (⟨fork' v (θ r.1), renState h r.2⟩ : Worker σ')) = fun v => renWorker h θ ⟨fork v r.1, r.2⟩ := by
      funext v
      rw [hf]; rfl
    rw [hws]
    exact bind_map (parallelLoop_ren hid hr _ _ sched n 0 (some []) (fun v => ⟨fork v r.1, r.2⟩) (SimResult.new s0.copy)) fun res => rfl

/-- C137 for the asynchronous runner. -/
theorem C137_asynchronous (hid : KeepsIds h) (hr : Renames h θ c c') (st : σ) (s0 : SimState) (n : ℕ) :
    (runAsync c' (θ st) (renState h s0) n).map AsyncSt.res = (runAsync c st s0 n).map fun a => renResult h a.res := by
  have key : runAsync c' (θ st) (renState h s0) n = (runAsync c st s0 n).map (renAsync h θ) := by
    unfold runAsync
    refine bind_map (hr.preRun st s0) fun r => ?_
    refine bind_map (f := renAsync h θ) ?_ fun a => rfl
    unfold asyncRunFrom
    refine bind_map (addSites_ren hr r.1 r.2 []) fun q => ?_
    show (if q.2.isEmpty then _ else _) = Except.map _ (if q.2.isEmpty then _ else _)
    split_ifs
    · rfl
    · exact bind_map (asyncLoop_ren hid hr n ⟨q.1, r.2, q.2, SimResult.new s0.copy, []⟩) fun a => rfl
  rw [key]
  cases runAsync c st s0 n <;> rfl

/-- C137: a renamed result shows the renamed states. -/
theorem C137_steps (hid : KeepsIds h) (r : SimResult) (k : ℤ) : (renResult h r).getStep k = (r.getStep k).map (renState h) := getStep_ren hid r k

end Runs

/-! ### Growth -/

theorem phaseNames_keepsIds (ρ : Val → Val) : KeepsIds (phaseNames ρ) := fun k => by
  unfold phaseNames
  rw [if_neg (by decide)]

theorem occupancy_ren (ρ : Val → Val) (s : SimState) (i : Key) : occupancy (renState (phaseNames ρ) s) i = (occupancy s i).map ρ := by
  unfold occupancy
  rw [renState_get]
  cases s.getSiteState i with
  | none => rfl
  | some p =>
    show (match Dict.get? (mapD (phaseNames ρ) p) DISCRETE_OCCUPANCY with | none => _ | some v => _) = _
    rw [get?_mapD]
    cases hp : Dict.get? p DISCRETE_OCCUPANCY with
    | none => simp only [Option.map_none, hp]; rfl
    | some v => simp [phaseNames, hp, Except.map]

/-- The counts with renamed phases. -/
def renCounts (ρ : Val → Val) (d : Dict Val ℕ) : Dict Val ℕ := d.map fun pc => (ρ pc.1, pc.2)

theorem count_ren {ρ : Val → Val} (hρ : Function.Injective ρ) (bg : Val) (d : Dict Val ℕ) (v : Val) :
    Growth.count (ρ bg) (renCounts ρ d) (ρ v) = renCounts ρ (Growth.count bg d v) := by
  have hget : Dict.get? (renCounts ρ d) (ρ v) = Dict.get? d v := by
    induction d with
    | nil => rfl
    | cons a d ih =>
      show (if ρ a.1 = ρ v then some a.2 else Dict.get? (renCounts ρ d) (ρ v)) = if a.1 = v then some a.2 else Dict.get? d v
      rw [ih]
      by_cases e : a.1 = v
      · rw [if_pos e, if_pos (by rw [e])]
      · rw [if_neg e, if_neg fun e' => e (hρ e')]
  have hset : ∀ n, Dict.set (renCounts ρ d) (ρ v) n = renCounts ρ (Dict.set d v n) := by
    intro n
    clear hget
    induction d with
    | nil => rfl
    | cons a d ih =>
      show (if ρ a.1 = ρ v then (ρ a.1, n) :: renCounts ρ d else (ρ a.1, a.2) :: Dict.set (renCounts ρ d) (ρ v) n) =
        renCounts ρ (if a.1 = v then (a.1, n) :: d else (a.1, a.2) :: Dict.set d v n)
      by_cases e : a.1 = v
      · rw [if_pos e, if_pos (by rw [e])]; rfl
      · rw [if_neg e, if_neg fun e' => e (hρ e'), ih]; rfl
  unfold Growth.count
  by_cases e : v = bg
  · subst e; simp
  · rw [if_pos e, if_pos fun e' => e (hρ e'), hget]
    cases Dict.get? d v with
    | none => exact hset 1
    | some n => exact hset (n + 1)

theorem count_pos {bg v : Val} {d : Dict Val ℕ} (hd : ∀ pc ∈ d, 0 < pc.2) : ∀ pc ∈ Growth.count bg d v, 0 < pc.2 := by
  unfold Growth.count
  have hset : ∀ n, 0 < n → ∀ pc ∈ Dict.set d v n, 0 < pc.2 := by
    intro n hn
    induction d with
    | nil =>
      intro pc hpc
      simp only [Dict.set, List.mem_singleton] at hpc
      subst hpc; exact hn
    | cons a d ih =>
      intro pc hpc
      simp only [Dict.set] at hpc
      split at hpc
      · rcases List.mem_cons.1 hpc with rfl | hpc
        · exact hn
        · exact hd pc (List.mem_cons_of_mem _ hpc)
      · rcases List.mem_cons.1 hpc with rfl | hpc
        · exact hd _ (by simp)
        · exact ih (fun pc h => hd pc (List.mem_cons_of_mem _ h)) pc hpc
  split
  · split
    · exact hset 1 one_pos
    · exact hset _ (Nat.succ_pos _)
  · exact hd

theorem pick_ren (ρ : Val → Val) (d : Dict Val ℕ) (hd : ∀ pc ∈ d, 0 < pc.2) (hne : d ≠ []) : (Growth.pick (renCounts ρ d)).1 = ρ (Growth.pick d).1 := by
  have key : ∀ (d : Dict Val ℕ) (b : Val × ℕ), List.foldl (fun best pc => if pc.2 > best.2 then pc else best) (ρ b.1, b.2) (renCounts ρ d) =
      (fun x : Val × ℕ => (ρ x.1, x.2)) (List.foldl (fun best pc => if pc.2 > best.2 then pc else best) b d) := by
    intro d
    induction d with
    | nil => exact fun _ => rfl
    | cons a d ih =>
      intro b
      show List.foldl _ (if a.2 > b.2 then (ρ a.1, a.2) else (ρ b.1, b.2)) (renCounts ρ d) = _
      rw [List.foldl_cons]
      split_ifs
      · exact ih a
      · exact ih b
  cases d with
  | nil => exact absurd rfl hne
  | cons a d =>
    have ha : a.2 > 0 := hd a (by simp)
    show (List.foldl _ (if a.2 > 0 then (ρ a.1, a.2) else _) (renCounts ρ d)).1 = ρ (List.foldl _ (if a.2 > 0 then a else _) d).1
    rw [if_pos ha, if_pos ha, key d a]

/-- What the growth controller remembers, renamed. -/
def renCtl (ρ : Val → Val) (c : Growth.Ctl) : Growth.Ctl := { c with background := ρ c.background }

theorem growth_renames {ρ : Val → Val} (hρ : Function.Injective ρ) : Renames (phaseNames ρ) (renCtl ρ) Growth.controller Growth.controller where
  update c i s := by
    show Growth.update _ _ _ = (Growth.update _ _ _).map _
    unfold Growth.update
    refine bind_map (occupancy_ren ρ s i) fun cur => ?_
    show (if ρ cur = ρ c.background then _ else _) = Except.map _ (if cur = c.background then _ else _)
    by_cases e : cur = c.background
    · rw [if_pos e, if_pos (by rw [e])]
      refine bind_map (f := id) (by show c.nbs c.calls i = _; cases c.nbs c.calls i <;> rfl) fun l => ?_
      have hfold := foldlM_map' (f := renCounts ρ) (φ := (id : ℕ → ℕ))
        (g := fun (counts : Dict Val ℕ) (nb : ℕ) => do
          let phase ← occupancy s (.int nb)
          pure (Growth.count c.background counts phase))
        (g' := fun (counts : Dict Val ℕ) (nb : ℕ) => do
          let phase ← occupancy (renState (phaseNames ρ) s) (.int nb)
          pure (Growth.count (ρ c.background) counts phase))
        (fun a b => bind_map (occupancy_ren ρ s _) fun v => congrArg Except.ok (count_ren hρ c.background a v)) l []
      rw [List.map_id] at hfold
      -- every count is positive
      have hpos : ∀ (l : List ℕ) (d D : Dict Val ℕ), (∀ pc ∈ d, 0 < pc.2) → l.foldlM (fun (counts : Dict Val ℕ) (nb : ℕ) => do
          let phase ← occupancy s (.int nb)
          pure (Growth.count c.background counts phase)) d = .ok D → ∀ pc ∈ D, 0 < pc.2 := by
        intro l
        induction l with
        | nil => intro d D hd e; injection e with e; subst e; exact hd
        | cons x l ih =>
          intro d D hd e
          rw [List.foldlM_cons] at e
          obtain ⟨d', e1, e2⟩ := bind_ok e
          obtain ⟨v, -, e1⟩ := bind_ok e1
          injection e1 with e1
          refine ih d' D ?_ e2
          rw [← e1]
          exact count_pos hd
      show (List.foldlM _ _ l >>= _) = Except.map _ (List.foldlM _ _ l >>= _)
      cases hD : l.foldlM (fun (counts : Dict Val ℕ) (nb : ℕ) => do
          let phase ← occupancy s (.int nb)
          pure (Growth.count c.background counts phase)) [] with
      | error e =>
        rw [hD] at hfold
        erw [hfold]
        rfl
      | ok D =>
        rw [hD] at hfold
        erw [hfold]
        show (if 0 < (renCounts ρ D).length then _ else _) = Except.map _ (if 0 < D.length then _ else _)
        have hlen : (renCounts ρ D).length = D.length := by simp [renCounts]
        rw [hlen]
        split_ifs with h0
        · have hp := pick_ren ρ D (hpos l [] D (by simp) hD) (List.ne_nil_of_length_pos h0)
          show Except.ok _ = Except.ok _
          rw [hp]
          simp [renResp, renAnswer, Dict.has, Dict.get?, allIntKeys, mapD, phaseNames, DISCRETE_OCCUPANCY, SITES, GENERAL, renCtl]
        · rfl
    · rw [if_neg e, if_neg fun e' => e (hρ e')]
      rfl
  randomSite c s := rfl
  preRun c s := rfl

/-- C137: renamed, a state has the new names of the phases it had, at the same sites. -/
theorem C137_phases (ρ : Val → Val) (s : SimState) : (renState (phaseNames ρ) s).siteIds = s.siteIds ∧
    ∀ i, occ? (renState (phaseNames ρ) s) i = (occ? s i).map ρ := by
  refine ⟨renState_siteIds s, fun i => ?_⟩
  unfold occ?
  rw [renState_get]
  cases s.getSiteState i with
  | none => rfl
  | some p =>
    show Dict.get? (mapD (phaseNames ρ) p) DISCRETE_OCCUPANCY = (Dict.get? p DISCRETE_OCCUPANCY).map ρ
    rw [get?_mapD]
    cases Dict.get? p DISCRETE_OCCUPANCY <;> simp [phaseNames]

/-- C137 for the growth model: if different phases get different new names, growth from the renamed state with the renamed background is growth renamed,
with every runner and whatever `neighbors_of` answers. -/
theorem C137_growth {ρ : Val → Val} (hρ : Function.Injective ρ) (bg : Val) (nbs : ℕ → Key → Py (List ℕ)) (t : ℕ) (s0 : SimState) (n : ℕ) :
    (runSync Growth.controller ⟨ρ bg, nbs, t⟩ (renState (phaseNames ρ) s0) n).map Prod.snd =
      (runSync Growth.controller ⟨bg, nbs, t⟩ s0 n).map (fun r => renResult (phaseNames ρ) r.2) ∧
    (∀ (fork : ℕ → (ℕ → Key → Py (List ℕ)) × ℕ → (ℕ → Key → Py (List ℕ)) × ℕ) (w : ℕ) (sched : ℕ → StepSched),
      runParallel Growth.controller (fun v c => ⟨c.background, (fork v (c.nbs, c.calls)).1, (fork v (c.nbs, c.calls)).2⟩) ⟨ρ bg, nbs, t⟩
          (renState (phaseNames ρ) s0) w n sched =
        (runParallel Growth.controller (fun v c => ⟨c.background, (fork v (c.nbs, c.calls)).1, (fork v (c.nbs, c.calls)).2⟩) ⟨bg, nbs, t⟩ s0 w n sched).map
          (renResult (phaseNames ρ))) ∧
    ∀ draw : ℕ → ℕ, (runAsync (Growth.controller.inherit draw) (⟨ρ bg, nbs, t⟩, 0) (renState (phaseNames ρ) s0) n).map AsyncSt.res =
      (runAsync (Growth.controller.inherit draw) (⟨bg, nbs, t⟩, 0) s0 n).map (fun a => renResult (phaseNames ρ) a.res) := by
  have hid := phaseNames_keepsIds ρ
  refine ⟨?_, fun fork w sched => ?_, fun draw => ?_⟩
  · have := C137_serial hid (growth_renames hρ) ⟨bg, nbs, t⟩ s0 n
    rw [show (⟨ρ bg, nbs, t⟩ : Growth.Ctl) = renCtl ρ ⟨bg, nbs, t⟩ from rfl, this]
    cases runSync Growth.controller ⟨bg, nbs, t⟩ s0 n <;> rfl
  · exact C137_parallel
      (fork := fun v c => ⟨c.background, (fork v (c.nbs, c.calls)).1, (fork v (c.nbs, c.calls)).2⟩)
      (fork' := fun v c => ⟨c.background, (fork v (c.nbs, c.calls)).1, (fork v (c.nbs, c.calls)).2⟩) hid (growth_renames hρ) (fun _ _ => rfl) ⟨bg, nbs, t⟩ s0 w n sched
  · refine C137_asynchronous (θ := fun x : Growth.Ctl × ℕ => (renCtl ρ x.1, x.2)) hid ⟨fun st i s => ?_, fun st s => ?_, fun st s => rfl⟩ (⟨bg, nbs, t⟩, 0) s0 n
    · exact bind_map ((growth_renames hρ).update st.1 i s) fun r => rfl
    · show (defaultRandomSite (draw st.2) (renState (phaseNames ρ) s) >>= _) = Except.map _ (defaultRandomSite (draw st.2) s >>= _)
      refine bind_map (f := id) ?_ fun r => rfl
      unfold defaultRandomSite
      rw [renState_siteIds]
      simp only
      split_ifs <;> rfl

/-- Swapping the names `A` and `B`: where a serial run grows `A`, the run from the swapped state grows `B`. -/
example (bg : Val) (hbg : bg ≠ .str "A" ∧ bg ≠ .str "B") (nbs : ℕ → Key → Py (List ℕ)) (s0 s : SimState) (n : ℕ) (c' : Growth.Ctl) (res : SimResult)
    (h : runSync Growth.controller ⟨bg, nbs, 0⟩ s0 n = .ok (c', res)) (k : ℤ) (hk : res.getStep k = .ok s) :
    ∃ c'' res' s', runSync Growth.controller ⟨bg, nbs, 0⟩ (renState (phaseNames (Equiv.swap (.str "A") (.str "B"))) s0) n = .ok (c'', res') ∧
      res'.getStep k = .ok s' ∧ (∀ i, occ? s i = some (.str "A") ↔ occ? s' i = some (.str "B")) := by
  have h1 := (C137_growth (Equiv.swap (.str "A") (.str "B" : Val)).injective bg nbs 0 s0 n).1
  rw [Equiv.swap_apply_of_ne_of_ne hbg.1 hbg.2, h] at h1
  cases h2 : runSync Growth.controller ⟨bg, nbs, 0⟩ (renState (phaseNames (Equiv.swap (.str "A") (.str "B"))) s0) n with
  | error e => rw [h2] at h1; cases h1
  | ok r =>
    rw [h2] at h1
    injection h1 with h1
    obtain ⟨c'', res'⟩ := r
    have h1' : res' = renResult (phaseNames (Equiv.swap (.str "A") (.str "B"))) res := h1
    refine ⟨c'', res', renState (phaseNames (Equiv.swap (.str "A") (.str "B"))) s, rfl, ?_, fun i => ?_⟩
    · rw [h1', C137_steps (phaseNames_keepsIds _), hk]
      rfl
    · rw [(C137_phases _ s).2 i]
      cases occ? s i with
      | none => simp
      | some v =>
        simp only [Option.map_some, Option.some.injEq]
        constructor
        · rintro rfl; exact Equiv.swap_apply_left _ _
        · intro e
          have := congrArg (Equiv.swap (.str "A") (.str "B" : Val)) e
          rwa [Equiv.swap_apply_self, Equiv.swap_apply_right] at this

end Pyl
