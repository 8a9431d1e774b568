import Verif.Spec.Writer
import Verif.Props.Async
/-
C130: controllers that write into the state they are shown.
-/
set_option linter.unusedSectionVars false
set_option autoImplicit false

namespace Pyl
open SimState Spec
variable {σ : Type}

/-! ### rules that only read -/

theorem writer_stepBatch_reads {w : Writer σ} {c : Controller σ} (h : OnlyReads w c) (s : SimState) (ids : List Key) (st : σ) :
    w.stepBatch st ids s = (stepBatch c st ids s).map fun x => (x.1, s, x.2) := by
  unfold Writer.stepBatch stepBatch
  generalize (none : Option Upd) = acc
  induction ids generalizing st acc with
  | nil => rfl
  | cons i ids ih =>
    rw [List.foldlM_cons, List.foldlM_cons]
    have h1 := h.update st i s
    cases hc : c.update st i s with
    | error e =>
      have h1' : w.update st i s = .error e := by rw [h1, hc]; rfl
      simp only [h1', error_bind]; rfl
    | ok x =>
      obtain ⟨st', r⟩ := x
      have h1' : w.update st i s = .ok (st', s, r) := by rw [h1, hc]; rfl
      simp only [h1', ok_bind]
      cases mergeResp r acc i with
      | error e => rfl
      | ok b => exact ih st' b

theorem writer_syncLoop_reads {w : Writer σ} {c : Controller σ} (h : OnlyReads w c) (n : Nat) : ∀ (st : σ) (s : SimState) (res : SimResult),
    w.syncLoop n st s res = syncLoop c n st s res := by
  induction n with
  | zero => intro st s res; rfl
  | succ n ih =>
    intro st s res
    simp only [Writer.syncLoop, syncLoop, Writer.takeStep, takeStep, writer_stepBatch_reads h]
    cases stepBatch c st s.siteIds s with
    | error e => rfl
    | ok x =>
      obtain ⟨st', u⟩ := x
      simp only [Except.map, ok_bind]
      cases s.batchUpdateO (u.map Upd.toProps) with
      | error e => rfl
      | ok s' => simp only [ok_bind]; exact ih _ _ _

theorem writer_addSites_reads {w : Writer σ} {c : Controller σ}
    (h : ∀ st s, w.randomSite st s = (c.randomSite st s).map fun x => (x.1, s, x.2)) (st : σ) (s : SimState) (q : List Key) :
    w.addSites st s q = (addSites c st s q).map fun x => (x.1, s, x.2) := by
  unfold Writer.addSites addSites
  rw [h]
  cases c.randomSite st s with
  | error e => rfl
  | ok x =>
    obtain ⟨st', r⟩ := x
    cases r <;> rfl

/-- Runs of a writer whose steps are the steps of `c`. -/
theorem writer_runAsync_of_step {w : Writer σ} {c : Controller σ} (hstep : ∀ a, w.asyncStep a = asyncStep c a)
    (hr : ∀ st s, w.randomSite st s = (c.randomSite st s).map fun x => (x.1, s, x.2)) (hp : w.preRun = c.preRun)
    (st : σ) (s0 : SimState) (n : Nat) : w.runAsync st s0 n = runAsync c st s0 n := by
  have hloop : ∀ (n : Nat) (a : AsyncSt σ), w.asyncLoop n a = asyncLoop c n a := by
    intro n
    induction n with
    | zero => intro a; rfl
    | succ n ih => intro a; simp only [Writer.asyncLoop, asyncLoop, hstep, ih]
  simp only [Writer.runAsync, runAsync, asyncRunFrom, hp, writer_addSites_reads hr]
  cases c.preRun st s0 with
  | error e => rfl
  | ok x =>
    obtain ⟨st1, s1⟩ := x
    simp only [ok_bind]
    cases addSites c st1 s1.copy [] with
    | error e => rfl
    | ok y =>
      obtain ⟨st2, q⟩ := y
      simp only [Except.map, ok_bind]
      cases q with
      | nil => rfl
      | cons i q =>
        simp only [List.isEmpty_cons, Bool.false_eq_true, if_false, hloop]
        cases asyncLoop c n ⟨st2, s1.copy, i :: q, SimResult.new s0.copy, []⟩ <;> rfl

theorem refill_reads {w : Writer σ} {c : Controller σ}
    (h : ∀ st s, w.randomSite st s = (c.randomSite st s).map fun x => (x.1, s, x.2)) (st : σ) (s : SimState) (q : List Key) :
    (if q.isEmpty then w.addSites st s q else pure (st, s, q)) =
      ((if q.isEmpty then addSites c st s q else pure (st, q)) : Py _).map fun x => (x.1, s, x.2) := by
  cases q with
  | nil => exact writer_addSites_reads h st s []
  | cons i q => rfl

/-- C130: a controller that writes nothing runs as the functions of `Model/Runner.lean` say, so everything proved about them
holds of it. -/
theorem C130_only_reads {w : Writer σ} {c : Controller σ} (h : OnlyReads w c) (st : σ) (s0 : SimState) (n : Nat) :
    w.runSync st s0 n = runSync c st s0 n ∧ w.runAsync st s0 n = runAsync c st s0 n := by
  refine ⟨?_, writer_runAsync_of_step (fun a => ?_) h.randomSite h.preRun st s0 n⟩
  · simp only [Writer.runSync, runSync, h.preRun, writer_syncLoop_reads h]
  · unfold Writer.asyncStep asyncStep
    cases a.queue with
    | nil => rfl
    | cons sid q =>
      simp only [h.update]
      cases c.update a.st sid a.live with
      | error e => rfl
      | ok x =>
        obtain ⟨st', r⟩ := x
        simp only [Except.map, ok_bind]
        cases mergeUpdates r.split.1 none (some sid) with
        | error e => rfl
        | ok u =>
          simp only [ok_bind]
          cases a.live.batchUpdateO (u.map Upd.toProps) with
          | error e => rfl
          | ok live' =>
            simp only [ok_bind, refill_reads h.randomSite]
            generalize (if (q ++ r.split.2).isEmpty then addSites c st' live' (q ++ r.split.2) else pure (st', q ++ r.split.2) : Py _) = y
            cases y <;> rfl

/-! ### carrying out an update twice -/

theorem set_same {ν : Type} {d : Dict Key ν} {k : Key} {v : ν} (h : Dict.get? d k = some v) : Dict.set d k v = d := by
  induction d with
  | nil => cases h
  | cons p d ih =>
    obtain ⟨k', v'⟩ := p
    rw [Dict.get?_cons] at h
    by_cases hk : k' = k
    · subst hk; simp at h; subst h; simp [Dict.set]
    · rw [if_neg hk] at h; simp [Dict.set, hk, ih h]

theorem update_present {ν : Type} {d u : Dict Key ν} (h : ∀ p ∈ u, Dict.get? d p.1 = some p.2) : Dict.update d u = d := by
  induction u with
  | nil => rfl
  | cons p u ih =>
    rw [Dict.update_cons, set_same (h p (by simp))]
    exact ih fun q hq => h q (by simp [hq])

theorem update_twice {ν : Type} (d : Dict Key ν) {u : Dict Key ν} (hu : Dict.WF u) : Dict.update (Dict.update d u) u = Dict.update d u :=
  update_present fun p hp => by
    rw [Dict.get?_update hu, Dict.get?_of_mem hu (k := p.1) (v := p.2) hp]; rfl

theorem setSitesP_present {s : SimState} {d : Props}
    (h : ∀ p ∈ d, ∃ o, Dict.get? s.sites p.1 = some o ∧ Dict.update o (dictOf p.2) = o) : setSitesP s d = s := by
  induction d with
  | nil => rfl
  | cons p d ih =>
    obtain ⟨o, h1, h2⟩ := h p (by simp)
    have : setSiteState s p.1 (dictOf p.2) = s := by
      simp only [setSiteState, h1, h2, set_same h1]
    rw [setSitesP_cons, this]
    exact ih fun q hq => h q (by simp [hq])

theorem dictOf_wf {v : Val} (h : v.WF) : Dict.WF (dictOf v) := by
  cases v with
  | dict d => exact h.keys
  | _ => exact Dict.WF.nil

theorem setSitesP_twice (s : SimState) {d : Props} (hd : (Val.dict d).WF) : setSitesP (setSitesP s d) d = setSitesP s d := by
  refine setSitesP_present fun p hp => ?_
  have h1 := get?_setSitesP hd.keys s p.1
  rw [Dict.get?_of_mem hd.keys (k := p.1) (v := p.2) hp] at h1
  exact ⟨_, h1, update_twice _ (dictOf_wf (hd.entry hp))⟩

theorem update_nil_wf {ν : Type} {u : Dict Key ν} (hu : Dict.WF u) : Dict.update [] u = u := by
  refine Dict.ext_keys (Dict.WF.ofPairs u) ?_ fun k => ?_
  · suffices ∀ (d u : Dict Key ν), Dict.WF (d ++ u) → Dict.update d u = d ++ u by rw [this [] u hu]; rfl
    intro d u
    induction u generalizing d with
    | nil => intro _; simp
    | cons p u ih =>
      intro h
      have hset : Dict.set d p.1 p.2 = d ++ [p] := by
        have hn : p.1 ∉ Dict.keys d := by
          simp only [Dict.WF, Dict.keys_append, Dict.keys_cons, List.nodup_append, List.mem_cons] at h
          exact fun hk => h.2.2 p.1 hk p.1 (Or.inl rfl) rfl
        clear ih h
        induction d with
        | nil => rfl
        | cons q d ihd =>
          simp only [Dict.keys_cons, List.mem_cons, not_or] at hn
          have : ¬ q.1 = p.1 := fun e => hn.1 e.symm
          simp [Dict.set, this, ihd hn.2]
      rw [Dict.update_cons, hset, ih _ (by simpa using h)]
      simp
  · rw [Dict.get?_update hu]; simp

/-- Carrying out an update again changes nothing. -/
theorem batch_again {s s' : SimState} {u : Upd} (hs : (Val.dict u.sites).WF) (hg : (Val.dict u.general).WF)
    (h : s.batchUpdate u.toProps = .ok s') : s'.batchUpdate u.toProps = .ok s' := by
  obtain ⟨g0, h1, h2, rfl⟩ := batchUpdate_toProps_ok h
  rw [batchUpdate_toProps_of (g0 := Dict.update g0 u.general) rfl h2]
  have key : ∀ (t : SimState) (g : Option Props), setSitesP { t with general := g } u.sites = { setSitesP t u.sites with general := g } := by
    intro t g
    generalize u.sites = d
    induction d generalizing t with
    | nil => rfl
    | cons p d ih => rw [setSitesP_cons, setSitesP_cons]; exact ih (setSiteState t p.1 (dictOf p.2))
  rw [key, setSitesP_twice _ hs, update_twice _ hg.keys]

theorem batch_general_none {s : SimState} {u : Upd} (hg : s.general = none) (h : ∀ kv ∈ u.sites, ∃ p, kv.2 = .dict p) :
    s.batchUpdate u.toProps = .error .typeError := by
  have hall : (u.sites.all fun kv => isDict kv.2) = true := by
    rw [List.all_eq_true]; exact fun kv hkv => isDict_iff.2 (h kv hkv)
  rw [batchUpdate_toProps, setSites_eq, if_pos hall, ok_bind]
  simp [setGeneralState, hg]

/-- What the runner makes of an answer that has been carried out. -/
theorem carriedOut_merge {i : Key} {r : Resp} {s s' : SimState} (h : CarriedOut i r s s') :
    (mergeResp (body r) none i = .ok none ∧ body r = .noUpdate ∧ s' = s) ∨
    ∃ u : Upd, mergeResp (body r) none i = .ok (some u) ∧ body r ≠ .noUpdate ∧ (Val.dict u.sites).WF ∧
      s.batchUpdate u.toProps = s'.batchUpdate u.toProps ∧ (s.general ≠ none → s.batchUpdate u.toProps = .ok s') ∧
      (u.general = [] → s' = setSitesP s u.sites) := by
  rcases h with ⟨h1, h2⟩ | ⟨ss, gs, s1, h0, h1, h2, h3, h4, h5⟩
  · left; rw [h1]; exact ⟨rfl, rfl, h2⟩
  · right
    obtain ⟨rfl, hd⟩ := setSites_ok h4
    refine ⟨⟨ss, gs⟩, ?_, h0, h2, ?_⟩
    · rw [mergeResp_parts h1, if_neg h0]
      simp only [Option.getD_none, Upd.empty, update_nil_wf h2.keys, update_nil_wf h3.keys]
    cases hg : s.general with
    | none =>
      rcases h5 with ⟨rfl, rfl⟩ | h5
      · refine ⟨?_, fun h => absurd rfl h, fun _ => rfl⟩
        rw [batch_general_none hg hd, batch_general_none (by simpa using hg) hd]
      · simp [setGeneralState, hg] at h5
    | some g =>
      have hok : s.batchUpdate (Upd.toProps ⟨ss, gs⟩) = .ok s' := by
        rw [batchUpdate_toProps_of hg hd]
        rcases h5 with ⟨rfl, rfl⟩ | h5
        · congr 1; exact ext' rfl (by simp [hg])
        · simp only [setGeneralState, general_setSitesP, hg] at h5
          rw [← h5]
      refine ⟨by rw [hok, batch_again h2 h3 hok], fun _ => hok, fun he => ?_⟩
      simp only at he
      subst he
      rcases h5 with ⟨_, rfl⟩ | h5
      · rfl
      · simp only [setGeneralState, general_setSitesP, hg, Dict.update_nil, Except.ok.injEq] at h5
        rw [← h5]; exact ext' rfl (by simp [hg])

/-- C130 (asynchronous): a controller that also carries out its own answer on the state it is shown runs exactly as the one
that leaves this to the runner: same result, same live state, same exceptions. -/
theorem C130_async_carries_out {w : Writer σ} {c : Controller σ} (h : CarriesOut w c) (st : σ) (s0 : SimState) (n : Nat) :
    w.runAsync st s0 n = runAsync c st s0 n := by
  refine writer_runAsync_of_step (fun a => ?_) h.randomSite h.preRun st s0 n
  unfold Writer.asyncStep asyncStep
  cases a.queue with
  | nil => rfl
  | cons sid q =>
    have hu := h.update a.st sid a.live
    cases hc : c.update a.st sid a.live with
    | error e =>
      rw [hc] at hu
      simp only at hu
      simp only [hu, hc, error_bind]
    | ok x =>
      obtain ⟨st', r⟩ := x
      rw [hc] at hu
      obtain ⟨s', hu, hco⟩ := hu
      simp only [hu, hc, ok_bind, mergeUpdates_split]
      rcases carriedOut_merge hco with ⟨h1, _, _⟩ | ⟨u, h1, _, _, h2, _⟩
      · rw [h1]; rfl
      · rw [h1]
        simp only [ok_bind, Option.map_some, batchUpdateO, h2, refill_reads h.randomSite]
        cases s'.batchUpdate u.toProps with
        | error e => rfl
        | ok t =>
          simp only [ok_bind]
          generalize (if (q ++ r.split.2).isEmpty then addSites c st' t (q ++ r.split.2) else pure (st', q ++ r.split.2) : Py _) = y
          cases y <;> rfl

/-! ### serial runs -/

/-- A sweep with the answers. -/
inductive SweepR (w : Writer σ) : List Key → σ → SimState → List Resp → σ → SimState → Prop where
  | nil (st : σ) (s : SimState) : SweepR w [] st s [] st s
  | cons {i : Key} {ids : List Key} {st st1 st2 : σ} {s s1 s2 : SimState} {r : Resp} {rs : List Resp} :
      w.update st i s = .ok (st1, s1, r) → SweepR w ids st1 s1 rs st2 s2 → SweepR w (i :: ids) st s (r :: rs) st2 s2

theorem SweepR.sweep {w : Writer σ} {ids : List Key} {st st' : σ} {s s' : SimState} {rs : List Resp}
    (h : SweepR w ids st s rs st' s') : Sweep w ids st s st' s' := by
  induction h with
  | nil st s => exact .nil st s
  | cons h1 _ ih => exact .cons h1 ih

theorem writer_stepBatch_ok {w : Writer σ} {ids : List Key} {st st' : σ} {s s' : SimState} {u : Option Upd}
    (h : w.stepBatch st ids s = .ok (st', s', u)) :
    ∃ rs, SweepR w ids st s rs st' s' ∧ mergeAll none (ids.zip rs) = .ok u := by
  unfold Writer.stepBatch at h
  generalize (none : Option Upd) = acc at h
  induction ids generalizing st s acc with
  | nil =>
    simp [pure, Except.pure] at h
    obtain ⟨rfl, rfl, rfl⟩ := h
    exact ⟨[], .nil _ _, rfl⟩
  | cons i ids ih =>
    rw [List.foldlM_cons] at h
    obtain ⟨⟨st1, s1, acc1⟩, h1, h2⟩ := bind_ok h
    obtain ⟨⟨st2, s2, r⟩, h3, h4⟩ := bind_ok h1
    obtain ⟨b, h5, h6⟩ := bind_ok h4
    simp [pure, Except.pure] at h6
    obtain ⟨rfl, rfl, rfl⟩ := h6
    obtain ⟨rs, h7, h8⟩ := ih b h2
    refine ⟨r :: rs, .cons h3 h7, ?_⟩
    simp only at h5
    simp only [mergeAll, List.zip_cons_cons, List.foldlM_cons, h5, ok_bind]
    exact h8

/-- The serial loop as a chain of steps. -/
inductive WChain (w : Writer σ) : Nat → σ → SimState → List (Option Props) → σ → SimState → Prop
  | zero (st : σ) (s : SimState) : WChain w 0 st s [] st s
  | succ {n : Nat} {st st1 st2 : σ} {s s1 s2 s3 : SimState} {u : Option Upd} {ds : List (Option Props)} :
      w.takeStep st s = .ok (st1, s1, u) → s1.batchUpdateO (u.map Upd.toProps) = .ok s2 →
      WChain w n st1 s2 ds st2 s3 → WChain w (n + 1) st s (u.map Upd.toProps :: ds) st2 s3

theorem writer_syncLoop_ok {w : Writer σ} {n : Nat} {st st' : σ} {s s' : SimState} {res res' : SimResult}
    (h : w.syncLoop n st s res = .ok (st', s', res')) :
    ∃ ds, WChain w n st s ds st' s' ∧ res' = { res with diffs := res.diffs ++ ds } := by
  induction n generalizing st s res with
  | zero =>
    simp [Writer.syncLoop] at h
    obtain ⟨rfl, rfl, rfl⟩ := h
    exact ⟨[], .zero _ _, by simp⟩
  | succ n ih =>
    rw [Writer.syncLoop] at h
    obtain ⟨⟨st1, s1, u⟩, h1, h2⟩ := bind_ok h
    obtain ⟨s2, h3, h4⟩ := bind_ok h2
    obtain ⟨ds, h5, h6⟩ := ih h4
    exact ⟨_, .succ h1 h3 h5, by simp [h6, SimResult.addStep]⟩

theorem writer_runSync_ok {w : Writer σ} (hp : ∀ st s st' s', w.preRun st s = .ok (st', s') → s' = s) {st st' : σ} {s0 : SimState}
    {n : Nat} {res : SimResult} (h : w.runSync st s0 n = .ok (st', res)) :
    ∃ st1 live ds, w.preRun st s0 = .ok (st1, s0) ∧ WChain w n st1 s0 ds st' live ∧ res = ⟨s0, ds, [], some live⟩ := by
  unfold Writer.runSync at h
  obtain ⟨⟨st1, s1⟩, h1, h2⟩ := bind_ok h
  obtain ⟨⟨st2, live, res2⟩, h3, h4⟩ := bind_ok h2
  have := hp _ _ _ _ h1
  subst this
  obtain ⟨ds, h5, h6⟩ := writer_syncLoop_ok h3
  simp [pure, Except.pure] at h4
  obtain ⟨rfl, rfl⟩ := h4
  exact ⟨st1, live, ds, h1, h5, by simp [h6, SimResult.setOutput, SimResult.new, copy]⟩

theorem answers_body {i : Key} {r : Resp} {p : Option Props} (h : Answers i r p) : body r = r := by cases h <;> rfl

/-- Carrying out an answer about one's own site is `set_site_state`. -/
theorem carriedOut_own {i : Key} {r : Resp} {p : Option Props} {s s' : SimState} (ha : Answers i r p) (h : CarriedOut i r s s') :
    s' = setSitesP s (patches [(i, p)]) ∧ ∀ q, p = some q → (Val.dict q).WF := by
  have hb := answers_body ha
  rcases carriedOut_merge h with ⟨_, h1, rfl⟩ | ⟨u, h1, h0, h2, _, _, h5⟩
  · rw [hb] at h1
    subst h1
    cases ha
    exact ⟨rfl, fun q e => by cases e⟩
  · rw [hb] at h0 h1
    rw [mergeResp_answers ha] at h1
    cases p with
    | none => cases h1
    | some q =>
      simp only [addAns, Option.getD_none, Upd.empty, Except.ok.injEq, Option.some.injEq] at h1
      subst h1
      exact ⟨h5 rfl, fun q' e => by cases e; exact h2.entry (kv := (i, .dict q)) (by simp [Dict.set])⟩

theorem patches_append (l m : List (Key × Option Props)) : patches (l ++ m) = patches l ++ patches m := by
  simp [patches]

theorem setSitesP_append (s : SimState) (d e : Props) : setSitesP s (d ++ e) = setSitesP (setSitesP s d) e := by
  simp [setSitesP]

/-- A sweep of a rule that carries out its answers about its own site. -/
theorem sweepR_own {w : Writer σ} {c : Controller σ} (hw : CarriesOut w c) (ho : OwnSite w) {ids : List Key} {st st' : σ}
    {s s' : SimState} {rs : List Resp} (h : SweepR w ids st s rs st' s') :
    ∃ m, AnswersAll (ids.zip rs) m ∧ s' = setSitesP s (patches m) ∧ ∀ i p, (i, some p) ∈ m → (Val.dict p).WF := by
  induction h with
  | nil st s => exact ⟨[], .nil, rfl, by simp⟩
  | @cons i ids st st1 st2 s s1 s2 r rs h1 _ ih =>
    obtain ⟨m, h2, h3, h4⟩ := ih
    obtain ⟨p, hp⟩ := ho _ _ _ _ _ _ h1
    have hc := hw.update st i s
    cases hcu : c.update st i s with
    | error e => rw [hcu] at hc; simp only at hc; rw [hc] at h1; cases h1
    | ok x =>
      obtain ⟨st1', r'⟩ := x
      rw [hcu] at hc
      obtain ⟨s1', hc1, hc2⟩ := hc
      rw [hc1] at h1; cases h1
      obtain ⟨h5, h6⟩ := carriedOut_own hp hc2
      refine ⟨(i, p) :: m, .cons hp h2, ?_, ?_⟩
      · rw [h3, h5, ← setSitesP_append, ← patches_append]; rfl
      · intro j q hm
        rcases List.mem_cons.1 hm with e | hm
        · cases e; exact h6 q rfl
        · exact h4 j q hm

theorem keys_setSitesP_mem {s : SimState} {d : Props} (h : ∀ k ∈ Dict.keys d, k ∈ s.siteIds) : (setSitesP s d).siteIds = s.siteIds := by
  induction d generalizing s with
  | nil => rfl
  | cons p d ih =>
    have h1 : (setSiteState s p.1 (dictOf p.2)).siteIds = s.siteIds := by
      show Dict.keys (Dict.set _ _ _) = _
      exact Dict.keys_set_of_mem _ (h p.1 (by simp))
    rw [setSitesP_cons, ih (by rw [h1]; exact fun k hk => h k (by simp [hk])), h1]

/-- One serial step of such a rule: the recorded update leads from the state before the step to the state after it. -/
theorem writer_step_own {w : Writer σ} {c : Controller σ} (hw : CarriesOut w c) (ho : OwnSite w) {st st1 : σ} {s s1 s2 : SimState}
    {u : Option Upd} (hn : s.siteIds.Nodup) (h1 : w.takeStep st s = .ok (st1, s1, u))
    (h2 : s1.batchUpdateO (u.map Upd.toProps) = .ok s2) :
    s2 = s1 ∧ s.batchUpdateO (u.map Upd.toProps) = .ok s1 ∧ Sweep w s.siteIds st s st1 s1 ∧ s1.siteIds = s.siteIds := by
  obtain ⟨rs, h3, h4⟩ := writer_stepBatch_ok h1
  obtain ⟨m, h5, h6, h7⟩ := sweepR_own hw ho h3
  have hlen : rs.length = s.siteIds.length := by
    clear h4 h5 h6 h7 h1 h2 hn
    generalize s.siteIds = ids at h3
    induction h3 with
    | nil => rfl
    | cons _ _ ih => simp [ih]
  have hz : (s.siteIds.zip rs).map Prod.fst = s.siteIds := by rw [List.map_fst_zip]; omega
  have hm : m.map Prod.fst = s.siteIds := by rw [h5.keys, hz]
  rw [mergeAll_answers h5 (by rw [hz]; exact hn) none (by simp [Upd.empty])] at h4
  have hids : s1.siteIds = s.siteIds := by
    rw [h6]; exact keys_setSitesP_mem fun k hk => hm ▸ keys_patches_subset m k hk
  have hpw : (Val.dict (patches m)).WF := wf_patches (by rw [hm]; exact hn) h7
  have hu : u = none ∨ u = some ⟨patches m, []⟩ := by
    cases hp : patches m with
    | nil => rw [hp] at h4; left; simpa using h4.symm
    | cons p ps => rw [hp] at h4; right; simpa [Upd.empty] using h4.symm
  rcases hu with rfl | rfl
  · cases h2
  · simp only [Option.map_some, batchUpdateO] at h2 ⊢
    obtain ⟨g1, e1, _, e2⟩ := batchUpdate_toProps_ok h2
    have hg : s.general = some g1 := by rw [← e1, h6]; simp
    have h8 : s.batchUpdate (Upd.toProps ⟨patches m, []⟩) = .ok s1 := by
      rw [batchUpdate_toProps_of hg (patches_dicts m)]
      congr 1
      rw [h6]
      exact ext' rfl (by simp [hg])
    have h9 := batch_again (u := ⟨patches m, []⟩) hpw (.dict Dict.WF.nil (by simp)) h8
    rw [h9] at h2
    cases h2
    exact ⟨rfl, h8, h3.sweep, hids⟩

/-- C130 (serial): a rule that carries out its own answer on the state it is shown, and answers about the site it is asked
about, is not applied simultaneously any more: every step is a sweep in which later sites see the new states of earlier ones.
The recorded history is still the real one: `get_step(k)` is the state after `k` sweeps, and the output is the last of them. -/
theorem C130_serial_carries_out {w : Writer σ} {c : Controller σ} (hw : CarriesOut w c) (ho : OwnSite w)
    (hp : ∀ st s st' s', w.preRun st s = .ok (st', s') → s' = s) {st st' : σ} {s0 : SimState} (hs : s0.siteIds.Nodup) {n : Nat}
    {res : SimResult} (h : w.runSync st s0 n = .ok (st', res)) :
    ∃ st1 l, w.preRun st s0 = .ok (st1, s0) ∧ Sweeps w l st1 s0 ∧ l.length = n + 1 ∧
      (∀ (k : Nat) (s : SimState), l[k]? = some s → res.getStep k = .ok s) ∧ res.output = l[n]? := by
  obtain ⟨st1, live, ds, h1, h2, rfl⟩ := writer_runSync_ok hp h
  refine ⟨st1, ?_⟩
  suffices ∃ l, Sweeps w l st1 s0 ∧ l.length = n + 1 ∧
      (∀ (k : Nat) (s : SimState), l[k]? = some s → SimResult.replayTo s0 ds k = .ok s) ∧ some live = l[n]? by
    obtain ⟨l, g1, g2, g3, g4⟩ := this
    exact ⟨l, h1, g1, g2, fun k s hk => by simpa [SimResult.getStep, copy, Dict.get?] using g3 k s hk, g4⟩
  clear h h1
  induction h2 with
  | zero st s => exact ⟨[s], .one st s, rfl, fun k t hk => by
      cases k with
      | zero => simp at hk; subst hk; rfl
      | succ k => simp at hk, rfl⟩
  | @succ n st st1 st2 s s1 s2 s3 u ds h1 h2 _ ih =>
    obtain ⟨rfl, g1, g2, g3⟩ := writer_step_own hw ho hs h1 h2
    obtain ⟨l, g4, g5, g6, g7⟩ := ih (by rw [g3]; exact hs)
    refine ⟨s :: l, .more g2 g4, by simp [g5], fun k t hk => ?_, by simpa using g7⟩
    cases k with
    | zero => simp at hk; subst hk; simp
    | succ k =>
      rw [SimResult.replayTo_cons, g1, ok_bind]
      exact g6 k t (by simpa using hk)

/-- C130: what a rule writes without answering it is not recorded.  If the rule answers `{}` everywhere and adds no sites, the
history is constant, whatever the rule writes and whatever the output is. -/
theorem C130_unrecorded {w : Writer σ} (hw : ∀ st i s st' s' r, w.update st i s = .ok (st', s', r) → r = .dict [] ∧ s'.siteIds = s.siteIds)
    (hp : ∀ st s st' s', w.preRun st s = .ok (st', s') → s' = s) {st st' : σ} {s0 : SimState} (hg : s0.general ≠ none)
    (hs : s0.siteIds.Nodup) {n : Nat} {res : SimResult} (h : w.runSync st s0 n = .ok (st', res)) (k : Nat) (hk : k ≤ n) :
    res.getStep k = .ok s0 := by
  obtain ⟨st1, live, ds, h1, h2, rfl⟩ := writer_runSync_ok hp h
  show SimResult.replayTo s0 ds _ = _
  simp only [Int.toNat_natCast]
  clear h h1 hp
  have key : ∀ {n : Nat} {st st' : σ} {s s' : SimState} {ds : List (Option Props)}, WChain w n st s ds st' s' → s.siteIds = s0.siteIds →
      ∀ k ≤ n, SimResult.replayTo s0 ds k = .ok s0 := by
    intro n st st' s s' ds h
    induction h with
    | zero st s => intro _ k hk; obtain rfl : k = 0 := by omega
                   rfl
    | @succ n st st1 st2 s s1 s2 s3 u ds h1 h2 _ ih =>
      intro hids k hk
      obtain ⟨rs, h3, h4⟩ := writer_stepBatch_ok h1
      have hans : AnswersAll (s.siteIds.zip rs) (s.siteIds.map fun i => (i, some [])) ∧ s1.siteIds = s.siteIds := by
        clear h4 h1 h2 hids
        generalize he : s.siteIds = ids at h3 ⊢
        have hgen : ∀ {ids : List Key} {st st' : σ} {s s' : SimState} {rs : List Resp}, SweepR w ids st s rs st' s' →
            AnswersAll (ids.zip rs) (ids.map fun i => (i, some [])) ∧ s'.siteIds = s.siteIds := by
          intro ids st st' s s' rs h
          induction h with
          | nil st s => exact ⟨.nil, rfl⟩
          | cons g1 _ gih =>
            obtain ⟨rfl, g2⟩ := hw _ _ _ _ _ _ g1
            exact ⟨.cons (.patch [] ⟨by simp, by simp, Or.inl rfl⟩) gih.1, gih.2.trans g2⟩
        exact ⟨(hgen h3).1, he ▸ (hgen h3).2⟩
      cases k with
      | zero => simp
      | succ k =>
        have hz : (s.siteIds.zip rs).map Prod.fst = s.siteIds := by rw [← hans.1.keys]; simp [Function.comp_def]
        rw [mergeAll_answers hans.1 (by rw [hz, hids]; exact hs) none (by simp [Upd.empty])] at h4
        set m := s.siteIds.map fun i => (i, (some [] : Option Props)) with hm
        have hu : u = none ∨ u = some ⟨patches m, []⟩ := by
          cases hp : patches m with
          | nil => rw [hp] at h4; left; simpa using h4.symm
          | cons p ps => rw [hp] at h4; right; simpa [Upd.empty] using h4.symm
        rcases hu with rfl | rfl
        · cases h2
        · have hids2 : s2.siteIds = s0.siteIds := by
            obtain ⟨g1, e1, _, e2⟩ := batchUpdate_toProps_ok (u := ⟨patches m, []⟩) h2
            rw [e2]
            show (setSitesP s1 (patches m)).siteIds = _
            rw [keys_setSitesP_mem, hans.2, hids]
            intro k hk
            have := keys_patches_subset m k hk
            rw [hans.2]; simpa [hm] using this
          obtain ⟨g, hg⟩ := Option.ne_none_iff_exists'.1 hg
          have hsame : s0.batchUpdate (Upd.toProps ⟨patches m, []⟩) = .ok s0 := by
            rw [batchUpdate_toProps_of hg (patches_dicts m)]
            congr 1
            have : setSitesP s0 (patches m) = s0 := by
              refine setSitesP_present fun p hp => ?_
              obtain ⟨q, hq, he⟩ := List.mem_filterMap.1 hp
              rw [hm] at hq
              obtain ⟨i, hi, rfl⟩ := List.mem_map.1 hq
              simp at he
              subst he
              rw [hids] at hi
              obtain ⟨o, ho⟩ := Option.isSome_iff_exists.1 (Dict.get?_isSome_iff.2 hi)
              exact ⟨o, ho, rfl⟩
            rw [this]
            exact ext' rfl (by simp [hg])
          have hsame' : s0.batchUpdateO (some (Upd.toProps ⟨patches m, []⟩)) = .ok s0 := hsame
          rw [Option.map_some, SimResult.replayTo_cons, hsame', ok_bind]
          exact ih hids2 k (by omega)
  exact key h2 rfl k hk

/-! ### examples and failures -/

/-- The number `x` at a site (0 if there is none). -/
def xAt (s : SimState) (i : Key) : Rat :=
  match (s.getSiteState i).bind fun d => Dict.get? d (.str "x") with
  | some (.num q) => q
  | _ => 0

/-- The other of two sites. -/
def otherSite (i : Key) : Key := if i = .int 0 then .int 1 else .int 0

/-- Take over the value of the other site. -/
def swapAnswer (i : Key) (s : SimState) : Props := [(.str "x", .num (xAt s (otherSite i)))]
def swapRule : Controller Unit := ofRule fun i s => .dict (swapAnswer i s)

/-- The same, written into the state as well. -/
def swapWriter : Writer Unit where
  update _ i s := .ok ((), s.setSiteState i (swapAnswer i s), .dict (swapAnswer i s))
  randomSite _ s := .ok ((), s, .many [.int 0, .int 1])

theorem swap_patch (i : Key) (s : SimState) : IsPatch (swapAnswer i s) :=
  ⟨by simp [swapAnswer, SITES], by simp [swapAnswer, GENERAL], Or.inr ⟨"x", by simp [swapAnswer]⟩⟩

theorem swap_wf (i : Key) (s : SimState) : (Val.dict (swapAnswer i s)).WF :=
  .dict (by simp [swapAnswer, Dict.WF]) (by simp only [swapAnswer, List.mem_singleton, forall_eq]; exact .num _)

theorem swap_carriesOut : CarriesOut swapWriter { swapRule with randomSite := fun _ _ => .ok ((), .many [.int 0, .int 1]) } where
  update _ i s := ⟨_, rfl, Or.inr ⟨[(i, .dict (swapAnswer i s))], [], s.setSiteState i (swapAnswer i s), by simp [body],
    .patch _ (swap_patch i s), .dict (by simp [Dict.WF]) (by simp only [List.mem_singleton, forall_eq]; exact swap_wf i s),
    .dict Dict.WF.nil (by simp), rfl, Or.inl ⟨rfl, rfl⟩⟩⟩
  randomSite _ _ := rfl
  preRun := rfl

theorem swap_ownSite : OwnSite swapWriter := by
  intro st i s st' s' r h
  cases h
  exact ⟨_, .patch _ (swap_patch i s)⟩

/-- Two sites with `x` = `a` and `b`, in the given order. -/
def twoCells (i j : Int) (a b : Rat) : SimState :=
  ⟨[(.int i, [(.str "x", .num a)]), (.int j, [(.str "x", .num b)])], some []⟩

/-- A serial run of the writing rule: both sites end with the value of site 1. -/
example : (swapWriter.runSync () (twoCells 0 1 1 2) 1).toOption.bind (fun x => x.2.output) = some (twoCells 0 1 2 2) := by
  decide +kernel

/-- `C130_serial_carries_out` for two steps of this run. -/
example : ∃ st' res, swapWriter.runSync () (twoCells 0 1 1 2) 2 = .ok (st', res) ∧ res.getStep 1 = .ok (twoCells 0 1 2 2) := by
  refine ⟨_, _, rfl, ?_⟩
  decide +kernel

/-- An asynchronous run of the writing rule that succeeds. -/
example : (swapWriter.runAsync () (twoCells 0 1 1 2) 1).toOption.isSome = true := by decide +kernel

/-- C130: in a serial run, writing the answer into the state makes a difference: the rule that only answers swaps the two
values, the rule that also writes does not (C13 fails for it). -/
theorem C130_not_simultaneous : ∃ (w : Writer Unit) (c : Controller Unit) (s0 : SimState), CarriesOut w c ∧ OwnSite w ∧
    ∃ r r', w.runSync () s0 1 = .ok ((), r) ∧ runSync c () s0 1 = .ok ((), r') ∧ r.output ≠ r'.output := by
  refine ⟨swapWriter, _, twoCells 0 1 1 2, swap_carriesOut, swap_ownSite, _, _, rfl, rfl, ?_⟩
  decide +kernel

/-- C130: and the result of a serial run depends on the order in which the sites were added to the state (C14 fails). -/
theorem C130_order_dependent : ∃ (w : Writer Unit) (c : Controller Unit) (s s' : SimState), CarriesOut w c ∧ OwnSite w ∧ s.Eqv s' ∧
    ∃ r r' o o', w.runSync () s 1 = .ok ((), r) ∧ w.runSync () s' 1 = .ok ((), r') ∧ r.output = some o ∧ r'.output = some o' ∧
      xAt o (.int 0) ≠ xAt o' (.int 0) := by
  refine ⟨swapWriter, _, twoCells 0 1 1 2, twoCells 1 0 2 1, swap_carriesOut, swap_ownSite, ⟨?_, ?_⟩, _, _, _, _, rfl, rfl, rfl, rfl, ?_⟩
  · refine Dict.EqvBy.of_perm (fun d => Dict.EqvBy.refl Val.PyEq.refl d) ?_ ?_
    · simp [Dict.WF, twoCells, Dict.keys]
    · exact List.Perm.swap _ _ _
  · exact Dict.EqvBy.refl Val.PyEq.refl _
  · decide +kernel

/-- A rule that counts up in place and answers `{}`. -/
def countWriter : Writer Unit where
  update _ i s := .ok ((), if i ∈ s.siteIds then s.setSiteState i [(.str "x", .num (xAt s i + 1))] else s, .dict [])

theorem count_silent (st : Unit) (i : Key) (s : SimState) (st' : Unit) (s' : SimState) (r : Resp)
    (h : countWriter.update st i s = .ok (st', s', r)) : r = .dict [] ∧ s'.siteIds = s.siteIds := by
  cases h
  refine ⟨rfl, ?_⟩
  split_ifs with hi
  · exact Dict.keys_set_of_mem _ hi
  · rfl

/-- C130: such writes make the recorded history wrong: the last recorded step is not the output (C15 fails). -/
theorem C130_history_false : ∃ (w : Writer Unit) (s0 : SimState) (r : SimResult), w.runSync () s0 3 = .ok ((), r) ∧
    r.output = some (twoCells 0 1 4 5) ∧ r.lastStep = .ok (twoCells 0 1 1 2) := by
  refine ⟨countWriter, twoCells 0 1 1 2, _, rfl, ?_, ?_⟩ <;> decide +kernel

/-- The hypotheses of `C130_unrecorded` hold for it. -/
example (r : SimResult) (h : countWriter.runSync () (twoCells 0 1 1 2) 3 = .ok ((), r)) : r.getStep 2 = .ok (twoCells 0 1 1 2) :=
  C130_unrecorded count_silent (fun _ _ _ _ h => by cases h; rfl) (by simp [twoCells]) (by simp [twoCells, siteIds, Dict.keys]) h 2
    (by omega)

/-- `C130_only_reads` for the rule that only answers. -/
example : OnlyReads { update := fun _ i s => .ok ((), s, .dict (swapAnswer i s)) } swapRule where
  update _ _ _ := rfl
  randomSite _ _ := rfl
  preRun := rfl

end Pyl
