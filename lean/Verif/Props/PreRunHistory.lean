import Verif.Props.Async
import Verif.Props.Result
import Verif.Props.Parallel
import Verif.Props.Continue
/-
C15 for controllers whose `pre_run` hook changes the state: what is recorded is the history from the state after the hook, kept as changes.
Also C18 with one worker, C20 for parallel runs and C28, for such controllers.
-/
set_option autoImplicit false

namespace Pyl
open SimState Spec
variable {σ : Type}

/-- C15 (asynchronous, any `pre_run`): the rule is shown, at its `k`-th application, the state after the hook with the first `k` recorded changes made; `output` is the state after
the hook with all of them made; `get_step(k)` is the state as it was given with the first `k` of them made. -/
theorem C15_async_any (c : Controller σ) (st : σ) (s0 : SimState) (n : Nat) (a : AsyncSt (σ × List Ev)) (h : runAsync (traced c) (st, []) s0 n = .ok a) :
    ∃ st1 s1 out, c.preRun st s0 = .ok (st1, s1) ∧ a.res.len = (visits a.st.2).length + 1 ∧
      (∀ (k : Nat) (i : Key) (s : SimState) (r : Resp), (visits a.st.2)[k]? = some (i, s, r) → stepState s1 a.res.diffs k = .ok s) ∧
      a.res.output = some out ∧ stepState s1 a.res.diffs a.res.diffs.length = .ok out ∧
      ∀ k : Nat, k ≤ a.res.diffs.length → a.res.getStep k = stepState s0 a.res.diffs k := by
  obtain ⟨st1, s1, h1, hi, h2, h3, h4, -⟩ := runAsync_from h
  refine ⟨st1, s1, a.live, h1, by simp [SimResult.len, hi.count], fun k i s r hk => ?_, h4, ?_, fun k hk => ?_⟩
  · have hk' : k ≤ a.res.diffs.length := by
      rw [← hi.count]
      obtain ⟨h, -⟩ := List.getElem?_eq_some_iff.1 hk
      omega
    rw [SimResult.stepState_eq _ _ _ hk']
    exact hi.shown k i s r hk
  · rw [SimResult.stepState_eq _ _ _ le_rfl, SimResult.replayTo_length, hi.replay]
  · rw [SimResult.stepState_eq _ _ _ hk]
    simp [SimResult.getStep, h3, Dict.get?, copy, h2]

/-- C15 (serial, any `pre_run`): the rule is shown, in step `k`, the state after the hook with the first `k` recorded changes made; `output` is the state after the hook with all
`n` of them made; `get_step(k)` is the state as it was given with the first `k` of them made. -/
theorem C15_serial_any (c : Controller σ) (st st' : σ) (s0 : SimState) (n : Nat) (res : SimResult) (log : List (Key × SimState))
    (h : runSync (logged c) (st, []) s0 n = .ok ((st', log), res)) :
    ∃ st1 s1, c.preRun st s0 = .ok (st1, s1) ∧ res.len = n + 1 ∧
      (∃ states : List SimState, states.length = n + 1 ∧ (∀ k (hk : k < states.length), stepState s1 res.diffs k = .ok states[k]) ∧
        states[n]? = res.output ∧ log = callsOf (states.take n)) ∧
      ∀ k : Nat, k ≤ n → res.getStep k = stepState s0 res.diffs k := by
  unfold runSync at h
  obtain ⟨⟨⟨st1, l1⟩, s1⟩, h1, h2⟩ := bind_ok h
  obtain ⟨⟨⟨st2, l2⟩, live, res1⟩, h3, h4⟩ := bind_ok h2
  obtain ⟨ds, hc, hr⟩ := syncLoop_ok h3
  simp only [logged] at h1
  obtain ⟨⟨a, b⟩, h5, h6⟩ := bind_ok h1
  simp only [pure, Except.pure, Except.ok.injEq, Prod.mk.injEq] at h6 h4
  obtain ⟨⟨rfl, rfl⟩, rfl⟩ := h6
  obtain ⟨⟨rfl, rfl⟩, rfl⟩ := h4
  obtain ⟨-, states, g1, g2, g3, g4⟩ := syncChain_logged hc
  have hlen := hc.length
  subst hr
  have hd : ((SimResult.new s0.copy).diffs ++ ds) = ds := by simp [SimResult.new]
  refine ⟨a, b, h5, by simp [SimResult.len, SimResult.setOutput, SimResult.new, hlen], ⟨states, g1, fun k hk => ?_, ?_, by simpa using g4⟩, fun k hk => ?_⟩
  · rw [SimResult.stepState_eq _ _ _ (by simp [SimResult.setOutput, SimResult.new]; omega)]
    simpa [SimResult.setOutput, SimResult.new, copy] using g2 k hk
  · simpa [SimResult.setOutput] using g3
  · rw [SimResult.stepState_eq _ _ _ (by simp [SimResult.setOutput, SimResult.new]; omega)]
    simp [SimResult.getStep, SimResult.setOutput, SimResult.new, copy]

theorem replayTo_ok_le {s t : SimState} {ds : List (Option Props)} {k : Nat} (h : SimResult.replayTo s ds k = .ok t) : k ≤ ds.length := by
  induction ds generalizing s k with
  | nil => cases k with
    | zero => simp
    | succ k => simp [SimResult.replayTo] at h
  | cons d ds ih => cases k with
    | zero => simp
    | succ k =>
      simp only [SimResult.replayTo] at h
      obtain ⟨s', -, h2⟩ := bind_ok h
      have := ih h2
      simp only [List.length_cons]
      omega

/-- C18 with one worker, for any `pre_run`: if the serial run returns and its states keep the sites of the state after the hook, the parallel run records the same changes
after the same initial state. -/
theorem C18_one_worker_any (c : Controller σ) (fork : Nat → σ → σ) (hfork : ∀ st, fork 0 st = st) (st st1 st' : σ) (s0 s1 : SimState) (hpre : c.preRun st s0 = .ok (st1, s1))
    (hne : s1.siteIds ≠ []) (n : Nat) (sched : Nat → StepSched) (hv : ∀ k, k < n → (sched k).Valid 1 1) (res : SimResult) (hser : runSync c st s0 n = .ok (st', res))
    (hids : ∀ k sk, k ≤ n → stepState s1 res.diffs k = .ok sk → sk.siteIds = s1.siteIds) :
    ∃ res', runParallel c fork st s0 1 n sched = .ok res' ∧ res'.diffs = res.diffs ∧ res'.initial = res.initial ∧ ∀ k, res'.getStep k = res.getStep k := by
  unfold runSync at hser
  rw [hpre, ok_bind] at hser
  obtain ⟨⟨st2, live, res1⟩, h3, h4⟩ := bind_ok hser
  obtain ⟨ds, hc, hr⟩ := syncLoop_ok h3
  simp only [pure, Except.pure, Except.ok.injEq, Prod.mk.injEq] at h4
  obtain ⟨rfl, rfl⟩ := h4
  subst hr
  have hlen := hc.length
  have hd : (SimResult.setOutput { SimResult.new s0.copy with diffs := (SimResult.new s0.copy).diffs ++ ds } live).diffs = ds := by
    simp [SimResult.setOutput, SimResult.new]
  have := parallelLoop_one c s1.siteIds hne sched n 0 st1 st2 s1 live ds hc (by
      intro j sj hj
      have hj' := replayTo_ok_le hj
      refine hids j sj (by omega) ?_
      rw [hd, SimResult.stepState_eq _ _ _ hj']
      exact hj) (some []) (fun v => ⟨fork v st1, s1⟩) (SimResult.new s0.copy) (hfork st1) rfl
    (fun j _ hj => valid_one (hv j (by omega)))
  refine ⟨⟨s0, ds, [], some s1⟩, ?_, hd.symm, rfl, fun k => ?_⟩
  · simp only [runParallel, hpre, ok_bind]
    rw [if_neg (by omega)]
    have hsz : s1.size = s1.siteIds.length := rfl
    rw [hsz, this]
    simp [SimResult.setOutput, SimResult.new, pure, Except.pure, copy]
  · simp [SimResult.getStep, SimResult.setOutput, SimResult.new, Dict.get?, copy]

/-- C20 for parallel runs, for any `pre_run`: the output is the state after the hook, whatever was computed. -/
theorem C20_parallel_output_any (c : Controller σ) (fork : Nat → σ → σ) (st : σ) (s0 : SimState) (w n : Nat) (sched : Nat → StepSched) (res : SimResult)
    (h : runParallel c fork st s0 w n sched = .ok res) : ∃ st1 s1, c.preRun st s0 = .ok (st1, s1) ∧ res.output = some s1 := by
  unfold runParallel at h
  obtain ⟨⟨st1, s1⟩, h1, h2⟩ := bind_ok h
  refine ⟨st1, s1, h1, ?_⟩
  simp only at h2
  split_ifs at h2
  obtain ⟨r, _, h3⟩ := bind_ok h2
  simp [pure, Except.pure] at h3
  rw [← h3]; rfl

/-- The same controller without the hook. -/
def noHook (c : Controller σ) : Controller σ := { c with preRun := fun st s => .ok (st, s) }

theorem noHook_pure (c : Controller σ) : PreRunPure (noHook c) := by
  intro st s st' s' h
  injection h with h
  injection h with h1 h2
  exact h2.symm

/-- The same run with another state recorded as the first. -/
def startedFrom (t : SimState) (a : AsyncSt σ) : AsyncSt σ := { a with res := { a.res with initial := t } }

theorem addSites_noHook (c : Controller σ) (st : σ) (s : SimState) (q : List Key) : addSites (noHook c) st s q = addSites c st s q := rfl

theorem asyncStep_noHook {c : Controller σ} (t : SimState) {a a' : AsyncSt σ} (h : asyncStep c a = .ok a') :
    asyncStep (noHook c) (startedFrom t a) = .ok (startedFrom t a') := by
  unfold asyncStep at h ⊢
  simp only [startedFrom]
  cases hq : a.queue with
  | nil => rw [hq] at h; cases h
  | cons sid q =>
    rw [hq] at h
    simp only at h ⊢
    obtain ⟨⟨st', r⟩, h1, h⟩ := bind_ok h
    obtain ⟨u, h2, h⟩ := bind_ok h
    obtain ⟨live', h3, h⟩ := bind_ok h
    obtain ⟨⟨st'', q''⟩, h4, h⟩ := bind_ok h
    have h1' : (noHook c).update a.st sid a.live = .ok (st', r) := h1
    rw [h1', ok_bind]
    simp only
    rw [h2, ok_bind, h3, ok_bind]
    simp only [addSites_noHook]
    rw [h4, ok_bind]
    simp only [pure, Except.pure, Except.ok.injEq] at h ⊢
    rw [← h]
    rfl

theorem asyncLoop_noHook {c : Controller σ} (t : SimState) (n : Nat) {a a' : AsyncSt σ} (h : asyncLoop c n a = .ok a') :
    asyncLoop (noHook c) n (startedFrom t a) = .ok (startedFrom t a') := by
  induction n generalizing a with
  | zero =>
    simp only [asyncLoop, Except.ok.injEq] at h ⊢
    rw [h]
  | succ n ih =>
    simp only [asyncLoop] at h ⊢
    obtain ⟨b, h1, h2⟩ := bind_ok h
    rw [asyncStep_noHook t h1, ok_bind]
    have hq : (startedFrom t b).queue = b.queue := rfl
    rw [hq]
    split_ifs at h2 ⊢
    · simp only [pure, Except.pure, Except.ok.injEq] at h2 ⊢
      rw [h2]
    · exact ih h2

/-- C15 (asynchronous): a run with a hook is the run without it from the state the hook leaves; only the state recorded as the first is the one before the hook. -/
theorem C15_async_hook (c : Controller σ) (st : σ) (s0 : SimState) (n : Nat) (a : AsyncSt σ) (h : runAsync c st s0 n = .ok a) :
    ∃ st1 s1, c.preRun st s0 = .ok (st1, s1) ∧ a.res.initial = s0 ∧ runAsync (noHook c) st1 s1 n = .ok (startedFrom s1 a) := by
  unfold runAsync at h
  obtain ⟨⟨st1, s1⟩, h1, h2⟩ := bind_ok h
  obtain ⟨a1, h3, h4⟩ := bind_ok h2
  unfold asyncRunFrom at h3
  obtain ⟨⟨st2, q⟩, h5, h6⟩ := bind_ok h3
  simp only at h6
  split_ifs at h6 with hq
  obtain ⟨a2, h7, h8⟩ := bind_ok h6
  have hi : ∀ (n : Nat) (a a' : AsyncSt σ), asyncLoop c n a = .ok a' → a'.res.initial = a.res.initial := by
    intro n
    induction n with
    | zero => intro a a' h; simp only [asyncLoop, Except.ok.injEq] at h; rw [h]
    | succ n ih =>
      intro a a' h
      simp only [asyncLoop] at h
      obtain ⟨b, g1, g2⟩ := bind_ok h
      have hb : b.res.initial = a.res.initial := by
        have e := asyncStep_noHook a.res.initial g1
        unfold asyncStep at g1
        cases hq : a.queue with
        | nil => rw [hq] at g1; cases g1
        | cons sid q =>
          rw [hq] at g1
          obtain ⟨_, _, g1⟩ := bind_ok g1
          obtain ⟨_, _, g1⟩ := bind_ok g1
          obtain ⟨_, _, g1⟩ := bind_ok g1
          obtain ⟨_, _, g1⟩ := bind_ok g1
          simp only [pure, Except.pure, Except.ok.injEq] at g1
          rw [← g1]; rfl
      split_ifs at g2
      · simp only [pure, Except.pure, Except.ok.injEq] at g2
        rw [← g2, hb]
      · rw [ih _ _ g2, hb]
  have hinit := hi _ _ _ h7
  simp only [pure, Except.pure, Except.ok.injEq] at h8 h4
  subst h8
  subst h4
  refine ⟨st1, s1, h1, hinit, ?_⟩
  have h9 := asyncLoop_noHook s1 n h7
  have hpre : (noHook c).preRun st1 s1 = .ok (st1, s1) := rfl
  simp only [runAsync, hpre, ok_bind, asyncRunFrom, addSites_noHook]
  rw [h5, ok_bind]
  simp only [hq]
  have e : startedFrom s1 (⟨st2, s1.copy, q, SimResult.new s0.copy, []⟩ : AsyncSt σ) = ⟨st2, s1.copy, q, SimResult.new s1.copy, []⟩ := rfl
  rw [e] at h9
  rw [h9]
  rfl

theorem syncLoop_noHook {c : Controller σ} (t : SimState) (n : Nat) {st st' : σ} {s s' : SimState} {res res' : SimResult} (h : syncLoop c n st s res = .ok (st', s', res')) :
    res'.initial = res.initial ∧ syncLoop (noHook c) n st s { res with initial := t } = .ok (st', s', { res' with initial := t }) := by
  induction n generalizing st s res with
  | zero =>
    simp only [syncLoop, Except.ok.injEq, Prod.mk.injEq] at h ⊢
    obtain ⟨rfl, rfl, rfl⟩ := h
    exact ⟨rfl, rfl, rfl, rfl⟩
  | succ n ih =>
    simp only [syncLoop] at h ⊢
    obtain ⟨⟨st1, u⟩, h1, h⟩ := bind_ok h
    obtain ⟨s1, h2, h⟩ := bind_ok h
    obtain ⟨g1, g2⟩ := ih h
    have h1' : takeStep (noHook c) st s = .ok (st1, u) := h1
    rw [h1', ok_bind]
    simp only
    rw [h2, ok_bind]
    exact ⟨g1, g2⟩

/-- C15 (serial): a run with a hook is the run without it from the state the hook leaves; only the state recorded as the first is the one before the hook. -/
theorem C15_serial_hook (c : Controller σ) (st st' : σ) (s0 : SimState) (n : Nat) (res : SimResult) (h : runSync c st s0 n = .ok (st', res)) :
    ∃ st1 s1, c.preRun st s0 = .ok (st1, s1) ∧ res.initial = s0 ∧ runSync (noHook c) st1 s1 n = .ok (st', { res with initial := s1 }) := by
  unfold runSync at h
  obtain ⟨⟨st1, s1⟩, h1, h2⟩ := bind_ok h
  obtain ⟨⟨st2, live, res1⟩, h3, h4⟩ := bind_ok h2
  simp only [pure, Except.pure, Except.ok.injEq, Prod.mk.injEq] at h4
  obtain ⟨rfl, rfl⟩ := h4
  obtain ⟨g1, g2⟩ := syncLoop_noHook s1 n h3
  refine ⟨st1, s1, h1, g1, ?_⟩
  have hpre : (noHook c).preRun st1 s1 = .ok (st1, s1) := rfl
  have e : ({ SimResult.new s0.copy with initial := s1 } : SimResult) = SimResult.new s1.copy := rfl
  rw [e] at g2
  simp only [runSync, hpre, ok_bind]
  rw [g2]
  rfl

theorem runTasks_noHook (c : Controller σ) (bs : List (List Key)) (last : Option Props) (sc : StepSched) (ws : Nat → Worker σ) :
    runTasks (noHook c) bs last sc ws = runTasks c bs last sc ws := by
  induction sc generalizing ws with
  | nil => rfl
  | cons p sc ih =>
    obtain ⟨b, w⟩ := p
    simp only [runTasks, ih]
    rfl

theorem parallelLoop_noHook {c : Controller σ} (t : SimState) (ids : List Key) (chunk : Nat) (sched : Nat → StepSched) (n k : Nat) {last : Option Props} {ws : Nat → Worker σ}
    {res res' : SimResult} (h : parallelLoop c ids chunk sched k n last ws res = .ok res') :
    res'.initial = res.initial ∧ parallelLoop (noHook c) ids chunk sched k n last ws { res with initial := t } = .ok { res' with initial := t } := by
  induction n generalizing k last ws res with
  | zero =>
    simp only [parallelLoop, Except.ok.injEq] at h ⊢
    subst h
    exact ⟨rfl, rfl⟩
  | succ n ih =>
    simp only [parallelLoop] at h ⊢
    obtain ⟨⟨ws1, u⟩, h1, h⟩ := bind_ok h
    obtain ⟨g1, g2⟩ := ih _ h
    have h1' : takeStepParallel (noHook c) ids chunk (sched k) last ws = .ok (ws1, u) := by
      rw [← h1]
      simp only [takeStepParallel, runTasks_noHook]
    rw [h1', ok_bind]
    exact ⟨g1, g2⟩

/-- C15 (parallel): the same for the parallel runner, whatever the workers and the schedule. -/
theorem C15_parallel_hook (c : Controller σ) (fork : Nat → σ → σ) (st : σ) (s0 : SimState) (w n : Nat) (sched : Nat → StepSched) (res : SimResult)
    (h : runParallel c fork st s0 w n sched = .ok res) :
    ∃ st1 s1, c.preRun st s0 = .ok (st1, s1) ∧ res.initial = s0 ∧ runParallel (noHook c) fork st1 s1 w n sched = .ok { res with initial := s1 } := by
  unfold runParallel at h
  obtain ⟨⟨st1, s1⟩, h1, h2⟩ := bind_ok h
  simp only at h2
  split_ifs at h2 with hw
  obtain ⟨r, h3, h4⟩ := bind_ok h2
  simp only [pure, Except.pure, Except.ok.injEq] at h4
  subst h4
  obtain ⟨g1, g2⟩ := parallelLoop_noHook s1 _ _ _ _ _ h3
  refine ⟨st1, s1, h1, g1, ?_⟩
  have hpre : (noHook c).preRun st1 s1 = .ok (st1, s1) := rfl
  have e : ({ SimResult.new s0.copy with initial := s1 } : SimResult) = SimResult.new s1.copy := rfl
  rw [e] at g2
  simp only [runParallel, hpre, ok_bind, hw, if_false]
  rw [g2]
  rfl

theorem map_bind' {α β γ : Type} (x : Py α) (f : α → Py β) (g : β → γ) : (x >>= f).map g = x >>= fun a => (f a).map g := by
  cases x <;> rfl

theorem asyncStep_noHook_eq (c : Controller σ) (t : SimState) (a : AsyncSt σ) : asyncStep (noHook c) (startedFrom t a) = (asyncStep c a).map (startedFrom t) := by
  unfold asyncStep
  simp only [startedFrom]
  cases a.queue with
  | nil => rfl
  | cons sid q =>
    simp only [map_bind', addSites_noHook]
    rfl

theorem asyncLoop_noHook_eq (c : Controller σ) (t : SimState) (n : Nat) (a : AsyncSt σ) :
    asyncLoop (noHook c) n (startedFrom t a) = (asyncLoop c n a).map (startedFrom t) := by
  induction n generalizing a with
  | zero => rfl
  | succ n ih =>
    simp only [asyncLoop]
    rw [asyncStep_noHook_eq]
    cases h : asyncStep c a with
    | error e => rfl
    | ok b =>
      have e1 : (Except.map (startedFrom t) (.ok b : Py (AsyncSt σ))) = .ok (startedFrom t b) := rfl
      rw [e1, ok_bind, ok_bind]
      have hq : (startedFrom t b).queue = b.queue := rfl
      rw [hq]
      split_ifs
      · rfl
      · exact ih b

/-- C15 (asynchronous), the exceptions included: a run is the hook followed by the run without it from the state the hook leaves, with the state before the hook as the first. -/
theorem C15_async_hook_eq (c : Controller σ) (st : σ) (s0 : SimState) (n : Nat) :
    runAsync c st s0 n = c.preRun st s0 >>= fun p => (runAsync (noHook c) p.1 p.2 n).map (startedFrom s0) := by
  unfold runAsync
  cases h : c.preRun st s0 with
  | error e => rfl
  | ok p =>
    obtain ⟨st1, s1⟩ := p
    have hpre : (noHook c).preRun st1 s1 = .ok (st1, s1) := rfl
    simp only [ok_bind, hpre, asyncRunFrom, addSites_noHook, map_bind']
    cases h5 : addSites c st1 s1.copy [] with
    | error e => rfl
    | ok p =>
      obtain ⟨st2, q⟩ := p
      simp only [ok_bind]
      split_ifs
      · rfl
      · have e := asyncLoop_noHook_eq c s1 n ⟨st2, s1.copy, q, SimResult.new s0.copy, []⟩
        have e' : startedFrom s1 (⟨st2, s1.copy, q, SimResult.new s0.copy, []⟩ : AsyncSt σ) = ⟨st2, s1.copy, q, SimResult.new s1.copy, []⟩ := rfl
        rw [e'] at e
        rw [e]
        cases h7 : asyncLoop c n ⟨st2, s1.copy, q, SimResult.new s0.copy, []⟩ with
        | error e => rfl
        | ok b =>
          have hi : b.res.initial = s0 := (asyncLoop_grows n h7).1
          obtain ⟨bs, bl, bq, br, bt⟩ := b
          obtain ⟨r1, r2, r3, r4⟩ := br
          simp only at hi
          subst hi
          rfl

/-- C15 (serial), the exceptions included. -/
theorem C15_serial_hook_eq (c : Controller σ) (st : σ) (s0 : SimState) (n : Nat) :
    runSync c st s0 n = c.preRun st s0 >>= fun p => (runSync (noHook c) p.1 p.2 n).map fun r => (r.1, { r.2 with initial := s0 }) := by
  unfold runSync
  cases h : c.preRun st s0 with
  | error e => rfl
  | ok p =>
    obtain ⟨st1, s1⟩ := p
    have hpre : (noHook c).preRun st1 s1 = .ok (st1, s1) := rfl
    have hn : ∀ (n : Nat) st s res, syncLoop (noHook c) n st s res = syncLoop c n st s res := by
      intro n
      induction n with
      | zero => intros; rfl
      | succ n ih =>
        intro st s res
        simp only [syncLoop, ih]
        rfl
    simp only [ok_bind, hpre, hn]
    cases h7 : syncLoop c n st1 s1.copy (SimResult.new s0.copy) with
    | error e =>
      rw [syncLoop_error h7]
      rfl
    | ok q =>
      obtain ⟨st2, live, res⟩ := q
      obtain ⟨g1, g2⟩ := syncLoop_noHook s1 n h7
      rw [hn] at g2
      have e : ({ SimResult.new s0.copy with initial := s1 } : SimResult) = SimResult.new s1.copy := rfl
      rw [e] at g2
      rw [g2]
      have g1 : res.initial = s0 := g1
      obtain ⟨r1, r2, r3, r4⟩ := res
      simp only at g1
      subst g1
      rfl

theorem parallelLoop_error {c : Controller σ} (ids : List Key) (chunk : Nat) (sched : Nat → StepSched) (n k : Nat) {last : Option Props} {ws : Nat → Worker σ}
    {res res' : SimResult} {e : Err} (h : parallelLoop c ids chunk sched k n last ws res = .error e) : parallelLoop c ids chunk sched k n last ws res' = .error e := by
  induction n generalizing k last ws res res' with
  | zero => simp [parallelLoop] at h
  | succ n ih =>
    simp only [parallelLoop] at h ⊢
    cases h1 : takeStepParallel c ids chunk (sched k) last ws with
    | error e' => rw [h1] at h; exact h
    | ok p =>
      rw [h1, ok_bind] at h
      rw [ok_bind]
      exact ih _ h

/-- C15 (parallel), the exceptions included. -/
theorem C15_parallel_hook_eq (c : Controller σ) (fork : Nat → σ → σ) (st : σ) (s0 : SimState) (w n : Nat) (sched : Nat → StepSched) :
    runParallel c fork st s0 w n sched =
      c.preRun st s0 >>= fun p => (runParallel (noHook c) fork p.1 p.2 w n sched).map fun r => { r with initial := s0 } := by
  unfold runParallel
  cases h : c.preRun st s0 with
  | error e => rfl
  | ok p =>
    obtain ⟨st1, s1⟩ := p
    have hpre : (noHook c).preRun st1 s1 = .ok (st1, s1) := rfl
    have hn : ∀ (n k : Nat) last ws res, parallelLoop (noHook c) s1.siteIds (chunkSize s1.size w) sched k n last ws res =
        parallelLoop c s1.siteIds (chunkSize s1.size w) sched k n last ws res := by
      intro n
      induction n with
      | zero => intros; rfl
      | succ n ih =>
        intro k last ws res
        simp only [parallelLoop, ih, takeStepParallel, runTasks_noHook]
    simp only [ok_bind, hpre, hn]
    split_ifs
    · rfl
    · cases h7 : parallelLoop c s1.siteIds (chunkSize s1.size w) sched 0 n (some []) (fun v => ⟨fork v st1, s1⟩) (SimResult.new s0.copy) with
      | error e =>
        rw [parallelLoop_error _ _ _ _ _ h7]
        rfl
      | ok res =>
        obtain ⟨g1, g2⟩ := parallelLoop_noHook s1 _ _ _ _ _ h7
        rw [hn] at g2
        have e : ({ SimResult.new s0.copy with initial := s1 } : SimResult) = SimResult.new s1.copy := rfl
        rw [e] at g2
        rw [g2]
        have g1 : res.initial = s0 := g1
        obtain ⟨r1, r2, r3, r4⟩ := res
        simp only at g1
        subst g1
        rfl

/-- C28 for any `pre_run`: if every answer of the rule conserves `q`, the output of an asynchronous run has as much of it as the state the hook leaves. -/
theorem C28_conservation_any (q : Key) (c : Controller σ) (st st1 : σ) (s0 s1 : SimState) (hpre : c.preRun st s0 = .ok (st1, s1)) (hs1 : s1.WF)
    (n : Nat) (a : AsyncSt (σ × List Ev)) (h : runAsync (traced c) (st, []) s0 n = .ok a)
    (hc : ∀ (k : Nat) (i : Key) (s : SimState) (r : Resp), (visits a.st.2)[k]? = some (i, s, r) → RespWF (body r) ∧
      ∃ ss gs, Parts i (body r) ss gs ∧ (Val.dict ss).WF ∧ (Val.dict gs).WF ∧ Conserves q s ss) :
    ∃ out, a.res.output = some out ∧ out.WF ∧ total q out = total q s1 := by
  obtain ⟨⟨st2, l2⟩, s2, h1, h2, h3⟩ := C15_async_hook (traced c) _ _ _ _ h
  simp only [traced] at h1
  rw [hpre, ok_bind] at h1
  simp only [pure, Except.pure, Except.ok.injEq, Prod.mk.injEq] at h1
  obtain ⟨⟨rfl, rfl⟩, rfl⟩ := h1
  have h4 : runAsync (traced (noHook c)) (st1, []) s1 n = .ok (startedFrom s1 a) := h3
  obtain ⟨st3, s3, out, g1, g2, -, g4, g5, g6⟩ := C15_async_any (noHook c) st1 s1 n _ h4
  obtain ⟨sk, k1, k2, k3⟩ := C28_conservation q (noHook c) (noHook_pure c) st1 s1 hs1 n _ h4 hc (startedFrom s1 a).res.diffs.length (by simp [SimResult.len])
  have e : s3 = s1 := by
    have : (noHook c).preRun st1 s1 = .ok (st1, s1) := rfl
    rw [this] at g1
    simp only [Except.ok.injEq, Prod.mk.injEq] at g1
    exact g1.2.symm
  subst e
  rw [g6 _ le_rfl, g5] at k1
  injection k1 with k1
  subst k1
  exact ⟨out, g4, k2, k3⟩

/-- A controller whose hook marks site 0 and whose rule writes a counter where it is applied. -/
def hookDemo : Controller Unit where
  update _ _ _ := .ok ((), .dict [(.str "n", .num 1)])
  preRun _ s := .ok ((), s.setSiteState (.int 0) [(.str "a", .num 1)])
  randomSite _ _ := .ok ((), .one 0)

/-! Both runs of the demo complete, and there the state after the hook is not the state as it was given. -/
example : ((runAsync (traced hookDemo) ((), []) ⟨[(.int 0, []), (.int 1, [])], some []⟩ 3).toOption.map (fun a => a.res.len)) = some 4 := by decide
example : ((runSync (logged hookDemo) ((), []) ⟨[(.int 0, []), (.int 1, [])], some []⟩ 3).toOption.map (fun r => (r.2.len, r.1.2.length))) = some (4, 6) := by
  decide
example : hookDemo.preRun () ⟨[(.int 0, []), (.int 1, [])], some []⟩ = .ok ((), ⟨[(.int 0, [(.str "a", .num 1)]), (.int 1, [])], some []⟩) := by decide

example : ((runParallel hookDemo (fun _ st => st) () ⟨[(.int 0, []), (.int 1, [])], some []⟩ 1 2 (fun _ => [(0, 0)])).toOption.map (fun r => (r.diffs.length, r.output))) =
    some (2, some ⟨[(.int 0, [(.str "a", .num 1)]), (.int 1, [])], some []⟩) := by decide
/-! The states of the serial run of the demo keep the two sites, as `C18_one_worker_any` asks, and the schedule is the one possible with one worker. -/
example : ((runSync hookDemo () ⟨[(.int 0, []), (.int 1, [])], some []⟩ 2).toOption.map (fun r => (List.range 3).map
    (fun k => (stepState ⟨[(.int 0, [(.str "a", .num 1)]), (.int 1, [])], some []⟩ r.2.diffs k).toOption.map SimState.siteIds))) =
    some [some [.int 0, .int 1], some [.int 0, .int 1], some [.int 0, .int 1]] := by decide
example : StepSched.Valid 1 1 [(0, 0)] := by refine ⟨?_, ?_⟩ <;> simp

/-- The hop of `hopDemo` with a hook that first gives site 0 ten units. -/
def hookHop : Controller Unit := { hopDemo with preRun := fun _ s => .ok ((), s.setSiteState (.int 0) [(.str "n", .num 10)]) }

/-! The run completes, every answer is the hop (which conserves the amount, see `hopDemo`), and the output has the 12 units of the state after the hook, not the 7 given. -/
example : ((runAsync (traced hookHop) ((), []) ⟨[(.int 0, [(.str "n", .num 5)]), (.int 1, [(.str "n", .num 2)])], some []⟩ 4).toOption.map
    (fun a => (a.res.output.map (total (.str "n")), total (.str "n") a.res.initial, (visits a.st.2).length))) = some (some 12, 7, 4) := by decide +kernel

end Pyl
