import Verif.Props.Writer
import Verif.Props.Parallel
/-
C130, continued: parallel runs of controllers that write into the state they are shown.
-/
set_option linter.unusedSectionVars false
set_option autoImplicit false

namespace Pyl
open SimState Spec
variable {σ : Type}

theorem writer_runTasks_reads {w : Writer σ} {c : Controller σ} (h : OnlyReads w c) (bs : List (List Key)) (last : Option Props)
    (sc : StepSched) : ∀ ws : Nat → Worker σ, w.runTasks bs last sc ws = runTasks c bs last sc ws := by
  induction sc with
  | nil => intro ws; rfl
  | cons p sc ih =>
    intro ws
    obtain ⟨b, v⟩ := p
    have ht : w.workerTask (ws v) (bs.getD b []) last = workerTask c (ws v) (bs.getD b []) last := by
      unfold Writer.workerTask workerTask
      cases (ws v).state.batchUpdateO last with
      | error e => rfl
      | ok s =>
        simp only [ok_bind, writer_stepBatch_reads h]
        cases stepBatch c (ws v).st (bs.getD b []) s <;> rfl
    simp only [Writer.runTasks, runTasks, ht, ih]

/-- C130 (parallel): a controller that writes nothing runs as `Model/Runner.lean` says. -/
theorem C130_parallel_only_reads {w : Writer σ} {c : Controller σ} (h : OnlyReads w c) (fork : Nat → σ → σ) (st : σ) (s0 : SimState)
    (m n : Nat) (sched : Nat → StepSched) : w.runParallel fork st s0 m n sched = runParallel c fork st s0 m n sched := by
  have hloop : ∀ (ids : List Key) (chunk n k : Nat) (last : Option Props) (ws : Nat → Worker σ) (res : SimResult),
      w.parallelLoop ids chunk sched k n last ws res = parallelLoop c ids chunk sched k n last ws res := by
    intro ids chunk n
    induction n with
    | zero => intro k last ws res; rfl
    | succ n ih =>
      intro k last ws res
      simp only [Writer.parallelLoop, parallelLoop, Writer.takeStepParallel, takeStepParallel, writer_runTasks_reads h, ih]
  simp only [Writer.runParallel, runParallel, h.preRun, hloop]

/-- Every rule that answers `{}`: what it does to the state is not in its update. -/
def noAnswer (_ : Key) (_ : SimState) : Option Props := some []

theorem writer_stepBatch_silent {w : Writer σ} (hw : ∀ st i s st' s' r, w.update st i s = .ok (st', s', r) → r = .dict [])
    {ids : List Key} (hn : ids.Nodup) (t : SimState) {st st' : σ} {s s' : SimState} {u : Option Upd}
    (h : w.stepBatch st ids s = .ok (st', s', u)) : u = updOf (patches (ansOf noAnswer t ids)) := by
  obtain ⟨rs, h3, h4⟩ := writer_stepBatch_ok h
  have hans : AnswersAll (ids.zip rs) (ansOf noAnswer t ids) := by
    clear h4 h hn
    induction h3 with
    | nil st s => exact .nil
    | cons g1 _ gih =>
      obtain rfl := hw _ _ _ _ _ _ g1
      exact .cons (.patch [] ⟨by simp, by simp, Or.inl rfl⟩) gih
  have hz : (ids.zip rs).map Prod.fst = ids := by rw [← hans.keys, ansOf_fst]
  rw [mergeAll_answers hans (by rw [hz]; exact hn) none (by simp [Upd.empty])] at h4
  simp only [Except.ok.injEq] at h4
  rw [← h4]
  unfold updOf
  cases patches (ansOf noAnswer t ids) <;> simp [Upd.empty]

theorem writer_runTasks_silent {w : Writer σ} (hw : ∀ st i s st' s' r, w.update st i s = .ok (st', s', r) → r = .dict [])
    {bs : List (List Key)} (hn : ∀ b ∈ bs, b.Nodup) (t : SimState) (last : Option Props) (sc : StepSched) :
    ∀ {ws ws' : Nat → Worker σ} {out : Dict Nat (Option Upd)}, w.runTasks bs last sc ws = .ok (ws', out) →
      out = sc.map fun p => (p.1, updOf (patches (ansOf noAnswer t (bs.getD p.1 [])))) := by
  induction sc with
  | nil => intro ws ws' out h; cases h; rfl
  | cons p sc ih =>
    intro ws ws' out h
    obtain ⟨b, v⟩ := p
    have hb : (bs.getD b []).Nodup := by
      rw [List.getD_eq_getElem?_getD]
      cases h : bs[b]? with
      | none => simp
      | some x => exact hn x (List.mem_of_getElem? h)
    rw [Writer.runTasks] at h
    obtain ⟨⟨v', u⟩, h1, h2⟩ := bind_ok h
    obtain ⟨⟨ws1, out1⟩, h3, h4⟩ := bind_ok h2
    unfold Writer.workerTask at h1
    obtain ⟨s, _, h5⟩ := bind_ok h1
    obtain ⟨⟨st', s', u'⟩, h6, h7⟩ := bind_ok h5
    simp [pure, Except.pure] at h4 h7
    obtain ⟨_, rfl⟩ := h7
    rw [← h4.2, ih h3, writer_stepBatch_silent hw hb t h6]
    rfl

/-- C130 (parallel): the output is the initial state, whatever the rule writes. -/
theorem C130_parallel_output {w : Writer σ} (hp : ∀ st s st' s', w.preRun st s = .ok (st', s') → s' = s) (fork : Nat → σ → σ) {st : σ}
    {s0 : SimState} {m n : Nat} {sched : Nat → StepSched} {res : SimResult} (h : w.runParallel fork st s0 m n sched = .ok res) :
    res.output = some s0 := by
  unfold Writer.runParallel at h
  obtain ⟨⟨st1, s1⟩, h1, h2⟩ := bind_ok h
  have := hp _ _ _ _ h1; subst this
  simp only at h2
  split_ifs at h2
  obtain ⟨r, _, h3⟩ := bind_ok h2
  simp [pure, Except.pure] at h3
  rw [← h3]; rfl

/-- C130 (parallel): what a rule writes without answering it leaves no trace at all: if the rule answers `{}` everywhere, every
recorded step is the initial state (and so is the output, by `C130_parallel_output`), whatever is written. -/
theorem C130_parallel_unrecorded {w : Writer σ} (hw : ∀ st i s st' s' r, w.update st i s = .ok (st', s', r) → r = .dict [])
    (hp : ∀ st s st' s', w.preRun st s = .ok (st', s') → s' = s) (fork : Nat → σ → σ) {st : σ} {s0 : SimState} (hg : s0.general ≠ none)
    (hs : s0.siteIds.Nodup) {m n : Nat} {sched : Nat → StepSched}
    (hv : ∀ k < n, (sched k).Valid m (chunks s0.siteIds (chunkSize s0.siteIds.length m)).length) {res : SimResult}
    (h : w.runParallel fork st s0 m n sched = .ok res) (k : Nat) (hk : k ≤ n) : res.getStep k = .ok s0 := by
  unfold Writer.runParallel at h
  obtain ⟨⟨st1, s1⟩, h1, h2⟩ := bind_ok h
  have := hp _ _ _ _ h1; subst this
  simp only at h2
  split_ifs at h2 with hm
  obtain ⟨r, h3, h4⟩ := bind_ok h2
  simp [pure, Except.pure] at h4
  subst h4
  have hsize : s1.size = s1.siteIds.length := by simp [size, siteIds, Dict.keys]
  rw [hsize] at h3
  -- one step
  have hstep : ∀ (sc : StepSched), sc.Valid m (chunks s1.siteIds (chunkSize s1.siteIds.length m)).length →
      ∀ (last : Option Props) (ws ws' : Nat → Worker σ) (u : Option Upd),
        w.takeStepParallel s1.siteIds (chunkSize s1.siteIds.length m) sc last ws = .ok (ws', u) →
        s1.batchUpdateO (u.map Upd.toProps) = .ok s1 := by
    intro sc hsc last ws ws' u hstep
    unfold Writer.takeStepParallel at hstep
    split_ifs at hstep with hc
    have hne : s1.siteIds ≠ [] := by
      intro he
      apply hc
      rw [he]
      simp only [chunkSize, List.length_nil]
      exact Nat.div_eq_of_lt (by omega)
    simp only at hstep
    obtain ⟨⟨ws1, out⟩, g1, g2⟩ := bind_ok hstep
    obtain ⟨u', g3, g4⟩ := bind_ok g2
    simp [pure, Except.pure] at g4
    obtain ⟨rfl, rfl⟩ := g4
    have hflat := C17_partition s1.siteIds m (by omega) hne
    set bs := chunks s1.siteIds (chunkSize s1.siteIds.length m) with hbs
    have hbnd : ∀ b ∈ bs, b.Nodup := fun b hb =>
      (hflat ▸ hs : bs.flatten.Nodup).sublist (List.sublist_flatten_of_mem hb)
    have hout := writer_runTasks_silent hw hbnd s1 last sc g1
    simp only at g3
    rw [hout, collect_results (fun b => updOf (patches (ansOf noAnswer s1 (bs.getD b [])))) _ sc hsc.1] at g3
    have hpw : ∀ b : List Key, b.Nodup → (Val.dict (patches (ansOf noAnswer s1 b))).WF := fun b hb => by
      refine wf_patches (by rw [ansOf_fst]; exact hb) ?_
      intro i p hip
      obtain ⟨j, _, hj⟩ := List.mem_map.1 hip
      simp [noAnswer] at hj
      obtain ⟨_, rfl⟩ := hj
      exact .dict Dict.WF.nil (by simp)
    obtain ⟨ps, k4, k5, k6⟩ := mergeBatches_updOf (bs.map fun b => patches (ansOf noAnswer s1 b)) (by
      intro d hd
      obtain ⟨b, hb, rfl⟩ := List.mem_map.1 hd
      exact (hpw b (hbnd b hb)).keys) [] Dict.WF.nil
    have e : (List.range bs.length).map (fun b => updOf (patches (ansOf noAnswer s1 (bs.getD b [])))) =
        (bs.map fun b => patches (ansOf noAnswer s1 b)).map updOf := by
      conv_rhs => rw [← range_getD bs]
      simp [List.map_map, Function.comp_def]
    have e0 : updOf [] = none := by simp [updOf]
    rw [e, mergeBatches, ← e0, k4] at g3
    cases g3
    have hps : ∀ k, Dict.get? ps k = if k ∈ s1.siteIds then some (Val.dict []) else none := by
      intro k
      rw [k6, firstSays_flat noAnswer s1 bs (by rw [hflat]; exact hs), hflat]
      simp [noAnswer]
    have hne' : ps ≠ [] := by
      rintro rfl
      obtain ⟨i, hi⟩ := List.exists_mem_of_ne_nil _ hne
      have := hps i
      simp [hi] at this
    have hent : ∀ p ∈ ps, p.1 ∈ s1.siteIds ∧ p.2 = .dict [] := by
      intro p hp
      have := hps p.1
      rw [Dict.get?_of_mem k5 (k := p.1) (v := p.2) hp] at this
      split_ifs at this with hi
      exact ⟨hi, by simpa using this⟩
    obtain ⟨g, hg⟩ := Option.ne_none_iff_exists'.1 hg
    have hu : updOf ps = some ⟨ps, []⟩ := by simp [updOf, hne']
    rw [hu]
    show s1.batchUpdate (Upd.toProps ⟨ps, []⟩) = .ok s1
    rw [batchUpdate_toProps_of hg fun kv hkv => ⟨[], (hent kv hkv).2⟩]
    congr 1
    have : setSitesP s1 ps = s1 := by
      refine setSitesP_present fun p hp => ?_
      obtain ⟨hi, he⟩ := hent p hp
      obtain ⟨o, ho⟩ := Option.isSome_iff_exists.1 (Dict.get?_isSome_iff.2 hi)
      exact ⟨o, ho, by rw [he]; rfl⟩
    rw [this]
    exact ext' rfl (by simp [hg])
  -- the loop
  have hloop : ∀ (n j : Nat) (last : Option Props) (ws : Nat → Worker σ) (res r : SimResult),
      (∀ i < n, (sched (j + i)).Valid m (chunks s1.siteIds (chunkSize s1.siteIds.length m)).length) →
      w.parallelLoop s1.siteIds (chunkSize s1.siteIds.length m) sched j n last ws res = .ok r →
      ∃ ds, r = { res with diffs := res.diffs ++ ds } ∧ ∀ k ≤ n, SimResult.replayTo s1 ds k = .ok s1 := by
    intro n
    induction n with
    | zero =>
      intro j last ws res r _ h
      cases h
      exact ⟨[], by simp, fun k hk => by obtain rfl : k = 0 := by omega
                                         rfl⟩
    | succ n ih =>
      intro j last ws res r hv h
      rw [Writer.parallelLoop] at h
      obtain ⟨⟨ws', u⟩, g1, g2⟩ := bind_ok h
      have g3 := hstep _ (by simpa using hv 0 (by omega)) _ _ _ _ g1
      obtain ⟨ds, g4, g5⟩ := ih (j + 1) _ _ _ _ (fun i hi => by
        have := hv (i + 1) (by omega)
        rwa [show j + (i + 1) = j + 1 + i by omega] at this) g2
      refine ⟨u.map Upd.toProps :: ds, by simp [g4, SimResult.addStep], fun k hk => ?_⟩
      cases k with
      | zero => simp
      | succ k => rw [SimResult.replayTo_cons, g3, ok_bind]; exact g5 k (by omega)
  obtain ⟨ds, g1, g2⟩ := hloop n 0 _ _ _ _ (by simpa using hv) h3
  have := g2 k hk
  simpa [SimResult.getStep, SimResult.setOutput, SimResult.new, g1, Dict.get?, copy] using this

/-! ### examples -/

/-- C130: with a rule that carries out its own answer the serial and the parallel run differ, although the updates of different
sites do not conflict (C18 fails): serially the second site sees the new value of the first, in different workers it does not. -/
theorem C130_parallel_differs : ∃ (w : Writer Unit) (c : Controller Unit) (s0 : SimState) (sched : Nat → StepSched) (r r' : SimResult),
    CarriesOut w c ∧ OwnSite w ∧ (∀ k, (sched k).Valid 2 (chunks s0.siteIds (chunkSize s0.siteIds.length 2)).length) ∧
    w.runSync () s0 1 = .ok ((), r) ∧ w.runParallel (fun _ st => st) () s0 2 1 sched = .ok r' ∧
    r.lastStep = .ok (twoCells 0 1 2 2) ∧ r'.lastStep = .ok (twoCells 0 1 2 1) := by
  refine ⟨swapWriter, _, twoCells 0 1 1 2, fun _ => [(0, 0), (1, 1)], _, _, swap_carriesOut, swap_ownSite, ?_, rfl, rfl, ?_, ?_⟩
  · intro k
    show StepSched.Valid 2 _ [(0, 0), (1, 1)]
    unfold StepSched.Valid; decide
  · decide +kernel
  · decide +kernel

/-- C130: and the parallel run depends on which worker takes which batch: if one worker takes both, its second batch sees what
the first has written. -/
theorem C130_parallel_schedule : ∃ (w : Writer Unit) (c : Controller Unit) (s0 : SimState) (sched sched' : Nat → StepSched)
    (r r' : SimResult), CarriesOut w c ∧ OwnSite w ∧
    (∀ k, (sched k).Valid 2 (chunks s0.siteIds (chunkSize s0.siteIds.length 2)).length) ∧
    (∀ k, (sched' k).Valid 2 (chunks s0.siteIds (chunkSize s0.siteIds.length 2)).length) ∧
    w.runParallel (fun _ st => st) () s0 2 1 sched = .ok r ∧ w.runParallel (fun _ st => st) () s0 2 1 sched' = .ok r' ∧
    r.lastStep ≠ r'.lastStep := by
  refine ⟨swapWriter, _, twoCells 0 1 1 2, fun _ => [(0, 0), (1, 1)], fun _ => [(0, 0), (1, 0)], _, _, swap_carriesOut,
    swap_ownSite, ?_, ?_, rfl, rfl, ?_⟩
  · intro k
    show StepSched.Valid 2 _ [(0, 0), (1, 1)]
    unfold StepSched.Valid; decide
  · intro k
    show StepSched.Valid 2 _ [(0, 0), (1, 0)]
    unfold StepSched.Valid; decide
  · decide +kernel

/-- `C130_parallel_unrecorded` for the rule that counts in place. -/
example (r : SimResult)
    (h : countWriter.runParallel (fun _ st => st) () (twoCells 0 1 1 2) 2 3 (fun _ => [(0, 0), (1, 1)]) = .ok r) :
    r.getStep 2 = .ok (twoCells 0 1 1 2) :=
  C130_parallel_unrecorded (fun st i s st' s' r h => (count_silent st i s st' s' r h).1) (fun _ _ _ _ h => by cases h; rfl) _
    (by simp [twoCells]) (by simp [twoCells, siteIds, Dict.keys])
    (fun k _ => by show StepSched.Valid 2 _ [(0, 0), (1, 1)]; unfold StepSched.Valid; decide) h 2 (by omega)

/-- This run returns. -/
example : (countWriter.runParallel (fun _ st => st) () (twoCells 0 1 1 2) 2 3 (fun _ => [(0, 0), (1, 1)])).toOption.isSome = true := by
  decide +kernel

end Pyl
