import Verif.Spec.Async
import Verif.Lemmas.Replay
import Verif.Props.Sync
import Mathlib.Algebra.BigOperators.Group.List.Basic
import Mathlib.Algebra.Order.Ring.Rat
import Mathlib.Tactic.Ring
/-
C15 (asynchronous part), C25 - C29: the asynchronous runner.
-/
set_option linter.unusedSectionVars false

set_option autoImplicit false

namespace Pyl
open SimState Spec
variable {σ : Type}

/-! ### the loop as a chain of steps -/

/-- Refill the queue if it is empty. -/
def refill (c : Controller σ) (st : σ) (live : SimState) (q : List Key) : Py (σ × List Key) :=
  if q.isEmpty then addSites c st live q else pure (st, q)

theorem asyncStep_ok {c : Controller σ} {a a' : AsyncSt σ} (h : asyncStep c a = .ok a') :
    ∃ sid q st1 r u live', a.queue = sid :: q ∧ c.update a.st sid a.live = .ok (st1, r) ∧
      mergeUpdates r.split.1 none (some sid) = .ok u ∧ a.live.batchUpdateO (u.map Upd.toProps) = .ok live' ∧
      refill c st1 live' (q ++ r.split.2) = .ok (a'.st, a'.queue) ∧ a'.live = live' ∧
      a'.res = a.res.addStep (u.map Upd.toProps) ∧ a'.trace = a.trace ++ [sid] := by
  unfold asyncStep at h
  split at h
  · simp at h
  · rename_i sid q hq
    obtain ⟨⟨st1, r⟩, h1, h2⟩ := bind_ok h
    obtain ⟨u, h3, h4⟩ := bind_ok h2
    obtain ⟨live', h5, h6⟩ := bind_ok h4
    obtain ⟨⟨st2, q2⟩, h7, h8⟩ := bind_ok h6
    simp only [pure, Except.pure, Except.ok.injEq] at h8
    subst h8
    exact ⟨sid, q, st1, r, u, live', hq, h1, h3, h5, h7, rfl, rfl, rfl⟩

/-- The invariants that hold after every completed step, for a controller with a notebook. -/
structure AInv (s0 : SimState) (a : AsyncSt (σ × List Ev)) : Prop where
  fifo : Fifo [] a.st.2 a.queue
  replay : SimResult.replay s0 a.res.diffs = .ok a.live
  count : (visits a.st.2).length = a.res.diffs.length
  shown : ∀ (k : Nat) (i : Key) (s : SimState) (r : Resp), (visits a.st.2)[k]? = some (i, s, r) → SimResult.replayTo s0 a.res.diffs k = .ok s
  diff : ∀ (k : Nat) (i : Key) (s : SimState) (r : Resp), (visits a.st.2)[k]? = some (i, s, r) →
    ∃ u, mergeUpdates r.split.1 none (some i) = .ok u ∧ a.res.diffs[k]? = some (u.map Upd.toProps)

theorem fifo_append {q q' q'' : List Key} {l l' : List Ev} (h : Fifo q l q') (h' : Fifo q' l' q'') :
    Fifo q (l ++ l') q'' := by
  induction h with
  | done => exact h'
  | visit _ ih => exact .visit (ih h')
  | ask _ ih => exact .ask (ih h')

theorem visits_append (l m : List Ev) : visits (l ++ m) = visits l ++ visits m := by
  induction l with
  | nil => rfl
  | cons e l ih => cases e <;> simp [visits, ih]

theorem addSites_traced {c : Controller σ} {st st' : σ × List Ev} {live : SimState} {q q' : List Key}
    (h : addSites (traced c) st live q = .ok (st', q')) :
    ∃ a, st'.2 = st.2 ++ [.ask live a] ∧ q' = q ++ offered a ∧ c.randomSite st.1 live = .ok (st'.1, a) := by
  unfold addSites at h
  obtain ⟨⟨st1, r⟩, h1, h2⟩ := bind_ok h
  simp only [traced] at h1
  obtain ⟨⟨st2, r'⟩, h3, h4⟩ := bind_ok h1
  simp only [pure, Except.pure, Except.ok.injEq, Prod.mk.injEq] at h4
  obtain ⟨rfl, rfl⟩ := h4
  cases r' <;> simp [pure, Except.pure] at h2 <;> obtain ⟨rfl, rfl⟩ := h2 <;>
    exact ⟨_, rfl, by simp [offered], h3⟩

theorem split_snd (r : Resp) : r.split.2 = followUps r := by cases r <;> rfl

/-- What the events of one step look like. -/
theorem asyncStep_events {c : Controller σ} {a a' : AsyncSt (σ × List Ev)} (h : asyncStep (traced c) a = .ok a') :
    ∃ sid q r, a.queue = sid :: q ∧
      ((q ++ followUps r ≠ [] ∧ a'.queue = q ++ followUps r ∧ a'.st.2 = a.st.2 ++ [.visit sid a.live r]) ∨
       ∃ s req, q ++ followUps r = [] ∧ a'.queue = offered req ∧
         a'.st.2 = a.st.2 ++ [.visit sid a.live r, .ask s req]) ∧
      ∃ u, mergeUpdates r.split.1 none (some sid) = .ok u ∧ a'.res = a.res.addStep (u.map Upd.toProps) ∧
        a.live.batchUpdateO (u.map Upd.toProps) = .ok a'.live := by
  obtain ⟨sid, q, st1, r, u, live', h1, h2, h3, h4, h5, h6, h7, h8⟩ := asyncStep_ok h
  subst h6
  simp only [traced] at h2
  obtain ⟨⟨st2, r'⟩, h9, h10⟩ := bind_ok h2
  simp only [pure, Except.pure, Except.ok.injEq, Prod.mk.injEq] at h10
  obtain ⟨rfl, rfl⟩ := h10
  refine ⟨sid, q, r', h1, ?_, u, h3, h7, h4⟩
  unfold refill at h5
  rw [split_snd] at h5
  by_cases hq : q ++ followUps r' = []
  · right
    rw [hq] at h5
    simp only [List.isEmpty_nil, if_true] at h5
    obtain ⟨req, h11, h12, _⟩ := addSites_traced h5
    refine ⟨a'.live, req, hq, by simpa using h12, ?_⟩
    rw [h11]; simp
  · left
    have : (q ++ followUps r').isEmpty = false := by simpa [List.isEmpty_iff] using hq
    rw [this] at h5
    simp [pure, Except.pure] at h5
    exact ⟨hq, h5.2.symm, by rw [← h5.1]⟩

theorem ainv_step {c : Controller σ} {s0 : SimState} {a a' : AsyncSt (σ × List Ev)} (hi : AInv s0 a)
    (h : asyncStep (traced c) a = .ok a') : AInv s0 a' := by
  obtain ⟨sid, q, r, hq, hev, u, hu, hres, hlive⟩ := asyncStep_events h
  have hdiffs : a'.res.diffs = a.res.diffs ++ [u.map Upd.toProps] := by rw [hres]; rfl
  have hvis : visits a'.st.2 = visits a.st.2 ++ [(sid, a.live, r)] := by
    rcases hev with ⟨_, _, h1⟩ | ⟨s, req, _, _, h1⟩ <;> rw [h1, visits_append] <;> rfl
  refine ⟨?_, ?_, ?_, ?_, ?_⟩
  · have h0 := hi.fifo
    rw [hq] at h0
    rcases hev with ⟨_, h2, h1⟩ | ⟨s, req, h3, h2, h1⟩
    · rw [h1, h2]; exact fifo_append h0 (.visit (.done _))
    · rw [h1, h2]
      refine fifo_append h0 (.visit ?_)
      rw [h3]; exact .ask (.done _)
  · rw [hdiffs, SimResult.replay_snoc hi.replay]; exact hlive
  · rw [hvis, hdiffs]; simp [hi.count]
  · intro k i s r' hk
    rw [hvis] at hk
    rw [hdiffs]
    by_cases hkl : k < (visits a.st.2).length
    · rw [List.getElem?_append_left hkl] at hk
      rw [SimResult.replayTo_append _ _ _ _ (by have := hi.count; omega)]
      exact hi.shown k i s r' hk
    · rw [List.getElem?_append_right (by omega)] at hk
      have hk0 : k = (visits a.st.2).length := by
        by_contra hne
        rw [List.getElem?_eq_none (by simp; omega)] at hk
        cases hk
      subst hk0
      simp at hk
      obtain ⟨rfl, rfl, rfl⟩ := hk
      rw [SimResult.replayTo_append _ _ _ _ (by have := hi.count; omega), hi.count, SimResult.replayTo_length]
      exact hi.replay
  · intro k i s r' hk
    rw [hvis] at hk
    rw [hdiffs]
    by_cases hkl : k < (visits a.st.2).length
    · rw [List.getElem?_append_left hkl] at hk
      rw [List.getElem?_append_left (by have := hi.count; omega)]
      exact hi.diff k i s r' hk
    · rw [List.getElem?_append_right (by omega)] at hk
      have hk0 : k = (visits a.st.2).length := by
        by_contra hne
        rw [List.getElem?_eq_none (by simp; omega)] at hk
        cases hk
      subst hk0
      simp at hk
      obtain ⟨rfl, rfl, rfl⟩ := hk
      exact ⟨u, hu, by rw [hi.count]; simp⟩

/-- Invariants and bookkeeping of the whole loop. -/
theorem ainv_loop {c : Controller σ} {s0 : SimState} (n : Nat) {a a' : AsyncSt (σ × List Ev)} (hi : AInv s0 a)
    (h : asyncLoop (traced c) n a = .ok a') : AInv s0 a' ∧
      a'.res.initial = a.res.initial ∧ a'.res.stored = a.res.stored ∧
      a'.res.diffs.length ≤ a.res.diffs.length + n ∧
      (a'.res.diffs.length < a.res.diffs.length + n → a'.queue = [] ∧
        ∃ l s req, a'.st.2 = l ++ [.ask s req] ∧ offered req = []) := by
  induction n generalizing a with
  | zero =>
    simp [asyncLoop] at h; subst h
    exact ⟨hi, rfl, rfl, by simp, by simp⟩
  | succ n ih =>
    rw [asyncLoop] at h
    obtain ⟨a1, h1, h2⟩ := bind_ok h
    have hi1 := ainv_step hi h1
    obtain ⟨sid, q, r, hq, hev, u, hu, hres, hlive⟩ := asyncStep_events h1
    have hd : a1.res.diffs.length = a.res.diffs.length + 1 := by rw [hres]; simp [SimResult.addStep]
    split_ifs at h2 with he
    · simp [pure, Except.pure] at h2; subst h2
      refine ⟨hi1, by rw [hres]; rfl, by rw [hres]; rfl, by omega, fun _ => ?_⟩
      have he' : a1.queue = [] := by simpa [List.isEmpty_iff] using he
      refine ⟨he', ?_⟩
      rcases hev with ⟨h3, h4, h5⟩ | ⟨s, req, h3, h4, h5⟩
      · rw [h4] at he'; exact absurd he' h3
      · exact ⟨a.st.2 ++ [.visit sid a.live r], s, req, by rw [h5]; simp, by rw [← h4, he']⟩
    · obtain ⟨h3, h4, h5, h6, h7⟩ := ih hi1 h2
      refine ⟨h3, by rw [h4, hres]; rfl, by rw [h5, hres]; rfl, by omega, fun h => h7 (by omega)⟩

/-- The run starts from what `pre_run` makes of the state; the result starts with the state as it was given. -/
theorem runAsync_from {c : Controller σ} {st : σ} {s0 : SimState} {n : Nat}
    {a : AsyncSt (σ × List Ev)} (h : runAsync (traced c) (st, []) s0 n = .ok a) :
    ∃ st1 s1, c.preRun st s0 = .ok (st1, s1) ∧ AInv s1 a ∧ a.res.initial = s0 ∧ a.res.stored = [] ∧ a.res.output = some a.live ∧ a.res.diffs.length ≤ n ∧
      (a.res.diffs.length < n → a.queue = [] ∧ ∃ l s req, a.st.2 = l ++ [.ask s req] ∧ offered req = []) := by
  unfold runAsync at h
  obtain ⟨⟨st1, s1⟩, h1, h2⟩ := bind_ok h
  simp only [traced] at h1
  obtain ⟨⟨st2, s2⟩, h3, h4⟩ := bind_ok h1
  simp only [pure, Except.pure, Except.ok.injEq, Prod.mk.injEq] at h4
  obtain ⟨rfl, rfl⟩ := h4
  obtain ⟨a1, h5, h6⟩ := bind_ok h2
  simp only [pure, Except.pure, Except.ok.injEq] at h6
  subst h6
  unfold asyncRunFrom at h5
  obtain ⟨⟨st3, q3⟩, h7, h8⟩ := bind_ok h5
  obtain ⟨req, h9, h10, h11⟩ := addSites_traced h7
  simp only at h8
  split_ifs at h8 with he
  obtain ⟨a2, h12, h13⟩ := bind_ok h8
  simp only [pure, Except.pure, Except.ok.injEq] at h13
  subst h13
  have hi : AInv s2 (⟨st3, s2.copy, q3, SimResult.new s0.copy, []⟩ : AsyncSt (σ × List Ev)) := by
    refine ⟨?_, rfl, ?_, ?_, ?_⟩
    · rw [h9, h10]; simpa using Fifo.ask (Fifo.done (offered req))
    · simp [h9, visits, SimResult.new]
    · intro k i s r hk; simp [h9, visits] at hk
    · intro k i s r hk; simp [h9, visits] at hk
  obtain ⟨h14, h15, h16, h17, h18⟩ := ainv_loop n hi h12
  refine ⟨st2, s2, h3, ⟨h14.fifo, h14.replay, h14.count, h14.shown, h14.diff⟩, h15, h16, rfl, ?_, ?_⟩
  · simpa [SimResult.new, SimResult.setOutput] using h17
  · intro hlt
    exact h18 (by simpa [SimResult.new, SimResult.setOutput] using hlt)

theorem runAsync_traced {c : Controller σ} (hp : PreRunPure c) {st : σ} {s0 : SimState} {n : Nat}
    {a : AsyncSt (σ × List Ev)} (h : runAsync (traced c) (st, []) s0 n = .ok a) :
    AInv s0 a ∧ a.res.initial = s0 ∧ a.res.stored = [] ∧ a.res.output = some a.live ∧ a.res.diffs.length ≤ n ∧
      (a.res.diffs.length < n → a.queue = [] ∧ ∃ l s req, a.st.2 = l ++ [.ask s req] ∧ offered req = []) := by
  obtain ⟨st1, s1, h1, h2⟩ := runAsync_from h
  have := hp _ _ _ _ h1; subst this
  exact h2

/-! ### C15 (asynchronous) -/

/-- C15 (asynchronous): the state reported for step `k` is the state the rule was shown at its `k`-th application,
`last_step` is `output`, and `len(result)` is one more than the number of applications. -/
theorem C15_async (c : Controller σ) (hp : PreRunPure c) (st : σ) (s0 : SimState) (n : Nat)
    (a : AsyncSt (σ × List Ev)) (h : runAsync (traced c) (st, []) s0 n = .ok a) :
    a.res.len = (visits a.st.2).length + 1 ∧
    (∀ (k : Nat) (i : Key) (s : SimState) (r : Resp), (visits a.st.2)[k]? = some (i, s, r) → a.res.getStep k = .ok s) ∧
    a.res.lastStep.toOption = a.res.output ∧ a.res.output.isSome := by
  obtain ⟨hi, h1, h2, h3, _, _⟩ := runAsync_traced hp h
  refine ⟨by simp [SimResult.len, hi.count], ?_, ?_, by rw [h3]; rfl⟩
  · intro k i s r hk
    simp only [SimResult.getStep, h2, Dict.get?, copy, h1]
    simpa using hi.shown k i s r hk
  · simp only [SimResult.lastStep, SimResult.getStep, h2, Dict.get?, copy, h1, SimResult.len]
    have : (((a.res.diffs.length + 1 : Nat) : Int) - 1).toNat = a.res.diffs.length := by omega
    rw [this, SimResult.replayTo_length, hi.replay, h3]; rfl

/-! ### C25 -/

theorem fifo_prefix {q q' : List Key} {l : List Ev} (h : Fifo q l q') :
    (visits l).map (fun v => v.1) ++ q' = q ++ enqueued l := by
  induction h with
  | done => simp [visits, enqueued]
  | visit _ ih => simp [visits, enqueued, ih]
  | ask _ ih => simp [visits, enqueued, ih]

/-- C25: the calls the controller sees in an asynchronous run form a first-in first-out history that begins with
`get_random_site`; in particular the visited sites are an initial part of everything that was enqueued, in order, and
`get_random_site` is only called when the queue is empty. -/
theorem C25_fifo (c : Controller σ) (st : σ) (s0 : SimState) (n : Nat)
    (a : AsyncSt (σ × List Ev)) (h : runAsync (traced c) (st, []) s0 n = .ok a) :
    (∃ rest, Fifo [] a.st.2 rest) ∧ (visits a.st.2).map (fun v => v.1) <+: enqueued a.st.2 := by
  obtain ⟨_, _, _, hi, _⟩ := runAsync_from h
  refine ⟨⟨_, hi.fifo⟩, ?_⟩
  have := fifo_prefix hi.fifo
  exact ⟨a.queue, by simpa using this⟩

/-- C25, spelled out: whenever the supplier is asked, everything enqueued before has been visited. -/
theorem C25_ask_only_when_empty (q q' : List Key) (l l' : List Ev) (s : SimState) (r : SiteReq)
    (h : Fifo q (l ++ .ask s r :: l') q') : (visits l).map (fun v => v.1) = q ++ enqueued l := by
  induction l generalizing q with
  | nil => cases h; rfl
  | cons e l ih =>
    cases h with
    | visit h => have := ih _ h; simp [visits, enqueued, this]
    | ask h => have := ih _ h; simpa [visits, enqueued] using this

theorem update_traced {c : Controller σ} {st st' : σ × List Ev} {i : Key} {s : SimState} {r : Resp}
    (h : (traced c).update st i s = .ok (st', r)) : c.update st.1 i s = .ok (st'.1, r) := by
  simp only [traced] at h
  obtain ⟨⟨st2, r'⟩, h9, h10⟩ := bind_ok h
  simp only [pure, Except.pure, Except.ok.injEq, Prod.mk.injEq] at h10
  obtain ⟨rfl, rfl⟩ := h10
  exact h9

/-- A breadth-first walk: site 0 names 1 and 2 as follow-ups, site 1 names 3. -/
def bfsDemo : Controller Unit where
  update _ i _ := .ok ((), .tuple (some [(.str "seen", .num 1)])
    (if i = .int 0 then [.int 1, .int 2] else if i = .int 1 then [.int 3] else []))
  randomSite _ _ := .ok ((), .one 0)

example : (runAsync bfsDemo () ⟨[], some []⟩ 6).toOption.map (fun a => a.trace) =
    some [.int 0, .int 1, .int 2, .int 3, .int 0, .int 1] := by decide

/-! ### C26 -/

/-- Exceptions other than TypeError and AttributeError (malformed answers) come from the controller only. -/
theorem asyncLoop_err {c : Controller σ} {e : Err} (h1 : e ≠ .typeError) (h2 : e ≠ .attributeError)
    (hu : ∀ st i s, c.update st i s ≠ .error e) (hr : ∀ st s, c.randomSite st s ≠ .error e) :
    (∀ st s q, addSites c st s q ≠ .error e) ∧ ∀ n a, a.queue ≠ [] → asyncLoop c n a ≠ .error e := by
  have hdp : ∀ d k, dictPart d k ≠ .error e := by
    intro d k; unfold dictPart; split <;> simp [h1.symm]
  have hmerge : ∀ a b i, mergeUpdates a b (some i) ≠ .error e := by
    intro a b i h
    cases a with
    | none => simp [mergeUpdates] at h
    | some d =>
      simp only [mergeUpdates] at h
      split_ifs at h with h1 h2
      · cases h3 : dictPart d SITES with
        | error e' => rw [h3] at h; simp at h; exact hdp _ _ (h ▸ h3)
        | ok ss =>
          cases h4 : dictPart d GENERAL with
          | error e' => rw [h3, h4] at h; simp at h; exact hdp _ _ (h ▸ h4)
          | ok gs => rw [h3, h4] at h; simp [pure, Except.pure] at h
  have hsites : ∀ (s : SimState) d, setSites s d ≠ .error e := by
    intro s d; rw [setSites_eq]; split_ifs <;> simp [h1.symm]
  have hgen : ∀ (s : SimState) v, setGeneralStateV s v ≠ .error e := by
    intro s v; cases v <;> simp [setGeneralStateV, setGeneralState, h1.symm]; split <;> simp [h1.symm]
  have hbatch : ∀ (s : SimState) b, s.batchUpdateO b ≠ .error e := by
    intro s b h
    cases b with
    | none => simp [batchUpdateO, h1.symm] at h
    | some b =>
      simp only [batchUpdateO, batchUpdate] at h
      have fin : ∀ d g, (do setGeneralStateV (← setSites s d) g) ≠ (.error e : Py SimState) := by
        intro d g h
        cases h1 : setSites s d with
        | error e' => rw [h1] at h; simp at h; exact hsites _ _ (h ▸ h1)
        | ok s1 => rw [h1] at h; exact hgen _ _ h
      split at h
      · split at h
        · exact fin _ _ h
        · exact fin _ _ h
        · simp [h2.symm] at h
      · exact hsites _ _ h
  have hadd : ∀ st s q, addSites c st s q ≠ .error e := by
    intro st s q h
    unfold addSites at h
    cases h1 : c.randomSite st s with
    | error e' => rw [h1] at h; simp at h; exact hr _ _ (h ▸ h1)
    | ok p =>
      obtain ⟨st', r⟩ := p
      rw [h1] at h
      cases r <;> simp [pure, Except.pure] at h
  have hstep : ∀ a, a.queue ≠ [] → asyncStep c a ≠ .error e := by
    intro a ha h
    unfold asyncStep at h
    split at h
    · contradiction
    · rename_i sid q _
      cases h1 : c.update a.st sid a.live with
      | error e' => rw [h1] at h; simp at h; exact hu _ _ _ (h ▸ h1)
      | ok p =>
        obtain ⟨st1, r⟩ := p
        rw [h1] at h; simp only [ok_bind] at h
        cases h2 : mergeUpdates r.split.1 none (some sid) with
        | error e' => rw [h2] at h; simp at h; exact hmerge _ _ _ (h ▸ h2)
        | ok u =>
          rw [h2] at h; simp only [ok_bind] at h
          cases h3 : a.live.batchUpdateO (u.map Upd.toProps) with
          | error e' => rw [h3] at h; simp at h; exact hbatch _ _ (h ▸ h3)
          | ok live' =>
            rw [h3] at h; simp only [ok_bind] at h
            split_ifs at h
            · cases h4 : addSites c st1 live' (q ++ r.split.2) with
              | error e' => rw [h4] at h; simp at h; exact hadd _ _ _ (h ▸ h4)
              | ok p => rw [h4] at h; simp [pure, Except.pure] at h
            · simp [pure, Except.pure] at h
  refine ⟨hadd, ?_⟩
  intro n
  induction n with
  | zero => intro a _; simp [asyncLoop]
  | succ n ih =>
    intro a ha h
    rw [asyncLoop] at h
    cases h1 : asyncStep c a with
    | error e' => rw [h1] at h; simp at h; exact hstep _ ha (h ▸ h1)
    | ok a1 =>
      rw [h1] at h; simp only [ok_bind] at h
      split_ifs at h with he
      · simp [pure, Except.pure] at h
      · exact ih _ (by simpa [List.isEmpty_iff] using he) h

/-- If a whole run raises such an exception, it is the RuntimeError for an empty start. -/
theorem runAsync_err {c : Controller σ} {e : Err} (h1 : e ≠ .typeError) (h2 : e ≠ .attributeError)
    (hu : ∀ st i s, c.update st i s ≠ .error e) (hr : ∀ st s, c.randomSite st s ≠ .error e)
    (hpre : ∀ st s, c.preRun st s ≠ .error e) {st : σ} {s0 : SimState} {n : Nat}
    (h : runAsync c st s0 n = .error e) : e = .runtimeError ∧
      ∃ st1 s1 st2 q, c.preRun st s0 = .ok (st1, s1) ∧ c.randomSite st1 s1 = .ok (st2, q) ∧ offered q = [] := by
  obtain ⟨hadd, hloop⟩ := asyncLoop_err h1 h2 hu hr
  have haddok : ∀ st s st' q', addSites c st s [] = .ok (st', q') →
      ∃ r, c.randomSite st s = .ok (st', r) ∧ q' = offered r := by
    intro st s st' q' h
    unfold addSites at h
    obtain ⟨⟨st1, r⟩, h1, h2⟩ := bind_ok h
    cases r <;> simp [pure, Except.pure] at h2 <;> obtain ⟨rfl, rfl⟩ := h2 <;> exact ⟨_, h1, rfl⟩
  unfold runAsync at h
  cases h1 : c.preRun st s0 with
  | error e' => rw [h1] at h; simp at h; exact absurd (h ▸ h1) (hpre _ _)
  | ok p =>
    obtain ⟨st1, s1⟩ := p
    rw [h1] at h; simp only [ok_bind] at h
    cases hrun : asyncRunFrom c st1 s1.copy (SimResult.new s0.copy) n with
    | ok a => rw [hrun] at h; simp [pure, Except.pure] at h
    | error e' =>
      rw [hrun] at h; simp only [error_bind, Except.error.injEq] at h
      subst h
      have h2 := hrun
      unfold asyncRunFrom at h2
      cases h3 : addSites c st1 s1.copy [] with
      | error e'' => rw [h3] at h2; simp at h2; exact absurd (h2 ▸ h3) (hadd _ _ _)
      | ok p =>
        obtain ⟨st2, q⟩ := p
        rw [h3] at h2; simp only [ok_bind] at h2
        obtain ⟨r, h4, h5⟩ := haddok _ _ _ _ h3
        split_ifs at h2 with he
        · simp at h2
          refine ⟨h2.symm, st1, s1, st2, r, rfl, h4, ?_⟩
          rw [← h5]; simpa [List.isEmpty_iff] using he
        · cases h6 : asyncLoop c n ⟨st2, s1.copy, q, SimResult.new s0.copy, []⟩ with
          | error e'' =>
            rw [h6] at h2; simp at h2
            exact absurd (h2 ▸ h6) (hloop _ _ (by simpa [List.isEmpty_iff] using he))
          | ok a => rw [h6] at h2; simp [pure, Except.pure] at h2

/-- C26: if neither the rule nor the supplier nor the pre-run hook raises RuntimeError itself, an asynchronous run
raises RuntimeError exactly when the supplier offers no site at the start (whatever the number of steps). -/
theorem C26_runtime_error (c : Controller σ) (st : σ) (s0 : SimState) (n : Nat)
    (hu : ∀ st i s, c.update st i s ≠ .error .runtimeError)
    (hr : ∀ st s, c.randomSite st s ≠ .error .runtimeError)
    (hpre : ∀ st s, c.preRun st s ≠ .error .runtimeError) :
    (∃ e, runAsync c st s0 n = .error e ∧ e = .runtimeError) ↔
      ∃ st1 s1 st2 q, c.preRun st s0 = .ok (st1, s1) ∧ c.randomSite st1 s1 = .ok (st2, q) ∧ offered q = [] := by
  constructor
  · rintro ⟨e, h, rfl⟩
    exact (runAsync_err (by simp) (by simp) hu hr hpre h).2
  · rintro ⟨st1, s1, st2, r, h1, h2, h3⟩
    refine ⟨_, ?_, rfl⟩
    have h4 : addSites c st1 s1.copy [] = .ok (st2, []) := by
      unfold addSites
      simp only [copy, h2, ok_bind]
      cases r <;> simp_all [offered, pure, Except.pure]
    simp [runAsync, h1, asyncRunFrom, h4]

/-- C26: the runner never pops an empty queue: if the controller does not raise IndexError, the run does not. -/
theorem C26_never_pops_empty (c : Controller σ) (st : σ) (s0 : SimState) (n : Nat)
    (hu : ∀ st i s, c.update st i s ≠ .error .indexError)
    (hr : ∀ st s, c.randomSite st s ≠ .error .indexError)
    (hpre : ∀ st s, c.preRun st s ≠ .error .indexError) :
    ∀ e, runAsync c st s0 n = .error e → e ≠ .indexError := by
  rintro e h rfl
  have := (runAsync_err (by simp) (by simp) hu hr hpre h).1
  simp at this

/-- C26: one application per recorded step, at most `n` of them, and fewer only if at the end the queue was empty, the
supplier was asked once more and offered nothing. -/
theorem C26_length (c : Controller σ) (st : σ) (s0 : SimState) (n : Nat)
    (a : AsyncSt (σ × List Ev)) (h : runAsync (traced c) (st, []) s0 n = .ok a) :
    (visits a.st.2).length + 1 = a.res.len ∧ (visits a.st.2).length ≤ n ∧
    ((visits a.st.2).length < n → ∃ l s req, a.st.2 = l ++ [.ask s req] ∧ offered req = [] ∧
      (visits l).map (fun v => v.1) = enqueued l) := by
  obtain ⟨_, _, _, hi, h1, h2, h3, h4, h5⟩ := runAsync_from h
  refine ⟨by simp [SimResult.len, hi.count], by rw [hi.count]; exact h4, fun hlt => ?_⟩
  rw [hi.count] at hlt
  obtain ⟨h6, l, s, req, h7, h8⟩ := h5 hlt
  refine ⟨l, s, req, h7, h8, ?_⟩
  have hf := hi.fifo
  rw [h7] at hf
  simpa using C25_ask_only_when_empty [] _ l [] s req hf

/-! ### C27 -/

theorem body_split (r : Resp) : (r.split.1 = none ∧ body r = .noUpdate) ∨ ∃ d, r.split.1 = some d ∧ body r = .dict d := by
  cases r with
  | noUpdate => exact Or.inl ⟨rfl, rfl⟩
  | dict d => exact Or.inr ⟨d, rfl, rfl⟩
  | tuple d l => cases d with
    | none => exact Or.inl ⟨rfl, rfl⟩
    | some d => exact Or.inr ⟨d, rfl, rfl⟩

theorem mergeUpdates_split (r : Resp) (i : Key) :
    mergeUpdates r.split.1 none (some i) = mergeResp (body r) none i := by
  rcases body_split r with ⟨h1, h2⟩ | ⟨d, h1, h2⟩ <;> rw [h1, h2] <;> rfl

/-- How step `k + 1` of an asynchronous run arises from step `k`. -/
theorem async_step_from {c : Controller σ} (hp : PreRunPure c) {st : σ} {s0 : SimState} {n : Nat}
    {a : AsyncSt (σ × List Ev)} (h : runAsync (traced c) (st, []) s0 n = .ok a) {k : Nat} {i : Key} {s : SimState}
    {r : Resp} (hk : (visits a.st.2)[k]? = some (i, s, r)) {ss gs : Props} (hparts : Parts i (body r) ss gs) :
    a.res.getStep k = .ok s ∧ ∃ g0 s', a.res.getStep ((k : Int) + 1) = .ok s' ∧ s.general = some g0 ∧
      (∀ kv ∈ Dict.update [] ss, ∃ p, kv.2 = .dict p) ∧
      s' = { setSitesP s (Dict.update [] ss) with general := some (Dict.update g0 (Dict.update [] gs)) } := by
  obtain ⟨hi, h1, h2, h3, _, _⟩ := runAsync_traced hp h
  have hshown := hi.shown k i s r hk
  obtain ⟨u, h4, h5⟩ := hi.diff k i s r hk
  have hklt : k < a.res.diffs.length := by
    rw [← hi.count]; exact (List.getElem?_eq_some_iff.1 hk).1
  refine ⟨by simp only [SimResult.getStep, h2, Dict.get?, copy, h1]; simpa using hshown, ?_⟩
  rw [mergeUpdates_split, mergeResp_parts hparts] at h4
  have hnext : SimResult.replayTo s0 a.res.diffs (k + 1) = s.batchUpdateO (u.map Upd.toProps) := by
    rw [SimResult.replayTo_eq_replay_take _ _ _ (by omega), List.take_add_one, h5]
    rw [SimResult.replayTo_eq_replay_take _ _ _ (by omega)] at hshown
    exact SimResult.replay_snoc hshown _
  obtain ⟨s', hs'⟩ := SimResult.replayTo_ok hi.replay (k + 1) (by omega)
  have hget : a.res.getStep ((k : Int) + 1) = .ok s' := by
    simp only [SimResult.getStep, h2, Dict.get?, copy, h1]
    rw [← hs']; congr 1
  rw [hnext] at hs'
  injection h4 with h4
  split_ifs at h4 with hb
  · subst h4; simp [batchUpdateO] at hs'
  · subst h4
    obtain ⟨g0, h6, h7, h8⟩ := batchUpdate_toProps_ok hs'
    exact ⟨g0, s', hget, h6, h7, h8⟩

/-- C27: from step `k` to step `k + 1` of an asynchronous run only the sites and the general keys mentioned in the
`k`-th answer change. -/
theorem C27_frame (c : Controller σ) (hp : PreRunPure c) (st : σ) (s0 : SimState) (n : Nat)
    (a : AsyncSt (σ × List Ev)) (h : runAsync (traced c) (st, []) s0 n = .ok a) (k : Nat) (i : Key) (s : SimState)
    (r : Resp) (hk : (visits a.st.2)[k]? = some (i, s, r)) (ss gs : Props) (hparts : Parts i (body r) ss gs) :
    ∃ s', a.res.getStep k = .ok s ∧ a.res.getStep ((k : Int) + 1) = .ok s' ∧
      (∀ j, j ∉ Dict.keys ss → s'.getSiteState j = s.getSiteState j) ∧
      (∃ g g', s.getGeneralState = some g ∧ s'.getGeneralState = some g' ∧
        ∀ key, key ∉ Dict.keys gs → Dict.get? g' key = Dict.get? g key) := by
  obtain ⟨h1, g0, s', h2, h3, h4, rfl⟩ := async_step_from hp h hk hparts
  refine ⟨_, h1, h2, ?_, g0, _, h3, rfl, ?_⟩
  · intro j hj
    have hw : Dict.WF (Dict.update ([] : Props) ss) := Dict.WF.nil.update ss
    have : Dict.get? (Dict.update ([] : Props) ss) j = none := by
      rw [Dict.get?_eq_none_iff, Dict.mem_keys_update]; simpa using hj
    simp only [getSiteState]
    rw [get?_setSitesP hw, this]
  · intro key hkey
    have hw : Dict.WF (Dict.update ([] : Props) gs) := Dict.WF.nil.update gs
    have : Dict.get? (Dict.update ([] : Props) gs) key = none := by
      rw [Dict.get?_eq_none_iff, Dict.mem_keys_update]; simpa using hkey
    rw [Dict.get?_update hw, this]; simp

/-- C27 for the recorded steps, also if `pre_run` changes the state: from step `k` to step `k + 1` of the result only the sites and the general keys mentioned in
the `k`-th answer change. -/
theorem C27_recorded (c : Controller σ) (st : σ) (s0 : SimState) (n : Nat)
    (a : AsyncSt (σ × List Ev)) (h : runAsync (traced c) (st, []) s0 n = .ok a) (k : Nat) (i : Key) (s : SimState)
    (r : Resp) (hk : (visits a.st.2)[k]? = some (i, s, r)) (ss gs : Props) (hparts : Parts i (body r) ss gs)
    (t t' : SimState) (ht : a.res.getStep k = .ok t) (ht' : a.res.getStep ((k : Int) + 1) = .ok t') :
    (∀ j, j ∉ Dict.keys ss → t'.getSiteState j = t.getSiteState j) ∧
      (∃ g g', t.getGeneralState = some g ∧ t'.getGeneralState = some g' ∧
        ∀ key, key ∉ Dict.keys gs → Dict.get? g' key = Dict.get? g key) := by
  obtain ⟨_, _, _, hi, h1, h2, h3, _, _⟩ := runAsync_from h
  obtain ⟨u, h4, h5⟩ := hi.diff k i s r hk
  have hklt : k < a.res.diffs.length := by
    rw [← hi.count]; exact (List.getElem?_eq_some_iff.1 hk).1
  rw [mergeUpdates_split, mergeResp_parts hparts] at h4
  simp only [SimResult.getStep, h2, Dict.get?, copy, h1] at ht ht'
  have e0 : SimResult.replayTo s0 a.res.diffs k = .ok t := by simpa using ht
  have e1 : SimResult.replayTo s0 a.res.diffs (k + 1) = .ok t' := by rw [← ht']; congr 1
  rw [SimResult.replayTo_eq_replay_take _ _ _ (by omega)] at e0
  rw [SimResult.replayTo_eq_replay_take _ _ _ (by omega), List.take_add_one, h5] at e1
  have hs' : t.batchUpdateO (u.map Upd.toProps) = .ok t' := (SimResult.replay_snoc e0 _).symm.trans e1
  injection h4 with h4
  split_ifs at h4 with hb
  · subst h4; simp [batchUpdateO] at hs'
  · subst h4
    obtain ⟨g0, h6, h7, h8⟩ := batchUpdate_toProps_ok hs'
    have h8 : t' = { setSitesP t (Dict.update [] ss) with general := some (Dict.update g0 (Dict.update [] gs)) } := h8
    subst h8
    refine ⟨?_, g0, _, h6, rfl, ?_⟩
    · intro j hj
      have hw : Dict.WF (Dict.update ([] : Props) ss) := Dict.WF.nil.update ss
      have : Dict.get? (Dict.update ([] : Props) ss) j = none := by
        rw [Dict.get?_eq_none_iff, Dict.mem_keys_update]; simpa using hj
      simp only [getSiteState]
      rw [get?_setSitesP hw, this]
    · intro key hkey
      have hw : Dict.WF (Dict.update ([] : Props) gs) := Dict.WF.nil.update gs
      have : Dict.get? (Dict.update ([] : Props) gs) key = none := by
        rw [Dict.get?_eq_none_iff, Dict.mem_keys_update]; simpa using hkey
      rw [Dict.get?_update hw, this]; simp

/-! ### C28 -/

/-- The number stored under `q` (0 if there is none). -/
def amount (q : Key) (p : Props) : ℚ :=
  match Dict.get? p q with
  | some (.num x) => x
  | _ => 0

/-- The total of `q` over all sites. -/
def total (q : Key) (s : SimState) : ℚ := (s.sites.map fun kv => amount q kv.2).sum

/-- The amount a site has according to an update `u` of it: the updated amount if `q` is mentioned, else the old one. -/
def amountAfter (q : Key) (s : SimState) (i : Key) (u : Props) : ℚ :=
  if q ∈ Dict.keys u then amount q u else amount q ((s.getSiteState i).getD [])

/-- A response conserves `q`: it updates existing sites only, and over the sites it mentions the new amounts add up to
the old ones. -/
def Conserves (q : Key) (s : SimState) (ss : Props) : Prop :=
  (∀ i ∈ Dict.keys ss, i ∈ s.siteIds) ∧
  (ss.map fun kv => amountAfter q s kv.1 (dictOf kv.2)).sum =
    (ss.map fun kv => amount q ((s.getSiteState kv.1).getD [])).sum

theorem amount_update (q : Key) {old u : Props} (hu : Dict.WF u) :
    amount q (Dict.update old u) = if q ∈ Dict.keys u then amount q u else amount q old := by
  unfold amount
  rw [Dict.get?_update hu]
  split_ifs with h
  · rw [← Dict.get?_isSome_iff] at h
    cases hg : Dict.get? u q with
    | none => simp [hg] at h
    | some v => simp
  · rw [Dict.get?_eq_none_iff.2 h]; simp

theorem sum_set {d : Dict Key Props} (hd : Dict.WF d) {k : Key} {old new : Props} (h : Dict.get? d k = some old)
    (f : Props → ℚ) : ((Dict.set d k new).map fun kv => f kv.2).sum = (d.map fun kv => f kv.2).sum - f old + f new := by
  induction d with
  | nil => simp at h
  | cons p d ih =>
    obtain ⟨k', v⟩ := p
    rw [Dict.get?_cons] at h
    simp only [Dict.set]
    split_ifs at h ⊢ with hk
    · simp at h; subst h; simp; ring
    · simp [ih hd.tail h]; ring

theorem total_setSitesP (q : Key) {s : SimState} (hs : s.WF) {d : Props} (hd : (Val.dict d).WF)
    (hmem : ∀ i ∈ Dict.keys d, i ∈ s.siteIds) :
    total q (setSitesP s d) = total q s + (d.map fun kv => amountAfter q s kv.1 (dictOf kv.2)).sum -
      (d.map fun kv => amount q ((s.getSiteState kv.1).getD [])).sum := by
  induction d generalizing s with
  | nil => simp
  | cons p d ih =>
    obtain ⟨k, v⟩ := p
    have hk : k ∈ s.siteIds := hmem k (by simp)
    obtain ⟨old, hold⟩ := Option.isSome_iff_exists.1 (Dict.get?_isSome_iff.2 hk)
    have hvw : v.WF := hd.entry (kv := (k, v)) (by simp)
    have hu : Dict.WF (dictOf v) := wf_asDict hvw
    have hadict : (Val.dict (dictOf v)).WF := by
      cases v <;> first | exact hvw | exact .dict Dict.WF.nil (by simp [dictOf])
    have hs1 := hs.setSiteState k hadict
    have hdtail : (Val.dict d).WF := .dict hd.keys.tail fun kv h => hd.entry (by simp [h])
    have hids : (s.setSiteState k (dictOf v)).siteIds = s.siteIds := by rw [keys_setSiteState, if_pos hk]
    rw [setSitesP_cons, ih hs1 hdtail (by rw [hids]; exact fun i hi => hmem i (by simp [hi]))]
    have hsame : ∀ kv ∈ d, (s.setSiteState k (dictOf v)).getSiteState kv.1 = s.getSiteState kv.1 := by
      intro kv hkv
      have : k ≠ kv.1 := fun e => hd.keys.head (e ▸ List.mem_map.2 ⟨kv, hkv, rfl⟩)
      simp [getSiteState, get?_setSiteState, this]
    have e1 : (d.map fun kv => amountAfter q (s.setSiteState k (dictOf v)) kv.1 (dictOf kv.2)) =
        d.map fun kv => amountAfter q s kv.1 (dictOf kv.2) :=
      List.map_congr_left fun kv hkv => by simp only [amountAfter, hsame kv hkv]
    have e2 : (d.map fun kv => amount q (((s.setSiteState k (dictOf v)).getSiteState kv.1).getD [])) =
        d.map fun kv => amount q ((s.getSiteState kv.1).getD []) :=
      List.map_congr_left fun kv hkv => by simp only [hsame kv hkv]
    have e3 : total q (s.setSiteState k (dictOf v)) = total q s - amount q old + amountAfter q s k (dictOf v) := by
      unfold total
      rw [setSiteState_sites, sum_set hs.sites hold]
      have : oldOf s k = old := by simp [oldOf, hold]
      rw [this, amount_update q hu]
      have : s.getSiteState k = some old := hold
      simp [amountAfter, this]
    rw [e1, e2, e3]
    have : s.getSiteState k = some old := hold
    simp [this]; ring

/-- C28: if every answer of the rule conserves `q` on the state it was given for, the total of `q` is the same at every
recorded step of an asynchronous run. -/
theorem C28_conservation (q : Key) (c : Controller σ) (hp : PreRunPure c) (st : σ) (s0 : SimState) (hs0 : s0.WF)
    (n : Nat) (a : AsyncSt (σ × List Ev)) (h : runAsync (traced c) (st, []) s0 n = .ok a)
    (hc : ∀ (k : Nat) (i : Key) (s : SimState) (r : Resp), (visits a.st.2)[k]? = some (i, s, r) → RespWF (body r) ∧
      ∃ ss gs, Parts i (body r) ss gs ∧ (Val.dict ss).WF ∧ (Val.dict gs).WF ∧ Conserves q s ss)
    (k : Nat) (hk : k < a.res.len) :
    ∃ sk, a.res.getStep k = .ok sk ∧ sk.WF ∧ total q sk = total q s0 := by
  obtain ⟨hi, h1, h2, h3, _, _⟩ := runAsync_traced hp h
  induction k with
  | zero => exact ⟨s0, by simp [SimResult.getStep, h2, copy, h1], hs0, rfl⟩
  | succ k ih =>
    obtain ⟨sk, h4, h5, h6⟩ := ih (by omega)
    have hklt : k < (visits a.st.2).length := by
      rw [hi.count]; simp [SimResult.len] at hk; omega
    rcases hv : (visits a.st.2)[k] with ⟨i, s, r⟩
    have hv' : (visits a.st.2)[k]? = some (i, s, r) := by rw [List.getElem?_eq_getElem hklt, hv]
    obtain ⟨hw, ss, gs, hparts, hssw, hgsw, hcons⟩ := hc k i s r hv'
    obtain ⟨h7, g0, s', h8, h9, h10, h11⟩ := async_step_from hp h hv' hparts
    rw [h4] at h7; injection h7 with h7; subst h7
    have hupd : ∀ {d : Props}, Dict.WF d → Dict.update [] d = d := by
      intro d hd
      have key : ∀ (l acc : Props), Dict.WF (acc ++ l) → Dict.update acc l = acc ++ l := by
        intro l
        induction l with
        | nil => intro acc _; simp
        | cons p l ih =>
          intro acc hacc
          have hn : p.1 ∉ Dict.keys acc := by
            intro hm
            have := hacc
            simp only [Dict.WF, Dict.keys_append, Dict.keys_cons] at this
            exact (List.nodup_append.1 this).2.2 _ hm _ (by simp) rfl
          rw [Dict.update_cons, set_append_new hn, ih _ (by simpa using hacc)]
          simp
      simpa using key d [] (by simpa using hd)
    rw [hupd hssw.keys, hupd hgsw.keys] at h11
    refine ⟨s', by simpa using h8, ?_, ?_⟩
    · rw [h11]
      have hw1 := h5.setSitesP (d := ss) fun kv hkv => hssw.entry hkv
      refine ⟨hw1.sites, hw1.site, ?_⟩
      intro g hg; simp at hg; subst hg
      exact (h5.general g0 h9).update hgsw
    · have : total q s' = total q (setSitesP sk ss) := by rw [h11]; rfl
      rw [this, total_setSitesP q h5 hssw hcons.1, hcons.2, h6]; ring

/-- A hop: one unit moves from site 0 to site 1. -/
def hopDemo : Controller Unit where
  update _ _ s := .ok ((), .dict [(.int 0, .dict [(.str "n", .num (amount (.str "n") ((s.getSiteState (.int 0)).getD []) - 1))]),
    (.int 1, .dict [(.str "n", .num (amount (.str "n") ((s.getSiteState (.int 1)).getD []) + 1))])])
  randomSite _ _ := .ok ((), .one 0)

/-- The hop conserves the amount in any state that has sites 0 and 1. -/
example (s : SimState) (h0 : .int 0 ∈ s.siteIds) (h1 : .int 1 ∈ s.siteIds) :
    Conserves (.str "n") s [(.int 0, .dict [(.str "n", .num (amount (.str "n") ((s.getSiteState (.int 0)).getD []) - 1))]),
      (.int 1, .dict [(.str "n", .num (amount (.str "n") ((s.getSiteState (.int 1)).getD []) + 1))])] := by
  refine ⟨by simp [h0, h1], ?_⟩
  simp [amountAfter, dictOf, amount, Dict.get?]

example : (runAsync hopDemo () ⟨[(.int 0, [(.str "n", .num 5)]), (.int 1, [(.str "n", .num 2)])], some []⟩ 4).toOption.isSome
    = true := by decide

/-! ### C29 -/

/-- C29: the default `get_random_site` returns a stored id for every outcome of the random generator, on every
nonempty state whose ids are 0..n-1. -/
theorem C29_random_site (s : SimState) (n : Nat) (hn : 0 < n)
    (hids : s.siteIds.Perm ((List.range n).map fun (i : Nat) => Key.int (i : Int))) (r : Nat) :
    ∃ i, defaultRandomSite r s = .ok (.one i) ∧ .int i ∈ s.siteIds := by
  have hlen : s.siteIds.length = n := by rw [hids.length_eq]; simp
  refine ⟨((r % n : Nat) : Int), ?_, ?_⟩
  · simp [defaultRandomSite, hlen]; omega
  · rw [hids.mem_iff]
    exact List.mem_map.2 ⟨r % n, by simpa using Nat.mod_lt r hn, rfl⟩

/-- C29: every stored site can be drawn. -/
theorem C29_every_site (s : SimState) (n : Nat)
    (hids : s.siteIds.Perm ((List.range n).map fun (i : Nat) => Key.int (i : Int))) (i : Int)
    (hi : .int i ∈ s.siteIds) : ∃ r, defaultRandomSite r s = .ok (.one i) := by
  have hlen : s.siteIds.length = n := by rw [hids.length_eq]; simp
  rw [hids.mem_iff] at hi
  obtain ⟨j, hj, hij⟩ := List.mem_map.1 hi
  simp at hj hij
  refine ⟨j, ?_⟩
  simp [defaultRandomSite, hlen, ← hij, Nat.mod_eq_of_lt hj]; omega

/-- C29: the ids must be contiguous: on a state with the single site 5 the default choice is a site that does not exist. -/
theorem C29_false_for_gaps : ∃ (s : SimState) (r : Nat) (i : Int), s.siteIds ≠ [] ∧
    defaultRandomSite r s = .ok (.one i) ∧ .int i ∉ s.siteIds :=
  ⟨⟨[(.int 5, [])], some []⟩, 0, 0, by decide, by decide, by decide⟩

/-- C29: on an empty state it raises ValueError. -/
theorem C29_empty (s : SimState) (h : s.siteIds = []) (r : Nat) : defaultRandomSite r s = .error .valueError := by
  simp [defaultRandomSite, h]

example : (fromStruct ((List.range 4).map fun (i : Nat) => Key.int (i : Int))).siteIds.Perm
    ((List.range 4).map fun (i : Nat) => Key.int (i : Int)) := by decide

end Pyl
