import Verif.Props.Sync
import Verif.Props.Life
import Verif.Props.Async
import Verif.Lemmas.Replay
/-
C120: a serial run can be continued.
-/
set_option autoImplicit false

namespace Pyl
open SimState Spec
variable {σ : Type}

theorem SyncChain.append {c : Controller σ} {n m : Nat} {st st1 st2 : σ} {s s1 s2 : SimState} {ds es : List (Option Props)}
    (h : SyncChain c n st s ds st1 s1) (h' : SyncChain c m st1 s1 es st2 s2) : SyncChain c (n + m) st s (ds ++ es) st2 s2 := by
  induction h with
  | zero => simpa using h'
  | @succ n st st1 st2 s s1 s2 u ds h1 h2 h3 ih =>
    have := SyncChain.succ h1 h2 (ih h')
    rwa [show n + 1 + m = n + m + 1 by omega]

theorem SyncChain.replay {c : Controller σ} {n : Nat} {st st1 : σ} {s s1 : SimState} {ds : List (Option Props)} (h : SyncChain c n st s ds st1 s1) :
    SimResult.replay s ds = .ok s1 := by
  induction h with
  | zero => rfl
  | succ h1 h2 _ ih => rw [SimResult.replay_cons, h2, ok_bind, ih]

/-- After `n` steps the loop goes on as if it had been started there. -/
theorem syncLoop_add {c : Controller σ} {n : Nat} {st st1 : σ} {s s1 : SimState} {ds : List (Option Props)} (h : SyncChain c n st s ds st1 s1) (m : Nat)
    (res : SimResult) : syncLoop c (n + m) st s res = syncLoop c m st1 s1 { res with diffs := res.diffs ++ ds } := by
  induction h generalizing res with
  | zero => simp
  | @succ n st st1 st2 s s1 s2 u ds h1 h2 _ ih =>
    rw [show n + 1 + m = n + m + 1 by omega, syncLoop]
    simp only [h1, ok_bind, h2, ih]
    simp [SimResult.addStep]

/-- The recorded steps do not matter for errors. -/
theorem syncLoop_error {c : Controller σ} {n : Nat} {st : σ} {s : SimState} {res res' : SimResult} {e : Err} (h : syncLoop c n st s res = .error e) :
    syncLoop c n st s res' = .error e := by
  induction n generalizing st s res res' with
  | zero => simp [syncLoop] at h
  | succ n ih =>
    rw [syncLoop] at h ⊢
    rcases h1 : takeStep c st s with e' | ⟨st', u⟩
    · simp only [h1, error_bind] at h ⊢; exact h
    · simp only [h1, ok_bind] at h ⊢
      rcases h2 : s.batchUpdateO (u.map Upd.toProps) with e' | s'
      · simp only [h2, error_bind] at h ⊢; exact h
      · simp only [h2, ok_bind] at h ⊢; exact ih h

/-- C120: continuing a serial run from its output, with the controller as the first run left it, gives the steps of the longer run; it raises what the longer run raises. -/
theorem C120_continued (c : Controller σ) (hp : PreRunPure c) (st st1 : σ) (s0 s1 : SimState) (n : Nat) (res1 : SimResult)
    (h1 : runSync c st s0 n = .ok (st1, res1)) (hout : res1.output = some s1) (hpre : c.preRun st1 s1 = .ok (st1, s1)) (m : Nat) :
    (∀ st2 res2, runSync c st1 s1 m = .ok (st2, res2) → ∃ res, runSync c st s0 (n + m) = .ok (st2, res) ∧ res.len = n + m + 1 ∧ res.output = res2.output ∧
      (∀ k : ℕ, k ≤ n → res.getStep k = res1.getStep k) ∧ ∀ k : ℕ, k ≤ m → res.getStep (n + k : ℕ) = res2.getStep k) ∧
    ∀ e, runSync c st1 s1 m = .error e → runSync c st s0 (n + m) = .error e := by
  obtain ⟨sti, live, ds, hi, hc, rfl⟩ := runSync_ok hp h1
  cases hout
  constructor
  · intro st2 res2 h2
    obtain ⟨sti', live', es, hi', hc', rfl⟩ := runSync_ok hp h2
    rw [hpre] at hi'; cases hi'
    refine ⟨⟨s0, ds ++ es, [], some live'⟩, ?_, ?_, rfl, fun k hk => ?_, fun k hk => ?_⟩
    · unfold runSync
      rw [hi, ok_bind]
      dsimp only
      rw [show s0.copy = s0 from rfl, syncLoop_of_chain (hc.append hc'), ok_bind]
      rfl
    · simp [SimResult.len, hc.length, hc'.length]
    · simp only [SimResult.getStep, Dict.get?, copy, Int.toNat_natCast]
      exact SimResult.replayTo_append _ _ _ _ (by rw [hc.length]; exact hk)
    · simp only [SimResult.getStep, Dict.get?, copy, Int.toNat_natCast]
      have hl := hc.length; have hl' := hc'.length
      rw [SimResult.replayTo_eq_replay_take _ _ _ (by simp; omega), SimResult.replayTo_eq_replay_take _ _ _ (by omega), List.take_append,
        List.take_of_length_le (by omega), SimResult.replay_append, hc.replay, ok_bind, hl, Nat.add_sub_cancel_left]
  · intro e h2
    unfold runSync at h2 ⊢
    rw [hpre, ok_bind] at h2
    rw [hi, ok_bind]
    dsimp only at h2 ⊢
    rw [show s0.copy = s0 from rfl, syncLoop_add hc]
    cases h3 : syncLoop c m st1 s1.copy (SimResult.new s1.copy) with
    | ok p => rw [h3, ok_bind] at h2; cases h2
    | error e' =>
      rw [h3, error_bind] at h2
      rw [show s1 = s1.copy from rfl, syncLoop_error h3, error_bind]; exact h2

/-- C120: a shorter run is the beginning of a longer one. -/
theorem C120_prefix (c : Controller σ) (hp : PreRunPure c) (st st2 : σ) (s0 : SimState) (n m : Nat) (res : SimResult)
    (h : runSync c st s0 (n + m) = .ok (st2, res)) :
    ∃ st1 res1, runSync c st s0 n = .ok (st1, res1) ∧ res1.len = n + 1 ∧ ∀ k : ℕ, k ≤ n → res1.getStep k = res.getStep k := by
  obtain ⟨sti, live, ds, hi, hc, rfl⟩ := runSync_ok hp h
  obtain ⟨stk, sk, h1, -, -⟩ := hc.split n (by omega)
  have hl := hc.length
  refine ⟨stk, ⟨s0, ds.take n, [], some sk⟩, ?_, by simp [SimResult.len]; omega, fun k hk => ?_⟩
  · unfold runSync
    rw [hi, ok_bind]
    dsimp only
    rw [show s0.copy = s0 from rfl, syncLoop_of_chain h1, ok_bind]
    rfl
  · simp only [SimResult.getStep, Dict.get?, copy, Int.toNat_natCast]
    conv_rhs => rw [← List.take_append_drop n ds]
    exact (SimResult.replayTo_append _ _ _ _ (by rw [List.length_take]; omega)).symm

/-- A rule that does not change its controller leaves it as `pre_run` made it. -/
theorem SyncChain.same {c : Controller σ} (hu : ∀ st i s st' r, c.update st i s = .ok (st', r) → st' = st) {n : Nat} {st st1 : σ} {s s1 : SimState}
    {ds : List (Option Props)} (h : SyncChain c n st s ds st1 s1) : st1 = st := by
  induction h with
  | zero => rfl
  | @succ n st st1 st2 s s1 s2 u ds h1 _ _ ih =>
    rw [ih]
    unfold takeStep stepBatch at h1
    have key : ∀ (l : List Key) (a b : σ × Option Upd), l.foldlM (fun (acc : σ × Option Upd) sid => do
        let (st', r) ← c.update acc.1 sid s
        let b ← mergeResp r acc.2 sid
        pure (st', b)) a = Except.ok (ε := Err) b → b.1 = a.1 := by
      intro l
      induction l with
      | nil => intro a b h; cases h; rfl
      | cons x l ihl =>
        intro a b h
        rw [List.foldlM_cons] at h
        obtain ⟨a', ha, hb⟩ := bind_ok h
        obtain ⟨⟨st', r⟩, hx, hy⟩ := bind_ok ha
        obtain ⟨v, -, hz⟩ := bind_ok hy
        cases hz
        rw [ihl _ _ hb]
        exact hu _ _ _ _ _ hx
    exact key _ _ _ h1

/-- C120 for Life: every serial run of Life that succeeds can be continued with the same controller. -/
theorem C120_life {K : Type} [Field K] [LinearOrder K] [IsStrictOrderedRing K] [FloorRing K] (c c1 : Life.Ctl K) (s0 s1 : SimState) (n m : Nat)
    (res1 : SimResult) (h1 : runSync Life.controller c s0 n = .ok (c1, res1)) (hout : res1.output = some s1) :
    (∀ c2 res2, runSync Life.controller c1 s1 m = .ok (c2, res2) → ∃ res, runSync Life.controller c s0 (n + m) = .ok (c2, res) ∧ res.len = n + m + 1 ∧
      (∀ k : ℕ, k ≤ n → res.getStep k = res1.getStep k) ∧ ∀ k : ℕ, k ≤ m → res.getStep (n + k : ℕ) = res2.getStep k) ∧
    ∀ e, runSync Life.controller c1 s1 m = .error e → runSync Life.controller c s0 (n + m) = .error e := by
  have hp : PreRunPure (Life.controller (K := K)) := by
    intro st s st' s' h
    obtain ⟨g, -, h⟩ := bind_ok h
    cases h; rfl
  have hu : ∀ st i s st' r, (Life.controller (K := K)).update st i s = .ok (st', r) → st' = st := by
    intro st i s st' r h
    change Life.update st i s = _ at h
    unfold Life.update at h
    dsimp only at h
    split at h
    · cases h
    rw [ok_bind] at h
    obtain ⟨nbs, -, h⟩ := bind_ok h
    obtain ⟨a, -, h⟩ := bind_ok h
    obtain ⟨o, -, h⟩ := bind_ok h
    cases h; rfl
  obtain ⟨sti, live, ds, hi, hc, hr⟩ := runSync_ok hp h1
  have hpre : (Life.controller (K := K)).preRun c1 s1 = .ok (c1, s1) := by
    rw [hc.same hu]
    obtain ⟨g, hg, hi⟩ := bind_ok hi
    cases hi
    show (_ >>= _) = _
    dsimp only
    rw [hg, ok_bind]; rfl
  obtain ⟨ha, hb⟩ := C120_continued _ hp c c1 s0 s1 n res1 h1 hout hpre m
  exact ⟨fun c2 res2 h2 => let ⟨r, a, b, _, d⟩ := ha c2 res2 h2; ⟨r, a, b, d⟩, hb⟩

/-- A rule that adds one at the site it is asked about and names the other of the sites 0 and 1 as the next; it starts at site 0. -/
def pingDemo : Controller Unit where
  update _ i s := .ok ((), .tuple (some [(.str "n", .num (amount (.str "n") ((s.getSiteState i).getD []) + 1))]) [if i = .int 0 then .int 1 else .int 0])
  randomSite _ _ := .ok ((), .one 0)

/-- C120: the asynchronous runner does not have this property, because the queue of sites to visit is not part of the result: two steps visit sites 0 and 1, but
two runs of one step, the second started from the output of the first, visit site 0 twice. -/
theorem C120_async_forgets : ∃ (s0 s1 : SimState) (a1 a2 a : AsyncSt Unit),
    runAsync pingDemo () s0 1 = .ok a1 ∧ a1.res.output = some s1 ∧ runAsync pingDemo () s1 1 = .ok a2 ∧ runAsync pingDemo () s0 2 = .ok a ∧
    a.res.output ≠ a2.res.output := by
  refine ⟨⟨[(.int 0, [(.str "n", .num 0)]), (.int 1, [(.str "n", .num 0)])], some []⟩, _, _, _, _, rfl, rfl, rfl, rfl, ?_⟩
  decide +kernel

theorem asyncStep_grows {c : Controller σ} {a b : AsyncSt σ} (h : asyncStep c a = .ok b) :
    b.res.initial = a.res.initial ∧ b.res.stored = a.res.stored ∧ (∃ d, b.res.diffs = a.res.diffs ++ [d]) ∧ ∃ i, b.trace = a.trace ++ [i] := by
  unfold asyncStep at h
  cases hq : a.queue with
  | nil => rw [hq] at h; cases h
  | cons sid q =>
    rw [hq] at h
    obtain ⟨_, _, h⟩ := bind_ok h
    obtain ⟨u, _, h⟩ := bind_ok h
    obtain ⟨_, _, h⟩ := bind_ok h
    obtain ⟨_, _, h⟩ := bind_ok h
    simp only [pure, Except.pure, Except.ok.injEq] at h
    rw [← h]
    exact ⟨rfl, rfl, ⟨_, rfl⟩, _, rfl⟩

theorem asyncLoop_grows {c : Controller σ} (n : Nat) {a b : AsyncSt σ} (h : asyncLoop c n a = .ok b) :
    b.res.initial = a.res.initial ∧ b.res.stored = a.res.stored ∧
      ∃ ds is, b.res.diffs = a.res.diffs ++ ds ∧ b.trace = a.trace ++ is ∧ ds.length = is.length ∧ ds.length ≤ n := by
  induction n generalizing a with
  | zero =>
    simp only [asyncLoop, Except.ok.injEq] at h
    subst h
    exact ⟨rfl, rfl, [], [], by simp, by simp, rfl, le_rfl⟩
  | succ n ih =>
    simp only [asyncLoop] at h
    obtain ⟨a', h1, h2⟩ := bind_ok h
    obtain ⟨g1, g2, ⟨d, g3⟩, i, g4⟩ := asyncStep_grows h1
    split_ifs at h2
    · simp only [pure, Except.pure, Except.ok.injEq] at h2
      subst h2
      exact ⟨g1, g2, [d], [i], g3, g4, rfl, by simp⟩
    · obtain ⟨k1, k2, ds, is, k3, k4, k5, k6⟩ := ih h2
      exact ⟨k1.trans g1, k2.trans g2, d :: ds, i :: is, by rw [k3, g3]; simp, by rw [k4, g4]; simp, by simp [k5], by simpa using k6⟩

/-- The longer loop passes through the end of the shorter one, or both stop early with the same. -/
theorem asyncLoop_split {c : Controller σ} (n m : Nat) {x a : AsyncSt σ} (h : asyncLoop c (n + m) x = .ok a) :
    ∃ b, asyncLoop c n x = .ok b ∧ ((b.res.diffs.length = x.res.diffs.length + n ∧ asyncLoop c m b = .ok a) ∨ b = a) := by
  induction n generalizing x with
  | zero => exact ⟨x, rfl, Or.inl ⟨rfl, by simpa using h⟩⟩
  | succ n ih =>
    rw [show n + 1 + m = n + m + 1 by omega] at h
    simp only [asyncLoop] at h ⊢
    obtain ⟨x', h1, h2⟩ := bind_ok h
    obtain ⟨-, -, ⟨d, g3⟩, -⟩ := asyncStep_grows h1
    rw [h1, ok_bind]
    split_ifs at h2 ⊢
    · exact ⟨x', rfl, Or.inr (by simpa [pure, Except.pure] using h2)⟩
    · obtain ⟨b, k1, k2⟩ := ih h2
      refine ⟨b, k1, k2.imp (fun k => ⟨?_, k.2⟩) id⟩
      rw [k.1, g3]
      simp
      omega

/-- C120 for the asynchronous runner: a shorter run, with the same choices, is the beginning of a longer one: it succeeds, visits the first sites the longer run visits, and has
the same first steps.  It has all `n` steps unless the longer run stopped early as well. -/
theorem C120_async_prefix (c : Controller σ) (st : σ) (s0 : SimState) (n m : Nat) (a : AsyncSt σ) (h : runAsync c st s0 (n + m) = .ok a) :
    ∃ a1, runAsync c st s0 n = .ok a1 ∧ a1.trace = a.trace.take n ∧ a1.res.len = min (n + 1) a.res.len ∧
      ∀ k : ℕ, k < a1.res.len → a1.res.getStep k = a.res.getStep k := by
  unfold runAsync at h
  obtain ⟨⟨st1, s1⟩, h1, h2⟩ := bind_ok h
  obtain ⟨a2, h3, h4⟩ := bind_ok h2
  unfold asyncRunFrom at h3
  obtain ⟨⟨st2, q⟩, h5, h6⟩ := bind_ok h3
  simp only at h6
  split_ifs at h6 with hq
  obtain ⟨a3, h7, h8⟩ := bind_ok h6
  simp only [pure, Except.pure, Except.ok.injEq] at h8 h4
  subst h8
  subst h4
  obtain ⟨b, g1, g2⟩ := asyncLoop_split n m h7
  obtain ⟨i1, i2, ds, is, i3, i4, i5, i6⟩ := asyncLoop_grows n g1
  have hb : ∃ es js, a3.res.diffs = b.res.diffs ++ es ∧ a3.trace = b.trace ++ js ∧ a3.res.initial = b.res.initial ∧ a3.res.stored = b.res.stored ∧
      (b.res.diffs.length = n ∨ es = [] ∧ js = []) := by
    rcases g2 with ⟨hl, g2⟩ | rfl
    · obtain ⟨j1, j2, es, js, j3, j4, -, -⟩ := asyncLoop_grows m g2
      exact ⟨es, js, j3, j4, j1, j2, Or.inl (by simpa [SimResult.new] using hl)⟩
    · exact ⟨[], [], by simp, by simp, rfl, rfl, Or.inr ⟨rfl, rfl⟩⟩
  obtain ⟨es, js, e1, e2, e3, e4, e5⟩ := hb
  have hbl : b.res.diffs.length = ds.length := by rw [i3]; simp [SimResult.new]
  have hbt : b.trace.length = ds.length := by rw [i4, i5]; simp
  refine ⟨{ b with res := (b.res.setOutput b.live).setOutput b.live }, ?_, ?_, ?_, fun k hk => ?_⟩
  · simp only [runAsync, h1, ok_bind, asyncRunFrom]
    rw [h5, ok_bind]
    simp only [hq]
    rw [g1]
    rfl
  · rw [e2]
    rcases e5 with e5 | ⟨-, rfl⟩
    · rw [List.take_append_of_le_length (by omega), List.take_of_length_le (by omega)]
    · rw [List.append_nil, List.take_of_length_le (by omega)]
  · simp only [SimResult.len, SimResult.setOutput, e1, List.length_append]
    rcases e5 with e5 | ⟨rfl, -⟩
    · omega
    · simp only [List.length_nil]; omega
  · simp only [SimResult.len, SimResult.setOutput] at hk
    have hst : b.res.stored = [] := by rw [i2]; rfl
    have hst' : a3.res.stored = [] := e4.trans hst
    simp only [SimResult.getStep, SimResult.setOutput, hst, hst', Dict.get?, copy, e1, e3]
    simp only [Int.toNat_natCast]
    rw [SimResult.replayTo_eq_replay_take _ _ _ (by omega), SimResult.replayTo_eq_replay_take _ _ _ (by simp; omega), List.take_append_of_le_length (by omega)]

theorem parallelLoop_split {c : Controller σ} (ids : List Key) (chunk : Nat) (sched : Nat → StepSched) (n m k : Nat) {last : Option Props} {ws : Nat → Worker σ}
    {res res' : SimResult} (h : parallelLoop c ids chunk sched k (n + m) last ws res = .ok res') :
    ∃ ds es, ds.length = n ∧ es.length = m ∧ parallelLoop c ids chunk sched k n last ws res = .ok { res with diffs := res.diffs ++ ds } ∧
      res' = { res with diffs := res.diffs ++ ds ++ es } := by
  induction n generalizing k last ws res with
  | zero =>
    rw [Nat.zero_add] at h
    have : ∃ es : List (Option Props), es.length = m ∧ res' = { res with diffs := res.diffs ++ es } := by
      induction m generalizing k last ws res with
      | zero =>
        simp only [parallelLoop, Except.ok.injEq] at h
        exact ⟨[], rfl, by simp [h]⟩
      | succ m ih =>
        simp only [parallelLoop] at h
        obtain ⟨⟨ws1, u⟩, -, h2⟩ := bind_ok h
        obtain ⟨es, g1, g2⟩ := ih _ h2
        exact ⟨u.map Upd.toProps :: es, by simp [g1], by rw [g2]; simp [SimResult.addStep]⟩
    obtain ⟨es, g1, g2⟩ := this
    exact ⟨[], es, rfl, g1, by simp [parallelLoop], by simp [g2]⟩
  | succ n ih =>
    rw [show n + 1 + m = n + m + 1 by omega] at h
    simp only [parallelLoop] at h ⊢
    obtain ⟨⟨ws1, u⟩, h1, h2⟩ := bind_ok h
    obtain ⟨ds, es, g1, g2, g3, g4⟩ := ih _ h2
    refine ⟨u.map Upd.toProps :: ds, es, by simp [g1], g2, ?_, ?_⟩
    · rw [h1, ok_bind]
      simp only
      rw [g3]
      simp [SimResult.addStep]
    · rw [g4]
      simp [SimResult.addStep]

/-- C120 for the parallel runner: a shorter run in which the pool distributes the batches in the same way is the beginning of a longer one. -/
theorem C120_parallel_prefix (c : Controller σ) (fork : Nat → σ → σ) (st : σ) (s0 : SimState) (w n m : Nat) (sched : Nat → StepSched) (res : SimResult)
    (h : runParallel c fork st s0 w (n + m) sched = .ok res) :
    ∃ res1, runParallel c fork st s0 w n sched = .ok res1 ∧ res1.len = n + 1 ∧ res.len = n + m + 1 ∧ ∀ k : ℕ, k ≤ n → res1.getStep k = res.getStep k := by
  unfold runParallel at h
  obtain ⟨⟨st1, s1⟩, h1, h2⟩ := bind_ok h
  simp only at h2
  split_ifs at h2 with hw
  obtain ⟨r, h3, h4⟩ := bind_ok h2
  simp only [pure, Except.pure, Except.ok.injEq] at h4
  subst h4
  obtain ⟨ds, es, g1, g2, g3, rfl⟩ := parallelLoop_split _ _ _ n m 0 h3
  refine ⟨SimResult.setOutput { SimResult.new s0.copy with diffs := (SimResult.new s0.copy).diffs ++ ds } s1.copy, ?_, ?_, ?_, fun k hk => ?_⟩
  · simp only [runParallel, h1, ok_bind, hw, if_false]
    rw [g3]
    rfl
  · simp [SimResult.len, SimResult.setOutput, SimResult.new, g1]
  · simp [SimResult.len, SimResult.setOutput, SimResult.new, g1, g2]
  · simp only [SimResult.getStep, SimResult.setOutput, SimResult.new, Dict.get?, copy, List.nil_append, Int.toNat_natCast]
    rw [SimResult.replayTo_eq_replay_take _ _ _ (by omega), SimResult.replayTo_eq_replay_take _ _ _ (by simp; omega), List.take_append_of_le_length (by omega)]

/-- C120: a shorter serial run is the beginning of a longer one also if `pre_run` changes the state. -/
theorem C120_prefix_any (c : Controller σ) (st st2 : σ) (s0 : SimState) (n m : Nat) (res : SimResult) (h : runSync c st s0 (n + m) = .ok (st2, res)) :
    ∃ st1 res1, runSync c st s0 n = .ok (st1, res1) ∧ res1.len = n + 1 ∧ ∀ k : ℕ, k ≤ n → res1.getStep k = res.getStep k := by
  unfold runSync at h
  obtain ⟨⟨sti, si⟩, hi, h⟩ := bind_ok h
  obtain ⟨⟨st3, live, res1⟩, h3, h4⟩ := bind_ok h
  obtain ⟨ds, hc, hr⟩ := syncLoop_ok h3
  simp only [pure, Except.pure, Except.ok.injEq, Prod.mk.injEq] at h4
  obtain ⟨rfl, rfl⟩ := h4
  subst hr
  obtain ⟨stk, sk, h1, -, -⟩ := hc.split n (by omega)
  have hl := hc.length
  refine ⟨stk, ⟨s0, ds.take n, [], some sk⟩, ?_, by simp [SimResult.len]; omega, fun k hk => ?_⟩
  · unfold runSync
    rw [hi, ok_bind]
    dsimp only
    rw [show si.copy = si from rfl] at *
    rw [syncLoop_of_chain h1, ok_bind]
    rfl
  · simp only [SimResult.getStep, SimResult.setOutput, SimResult.new, Dict.get?, copy, List.nil_append, Int.toNat_natCast]
    rw [SimResult.replayTo_eq_replay_take _ _ _ (by simp; omega), SimResult.replayTo_eq_replay_take _ _ _ (by omega), List.take_take, Nat.min_eq_left hk]

/-! Runs of 6 and of 2 steps of `bfsDemo` (see Async.lean) and of `pingDemo`. -/
example : (runAsync bfsDemo () ⟨[], some []⟩ (2 + 4)).toOption.map (fun a => a.trace.take 2) = (runAsync bfsDemo () ⟨[], some []⟩ 2).toOption.map (fun a => a.trace) ∧
    (runAsync bfsDemo () ⟨[], some []⟩ (2 + 4)).toOption.isSome = true := by decide
example : ((runAsync pingDemo () ⟨[(.int 0, [(.str "n", .num 0)]), (.int 1, [(.str "n", .num 0)])], some []⟩ (1 + 1)).toOption.map (fun a => a.res.len)) = some 3 := by decide

/-- A clock that counts the calls of its rule and writes the count to every site: what it leaves behind matters for the second run. -/
def countDemo : Controller Nat where
  update st _ _ := .ok (st + 1, .dict [(.str "n", .num (st : Rat))])

/-! A parallel run of three steps with two workers, the second of which sits out the second step. -/
example : ((runParallel countDemo (fun _ st => st) 0 ⟨[(.int 0, []), (.int 1, [])], some []⟩ 2 (1 + 2)
    (fun k => if k = 1 then [(0, 0), (1, 0)] else [(0, 0), (1, 1)])).toOption.map (fun r => r.len)) = some 4 := by decide

example : ∃ st1 res1 s1 st2 res2, runSync countDemo 0 ⟨[(.int 0, []), (.int 1, [])], some []⟩ 2 = .ok (st1, res1) ∧ res1.output = some s1 ∧
    countDemo.preRun st1 s1 = .ok (st1, s1) ∧ PreRunPure countDemo ∧ runSync countDemo st1 s1 1 = .ok (st2, res2) ∧ st2 = 6 :=
  ⟨_, _, _, _, _, rfl, rfl, rfl, fun _ _ _ _ h => by cases h; rfl, rfl, rfl⟩

end Pyl
