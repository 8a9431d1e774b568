import Verif.Lemmas.HeapRun
import Verif.Props.Heap
import Verif.Model.Life
/-
C123: runs with answers that share objects.
-/
set_option autoImplicit false

namespace Pyl
namespace Heap

/-- Situations that client code can bring about with commands and with completed serial or asynchronous runs of code that
follows a controller. -/
inductive Situation : World HMem → Prop where
  | start : Situation ⟨.init, [], []⟩
  | cmd {w : World HMem} (c : Cmd) : Situation w → Situation (w.step heapOps c).1
  | serial {w : World HMem} {σ : Type} {c : Code σ} {C : Controller σ} {held : σ → List (Nat × Val)} {st st' : σ} {i n r : Nat}
      {s0 : SimState} : Situation w → Follows c C held → Shows w.mem i s0 → (∀ p ∈ held st, Known w.mem p) →
      (runSyncAt c st i n w).2 = .ok (st', r) → Situation (runSyncAt c st i n w).1
  | async {w : World HMem} {σ : Type} {c : Code σ} {C : Controller σ} {held : σ → List (Nat × Val)} {st st' : σ} {i n r : Nat}
      {s0 : SimState} : Situation w → Follows c C held → Shows w.mem i s0 → (∀ p ∈ held st, Known w.mem p) →
      (runAsyncAt c st i n w).2 = .ok (st', r) → Situation (runAsyncAt c st i n w).1

theorem Situation.sim {w : World HMem} (h : Situation w) : ∃ v, WSim w v ∧ WWF v := by
  induction h with
  | start => exact ⟨_, wsim_init, wwf_init⟩
  | cmd c _ ih =>
    obtain ⟨v, h1, h2⟩ := ih
    exact ⟨_, (h1.step c).2, (h2.step c).1⟩
  | @serial w σ c C held st st' i n r s0 _ hc hs hk hr ih =>
    obtain ⟨v, h1, h2⟩ := ih
    have := runSyncAt_sim hc h1 h2 ((h1.mem.shows i s0).1 hs) (fun p hp => (h1.mem.known p).1 (hk p hp)) n
    revert this
    cases runSync C st s0 n with
    | error e => intro he; simp only at he; rw [he] at hr; cases hr
    | ok y => rintro ⟨_, v', x, he, _⟩; exact ⟨v', he.sim, he.wf⟩
  | @async w σ c C held st st' i n r s0 _ hc hs hk hr ih =>
    obtain ⟨v, h1, h2⟩ := ih
    have := runAsyncAt_sim hc h1 h2 ((h1.mem.shows i s0).1 hs) (fun p hp => (h1.mem.known p).1 (hk p hp)) n
    revert this
    cases runAsync C st s0 n with
    | error e => intro he; simp only at he; rw [he] at hr; cases hr
    | ok y => rintro ⟨_, v', x, he, _⟩; exact ⟨v', he.sim, he.wf⟩

theorem Reachable.situation {w : World HMem} (h : Reachable w) : Situation w := by
  obtain ⟨cs, rfl⟩ := h
  suffices ∀ (cs : List Cmd) (w : World HMem), Situation w → Situation (w.run heapOps cs).1 from this cs _ .start
  intro cs
  induction cs with
  | nil => intro w hw; exact hw
  | cons c cs ih => intro w hw; exact ih _ (.cmd c hw)

/-- What a completed run leaves behind, for the caller: the result object, the state that was passed in (as `pre_run` left
it), all other states, and what the controller keeps. -/
structure LeftBehind {σ : Type} (C : Controller σ) (held : σ → List (Nat × Val)) (w w' : World HMem) (i : Nat) (st st' : σ)
    (s0 : SimState) (res : SimResult) : Prop where
  result : ResultReads w' w.results.length res
  caller : ∃ st1 s1, C.preRun st s0 = .ok (st1, s1) ∧ Shows w'.mem i s1
  others : ∀ j s, j ≠ i → Shows w.mem j s → Shows w'.mem j s
  kept : ∀ p ∈ held st', Known w'.mem p

/-- C123: a serial run of code that makes objects and reads states, and changes no object, is the run of the controller it
follows, whichever objects it returns: it may return the dicts of the live state themselves, one object for many sites, or
the same object in every step. -/
theorem C123_serial {σ : Type} {c : Code σ} {C : Controller σ} {held : σ → List (Nat × Val)} (hc : Follows c C held)
    {w : World HMem} (hw : Situation w) {i : Nat} {s0 : SimState} (hs : Shows w.mem i s0) {st : σ}
    (hk : ∀ p ∈ held st, Known w.mem p) (n : Nat) :
    match runSync C st s0 n with
    | .error e => (runSyncAt c st i n w).2 = .error e
    | .ok (st', res) => (runSyncAt c st i n w).2 = .ok (st', w.results.length) ∧
        LeftBehind C held w (runSyncAt c st i n w).1 i st st' s0 res := by
  obtain ⟨v, h1, h2⟩ := hw.sim
  have := runSyncAt_sim hc h1 h2 ((h1.mem.shows i s0).1 hs) (fun p hp => (h1.mem.known p).1 (hk p hp)) n
  revert this
  cases runSync C st s0 n with
  | error e => exact id
  | ok y =>
    obtain ⟨st', res⟩ := y
    rintro ⟨g1, v', x, g2, g3, ⟨st1, s1, g4, g5⟩, _, g6⟩
    exact ⟨g1, g2.reads, ⟨st1, s1, g4, (g2.sim.mem.shows _ _).2 g5⟩,
      fun j s hj hjs => (g2.sim.mem.shows _ _).2 (g3.states j s hj ((h1.mem.shows _ _).1 hjs)),
      fun p hp => (g2.sim.mem.known p).2 (g6 p hp)⟩

/-- C123 for asynchronous runs. -/
theorem C123_async {σ : Type} {c : Code σ} {C : Controller σ} {held : σ → List (Nat × Val)} (hc : Follows c C held)
    {w : World HMem} (hw : Situation w) {i : Nat} {s0 : SimState} (hs : Shows w.mem i s0) {st : σ}
    (hk : ∀ p ∈ held st, Known w.mem p) (n : Nat) :
    match runAsync C st s0 n with
    | .error e => (runAsyncAt c st i n w).2 = .error e
    | .ok a => (runAsyncAt c st i n w).2 = .ok (a.st, w.results.length) ∧
        LeftBehind C held w (runAsyncAt c st i n w).1 i st a.st s0 a.res := by
  obtain ⟨v, h1, h2⟩ := hw.sim
  have := runAsyncAt_sim hc h1 h2 ((h1.mem.shows i s0).1 hs) (fun p hp => (h1.mem.known p).1 (hk p hp)) n
  revert this
  cases runAsync C st s0 n with
  | error e => exact id
  | ok a =>
    rintro ⟨g1, v', x, g2, g3, ⟨st1, s1, g4, g5⟩, _, g6⟩
    exact ⟨g1, g2.reads, ⟨st1, s1, g4, (g2.sim.mem.shows _ _).2 g5⟩,
      fun j s hj hjs => (g2.sim.mem.shows _ _).2 (g3.states j s hj ((h1.mem.shows _ _).1 hjs)),
      fun p hp => (g2.sim.mem.known p).2 (g6 p hp)⟩

theorem stepOf_diffVal (ds : List (Option Props)) : ∀ (s : SimState) (k : Nat),
    stepOf s (ds.map diffVal) k = SimResult.replayTo s ds k := by
  induction ds with
  | nil =>
    intro s k
    cases k with
    | zero => rfl
    | succ k => rfl
  | cons d ds ih =>
    intro s k
    cases k with
    | zero => rfl
    | succ k =>
      have hst : stepOf s ((d :: ds).map diffVal) (k + 1) = (applyVal s (diffVal d)).bind fun s' => stepOf s' (ds.map diffVal) k := by
        simp only [stepOf, List.map_cons, List.take_succ_cons, List.foldlM_cons, List.length_cons, Nat.add_le_add_iff_right]
        simp only [bind]
        cases applyVal s (diffVal d) <;> rfl
      rw [hst, applyVal_diffVal]
      simp only [SimResult.replayTo, bind, Except.bind]
      cases s.batchUpdateO d with
      | error e => rfl
      | ok s' => exact ih s' k

/-- The result of a run answers as the result on values, whatever is done afterwards to other states. -/
theorem Ended.reports {w : World HMem} {v : World VMem} {x0 r x : Nat} {res : SimResult} (h : Ended w v x0 r x res)
    (later : List Prim) (hl : ∀ p ∈ later, p.target ≠ some x0) (k : Int) :
    Reports (w.run heapOps (later.map .prim)).1 r k (res.getStep k) := by
  obtain ⟨js, h1, h2⟩ := h.diffs
  have hw2 := (h.sim.run (later.map .prim)).2
  have hwf2 := h.wf.run (later.map .prim)
  have hres2 : (v.run valOps (later.map .prim)).1.results[r]? = some ⟨x0, js, [], some x⟩ := by
    rw [(run_prims_results v later).1]; exact h1
  have hinit2 : (v.run valOps (later.map .prim)).1.mem.states[x0]? = some res.initial := by
    refine h.wf.run_keeps' _ x0 _ h.init (by simp) ?_
    intro p hpm
    simp only [List.mem_map] at hpm
    obtain ⟨q, hq, he⟩ := hpm
    cases he; exact hl _ hq
  have hvals : js.map (v.run valOps (later.map .prim)).1.mem.val = res.diffs.map diffVal := by
    rw [← h2]
    refine List.map_congr_left fun d hd => ?_
    exact (h.wf.run_val (later.map .prim) d (h.wf.diffs _ (List.mem_of_getElem? h1) d hd)).2
  have hd2 : ∀ d ∈ js, d < (v.run valOps (later.map .prim)).1.mem.vals.length :=
    fun d hd => hwf2.diffs _ (List.mem_of_getElem? hres2) d hd
  set v2 := (v.run valOps (later.map .prim)).1 with hv2
  obtain ⟨_, hg⟩ := getStepW_val v2.mem ⟨x0, js, [], some x⟩ k res.initial hinit2 rfl hd2
  have hgs : res.getStep k = stepOf res.initial (js.map v2.mem.val) k.toNat := by
    rw [hvals, stepOf_diffVal]
    simp only [SimResult.getStep, h.stored]; rfl
  have hsim := hw2.step (.getStep r k)
  have hans : (v2.step valOps (.getStep r k)) = ({ v2 with mem := (getStepW valOps v2.mem ⟨x0, js, [], some x⟩ k).1 },
      (getStepW valOps v2.mem ⟨x0, js, [], some x⟩ k).2.map some) := by
    simp only [World.step, hres2]
  rw [hgs]
  simp only at hg
  revert hg
  cases stepOf res.initial (js.map v2.mem.val) k.toNat with
  | error e =>
    intro hg
    simp only at hg
    show _ = _
    rw [hsim.1, hans]
    simp only [hg]; rfl
  | ok s =>
    rintro ⟨hg1, hg2⟩
    refine ⟨v2.mem.states.length, by rw [hsim.1, hans]; simp only [hg1]; rfl, ?_⟩
    rw [hsim.2.mem.shows, hans]
    exact hg2

/-- C123: afterwards the result answers every request for a step as the result on values does, also after further updates
of the caller's state, the output or any other state except the result's own initial state. -/
theorem C123_reports {σ : Type} {c : Code σ} {C : Controller σ} {held : σ → List (Nat × Val)} (hc : Follows c C held)
    {w : World HMem} (hw : Situation w) {i : Nat} {s0 : SimState} (hs : Shows w.mem i s0) {st st' : σ}
    (hk : ∀ p ∈ held st, Known w.mem p) (n : Nat) {res : SimResult} (hr : runSync C st s0 n = .ok (st', res))
    (later : List Prim) (hl : ∀ p ∈ later, p.target ≠ some w.mem.roots.length) (k : Int) :
    Reports ((runSyncAt c st i n w).1.run heapOps (later.map .prim)).1 w.results.length k (res.getStep k) := by
  obtain ⟨v, h1, h2⟩ := hw.sim
  have := runSyncAt_sim hc h1 h2 ((h1.mem.shows i s0).1 hs) (fun p hp => (h1.mem.known p).1 (hk p hp)) n
  rw [hr] at this
  obtain ⟨_, v', x, g2, _⟩ := this
  exact g2.reports later hl k

/-- C123: the same for asynchronous runs. -/
theorem C123_reports_async {σ : Type} {c : Code σ} {C : Controller σ} {held : σ → List (Nat × Val)} (hc : Follows c C held)
    {w : World HMem} (hw : Situation w) {i : Nat} {s0 : SimState} (hs : Shows w.mem i s0) {st : σ}
    (hk : ∀ p ∈ held st, Known w.mem p) (n : Nat) {a : AsyncSt σ} (hr : runAsync C st s0 n = .ok a)
    (later : List Prim) (hl : ∀ p ∈ later, p.target ≠ some w.mem.roots.length) (k : Int) :
    Reports ((runAsyncAt c st i n w).1.run heapOps (later.map .prim)).1 w.results.length k (a.res.getStep k) := by
  obtain ⟨v, h1, h2⟩ := hw.sim
  have := runAsyncAt_sim hc h1 h2 ((h1.mem.shows i s0).1 hs) (fun p hp => (h1.mem.known p).1 (hk p hp)) n
  rw [hr] at this
  obtain ⟨_, v', x, g2, _⟩ := this
  exact g2.reports later hl k

/-! ### code that follows a controller -/

/-- Code that builds its answer (`None`, `{}` or `{k: "..."}`) anew in every call. -/
noncomputable def freshCode {σ : Type} (C : Controller σ) : Code σ where
  update st sid x m := by
    classical
    exact if h : ∃ s, Shows m x s then
      match C.update st sid h.choose with
      | .error e => (m, .error e)
      | .ok (st', .dict [(k, .str t)]) => (m.run [.str t, .mkDict [(k, m.vals.length)]],
          .ok (st', .one ((m.run [.str t, .mkDict [(k, m.vals.length)]]).val (m.vals.length + 1))))
      | .ok (st', .dict []) => (m.run [.mkDict []], .ok (st', .one ((m.run [.mkDict []]).val m.vals.length)))
      | .ok (st', _) => (m.run [.none], .ok (st', .one ((m.run [.none]).val m.vals.length)))
    else (m, .error .attributeError)
  randomSite st x m := by
    classical
    exact if h : ∃ s, Shows m x s then (m, C.randomSite st h.choose) else (m, .error .attributeError)
  preRun st x m := by
    classical
    exact if h : ∃ s, Shows m x s then (m, (C.preRun st h.choose).map Prod.fst) else (m, .error .attributeError)

/-- The answers are `None`, `{}` or `{k: "..."}`, and `pre_run` leaves the state alone. -/
structure Flat {σ : Type} (C : Controller σ) : Prop where
  update : ∀ st sid s st' r, C.update st sid s = .ok (st', r) → r = .noUpdate ∨ r = .dict [] ∨ ∃ k t, r = .dict [(k, .str t)]
  preRun : ∀ st s st' s', C.preRun st s = .ok (st', s') → s' = s

/-- C123 (the usual case): code that builds a new dict for every answer follows its controller and keeps nothing. -/
theorem C123_fresh {σ : Type} {C : Controller σ} (hC : Flat C) : Follows (freshCode C) C fun _ => [] := by
  have hch : ∀ {m : HMem} {x : Nat} {s : SimState} (h : Shows m x s), (⟨s, h⟩ : ∃ s, Shows m x s).choose = s :=
    fun {m x s} h => (Exists.choose_spec (⟨s, h⟩ : ∃ s, Shows m x s)).unique h
  refine ⟨?_, ?_, ?_⟩
  · rintro st sid x m s ⟨v, hm⟩ hs _
    have hup : (freshCode C).update st sid x m = match C.update st sid s with
      | .error e => (m, .error e)
      | .ok (st', .dict [(k, .str t)]) => (m.run [.str t, .mkDict [(k, m.vals.length)]],
          .ok (st', .one ((m.run [.str t, .mkDict [(k, m.vals.length)]]).val (m.vals.length + 1))))
      | .ok (st', .dict []) => (m.run [.mkDict []], .ok (st', .one ((m.run [.mkDict []]).val m.vals.length)))
      | .ok (st', _) => (m.run [.none], .ok (st', .one ((m.run [.none]).val m.vals.length))) := by
      simp only [freshCode, dif_pos (⟨s, hs⟩ : ∃ s, Shows m x s), hch hs]
    rw [hup]
    have hlen : m.vals.length = v.vals.length := hm.nvals
    cases hu : C.update st sid s with
    | error e => exact ⟨[], by simp, rfl, rfl⟩
    | ok y =>
      obtain ⟨st', r⟩ := y
      rcases hC.update st sid s st' r hu with rfl | rfl | ⟨k, t, rfl⟩
      · obtain ⟨as, hm'⟩ := hm.run [.none]
        refine ⟨[.none], by simp [Prim.target], rfl, _, _, rfl, rfl, ?_, by simp⟩
        have := (hm'.val m.vals.length).read
        rw [hlen] at this ⊢
        have he : (v.run [.none]).val v.vals.length = .pyNone := by simp [VMem.run, VMem.step, VMem.val]
        rw [he] at this
        exact this
      · obtain ⟨as, hm'⟩ := hm.run [.mkDict []]
        refine ⟨[.mkDict []], by simp [Prim.target], rfl, _, _, rfl, rfl, ?_, by simp⟩
        have := (hm'.val m.vals.length).read
        rw [hlen] at this ⊢
        have he : (v.run [.mkDict []]).val v.vals.length = .dict [] := by
          simp [VMem.run, VMem.step, VMem.val, Dict.ofPairs]
        rw [he] at this
        exact this
      · obtain ⟨as, hm'⟩ := hm.run [.str t, .mkDict [(k, m.vals.length)]]
        refine ⟨[.str t, .mkDict [(k, m.vals.length)]], by simp [Prim.target], rfl, _, _, rfl, rfl, ?_, by simp⟩
        have := (hm'.val (m.vals.length + 1)).read
        have he : (v.run [.str t, .mkDict [(k, m.vals.length)]]).val (m.vals.length + 1) = .dict [(k, .str t)] := by
          rw [hlen]
          simp [VMem.run, VMem.step, VMem.val, Dict.ofPairs, Dict.update, Dict.set]
        rw [he] at this
        exact this
  · rintro st x m s ⟨v, hm⟩ hs _
    have : (freshCode C).randomSite st x m = (m, C.randomSite st s) := by
      simp only [freshCode, dif_pos (⟨s, hs⟩ : ∃ s, Shows m x s), hch hs]
    rw [this]
    exact ⟨[], by simp, rfl, rfl, by simp⟩
  · rintro st x m s ⟨v, hm⟩ hs _
    have : (freshCode C).preRun st x m = (m, (C.preRun st s).map Prod.fst) := by
      simp only [freshCode, dif_pos (⟨s, hs⟩ : ∃ s, Shows m x s), hch hs]
    rw [this]
    refine ⟨[], by simp, rfl, ?_⟩
    cases hp : C.preRun st s with
    | error e => rfl
    | ok y =>
      obtain ⟨st', s'⟩ := y
      rw [hC.preRun st s st' s' hp]
      exact ⟨rfl, hs, by simp⟩

/-- The Game of Life is of this kind. -/
theorem flat_life {K : Type} [Field K] [LinearOrder K] [FloorRing K] : Flat (Life.controller (K := K)) := by
  constructor
  · intro st sid s st' r h
    right; right
    change Life.update st sid s = _ at h
    unfold Life.update at h
    simp only [bind, Except.bind] at h
    split at h
    · cases h
    · split at h
      · cases h
      · split at h
        · cases h
        · split at h
          · cases h
          · simp only [pure, Except.pure, Except.ok.injEq, Prod.mk.injEq] at h
            exact ⟨_, _, h.2.symm⟩
  · intro st s st' s' h
    change Life.preRun st s = _ at h
    unfold Life.preRun at h
    simp only [bind, Except.bind] at h
    split at h
    · cases h
    · simp only [pure, Except.pure, Except.ok.injEq, Prod.mk.injEq] at h
      exact h.2.symm

/-! ### sharing -/

/-- A rule that answers for site 0 with one dict object that it keeps, and for every other site with the dict object of
site 0 of the live state itself. -/
def shareCode (j : Nat) : Code Unit where
  update _ sid x m :=
    if sid = .int 0 then (m, .ok ((), .one (m.val j)))
    else (m.run [.getSite x (.int 0)], .ok ((), .one ((m.run [.getSite x (.int 0)]).val m.vals.length)))

/-- The same on values. -/
def shareCtl : Controller Unit where
  update _ sid s :=
    if sid = .int 0 then .ok ((), .dict [(.str "n", .num 1)])
    else .ok ((), match s.getSiteState (.int 0) with
      | none => .noUpdate
      | some d => .dict d)

theorem follows_share (j : Nat) : Follows (shareCode j) shareCtl fun _ => [(j, .dict [(.str "n", .num 1)])] := by
  refine ⟨?_, ?_, ?_⟩
  · rintro st sid x m s ⟨v, hm⟩ hs hk
    have hlen : m.vals.length = v.vals.length := hm.nvals
    have hk0 := hk _ (List.mem_singleton.2 rfl)
    by_cases h0 : sid = .int 0
    · simp only [shareCode, shareCtl, h0, if_true]
      exact ⟨[], by simp, rfl, _, j, rfl, rfl, hk0.2, hk⟩
    · simp only [shareCode, shareCtl, h0, if_false]
      have hm' := hm.run [.getSite x (.int 0)]
      refine ⟨[.getSite x (.int 0)], by simp [Prim.target], rfl, _, _, rfl, rfl, ?_, ?_⟩
      · have hs' := (hm.shows x s).1 hs
        obtain ⟨as, hm''⟩ := hm'
        have := (hm''.val m.vals.length).read
        have he : (v.run [.getSite x (.int 0)]).val m.vals.length = (s.getSiteState (.int 0)).elim .pyNone Val.dict := by
          rw [hlen]
          simp [VMem.run, VMem.step, VMem.val, hs']
        rw [he] at this
        revert this
        cases s.getSiteState (.int 0) with
        | none => exact id
        | some d => exact id
      · intro p hp
        refine (hm'.known p).2 (((hm.known p).1 (hk p hp)).keeps (keeps_run v _ (fun _ => False) ?_))
        simp [Prim.target]
  · rintro st x m s _ hs hk
    exact ⟨[], by simp, rfl, rfl, fun _ _ _ => hk⟩
  · rintro st x m s _ hs hk
    exact ⟨[], by simp, rfl, rfl, hs, hk⟩

/-- A state with sites 0 and 1, and a dict `{"n": 1}` that the caller holds. -/
def shareStart : World HMem := (World.run heapOps ⟨.init, [], []⟩
  [.prim (.num 1), .prim (.mkDict [(.str "n", 0)]), .prim .newState, .prim (.mkDict []), .prim (.setSite 0 (.int 0) 2),
    .prim (.setSite 0 (.int 1) 2)]).1

theorem shareStart_situation : Situation shareStart := Reachable.situation ⟨_, rfl⟩

/-- What the state shows, with properties `n` as given. -/
def numbered (a b : Rat) : SimState :=
  ⟨[(.int 0, [(SITE_ID, .num 0), (.str "n", .num a)]), (.int 1, [(SITE_ID, .num 1), (.str "n", .num b)])], some []⟩

/-- Two sites without further properties. -/
def twoSites : SimState := ⟨[(.int 0, [(SITE_ID, .num 0)]), (.int 1, [(SITE_ID, .num 1)])], some []⟩

theorem shareStart_shows : Shows shareStart.mem 0 twoSites := ⟨_, 9, rfl, by decide +kernel⟩

/-- The sharing rule in a run: after the first step site 0 has `n = 1`, after the second also site 1, which was given site
0's own dict (with its `_site_id`). -/
example : ∃ res, LeftBehind shareCtl (fun _ => [(1, .dict [(.str "n", .num 1)])]) shareStart
      (runSyncAt (shareCode 1) () 0 2 shareStart).1 0 () () twoSites res ∧
    res.output = some ⟨[(.int 0, [(SITE_ID, .num 0), (.str "n", .num 1)]), (.int 1, [(SITE_ID, .num 0), (.str "n", .num 1)])],
      some []⟩ := by
  have hk : ∀ p ∈ [(1, Val.dict [(.str "n", .num 1)])], Known shareStart.mem p := by
    intro p hp
    rw [List.mem_singleton] at hp
    subst hp
    exact ⟨by decide, 9, by decide +kernel⟩
  have := C123_serial (follows_share 1) shareStart_situation shareStart_shows (st := ()) hk 2
  have hr : ∃ res, runSync shareCtl () twoSites 2 = .ok ((), res) ∧
      res.output = some ⟨[(.int 0, [(SITE_ID, .num 0), (.str "n", .num 1)]), (.int 1, [(SITE_ID, .num 0), (.str "n", .num 1)])],
        some []⟩ := ⟨_, rfl, by decide +kernel⟩
  obtain ⟨res, h1, h2⟩ := hr
  rw [h1] at this
  exact ⟨res, this.2, h2⟩

/-! ### code that changes its answers -/

/-- A rule that keeps one dict (the value number `1`) and writes the number of the call into it before returning it. -/
def reuseCode : Code Nat where
  update st _ _ m := match m.val 1 with
    | .ref l => ({ m with heap := m.heap.set l (.dict [(.str "n", .num st)]) }, .ok (st + 1, .one (.ref l)))
    | _ => (m, .error .typeError)

/-- What its author had in mind. -/
def reuseCtl : Controller Nat where
  update st _ _ := .ok (st + 1, .dict [(.str "n", .num st)])

/-- C123 needs that objects are not changed: a rule that writes into the dict it returned before gives every site the last
value, and the recorded steps change with it.  Two steps on two sites: the author expects `n = 0, 1` after the first step
and `n = 2, 3` after the second; the run says `3, 3` for both. -/
theorem C123_reused_false :
    (∃ res, runSync reuseCtl 0 twoSites 2 = .ok (4, res) ∧ res.getStep 1 = .ok (numbered 0 1) ∧
      res.output = some (numbered 2 3)) ∧
    Situation shareStart ∧ Shows shareStart.mem 0 twoSites ∧ (runSyncAt reuseCode 0 0 2 shareStart).2 = .ok (4, 0) ∧
    Reports (runSyncAt reuseCode 0 0 2 shareStart).1 0 1 (.ok (numbered 3 3)) ∧
    (∃ o, ((runSyncAt reuseCode 0 0 2 shareStart).1.results[0]?).bind HResult.output = some o ∧
      Shows (runSyncAt reuseCode 0 0 2 shareStart).1.mem o (numbered 3 3)) := by
  refine ⟨⟨_, rfl, by decide +kernel, by decide +kernel⟩, shareStart_situation, shareStart_shows, by decide +kernel,
    ⟨3, by decide +kernel, ?_⟩, 2, by decide +kernel, ?_⟩
  · exact ⟨_, 9, rfl, by decide +kernel⟩
  · exact ⟨_, 9, rfl, by decide +kernel⟩

end Heap
end Pyl
