import Verif.Lemmas.Runner
/-
Two rules that agree on the states a run can reach have the same runs.
-/
set_option autoImplicit false

namespace Pyl
variable {σ : Type}

/-- `c` and `c'` agree on the states in `I`, and whatever they answer there keeps the runners in `I`; `G` holds of the merged updates. -/
structure AgreeOn (I : SimState → Prop) (G : Option Upd → Prop) (c c' : Controller σ) : Prop where
  update : ∀ st i s, I s → c'.update st i s = c.update st i s
  randomSite : ∀ st s, I s → c'.randomSite st s = c.randomSite st s
  preRun : ∀ st s, I s → c'.preRun st s = c.preRun st s
  start : ∀ st s st' s', I s → c.preRun st s = .ok (st', s') → I s'
  none : G none
  answer : ∀ st i s st' r cur b, I s → c.update st i s = .ok (st', r) → G cur → mergeResp r cur i = .ok b → G b
  single : ∀ st i s st' r b, I s → c.update st i s = .ok (st', r) → mergeUpdates r.split.1 .none (some i) = .ok b → G b
  merge : ∀ all r b, G all → G r → mergeUpdates (all.map Upd.toProps) r .none = .ok b → G b
  apply : ∀ s u s', I s → G u → s.batchUpdateO (u.map Upd.toProps) = .ok s' → I s'

variable {I : SimState → Prop} {G : Option Upd → Prop} {c c' : Controller σ}

theorem stepBatch_agree (h : AgreeOn I G c c') {s : SimState} (hs : I s) (ids : List Key) (st : σ) :
    stepBatch c' st ids s = stepBatch c st ids s ∧ ∀ st' u, stepBatch c st ids s = .ok (st', u) → G u := by
  unfold stepBatch
  have key : ∀ (ids : List Key) (acc : σ × Option Upd), G acc.2 →
      ids.foldlM (fun (acc : σ × Option Upd) sid => do
        let (st', r) ← c'.update acc.1 sid s
        let b ← mergeResp r acc.2 sid
        pure (st', b)) acc = ids.foldlM (fun (acc : σ × Option Upd) sid => do
        let (st', r) ← c.update acc.1 sid s
        let b ← mergeResp r acc.2 sid
        pure (st', b)) acc ∧ ∀ x, ids.foldlM (fun (acc : σ × Option Upd) sid => do
        let (st', r) ← c.update acc.1 sid s
        let b ← mergeResp r acc.2 sid
        pure (st', b)) acc = (.ok x : Py (σ × Option Upd)) → G x.2 := by
    intro ids
    induction ids with
    | nil => intro acc ha; exact ⟨rfl, fun x hx => by injection hx with hx; rw [← hx]; exact ha⟩
    | cons i ids ih =>
      intro acc ha
      rw [List.foldlM_cons, List.foldlM_cons, h.update _ _ _ hs]
      cases hu : c.update acc.1 i s with
      | error e => exact ⟨rfl, fun x hx => by cases hx⟩
      | ok r =>
        cases hm : mergeResp r.2 acc.2 i with
        | error e =>
          simp only [ok_bind, hm]
          exact ⟨rfl, fun x hx => by cases hx⟩
        | ok b =>
          simp only [ok_bind, hm]
          exact ih (r.1, b) (h.answer _ _ _ _ _ _ _ hs hu ha hm)
  obtain ⟨h1, h2⟩ := key ids (st, none) h.none
  exact ⟨h1, fun st' u hu => h2 _ hu⟩

theorem syncLoop_agree (h : AgreeOn I G c c') (n : Nat) : ∀ (st : σ) (s : SimState) (res : SimResult), I s →
    syncLoop c' n st s res = syncLoop c n st s res := by
  induction n with
  | zero => intro st s res _; rfl
  | succ n ih =>
    intro st s res hs
    obtain ⟨h1, h2⟩ := stepBatch_agree h hs s.siteIds st
    unfold syncLoop takeStep
    rw [h1]
    cases hu : stepBatch c st s.siteIds s with
    | error e => rfl
    | ok r =>
      rw [ok_bind, ok_bind]
      simp only
      cases hb : s.batchUpdateO (r.2.map Upd.toProps) with
      | error e => rfl
      | ok s' =>
        rw [ok_bind, ok_bind]
        exact ih _ _ _ (h.apply _ _ _ hs (h2 _ _ hu) hb)

/-- Serial runs. -/
theorem runSync_agree (h : AgreeOn I G c c') (st : σ) {s0 : SimState} (hs : I s0) (n : Nat) : runSync c' st s0 n = runSync c st s0 n := by
  unfold runSync
  simp only [h.preRun _ _ hs]
  cases hp : c.preRun st s0 with
  | error e => rfl
  | ok r =>
    rw [ok_bind, ok_bind]
    rw [syncLoop_agree h n r.1 r.2.copy _ (h.start _ _ _ _ hs hp)]

theorem asyncStep_agree (h : AgreeOn I G c c') (a : AsyncSt σ) (ha : I a.live) :
    asyncStep c' a = asyncStep c a ∧ ∀ a', asyncStep c a = .ok a' → I a'.live := by
  unfold asyncStep
  cases hq : a.queue with
  | nil => exact ⟨rfl, fun a' h' => by cases h'⟩
  | cons i q =>
    simp only
    rw [h.update _ _ _ ha]
    cases hu : c.update a.st i a.live with
    | error e => exact ⟨rfl, fun a' h' => by cases h'⟩
    | ok r =>
      simp only [ok_bind]
      cases hm : mergeUpdates r.2.split.1 none (some i) with
      | error e => exact ⟨rfl, fun a' h' => by cases h'⟩
      | ok u =>
        simp only [ok_bind]
        cases hb : a.live.batchUpdateO (u.map Upd.toProps) with
        | error e => exact ⟨rfl, fun a' h' => by cases h'⟩
        | ok s' =>
          simp only [ok_bind]
          have hs' := h.apply _ _ _ ha (h.single _ _ _ _ _ _ ha hu hm) hb
          have e : addSites c' r.1 s' (q ++ r.2.split.2) = addSites c r.1 s' (q ++ r.2.split.2) := by
            unfold addSites
            rw [h.randomSite _ _ hs']
          rw [e]
          refine ⟨rfl, fun a' h' => ?_⟩
          obtain ⟨x, -, h'⟩ := bind_ok h'
          injection h' with h'
          rw [← h']
          exact hs'

theorem asyncLoop_agree (h : AgreeOn I G c c') (n : Nat) : ∀ a : AsyncSt σ, I a.live → asyncLoop c' n a = asyncLoop c n a := by
  induction n with
  | zero => intro a _; rfl
  | succ n ih =>
    intro a ha
    obtain ⟨h1, h2⟩ := asyncStep_agree h a ha
    unfold asyncLoop
    rw [h1]
    cases hs : asyncStep c a with
    | error e => rfl
    | ok a' =>
      rw [ok_bind, ok_bind]
      rw [ih a' (h2 a' hs)]

/-- Asynchronous runs. -/
theorem runAsync_agree (h : AgreeOn I G c c') (st : σ) {s0 : SimState} (hs : I s0) (n : Nat) : runAsync c' st s0 n = runAsync c st s0 n := by
  unfold runAsync
  simp only [h.preRun _ _ hs]
  cases hp : c.preRun st s0 with
  | error e => rfl
  | ok r =>
    rw [ok_bind, ok_bind]
    have h1 : I r.2.copy := h.start _ _ _ _ hs hp
    unfold asyncRunFrom
    have e : addSites c' r.1 r.2.copy [] = addSites c r.1 r.2.copy [] := by
      unfold addSites
      rw [h.randomSite _ _ h1]
    rw [e]
    cases hq : addSites c r.1 r.2.copy [] with
    | error e => rfl
    | ok x =>
      simp only [ok_bind]
      rw [asyncLoop_agree h n _ h1]

/-- Applying `last` keeps the invariant. -/
def Keeps (I : SimState → Prop) (last : Option Props) : Prop := ∀ s s', I s → s.batchUpdateO last = .ok s' → I s'

theorem runTasks_agree (h : AgreeOn I G c c') (batches : List (List Key)) {last : Option Props} (hl : Keeps I last) (sc : StepSched) :
    ∀ ws : Nat → Worker σ, (∀ v, I (ws v).state) → runTasks c' batches last sc ws = runTasks c batches last sc ws ∧
      ∀ x, runTasks c batches last sc ws = .ok x → (∀ v, I (x.1 v).state) ∧ ∀ bu ∈ x.2, G bu.2 := by
  induction sc with
  | nil => intro ws hw; exact ⟨rfl, fun x hx => by injection hx with hx; rw [← hx]; exact ⟨hw, by simp⟩⟩
  | cons p sc ih =>
    intro ws hw
    obtain ⟨b, w⟩ := p
    unfold runTasks
    unfold workerTask
    cases hb : (ws w).state.batchUpdateO last with
    | error e => exact ⟨rfl, fun x hx => by cases hx⟩
    | ok s =>
      have hs := hl _ _ (hw w) hb
      obtain ⟨h1, h2⟩ := stepBatch_agree h hs (batches.getD b []) (ws w).st
      simp only [ok_bind]
      rw [h1]
      cases hu : stepBatch c (ws w).st (batches.getD b []) s with
      | error e => exact ⟨rfl, fun x hx => by cases hx⟩
      | ok r =>
        simp only [ok_bind, pure, Except.pure]
        obtain ⟨h3, h4⟩ := ih (fun i => if i = w then ⟨r.1, s⟩ else ws i) (fun v => by
          by_cases e : v = w
          · rw [if_pos e]; exact hs
          · rw [if_neg e]; exact hw v)
        rw [h3]
        refine ⟨rfl, fun x hx => ?_⟩
        obtain ⟨y, hy, hx⟩ := bind_ok hx
        injection hx with hx
        obtain ⟨h5, h6⟩ := h4 y hy
        rw [← hx]
        refine ⟨h5, fun bu hbu => ?_⟩
        rcases List.mem_cons.1 hbu with rfl | hbu
        · exact h2 _ _ hu
        · exact h6 bu hbu

theorem mergeBatches_agree (h : AgreeOn I G c c') (l : List (Option Upd)) (hl : ∀ u ∈ l, G u) (u : Option Upd) (hu : mergeBatches l = .ok u) : G u := by
  unfold mergeBatches at hu
  have key : ∀ (l : List (Option Upd)) (all : Option Upd), (∀ u ∈ l, G u) → G all →
      l.foldlM (fun (all : Option Upd) (r : Option Upd) => mergeUpdates (all.map Upd.toProps) r none) all = .ok u → G u := by
    intro l
    induction l with
    | nil => intro all _ ha hx; injection hx with hx; rw [← hx]; exact ha
    | cons r l ih =>
      intro all hl ha hx
      rw [List.foldlM_cons] at hx
      obtain ⟨b, hb, hx⟩ := bind_ok hx
      exact ih b (fun u hu => hl u (List.mem_cons_of_mem _ hu)) (h.merge _ _ _ ha (hl r List.mem_cons_self) hb) hx
  exact key l none hl h.none hu

theorem parallelLoop_agree (h : AgreeOn I G c c') (ids : List Key) (chunk : Nat) (sched : Nat → StepSched) (n : Nat) :
    ∀ (k : Nat) (last : Option Props) (ws : Nat → Worker σ) (res : SimResult), Keeps I last → (∀ v, I (ws v).state) →
      parallelLoop c' ids chunk sched k n last ws res = parallelLoop c ids chunk sched k n last ws res := by
  induction n with
  | zero => intro k last ws res _ _; rfl
  | succ n ih =>
    intro k last ws res hl hw
    unfold parallelLoop takeStepParallel
    by_cases hc : chunk = 0
    · rw [if_pos hc, if_pos hc]; rfl
    · rw [if_neg hc, if_neg hc]
      obtain ⟨h1, h2⟩ := runTasks_agree h (chunks ids chunk) hl (sched k) ws hw
      simp only [h1]
      cases ht : runTasks c (chunks ids chunk) last (sched k) ws with
      | error e => rfl
      | ok x =>
        obtain ⟨h3, h4⟩ := h2 x ht
        simp only [ok_bind]
        cases hm : mergeBatches ((List.range (chunks ids chunk).length).map fun b => (Dict.get? x.2 b).getD none) with
        | error e => rfl
        | ok u =>
          simp only [ok_bind, pure, Except.pure]
          have hG : G u := mergeBatches_agree h _ (fun u' hu' => by
            obtain ⟨b, -, rfl⟩ := List.mem_map.1 hu'
            cases hg : Dict.get? x.2 b with
            | none => exact h.none
            | some y => exact h4 _ (Dict.mem_of_get? hg)) u hm
          exact ih (k + 1) _ _ _ (fun s s' hs hss => h.apply _ _ _ hs hG hss) h3

/-- Parallel runs. -/
theorem runParallel_agree (h : AgreeOn I G c c') (fork : Nat → σ → σ) (st : σ) {s0 : SimState} (hs : I s0) (w n : Nat) (sched : Nat → StepSched) :
    runParallel c' fork st s0 w n sched = runParallel c fork st s0 w n sched := by
  unfold runParallel
  simp only [h.preRun _ _ hs]
  cases hp : c.preRun st s0 with
  | error e => rfl
  | ok r =>
    simp only [ok_bind]
    have h1 : I r.2 := h.start _ _ _ _ hs hp
    have h2 : Keeps I (some []) := fun s s' hs hss => by
      have : s.batchUpdateO (some []) = .ok s := rfl
      rw [this] at hss
      injection hss with hss
      rw [← hss]; exact hs
    rw [parallelLoop_agree h r.2.siteIds (chunkSize r.2.size w) sched n 0 _ _ _ h2 fun v => h1]

end Pyl
