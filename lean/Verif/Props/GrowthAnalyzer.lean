import Verif.Spec.GrowthAnalyzer
import Verif.Props.LifeAnalyzer
import Verif.Props.Artist
import Verif.Props.AsyncModels
/-
C164: what the result analyzer reports about runs of the growth model.
-/
set_option autoImplicit false
set_option linter.unusedSectionVars false

namespace Pyl
open SimState Spec Growth Analyzer SimResult ResultAnalyzer GridSetup
open Pyl.Lattice Pyl.Structure
variable {K : Type} [Field K] [LinearOrder K] [FloorRing K] [IsStrictOrderedRing K] {d : ℕ}

theorem runSync_after {σ : Type} {ct : Controller σ} {c c' : σ} {s0 : SimState} {n : ℕ} {res : SimResult} (hr : runSync ct c s0 n = .ok (c', res)) :
    ∃ ops, res = resultAfter s0 ops := by
  unfold runSync at hr
  obtain ⟨⟨st, s1⟩, -, hr⟩ := bind_ok hr
  obtain ⟨⟨st', live, res'⟩, h1, hr⟩ := bind_ok hr
  obtain ⟨ds, e⟩ := syncLoop_adds _ _ _ _ _ _ h1
  cases hr
  exact ⟨_, by simp only at e; rw [e]; exact resultAfter_adds _ _ _⟩

theorem runParallel_after {σ : Type} {ct : Controller σ} {fork : ℕ → σ → σ} {c : σ} {s0 : SimState} {w n : ℕ} {sched : ℕ → StepSched} {res : SimResult} (hw : 0 < w)
    (hr : runParallel ct fork c s0 w n sched = .ok res) : ∃ ops, res = resultAfter s0 ops := by
  unfold runParallel at hr
  obtain ⟨⟨st, s1⟩, -, hr⟩ := bind_ok hr
  simp only [if_neg hw.ne'] at hr
  obtain ⟨res', h1, hr⟩ := bind_ok hr
  obtain ⟨ds, e⟩ := parallelLoop_adds _ _ _ _ _ _ _ _ _ _ h1
  cases hr
  exact ⟨_, by rw [e]; exact resultAfter_adds _ _ _⟩

/-- The neighbours the controller of a growth run knows. -/
theorem growthRun_init {S : Structure K d} (hS : S.Reachable) {s0 : SimState} (hst : StartState S s0) {bg : Val} {nb : Option (Builder K d)} {order : ℕ → List ℕ → List ℕ}
    (hord : ∀ t l, (order t l).Perm l) {c : Ctl} (hc : Growth.init order S bg nb = .ok c) :
    ∃ (bl : Builder K d) (g : Graph K), bl.get S none = .ok g ∧ Growth.init order S bg (some bl) = .ok c ∧ c.background = bg ∧
      ∀ t, ∀ i ∈ s0.siteIds, ∃ l, c.nbs t i = .ok l ∧ ∀ j ∈ l, Key.int j ∈ s0.siteIds := by
  have hc' : Growth.init order S bg (some (nb.getD (moore 1))) = .ok c := by rw [← hc]; rfl
  obtain ⟨g, hb, -⟩ : ∃ g, (nb.getD (moore 1)).get S none = .ok g ∧ True := by
    unfold Growth.init at hc
    obtain ⟨g, hg, -⟩ := bind_ok hc
    exact ⟨g, hg, trivial⟩
  obtain ⟨h1, h2⟩ := init_nbs hb hc'
  refine ⟨_, g, hb, hc', h1, fun t k hk => ?_⟩
  obtain ⟨i, hi, rfl⟩ := (hst.2.2.1 k).1 hk
  exact ⟨_, h2 t i, fun j hj => (hst.2.2.1 _).2 ⟨j, ((C55_known_and_other hS _ none g hb i).1 j ((hord t _).mem_iff.1 hj)).1, rfl⟩⟩

theorem asyncLoop_adds {σ : Type} (c : Controller σ) (n : ℕ) : ∀ (a out : AsyncSt σ), asyncLoop c n a = .ok out →
    ∃ ds : List (Option Props), out.res = ds.foldl SimResult.addStep a.res := by
  induction n with
  | zero =>
    intro a out h
    unfold asyncLoop at h; cases h
    exact ⟨[], rfl⟩
  | succ n ih =>
    intro a out h
    unfold asyncLoop at h
    obtain ⟨a1, h1, h⟩ := bind_ok h
    have hstep : ∃ dd, a1.res = a.res.addStep dd := by
      unfold asyncStep at h1
      split at h1
      · cases h1
      · obtain ⟨⟨st', r⟩, -, h1⟩ := bind_ok h1
        obtain ⟨u, -, h1⟩ := bind_ok h1
        obtain ⟨live', -, h1⟩ := bind_ok h1
        obtain ⟨⟨st2, q2⟩, -, h1⟩ := bind_ok h1
        cases h1
        exact ⟨_, rfl⟩
    obtain ⟨dd, hdd⟩ := hstep
    split_ifs at h with hq
    · cases h
      exact ⟨[dd], hdd⟩
    · obtain ⟨ds, e⟩ := ih _ _ h
      exact ⟨dd :: ds, by rw [e, hdd]; rfl⟩

theorem runAsync_after {σ : Type} {ct : Controller σ} {c : σ} {s0 : SimState} {n : ℕ} {a : AsyncSt σ} (hr : runAsync ct c s0 n = .ok a) :
    ∃ ops, a.res = resultAfter s0 ops := by
  unfold runAsync at hr
  obtain ⟨⟨st, s1⟩, -, hr⟩ := bind_ok hr
  obtain ⟨a1, h1, hr⟩ := bind_ok hr
  unfold asyncRunFrom at h1
  obtain ⟨⟨st2, q⟩, -, h1⟩ := bind_ok h1
  simp only at h1
  split_ifs at h1 with hq
  obtain ⟨a2, h2, h1⟩ := bind_ok h1
  obtain ⟨ds, e⟩ := asyncLoop_adds _ _ _ _ h2
  cases h1
  cases hr
  refine ⟨(ds.map .add ++ [.output a2.live]) ++ [.output a2.live], ?_⟩
  unfold resultAfter
  rw [List.foldl_append]
  have := resultAfter_adds s0 a2.live ds
  unfold resultAfter at this
  rw [← this]
  simp only at e ⊢
  rw [e]; rfl

/-- The steps of an asynchronous growth run are dicts with unique keys. -/
theorem asyncGrowth_wf {c : Ctl} {s0 : SimState} (hs : s0.WF) (hg : s0.getGeneralState ≠ none) {m : ℕ} (hm : 0 < m)
    (hids : s0.siteIds.Perm ((List.range m).map fun i : ℕ => Key.int i)) (hocc : AllOccupied s0)
    (hnb : ∀ t, ∀ i ∈ s0.siteIds, ∃ l, c.nbs t i = .ok l ∧ ∀ j ∈ l, Key.int j ∈ s0.siteIds) {n : ℕ} {draw : ℕ → ℕ} {a : AsyncSt (Ctl × ℕ)}
    (hr : runAsync (controller.inherit draw) (c, 0) s0 n = .ok a) (k : ℕ) (hk : k ≤ n) : ∃ s, a.res.getStep k = .ok s ∧ s.WF := by
  have hI' : ∀ st i s s', s.WF → Growth.Inv c s0 st s → OneSite (Growth.Answer c) i s s' → Growth.Inv c s0 st s' := by
    rintro st i s s' - ⟨h1, h2, h3, h4⟩ hst
    refine ⟨h1, h2, by rw [hst.1, h3], fun j hj => ?_⟩
    rw [hst.1] at hj
    by_cases e : j = i
    · subst e
      obtain ⟨p, q, new, hp, hq, hnew, hmg⟩ := hst.2.2.2
      obtain ⟨v, hv⟩ := h4 j (Dict.mem_keys_of_get? hp)
      obtain ⟨t, l, v', -, h, -⟩ := growth_merged hv hp hq hnew hmg
      exact ⟨v', h⟩
    · unfold occ?
      rw [hst.2.2.1 j e]
      exact h4 j hj
  obtain ⟨a', h1, h2, h3, -, h4⟩ := runAsync_by (growth_answersBy hnb) draw hI' hm n hs hg hids c c rfl ⟨rfl, rfl, rfl, hocc⟩
  rw [hr] at h1; cases h1
  cases k with
  | zero => exact ⟨s0, h3, hs⟩
  | succ k =>
    obtain ⟨x, y, -, hy, ⟨-, hw⟩, -⟩ := h4 k (by omega)
    exact ⟨y, by exact_mod_cast hy, hw⟩

/-- Other entries than the occupancy do not change in an asynchronous growth run. -/
theorem asyncGrowth_others {c : Ctl} {s0 : SimState} (hs : s0.WF) (hg : s0.getGeneralState ≠ none) {m : ℕ} (hm : 0 < m)
    (hids : s0.siteIds.Perm ((List.range m).map fun i : ℕ => Key.int i)) (hocc : AllOccupied s0)
    (hnb : ∀ t, ∀ i ∈ s0.siteIds, ∃ l, c.nbs t i = .ok l ∧ ∀ j ∈ l, Key.int j ∈ s0.siteIds) (hid : KnowsIds s0) {n : ℕ} {draw : ℕ → ℕ} {a : AsyncSt (Ctl × ℕ)}
    (hr : runAsync (controller.inherit draw) (c, 0) s0 n = .ok a) (k : ℕ) : k ≤ n → ∃ s, a.res.getStep k = .ok s ∧ s.siteIds = s0.siteIds ∧ KnowsIds s := by
  obtain ⟨a', h1, h2, h3, h4⟩ := C97_growth c s0 hs hg m hm hids hocc hnb n draw
  rw [hr] at h1; cases h1
  induction k with
  | zero => exact fun _ => ⟨s0, h3, rfl, hid⟩
  | succ k ih =>
    intro hk
    obtain ⟨s, g1, g2, g3⟩ := ih (by omega)
    obtain ⟨x, y, hx, hy, e1, e2, hoff, t, l, v, v', -, hv, -, -, hkeep⟩ := h4 k (by omega)
    rw [g1] at hx; cases hx
    refine ⟨y, by exact_mod_cast hy, e2, fun key p hp => ?_⟩
    by_cases e : key = .int (draw k % m : ℕ)
    · subst e
      obtain ⟨o, ho, -⟩ := occ?_eq.1 hv
      rw [hkeep o p SITE_ID ho hp (by decide)]
      exact g3 _ _ ho
    · rw [hoff key e] at hp
      exact g3 _ _ hp

/-- The steps of a growth run in one process: no occupied site changes its phase. -/
theorem oneProcess_keeps {S : Structure K d} (hS : S.Reachable) (hne : S.siteIds ≠ []) {s0 : SimState} (hst : StartState S s0) {bg : Val} {nb : Option (Builder K d)} {m : ℕ}
    {res : SimResult} (h : OneProcessGrowthRun S bg nb s0 m res) (k k' : ℕ) (hk : k ≤ k') (hk' : k' ≤ m) :
    ∃ a b, res.getStep k = .ok a ∧ res.getStep k' = .ok b ∧ ∀ i ∈ s0.siteIds, ∀ v, occ? a i = some v → v ≠ bg → occ? b i = some v := by
  obtain ⟨order, c, hord, hc, h⟩ := h
  obtain ⟨bl, g, hb, hc', hbg, hnb⟩ := growthRun_init hS hst hord hc
  have hg : s0.getGeneralState ≠ none := by rw [hst.2.1]; simp
  rw [← hbg]
  rcases h with ⟨c', hr⟩ | ⟨draw, a, hr, rfl⟩
  · obtain ⟨c1, res1, e1, e2⟩ := C62_never_overwritten c s0 hst.1 hg (sameSites_ne hst.2.2.1 hne) hst.2.2.2.1 hnb m
    rw [hr] at e1; cases e1
    exact e2 k k' hk hk'
  · obtain ⟨a1, e1, e2⟩ := C97_never_overwritten c s0 hst.1 hg _ (List.length_pos_of_ne_nil hne) (idsTo_of_sameSites hS hst.1 hst.2.2.1) hst.2.2.2.1 hnb m draw
    rw [hr] at e1; cases e1
    obtain ⟨x, y, q1, q2, q3, -⟩ := e2 k k' hk hk'
    exact ⟨x, y, q1, q2, q3⟩

/-- The steps of a growth run. -/
theorem growthRun_steps {S : Structure K d} (hS : S.Reachable) (hne : S.siteIds ≠ []) {s0 : SimState} (hst : StartState S s0) {bg : Val} {nb : Option (Builder K d)} {m : ℕ}
    {res : SimResult} (h : GrowthRun S bg nb s0 m res) : res.len = m + 1 ∧ (∃ ops, res = resultAfter s0 ops) ∧ ∀ k : ℕ, k ≤ m → ∃ s, res.getStep k = .ok s ∧
      s.WF ∧ KnowsIds s ∧ s.siteIds = s0.siteIds ∧ (∀ i ∈ s0.siteIds, ∃ v, occ? s i = some v ∧ ∃ j, occ? s0 j = some v) ∧
      (∀ i ∈ s0.siteIds, ∀ v, occ? s0 i = some v → v ≠ bg → occ? s i = some v) ∧
      ∀ k' : ℕ, k ≤ k' → k' ≤ m → ∃ s', res.getStep k' = .ok s' ∧ ∀ i ∈ s0.siteIds, occ? s i ≠ some bg → occ? s' i ≠ some bg := by
  have hg : s0.getGeneralState ≠ none := by rw [hst.2.1]; simp
  have hids := sameSites_ne hst.2.2.1 hne
  -- a phase that is the background or of the start is a phase of the start
  have hphase : ∀ s : SimState, (∀ i ∈ s0.siteIds, ∀ v, occ? s0 i = some v → v ≠ bg → occ? s i = some v) →
      (∀ i ∈ s0.siteIds, ∃ v, occ? s i = some v ∧ (v = bg ∨ ∃ j, occ? s0 j = some v)) → ∀ i ∈ s0.siteIds, ∃ v, occ? s i = some v ∧ ∃ j, occ? s0 j = some v := by
    intro s hkeep hall i hi
    obtain ⟨v, hv, rfl | hj⟩ := hall i hi
    · obtain ⟨u, hu⟩ := hst.2.2.2.1 i hi
      by_cases hub : u = v
      · exact ⟨v, hv, i, by rw [hu, hub]⟩
      · have := hkeep i hi u hu hub
        rw [hv] at this; cases this
        exact absurd rfl hub
    · exact ⟨v, hv, hj⟩
  rcases h with hone | ⟨order, c, hord, hc, fork, w, sched, hfork, hw, hv, hr⟩
  · have hsteps : res.len = m + 1 ∧ (∃ ops, res = resultAfter s0 ops) ∧ res.getStep (0 : ℕ) = .ok s0 ∧ ∀ k : ℕ, k ≤ m → ∃ s, res.getStep k = .ok s ∧ s.WF ∧ KnowsIds s ∧
        s.siteIds = s0.siteIds ∧ ∀ i ∈ s0.siteIds, ∃ v, occ? s i = some v ∧ (v = bg ∨ ∃ j, occ? s0 j = some v) := by
      obtain ⟨order, c, hord, hc, hrun⟩ := hone
      obtain ⟨bl, g, hb, hc', hbg, hnb⟩ := growthRun_init hS hst hord hc
      rcases hrun with ⟨c', hr⟩ | ⟨draw, a, hr, rfl⟩
      · obtain ⟨c1, res1, e1, e2, e3, e4⟩ := C62_growth c s0 hst.1 hg hids hst.2.2.2.1 hnb m
        rw [hr] at e1; cases e1
        obtain ⟨c2, c2', res2, f1, f2, f3⟩ := grown_serial hS hne hst bg hb hord m
        rw [hc'] at f1; cases f1
        rw [hr] at f2; cases f2
        refine ⟨e2, runSync_after hr, e3, fun k hk => ?_⟩
        obtain ⟨s, g1, g2⟩ := f3 k hk
        refine ⟨s, g1, g2.wf, g2.knows, ?_, fun i hi => ?_⟩
        · cases k with
          | zero => rw [Nat.cast_zero, e3] at g1; cases g1; rfl
          | succ k =>
            obtain ⟨a, b, -, q2, -, q4, -⟩ := e4 k (by omega)
            rw [show ((k + 1 : ℕ) : ℤ) = (k : ℤ) + 1 by push_cast; rfl, q2] at g1; cases g1
            exact q4
        · obtain ⟨x, hx, rfl⟩ := (hst.2.2.1 i).1 hi
          obtain ⟨v, hv, hv'⟩ := g2.phase x hx
          exact ⟨v, hv, hv'.imp id fun ⟨j, _, hj⟩ => ⟨_, hj⟩⟩
      · have hm := List.length_pos_of_ne_nil hne
        have hI := idsTo_of_sameSites hS hst.1 hst.2.2.1
        obtain ⟨a1, e1, e2, e3, -⟩ := C97_growth c s0 hst.1 hg _ hm hI hst.2.2.2.1 hnb m draw
        rw [hr] at e1; cases e1
        obtain ⟨a1, e1, e4⟩ := C97_never_overwritten c s0 hst.1 hg _ hm hI hst.2.2.2.1 hnb m draw
        rw [hr] at e1; cases e1
        refine ⟨e2, runAsync_after hr, e3, fun k hk => ?_⟩
        obtain ⟨s, g1, g2⟩ := asyncGrowth_wf hst.1 hg hm hI hst.2.2.2.1 hnb hr k hk
        obtain ⟨s', q1, q2, q3⟩ := asyncGrowth_others hst.1 hg hm hI hst.2.2.2.1 hnb (startState_knows hst) hr k hk
        rw [g1] at q1; cases q1
        obtain ⟨x, y, q1, -, -, q4⟩ := e4 k k le_rfl hk
        rw [g1] at q1; cases q1
        refine ⟨s, g1, g2, q3, q2, fun i hi => ?_⟩
        obtain ⟨v, hv, hv'⟩ := q4 i hi
        rw [hbg] at hv'
        exact ⟨v, hv, hv'.imp id fun ⟨j, _, hj⟩ => ⟨_, hj⟩⟩
    obtain ⟨e2, hops, e3, e4⟩ := hsteps
    refine ⟨e2, hops, fun k hk => ?_⟩
    obtain ⟨s, g1, g2, g3, g4, g5⟩ := e4 k hk
    have hkeep : ∀ i ∈ s0.siteIds, ∀ v, occ? s0 i = some v → v ≠ bg → occ? s i = some v := by
      obtain ⟨a, b, q1, q2, q3⟩ := oneProcess_keeps hS hne hst hone 0 k (by omega) hk
      rw [e3] at q1; cases q1
      rw [g1] at q2; cases q2
      exact q3
    refine ⟨s, g1, g2, g3, g4, hphase s hkeep g5, hkeep, fun k' hkk hk' => ?_⟩
    obtain ⟨a, b, q1, q2, q3⟩ := oneProcess_keeps hS hne hst hone k k' hkk hk'
    rw [g1] at q1; cases q1
    refine ⟨b, q2, fun i hi hn => ?_⟩
    obtain ⟨v, hv, -⟩ := g5 i hi
    rw [hv] at hn
    rw [q3 _ hi v hv (fun e => hn (by rw [e]))]
    exact hn
  · obtain ⟨bl, g, hb, hc', hbg, hnb⟩ := growthRun_init hS hst hord hc
    obtain ⟨res1, e1, e2, e3⟩ := C90_growth bg c s0 hst.1 hg hids hst.2.2.2.1 fork (fun v => by rw [(hfork v c).1, hbg]) (fun v t i hi => by
      obtain ⟨l, hl, hl'⟩ := hnb t i hi
      obtain ⟨l2, q1, q2⟩ := (hfork v c).2 t i l hl
      exact ⟨l2, q1, fun j hj => hl' j (q2.mem_iff.1 hj)⟩) w hw m sched hv
    rw [hr] at e1; cases e1
    obtain ⟨c2, res2, f1, f2, f3⟩ := grown_parallel hS hne hst bg hb hord m fork hfork w hw sched hv
    rw [hc'] at f1; cases f1
    rw [hr] at f2; cases f2
    refine ⟨e2, runParallel_after hw hr, fun k hk => ?_⟩
    obtain ⟨s, g1, g2⟩ := f3 k hk
    obtain ⟨a, q1, q2, q3, q4, q5⟩ := e3 k hk
    rw [g1] at q1; cases q1
    exact ⟨s, g1, g2.wf, g2.knows, q2, hphase s q4 fun i hi => by
      obtain ⟨v, hv, hv'⟩ := q3 i hi
      exact ⟨v, hv, hv'.imp id fun ⟨j, _, hj⟩ => ⟨_, hj⟩⟩, q4, q5⟩

theorem sitesWith_le_of_imp {s t : SimState} (h : s.siteIds = t.siteIds) {v : Val} (hv : ∀ i ∈ s.siteIds, occ? s i = some v → occ? t i = some v) :
    sitesWith s v ≤ sitesWith t v := by
  unfold sitesWith
  rw [← h, ← List.countP_eq_length_filter, ← List.countP_eq_length_filter]
  exact List.countP_mono_left fun i hi => by simpa using hv i hi

/-- Every step of a growth run can be analyzed. -/
theorem growthRun_analyzable {S : Structure K d} (hS : S.Reachable) (hne : S.siteIds ≠ []) {s0 : SimState} (hst : StartState S s0)
    (hh : ∀ k v, occ? s0 k = some v → v.hashable = true) {bg : Val} {nb : Option (Builder K d)} {m : ℕ} {res : SimResult} (h : GrowthRun S bg nb s0 m res) {k : ℕ}
    (hk : k ≤ m) {s : SimState} (hs : res.getStep k = .ok s) : Analyzable s ∧ s.size = s0.size ∧ s.size ≠ 0 := by
  obtain ⟨-, -, h1⟩ := growthRun_steps hS hne hst h
  obtain ⟨s', g1, g2, g3, g4, g5, -⟩ := h1 k hk
  rw [hs] at g1; cases g1
  refine ⟨⟨g2, g3, fun i hi => ?_⟩, by unfold SimState.size; rw [g4], ?_⟩
  · obtain ⟨v, hv, j, hj⟩ := g5 i (by rw [← g4]; exact hi)
    exact ⟨v, hv, hh j v hj⟩
  · unfold SimState.size
    rw [g4]
    have := sameSites_ne hst.2.2.1 hne
    rwa [Ne, List.length_eq_zero_iff]

/-- C164: after a growth run of at least one step, with any of the three runners and any neighbourhood on any structure, `all_phases` lists exactly the phases of the start state,
and the fractions of `final_phase_fractions` add up to 1; the fraction of the background is at most its fraction at the start and every other fraction at least that. -/
theorem C164_phases {S : Structure K d} (hS : S.Reachable) (hne : S.siteIds ≠ []) (s0 : SimState) (hst : StartState S s0)
    (hh : ∀ k v, occ? s0 k = some v → v.hashable = true) (bg : Val) (nb : Option (Builder K d)) (m : ℕ) (hm : 1 ≤ m) (res : SimResult)
    (h : GrowthRun S bg nb s0 m res) (order : ℕ → List Val → List Val) (hord : ∀ t l, (order t l).Perm l) :
    ∃ l A fr, ResultAnalyzer.new.allPhases res order = .ok (l, A) ∧ l.Nodup ∧ (∀ v, v ∈ l ↔ ∃ i, occ? s0 i = some v) ∧
      finalPhaseFractions ResultAnalyzer.new res order = .ok fr ∧ (Dict.keys fr).Nodup ∧ (∀ v, v ∈ Dict.keys fr ↔ ∃ i, occ? s0 i = some v) ∧
      (Dict.values fr).sum = 1 ∧ (∀ f, (bg, f) ∈ fr → f ≤ (sitesWith s0 bg : ℚ) / s0.size) ∧ ∀ v f, (v, f) ∈ fr → v ≠ bg → (sitesWith s0 v : ℚ) / s0.size ≤ f := by
  obtain ⟨hlen, ⟨ops, hops⟩, hsteps⟩ := growthRun_steps hS hne hst h
  have hall : StepsAnalyzable (resultAfter s0 ops) := by
    rw [← hops]
    intro k hk
    obtain ⟨s, g1, -⟩ := hsteps k (by omega)
    obtain ⟨a1, -, a3⟩ := growthRun_analyzable hS hne hst hh h (by omega) g1
    exact ⟨s, g1, a1, a3⟩
  have hfirst : res.getStep (0 : ℕ) = .ok s0 := by
    rw [hops, C30_get_step _ _ _ (by rw [C30_len]; omega)]
    rfl
  have hat : ∀ v, (∃ k, k + 1 < res.len ∧ PhaseAt res k v) ↔ ∃ i, occ? s0 i = some v := by
    intro v
    constructor
    · rintro ⟨k, hk, s', key, hs', hv⟩
      obtain ⟨s, g1, -, -, g4, g5, -⟩ := hsteps k (by omega)
      rw [g1] at hs'; cases hs'
      obtain ⟨p, hp, -⟩ := occ?_eq.1 hv
      obtain ⟨v', hv', hj⟩ := g5 key (by rw [← g4]; exact mem_of_siteState hp)
      rw [hv] at hv'; cases hv'
      exact hj
    · rintro ⟨i, hi⟩
      exact ⟨0, by omega, s0, i, hfirst, hi⟩
  obtain ⟨l, A, h1, h2, h3⟩ := C72_all_phases_partial s0 ops hall order hord
  obtain ⟨fr, last, h4, h5, h6, h7, h8, h9⟩ := C72_final_partial s0 ops hall order hord
  rw [lastStep_eq] at h5
  rw [← hops] at h1 h3 h4 h5 h7 h9
  rw [hlen, Nat.add_sub_cancel] at h5
  obtain ⟨s, g1, g2, g3, g4, g5, g6, g7⟩ := hsteps m le_rfl
  rw [h5] at g1; cases g1
  obtain ⟨a1, a2, a3⟩ := growthRun_analyzable hS hne hst hh h le_rfl h5
  have hpos : (0 : ℚ) < last.size := by exact_mod_cast Nat.pos_of_ne_zero a3
  refine ⟨l, A, fr, h1, h2, fun v => by rw [h3, hat], h4, h6, fun v => by rw [h7, hat], h9.2 fun key v hv => ?_, fun f hf => ?_, fun v f hf hv => ?_⟩
  · obtain ⟨p, hp, -⟩ := occ?_eq.1 hv
    obtain ⟨v', hv', hj⟩ := g5 key (by rw [← g4]; exact mem_of_siteState hp)
    rw [hv] at hv'; cases hv'
    exact (hat v).2 hj
  · rw [h8 _ _ hf, ← a2]
    refine div_le_div_of_nonneg_right ?_ hpos.le
    exact_mod_cast sitesWith_le_of_imp g4 fun i hi hv => by
      by_contra hne'
      obtain ⟨u, hu⟩ := hst.2.2.2.1 i (by rw [← g4]; exact hi)
      rw [hu] at hne'
      have := g6 i (by rw [← g4]; exact hi) u hu fun e => hne' (by rw [e])
      rw [hv] at this
      exact hne' this.symm
  · rw [h8 _ _ hf, ← a2]
    refine div_le_div_of_nonneg_right ?_ hpos.le
    exact_mod_cast sitesWith_le_of_imp g4.symm fun i hi hi' => g6 i hi v hi' hv

/-- C164: along a growth run with any of the three runners the fraction of the background never increases; along a run in one process the fraction of no other phase ever decreases. -/
theorem C164_monotone {S : Structure K d} (hS : S.Reachable) (hne : S.siteIds ≠ []) (s0 : SimState) (hst : StartState S s0)
    (hh : ∀ k v, occ? s0 k = some v → v.hashable = true) (bg : Val) (hbg : bg.hashable = true) (nb : Option (Builder K d)) (m : ℕ) (res : SimResult)
    (h : GrowthRun S bg nb s0 m res) (k k' : ℕ) (hk : k ≤ k') (hk' : k' ≤ m) :
    (∃ q q', phaseFractionAt res k bg = .ok q ∧ phaseFractionAt res k' bg = .ok q' ∧ q' ≤ q) ∧
    (OneProcessGrowthRun S bg nb s0 m res → ∀ v, v.hashable = true → v ≠ bg →
      ∃ q q', phaseFractionAt res k v = .ok q ∧ phaseFractionAt res k' v = .ok q' ∧ q ≤ q') := by
  obtain ⟨-, -, hsteps⟩ := growthRun_steps hS hne hst h
  obtain ⟨s, g1, -, -, g4, g5, -, g7⟩ := hsteps k (by omega)
  obtain ⟨s', g1', -, -, g4', g5', -⟩ := hsteps k' hk'
  obtain ⟨a1, a2, a3⟩ := growthRun_analyzable hS hne hst hh h (by omega) g1
  obtain ⟨b1, b2, b3⟩ := growthRun_analyzable hS hne hst hh h hk' g1'
  have hpos : (0 : ℚ) < s0.size := by rw [← a2]; exact_mod_cast Nat.pos_of_ne_zero a3
  have hfrac : ∀ v : Val, v.hashable = true → phaseFractionAt res k v = .ok ((sitesWith s v : ℚ) / s0.size) ∧
      phaseFractionAt res k' v = .ok ((sitesWith s' v : ℚ) / s0.size) := by
    intro v hv
    refine ⟨?_, ?_⟩
    · unfold phaseFractionAt; rw [g1, ok_bind, cellFraction_none a1 a3 hv, a2]
    · unfold phaseFractionAt; rw [g1', ok_bind, cellFraction_none b1 b3 hv, b2]
  refine ⟨⟨_, _, (hfrac bg hbg).1, (hfrac bg hbg).2, ?_⟩, fun hser v hv hvb => ⟨_, _, (hfrac v hv).1, (hfrac v hv).2, ?_⟩⟩
  · refine div_le_div_of_nonneg_right ?_ hpos.le
    exact_mod_cast sitesWith_le_of_imp (g4'.trans g4.symm) fun i hi hi' => by
      obtain ⟨t, q1, q2⟩ := g7 k' hk hk'
      rw [g1'] at q1; cases q1
      by_contra hc
      exact q2 i (by rw [← g4']; exact hi) hc hi'
  · refine div_le_div_of_nonneg_right ?_ hpos.le
    obtain ⟨a, b, q1, q2, q3⟩ := oneProcess_keeps hS hne hst hser k k' hk hk'
    rw [g1] at q1; cases q1
    rw [g1'] at q2; cases q2
    exact_mod_cast sitesWith_le_of_imp (g4.trans g4'.symm) fun i hi hi' => q3 i (by rw [← g4]; exact hi) v hi' hvb

/-- C164: in a run with the asynchronous runner the fraction of the background falls in one step by 0 or by one site's share, and the other fractions grow by 0 or by one site's share. -/
theorem C164_one_by_one {S : Structure K d} (hS : S.Reachable) (hne : S.siteIds ≠ []) (s0 : SimState) (hst : StartState S s0)
    (hh : ∀ k v, occ? s0 k = some v → v.hashable = true) (bg : Val) (nb : Option (Builder K d)) (m : ℕ) (res : SimResult)
    (h : AsyncGrowthRun S bg nb s0 m res) (k : ℕ) (hk : k < m) (v : Val) (hv : v.hashable = true) :
    ∃ q q', phaseFractionAt res k v = .ok q ∧ phaseFractionAt res (k + 1) v = .ok q' ∧
      (q' = q ∨ v = bg ∧ q' = q - 1 / S.siteIds.length ∨ v ≠ bg ∧ q' = q + 1 / S.siteIds.length) := by
  obtain ⟨order, c, hord, hc, draw, a, hr, rfl⟩ := h
  have hone : OneProcessGrowthRun S bg nb s0 m a.res := ⟨order, c, hord, hc, .inr ⟨draw, a, hr, rfl⟩⟩
  obtain ⟨bl, g, hb, hc', hbg, hnb⟩ := growthRun_init hS hst hord hc
  have hg : s0.getGeneralState ≠ none := by rw [hst.2.1]; simp
  have hI := idsTo_of_sameSites hS hst.1 hst.2.2.1
  obtain ⟨a1, e1, -, -, e4⟩ := C97_growth c s0 hst.1 hg _ (List.length_pos_of_ne_nil hne) hI hst.2.2.2.1 hnb m draw
  rw [hr] at e1; cases e1
  obtain ⟨x, y, hx, hy, i1, i2, hoff, t, l, u, u', -, hu, hu', hG, -⟩ := e4 k hk
  obtain ⟨a1, a2, a3⟩ := growthRun_analyzable hS hne hst hh (.inl hone) hk.le hx
  obtain ⟨b1, b2, b3⟩ := growthRun_analyzable hS hne hst hh (.inl hone) (k := k + 1) hk (by exact_mod_cast hy)
  have hsz : s0.size = S.siteIds.length := by
    unfold SimState.size
    rw [hI.length_eq]; simp
  refine ⟨_, _, by unfold phaseFractionAt; rw [hx, ok_bind, cellFraction_none a1 a3 hv], by unfold phaseFractionAt; rw [hy, ok_bind, cellFraction_none b1 b3 hv], ?_⟩
  rw [a2, b2, hsz]
  -- the visited site
  set i0 : Key := .int (draw k % S.siteIds.length : ℕ) with hi0
  have hmem : i0 ∈ s0.siteIds := by
    obtain ⟨p, hp, -⟩ := occ?_eq.1 hu
    rw [← i1]; exact mem_of_siteState hp
  have hnd : s0.siteIds.Nodup := hst.1.sites
  obtain ⟨l1, l2, hl⟩ := List.append_of_mem hmem
  have hoff' : ∀ j ∈ l1 ++ l2, occ? y j = occ? x j := by
    intro j hj
    have hji : j ≠ i0 := by
      rintro rfl
      rw [hl, List.nodup_middle, List.nodup_cons] at hnd
      exact hnd.1 hj
    unfold occ?
    rw [hoff j hji]
  have hcount : ∀ s : SimState, s.siteIds = s0.siteIds → sitesWith s v = ((l1 ++ l2).countP fun j => decide (occ? s j = some v)) + if occ? s i0 = some v then 1 else 0 := by
    intro s hs
    unfold sitesWith
    rw [hs, hl, ← List.countP_eq_length_filter, List.countP_append, List.countP_cons, List.countP_append]
    simp only [decide_eq_true_eq]
    omega
  have hsame : ((l1 ++ l2).countP fun j => decide (occ? y j = some v)) = (l1 ++ l2).countP fun j => decide (occ? x j = some v) :=
    List.countP_congr fun j hj => by rw [hoff' j hj]
  rw [hcount x i1, hcount y i2, hsame, hu, hu']
  rw [hbg] at hG
  by_cases hub : u = bg
  · by_cases huu : u' = u
    · left; rw [huu]
    · have hub' : u' ≠ bg := fun e => huu (e.trans hub.symm)
      by_cases hvb : v = bg
      · right; left
        refine ⟨hvb, ?_⟩
        rw [if_pos (c := some u = some v) (by rw [hub, hvb]), if_neg (c := some u' = some v) (by rw [hvb]; exact fun e => hub' (Option.some.inj e))]
        push_cast; ring
      · rw [if_neg (c := some u = some v) (by rw [hub]; exact fun e => hvb (Option.some.inj e).symm)]
        by_cases hvu : u' = v
        · right; right
          refine ⟨hvb, ?_⟩
          rw [if_pos (c := some u' = some v) (by rw [hvu])]
          push_cast; ring
        · left
          rw [if_neg (c := some u' = some v) fun e => hvu (Option.some.inj e)]
  · left; rw [hG.1 hub]

/-- Sites with phase `v` at step `k` of the run of `C91_false`. -/
def count6 (k : ℤ) (v : Val) : ℕ :=
  ((List.range 36).filter fun i : ℕ => decide (occAt (runParallel controller (fun _ c => c) ctl6 init6 2 3 sched6) k (.int i) = some v)).length

theorem count6_B : count6 2 (.str "B") = 9 ∧ count6 3 (.str "B") = 8 := by decide +kernel

/-- C164: in parallel runs the fraction of a phase other than the background can fall. In the run of `C91_false` (three nuclei on a 6 by 6 torus, two workers) `phase_fraction_at`
of "B" is 1/4 at step 2 and 2/9 at step 3. -/
theorem C164_parallel_falls : ∃ (c : Ctl) (s0 : SimState) (w n : ℕ) (sched : ℕ → StepSched) (res : SimResult),
    s0.WF ∧ s0.getGeneralState = some [] ∧ AllOccupied s0 ∧ KnowsIds s0 ∧ c.background = .str "bg" ∧
    (∀ t, ∀ i ∈ s0.siteIds, ∃ l, c.nbs t i = .ok l ∧ ∀ j ∈ l, Key.int j ∈ s0.siteIds) ∧ 0 < w ∧ ValidFor s0.siteIds w n sched ∧
    runParallel controller (fun _ c => c) c s0 w n sched = .ok res ∧ 3 ≤ n ∧
    phaseFractionAt res 2 (.str "B") = .ok (1 / 4) ∧ phaseFractionAt res 3 (.str "B") = .ok (2 / 9) := by
  have q9 : ((9 : ℕ) : ℚ) / 36 = 1 / 4 := by norm_num
  have q8 : ((8 : ℕ) : ℚ) / 36 = 2 / 9 := by norm_num
  have hocc : AllOccupied init6 := by
    intro k hk
    obtain ⟨i, hi, rfl⟩ := mem6.1 hk
    have : ∀ i < 36, (occ? init6 (.int (i : ℕ))).isSome = true := by decide +kernel
    exact Option.isSome_iff_exists.1 (this i hi)
  have hhash : ∀ k v, occ? init6 k = some v → v.hashable = true := by
    intro k v hv
    obtain ⟨p, hp, -⟩ := occ?_eq.1 hv
    obtain ⟨i, hi, rfl⟩ := mem6.1 (mem_of_siteState hp)
    have : ∀ i < 36, ((occ? init6 (.int (i : ℕ))).all fun v => v.hashable) = true := by decide +kernel
    have := this i hi
    rw [hv] at this
    exact this
  have hid : KnowsIds init6 := by
    intro k p hp
    obtain ⟨i, hi, rfl⟩ := mem6.1 (mem_of_siteState hp)
    have : ∀ i < 36, ((init6.getSiteState (.int (i : ℕ))).all fun p => decide (Dict.get? p SITE_ID = some (Key.int (i : ℕ)).toVal)) = true := by decide +kernel
    have := this i hi
    rw [hp] at this
    simpa using this
  have hnb : ∀ t, ∀ i ∈ init6.siteIds, ∃ l, ctl6.nbs t i = .ok l ∧ ∀ j ∈ l, Key.int j ∈ init6.siteIds := by
    intro t k hk
    obtain ⟨i, hi, rfl⟩ := mem6.1 hk
    refine ⟨torus6 i, ?_, fun j hj => mem6.2 ⟨j, ?_, rfl⟩⟩
    · show (if (0 : ℤ) ≤ (i : ℤ) ∧ (i : ℤ) < 36 then Except.ok (torus6 (i : ℤ).toNat) else _) = _
      rw [if_pos (by omega), Int.toNat_natCast]
    · unfold torus6 at hj
      obtain ⟨ab, -, rfl⟩ := List.mem_map.1 hj
      omega
  have hval : ValidFor init6.siteIds 2 3 sched6 := by
    intro k hk
    have : k = 0 ∨ k = 1 ∨ k = 2 := by omega
    unfold StepSched.Valid
    rcases this with rfl | rfl | rfl <;> decide +kernel
  obtain ⟨res, h1, h2, h3⟩ := C90_growth (.str "bg") ctl6 init6 wf6 (by decide) (by decide) hocc (fun _ c => c) (fun _ => rfl) (fun _ => hnb) 2 (by omega) 3 sched6 hval
  obtain ⟨ds, res', e1, e2, e3, e4, e5, -⟩ := growth_runs (.str "bg") (fun _ _ => True) ctl6 init6 wf6 (by decide) (by decide) hocc (fun _ c => c)
    (fun _ => ⟨rfl, fun t i hi => by obtain ⟨l, hl, hl'⟩ := hnb t i hi; exact ⟨l, hl, trivial, hl'⟩⟩) 2 (by omega) 3 sched6 hval
  rw [h1] at e1; cases e1
  have hv0 : ViewOf init6.siteIds init6 := ⟨wf6, rfl, by decide⟩
  have hkn : ∀ l : List Props, (∀ p ∈ l, PatchBy init6.siteIds (GrowthView (.str "bg") init6) (GrowthAnswer (.str "bg") init6.siteIds fun _ _ => True) p) →
      KnowsIds (after init6 l) := by
    intro l
    induction l using List.reverseRecOn with
    | nil => exact fun _ => hid
    | append_singleton l p ih =>
      intro hl
      rw [after_snoc]
      exact knows_setSitesP (hv0.after fun p hp => (hl p (by simp [hp])).1) (ih fun p hp => hl p (by simp [hp])) (hl p (by simp))
  have hfrac : ∀ k : ℕ, k ≤ 3 → ∀ n : ℕ, count6 k (.str "B") = n → phaseFractionAt res k (.str "B") = .ok ((n : ℚ) / 36) := by
    intro k hk n hn
    have hsub := fun p (hp : p ∈ ds.take k) => e4 p (List.mem_of_mem_take hp)
    have hview := hv0.after fun p hp => (hsub p hp).1
    obtain ⟨a, q1, q2, q3, -⟩ := h3 k hk
    have q0 := e5 k hk
    rw [q1] at q0; cases q0
    have han : Analyzable (after init6 (ds.take k)) := ⟨hview.wf, hkn _ hsub, fun i hi => by
      rw [q2] at hi
      obtain ⟨v, hv, rfl | ⟨j, -, hj⟩⟩ := q3 i hi
      · exact ⟨_, hv, rfl⟩
      · exact ⟨v, hv, hhash j v hj⟩⟩
    have hsz : (after init6 (ds.take k)).size = 36 := by
      unfold SimState.size
      rw [q2]; rfl
    unfold phaseFractionAt
    rw [q1, ok_bind, cellFraction_none han (by rw [hsz]; decide) rfl, hsz]
    have : sitesWith (after init6 (ds.take k)) (.str "B") = count6 k (.str "B") := by
      unfold sitesWith count6
      rw [q2, h1]
      simp only [occAt, q1]
      rw [show init6.siteIds = (List.range 36).map fun i : ℕ => Key.int i from rfl, List.filter_map, List.length_map]
      rfl
    rw [this, hn, Nat.cast_ofNat]
  obtain ⟨c2, c3⟩ := count6_B
  refine ⟨ctl6, init6, 2, 3, sched6, res, wf6, rfl, hocc, hid, rfl, hnb, by omega, hval, h1, le_rfl, ?_, ?_⟩
  · exact (hfrac 2 (by omega) 9 c2).trans (congrArg _ q9)
  · exact (hfrac 3 (by omega) 8 c3).trans (congrArg _ q8)

/-- C164: with the artist `from_discrete_result` made from the result of a growth run of at least one step, no site of any step is drawn black: every site has the palette
colour of its phase, and if the start state has at most 22 phases, different phases have different colours. -/
theorem C164_colors {S : Structure K d} (hS : S.Reachable) (hne : S.siteIds ≠ []) (s0 : SimState) (hst : StartState S s0)
    (hh : ∀ k v, occ? s0 k = some v → v.hashable = true) (bg : Val) (nb : Option (Builder K d)) (m : ℕ) (hm : 1 ≤ m) (res : SimResult)
    (h : GrowthRun S bg nb s0 m res) (str : Val → String) (order : ℕ → List Val → List Val) (hord : ∀ t l, (order t l).Perm l)
    (order' : List Val → List Val) (hord' : ∀ l, (order' l).Perm l) :
    ∃ A, ∃ f : Val → Color, artistFromResult str order order' res = .ok A ∧
      (∀ k : ℕ, k ≤ m → ∃ s, res.getStep k = .ok s ∧ ∀ i ∈ S.siteIds, ∃ v, occ? s (.int i) = some v ∧ A.color (s.getSiteState (.int i)) = .ok (f v) ∧ f v ∈ COLORS ∧
        f v ≠ (0, 0, 0)) ∧
      ((∃ l : List Val, l.length ≤ 22 ∧ ∀ i v, occ? s0 i = some v → v ∈ l) → ∀ i v j w, occ? s0 i = some v → occ? s0 j = some w → f v = f w → v = w) := by
  obtain ⟨l, A0, -, h1, h2, h3, -⟩ := C164_phases hS hne s0 hst hh bg nb m hm res h order hord
  have hm' : ∀ v, v ∈ order' l ↔ ∃ i, occ? s0 i = some v := fun v => by rw [(hord' l).mem_iff, h3]
  obtain ⟨A, f, g1, -, g3, g4, -, g6⟩ := artist_colors str (order' l) fun v hv => by
    obtain ⟨i, hi⟩ := (hm' v).1 hv
    exact hh i v hi
  refine ⟨A, f, ?_, fun k hk => ?_, ?_⟩
  · unfold artistFromResult; rw [h1, ok_bind]; exact g1
  · obtain ⟨-, -, hsteps⟩ := growthRun_steps hS hne hst h
    obtain ⟨s, q1, -, -, q4, q5, -⟩ := hsteps k hk
    refine ⟨s, q1, fun i hi => ?_⟩
    obtain ⟨v, hv, j, hj⟩ := q5 (.int i) ((hst.2.2.1 _).2 ⟨i, hi, rfl⟩)
    obtain ⟨p, hp, hv'⟩ := occ?_eq.1 hv
    have hc := g4 v ((hm' v).2 ⟨j, hj⟩)
    refine ⟨v, hv, ?_, hc, palette_not_black _ hc⟩
    rw [hp]
    exact (g3 p v hv' (hh j v hj)).1
  · rintro ⟨L, hL, hL'⟩ i v j w hi hj e
    refine g6 ?_ v ((hm' v).2 ⟨i, hi⟩) w ((hm' w).2 ⟨j, hj⟩) e
    have hnd : (order' l).Nodup := (hord' l).nodup_iff.2 h2
    have hsub : order' l ⊆ L := fun v hv => by
      obtain ⟨i, hi⟩ := (hm' v).1 hv
      exact hL' i v hi
    exact (List.subperm_of_subset hnd hsub).length_le.trans hL

/-- A case of the theorems: two grains from an interface, grown on a 4 x 4 grid with "A" as background, with the synchronous and the asynchronous runner. -/
example : ∃ (S : Structure ℚ 2) (s : SimState), (gridSetup2 (K := ℚ)).interface (.int 4) (.str "A") (.str "B") = .ok ⟨s, S⟩ ∧ S.Reachable ∧ S.siteIds ≠ [] ∧ StartState S s ∧
    (∀ k v, occ? s k = some v → v.hashable = true) ∧ (∃ res, OneProcessGrowthRun S (.str "A") none s 3 res) ∧ (∃ res, GrowthRun S (.str "A") none s 3 res) ∧
    ∃ res, AsyncGrowthRun S (.str "A") none s 3 res := by
  obtain ⟨S, s, h1, h2, h3, h4⟩ := C64_interface (K := ℚ) StdSetup.two 4 (by norm_num) (.str "A") (.str "B") (.str _) (.str _)
  have ht := h2.isTorus
  have hne : S.siteIds ≠ [] := by
    obtain ⟨i, hi, -⟩ := ht.ex (fun _ => 0) fun k => ⟨le_rfl, ht.pos k⟩
    exact List.ne_nil_of_mem hi
  obtain ⟨g, hb, -⟩ := C53_moore h2 1
  obtain ⟨c, c', res, e1, e2, -⟩ := grown_serial ht.reachable hne h3 (.str "A") hb (order := fun _ l => l) (fun _ l => List.Perm.refl l) 3
  have e1' : Growth.init (fun _ l => l) S (.str "A") none = .ok c := by rw [← e1]; rfl
  obtain ⟨-, -, -, -, -, hnb⟩ := growthRun_init ht.reachable h3 (fun _ l => List.Perm.refl l) e1'
  obtain ⟨a, f1, -⟩ := C97_growth c s h3.1 (by rw [h3.2.1]; simp) _ (List.length_pos_of_ne_nil hne) (idsTo_of_sameSites ht.reachable h3.1 h3.2.2.1) h3.2.2.2.1 hnb 3 fun k => k
  have hone : OneProcessGrowthRun S (.str "A") none s 3 res := ⟨_, c, fun _ l => List.Perm.refl l, e1', .inl ⟨c', e2⟩⟩
  refine ⟨S, s, h1, ht.reachable, hne, h3, fun k v hv => ?_, ⟨res, hone⟩, ⟨res, .inl hone⟩, ⟨a.res, _, c, fun _ l => List.Perm.refl l, e1', _, a, f1, rfl⟩⟩
  obtain ⟨p, hp, -⟩ := occ?_eq.1 hv
  obtain ⟨i, hi, rfl⟩ := (h3.2.2.1 k).1 (mem_of_siteState hp)
  obtain ⟨c, -, hc⟩ := ht.site i hi
  rw [h4 i c hc] at hv
  injection hv with hv
  rw [← hv]
  dsimp only
  split_ifs <;> rfl

end Pyl
