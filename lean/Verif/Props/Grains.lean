import Verif.Spec.Grains
import Verif.Props.GrowthCount
/-
C136: grown states are made of grains around the nuclei.
-/
set_option autoImplicit false
set_option linter.unusedSectionVars false

namespace Pyl
open SimState Spec Growth
open Pyl.Lattice Pyl.Structure
variable {K : Type} [Field K] [LinearOrder K] [FloorRing K] [IsStrictOrderedRing K] {d : ℕ}

theorem hopsBy_weaken {R R' : ℕ → ℕ → Prop} (h : ∀ x y, R x y → R' x y) : ∀ (k i j : ℕ), HopsBy R k i j → HopsBy R' k i j
  | 0, _, _, e => e
  | k + 1, i, j, .inl e => .inl (hopsBy_weaken h k i j e)
  | k + 1, i, j, .inr ⟨x, hx, e⟩ => .inr ⟨x, h i x hx, hopsBy_weaken h k x j e⟩

theorem hops_of_by {nb : ℕ → List ℕ} {P : ℕ → Prop} : ∀ (k i j : ℕ), HopsBy (fun x y => y ∈ nb x ∧ P y) k i j → Hops nb k i j
  | 0, _, _, e => e
  | k + 1, i, j, .inl e => .inl (hops_of_by k i j e)
  | k + 1, i, j, .inr ⟨x, hx, e⟩ => .inr ⟨x, hx.1, hops_of_by k x j e⟩

theorem hops_more {nb : ℕ → List ℕ} {i j : ℕ} : ∀ {k m : ℕ}, k ≤ m → Hops nb k i j → Hops nb m i j := by
  intro k m hkm h
  induction m, hkm using Nat.le_induction with
  | base => exact h
  | succ m _ ih => exact .inl ih

/-- Growth steps with respect to one graph make grains. -/
theorem grains_of_steps {S : Structure K d} {bg : Val} {nb : ℕ → List ℕ} (hnb : ∀ i ∈ S.siteIds, ∀ j ∈ nb i, j ∈ S.siteIds) {a : ℕ → SimState} {n : ℕ}
    (h0 : ∀ i ∈ S.siteIds, ∃ v, occ? (a 0) (.int i) = some v)
    (hstep : ∀ k, k < n → ∀ i ∈ S.siteIds, ∃ v v', occ? (a k) (.int i) = some v ∧ occ? (a (k + 1)) (.int i) = some v' ∧ GrowthStep bg (a k) (nb i) v v')
    (k : ℕ) (hk : k ≤ n) : Grains S (a 0) bg nb k (a k) := by
  induction k with
  | zero =>
    intro i hi
    obtain ⟨v, hv⟩ := h0 i hi
    have hnuc : v ≠ bg ↔ i ∈ nuclei S (a 0) bg := by simp [nuclei, hi, hv]
    refine ⟨v, hv, ?_, fun hne => ⟨0, i, le_rfl, ⟨hnuc.1 hne, rfl, fun _ _ _ _ => Nat.zero_le _⟩, hv, rfl⟩⟩
    rw [hnuc]
    exact ⟨fun h => ⟨i, h, rfl⟩, by rintro ⟨j, hj, rfl⟩; exact hj⟩
  | succ k ih =>
    have ih := ih (by omega)
    have keep : ∀ x ∈ S.siteIds, ∀ v, v ≠ bg → occ? (a k) (.int x) = some v → occ? (a (k + 1)) (.int x) = some v := by
      intro x hx v hne hv
      obtain ⟨u, u', hu, hu', hst, -⟩ := hstep k (by omega) x hx
      rw [hv] at hu; injection hu with hu; subst hu
      rw [hu', hst hne]
    -- ways within the phase stay ways within the phase
    have keepW : ∀ v, v ≠ bg → ∀ (h i j : ℕ), i ∈ S.siteIds → HopsBy (fun x y => y ∈ nb x ∧ occ? (a k) (.int y) = some v) h i j →
        HopsBy (fun x y => y ∈ nb x ∧ occ? (a (k + 1)) (.int y) = some v) h i j := by
      intro v hne h
      induction h with
      | zero => exact fun _ _ _ e => e
      | succ h ihh =>
        rintro i j hi (e | ⟨x, ⟨hx1, hx2⟩, e⟩)
        · exact .inl (ihh i j hi e)
        · have hx := hnb i hi x hx1
          exact .inr ⟨x, ⟨hx1, keep x hx v hne hx2⟩, ihh x j hx e⟩
    intro i hi
    obtain ⟨v, v', hv, hv', hst1, hst2, hst3⟩ := hstep k (by omega) i hi
    obtain ⟨v0, hv0, hocc, hgr⟩ := ih i hi
    rw [hv] at hv0; injection hv0 with hv0; subst hv0
    refine ⟨v', hv', ?_, ?_⟩
    · by_cases hne : v ≠ bg
      · rw [hst1 hne]
        obtain ⟨j, hj, h⟩ := hocc.1 hne
        exact ⟨fun _ => ⟨j, hj, .inl h⟩, fun _ => hne⟩
      · have hvb : v = bg := by simpa using hne
        by_cases hex : ∃ j ∈ nb i, occ? (a k) (.int j) ≠ some bg
        · refine ⟨fun _ => ?_, fun _ => (hst3 hvb hex).1⟩
          obtain ⟨x, hx, hxo⟩ := hex
          obtain ⟨u, hu, hocc', -⟩ := ih x (hnb i hi x hx)
          obtain ⟨j, hj, h⟩ := hocc'.1 (by rintro rfl; exact hxo hu)
          exact ⟨j, hj, .inr ⟨x, hx, h⟩⟩
        · have hall : ∀ j ∈ nb i, occ? (a k) (.int j) = some bg := by
            intro j hj
            by_contra h
            exact hex ⟨j, hj, h⟩
          refine ⟨fun h => absurd (hst2 hvb hall) h, ?_⟩
          rintro ⟨j, hj, h | ⟨x, hx, h⟩⟩
          · exact absurd hvb (hocc.2 ⟨j, hj, h⟩)
          · obtain ⟨u, hu, hocc', -⟩ := ih x (hnb i hi x hx)
            have := hocc'.2 ⟨j, hj, h⟩
            rw [hall x hx] at hu; injection hu with hu
            exact absurd hu.symm this
    · intro hne'
      by_cases hne : v ≠ bg
      · have e := hst1 hne
        subst e
        obtain ⟨h, j, h1, h2, h3, h4⟩ := hgr hne
        exact ⟨h, j, by omega, h2, h3, keepW _ hne _ _ _ hi h4⟩
      · have hvb : v = bg := by simpa using hne
        have hex : ∃ j ∈ nb i, occ? (a k) (.int j) ≠ some bg := by
          by_contra h
          refine hne' (hst2 hvb fun j hj => ?_)
          by_contra h9
          exact h ⟨j, hj, h9⟩
        obtain ⟨-, ⟨x, hx, hxo⟩, -⟩ := hst3 hvb hex
        have hxs := hnb i hi x hx
        obtain ⟨u, hu, -, hgr'⟩ := ih x hxs
        rw [hxo] at hu; injection hu with hu; subst hu
        obtain ⟨h, j, h1, ⟨h2, h3, h4⟩, h5, h6⟩ := hgr' hne'
        refine ⟨h + 1, j, by omega, ⟨h2, .inr ⟨x, hx, h3⟩, fun j' hj' h' hh' => ?_⟩, h5, .inr ⟨x, ⟨hx, keep x hxs _ hne' hxo⟩, keepW _ hne' _ _ _ hxs h6⟩⟩
        by_contra hlt
        exact hne (hocc.2 ⟨j', hj', hops_more (by omega) hh'⟩)

/-- A state of grains: if all nearest nuclei of a site have the same phase, the site has it (once it is reached). -/
theorem Spec.Grains.voronoi {S : Structure K d} {s0 s : SimState} {bg : Val} {nb : ℕ → List ℕ} {k : ℕ} (hG : Grains S s0 bg nb k s)
    {i : ℕ} (hi : i ∈ S.siteIds) (hr : ∃ j ∈ nuclei S s0 bg, Hops nb k i j) {p : Val} (hp : ∀ h j, NearestNucleus S s0 bg nb i h j → occ? s0 (.int j) = some p) :
    occ? s (.int i) = some p := by
  obtain ⟨v, hv, h1, h2⟩ := hG i hi
  obtain ⟨h, j, -, hn, h3, -⟩ := h2 (h1.2 hr)
  rw [hp h j hn] at h3
  rw [hv, h3]

/-- C136: in a serial run of the growth model with one neighbourhood graph every step is a state of grains: the site has, once it is reached, the phase of a nearest
nucleus for the rest of the run, and is joined to it by a shortest way within the phase. -/
theorem C136_grains {S : Structure K d} (hS : S.Reachable) (bl : Builder K d) (g : Graph K) (hb : bl.get S none = .ok g) (bg : Val)
    (order : ℕ → List ℕ → List ℕ) (horder : ∀ t l, (order t l).Perm l) (s0 : SimState) (hs : s0.WF) (hg : s0.getGeneralState ≠ none)
    (hne : S.siteIds ≠ []) (hsites : SameSites S s0) (hocc : AllOccupied s0) (n : ℕ) :
    ∃ c c' res, Growth.init order S bg (some bl) = .ok c ∧ runSync controller c s0 n = .ok (c', res) ∧
      ∀ k : ℕ, k ≤ n → ∃ s, res.getStep k = .ok s ∧ Grains S s0 bg g.neighborsOf k s := by
  obtain ⟨c, c', res, h1, h2, h3, h4, h5⟩ := C62_builder hS bl g hb bg order horder s0 hs hg hne hsites hocc n
  refine ⟨c, c', res, h1, h2, ?_⟩
  have hex : ∀ k : ℕ, ∃ s, k ≤ n → res.getStep k = .ok s := by
    intro k
    by_cases hk : k ≤ n
    · cases k with
      | zero => exact ⟨s0, fun _ => h4⟩
      | succ k =>
        obtain ⟨a, b, -, hb', -⟩ := h5 k (by omega)
        exact ⟨b, fun _ => by exact_mod_cast hb'⟩
    · exact ⟨s0, fun h => absurd h hk⟩
  choose a ha using hex
  have ha0 : a 0 = s0 := by
    have := ha 0 (by omega)
    rw [show ((0 : ℕ) : ℤ) = 0 from rfl, h4] at this
    injection this with this
    exact this.symm
  intro k hk
  refine ⟨a k, ha k hk, ?_⟩
  rw [← ha0]
  refine grains_of_steps (n := n) (fun i _ j hj => ((C55_known_and_other hS bl none g hb i).1 j hj).1) (fun i hi => ?_) (fun k hk i hi => ?_) k hk
  · rw [ha0]
    exact hocc _ ((hsites _).2 ⟨i, hi, rfl⟩)
  · obtain ⟨x, y, hx, hy, -, hxy⟩ := h5 k hk
    rw [ha k (by omega)] at hx; injection hx with hx; subst hx
    have := ha (k + 1) (by omega)
    rw [show ((k + 1 : ℕ) : ℤ) = (k : ℤ) + 1 by push_cast; ring, hy] at this
    injection this with this; subst this
    exact hxy i hi

/-- C136: so growth makes Voronoi cells: a site all of whose nearest nuclei have phase `p` has phase `p` from the step on at which it is reached. -/
theorem C136_voronoi {S : Structure K d} (hS : S.Reachable) (bl : Builder K d) (g : Graph K) (hb : bl.get S none = .ok g) (bg : Val)
    (order : ℕ → List ℕ → List ℕ) (horder : ∀ t l, (order t l).Perm l) (s0 : SimState) (hs : s0.WF) (hg : s0.getGeneralState ≠ none)
    (hne : S.siteIds ≠ []) (hsites : SameSites S s0) (hocc : AllOccupied s0) (n : ℕ) :
    ∃ c c' res, Growth.init order S bg (some bl) = .ok c ∧ runSync controller c s0 n = .ok (c', res) ∧
      ∀ k : ℕ, k ≤ n → ∃ s, res.getStep k = .ok s ∧ ∀ i ∈ S.siteIds, ∀ p, (∃ j ∈ nuclei S s0 bg, Hops g.neighborsOf k i j) →
        (∀ h j, NearestNucleus S s0 bg g.neighborsOf i h j → occ? s0 (.int j) = some p) → occ? s (.int i) = some p := by
  obtain ⟨c, c', res, h1, h2, h3⟩ := C136_grains hS bl g hb bg order horder s0 hs hg hne hsites hocc n
  refine ⟨c, c', res, h1, h2, fun k hk => ?_⟩
  obtain ⟨s, hs1, hs2⟩ := h3 k hk
  exact ⟨s, hs1, fun i hi p hr hp => hs2.voronoi hi hr hp⟩

/-- C136 for the default neighbourhood on a square grid: after `k` steps the phase of a cell is that of a seed at the smallest Chebyshev distance on the torus, if this
distance is at most `k`. -/
theorem C136_moore {S : Structure K d} {N : Fin d → ℤ} (hS : SquareGrid d N S) (bg : Val) (order : ℕ → List ℕ → List ℕ)
    (horder : ∀ t l, (order t l).Perm l) (s0 : SimState) (hs : s0.WF) (hg : s0.getGeneralState ≠ none) (hsites : SameSites S s0)
    (hocc : AllOccupied s0) (n : ℕ) :
    ∃ c c' res, Growth.init order S bg none = .ok c ∧ runSync controller c s0 n = .ok (c', res) ∧ ∀ k : ℕ, k ≤ n → ∃ s, res.getStep k = .ok s ∧
      ∀ i x, SiteHas S i x → ∃ v, occ? s (.int i) = some v ∧
        (v ≠ bg ↔ ∃ (j : ℕ) (y : Fin d → ℤ), SiteHas S j y ∧ occ? s0 (.int j) ≠ some bg ∧ ChebyshevLE N x y k) ∧
        (v ≠ bg → ∃ (j : ℕ) (y : Fin d → ℤ) (h : ℕ), h ≤ k ∧ SiteHas S j y ∧ occ? s0 (.int j) = some v ∧ ChebyshevLE N x y h ∧
          ∀ (j' : ℕ) (y' : Fin d → ℤ) (h' : ℕ), SiteHas S j' y' → occ? s0 (.int j') ≠ some bg → ChebyshevLE N x y' h' → h ≤ h') := by
  have ht := hS.isTorus
  obtain ⟨g, hget, hgn⟩ := C53_moore hS 1
  have hbg : ∀ i ∈ S.siteIds, ∀ j ∈ g.neighborsOf i, j ∈ S.siteIds := fun i _ j hj => ((C55_known_and_other ht.reachable (moore 1) none g hget i).1 j hj).1
  obtain ⟨c, c', res, h1, h2, h3⟩ := C136_grains ht.reachable (moore 1) g hget bg order horder s0 hs hg ht.ids_ne hsites hocc n
  refine ⟨c, c', res, h1, h2, fun k hk => ?_⟩
  obtain ⟨s, hs1, hs2⟩ := h3 k hk
  refine ⟨s, hs1, fun i x hx => ?_⟩
  obtain ⟨v, hv, h3, h4⟩ := hs2 i (ht.mem_ids ht.reachable hx)
  refine ⟨v, hv, h3.trans ⟨?_, ?_⟩, fun hne => ?_⟩
  · rintro ⟨j, hj, hh⟩
    obtain ⟨h5, h6⟩ := List.mem_filter.1 hj
    obtain ⟨y, -, hy⟩ := ht.site j h5
    exact ⟨j, y, hy, by simpa using h6, (moore_dist ht hgn hbg hy k i x hx).1 hh⟩
  · rintro ⟨j, y, hy, hj, hc⟩
    exact ⟨j, List.mem_filter.2 ⟨ht.mem_ids ht.reachable hy, by simpa using hj⟩, (moore_dist ht hgn hbg hy k i x hx).2 hc⟩
  · obtain ⟨h, j, h5, ⟨h6, h7, h8⟩, h9, -⟩ := h4 hne
    obtain ⟨y, -, hy⟩ := ht.site j (List.mem_filter.1 h6).1
    refine ⟨j, y, h, h5, hy, h9, (moore_dist ht hgn hbg hy h i x hx).1 h7, fun j' y' h' hy' hj' hc => ?_⟩
    exact h8 j' (List.mem_filter.2 ⟨ht.mem_ids ht.reachable hy', by simpa using hj'⟩) h' ((moore_dist ht hgn hbg hy' h' i x hx).2 hc)

/-- C136 with the parallel runner, if every worker used at some step was also used at every earlier step (with one worker always). -/
theorem C136_parallel {S : Structure K d} (hS : S.Reachable) (bl : Builder K d) (g : Graph K) (hb : bl.get S none = .ok g) (bg : Val)
    (order : ℕ → List ℕ → List ℕ) (horder : ∀ t l, (order t l).Perm l) (s0 : SimState) (hs : s0.WF) (hg : s0.getGeneralState ≠ none)
    (hne : S.siteIds ≠ []) (hsites : SameSites S s0) (hocc : AllOccupied s0) (n : ℕ)
    (c : Ctl) (hc : Growth.init order S bg (some bl) = .ok c) (fork : ℕ → Ctl → Ctl) (hfork : ∀ v, Reorders c (fork v c))
    (w : ℕ) (hw0 : 0 < w) (sched : ℕ → StepSched) (hv : ValidFor s0.siteIds w n sched) (hna : NoAbsence sched n) :
    ∃ res, runParallel controller fork c s0 w n sched = .ok res ∧ ∀ k : ℕ, k ≤ n → ∃ s, res.getStep k = .ok s ∧ Grains S s0 bg g.neighborsOf k s := by
  obtain ⟨res, h2, h3, h4, h5⟩ := C91_no_absence_partial hS bl g hb bg order horder s0 hs hg hne hsites hocc n c hc fork hfork w hw0 sched hv hna
  refine ⟨res, h2, ?_⟩
  have hex : ∀ k : ℕ, ∃ s, k ≤ n → res.getStep k = .ok s := by
    intro k
    by_cases hk : k ≤ n
    · cases k with
      | zero => exact ⟨s0, fun _ => h4⟩
      | succ k =>
        obtain ⟨a, b, -, hb', -⟩ := h5 k (by omega)
        exact ⟨b, fun _ => by exact_mod_cast hb'⟩
    · exact ⟨s0, fun h => absurd h hk⟩
  choose a ha using hex
  have ha0 : a 0 = s0 := by
    have := ha 0 (by omega)
    rw [show ((0 : ℕ) : ℤ) = 0 from rfl, h4] at this
    injection this with this
    exact this.symm
  intro k hk
  refine ⟨a k, ha k hk, ?_⟩
  rw [← ha0]
  refine grains_of_steps (n := n) (fun i _ j hj => ((C55_known_and_other hS bl none g hb i).1 j hj).1) (fun i hi => ?_) (fun k hk i hi => ?_) k hk
  · rw [ha0]
    exact hocc _ ((hsites _).2 ⟨i, hi, rfl⟩)
  · obtain ⟨x, y, hx, hy, -, hxy⟩ := h5 k hk
    rw [ha k (by omega)] at hx; injection hx with hx; subst hx
    have := ha (k + 1) (by omega)
    rw [show ((k + 1 : ℕ) : ℤ) = (k : ℤ) + 1 by push_cast; ring, hy] at this
    injection this with this; subst this
    exact hxy i hi

/-- With one worker nobody is ever absent. -/
theorem noAbsence_one {ids : List Key} (hids : ids ≠ []) {n : ℕ} {sched : ℕ → StepSched} (hv : ValidFor ids 1 n sched) : NoAbsence sched n := by
  intro k hk v hv'
  obtain ⟨p, hp, rfl⟩ := List.mem_map.1 hv'
  have h1 := (hv (k + 1) hk).2 p hp
  obtain ⟨h2, h3⟩ := hv k (by omega)
  have hlen : (sched k) ≠ [] := by
    intro e
    rw [e] at h2
    have h4 : (chunks ids (chunkSize ids.length 1)).length = 0 := by simpa using h2.length_eq.symm
    have h5 := (hv (k + 1) hk).1.length_eq
    rw [List.length_range, h4] at h5
    have : (sched (k + 1)) = [] := by simpa using h5
    rw [this] at hp
    exact absurd hp (by simp)
  obtain ⟨q, hq⟩ := List.exists_mem_of_ne_nil _ hlen
  have h6 := h3 q hq
  exact List.mem_map.2 ⟨q, hq, by omega⟩

/-- C136 for `GrowthSetup.grow` with one neighbourhood graph, if every worker used at some step was also used at every earlier step: the result is a state of grains around the
nuclei that were placed. -/
theorem C136_grow {G : GridSetup K d} (hG : StdSetup d G) (n : ℤ) (hn : 0 < n) (num : K) (m : ℤ) (hm : NearestEven num m) (bg : Val) (hbgw : bg.WF)
    (nucAmts : Dict Val K) (hw : Dict.WF nucAmts) (hph : ∀ p ∈ Dict.keys nucAmts, p.WF) (hbg : bg ∉ Dict.keys nucAmts) (buffer : Option ℤ)
    (order : ℕ → List ℕ → List ℕ) (hord : ∀ t l, (order t l).Perm l) (draw : ℕ → ℕ) (fuel : ℕ) (sim : Simulation K d)
    (h : G.randomSites (.int n) num bg nucAmts buffer order draw fuel = some (.ok sim))
    (bl : Builder K d) (g : Graph K) (hb : bl.get sim.struct none = .ok g) (ord : ℕ → List ℕ → List ℕ) (hord' : ∀ t l, (ord t l).Perm l)
    (fork : ℕ → Ctl → Ctl) (hfork : ∀ v c, Reorders c (fork v c)) (w : ℕ) (hw0 : 0 < w) (sched : ℕ → StepSched)
    (hv : ValidFor sim.state.siteIds w n.toNat sched) (hna : NoAbsence sched n.toNat ∨ w = 1) :
    ∃ sim', grow G n num bg nucAmts (some bl) buffer order draw fuel ord fork w sched = some (.ok sim') ∧ sim'.struct = sim.struct ∧
      Grains sim.struct sim.state bg g.neighborsOf n.toNat sim'.state := by
  obtain ⟨hsq, hst, -, -⟩ := C67_random_sites hG n hn num m hm bg hbgw nucAmts hw hph hbg buffer order hord draw fuel sim h
  have ht := hsq.isTorus
  obtain ⟨s1, s2, s3, s4, -⟩ := hst
  obtain ⟨c, hc⟩ : ∃ c, Growth.init ord sim.struct bg (some bl) = .ok c := by
    unfold Growth.init
    rw [Option.getD_some, hb]
    exact ⟨_, rfl⟩
  have hna' : NoAbsence sched n.toNat := by
    rcases hna with h9 | rfl
    · exact h9
    · exact noAbsence_one (sameSites_ne s3 ht.ids_ne) hv
  have hg0 : sim.state.getGeneralState ≠ none := by rw [s2]; simp
  obtain ⟨res, h1, h2⟩ := C136_parallel ht.reachable bl g hb bg ord hord' sim.state s1 hg0 ht.ids_ne s3 s4 n.toNat c hc fork
    (fun v => hfork v c) w hw0 sched hv hna'
  obtain ⟨res', e1, e2, -⟩ := C91_no_absence_partial ht.reachable bl g hb bg ord hord' sim.state s1 hg0 ht.ids_ne s3 s4 n.toNat c hc fork
    (fun v => hfork v c) w hw0 sched hv hna'
  rw [h1] at e1; injection e1 with e1; subst e1
  obtain ⟨s', hs1, hs2⟩ := h2 n.toNat le_rfl
  have hlast : res.lastStep = .ok s' := by
    unfold SimResult.lastStep
    rw [e2, ← hs1]
    congr 1
    push_cast; ring
  refine ⟨⟨s', sim.struct⟩, ?_, rfl, hs2⟩
  unfold grow
  rw [h]
  simp only [hc, ok_bind, h1, hlast]
  rfl

/-- C136 does not hold for every parallel run: in the run of `C91_false` the cell (1, 4), whose only nearest nucleus, one move away, is the `B` at (0, 5), is `A` at the end. -/
theorem C136_parallel_false : ∃ (bg : Val) (c : Ctl) (nb : ℕ → List ℕ) (s0 : SimState) (w n : ℕ) (sched : ℕ → StepSched) (res : SimResult) (s : SimState) (i : ℕ) (p q : Val),
    s0.WF ∧ s0.getGeneralState ≠ none ∧ AllOccupied s0 ∧ c.background = bg ∧
    (∀ t, ∀ i : ℕ, Key.int i ∈ s0.siteIds → c.nbs t (.int i) = .ok (nb i) ∧ ∀ j ∈ nb i, Key.int j ∈ s0.siteIds) ∧
    0 < w ∧ ValidFor s0.siteIds w n sched ∧ runParallel controller (fun _ c => c) c s0 w n sched = .ok res ∧ res.lastStep = .ok s ∧
    Key.int i ∈ s0.siteIds ∧ occ? s (.int i) = some q ∧ q ≠ p ∧
    ∀ h j : ℕ, occ? s0 (.int j) ≠ some bg → Hops nb h i j → (∀ h' j' : ℕ, Key.int j' ∈ s0.siteIds → occ? s0 (.int j') ≠ some bg → Hops nb h' i j' → h ≤ h') →
      occ? s0 (.int j) = some p := by
  have hocc : AllOccupied init6 := by
    intro k hk
    obtain ⟨i, hi, rfl⟩ := mem6.1 hk
    have : ∀ i < 36, (occ? init6 (.int (i : ℕ))).isSome = true := by decide +kernel
    exact Option.isSome_iff_exists.1 (this i hi)
  have hnb : ∀ (t : ℕ), ∀ i : ℕ, Key.int i ∈ init6.siteIds → ctl6.nbs t (.int i) = .ok (torus6 i) ∧ ∀ j ∈ torus6 i, Key.int j ∈ init6.siteIds := by
    intro t i hk
    obtain ⟨i', hi, e⟩ := mem6.1 hk
    have e' : i = i' := by injection e with e; exact_mod_cast e
    subst e'
    refine ⟨?_, fun j hj => mem6.2 ⟨j, ?_, rfl⟩⟩
    · show (if (0 : ℤ) ≤ (i : ℤ) ∧ (i : ℤ) < 36 then Except.ok (torus6 (i : ℤ).toNat) else _) = _
      rw [if_pos (by omega), Int.toNat_natCast]
    · unfold torus6 at hj
      obtain ⟨ab, -, rfl⟩ := List.mem_map.1 hj
      omega
  have hval : ValidFor init6.siteIds 2 3 sched6 := by
    intro k hk
    have : k = 0 ∨ k = 1 ∨ k = 2 := by omega
    unfold StepSched.Valid
    rcases this with rfl | rfl | rfl <;> decide +kernel
  obtain ⟨res, h1, h2, h3⟩ := C90_growth (.str "bg") ctl6 init6 wf6 (by decide) (by decide) hocc (fun _ c => c) (fun _ => rfl)
    (fun _ t k hk => by obtain ⟨i, -, rfl⟩ := mem6.1 hk; exact ⟨_, hnb t i hk⟩) 2 (by omega) 3 sched6 hval
  have h := run6
  rw [h1] at h
  obtain ⟨b, hb, -⟩ := h3 3 (by omega)
  have hb' : res.getStep 3 = .ok b := hb
  simp only [occAt, hb'] at h
  have hlast : res.lastStep = .ok b := by
    unfold SimResult.lastStep
    rw [h2]; exact hb
  refine ⟨.str "bg", ctl6, torus6, init6, 2, 3, sched6, res, b, 10, .str "B", .str "A", wf6, by decide, hocc, rfl, hnb, by omega, hval, h1, hlast,
    mem6.2 ⟨10, by omega, rfl⟩, h.2, by decide, fun h j hj hh hmin => ?_⟩
  have h5 := hmin 1 5 (mem6.2 ⟨5, by omega, rfl⟩) (by decide +kernel) (.inr ⟨5, by decide +kernel, rfl⟩)
  have h10 : occ? init6 (.int (10 : ℕ)) = some (.str "bg") := by decide +kernel
  have hall : ∀ x ∈ torus6 10, occ? init6 (.int x) ≠ some (.str "bg") → occ? init6 (.int x) = some (.str "B") := by decide +kernel
  rcases Nat.le_one_iff_eq_zero_or_eq_one.1 h5 with rfl | rfl
  · obtain rfl : 10 = j := hh
    exact absurd h10 hj
  · rcases hh with hh | ⟨x, hx, hh⟩
    · obtain rfl : 10 = j := hh
      exact absurd h10 hj
    · obtain rfl : x = j := hh
      exact hall x hx hj

/-- `A` at (0, 0) and `B` at (5, 5) on a grid of 10 by 10: after 5 steps the cell (1, 9) is `A` and the cell (6, 4) is `B`. -/
example (order : ℕ → List ℕ → List ℕ) (horder : ∀ t l, (order t l).Perm l) :
    ∃ sim c c' res s, (gridSetup2 : GridSetup ℚ 2).coords (.int 10) (.str "bg") [(.str "A", [intPoint ![0, 0]]), (.str "B", [intPoint ![5, 5]])] = .ok sim ∧
      Growth.init order sim.struct (.str "bg") none = .ok c ∧ runSync controller c sim.state 5 = .ok (c', res) ∧ res.getStep 5 = .ok s ∧
      (∀ i, SiteHas sim.struct i ![1, 9] → occ? s (.int i) = some (.str "A")) ∧ ∀ i, SiteHas sim.struct i ![6, 4] → occ? s (.int i) = some (.str "B") := by
  obtain ⟨S, s0, h1, h2, h3, h4⟩ := C66_coords (K := ℚ) .two 10 (by norm_num) (.str "bg") (.str _) [(.str "A", [![0, 0]]), (.str "B", [![5, 5]])] (by
    intro pl hpl
    simp only [List.mem_cons, List.not_mem_nil, or_false] at hpl
    rcases hpl with rfl | rfl <;> exact .str _)
  obtain ⟨s1, s2, s3, s4, -⟩ := h3
  obtain ⟨c, c', res, h5, h6, h7⟩ := C136_moore h2 (.str "bg") order horder s0 s1 (by rw [s2]; simp) s3 s4 5
  obtain ⟨s, h8, h9⟩ := h7 5 le_rfl
  have ht := h2.isTorus
  -- the seeds
  have hseed : ∀ j y, SiteHas S j y → occ? s0 (.int j) ≠ some (.str "bg") →
      (y = ![0, 0] ∧ occ? s0 (.int j) = some (.str "A")) ∨ (y = ![5, 5] ∧ occ? s0 (.int j) = some (.str "B")) := by
    intro j y hy hj
    obtain ⟨v, hv, hl⟩ := h4 j y hy
    have hyb := ht.inBox_of_has hy
    have hcell : ∀ x : Fin 2 → ℤ, InBox (fun _ => 10) x → SameCell 10 x y → y = x := by
      intro x hx hs
      funext q
      obtain ⟨z, hz⟩ := hs q
      have h1 := hx q
      have h2 := hyb q
      simp only at h1 h2
      omega
    rcases hl with ⟨l₁, p, x, l₂, e, hx, -, rfl⟩ | ⟨-, rfl⟩
    · have hmem : (v, x) ∈ listed [((.str "A" : Val), [(![0, 0] : Fin 2 → ℤ)]), (.str "B", [![5, 5]])] := by rw [e]; simp
      simp only [listed, List.flatMap_cons, List.map_cons, List.map_nil, List.flatMap_nil, List.append_nil, List.cons_append, List.nil_append,
        List.mem_cons, List.not_mem_nil, or_false, Prod.mk.injEq] at hmem
      rcases hmem with ⟨rfl, rfl⟩ | ⟨rfl, rfl⟩
      · exact .inl ⟨hcell _ (by intro q; fin_cases q <;> simp) hx, hv⟩
      · exact .inr ⟨hcell _ (by intro q; fin_cases q <;> simp) hx, hv⟩
    · exact absurd hv hj
  have hA : ∃ j, SiteHas S j ![0, 0] ∧ occ? s0 (.int j) = some (.str "A") := by
    obtain ⟨j, -, hj⟩ := ht.ex ![0, 0] (by intro q; fin_cases q <;> simp)
    obtain ⟨v, hv, hl⟩ := h4 j _ hj
    refine ⟨j, hj, ?_⟩
    rcases hl with ⟨l₁, p, x, l₂, e, hx, -, rfl⟩ | ⟨hl, rfl⟩
    · have hmem : (v, x) ∈ listed [((.str "A" : Val), [(![0, 0] : Fin 2 → ℤ)]), (.str "B", [![5, 5]])] := by rw [e]; simp
      simp only [listed, List.flatMap_cons, List.map_cons, List.map_nil, List.flatMap_nil, List.append_nil, List.cons_append, List.nil_append,
        List.mem_cons, List.not_mem_nil, or_false, Prod.mk.injEq] at hmem
      rcases hmem with ⟨rfl, rfl⟩ | ⟨rfl, rfl⟩
      · exact hv
      · have := hx 0
        norm_num at this
    · exact absurd (fun q => by simp) (hl (.str "A", ![0, 0]) (by simp [listed]))
  have hB : ∃ j, SiteHas S j ![5, 5] ∧ occ? s0 (.int j) = some (.str "B") := by
    obtain ⟨j, -, hj⟩ := ht.ex ![5, 5] (by intro q; fin_cases q <;> simp)
    obtain ⟨v, hv, hl⟩ := h4 j _ hj
    refine ⟨j, hj, ?_⟩
    rcases hl with ⟨l₁, p, x, l₂, e, hx, -, rfl⟩ | ⟨hl, rfl⟩
    · have hmem : (v, x) ∈ listed [((.str "A" : Val), [(![0, 0] : Fin 2 → ℤ)]), (.str "B", [![5, 5]])] := by rw [e]; simp
      simp only [listed, List.flatMap_cons, List.map_cons, List.map_nil, List.flatMap_nil, List.append_nil, List.cons_append, List.nil_append,
        List.mem_cons, List.not_mem_nil, or_false, Prod.mk.injEq] at hmem
      rcases hmem with ⟨rfl, rfl⟩ | ⟨rfl, rfl⟩
      · have := hx 0
        norm_num at this
      · exact hv
    · exact absurd (fun q => by simp) (hl (.str "B", ![5, 5]) (by simp [listed]))
  obtain ⟨jA, hjA, hoA⟩ := hA
  obtain ⟨jB, hjB, hoB⟩ := hB
  refine ⟨⟨s0, S⟩, c, c', res, s, h1, h5, h6, by exact_mod_cast h8, fun i hi => ?_, fun i hi => ?_⟩
  · obtain ⟨v, hv, e1, e2⟩ := h9 i _ hi
    have hne := e1.2 ⟨jA, _, hjA, by rw [hoA]; simp, by intro q; fin_cases q <;> simp [circ]⟩
    obtain ⟨j, y, h, -, hy, hjv, hc, hmin⟩ := e2 hne
    have hle := hmin jA _ 1 hjA (by rw [hoA]; simp) (by intro q; fin_cases q <;> simp [circ])
    rcases hseed j y hy (by rw [hjv]; simpa using hne) with ⟨rfl, ho⟩ | ⟨rfl, ho⟩
    · rw [hv, ← ho, hjv]
    · have := hc 0
      simp [circ] at this
      omega
  · obtain ⟨v, hv, e1, e2⟩ := h9 i _ hi
    have hne := e1.2 ⟨jB, _, hjB, by rw [hoB]; simp, by intro q; fin_cases q <;> simp [circ]⟩
    obtain ⟨j, y, h, -, hy, hjv, hc, hmin⟩ := e2 hne
    have hle := hmin jB _ 1 hjB (by rw [hoB]; simp) (by intro q; fin_cases q <;> simp [circ])
    rcases hseed j y hy (by rw [hjv]; simpa using hne) with ⟨rfl, ho⟩ | ⟨rfl, ho⟩
    · have := hc 0
      simp [circ] at this
      omega
    · rw [hv, ← ho, hjv]

end Pyl
