import Verif.Props.GrowthSetup
import Verif.Props.Nested
/-
C117: growth with random and nested neighbourhoods.
-/
set_option autoImplicit false
set_option linter.unusedSectionVars false

namespace Pyl
open SimState Spec Growth
open Pyl.Lattice Pyl.Structure
variable {K : Type} [Field K] [LinearOrder K] [FloorRing K] [IsStrictOrderedRing K] {d : ℕ}

/-- The occupied sites one step on, whatever the workers have missed, when every answer for site `i` lists at least the sites `lo i` and at most the
sites `hi i`. -/
theorem growth_front_between (bg : Val) (lo hi : Key → ℕ → Prop) (c : Ctl) (s0 : SimState) (hs : s0.WF) (hg : s0.getGeneralState ≠ none)
    (hne : s0.siteIds ≠ []) (hocc : AllOccupied s0) (fork : ℕ → Ctl → Ctl)
    (hfork : ∀ v, GrowthCtl bg s0.siteIds (fun i l => (∀ j, lo i j → j ∈ l) ∧ ∀ j ∈ l, hi i j) (fork v c))
    (w : ℕ) (hw0 : 0 < w) (n : ℕ) (sched : ℕ → StepSched)
    (hv : ∀ k, k < n → (sched k).Valid w (chunks s0.siteIds (chunkSize s0.siteIds.length w)).length) :
    ∃ (E : ℕ → SimState) (res : SimResult), runParallel controller fork c s0 w n sched = .ok res ∧ res.len = n + 1 ∧ E 0 = s0 ∧
      (∀ k : ℕ, k ≤ n → res.getStep k = .ok (E k) ∧ (E k).siteIds = s0.siteIds ∧ GrowthView bg s0 (E k)) ∧
      ∀ k : ℕ, k < n → ∀ i ∈ s0.siteIds,
        (occ? (E (k + 1)) i ≠ some bg → occ? (E k) i ≠ some bg ∨ ∃ j, hi i j ∧ occ? (E k) (.int j) ≠ some bg) ∧
        ((occ? (E k) i ≠ some bg ∨ ∃ j, lo i j ∧ occ? (E k) (.int j) ≠ some bg) → occ? (E (k + 1)) i ≠ some bg) := by
  obtain ⟨ds, res, h1, h2, h3, h4, h5, h6⟩ := growth_runs bg _ c s0 hs hg hne hocc fork hfork w hw0 n sched hv
  have hv0 : ViewOf s0.siteIds s0 := ⟨hs, rfl, hg⟩
  have hpt : ∀ k, ∀ p ∈ ds.take k, PatchBy s0.siteIds (GrowthView bg s0) (GrowthAnswer bg s0.siteIds fun i l => (∀ j, lo i j → j ∈ l) ∧ ∀ j ∈ l, hi i j) p :=
    fun k p hp => h4 p (List.mem_of_mem_take hp)
  refine ⟨fun k => after s0 (ds.take k), res, h1, h2, by simp [after], fun k hk => ⟨h5 k hk, ?_⟩, ?_⟩
  · have := good_after growthView_patch hv0 (growthView_self (bg := bg) hocc) (l := ds.take k) (hpt k)
    exact ⟨this.1.ids, this.2⟩
  -- occupied after k + 1 iff occupied after k or written at step k
  have hsucc : ∀ k, k < n → ∀ i ∈ s0.siteIds, (occ? (after s0 (ds.take (k + 1))) i ≠ some bg ↔
      occ? (after s0 (ds.take k)) i ≠ some bg ∨ Writes (ds.getD k []) i) := by
    intro k hk i hi
    rw [occ_after hv0 _ (hpt _) hi, occ_after hv0 _ (hpt _) hi]
    have hkl : k < ds.length := by omega
    have e : ds.getD k [] = ds[k] := by simp [List.getElem?_eq_getElem hkl]
    rw [List.take_succ_eq_append_getElem hkl, e]
    simp only [List.mem_append, List.mem_singleton]
    constructor
    · rintro (h | ⟨p, hp | rfl, h⟩)
      · exact .inl (.inl h)
      · exact .inl (.inr ⟨p, hp, h⟩)
      · exact .inr h
    · rintro ((h | ⟨p, hp, h⟩) | h)
      · exact .inl h
      · exact .inr ⟨p, .inl hp, h⟩
      · exact .inr ⟨_, .inr rfl, h⟩
  have hmono : ∀ k m, k ≤ m → m ≤ n → ∀ i ∈ s0.siteIds, occ? (after s0 (ds.take k)) i ≠ some bg → occ? (after s0 (ds.take m)) i ≠ some bg := by
    intro k m hkm
    induction m, hkm using Nat.le_induction with
    | base => exact fun _ _ _ h => h
    | succ m hkm ih => exact fun hm i hi h => (hsucc m (by omega) i hi).2 (.inl (ih (by omega) i hi h))
  intro k
  induction k using Nat.strong_induction_on with
  | _ k ih =>
    intro hk i hi'
    obtain ⟨v, q, hvw, hq, q', u, l, e, hu, hl, hlj, hans⟩ := h6 k hk i hi'
    injection e with e; subst e
    have hseen : ∀ j ∈ s0.siteIds, occ? (after s0 (seenL sched v (ds.take k))) j ≠ some bg → occ? (after s0 (ds.take k)) j ≠ some bg := by
      intro j hj h
      have hsub := (seenL_sublist sched v (ds.take k)).subset
      rw [occ_after hv0 _ (fun p hp => hpt k p (hsub hp)) hj] at h
      rw [occ_after hv0 _ (hpt k) hj]
      exact h.imp id fun ⟨p, hp, h⟩ => ⟨p, hsub hp, h⟩
    have hW : Writes (ds.getD k []) i ↔ ∃ v', q = [(DISCRETE_OCCUPANCY, v')] := by
      constructor
      · rintro ⟨q2, v2, hq2, hv2⟩
        rw [hq] at hq2
        injection hq2 with hq2; injection hq2 with hq2; subst hq2
        rcases hans with ⟨rfl, -⟩ | ⟨v', rfl, -⟩
        · simp at hv2
        · exact ⟨v', rfl⟩
      · rintro ⟨v', rfl⟩
        exact ⟨_, v', hq, by simp [Dict.get?]⟩
    show (occ? (after s0 (ds.take (k + 1))) i ≠ some bg → occ? (after s0 (ds.take k)) i ≠ some bg ∨ ∃ j, hi i j ∧ occ? (after s0 (ds.take k)) (.int j) ≠ some bg) ∧
      ((occ? (after s0 (ds.take k)) i ≠ some bg ∨ ∃ j, lo i j ∧ occ? (after s0 (ds.take k)) (.int j) ≠ some bg) → occ? (after s0 (ds.take (k + 1))) i ≠ some bg)
    rw [hsucc k hk i hi']
    constructor
    · rintro (h | h)
      · exact .inl h
      · obtain ⟨v', rfl⟩ := hW.1 h
        rcases hans with ⟨h0, -⟩ | ⟨v2, e, hG, hv2⟩
        · cases h0
        · rcases (growthStep_occ hG).1 hv2 with h' | ⟨j, hj, h'⟩
          · exact .inl (hseen i hi' (by rw [hu]; simpa using h'))
          · exact .inr ⟨j, hl.2 j hj, hseen _ (hlj j hj) h'⟩
    · rintro (h | ⟨j, hj, h⟩)
      · exact .inl h
      · by_cases hocck : occ? (after s0 (ds.take k)) i = some bg
        swap
        · exact .inl hocck
        right
        have hj' : j ∈ l := hl.1 j hj
        have hjs := hlj j hj'
        -- the neighbour has been occupied just now, so the worker knows
        have hjview : occ? (after s0 (seenL sched v (ds.take k))) (.int j) ≠ some bg := by
          rw [occ_after hv0 _ (fun p hp => hpt k p ((seenL_sublist sched v (ds.take k)).subset hp)) hjs]
          cases k with
          | zero => left; simpa [after] using h
          | succ k =>
            have h7 := (hsucc k (by omega) _ hjs).1 h
            rcases h7 with h7 | h7
            · exact absurd hocck ((ih k (by omega) (by omega) i hi').2 (.inr ⟨j, hj, h7⟩))
            · exact .inr ⟨_, mem_seenL_last sched v ds k (by omega) hvw, h7⟩
        have hiview : u = bg := by
          by_contra hub
          exact hseen i hi' (by rw [hu]; simpa using hub) hocck
        rcases hans with ⟨rfl, hG⟩ | ⟨v', rfl, hG, -⟩
        · exact absurd hiview ((growthStep_occ hG).2 (.inr ⟨j, hj', hjview⟩))
        · exact hW.2 ⟨v', rfl⟩



theorem siteClass_of_mem {S : Structure K d} (hS : S.Reachable) {i : ℕ} (hi : i ∈ S.siteIds) : ∃ c, S.siteClass i = .ok c := by
  rw [siteIds_eq hS, List.mem_range] at hi
  obtain ⟨t, ht⟩ := (getSite_isSome_iff hS).2 hi
  exact ⟨t.cls, siteClass_iff.2 ⟨t, ht, rfl⟩⟩

/-- The controller that the constructor makes. -/
theorem initNested_ok {S : Structure K d} (hS : S.Reachable) {b : NbBuilder K d} (hb : Buildable S b) (hk : KeysDiffer b) (hst : Stocked b)
    {order : ℕ → List ℕ → List ℕ} (horder : ∀ t l, (order t l).Perm l) (draw : ℕ → ℕ → ℕ) (bg : Val) :
    ∃ c, Growth.initNested order draw S bg b = .ok c ∧ c.background = bg ∧ Redraws S b c c := by
  obtain ⟨n, hn⟩ := (C116_builds S b).2 hb
  refine ⟨_, by unfold Growth.initNested; rw [hn]; rfl, rfl, rfl, fun t i hi => ?_⟩
  obtain ⟨cl, hcl⟩ := siteClass_of_mem hS hi
  obtain ⟨l, hl⟩ := C116_total hst hn (draw t) i cl hcl
  refine ⟨l, order t (l.map Prod.fst), (C116_answers hk hn i l).1 ⟨_, hl⟩, horder t _, ?_⟩
  have : n.neighborsOf S (draw t) i = .ok (l.map Prod.fst) := by rw [C116_ids, hl]; rfl
  simp [this, Except.map]

/-- A worker's controller answers between the sites that are always neighbours and those that may be. -/
theorem growthCtl_redraws {S : Structure K d} (hS : S.Reachable) {b : NbBuilder K d} {s0 : SimState} (hsites : SameSites S s0) {c c' : Ctl} {bg : Val}
    (hbg : c.background = bg) (hc : Redraws S b c c') :
    GrowthCtl bg s0.siteIds (fun i l => (∀ j, (match i with | .int z => Always S b z.toNat j | .str _ => False) → j ∈ l) ∧
      ∀ j ∈ l, (match i with | .int z => Sometimes S b z.toNat j | .str _ => False)) c' := by
  refine ⟨by rw [hc.1, hbg], fun t k hk => ?_⟩
  obtain ⟨i, hi, rfl⟩ := (hsites k).1 hk
  obtain ⟨l, l', hl, hp, he⟩ := hc.2 t i hi
  refine ⟨l', he, ⟨fun j hj => ?_, fun j hj => ?_⟩, fun j hj => ?_⟩
  · have hj : Always S b ((i : ℤ)).toNat j := hj
    rw [Int.toNat_natCast] at hj
    exact hp.mem_iff.2 (hj l hl)
  · show Sometimes S b ((i : ℤ)).toNat j
    rw [Int.toNat_natCast]
    exact ⟨l, hl, hp.mem_iff.1 hj⟩
  · obtain ⟨jw, hjw, rfl⟩ := List.mem_map.1 (hp.mem_iff.1 hj)
    exact (hsites _).2 ⟨jw.1, ((C116_known hS hl).1 jw hjw).1, rfl⟩

/-- What `m` parallel steps of growth make of a start state when neighbours are drawn at random: `lo` are the sure neighbours, `hi` the possible ones. -/
structure GrownBetween (S : Structure K d) (s : SimState) (bg : Val) (phases : List Val) (lo hi : ℕ → ℕ → Prop) (m : ℕ) (s' : SimState) : Prop where
  same : SameSites S s'
  all : AllOccupied s'
  atMost : ∀ i ∈ S.siteIds, occ? s' (.int i) ≠ some bg → ∃ j ∈ nuclei S s bg, HopsBy hi m i j
  atLeast : ∀ i ∈ S.siteIds, ∀ j ∈ nuclei S s bg, HopsBy lo m i j → occ? s' (.int i) ≠ some bg
  kept : ∀ j ∈ nuclei S s bg, occ? s' (.int j) = occ? s (.int j)
  phase : ∀ i ∈ S.siteIds, ∃ v, occ? s' (.int i) = some v ∧ (v = bg ∨ v ∈ phases)

theorem nestedRun {S : Structure K d} (hS : S.Reachable) (hne : S.siteIds ≠ []) {s : SimState} (hst : StartState S s) {bg : Val} {phases : List Val}
    (hphase : ∀ i ∈ nuclei S s bg, ∃ p ∈ phases, occ? s (.int i) = some p)
    {b : NbBuilder K d} (c : Ctl) (hbg : c.background = bg)
    (fork : ℕ → Ctl → Ctl) (hfork : ∀ v, Redraws S b c (fork v c)) (w : ℕ) (hw0 : 0 < w) (m : ℕ) (sched : ℕ → StepSched)
    (hv : ∀ k, k < m → (sched k).Valid w (chunks s.siteIds (chunkSize s.siteIds.length w)).length) :
    ∃ res s', runParallel Growth.controller fork c s w m sched = .ok res ∧ res.len = m + 1 ∧ res.lastStep = .ok s' ∧
      GrownBetween S s bg phases (Always S b) (Sometimes S b) m s' := by
  obtain ⟨s1, s2, s3, s4, -⟩ := hst
  obtain ⟨E, res, h1, h2, h3, h4, h5⟩ := growth_front_between bg _ _ c s s1 (by rw [s2]; simp) (sameSites_ne s3 hne) s4 fork
    (fun v => growthCtl_redraws hS s3 hbg (hfork v)) w hw0 m sched hv
  obtain ⟨h6, h7, h8⟩ := h4 m le_rfl
  have hlast : res.lastStep = .ok (E m) := by
    unfold SimResult.lastStep
    rw [h2, ← h6]
    congr 1
    push_cast; ring
  have hsame : SameSites S (E m) := fun k => by rw [h7]; exact s3 k
  have hsome : ∀ i j, Sometimes S b i j → j ∈ S.siteIds := by
    rintro i j ⟨l, hl, hj⟩
    obtain ⟨jw, hjw, rfl⟩ := List.mem_map.1 hj
    exact ((C116_known hS hl).1 jw hjw).1
  have halw : ∀ i ∈ S.siteIds, ∀ j, Always S b i j → Sometimes S b i j := by
    intro i hi j h
    obtain ⟨l, -, hl, -⟩ := (hfork 0).2 0 i hi
    exact ⟨l, hl, h l hl⟩
  refine ⟨res, E m, h1, h2, hlast, hsame, ?_, ?_, ?_, ?_, ?_⟩
  · intro k hk
    obtain ⟨v, hv, -⟩ := h8.1 k (by rw [← h7]; exact hk)
    exact ⟨v, hv⟩
  · have key : ∀ k, k ≤ m → ∀ i ∈ S.siteIds, occ? (E k) (.int i) ≠ some bg → ∃ j ∈ nuclei S s bg, HopsBy (Sometimes S b) k i j := by
      intro k
      induction k with
      | zero =>
        intro _ i hi h
        rw [h3] at h
        exact ⟨i, List.mem_filter.2 ⟨hi, by simpa using h⟩, rfl⟩
      | succ k ih =>
        intro hk i hi h
        rcases (h5 k (by omega) _ ((s3 _).2 ⟨i, hi, rfl⟩)).1 h with h | ⟨x, hx, h⟩
        · obtain ⟨j, hj, h⟩ := ih (by omega) i hi h
          exact ⟨j, hj, .inl h⟩
        · have hx : Sometimes S b ((i : ℤ)).toNat x := hx
          rw [Int.toNat_natCast] at hx
          obtain ⟨j, hj, h⟩ := ih (by omega) x (hsome _ _ hx) h
          exact ⟨j, hj, .inr ⟨x, hx, h⟩⟩
    exact key m le_rfl
  · have key : ∀ k, k ≤ m → ∀ i ∈ S.siteIds, ∀ j ∈ nuclei S s bg, HopsBy (Always S b) k i j → occ? (E k) (.int i) ≠ some bg := by
      intro k
      induction k with
      | zero =>
        rintro _ i hi j hj h
        cases (h : i = j)
        rw [h3]
        simpa using (List.mem_filter.1 hj).2
      | succ k ih =>
        intro hk i hi j hj h
        refine (h5 k (by omega) _ ((s3 _).2 ⟨i, hi, rfl⟩)).2 ?_
        rcases h with h | ⟨x, hx, h⟩
        · exact .inl (ih (by omega) i hi j hj h)
        · refine .inr ⟨x, ?_, ih (by omega) x (hsome _ _ (halw i hi x hx)) j hj h⟩
          show Always S b ((i : ℤ)).toNat x
          rw [Int.toNat_natCast]; exact hx
    exact key m le_rfl
  · intro j hj
    obtain ⟨hj1, hj2⟩ := List.mem_filter.1 hj
    have hjs := (s3 _).2 ⟨j, hj1, rfl⟩
    obtain ⟨v, hv⟩ := s4 _ hjs
    rw [hv]
    exact h8.2 _ hjs v hv (by rintro rfl; rw [hv] at hj2; simp at hj2)
  · intro i hi
    obtain ⟨v, hv, h9⟩ := h8.1 _ ((s3 _).2 ⟨i, hi, rfl⟩)
    refine ⟨v, hv, ?_⟩
    rcases h9 with h9 | ⟨k, hk, h9⟩
    · exact .inl h9
    · obtain ⟨j, hj, rfl⟩ := (s3 _).1 hk
      by_cases hvb : v = bg
      · exact .inl hvb
      · right
        obtain ⟨p, hp, hp'⟩ := hphase j (List.mem_filter.2 ⟨hj, by rw [h9]; simpa using hvb⟩)
        rw [h9] at hp'; injection hp' with hp'
        rw [hp']; exact hp

/-- C117: the serial growth model with any builder: every site makes a growth step with respect to a possible answer of its neighbourhood. -/
theorem C117_serial {S : Structure K d} (hS : S.Reachable) (b : NbBuilder K d) (hb : Buildable S b) (hk : KeysDiffer b) (hst : Stocked b) (bg : Val)
    (order : ℕ → List ℕ → List ℕ) (horder : ∀ t l, (order t l).Perm l) (draw : ℕ → ℕ → ℕ)
    (s0 : SimState) (hs : s0.WF) (hg : s0.getGeneralState ≠ none) (hne : S.siteIds ≠ []) (hsites : SameSites S s0) (hocc : AllOccupied s0) (n : ℕ) :
    ∃ c c' res, Growth.initNested order draw S bg b = .ok c ∧ runSync controller c s0 n = .ok (c', res) ∧ res.len = n + 1 ∧
      res.getStep 0 = .ok s0 ∧ ∀ k : ℕ, k < n → ∃ x y, res.getStep k = .ok x ∧ res.getStep (k + 1) = .ok y ∧
        ∀ i ∈ S.siteIds, ∃ l v v', CanAnswer S i b l ∧ occ? x (.int i) = some v ∧ occ? y (.int i) = some v' ∧
          GrowthStep bg x (l.map Prod.fst) v v' := by
  obtain ⟨c, hc, hbg, hre⟩ := initNested_ok hS hb hk hst horder draw bg
  obtain ⟨c', res, h1, h2, h3, h4⟩ := C62_growth c s0 hs hg (sameSites_ne hsites hne) hocc (by
    intro t k hk
    obtain ⟨i, hi, rfl⟩ := (hsites k).1 hk
    obtain ⟨l, l', hl, hp, he⟩ := hre.2 t i hi
    refine ⟨l', he, fun j hj => ?_⟩
    obtain ⟨jw, hjw, rfl⟩ := List.mem_map.1 (hp.mem_iff.1 hj)
    exact (hsites _).2 ⟨jw.1, ((C116_known hS hl).1 jw hjw).1, rfl⟩) n
  refine ⟨c, c', res, hc, h1, h2, h3, fun k hk => ?_⟩
  obtain ⟨x, y, hx, hy, -, -, hi⟩ := h4 k hk
  refine ⟨x, y, hx, hy, fun i hi' => ?_⟩
  obtain ⟨t, l, v, v', hl, hv, hv', hG, -⟩ := hi (.int i) ((hsites _).2 ⟨i, hi', rfl⟩)
  obtain ⟨m, m', hm, hp, he⟩ := hre.2 t i hi'
  rw [he] at hl; injection hl with hl; subst hl
  rw [hbg] at hG
  exact ⟨m, v, v', hm, hv, hv', growthStep_perm hp hG⟩

/-- C117: `grow` with any builder, whatever is drawn in which worker: the result has the sites of the structure, every site is background or has a phase of
`nuc_amts`, the nuclei have kept theirs; a site is occupied only if a nucleus can be reached from it by at most `size` moves to sites that may be
neighbours, and is occupied if one can be reached by moves to sites that are neighbours in every case. -/
theorem C117_grow {G : GridSetup K d} (hG : StdSetup d G) (n : ℤ) (hn : 0 < n) (num : K) (m : ℤ) (hm : NearestEven num m) (bg : Val) (hbgw : bg.WF)
    (nucAmts : Dict Val K) (hw : Dict.WF nucAmts) (hph : ∀ p ∈ Dict.keys nucAmts, p.WF) (hbg : bg ∉ Dict.keys nucAmts)
    (hpos : ∀ pa ∈ nucAmts, 0 < pa.2) (buffer : Option ℤ)
    (order : ℕ → List ℕ → List ℕ) (hord : ∀ t l, (order t l).Perm l) (draw : ℕ → ℕ) (fuel : ℕ) (sim : Simulation K d)
    (h : G.randomSites (.int n) num bg nucAmts buffer order draw fuel = some (.ok sim))
    (b : NbBuilder K d) (hb : Buildable sim.struct b) (hk : KeysDiffer b) (hst : Stocked b)
    (ord : ℕ → List ℕ → List ℕ) (hord' : ∀ t l, (ord t l).Perm l) (pick : ℕ → ℕ → ℕ)
    (fork : ℕ → Ctl → Ctl) (hfork : ∀ v c, Redraws sim.struct b c c → Redraws sim.struct b c (fork v c)) (w : ℕ) (hw0 : 0 < w) (sched : ℕ → StepSched)
    (hv : ∀ k, k < n.toNat → (sched k).Valid w (chunks sim.state.siteIds (chunkSize sim.state.siteIds.length w)).length) :
    ∃ sim', growNested G n num bg nucAmts b buffer order draw fuel ord pick fork w sched = some (.ok sim') ∧ sim'.struct = sim.struct ∧
      SameSites sim.struct sim'.state ∧ AllOccupied sim'.state ∧
      (∀ i ∈ sim.struct.siteIds, occ? sim'.state (.int i) ≠ some bg → ∃ j ∈ nuclei sim.struct sim.state bg, HopsBy (Sometimes sim.struct b) n.toNat i j) ∧
      (∀ i ∈ sim.struct.siteIds, ∀ j ∈ nuclei sim.struct sim.state bg, HopsBy (Always sim.struct b) n.toNat i j → occ? sim'.state (.int i) ≠ some bg) ∧
      (∀ j ∈ nuclei sim.struct sim.state bg, occ? sim'.state (.int j) = occ? sim.state (.int j)) ∧
      ∀ i ∈ sim.struct.siteIds, ∃ v, occ? sim'.state (.int i) = some v ∧ (v = bg ∨ v ∈ Dict.keys nucAmts) := by
  obtain ⟨hsq, hstart, -, -⟩ := C67_random_sites hG n hn num m hm bg hbgw nucAmts hw hph hbg buffer order hord draw fuel sim h
  obtain ⟨-, -, hphase⟩ := C68_quotas hG n hn num m hm bg hbgw nucAmts hw hph hbg hpos buffer order hord draw fuel sim h
  have ht := hsq.isTorus
  obtain ⟨c, hc, hcb, hre⟩ := initNested_ok ht.reachable hb hk hst hord' pick bg
  obtain ⟨res, s', h1, -, h2, h3⟩ := nestedRun ht.reachable ht.ids_ne hstart hphase c hcb fork (fun v => hfork v c hre) w hw0 n.toNat sched hv
  refine ⟨⟨s', sim.struct⟩, ?_, rfl, h3.same, h3.all, h3.atMost, h3.atLeast, h3.kept, h3.phase⟩
  unfold growNested
  rw [h]
  simp only [hc, ok_bind, h1, h2]
  rfl

/-! ### the stochastic builders of the square grid -/

/-- The stochastic builder of some motifs of cell offsets. -/
def motifBuilder (ms : List (List (Fin d → ℤ))) : NbBuilder K d := .stochastic (ms.map fun offs => .one (.motif (offs.map intPoint)))

theorem motifBuilder_ok {S : Structure K d} {N : Fin d → ℤ} (ht : IsTorus S N) {ms : List (List (Fin d → ℤ))} (hne : ms ≠ []) :
    Buildable S (motifBuilder ms : NbBuilder K d) ∧ KeysDiffer (motifBuilder ms : NbBuilder K d) ∧ Stocked (motifBuilder ms : NbBuilder K d) := by
  refine ⟨.stochastic _ ?_, .stochastic _ ?_, .stochastic _ (by simpa using hne) ?_⟩
  all_goals
    intro b hb
    obtain ⟨offs, -, rfl⟩ := List.mem_map.1 hb
  · obtain ⟨g, hg, -⟩ := torus_motif ht offs
    exact .one _ g hg
  · exact .one _
  · exact .one _

/-- A possible answer lists the sites that one of the motifs leads to. -/
theorem motif_answer {S : Structure K d} {N : Fin d → ℤ} (ht : IsTorus S N) {ms : List (List (Fin d → ℤ))} {i : ℕ} {a : Fin d → ℤ} (ha : SiteHas S i a) :
    (∀ l, CanAnswer S i (motifBuilder ms : NbBuilder K d) l → ∃ offs ∈ ms, ∀ j b, SiteHas S j b →
      (j ∈ l.map Prod.fst ↔ j ≠ i ∧ ∃ v ∈ offs, ∀ k, N k ∣ b k - (a k + v k))) ∧
    ∀ offs ∈ ms, ∃ l, CanAnswer S i (motifBuilder ms : NbBuilder K d) l ∧ ∀ j b, SiteHas S j b →
      (j ∈ l.map Prod.fst ↔ j ≠ i ∧ ∃ v ∈ offs, ∀ k, N k ∣ b k - (a k + v k)) := by
  constructor
  · intro l hl
    cases hl with
    | stochastic _ b _ hb hl =>
      obtain ⟨offs, ho, rfl⟩ := List.mem_map.1 hb
      cases hl with
      | one _ g hg =>
        obtain ⟨g', hg', hm⟩ := torus_motif ht offs
        rw [hg] at hg'; injection hg' with hg'; subst hg'
        exact ⟨offs, ho, fun j b hb => by rw [C55_weighted]; exact hm i j a b ha hb⟩
  · intro offs ho
    obtain ⟨g, hg, hm⟩ := torus_motif ht offs
    exact ⟨_, .stochastic _ _ _ (List.mem_map.2 ⟨offs, ho, rfl⟩) (.one _ g hg), fun j b hb => by rw [C55_weighted]; exact hm i j a b ha hb⟩

/-- If every motif has the unit steps along all axes, a site at Manhattan distance at most `m` is surely reached in `m` moves. -/
theorem unit_hops {S : Structure K d} {N : Fin d → ℤ} (ht : IsTorus S N) {ms : List (List (Fin d → ℤ))}
    (hunit : ∀ offs ∈ ms, ∀ q, Pi.single q 1 ∈ offs ∧ Pi.single q (-1) ∈ offs) {i j : ℕ} {x y : Fin d → ℤ} (hx : SiteHas S i x) (hy : SiteHas S j y) {m : ℕ}
    (hd : torusManhattan N x y ≤ m) : HopsBy (Always S (motifBuilder ms : NbBuilder K d)) m i j := by
  obtain ⟨k, hk⟩ := (sum_circ_le_iff ht.pos _ _).1 hd
  have key : ∀ (m : ℕ) (D : Fin d → ℤ), ∑ q, |D q| ≤ m → ∀ i x, SiteHas S i x → (∀ q, N q ∣ x q - (y q + D q)) →
      HopsBy (Always S (motifBuilder ms : NbBuilder K d)) m i j := by
    intro m
    induction m with
    | zero =>
      intro D hD i x hx h
      have h0 : ∀ q, D q = 0 := fun q => by
        have := Finset.single_le_sum (f := fun q => |D q|) (fun _ _ => abs_nonneg _) (Finset.mem_univ q)
        simp only [Nat.cast_zero] at hD
        exact abs_eq_zero.1 (le_antisymm (this.trans hD) (abs_nonneg _))
      have e : x = y := by
        funext q
        have h1 := h q
        rw [h0, add_zero] at h1
        have h2 := ht.inBox_of_has hx q
        have h3 := ht.inBox_of_has hy q
        have h4 := (Int.emod_emod_of_dvd (x q) (dvd_refl (N q)))
        have h5 := Int.emod_eq_emod_iff_emod_sub_eq_zero.2 (Int.emod_eq_zero_of_dvd h1)
        rwa [Int.emod_eq_of_lt h2.1 h2.2, Int.emod_eq_of_lt h3.1 h3.2] at h5
      subst e
      exact ht.site_unique hx hy
    | succ m ih =>
      intro D hD i x hx h
      by_cases h0 : ∀ q, D q = 0
      · exact .inl (ih D (by simp [h0]) i x hx h)
      push Not at h0
      obtain ⟨q, hq⟩ := h0
      obtain ⟨e, he, hDe⟩ : ∃ e : ℤ, (e = 1 ∨ e = -1) ∧ |D q + e| = |D q| - 1 := by
        rcases lt_or_gt_of_ne hq with h | h
        · exact ⟨1, .inl rfl, by rw [abs_of_nonpos (by omega), abs_of_neg h]; ring⟩
        · exact ⟨-1, .inr rfl, by rw [abs_of_nonneg (by omega), abs_of_pos h]; ring⟩
      obtain ⟨i', -, hi'⟩ := ht.ex (fun r => (x r + Pi.single (M := fun _ => ℤ) q e r) % N r) fun r =>
        ⟨Int.emod_nonneg _ (ht.pos r).ne', Int.emod_lt_of_pos _ (ht.pos r)⟩
      have hstep : ∀ r, N r ∣ (x r + Pi.single (M := fun _ => ℤ) q e r) % N r - (x r + Pi.single (M := fun _ => ℤ) q e r) := fun r => by
        have := Int.emod_add_mul_ediv (x r + Pi.single (M := fun _ => ℤ) q e r) (N r)
        exact ⟨-((x r + Pi.single (M := fun _ => ℤ) q e r) / N r), by linarith⟩
      have h9 : HopsBy (Always S (motifBuilder ms : NbBuilder K d)) m i' j := by
        refine ih (fun r => D r + Pi.single (M := fun _ => ℤ) q e r) ?_ i' _ hi' fun r => ?_
        · have : ∑ r, |D r + Pi.single (M := fun _ => ℤ) q e r| = ∑ r, |D r| - 1 := by
            rw [← Finset.add_sum_erase _ _ (Finset.mem_univ q), ← Finset.add_sum_erase _ (fun r => |D r|) (Finset.mem_univ q), Pi.single_eq_same, hDe]
            rw [Finset.sum_congr rfl fun r hr => by rw [Pi.single_eq_of_ne (Finset.ne_of_mem_erase hr), add_zero]]
            ring
          rw [this]; push_cast at hD; linarith
        · obtain ⟨p, hp⟩ := hstep r
          obtain ⟨p', hp'⟩ := h r
          exact ⟨p + p', by linear_combination hp + hp'⟩
      by_cases e' : i' = i
      · subst e'; exact .inl h9
      · refine .inr ⟨i', fun l hl => ?_, h9⟩
        obtain ⟨offs, ho, hmem⟩ := (motif_answer ht hx).1 l hl
        refine (hmem i' _ hi').2 ⟨e', Pi.single q e, ?_, hstep⟩
        rcases he with rfl | rfl
        · exact (hunit offs ho q).1
        · exact (hunit offs ho q).2
  refine key m _ hk i x hx fun q => ⟨-k q, by ring⟩

/-- The motifs of `PseudoHexagonalNeighborhoodBuilder2D`. -/
def hexOffs2 : List (List (Fin 2 → ℤ)) :=
  [[![1, 0], ![0, 1], ![-1, 0], ![0, -1], ![1, 1], ![-1, -1]], [![1, 0], ![0, 1], ![-1, 0], ![0, -1], ![-1, 1], ![1, -1]]]

theorem hexOffs2_eq : (motifBuilder hexOffs2 : NbBuilder K 2) = .stochastic (pseudoHex2.map .one) := by
  simp only [motifBuilder, hexOffs2, pseudoHex2, List.map_cons, List.map_nil]
  congr <;> (funext k; fin_cases k <;> simp [intPoint])

/-- The motifs of `PseudoHexagonalNeighborhoodBuilder3D`. -/
def hexOffs3 : List (List (Fin 3 → ℤ)) :=
  let c : List (Fin 3 → ℤ) := [![1, 0, 0], ![-1, 0, 0], ![0, 1, 0], ![0, -1, 0], ![0, 0, 1], ![0, 0, -1]]
  [c ++ [![-1, -1, 1], ![1, 1, -1]], c ++ [![-1, 1, 1], ![1, -1, -1]], c ++ [![1, 1, 1], ![-1, -1, -1]], c ++ [![1, -1, 1], ![-1, 1, -1]]]

theorem hexOffs3_eq : (motifBuilder hexOffs3 : NbBuilder K 3) = .stochastic (pseudoHex3.map .one) := by
  simp only [motifBuilder, hexOffs3, pseudoHex3, List.map_cons, List.map_nil, List.cons_append, List.nil_append]
  congr <;> (funext k; fin_cases k <;> simp [intPoint])

/-- The motifs of `PseudoPentagonalNeighborhoodBuilder`. -/
def pentOffs : List (List (Fin 2 → ℤ)) :=
  [[![-1, 0], ![1, 0], ![-1, -1], ![0, -1], ![1, -1]], [![-1, 1], ![0, 1], ![1, 1], ![-1, 0], ![1, 0]],
   [![0, 1], ![1, 1], ![1, 0], ![0, -1], ![1, -1]], [![-1, 1], ![0, 1], ![-1, 0], ![-1, -1], ![0, -1]]]

theorem pentOffs_eq : (motifBuilder pentOffs : NbBuilder K 2) = .stochastic (pseudoPent.map .one) := by
  simp only [motifBuilder, pentOffs, pseudoPent, List.map_cons, List.map_nil]
  congr <;> (funext k; fin_cases k <;> simp [intPoint])

/-- C117: `grow` with the pseudohexagonal neighbourhoods of the 2D grid and at least one nucleus fills the grid, whatever is drawn. -/
theorem C117_hexagonal_fills {G : GridSetup K 2} (hG : StdSetup 2 G) (n : ℤ) (hn : 0 < n) (num : K) (m : ℤ) (hm : NearestEven num m) (hm1 : 1 ≤ m) (bg : Val)
    (hbgw : bg.WF) (nucAmts : Dict Val K) (hw : Dict.WF nucAmts) (hph : ∀ p ∈ Dict.keys nucAmts, p.WF) (hbg : bg ∉ Dict.keys nucAmts)
    (hpos : ∀ pa ∈ nucAmts, 0 < pa.2) (buffer : Option ℤ)
    (order : ℕ → List ℕ → List ℕ) (hord : ∀ t l, (order t l).Perm l) (draw : ℕ → ℕ) (fuel : ℕ) (sim : Simulation K 2)
    (h : G.randomSites (.int n) num bg nucAmts buffer order draw fuel = some (.ok sim))
    (ord : ℕ → List ℕ → List ℕ) (hord' : ∀ t l, (ord t l).Perm l) (pick : ℕ → ℕ → ℕ) (fork : ℕ → Ctl → Ctl)
    (hfork : ∀ v c, Redraws sim.struct (.stochastic (pseudoHex2.map .one)) c c → Redraws sim.struct (.stochastic (pseudoHex2.map .one)) c (fork v c))
    (w : ℕ) (hw0 : 0 < w) (sched : ℕ → StepSched)
    (hv : ∀ k, k < n.toNat → (sched k).Valid w (chunks sim.state.siteIds (chunkSize sim.state.siteIds.length w)).length) :
    ∃ sim', growNested G n num bg nucAmts (.stochastic (pseudoHex2.map .one)) buffer order draw fuel ord pick fork w sched = some (.ok sim') ∧
      sim'.struct = sim.struct ∧ ∀ i ∈ sim.struct.siteIds, ∃ v ∈ Dict.keys nucAmts, occ? sim'.state (.int i) = some v := by
  obtain ⟨hsq, -, hcount, -⟩ := C67_random_sites hG n hn num m hm bg hbgw nucAmts hw hph hbg buffer order hord draw fuel sim h
  have ht := hsq.isTorus
  rw [← hexOffs2_eq] at hfork ⊢
  obtain ⟨o1, o2, o3⟩ := motifBuilder_ok (K := K) ht (ms := hexOffs2) (by simp [hexOffs2])
  obtain ⟨sim', h1, h2, -, -, -, h3, -, h4⟩ := C117_grow hG n hn num m hm bg hbgw nucAmts hw hph hbg hpos buffer order hord draw fuel sim h
    _ o1 o2 o3 ord hord' pick fork hfork w hw0 sched hv
  refine ⟨sim', h1, h2, fun i hi => ?_⟩
  obtain ⟨v, hv, h8⟩ := h4 i hi
  obtain ⟨j, hj⟩ : ∃ j, j ∈ nuclei sim.struct sim.state bg := List.exists_mem_of_length_pos (by omega)
  obtain ⟨x, -, hx⟩ := ht.site i hi
  obtain ⟨y, -, hy⟩ := ht.site j (List.mem_filter.1 hj).1
  have hocc := h3 i hi j hj (unit_hops ht (ms := hexOffs2) (by decide) hx hy (by
    simp only [torusManhattan, Fin.sum_univ_two]
    have h5 := circ_le_half hn (x 0 - y 0) (k := n / 2) (by omega)
    have h6 := circ_le_half hn (x 1 - y 1) (k := n / 2) (by omega)
    omega))
  rcases h8 with rfl | h8
  · exact absurd hv hocc
  · exact ⟨v, h8, hv⟩

/-- C117: with the pseudohexagonal neighbourhoods of the 3D grid at least the sites at torus Manhattan distance at most `n` from a nucleus are
occupied in the end. -/
theorem C117_hexagonal3 {G : GridSetup K 3} (hG : StdSetup 3 G) (n : ℤ) (hn : 0 < n) (num : K) (m : ℤ) (hm : NearestEven num m) (bg : Val)
    (hbgw : bg.WF) (nucAmts : Dict Val K) (hw : Dict.WF nucAmts) (hph : ∀ p ∈ Dict.keys nucAmts, p.WF) (hbg : bg ∉ Dict.keys nucAmts)
    (hpos : ∀ pa ∈ nucAmts, 0 < pa.2) (buffer : Option ℤ)
    (order : ℕ → List ℕ → List ℕ) (hord : ∀ t l, (order t l).Perm l) (draw : ℕ → ℕ) (fuel : ℕ) (sim : Simulation K 3)
    (h : G.randomSites (.int n) num bg nucAmts buffer order draw fuel = some (.ok sim))
    (ord : ℕ → List ℕ → List ℕ) (hord' : ∀ t l, (ord t l).Perm l) (pick : ℕ → ℕ → ℕ) (fork : ℕ → Ctl → Ctl)
    (hfork : ∀ v c, Redraws sim.struct (.stochastic (pseudoHex3.map .one)) c c → Redraws sim.struct (.stochastic (pseudoHex3.map .one)) c (fork v c))
    (w : ℕ) (hw0 : 0 < w) (sched : ℕ → StepSched)
    (hv : ∀ k, k < n.toNat → (sched k).Valid w (chunks sim.state.siteIds (chunkSize sim.state.siteIds.length w)).length) :
    ∃ sim', growNested G n num bg nucAmts (.stochastic (pseudoHex3.map .one)) buffer order draw fuel ord pick fork w sched = some (.ok sim') ∧
      sim'.struct = sim.struct ∧ ∀ i x, SiteHas sim.struct i x → ∀ j ∈ nuclei sim.struct sim.state bg, ∀ y, SiteHas sim.struct j y →
        torusManhattan (fun _ => n) x y ≤ n → occ? sim'.state (.int i) ≠ some bg := by
  obtain ⟨hsq, -, -, -⟩ := C67_random_sites hG n hn num m hm bg hbgw nucAmts hw hph hbg buffer order hord draw fuel sim h
  have ht := hsq.isTorus
  rw [← hexOffs3_eq] at hfork ⊢
  obtain ⟨o1, o2, o3⟩ := motifBuilder_ok (K := K) ht (ms := hexOffs3) (by simp [hexOffs3])
  obtain ⟨sim', h1, h2, -, -, -, h3, -, -⟩ := C117_grow hG n hn num m hm bg hbgw nucAmts hw hph hbg hpos buffer order hord draw fuel sim h
    _ o1 o2 o3 ord hord' pick fork hfork w hw0 sched hv
  exact ⟨sim', h1, h2, fun i x hx j hj y hy hd => h3 i (ht.mem_ids ht.reachable hx) j hj (unit_hops ht (ms := hexOffs3) (by decide) hx hy (by omega))⟩

/-- For every step there is a pseudopentagonal motif without it. -/
theorem pent_avoids {n : ℤ} (hn : 3 ≤ n) (D : Fin 2 → ℤ) : ∃ offs ∈ pentOffs, ∀ v ∈ offs, ¬ ∀ k, n ∣ D k - v k := by
  have two : ∀ x a b : ℤ, n ∣ x - a → n ∣ x - b → |a - b| ≤ 2 → a = b := by
    intro x a b h1 h2 h3
    have h4 : n ∣ a - b := by have := dvd_sub h2 h1; rwa [show x - b - (x - a) = a - b by ring] at this
    have := Int.eq_zero_of_abs_lt_dvd h4 (by omega)
    omega
  by_cases h1 : n ∣ D 1 - 1
  · refine ⟨_, List.mem_cons_self, fun v hv h => ?_⟩
    have := two _ _ _ h1 (h 1)
    revert this; revert v; simp
  by_cases h2 : n ∣ D 1 - -1
  · refine ⟨_, List.mem_cons_of_mem _ List.mem_cons_self, fun v hv h => ?_⟩
    have := two _ _ _ h2 (h 1)
    revert this; revert v; simp
  by_cases h3 : n ∣ D 0 - 1
  · refine ⟨_, List.mem_cons_of_mem _ (List.mem_cons_of_mem _ (List.mem_cons_of_mem _ List.mem_cons_self)), fun v hv h => ?_⟩
    have := two _ _ _ h3 (h 0)
    revert this; revert v; simp
  by_cases h4 : n ∣ D 0 - -1
  · refine ⟨_, List.mem_cons_of_mem _ (List.mem_cons_of_mem _ List.mem_cons_self), fun v hv h => ?_⟩
    have := two _ _ _ h4 (h 0)
    revert this; revert v; simp
  refine ⟨_, List.mem_cons_self, fun v hv h => ?_⟩
  have h5 := h 0
  have h6 := h 1
  simp at hv
  rcases hv with rfl | rfl | rfl | rfl | rfl <;> simp_all

/-- There are draws that always give site `i` the motif `choice i`, for every number of CPUs and every schedule.  Then nothing spreads faster than a quantity `ψ` that is 0
at the nuclei and grows by at most 1 along chosen motifs. -/
theorem chosen_run {S : Structure K d} {N : Fin d → ℤ} (ht : IsTorus S N) {s : SimState} (hstart : StartState S s) (bg : Val)
    (ms : List (List (Fin d → ℤ))) (choice : ℕ → List (Fin d → ℤ)) (hch : ∀ i ∈ S.siteIds, choice i ∈ ms) :
    ∃ fork : ℕ → Ctl → Ctl, (∀ v c, Redraws S (motifBuilder ms) c c → Redraws S (motifBuilder ms) c (fork v c)) ∧
      ∀ (c : Ctl) (_ : c.background = bg) (w : ℕ) (_ : 0 < w) (m : ℕ) (sched : ℕ → StepSched)
        (_ : ∀ k, k < m → (sched k).Valid w (chunks s.siteIds (chunkSize s.siteIds.length w)).length),
        ∃ res s', runParallel Growth.controller fork c s w m sched = .ok res ∧ res.lastStep = .ok s' ∧
          (∀ i ∈ S.siteIds, ∃ v, occ? s' (.int i) = some v) ∧
          ∀ ψ : ℕ → ℤ, (∀ i ∈ nuclei S s bg, ψ i ≤ 0) →
            (∀ i j a b, SiteHas S i a → SiteHas S j b → ∀ v ∈ choice i, (∀ k, N k ∣ b k - (a k + v k)) → ψ i ≤ ψ j + 1) →
            ∀ i ∈ S.siteIds, occ? s' (.int i) ≠ some bg → ψ i ≤ m := by
  have hans : ∀ i, ∃ l : List ℕ, i ∈ S.siteIds → (∃ l0, CanAnswer S i (motifBuilder ms) l0 ∧ l = l0.map Prod.fst) ∧
      ∀ j ∈ l, ∃ a b, SiteHas S i a ∧ SiteHas S j b ∧ ∃ v ∈ choice i, ∀ k, N k ∣ b k - (a k + v k) := by
    intro i
    by_cases hi : i ∈ S.siteIds
    · obtain ⟨x, -, hx⟩ := ht.site i hi
      obtain ⟨l, hl, hmem⟩ := (motif_answer (K := K) ht hx).2 (choice i) (hch i hi)
      refine ⟨l.map Prod.fst, fun _ => ⟨⟨l, hl, rfl⟩, fun j hj => ?_⟩⟩
      obtain ⟨jw, hjw, e⟩ := List.mem_map.1 hj
      obtain ⟨y, -, hy⟩ := ht.site j (e ▸ ((C116_known ht.reachable hl).1 jw hjw).1)
      exact ⟨x, y, hx, hy, ((hmem j y hy).1 hj).2⟩
    · exact ⟨[], fun h => absurd h hi⟩
  choose ans hans using hans
  let fork : ℕ → Ctl → Ctl := fun _ c => ⟨c.background, fun t k => match k with
    | .int z => if 0 ≤ z ∧ z.toNat ∈ S.siteIds then .ok (ans z.toNat) else c.nbs t (.int z)
    | .str q => c.nbs t (.str q), c.calls⟩
  have hfork : ∀ v c, Redraws S (motifBuilder ms) c c → Redraws S (motifBuilder ms) c (fork v c) := by
    refine fun v c _ => ⟨rfl, fun t i hi => ?_⟩
    obtain ⟨⟨l0, h1, h2⟩, -⟩ := hans i hi
    exact ⟨l0, ans i, h1, by rw [h2], by simp [fork, hi]⟩
  refine ⟨fork, hfork, fun c hcb w hw0 m sched hv => ?_⟩
  obtain ⟨s1, s2, s3, s4, -⟩ := hstart
  obtain ⟨E, res, h1, h2, h3, h4, h5⟩ := growth_front_between bg (fun _ _ => False)
    (fun k j => match k with | .int z => j ∈ ans z.toNat ∧ z.toNat ∈ S.siteIds | .str _ => False) c s s1
    (by rw [s2]; simp) (sameSites_ne s3 ht.ids_ne) s4 fork (by
      refine fun v => ⟨hcb, fun t k hk => ?_⟩
      obtain ⟨i, hi, rfl⟩ := (s3 k).1 hk
      obtain ⟨⟨l0, h1, h2⟩, h3⟩ := hans i hi
      have hknown : ∀ j ∈ ans i, j ∈ S.siteIds := by
        intro j hj
        rw [h2] at hj
        obtain ⟨jw, hjw, rfl⟩ := List.mem_map.1 hj
        exact ((C116_known ht.reachable h1).1 jw hjw).1
      exact ⟨ans i, by simp [fork, hi], ⟨fun _ h => h.elim, fun j hj => by
        show j ∈ ans (i : ℤ).toNat ∧ (i : ℤ).toNat ∈ S.siteIds
        rw [Int.toNat_natCast]; exact ⟨hj, hi⟩⟩,
        fun j hj => (s3 _).2 ⟨j, hknown j hj, rfl⟩⟩) w hw0 m sched hv
  obtain ⟨h6, h7, h8⟩ := h4 m le_rfl
  have hlast : res.lastStep = .ok (E m) := by
    unfold SimResult.lastStep
    rw [h2, ← h6]
    congr 1
    push_cast; ring
  refine ⟨res, E m, h1, hlast, fun i hi => ?_, fun ψ h0 hψ i hi hocc => ?_⟩
  · obtain ⟨v, hv, -⟩ := h8.1 _ ((s3 _).2 ⟨i, hi, rfl⟩)
    exact ⟨v, hv⟩
  have key : ∀ k, k ≤ m → ∀ i ∈ S.siteIds, occ? (E k) (.int i) ≠ some bg → ψ i ≤ k := by
    intro k
    induction k with
    | zero =>
      intro _ i hi hne
      rw [h3] at hne
      exact h0 i (List.mem_filter.2 ⟨hi, by simpa using hne⟩)
    | succ k ih =>
      intro hk i hi hne
      rcases (h5 k (by omega) _ ((s3 _).2 ⟨i, hi, rfl⟩)).1 hne with h | ⟨j, ⟨hj, -⟩, h⟩
      · have := ih (by omega) i hi h
        push_cast; omega
      · rw [Int.toNat_natCast] at hj
        obtain ⟨a, b, ha, hb, v, hv, hd⟩ := (hans i hi).2 j hj
        have h9 := hψ i j a b ha hb v hv hd
        have := ih (by omega) j (ht.mem_ids ht.reachable hb) h
        push_cast; omega
  exact key m le_rfl i hi hocc

/-- There are draws of pseudopentagonal neighbourhoods that never show a single nucleus to any site, for every number of CPUs and every schedule. -/
theorem pent_stalls_run {S : Structure K 2} {n : ℤ} (ht : IsTorus S fun _ => n) (hn : 3 ≤ n) {s : SimState} (hstart : StartState S s) {bg : Val}
    (hcount : (nuclei S s bg).length = 1) :
    ∃ fork : ℕ → Ctl → Ctl, (∀ v c, Redraws S (motifBuilder pentOffs) c c → Redraws S (motifBuilder pentOffs) c (fork v c)) ∧
      ∀ (c : Ctl) (_ : c.background = bg) (w : ℕ) (_ : 0 < w) (sched : ℕ → StepSched)
        (_ : ∀ k, k < n.toNat → (sched k).Valid w (chunks s.siteIds (chunkSize s.siteIds.length w)).length),
        ∃ res s', runParallel Growth.controller fork c s w n.toNat sched = .ok res ∧ res.lastStep = .ok s' ∧
          ∀ i ∈ S.siteIds, i ∉ nuclei S s bg → occ? s' (.int i) = some bg := by
  obtain ⟨p, hp⟩ := List.length_eq_one_iff.1 hcount
  have hps : p ∈ S.siteIds := (List.mem_filter.1 (hp ▸ List.mem_singleton_self p : p ∈ nuclei S s bg)).1
  obtain ⟨y, -, hy⟩ := ht.site p hps
  have hex : ∀ i, ∃ offs ∈ pentOffs, ∀ x, SiteHas S i x → ∀ v ∈ offs, ¬ ∀ k, n ∣ y k - (x k + v k) := by
    intro i
    by_cases hi : ∃ x, SiteHas S i x
    · obtain ⟨x, hx⟩ := hi
      obtain ⟨offs, ho, hav⟩ := pent_avoids hn fun k => y k - x k
      refine ⟨offs, ho, fun x' hx' v hv hd => hav v hv fun k => ?_⟩
      rw [IsTorus.has_unique_coord hx' hx] at hd
      have := hd k
      rwa [← sub_sub] at this
    · exact ⟨_, List.mem_cons_self, fun x hx => absurd ⟨x, hx⟩ hi⟩
  choose choice hch hav using hex
  obtain ⟨fork, hfork, hrun⟩ := chosen_run ht hstart bg pentOffs choice fun i _ => hch i
  refine ⟨fork, hfork, fun c hcb w hw0 sched hv => ?_⟩
  obtain ⟨res, s', h1, h2, -, h3⟩ := hrun c hcb w hw0 n.toNat sched hv
  refine ⟨res, s', h1, h2, fun i hi hin => ?_⟩
  by_contra hne
  have hip : i ≠ p := fun e => hin (by rw [hp, e]; exact List.mem_singleton_self p)
  have := h3 (fun j => if j = p then 0 else n + 1) (by rw [hp]; simp) (fun i j a b ha hb v hv hd => by
    by_cases hj : j = p
    · subst hj
      rw [IsTorus.has_unique_coord hb hy] at hd
      exact absurd hd (hav i a ha v hv)
    · simp only [if_neg hj]; split <;> omega) i hi hne
  rw [if_neg hip] at this
  omega

/-! #### the 3D grid need not be filled -/

/-- Distance from 0 around a circle of `n`, cut off at `n / 2 - 1`. -/
def flatCirc (n x : ℤ) : ℤ := min (circ n x) (n / 2 - 1)

/-- From every position one of the two directions leads outwards: a step in it does not decrease the cut-off distance, and increases it if it is not cut off. -/
theorem flatCirc_out {n : ℤ} (hn : 4 ≤ n) (x : ℤ) : ∃ e : ℤ, (e = 1 ∨ e = -1) ∧ flatCirc n x ≤ flatCirc n (x + e) ∧
    (flatCirc n x < n / 2 - 1 → flatCirc n x + 1 ≤ flatCirc n (x + e)) := by
  have h0 := Int.emod_nonneg x (by omega : n ≠ 0)
  have h1 := Int.emod_lt_of_pos x (by omega : 0 < n)
  have hx := Int.emod_add_mul_ediv x n
  by_cases h : 2 * (x % n) < n
  · refine ⟨1, .inl rfl, ?_⟩
    have hp : (x + 1) % n = x % n + 1 := by
      rw [show x + 1 = x % n + 1 + n * (x / n) by linarith, Int.add_mul_emod_self_left, Int.emod_eq_of_lt (by omega) (by omega)]
    unfold flatCirc circ
    rw [hp]
    omega
  · refine ⟨-1, .inr rfl, ?_⟩
    have hm : (x + -1) % n = x % n - 1 := by
      rw [show x + -1 = x % n - 1 + n * (x / n) by linarith, Int.add_mul_emod_self_left, Int.emod_eq_of_lt (by omega) (by omega)]
    unfold flatCirc circ
    rw [hm]
    omega

theorem flatCirc_step {n : ℤ} (hn : 4 ≤ n) (x e : ℤ) (he : |e| ≤ 1) : flatCirc n x ≤ flatCirc n (x + e) + 1 := by
  have h := circ_triangle (n := n) (by omega) x (x + e) 0 1 (circ n (x + e)) (by
    obtain ⟨k, hk⟩ : ∃ k, k = x - (x + e) := ⟨_, rfl⟩
    have h2 := circ_le_abs (n := n) (by omega) (x - (x + e)) 0
    have h3 : |x - (x + e) + 0 * n| = |e| := by rw [← abs_neg e]; congr 1; ring
    omega) (by rw [sub_zero])
  rw [sub_zero] at h
  unfold flatCirc
  omega

theorem flatCirc_congr {n x y : ℤ} (h : n ∣ x - y) : flatCirc n x = flatCirc n y := by
  unfold flatCirc circ
  rw [Int.emod_eq_emod_iff_emod_sub_eq_zero.2 (Int.emod_eq_zero_of_dvd h)]

/-- The cut-off distances of the three coordinates together, again cut off. -/
def flatDist (n : ℤ) (D : Fin 3 → ℤ) : ℤ := min (∑ k, flatCirc n (D k)) (3 * (n / 2 - 1) - 1)

/-- The motif with the diagonals `v` and `-v`. -/
theorem hexOffs3_diagonal : ∀ e0 ∈ [(1 : ℤ), -1], ∀ e1 ∈ [(1 : ℤ), -1], ∀ e2 ∈ [(1 : ℤ), -1], ∃ offs ∈ hexOffs3,
    ∀ v ∈ offs, (∃ q, ∃ e ∈ [(1 : ℤ), -1], v = Pi.single q e) ∨ v = ![e0, e1, e2] ∨ v = ![-e0, -e1, -e2] := by decide

/-- At every position one of the pseudohexagonal motifs approaches the origin by at most 1. -/
theorem hex3_slow {n : ℤ} (hn : 4 ≤ n) (D : Fin 3 → ℤ) : ∃ offs ∈ hexOffs3, ∀ v ∈ offs, flatDist n D ≤ flatDist n (fun k => D k + v k) + 1 := by
  choose e he1 he2 he3 using fun k => flatCirc_out hn (D k)
  have hmax : ∀ k, flatCirc n (D k) ≤ n / 2 - 1 := fun k => min_le_right _ _
  have hin : ∀ k, flatCirc n (D k) ≤ flatCirc n (D k + -e k) + 1 := fun k => flatCirc_step hn _ _ (by rcases he1 k with h | h <;> rw [h] <;> simp)
  have hmem : ∀ k, e k ∈ [(1 : ℤ), -1] ∧ -e k ∈ [(1 : ℤ), -1] := fun k => by rcases he1 k with h | h <;> simp [h]
  have hsingle : ∀ q, ∀ f ∈ [(1 : ℤ), -1], flatDist n D ≤ flatDist n (fun k => D k + Pi.single (M := fun _ => ℤ) q f k) + 1 := by
    intro q f hf
    have h1 : ∀ k, k ≠ q → flatCirc n (D k + Pi.single (M := fun _ => ℤ) q f k) = flatCirc n (D k) := fun k hk => by rw [Pi.single_eq_of_ne hk, add_zero]
    have h2 := flatCirc_step hn (D q) f (by rcases List.mem_cons.1 hf with rfl | h; · simp
                                            · rw [List.mem_singleton.1 h]; simp)
    unfold flatDist
    rw [Fin.sum_univ_three, Fin.sum_univ_three]
    fin_cases q
    · have := h1 1 (by simp); have := h1 2 (by simp); simp_all; omega
    · have := h1 0 (by simp); have := h1 2 (by simp); simp_all; omega
    · have := h1 0 (by simp); have := h1 1 (by simp); simp_all; omega
  have fin : ∀ v : Fin 3 → ℤ, (∀ k, v k = 1 ∨ v k = -1) → flatDist n D ≤ flatDist n (fun k => D k + v k) + 1 →
      flatDist n D ≤ flatDist n (fun k => D k + -v k) + 1 → ∃ offs ∈ hexOffs3, ∀ v ∈ offs, flatDist n D ≤ flatDist n (fun k => D k + v k) + 1 := by
    intro v hv h1 h2
    have hm : ∀ k, v k ∈ [(1 : ℤ), -1] := fun k => by rcases hv k with h | h <;> simp [h]
    obtain ⟨offs, ho, h⟩ := hexOffs3_diagonal (v 0) (hm 0) (v 1) (hm 1) (v 2) (hm 2)
    refine ⟨offs, ho, fun u hu => ?_⟩
    rcases h u hu with ⟨q, f, hf, rfl⟩ | rfl | rfl
    · exact hsingle q f hf
    · rwa [show ![v 0, v 1, v 2] = v by funext k; fin_cases k <;> rfl]
    · rwa [show ![-v 0, -v 1, -v 2] = fun k => -v k by funext k; fin_cases k <;> rfl]
  have i0 := hin 0; have i1 := hin 1; have i2 := hin 2
  have o0 := he2 0; have o1 := he2 1; have o2 := he2 2
  have p0 := he3 0; have p1 := he3 1; have p2 := he3 2
  have m0 := hmax 0; have m1 := hmax 1; have m2 := hmax 2
  have neg : ∀ k, -e k = 1 ∨ -e k = -1 := fun k => by rcases he1 k with h | h <;> simp [h]
  by_cases c0 : flatCirc n (D 0) < n / 2 - 1
  · refine fin ![-e 0, e 1, e 2] (by intro k; fin_cases k; exacts [neg 0, he1 1, he1 2]) ?_ ?_
    all_goals
      unfold flatDist
      rw [Fin.sum_univ_three, Fin.sum_univ_three]
      have := p0 c0
      simp
      omega
  by_cases c1 : flatCirc n (D 1) < n / 2 - 1
  · refine fin ![e 0, -e 1, e 2] (by intro k; fin_cases k; exacts [he1 0, neg 1, he1 2]) ?_ ?_
    all_goals
      unfold flatDist
      rw [Fin.sum_univ_three, Fin.sum_univ_three]
      have := p1 c1
      simp
      omega
  · refine fin ![e 0, e 1, -e 2] (by intro k; fin_cases k; exacts [he1 0, he1 1, neg 2]) ?_ ?_
    all_goals
      unfold flatDist
      rw [Fin.sum_univ_three, Fin.sum_univ_three]
      by_cases c2 : flatCirc n (D 2) < n / 2 - 1
      · have := p2 c2
        simp
        omega
      · simp
        omega

/-- The site opposite a position. -/
theorem _root_.Pyl.IsTorus.opposite {S : Structure K d} {n : ℤ} (ht : IsTorus S fun _ => n) (y : Fin d → ℤ) :
    ∃ i ∈ S.siteIds, SiteHas S i fun k => (y k + n / 2) % n :=
  ht.ex _ fun k => ⟨Int.emod_nonneg _ (ht.pos k).ne', Int.emod_lt_of_pos _ (ht.pos k)⟩

theorem opposite_far {n : ℤ} (hn : 0 < n) (y : ℤ) : n / 2 - 1 ≤ circ n ((y + n / 2) % n - y) := by
  unfold circ
  rw [Int.emod_sub_emod, show y + n / 2 - y = n / 2 by ring, Int.emod_eq_of_lt (by omega) (by omega)]
  omega

/-- There are draws of the pseudohexagonal neighbourhoods of the 3D grid with which the sites opposite a single nucleus are still background after `n` steps. -/
theorem hex3_slow_run {S : Structure K 3} {n : ℤ} (ht : IsTorus S fun _ => n) (hn : 12 ≤ n) {s : SimState} (hstart : StartState S s) {bg : Val} {p : ℕ} {y : Fin 3 → ℤ}
    (hp : nuclei S s bg = [p]) (hy : SiteHas S p y) :
    ∃ fork : ℕ → Ctl → Ctl, (∀ v c, Redraws S (motifBuilder hexOffs3) c c → Redraws S (motifBuilder hexOffs3) c (fork v c)) ∧
      ∀ (c : Ctl) (_ : c.background = bg) (w : ℕ) (_ : 0 < w) (sched : ℕ → StepSched)
        (_ : ∀ k, k < n.toNat → (sched k).Valid w (chunks s.siteIds (chunkSize s.siteIds.length w)).length),
        ∃ res s', runParallel Growth.controller fork c s w n.toNat sched = .ok res ∧ res.lastStep = .ok s' ∧
          ∀ i x, SiteHas S i x → (∀ k, n / 2 - 1 ≤ circ n (x k - y k)) → occ? s' (.int i) = some bg := by
  have hex : ∀ i, ∃ offs ∈ hexOffs3, ∀ x, SiteHas S i x → ∀ v ∈ offs, flatDist n (fun k => x k - y k) ≤ flatDist n (fun k => x k - y k + v k) + 1 := by
    intro i
    by_cases hi : ∃ x, SiteHas S i x
    · obtain ⟨x, hx⟩ := hi
      obtain ⟨offs, ho, h⟩ := hex3_slow (n := n) (by omega) fun k => x k - y k
      refine ⟨offs, ho, fun x' hx' v hv => ?_⟩
      rw [IsTorus.has_unique_coord hx' hx]
      exact h v hv
    · exact ⟨_, List.mem_cons_self, fun x hx => absurd ⟨x, hx⟩ hi⟩
  choose choice hch hslow using hex
  have hloc : ∀ i, ∃ x, (∃ z, SiteHas S i z) → SiteHas S i x := fun i => by
    by_cases hi : ∃ z, SiteHas S i z
    · exact ⟨hi.choose, fun _ => hi.choose_spec⟩
    · exact ⟨0, fun h => absurd h hi⟩
  choose loc hloc using hloc
  have hloc' : ∀ i x, SiteHas S i x → loc i = x := fun i x hx => IsTorus.has_unique_coord (hloc i ⟨x, hx⟩) hx
  obtain ⟨fork, hfork, hrun⟩ := chosen_run ht hstart bg hexOffs3 choice fun i _ => hch i
  refine ⟨fork, hfork, fun c hcb w hw0 sched hv => ?_⟩
  obtain ⟨res, s', h1, h2, -, h3⟩ := hrun c hcb w hw0 n.toNat sched hv
  refine ⟨res, s', h1, h2, fun i x hx hfar => ?_⟩
  by_contra hne
  have := h3 (fun j => flatDist n fun k => loc j k - y k) (by
      intro j hj
      rw [hp, List.mem_singleton] at hj
      subst hj
      show flatDist n _ ≤ 0
      rw [hloc' _ _ hy]
      unfold flatDist
      have h0 : ∀ k, flatCirc n (y k - y k) ≤ 0 := fun k => (min_le_left _ _).trans (circ_self n (by omega) _)
      have := h0 0; have := h0 1; have := h0 2
      rw [Fin.sum_univ_three]
      show min (flatCirc n (y 0 - y 0) + flatCirc n (y 1 - y 1) + flatCirc n (y 2 - y 2)) _ ≤ 0
      omega)
    (fun i j a b ha hb v hv hd => by
      show flatDist n _ ≤ flatDist n _ + 1
      rw [hloc' _ _ ha, hloc' _ _ hb]
      have e : (fun k => flatCirc n (b k - y k)) = fun k => flatCirc n (a k - y k + v k) := by
        funext k
        refine flatCirc_congr ?_
        rw [show b k - y k - (a k - y k + v k) = b k - (a k + v k) by ring]
        exact hd k
      have h4 := hslow i a ha v hv
      unfold flatDist at h4 ⊢
      simp only [e]
      exact h4) i (ht.mem_ids ht.reachable hx) hne
  have h5 : flatDist n (fun k => loc i k - y k) = 3 * (n / 2 - 1) - 1 := by
    rw [hloc' _ _ hx]
    unfold flatDist
    have h6 : ∀ k, flatCirc n (x k - y k) = n / 2 - 1 := fun k => min_eq_right (hfar k)
    rw [Fin.sum_univ_three, h6, h6, h6]
    omega
  have h7 : flatDist n (fun k => loc i k - y k) ≤ n.toNat := this
  omega

/-- C117: with the pseudopentagonal neighbourhoods nothing of the kind holds: `grow` with one nucleus can end with every other site still background.
There are draws that never show the nucleus to any site, for every number of CPUs and every schedule. -/
theorem C117_pentagonal_stalls {G : GridSetup K 2} (hG : StdSetup 2 G) (n : ℤ) (hn : 3 ≤ n) (num : K) (hm : NearestEven num 1) (bg : Val)
    (hbgw : bg.WF) (nucAmts : Dict Val K) (hw : Dict.WF nucAmts) (hph : ∀ p ∈ Dict.keys nucAmts, p.WF) (hbg : bg ∉ Dict.keys nucAmts)
    (buffer : Option ℤ)
    (order : ℕ → List ℕ → List ℕ) (hord : ∀ t l, (order t l).Perm l) (draw : ℕ → ℕ) (fuel : ℕ) (sim : Simulation K 2)
    (h : G.randomSites (.int n) num bg nucAmts buffer order draw fuel = some (.ok sim))
    (ord : ℕ → List ℕ → List ℕ) (hord' : ∀ t l, (ord t l).Perm l) (pick : ℕ → ℕ → ℕ) :
    ∃ fork : ℕ → Ctl → Ctl,
      (∀ v c, Redraws sim.struct (.stochastic (pseudoPent.map .one)) c c → Redraws sim.struct (.stochastic (pseudoPent.map .one)) c (fork v c)) ∧
      ∀ (w : ℕ) (_ : 0 < w) (sched : ℕ → StepSched)
        (_ : ∀ k, k < n.toNat → (sched k).Valid w (chunks sim.state.siteIds (chunkSize sim.state.siteIds.length w)).length),
        ∃ sim', growNested G n num bg nucAmts (.stochastic (pseudoPent.map .one)) buffer order draw fuel ord pick fork w sched = some (.ok sim') ∧
          sim'.struct = sim.struct ∧ (nuclei sim.struct sim.state bg).length = 1 ∧
          ∀ i ∈ sim.struct.siteIds, i ∉ nuclei sim.struct sim.state bg → occ? sim'.state (.int i) = some bg := by
  obtain ⟨hsq, hstart, hcount, -⟩ := C67_random_sites hG n (by omega) num 1 hm bg hbgw nucAmts hw hph hbg buffer order hord draw fuel sim h
  have hcount : (nuclei sim.struct sim.state bg).length = 1 := by exact_mod_cast hcount
  have ht := hsq.isTorus
  rw [← pentOffs_eq]
  obtain ⟨fork, hfork, hrun⟩ := pent_stalls_run ht hn hstart hcount
  refine ⟨fork, hfork, fun w hw0 sched hv => ?_⟩
  obtain ⟨o1, o2, o3⟩ := motifBuilder_ok (K := K) ht (ms := pentOffs) (by simp [pentOffs])
  obtain ⟨c, hc, hcb, -⟩ := initNested_ok ht.reachable o1 o2 o3 hord' pick bg
  obtain ⟨res, s', h1, h2, h3⟩ := hrun c hcb w hw0 sched hv
  refine ⟨⟨s', sim.struct⟩, ?_, rfl, hcount, h3⟩
  unfold growNested
  rw [h]
  simp only [hc, ok_bind, h1, h2]
  rfl

/-- C117: the 3D grid need not be filled with the pseudohexagonal neighbourhoods: for every size from 12 on there are draws with which, after `grow` with one
nucleus, the sites opposite the nucleus are still background, for every number of CPUs and every schedule. -/
theorem C117_hexagonal3_unfilled {G : GridSetup K 3} (hG : StdSetup 3 G) (n : ℤ) (hn : 12 ≤ n) (num : K) (hm : NearestEven num 1) (bg : Val)
    (hbgw : bg.WF) (nucAmts : Dict Val K) (hw : Dict.WF nucAmts) (hph : ∀ p ∈ Dict.keys nucAmts, p.WF) (hbg : bg ∉ Dict.keys nucAmts)
    (buffer : Option ℤ)
    (order : ℕ → List ℕ → List ℕ) (hord : ∀ t l, (order t l).Perm l) (draw : ℕ → ℕ) (fuel : ℕ) (sim : Simulation K 3)
    (h : G.randomSites (.int n) num bg nucAmts buffer order draw fuel = some (.ok sim))
    (ord : ℕ → List ℕ → List ℕ) (hord' : ∀ t l, (ord t l).Perm l) (pick : ℕ → ℕ → ℕ) :
    ∃ fork : ℕ → Ctl → Ctl,
      (∀ v c, Redraws sim.struct (.stochastic (pseudoHex3.map .one)) c c → Redraws sim.struct (.stochastic (pseudoHex3.map .one)) c (fork v c)) ∧
      ∀ (w : ℕ) (_ : 0 < w) (sched : ℕ → StepSched)
        (_ : ∀ k, k < n.toNat → (sched k).Valid w (chunks sim.state.siteIds (chunkSize sim.state.siteIds.length w)).length),
        ∃ sim', growNested G n num bg nucAmts (.stochastic (pseudoHex3.map .one)) buffer order draw fuel ord pick fork w sched = some (.ok sim') ∧
          sim'.struct = sim.struct ∧ (∃ i ∈ sim.struct.siteIds, occ? sim'.state (.int i) = some bg) ∧
          ∃ p y, nuclei sim.struct sim.state bg = [p] ∧ SiteHas sim.struct p y ∧
            ∀ i x, SiteHas sim.struct i x → (∀ k, n / 2 - 1 ≤ circ n (x k - y k)) → occ? sim'.state (.int i) = some bg := by
  obtain ⟨hsq, hstart, hcount, -⟩ := C67_random_sites hG n (by omega) num 1 hm bg hbgw nucAmts hw hph hbg buffer order hord draw fuel sim h
  have hcount : (nuclei sim.struct sim.state bg).length = 1 := by exact_mod_cast hcount
  have ht := hsq.isTorus
  rw [← hexOffs3_eq]
  obtain ⟨p, hp⟩ := List.length_eq_one_iff.1 hcount
  have hps : p ∈ sim.struct.siteIds := (List.mem_filter.1 (hp ▸ List.mem_singleton_self p : p ∈ nuclei sim.struct sim.state bg)).1
  obtain ⟨y, -, hy⟩ := ht.site p hps
  obtain ⟨fork, hfork, hrun⟩ := hex3_slow_run ht hn hstart hp hy
  refine ⟨fork, hfork, fun w hw0 sched hv => ?_⟩
  obtain ⟨o1, o2, o3⟩ := motifBuilder_ok (K := K) ht (ms := hexOffs3) (by simp [hexOffs3])
  obtain ⟨c, hc, hcb, -⟩ := initNested_ok ht.reachable o1 o2 o3 hord' pick bg
  obtain ⟨res, s', h1, h2, h3⟩ := hrun c hcb w hw0 sched hv
  refine ⟨⟨s', sim.struct⟩, ?_, rfl, ?_, p, y, hp, hy, h3⟩
  · unfold growNested
    rw [h]
    simp only [hc, ok_bind, h1, h2]
    rfl
  · obtain ⟨i, hi, hx⟩ := ht.opposite y
    exact ⟨i, hi, h3 i _ hx fun k => opposite_far (by omega) _⟩

/-! ### the hypotheses can be met -/

/-- `grow` on a 7 x 7 grid with one nucleus: filled with the pseudohexagonal neighbourhoods, and possibly all but the nucleus background with the
pseudopentagonal ones. -/
example : ∃ draw fuel fork fork' sched sim sim', (∃ b, ∀ k, sched k = (List.range b).map fun i => (i, (k * i + k) % 4)) ∧
    growNested (K := ℚ) gridSetup2 7 1 (.str "bg") [(.str "A", 1)] (.stochastic (pseudoHex2.map .one)) none (fun _ l => l) draw fuel
      (fun _ l => l.reverse) (fun t k => t + k) fork 4 sched = some (.ok sim) ∧ (∀ i ∈ sim.struct.siteIds, occ? sim.state (.int i) = some (.str "A")) ∧
    growNested (K := ℚ) gridSetup2 7 1 (.str "bg") [(.str "A", 1)] (.stochastic (pseudoPent.map .one)) none (fun _ l => l) draw fuel
      (fun _ l => l.reverse) (fun t k => t + k) fork' 4 sched = some (.ok sim') ∧ ∃ p, ∀ i ∈ sim'.struct.siteIds, i ≠ p →
        occ? sim'.state (.int i) = some (.str "bg") := by
  have hm : NearestEven (1 : ℚ) 1 := by left; norm_num
  have hw : Dict.WF [(Val.str "A", (1 : ℚ))] := by simp [Dict.WF, Dict.keys]
  have hph : ∀ p ∈ Dict.keys [(Val.str "A", (1 : ℚ))], p.WF := by
    intro p hp
    simp [Dict.keys] at hp
    subst hp; exact .str _
  have hbg : Val.str "bg" ∉ Dict.keys [(Val.str "A", (1 : ℚ))] := by simp [Dict.keys]
  obtain ⟨draw, fuel, sim, h, -⟩ := C67_reachable (K := ℚ) .two 7 (by norm_num) 1 1 hm (.str "bg") (.str _) _ hw hph hbg (by norm_num) none
    (fun _ l => l) (fun _ _ => .refl _) [![0, 3]] (by decide) rfl
    (by intro c hc j; simp at hc; subst hc; fin_cases j <;> simp)
    (by intro r hr; cases hr)
  let B := (chunks sim.state.siteIds (chunkSize sim.state.siteIds.length 4)).length
  let sched : ℕ → StepSched := fun k => (List.range B).map fun i => (i, (k * i + k) % 4)
  have hv : ∀ k, k < (7 : ℤ).toNat → (sched k).Valid 4 (chunks sim.state.siteIds (chunkSize sim.state.siteIds.length 4)).length := by
    intro k _
    refine ⟨?_, ?_⟩
    · simp only [sched, List.map_map, Function.comp_def, List.map_id']
      exact .refl _
    · intro p hp
      obtain ⟨i, -, rfl⟩ := List.mem_map.1 hp
      exact Nat.mod_lt _ (by norm_num)
  obtain ⟨sim1, h1, h2, h3⟩ := C117_hexagonal_fills .two 7 (by norm_num) 1 1 hm (by norm_num) (.str "bg") (.str _) _ hw hph hbg (by simp) none
    (fun _ l => l) (fun _ _ => .refl _) draw fuel sim h (fun _ l => l.reverse) (fun _ l => l.reverse_perm) (fun t k => t + k)
    (fun _ c => c) (fun _ _ h => h) 4 (by norm_num) sched hv
  obtain ⟨fork, -, hst⟩ := C117_pentagonal_stalls .two 7 (by norm_num) 1 hm (.str "bg") (.str _) _ hw hph hbg none
    (fun _ l => l) (fun _ _ => .refl _) draw fuel sim h (fun _ l => l.reverse) (fun _ l => l.reverse_perm) (fun t k => t + k)
  obtain ⟨sim2, h4, h5, h6, h7⟩ := hst 4 (by norm_num) sched hv
  obtain ⟨p, hp⟩ := List.length_eq_one_iff.1 h6
  refine ⟨draw, fuel, _, fork, sched, sim1, sim2, ⟨B, fun k => rfl⟩, h1, fun i hi => ?_, h4, p, fun i hi hip => ?_⟩
  · obtain ⟨v, hv, h8⟩ := h3 i (h2 ▸ hi)
    simp [Dict.keys] at hv
    rw [h8, hv]
  · exact h7 i (h5 ▸ hi) (by rw [hp]; simpa using hip)

/-- A 5 x 5 x 5 grid with a nucleus at a corner: after `grow` with the pseudohexagonal neighbourhoods the sites around it are occupied, also across the
boundary; a serial run of ten steps succeeds. -/
example : ∃ draw fuel sched sim start c' res, growNested (K := ℚ) gridSetup3 5 1 (.str "bg") [(.str "A", 1)] (.stochastic (pseudoHex3.map .one)) none
      (fun _ l => l) draw fuel (fun _ l => l) (fun t k => t * k) (fun _ c => c) 2 sched = some (.ok sim) ∧
    (∃ i, SiteHas sim.struct i ![3, 1, 4] ∧ occ? sim.state (.int i) ≠ some (.str "bg")) ∧ SameSites sim.struct start ∧
    ∃ c, Growth.initNested (fun _ l => l) (fun t k => t * k) sim.struct (.str "bg") (.stochastic (pseudoHex3.map .one)) = .ok c ∧
      runSync controller c start 10 = .ok (c', res) ∧ res.len = 11 := by
  have hm : NearestEven (1 : ℚ) 1 := by left; norm_num
  have hw : Dict.WF [(Val.str "A", (1 : ℚ))] := by simp [Dict.WF, Dict.keys]
  have hph : ∀ p ∈ Dict.keys [(Val.str "A", (1 : ℚ))], p.WF := by
    intro p hp
    simp [Dict.keys] at hp
    subst hp; exact .str _
  have hbg : Val.str "bg" ∉ Dict.keys [(Val.str "A", (1 : ℚ))] := by simp [Dict.keys]
  obtain ⟨draw, fuel, sim, h, hcell⟩ := C67_reachable (K := ℚ) .three 5 (by norm_num) 1 1 hm (.str "bg") (.str _) _ hw hph hbg (by norm_num) none
    (fun _ l => l) (fun _ _ => .refl _) [![0, 0, 0]] (by simp) rfl
    (by intro c hc j; simp at hc; subst hc; fin_cases j <;> simp)
    (by intro r hr; cases hr)
  obtain ⟨hsq, ⟨s1, s2, s3, s4, -⟩, -, -⟩ := C67_random_sites .three 5 (by norm_num) 1 1 hm (.str "bg") (.str _) _ hw hph hbg none (fun _ l => l)
    (fun _ _ => .refl _) draw fuel sim h
  have ht := hsq.isTorus
  let B := (chunks sim.state.siteIds (chunkSize sim.state.siteIds.length 2)).length
  let sched : ℕ → StepSched := fun k => (List.range B).map fun i => (i, (k + i) % 2)
  obtain ⟨sim1, h1, h2, h3⟩ := C117_hexagonal3 .three 5 (by norm_num) 1 1 hm (.str "bg") (.str _) _ hw hph hbg (by simp) none
    (fun _ l => l) (fun _ _ => .refl _) draw fuel sim h (fun _ l => l) (fun _ _ => .refl _) (fun t k => t * k)
    (fun _ c => c) (fun _ _ h => h) 2 (by norm_num) sched (by
      intro k _
      refine ⟨?_, ?_⟩
      · simp only [sched, List.map_map, Function.comp_def, List.map_id']
        exact .refl _
      · intro p hp
        obtain ⟨i, -, rfl⟩ := List.mem_map.1 hp
        exact Nat.mod_lt _ (by norm_num))
  have hb := motifBuilder_ok (K := ℚ) ht (ms := hexOffs3) (by simp [hexOffs3])
  rw [hexOffs3_eq] at hb
  obtain ⟨c, c', res, h4, h5, h6, -⟩ := C117_serial ht.reachable _ hb.1 hb.2.1 hb.2.2 (.str "bg") (fun _ l => l) (fun _ _ => .refl _) (fun t k => t * k)
    sim.state s1 (by rw [s2]; simp) ht.ids_ne s3 s4 10
  obtain ⟨j, -, hj⟩ := ht.ex ![0, 0, 0] (by intro j; fin_cases j <;> simp)
  obtain ⟨i, -, hi⟩ := ht.ex ![3, 1, 4] (by intro j; fin_cases j <;> simp)
  refine ⟨draw, fuel, sched, sim1, sim.state, c', res, h1, ⟨i, h2 ▸ hi, ?_⟩, by rw [h2]; exact s3, c, by rw [h2]; exact h4, h5, h6⟩
  refine h3 i _ hi j ((hcell j _ hj).2 (by simp)) _ hj ?_
  simp [torusManhattan, Fin.sum_univ_three, circ]

/-- A 13 x 13 x 13 grid with one nucleus: `grow` with the pseudohexagonal neighbourhoods can leave a site background, with four workers. -/
example : ∃ draw fuel fork sched sim, growNested (K := ℚ) gridSetup3 13 1 (.str "bg") [(.str "A", 1)] (.stochastic (pseudoHex3.map .one)) none
      (fun _ l => l) draw fuel (fun _ l => l) (fun t k => t * k) fork 4 sched = some (.ok sim) ∧
    ∃ i ∈ sim.struct.siteIds, occ? sim.state (.int i) = some (.str "bg") := by
  have hm : NearestEven (1 : ℚ) 1 := by left; norm_num
  have hw : Dict.WF [(Val.str "A", (1 : ℚ))] := by simp [Dict.WF, Dict.keys]
  have hph : ∀ p ∈ Dict.keys [(Val.str "A", (1 : ℚ))], p.WF := by
    intro p hp
    simp [Dict.keys] at hp
    subst hp; exact .str _
  have hbg : Val.str "bg" ∉ Dict.keys [(Val.str "A", (1 : ℚ))] := by simp [Dict.keys]
  obtain ⟨draw, fuel, sim, h, -⟩ := C67_reachable (K := ℚ) .three 13 (by norm_num) 1 1 hm (.str "bg") (.str _) _ hw hph hbg (by norm_num) none
    (fun _ l => l) (fun _ _ => .refl _) [![0, 3, 7]] (by decide) rfl
    (by intro c hc j; simp at hc; subst hc; fin_cases j <;> simp)
    (by intro r hr; cases hr)
  obtain ⟨fork, -, hst⟩ := C117_hexagonal3_unfilled .three 13 (by norm_num) 1 hm (.str "bg") (.str _) _ hw hph hbg none
    (fun _ l => l) (fun _ _ => .refl _) draw fuel sim h (fun _ l => l) (fun _ _ => .refl _) (fun t k => t * k)
  let B := (chunks sim.state.siteIds (chunkSize sim.state.siteIds.length 4)).length
  obtain ⟨sim', h1, h2, ⟨i, hi, h3⟩, -⟩ := hst 4 (by norm_num) (fun k => (List.range B).map fun i => (i, (k * i + k) % 4)) (by
    intro k _
    refine ⟨?_, ?_⟩
    · simp only [List.map_map, Function.comp_def, List.map_id']
      exact .refl _
    · intro p hp
      obtain ⟨i, -, rfl⟩ := List.mem_map.1 hp
      exact Nat.mod_lt _ (by norm_num))
  exact ⟨draw, fuel, fork, _, sim', h1, i, h2 ▸ hi, h3⟩

end Pyl
