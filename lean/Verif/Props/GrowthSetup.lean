import Verif.Model.GrowthSetup
import Verif.Props.GrowthParallel
import Verif.Props.RandomSites
/-
C92: `GrowthSetup.grow`.
-/
set_option autoImplicit false
set_option linter.unusedSectionVars false

namespace Pyl
open SimState Spec Growth
open Pyl.Lattice Pyl.Structure
variable {K : Type} [Field K] [LinearOrder K] [FloorRing K] [IsStrictOrderedRing K] {d : ℕ}

/-- What `m` parallel steps of the growth model make of a start state on a torus. -/
structure Grown (S : Structure K d) (s : SimState) (bg : Val) (phases : List Val) (nbs : ℕ → List ℕ) (m : ℕ) (s' : SimState) : Prop where
  same : SameSites S s'
  all : AllOccupied s'
  occupied : ∀ i ∈ S.siteIds, occ? s' (.int i) ≠ some bg ↔ ∃ j ∈ nuclei S s bg, Hops nbs m i j
  kept : ∀ j ∈ nuclei S s bg, occ? s' (.int j) = occ? s (.int j)
  phase : ∀ i ∈ S.siteIds, ∃ v, occ? s' (.int i) = some v ∧ (v = bg ∨ v ∈ phases)

theorem growthRun {S : Structure K d} {N : Fin d → ℤ} (ht : IsTorus S N) {s : SimState} (hst : StartState S s) {bg : Val} {phases : List Val}
    (hphase : ∀ i ∈ nuclei S s bg, ∃ p ∈ phases, occ? s (.int i) = some p)
    {bl : Builder K d} {g : Graph K} (hb : bl.get S none = .ok g) {ord : ℕ → List ℕ → List ℕ} (hord' : ∀ t l, (ord t l).Perm l)
    (fork : ℕ → Ctl → Ctl) (hfork : ∀ v c, Reorders c (fork v c)) (w : ℕ) (hw0 : 0 < w) (m : ℕ) (sched : ℕ → StepSched)
    (hv : ∀ k, k < m → (sched k).Valid w (chunks s.siteIds (chunkSize s.siteIds.length w)).length) :
    ∃ c res s', Growth.init ord S bg (some bl) = .ok c ∧ runParallel Growth.controller fork c s w m sched = .ok res ∧ res.lastStep = .ok s' ∧
      Grown S s bg phases g.neighborsOf m s' := by
  obtain ⟨s1, s2, s3, s4, -⟩ := hst
  obtain ⟨c, hc⟩ : ∃ c, Growth.init ord S bg (some bl) = .ok c := by
    unfold Growth.init
    rw [Option.getD_some, hb]
    exact ⟨_, rfl⟩
  obtain ⟨E, res, h1, h2, h3, h4, h5⟩ := growth_front bg _ c s s1 (by rw [s2]; simp) (sameSites_ne s3 ht.ids_ne) s4 fork
    (fun v => growthCtl_reorders ht.reachable hb hord' s3 hc (hfork v c)) w hw0 m sched hv
  obtain ⟨h6, h7, h8⟩ := h4 m le_rfl
  have hlast : res.lastStep = .ok (E m) := by
    unfold SimResult.lastStep
    rw [h2, ← h6]
    congr 1
    push_cast; ring
  have hsame : SameSites S (E m) := fun k => by rw [h7]; exact s3 k
  refine ⟨c, res, E m, hc, h1, hlast, hsame, ?_, ?_, ?_, ?_⟩
  · intro k hk
    obtain ⟨v, hv, -⟩ := h8.1 k (by rw [← h7]; exact hk)
    exact ⟨v, hv⟩
  · have key : ∀ k, k ≤ m → ∀ i ∈ S.siteIds, (occ? (E k) (.int i) ≠ some bg ↔
        ∃ j ∈ nuclei S s bg, Hops g.neighborsOf k i j) := by
      intro k
      induction k with
      | zero =>
        intro _ i hi
        rw [h3]
        constructor
        · intro h
          exact ⟨i, List.mem_filter.2 ⟨hi, by simpa using h⟩, rfl⟩
        · rintro ⟨j, hj, rfl⟩
          simpa using (List.mem_filter.1 hj).2
      | succ k ih =>
        intro hk i hi
        rw [h5 k (by omega) _ ((s3 _).2 ⟨i, hi, rfl⟩), ih (by omega) i hi]
        show _ ∨ (∃ j ∈ g.neighborsOf ((i : ℤ)).toNat, _) ↔ _
        rw [Int.toNat_natCast]
        have hnb : ∀ x ∈ g.neighborsOf i, x ∈ S.siteIds := fun x hx => ((C55_known_and_other ht.reachable bl none g hb i).1 x hx).1
        constructor
        · rintro (⟨j, hj, h⟩ | ⟨x, hx, h⟩)
          · exact ⟨j, hj, .inl h⟩
          · obtain ⟨j, hj, h⟩ := (ih (by omega) x (hnb x hx)).1 h
            exact ⟨j, hj, .inr ⟨x, hx, h⟩⟩
        · rintro ⟨j, hj, h | ⟨x, hx, h⟩⟩
          · exact .inl ⟨j, hj, h⟩
          · exact .inr ⟨x, hx, (ih (by omega) x (hnb x hx)).2 ⟨j, hj, h⟩⟩
    exact key _ le_rfl
  · intro j hj
    obtain ⟨hj1, hj2⟩ := List.mem_filter.1 hj
    have hjs := (s3 _).2 ⟨j, hj1, rfl⟩
    obtain ⟨v, hv⟩ := s4 _ hjs
    rw [hv]
    exact h8.2 _ hjs v hv (by rintro rfl; rw [hv] at hj2; simp at hj2)
  · intro i hi
    obtain ⟨v, hv, h9⟩ := h8.1 _ ((s3 _).2 ⟨i, hi, rfl⟩)
    refine ⟨v, hv, ?_⟩
    rcases h9 with h9 | ⟨k, hk, h9⟩
    · exact .inl h9
    · obtain ⟨j, hj, rfl⟩ := (s3 _).1 hk
      by_cases hvb : v = bg
      · exact .inl hvb
      · right
        obtain ⟨p, hp, hp'⟩ := hphase j (List.mem_filter.2 ⟨hj, by rw [h9]; simpa using hvb⟩)
        rw [h9] at hp'; injection hp' with hp'
        rw [hp']; exact hp

/-- C92: when the nuclei have been placed, `grow` returns, for every number of CPUs and every schedule: on the same structure, a state in which
exactly the sites are occupied from which a nucleus can be reached by at most `size` moves to a neighbour; the nuclei have kept their
phase and every phase is the background or one of `nuc_amts`. -/
theorem C92_grow {G : GridSetup K d} (hG : StdSetup d G) (n : ℤ) (hn : 0 < n) (num : K) (m : ℤ) (hm : NearestEven num m) (bg : Val) (hbgw : bg.WF)
    (nucAmts : Dict Val K) (hw : Dict.WF nucAmts) (hph : ∀ p ∈ Dict.keys nucAmts, p.WF) (hbg : bg ∉ Dict.keys nucAmts)
    (hpos : ∀ pa ∈ nucAmts, 0 < pa.2) (buffer : Option ℤ)
    (order : ℕ → List ℕ → List ℕ) (hord : ∀ t l, (order t l).Perm l) (draw : ℕ → ℕ) (fuel : ℕ) (sim : Simulation K d)
    (h : G.randomSites (.int n) num bg nucAmts buffer order draw fuel = some (.ok sim))
    (bl : Builder K d) (g : Graph K) (hb : bl.get sim.struct none = .ok g) (ord : ℕ → List ℕ → List ℕ) (hord' : ∀ t l, (ord t l).Perm l)
    (fork : ℕ → Ctl → Ctl) (hfork : ∀ v c, Reorders c (fork v c)) (w : ℕ) (hw0 : 0 < w) (sched : ℕ → StepSched)
    (hv : ∀ k, k < n.toNat → (sched k).Valid w (chunks sim.state.siteIds (chunkSize sim.state.siteIds.length w)).length) :
    ∃ sim', grow G n num bg nucAmts (some bl) buffer order draw fuel ord fork w sched = some (.ok sim') ∧ sim'.struct = sim.struct ∧
      SameSites sim.struct sim'.state ∧ AllOccupied sim'.state ∧
      (∀ i ∈ sim.struct.siteIds, occ? sim'.state (.int i) ≠ some bg ↔ ∃ j ∈ nuclei sim.struct sim.state bg, Hops g.neighborsOf n.toNat i j) ∧
      (∀ j ∈ nuclei sim.struct sim.state bg, occ? sim'.state (.int j) = occ? sim.state (.int j)) ∧
      ∀ i ∈ sim.struct.siteIds, ∃ v, occ? sim'.state (.int i) = some v ∧ (v = bg ∨ v ∈ Dict.keys nucAmts) := by
  obtain ⟨hsq, hst, -, -⟩ := C67_random_sites hG n hn num m hm bg hbgw nucAmts hw hph hbg buffer order hord draw fuel sim h
  obtain ⟨-, -, hphase⟩ := C68_quotas hG n hn num m hm bg hbgw nucAmts hw hph hbg hpos buffer order hord draw fuel sim h
  obtain ⟨c, res, s', hc, h1, h2, h3⟩ := growthRun hsq.isTorus hst hphase hb hord' fork hfork w hw0 n.toNat sched hv
  refine ⟨⟨s', sim.struct⟩, ?_, rfl, h3.same, h3.all, h3.occupied, h3.kept, h3.phase⟩
  unfold grow
  rw [h]
  simp only [hc, ok_bind, h1, h2]
  rfl

/-- On a torus with `n` points along every axis every site can be reached from every other by `n` moves in the Moore neighbourhood. -/
theorem moore_hops {S : Structure K d} {n : ℤ} (ht : IsTorus S fun _ => n) {g : Graph K} (hgn : ∀ i j a b, SiteHas S i a → SiteHas S j b →
    (j ∈ g.neighborsOf i ↔ j ≠ i ∧ ChebyshevLE (fun _ => n) a b 1)) {i j : ℕ} (hi : i ∈ S.siteIds) (hj : j ∈ S.siteIds) : Hops g.neighborsOf n.toNat i j := by
  obtain ⟨x, -, hx⟩ := ht.site i hi
  obtain ⟨y, -, hy⟩ := ht.site j hj
  have key : ∀ (k : ℕ) i x, SiteHas S i x → ChebyshevLE (fun _ => n) x y k → Hops g.neighborsOf k i j := by
    intro k
    induction k with
    | zero =>
      intro i x hx hd
      have e : x = y := by
        funext q
        exact circ_zero (ht.pos q) (ht.inBox_of_has hx q) (ht.inBox_of_has hy q) (by simpa using hd q)
      subst e
      exact ht.site_unique hx hy
    | succ k ih =>
      intro i x hx hd
      choose z hz1 hz2 using fun q => circ_succ (ht.pos q) (x q) (y q) k (by omega) (by exact_mod_cast hd q)
      obtain ⟨i', -, hi'⟩ := ht.ex (fun q => z q % n) fun q => ⟨Int.emod_nonneg _ (ht.pos q).ne', Int.emod_lt_of_pos _ (ht.pos q)⟩
      have h9 : Hops g.neighborsOf k i' j := ih i' _ hi' fun q => by rw [(circ_emod _ _).2]; exact hz2 q
      by_cases e : i' = i
      · subst e; exact .inl h9
      · exact .inr ⟨i', (hgn i i' x _ hx hi').2 ⟨e, fun q => by rw [(circ_emod _ _).1]; exact hz1 q⟩, h9⟩
  exact key n.toNat i x hx fun q => circ_le_half (ht.pos q) _ (by omega)

theorem Grown.fills {S : Structure K d} {n : ℤ} (ht : IsTorus S fun _ => n) {g : Graph K} (hgn : ∀ i j a b, SiteHas S i a → SiteHas S j b →
    (j ∈ g.neighborsOf i ↔ j ≠ i ∧ ChebyshevLE (fun _ => n) a b 1)) {s s' : SimState} {bg : Val} {phases : List Val}
    (h : Grown S s bg phases g.neighborsOf n.toNat s') (hne : 0 < (nuclei S s bg).length) :
    ∀ i ∈ S.siteIds, ∃ v ∈ phases, occ? s' (.int i) = some v := by
  intro i hi
  obtain ⟨v, hv, h8⟩ := h.phase i hi
  obtain ⟨j, hj⟩ : ∃ j, j ∈ nuclei S s bg := List.exists_mem_of_length_pos hne
  have hocc := (h.occupied i hi).2 ⟨j, hj, moore_hops ht hgn hi (List.mem_filter.1 hj).1⟩
  rcases h8 with rfl | h8
  · exact absurd hv hocc
  · exact ⟨v, h8, hv⟩

/-- C92: with the Moore neighbourhood of size 1 (also what `None` stands for) and at least one nucleus, `grow` fills the grid: at the end every site has a
phase of `nuc_amts`. -/
theorem C92_fills {G : GridSetup K d} (hG : StdSetup d G) (n : ℤ) (hn : 0 < n) (num : K) (m : ℤ) (hm : NearestEven num m) (hm1 : 1 ≤ m) (bg : Val)
    (hbgw : bg.WF) (nucAmts : Dict Val K) (hw : Dict.WF nucAmts) (hph : ∀ p ∈ Dict.keys nucAmts, p.WF) (hbg : bg ∉ Dict.keys nucAmts)
    (hpos : ∀ pa ∈ nucAmts, 0 < pa.2) (buffer : Option ℤ)
    (order : ℕ → List ℕ → List ℕ) (hord : ∀ t l, (order t l).Perm l) (draw : ℕ → ℕ) (fuel : ℕ) (sim : Simulation K d)
    (h : G.randomSites (.int n) num bg nucAmts buffer order draw fuel = some (.ok sim))
    (nb : Option (Builder K d)) (hnb : nb = none ∨ nb = some (moore 1)) (ord : ℕ → List ℕ → List ℕ) (hord' : ∀ t l, (ord t l).Perm l)
    (fork : ℕ → Ctl → Ctl) (hfork : ∀ v c, Reorders c (fork v c)) (w : ℕ) (hw0 : 0 < w) (sched : ℕ → StepSched)
    (hv : ∀ k, k < n.toNat → (sched k).Valid w (chunks sim.state.siteIds (chunkSize sim.state.siteIds.length w)).length) :
    ∃ sim', grow G n num bg nucAmts nb buffer order draw fuel ord fork w sched = some (.ok sim') ∧ sim'.struct = sim.struct ∧
      ∀ i ∈ sim.struct.siteIds, ∃ v ∈ Dict.keys nucAmts, occ? sim'.state (.int i) = some v := by
  obtain ⟨hsq, -, hcount, -⟩ := C67_random_sites hG n hn num m hm bg hbgw nucAmts hw hph hbg buffer order hord draw fuel sim h
  obtain ⟨g, hb, hgn⟩ := C53_moore hsq 1
  obtain ⟨sim', h1, h2, h3, h4, h5, h6, h7⟩ := C92_grow hG n hn num m hm bg hbgw nucAmts hw hph hbg hpos buffer order hord draw fuel sim h
    (moore 1) g hb ord hord' fork hfork w hw0 sched hv
  have h1' : grow G n num bg nucAmts nb buffer order draw fuel ord fork w sched = some (.ok sim') := by
    rcases hnb with rfl | rfl
    · rw [← h1]; rfl
    · exact h1
  exact ⟨sim', h1', h2, Grown.fills hsq.isTorus hgn ⟨h3, h4, h5, h6, h7⟩ (by omega)⟩

/-- `grow` on a 7 x 7 grid with two nuclei three cells apart, four workers of which every step uses others: the hypotheses of the theorems above are
met and the grid is filled. -/
example : ∃ draw fuel sched sim, (∃ b, ∀ k, sched k = (List.range b).map fun i => (i, (k * i + k) % 4)) ∧
    grow (K := ℚ) gridSetup2 7 2 (.str "bg") [(.str "A", 1), (.str "B", 3)] (some (moore 1)) (some 2) (fun _ l => l) draw fuel (fun _ l => l.reverse)
      (fun _ c => c) 4 sched = some (.ok sim) ∧ ∀ i ∈ sim.struct.siteIds, occ? sim.state (.int i) ≠ some (.str "bg") := by
  have hm : NearestEven (2 : ℚ) 2 := by left; norm_num
  have hw : Dict.WF [(Val.str "A", (1 : ℚ)), (.str "B", 3)] := by simp [Dict.WF, Dict.keys]
  have hph : ∀ p ∈ Dict.keys [(Val.str "A", (1 : ℚ)), (.str "B", 3)], p.WF := by
    intro p hp
    simp [Dict.keys] at hp
    rcases hp with rfl | rfl <;> exact .str _
  have hbg : Val.str "bg" ∉ Dict.keys [(Val.str "A", (1 : ℚ)), (.str "B", 3)] := by simp [Dict.keys]
  obtain ⟨draw, fuel, sim, h, -⟩ := C67_reachable (K := ℚ) .two 7 (by norm_num) 2 2 hm (.str "bg") (.str _) _ hw hph hbg (by norm_num) (some 2)
    (fun _ l => l) (fun _ _ => .refl _) [![0, 0], ![3, 6]] (by decide) rfl
    (by intro c hc j; simp at hc; rcases hc with rfl | rfl <;> fin_cases j <;> simp)
    (by
      intro r hr a ha b hb hab
      cases hr
      simp at ha hb
      rcases ha with rfl | rfl <;> rcases hb with rfl | rfl
      · exact absurd rfl hab
      · exact fun h => absurd (h 0) (by decide)
      · exact fun h => absurd (h 0) (by decide)
      · exact absurd rfl hab)
  let B := (chunks sim.state.siteIds (chunkSize sim.state.siteIds.length 4)).length
  let sched : ℕ → StepSched := fun k => (List.range B).map fun i => (i, (k * i + k) % 4)
  obtain ⟨sim', h1, h2, h3⟩ := C92_fills .two 7 (by norm_num) 2 2 hm (by norm_num) (.str "bg") (.str _) _ hw hph hbg (by simp) (some 2)
    (fun _ l => l) (fun _ _ => .refl _) draw fuel sim h (some (moore 1)) (.inr rfl) (fun _ l => l.reverse) (fun _ l => l.reverse_perm)
    (fun _ c => c) (fun _ _ => ⟨rfl, fun _ _ l hl => ⟨l, hl, .refl _⟩⟩) 4 (by norm_num) sched (by
      intro k _
      refine ⟨?_, ?_⟩
      · simp only [sched, List.map_map, Function.comp_def, List.map_id']
        exact .refl _
      · intro p hp
        obtain ⟨i, -, rfl⟩ := List.mem_map.1 hp
        exact Nat.mod_lt _ (by norm_num))
  refine ⟨draw, fuel, sched, sim', ⟨B, fun k => rfl⟩, h1, fun i hi => ?_⟩
  obtain ⟨v, hv, h4⟩ := h3 i (by rw [← h2]; exact hi)
  rw [h4]
  rintro e
  injection e with e
  exact hbg (e ▸ hv)

end Pyl
