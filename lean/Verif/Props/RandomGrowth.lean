import Verif.Props.RandomRun
import Verif.Props.GrowthSetup
import Mathlib.Analysis.SpecificLimits.Basic
/-
C125: growth with the asynchronous runner fills the structure with probability 1 in the limit.
-/
set_option autoImplicit false
set_option linter.unusedSectionVars false

namespace Pyl
open SimState Spec Growth
open Pyl.Lattice Pyl.Structure
variable {K : Type} [Field K] [LinearOrder K] [FloorRing K] [IsStrictOrderedRing K] {d : ℕ}

theorem tally_card (s : SimState) (m : ℕ) (p : Val) : tally s (List.range m) p = ((Finset.range m).filter fun i : ℕ => occ? s (.int i) = some p).card := by
  unfold tally
  rw [List.countP_eq_length_filter]
  rfl

/-- Where there is background and a way to an occupied site, some background site has an occupied neighbour. -/
theorem frontier {nb : ℕ → List ℕ} {m : ℕ} (hnb : ∀ i, i < m → ∀ j ∈ nb i, j < m) {s : SimState} {bg : Val} :
    ∀ (k i j : ℕ), i < m → occ? s (.int i) = some bg → occ? s (.int j) ≠ some bg → Hops nb k i j →
      ∃ i', i' < m ∧ occ? s (.int i') = some bg ∧ ∃ x ∈ nb i', occ? s (.int x) ≠ some bg := by
  intro k
  induction k with
  | zero => rintro i j - h1 h2 rfl; exact absurd h1 h2
  | succ k ih =>
    rintro i j hi h1 h2 (h3 | ⟨x, hx, h3⟩)
    · exact ih i j hi h1 h2 h3
    · by_cases hxb : occ? s (.int x) = some bg
      · exact ih x j (hnb i hi x hx) hxb h2 h3
      · exact ⟨i, hi, h1, x, hx, hxb⟩

/-- A visit during asynchronous growth. -/
theorem growth_oneSite {c : Ctl} {i : Key} {x y : SimState} (hx : AllOccupied x) (hst : OneSite (Growth.Answer c) i x y) :
    ∃ t l v v', c.nbs t i = .ok l ∧ occ? x i = some v ∧ occ? y i = some v' ∧ GrowthStep c.background x l v v' := by
  obtain ⟨p, q, new, hp, hq, hnew, hmg⟩ := hst.2.2.2
  obtain ⟨v, hv⟩ := hx i (Dict.mem_keys_of_get? hp)
  obtain ⟨t, l, v', e1, e2, e3, -⟩ := growth_merged hv hp hq hnew hmg
  exact ⟨t, l, v, v', e1, hv, e2, e3⟩

/-- C125: growth with the asynchronous runner and sites drawn at random.  Every site has some sure neighbours `nb i` (the answers of `neighbors_of` may vary
and contain more), and from every site moves to sure neighbours lead to a site that is occupied at the start.  With `b` background sites at the start, the
probability that after `n` steps the run has succeeded and every site is occupied is at least 1 - 2^b (1 - 1/(2m))^n. -/
theorem C125_fills (c : Ctl) (s0 : SimState) (hs : s0.WF) (hg : s0.getGeneralState ≠ none) (m : ℕ) (hm : 0 < m) (hids : Numbered m s0)
    (hocc : AllOccupied s0) (nb : ℕ → List ℕ)
    (hnb : ∀ t, ∀ i, i < m → ∃ l, c.nbs t (.int i) = .ok l ∧ (∀ j ∈ l, j < m) ∧ ∀ j ∈ nb i, j ∈ l)
    (hreach : ∀ i, i < m → ∃ k j, Hops nb k i j ∧ occ? s0 (.int j) ≠ some c.background) (n : ℕ) :
    1 - 2 ^ tally s0 (List.range m) c.background * (1 - 1 / (2 * (m : ℝ))) ^ n ≤
      chance m (n + 1) fun f => ∃ a s, runAsync (controller.inherit (outcome f)) (c, 0) s0 n = .ok a ∧ a.res.output = some s ∧ s.siteIds = s0.siteIds ∧
        ∀ i ∈ s0.siteIds, ∃ v, occ? s i = some v ∧ v ≠ c.background := by
  have hmem : ∀ k : Key, k ∈ s0.siteIds ↔ ∃ i, i < m ∧ k = .int (i : ℕ) := by
    intro k
    unfold Numbered at hids
    rw [hids.mem_iff, List.mem_map]
    simp only [List.mem_range, eq_comm]
  have hnb' : ∀ t, ∀ i ∈ s0.siteIds, ∃ l, c.nbs t i = .ok l ∧ ∀ j ∈ l, Key.int j ∈ s0.siteIds := by
    intro t k hk
    obtain ⟨i, hi, rfl⟩ := (hmem k).1 hk
    obtain ⟨l, h1, h2, -⟩ := hnb t i hi
    exact ⟨l, h1, fun j hj => (hmem _).2 ⟨j, h2 j hj, rfl⟩⟩
  have hA0 := growth_answersBy hnb'
  let Inv : Ctl → SimState → Prop := fun st s => Growth.Inv c s0 st s ∧ ∀ j, occ? s j = some c.background → occ? s0 j = some c.background
  have hA : AnswersBy controller Inv (Growth.Answer c) := by
    rintro st s hsw ⟨h1, h2⟩ i hi
    obtain ⟨st', r, q, h3, h4, h5, h6, h7⟩ := hA0 st s hsw h1 i hi
    exact ⟨st', r, q, h3, h4, h5, h6, h7, h2⟩
  -- background sites after a visit were background before
  have hback : ∀ (i : Key) (x y : SimState), AllOccupied x → OneSite (Growth.Answer c) i x y → ∀ j, occ? y j = some c.background → occ? x j = some c.background := by
    intro i x y hx hst j hj
    by_cases e : j = i
    · subst e
      obtain ⟨t, l, v, v', -, h1, h2, h3⟩ := growth_oneSite hx hst
      rw [hj] at h2; injection h2 with h2; subst h2
      by_cases hb : v = c.background
      · rw [h1, hb]
      · exact absurd (h3.1 hb).symm hb
    · unfold occ? at hj ⊢
      rwa [hst.2.2.1 j e] at hj
  have hI' : ∀ st i s s', s.WF → Inv st s → OneSite (Growth.Answer c) i s s' → Inv st s' := by
    rintro st i s s' - ⟨⟨h1, h2, h3, h4⟩, h5⟩ hst
    refine ⟨⟨h1, h2, by rw [hst.1, h3], fun j hj => ?_⟩, fun j hj => h5 j (hback i s s' h4 hst j hj)⟩
    rw [hst.1] at hj
    by_cases e : j = i
    · subst e
      obtain ⟨t, l, v, v', -, -, h, -⟩ := growth_oneSite h4 hst
      exact ⟨v', h⟩
    · unfold occ?
      rw [hst.2.2.1 j e]
      exact h4 j hj
  obtain ⟨visit, hc, hone⟩ := closed_of_answersBy hA hI' hm
  have hstart : Inv c s0 := ⟨⟨rfl, rfl, rfl, hocc⟩, fun _ h => h⟩
  let μ : Ctl × SimState → ℕ := fun x => tally x.2 (List.range m) c.background
  have hsub : ∀ x : Ctl × SimState, x.2.WF ∧ x.2.getGeneralState ≠ none ∧ Numbered m x.2 ∧ Inv x.1 x.2 → ∀ i, i < m →
      ((Finset.range m).filter fun j : ℕ => occ? (visit i x).2 (.int j) = some c.background) ⊆
        (Finset.range m).filter fun j : ℕ => occ? x.2 (.int j) = some c.background := by
    rintro x ⟨h1, h2, h3, h4⟩ i hi j hj
    rw [Finset.mem_filter] at hj ⊢
    exact ⟨hj.1, hback _ _ _ h4.1.2.2.2 (hone x h1 h2 h3 h4 i hi) _ hj.2⟩
  have hset := chance_settle (step := visit) (μ := μ)
    (Inv := fun x => x.2.WF ∧ x.2.getGeneralState ≠ none ∧ Numbered m x.2 ∧ Inv x.1 x.2) hm (fun x hx i hi => ⟨((hc x hx).2 i hi).2, by
      show tally _ _ _ ≤ tally _ _ _
      rw [tally_card, tally_card]
      exact Finset.card_le_card (hsub x hx i hi)⟩) (by
      rintro x ⟨h1, h2, h3, h4⟩ hpos
      obtain ⟨i, hi⟩ : ((Finset.range m).filter fun j : ℕ => occ? x.2 (.int j) = some c.background).Nonempty := by
        rw [← Finset.card_pos, ← tally_card]; exact hpos
      rw [Finset.mem_filter, Finset.mem_range] at hi
      obtain ⟨k, j, h5, h6⟩ := hreach i hi.1
      obtain ⟨i', hi', h7, y, hy, h8⟩ := frontier (nb := nb) (m := m) (fun i hi j hj => by
        obtain ⟨l, -, h, h'⟩ := hnb 0 i hi
        exact h j (h' j hj)) k i j hi.1 hi.2 (fun h => h6 (h4.2 _ h)) h5
      refine ⟨i', hi', ?_⟩
      show tally _ _ _ < tally _ _ _
      rw [tally_card, tally_card]
      refine Finset.card_lt_card ((Finset.ssubset_iff_of_subset (hsub x ⟨h1, h2, h3, h4⟩ i' hi')).2 ⟨i', Finset.mem_filter.2 ⟨Finset.mem_range.2 hi', h7⟩, ?_⟩)
      intro hin
      have hin := (Finset.mem_filter.1 hin).2
      obtain ⟨t, l, v, v', e1, e2, e3, e4⟩ := growth_oneSite h4.1.2.2.2 (hone x h1 h2 h3 h4 i' hi')
      obtain ⟨l', f1, -, f2⟩ := hnb t i' hi'
      rw [e1] at f1; injection f1 with f1; subst f1
      rw [h7] at e2; injection e2 with e2
      rw [hin] at e3; injection e3 with e3
      exact (e4.2.2 e2.symm ⟨y, f2 y hy, h8⟩).1 e3.symm) n (c, s0) ⟨hs, hg, hids, hstart⟩
  have hcompl : chance m (n + 1) (fun f => ¬ ∃ a s, runAsync (controller.inherit (outcome f)) (c, 0) s0 n = .ok a ∧ a.res.output = some s ∧
      s.siteIds = s0.siteIds ∧ ∀ i ∈ s0.siteIds, ∃ v, occ? s i = some v ∧ v ≠ c.background) ≤
      chance m n (fun f => 0 < μ (walk visit (outcome f) (c, s0) n)) := by
    rw [← chance_init hm fun f => 0 < μ (walk visit (outcome f) (c, s0) n)]
    refine chance_mono fun f hf => ?_
    by_contra hzero
    apply hf
    obtain ⟨a, h1, -, -, -, -, h2, -⟩ := runAsync_visit hc (outcome f) hm n (st0 := c) (s0 := s0) (st1 := c) (s1 := s0) rfl ⟨hs, hg, hids, hstart⟩
    rw [outcome_mod hm] at h2
    have e : walk visit (outcome (Fin.init f)) (c, s0) n = walk visit (outcome f) (c, s0) n := walk_congr visit _ fun t ht => outcome_init f ht
    rw [e] at hzero
    have hinv : ∀ k, (fun x : Ctl × SimState => x.2.WF ∧ x.2.getGeneralState ≠ none ∧ Numbered m x.2 ∧ Inv x.1 x.2) (walk visit (outcome f) (c, s0) k) := by
      intro k
      induction k with
      | zero => exact ⟨hs, hg, hids, hstart⟩
      | succ k ih => exact ((hc _ ih).2 _ (outcome_lt hm f k)).2
    obtain ⟨-, -, -, ⟨-, -, h3, h4⟩, -⟩ := hinv n
    refine ⟨a, _, h1, h2, h3, fun i hi => ?_⟩
    obtain ⟨v, hv⟩ := h4 i (by rw [h3]; exact hi)
    refine ⟨v, hv, ?_⟩
    rintro rfl
    obtain ⟨i', hi', rfl⟩ := (hmem i).1 hi
    apply hzero
    show 0 < tally _ _ _
    rw [tally_card]
    exact Finset.card_pos.2 ⟨i', Finset.mem_filter.2 ⟨Finset.mem_range.2 hi', hv⟩⟩
  rw [chance_not hm] at hcompl
  have : μ (c, s0) = tally s0 (List.range m) c.background := rfl
  rw [this] at hset
  linarith

/-- C125: so the probability tends to 1 with the number of steps. -/
theorem C125_limit (c : Ctl) (s0 : SimState) (hs : s0.WF) (hg : s0.getGeneralState ≠ none) (m : ℕ) (hm : 0 < m) (hids : Numbered m s0)
    (hocc : AllOccupied s0) (nb : ℕ → List ℕ)
    (hnb : ∀ t, ∀ i, i < m → ∃ l, c.nbs t (.int i) = .ok l ∧ (∀ j ∈ l, j < m) ∧ ∀ j ∈ nb i, j ∈ l)
    (hreach : ∀ i, i < m → ∃ k j, Hops nb k i j ∧ occ? s0 (.int j) ≠ some c.background) :
    Filter.Tendsto (fun n => chance m (n + 1) fun f => ∃ a s, runAsync (controller.inherit (outcome f)) (c, 0) s0 n = .ok a ∧ a.res.output = some s ∧
      s.siteIds = s0.siteIds ∧ ∀ i ∈ s0.siteIds, ∃ v, occ? s i = some v ∧ v ≠ c.background) Filter.atTop (nhds 1) := by
  have hmR : (1 : ℝ) ≤ m := by exact_mod_cast hm
  have hρ : (0 : ℝ) ≤ 1 - 1 / (2 * m) := by
    have : (1 : ℝ) / (2 * m) ≤ 1 := by rw [div_le_one (by linarith)]; linarith
    linarith
  have hρ1 : (1 : ℝ) - 1 / (2 * m) < 1 := by
    have : (0 : ℝ) < 1 / (2 * m) := by positivity
    linarith
  have hlim : Filter.Tendsto (fun n : ℕ => 1 - 2 ^ tally s0 (List.range m) c.background * (1 - 1 / (2 * (m : ℝ))) ^ n) Filter.atTop (nhds 1) := by
    have := ((tendsto_pow_atTop_nhds_zero_of_lt_one hρ hρ1).const_mul ((2 : ℝ) ^ tally s0 (List.range m) c.background)).const_sub 1
    simpa using this
  refine tendsto_of_tendsto_of_tendsto_of_le_of_le hlim tendsto_const_nhds (fun n => C125_fills c s0 hs hg m hm hids hocc nb hnb hreach n) fun n => ?_
  show chance m (n + 1) _ ≤ 1
  rw [← chance_true (m := m) (k := n + 1) hm]
  exact chance_mono fun _ _ => trivial

/-- On any square grid every site can be reached from every other by moves in the Moore neighbourhood. -/
theorem moore_hops_any {S : Structure K d} {N : Fin d → ℤ} (ht : IsTorus S N) {g : Graph K} (hgn : ∀ i j a b, SiteHas S i a → SiteHas S j b →
    (j ∈ g.neighborsOf i ↔ j ≠ i ∧ ChebyshevLE N a b 1)) {i j : ℕ} (hi : i ∈ S.siteIds) (hj : j ∈ S.siteIds) : ∃ k, Hops g.neighborsOf k i j := by
  obtain ⟨x, -, hx⟩ := ht.site i hi
  obtain ⟨y, -, hy⟩ := ht.site j hj
  have key : ∀ (k : ℕ) i x, SiteHas S i x → ChebyshevLE N x y k → Hops g.neighborsOf k i j := by
    intro k
    induction k with
    | zero =>
      intro i x hx hd
      have e : x = y := by
        funext q
        exact circ_zero (ht.pos q) (ht.inBox_of_has hx q) (ht.inBox_of_has hy q) (by simpa using hd q)
      subst e
      exact ht.site_unique hx hy
    | succ k ih =>
      intro i x hx hd
      choose z hz1 hz2 using fun q => circ_succ (ht.pos q) (x q) (y q) k (by omega) (by exact_mod_cast hd q)
      obtain ⟨i', -, hi'⟩ := ht.ex (fun q => z q % N q) fun q => ⟨Int.emod_nonneg _ (ht.pos q).ne', Int.emod_lt_of_pos _ (ht.pos q)⟩
      have h9 : Hops g.neighborsOf k i' j := ih i' _ hi' fun q => by rw [(circ_emod _ _).2]; exact hz2 q
      by_cases e : i' = i
      · subst e; exact .inl h9
      · exact .inr ⟨i', (hgn i i' x _ hx hi').2 ⟨e, fun q => by rw [(circ_emod _ _).1]; exact hz1 q⟩, h9⟩
  refine ⟨∑ q, (N q).toNat, key _ i x hx fun q => circ_le_half (ht.pos q) _ ?_⟩
  have h1 : (N q).toNat ≤ ∑ q, (N q).toNat := Finset.single_le_sum (f := fun q => (N q).toNat) (fun _ _ => Nat.zero_le _) (Finset.mem_univ q)
  have h2 := ht.pos q
  omega

/-- C125 for the grids the setups make, of any width and height, and the default neighbourhood: if at least one site is occupied at the start, asynchronous
growth fills the grid with probability tending to 1. -/
theorem C125_grid {S : Structure K d} {N : Fin d → ℤ} (hS : SquareGrid d N S) (bg : Val) (order : ℕ → List ℕ → List ℕ) (hord : ∀ t l, (order t l).Perm l)
    (s0 : SimState) (hs : s0.WF) (hg : s0.getGeneralState ≠ none) (hsites : SameSites S s0) (hocc : AllOccupied s0)
    (hne : nuclei S s0 bg ≠ []) :
    ∃ c, Growth.init order S bg = .ok c ∧
      (∀ n, 1 - 2 ^ phaseCount S s0 bg * (1 - 1 / (2 * (S.siteIds.length : ℝ))) ^ n ≤ chance S.siteIds.length (n + 1) fun f =>
        ∃ a s, runAsync (controller.inherit (outcome f)) (c, 0) s0 n = .ok a ∧ a.res.output = some s ∧
          ∀ i ∈ S.siteIds, ∃ v, occ? s (.int i) = some v ∧ v ≠ bg) ∧
      Filter.Tendsto (fun n => chance S.siteIds.length (n + 1) fun f => ∃ a s, runAsync (controller.inherit (outcome f)) (c, 0) s0 n = .ok a ∧
        a.res.output = some s ∧ ∀ i ∈ S.siteIds, ∃ v, occ? s (.int i) = some v ∧ v ≠ bg) Filter.atTop (nhds 1) := by
  have ht := hS.isTorus
  have hids : Numbered S.siteIds.length s0 := idsTo_of_sameSites ht.reachable hs hsites
  obtain ⟨g, hget, hgn⟩ := C53_moore hS 1
  have hpos : 0 < S.siteIds.length := List.length_pos_of_ne_nil ht.ids_ne
  have hSm : S.siteIds = List.range S.siteIds.length := by
    have h := siteIds_eq ht.reachable
    rw [h, List.length_range]
  have hSmem : ∀ i, i ∈ S.siteIds ↔ i < S.siteIds.length := fun i => by rw [siteIds_eq ht.reachable]; simp
  obtain ⟨c, hc⟩ : ∃ c, Growth.init order S bg = .ok c := by
    unfold Growth.init
    rw [Option.getD_none, hget]
    exact ⟨_, rfl⟩
  obtain ⟨h1, h2⟩ := init_nbs (order := order) (bg := bg) hget hc
  have hnb : ∀ t, ∀ i, i < S.siteIds.length → ∃ l, c.nbs t (.int i) = .ok l ∧ (∀ j ∈ l, j < S.siteIds.length) ∧ ∀ j ∈ g.neighborsOf i, j ∈ l := by
    intro t i hi
    refine ⟨_, h2 t i, fun j hj => ?_, fun j hj => (hord t _).mem_iff.2 hj⟩
    exact (hSmem j).1 ((C55_known_and_other ht.reachable _ none g hget i).1 j ((hord t _).mem_iff.1 hj)).1
  obtain ⟨j, hj⟩ := List.exists_mem_of_ne_nil _ hne
  obtain ⟨hj1, hj2⟩ := List.mem_filter.1 hj
  have hreach : ∀ i, i < S.siteIds.length → ∃ k j, Hops g.neighborsOf k i j ∧ occ? s0 (.int j) ≠ some c.background := fun i hi => by
    obtain ⟨k, hk⟩ := moore_hops_any ht hgn ((hSmem i).2 hi) hj1
    exact ⟨k, j, hk, by rw [h1]; simpa using hj2⟩
  have hmem : ∀ i ∈ S.siteIds, Key.int (i : ℕ) ∈ s0.siteIds := fun i hi => (hsites _).2 ⟨i, hi, rfl⟩
  have hcnt : tally s0 (List.range S.siteIds.length) c.background = phaseCount S s0 bg := by
    unfold tally phaseCount
    rw [List.countP_eq_length_filter, h1, ← hSm]
  have hmono : ∀ n, (chance S.siteIds.length (n + 1) fun f => ∃ a s, runAsync (controller.inherit (outcome f)) (c, 0) s0 n = .ok a ∧ a.res.output = some s ∧
      s.siteIds = s0.siteIds ∧ ∀ i ∈ s0.siteIds, ∃ v, occ? s i = some v ∧ v ≠ c.background) ≤
      chance S.siteIds.length (n + 1) fun f => ∃ a s, runAsync (controller.inherit (outcome f)) (c, 0) s0 n = .ok a ∧ a.res.output = some s ∧
        ∀ i ∈ S.siteIds, ∃ v, occ? s (.int i) = some v ∧ v ≠ bg := fun n => chance_mono fun f => by
    rintro ⟨a, s, h3, h4, -, h5⟩
    rw [h1] at h5
    exact ⟨a, s, h3, h4, fun i hi => h5 _ (hmem i hi)⟩
  refine ⟨c, hc, fun n => ?_, ?_⟩
  · have := C125_fills c s0 hs hg _ hpos hids hocc g.neighborsOf hnb hreach n
    rw [hcnt] at this
    exact this.trans (hmono n)
  · refine tendsto_of_tendsto_of_tendsto_of_le_of_le (C125_limit c s0 hs hg _ hpos hids hocc g.neighborsOf hnb hreach) tendsto_const_nhds hmono fun n => ?_
    show chance S.siteIds.length (n + 1) _ ≤ 1
    rw [← chance_true (m := S.siteIds.length) (k := n + 1) hpos]
    exact chance_mono fun _ _ => trivial

/-- A grid of width 5 and height 4 with three occupied cells in a row: both the asynchronous Game of Life and asynchronous growth (with the dead cells as background). -/
example : ∃ (S : Structure ℚ 2) (s0 : SimState) (cell : ℕ → Fin 2 → ℤ), SquareGrid 2 ![5, 4] S ∧ s0.WF ∧ s0.getGeneralState ≠ none ∧ SameSites S s0 ∧
    ShowsLife S s0 blinker ∧ (∀ i ∈ S.siteIds, SiteHas S i (cell i)) ∧ AllOccupied s0 ∧ nuclei S s0 (.str "dead") ≠ [] := by
  obtain ⟨-, S, hS, -⟩ := C52_square2 (K := ℚ) 1 (by norm_num) 4 5 (by norm_num) (by norm_num)
  have hg : SquareGrid 2 ![5, 4] S := .two _ S 5 4 (by norm_num) (by norm_num) (.inl rfl) hS
  obtain ⟨s0, h1, h2, h3, h4⟩ := life_state_exists hg.isTorus blinker
  choose! cell hcell using fun j (hj : j ∈ S.siteIds) => hg.isTorus.site j hj
  have hocc : ∀ i c, SiteHas S i c → (c ∈ blinker → occ? s0 (.int i) = some (.str "alive")) ∧ (c ∉ blinker → occ? s0 (.int i) = some (.str "dead")) := by
    intro i c hi
    obtain ⟨p, e1, e2, e3⟩ := h4 i c hi
    unfold occ?
    rw [e1]
    exact ⟨e2, e3⟩
  refine ⟨S, s0, cell, hg, h1, h2, h3, h4, fun i hi => (hcell i hi).2, ?_, ?_⟩
  · intro k hk
    obtain ⟨i, hi, rfl⟩ := (h3 k).1 hk
    by_cases h : cell i ∈ blinker
    · exact ⟨_, (hocc i _ (hcell i hi).2).1 h⟩
    · exact ⟨_, (hocc i _ (hcell i hi).2).2 h⟩
  · obtain ⟨i, hi, hc⟩ := hg.isTorus.ex ![1, 1] (by intro j; fin_cases j <;> simp)
    have := (hocc i _ hc).1 (by show ![1, 1] ∈ blinker; decide)
    intro hnil
    have hin : i ∈ nuclei S s0 (.str "dead") := List.mem_filter.2 ⟨hi, by rw [this]; decide⟩
    rw [hnil] at hin
    cases hin

/-- Three sites in a ring, one of them occupied: the hypotheses of `C124_chain` and `C125_fills` hold, and after one step site 1 is occupied with
probability 1/3. -/
example : ∃ (c : Ctl) (s0 : SimState), s0.WF ∧ s0.getGeneralState ≠ none ∧ Numbered 3 s0 ∧ AllOccupied s0 ∧
    (∀ t, ∀ i : ℕ, i < 3 → ∃ l, c.nbs t (.int i) = .ok l ∧ (∀ j ∈ l, j < 3) ∧ ∀ j ∈ [(i + 1) % 3], j ∈ l) ∧
    (∀ i, i < 3 → ∃ k j, Hops (fun i => [(i + 1) % 3]) k i j ∧ occ? s0 (.int j) ≠ some c.background) ∧
    (∃ visit Inv, Closed controller 3 visit Inv ∧ Inv (c, s0)) ∧
    chance 3 2 (fun f => ∃ a, runAsync (controller.inherit (outcome f)) (c, 0) s0 1 = .ok a ∧ ∀ k : ℕ, k ≤ 1 → ∃ s, a.res.getStep k = .ok s ∧
      s ∈ (fun k => {s | k = 1 → occ? s (.int 1) = some (.str "A")} : ℕ → Set SimState) k) = 1 / 3 := by
  let c : Ctl := ⟨.str "bg", fun _ i => .ok (if i = .int 0 then [1, 2] else if i = .int 1 then [0, 2] else [0, 1]), 0⟩
  let s0 : SimState := ⟨[(.int 0, [(DISCRETE_OCCUPANCY, .str "A")]), (.int 1, [(DISCRETE_OCCUPANCY, .str "bg")]), (.int 2, [(DISCRETE_OCCUPANCY, .str "bg")])], some []⟩
  have hs : s0.WF := by
    refine ⟨by unfold Dict.WF; decide, ?_, fun g hg => by injection hg with hg; subst hg; exact .dict Dict.WF.nil (by simp)⟩
    intro kv hkv
    simp only [s0, List.mem_cons, List.not_mem_nil, or_false] at hkv
    rcases hkv with rfl | rfl | rfl <;> exact wf_occ _
  have hg : s0.getGeneralState ≠ none := by decide
  have hids : Numbered 3 s0 := by unfold Numbered; decide
  have hocc : AllOccupied s0 := by
    intro i hi
    have hi : i ∈ [Key.int 0, .int 1, .int 2] := hi
    simp only [List.mem_cons, List.not_mem_nil, or_false] at hi
    rcases hi with rfl | rfl | rfl <;> exact ⟨_, rfl⟩
  have hnb : ∀ t, ∀ i : ℕ, i < 3 → ∃ l, c.nbs t (.int i) = .ok l ∧ (∀ j ∈ l, j < 3) ∧ ∀ j ∈ [(i + 1) % 3], j ∈ l := by
    intro t i hi
    refine ⟨_, rfl, ?_⟩
    (obtain rfl | rfl | rfl : i = 0 ∨ i = 1 ∨ i = 2 := by omega) <;> decide
  have hreach : ∀ i, i < 3 → ∃ k j, Hops (fun i => [(i + 1) % 3]) k i j ∧ occ? s0 (.int j) ≠ some c.background := by
    intro i hi
    refine ⟨2, 0, ?_, by decide⟩
    (obtain rfl | rfl | rfl : i = 0 ∨ i = 1 ∨ i = 2 := by omega) <;> simp [Hops]
  have hnb' : ∀ t, ∀ i ∈ s0.siteIds, ∃ l, c.nbs t i = .ok l ∧ ∀ j ∈ l, Key.int j ∈ s0.siteIds := by
    intro t i hi
    refine ⟨_, rfl, ?_⟩
    have hi : i ∈ [Key.int 0, .int 1, .int 2] := hi
    simp only [List.mem_cons, List.not_mem_nil, or_false] at hi
    rcases hi with rfl | rfl | rfl <;> decide
  have hI' : ∀ st i s s', s.WF → Growth.Inv c s0 st s → OneSite (Growth.Answer c) i s s' → Growth.Inv c s0 st s' := by
    rintro st i s s' - ⟨h1, h2, h3, h4⟩ hst
    refine ⟨h1, h2, by rw [hst.1, h3], fun j hj => ?_⟩
    rw [hst.1] at hj
    by_cases e : j = i
    · subst e
      obtain ⟨t, l, v, v', -, -, h, -⟩ := growth_oneSite h4 hst
      exact ⟨v', h⟩
    · unfold occ?
      rw [hst.2.2.1 j e]
      exact h4 j hj
  obtain ⟨visit, hc, hone⟩ := closed_of_answersBy (growth_answersBy hnb') hI' (m := 3) (by norm_num)
  have hstart : s0.WF ∧ s0.getGeneralState ≠ none ∧ Numbered 3 s0 ∧ Growth.Inv c s0 c s0 := ⟨hs, hg, hids, rfl, rfl, rfl, hocc⟩
  refine ⟨c, s0, hs, hg, hids, hocc, hnb, hreach, ⟨visit, _, hc, hstart⟩, ?_⟩
  refine (C124_chain controller 3 (by norm_num) visit _ hc c c s0 rfl hstart 1 fun k => {s | k = 1 → occ? s (.int 1) = some (.str "A")}).trans ?_
  have h1 : occ? (visit 1 (c, s0)).2 (.int 1) = some (.str "A") := by
    obtain ⟨t, l, v, v', e1, e2, e3, e4⟩ := growth_oneSite (x := s0) hocc (hone (c, s0) hs hg hids hstart.2.2.2 1 (by norm_num))
    injection e1 with e1; subst e1
    injection e2 with e2; subst e2
    obtain ⟨h5, ⟨j, hj, h6⟩, -⟩ := e4.2.2 rfl ⟨0, by decide, by decide⟩
    refine Eq.trans e3 ?_
    have hj : j ∈ [0, 2] := hj
    simp only [List.mem_cons, List.not_mem_nil, or_false] at hj
    rcases hj with rfl | rfl
    · exact h6.symm
    · injection h6 with h6; exact absurd h6.symm h5
  have h2 : ∀ i, i < 3 → i ≠ 1 → occ? (visit i (c, s0)).2 (.int 1) = some (.str "bg") := by
    intro i hi hne
    have := (hone (c, s0) hs hg hids hstart.2.2.2 i hi).2.2.1 (.int 1) (by intro h; injection h with h; omega)
    unfold occ?
    rw [this]
    rfl
  simp only [walkChance, Set.mem_ofPred_eq]
  rw [if_pos (by simp), Fin.sum_univ_three]
  simp [h1, h2 0, h2 2]

end Pyl
