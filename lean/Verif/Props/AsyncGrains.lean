import Verif.Spec.AsyncGrains
import Verif.Props.RandomGrowth
/-
C152: growth with the asynchronous runner: grains are connected to their nuclei, and which clusters can arise.
-/
set_option autoImplicit false
set_option linter.unusedSectionVars false

namespace Pyl
open SimState Spec Growth
open Pyl.Lattice Pyl.Structure
variable {K : Type} [Field K] [LinearOrder K] [FloorRing K] [IsStrictOrderedRing K] {d : ℕ}

theorem hopsBy_weaken {R R' : ℕ → ℕ → Prop} (h : ∀ x y, R x y → R' x y) : ∀ {k i j : ℕ}, HopsBy R k i j → HopsBy R' k i j := by
  intro k
  induction k with
  | zero => exact id
  | succ k ih =>
    rintro i j (h1 | ⟨x, hx, h1⟩)
    · exact .inl (ih h1)
    · exact .inr ⟨x, h i x hx, ih h1⟩

/-- C152: growth with the asynchronous runner, with any neighbourhood (also a random one) and any draws: at every step `k` an occupied site is connected, by at
most `k` moves to possible neighbours that all have its phase, to a site that had this phase at the start. -/
theorem C152_connected (c : Ctl) (s0 : SimState) (hs : s0.WF) (hg : s0.getGeneralState ≠ none) (m : ℕ) (hm : 0 < m) (hids : Numbered m s0)
    (hocc : AllOccupied s0) (hnb : ∀ t, ∀ i ∈ s0.siteIds, ∃ l, c.nbs t i = .ok l ∧ ∀ j ∈ l, Key.int j ∈ s0.siteIds) (n : ℕ) (draw : ℕ → ℕ) :
    ∃ a, runAsync (controller.inherit draw) (c, 0) s0 n = .ok a ∧ ∀ k : ℕ, k ≤ n → ∃ s, a.res.getStep k = .ok s ∧
      ∀ i : ℕ, i < m → ∀ v, occ? s (.int i) = some v → v ≠ c.background →
        ∃ h j, h ≤ k ∧ j < m ∧ occ? s0 (.int j) = some v ∧
          HopsBy (fun x y => (∃ t l, c.nbs t (.int x) = .ok l ∧ y ∈ l) ∧ occ? s (.int y) = some v) h i j := by
  have hmem : ∀ k : Key, k ∈ s0.siteIds ↔ ∃ i, i < m ∧ k = .int (i : ℕ) := by
    intro k
    unfold Numbered at hids
    rw [hids.mem_iff, List.mem_map]
    simp only [List.mem_range, eq_comm]
  obtain ⟨a, h1, h2, h3, h4⟩ := C97_growth c s0 hs hg m hm hids hocc hnb n draw
  refine ⟨a, h1, fun k => ?_⟩
  induction k with
  | zero => exact fun _ => ⟨s0, h3, fun i hi v hv _ => ⟨0, i, le_rfl, hi, hv, rfl⟩⟩
  | succ k ih =>
    intro hk
    obtain ⟨x, hx, ih⟩ := ih (by omega)
    obtain ⟨x', y, hx', hy, -, -, hoff, t, l, v, v', hl, hv, hv', hG, -⟩ := h4 k (by omega)
    rw [hx] at hx'; injection hx' with hx'; subst hx'
    refine ⟨y, by exact_mod_cast hy, fun i hi u hu hne => ?_⟩
    have hkeep : ∀ j w, occ? x j = some w → w ≠ c.background → occ? y j = some w := by
      intro j w hw hwb
      by_cases e : j = .int (draw k % m : ℕ)
      · subst e
        rw [hv] at hw; injection hw with hw; subst hw
        rw [hv', hG.1 hwb]
      · unfold occ? at hw ⊢
        rw [hoff j e]; exact hw
    have hmono : ∀ {h i j : ℕ}, HopsBy (fun x' y' => (∃ t l, c.nbs t (.int x') = .ok l ∧ y' ∈ l) ∧ occ? x (.int y') = some u) h i j →
        HopsBy (fun x' y' => (∃ t l, c.nbs t (.int x') = .ok l ∧ y' ∈ l) ∧ occ? y (.int y') = some u) h i j :=
      hopsBy_weaken fun x' y' h => ⟨h.1, hkeep _ _ h.2 hne⟩
    have hold : occ? x (.int i) = some u → ∃ h j, h ≤ k + 1 ∧ j < m ∧ occ? s0 (.int j) = some u ∧
        HopsBy (fun x' y' => (∃ t l, c.nbs t (.int x') = .ok l ∧ y' ∈ l) ∧ occ? y (.int y') = some u) h i j := by
      intro h
      obtain ⟨h', j, e1, e2, e3, e4⟩ := ih i hi u h hne
      exact ⟨h', j, by omega, e2, e3, hmono e4⟩
    by_cases e : i = draw k % m
    · subst e
      rw [hv'] at hu; injection hu with hu; subst hu
      by_cases hb : v = c.background
      · by_cases hall : ∀ j ∈ l, occ? x (.int j) = some c.background
        · exact absurd (hG.2.1 hb hall) hne
        · push Not at hall
          obtain ⟨-, ⟨j, hj, hjv⟩, -⟩ := hG.2.2 hb hall
          obtain ⟨l', hl', hlj⟩ := hnb t _ ((hmem _).2 ⟨_, Nat.mod_lt _ hm, rfl⟩)
          rw [hl] at hl'; injection hl' with hl'; subst hl'
          obtain ⟨j', hj', e'⟩ := (hmem _).1 (hlj j hj)
          injection e' with e'
          have e' : j = j' := by exact_mod_cast e'
          subst e'
          obtain ⟨h', j2, e1, e2, e3, e4⟩ := ih j hj' v' hjv hne
          exact ⟨h' + 1, j2, by omega, e2, e3, .inr ⟨j, ⟨⟨t, l, hl, hj⟩, hkeep _ _ hjv hne⟩, hmono e4⟩⟩
      · rw [hG.1 hb]
        refine hG.1 hb ▸ hold ?_
        rw [hv, hG.1 hb]
    · refine hold ?_
      unfold occ? at hu ⊢
      rw [← hoff (.int i) fun e' => e (by injection e' with e'; exact_mod_cast e')]
      exact hu

/-! ### one phase: sets of occupied sites -/

open Classical in
/-- A visit of the site `x`. -/
noncomputable def visitSet (nb : ℕ → List ℕ) (x : ℕ) (O : Finset ℕ) : Finset ℕ := if ∃ y ∈ nb x, y ∈ O then insert x O else O

theorem visitSet_sub {nb : ℕ → List ℕ} {x : ℕ} {O : Finset ℕ} : O ⊆ visitSet nb x O := by
  unfold visitSet
  split
  · exact Finset.subset_insert _ _
  · exact Finset.Subset.refl _

theorem visitSet_card {nb : ℕ → List ℕ} {x : ℕ} {O : Finset ℕ} : (visitSet nb x O).card ≤ O.card + 1 := by
  unfold visitSet
  split
  · exact Finset.card_insert_le _ _
  · omega

theorem visitSet_of_mem {nb : ℕ → List ℕ} {x : ℕ} {O : Finset ℕ} (h : x ∈ O) : visitSet nb x O = O := by
  unfold visitSet
  split
  · exact Finset.insert_eq_of_mem h
  · rfl

theorem hangs_visit {nb : ℕ → List ℕ} {x : ℕ} {seeds O : Finset ℕ} (h : HangsTogether nb seeds O) : HangsTogether nb seeds (visitSet nb x O) := by
  have hw : ∀ {k i j : ℕ}, HopsBy (fun a b => b ∈ nb a ∧ b ∈ O) k i j → HopsBy (fun a b => b ∈ nb a ∧ b ∈ visitSet nb x O) k i j :=
    hopsBy_weaken fun a b h => ⟨h.1, visitSet_sub h.2⟩
  intro i hi
  by_cases hio : i ∈ O
  · obtain ⟨k, j, hj, h1⟩ := h i hio
    exact ⟨k, j, hj, hw h1⟩
  · have hi' := hi
    unfold visitSet at hi'
    split at hi'
    · rename_i hy
      rcases Finset.mem_insert.1 hi' with rfl | h1
      · obtain ⟨y, hy1, hy2⟩ := hy
        obtain ⟨k, j, hj, h1⟩ := h y hy2
        exact ⟨k + 1, j, hj, .inr ⟨y, ⟨hy1, visitSet_sub hy2⟩, hw h1⟩⟩
      · exact absurd h1 hio
    · exact absurd hi' hio

theorem walk_inv {nb : ℕ → List ℕ} (f : ℕ → ℕ) (O : Finset ℕ) (n : ℕ) :
    O ⊆ walk (visitSet nb) f O n ∧ HangsTogether nb O (walk (visitSet nb) f O n) ∧ (walk (visitSet nb) f O n).card ≤ O.card + n := by
  induction n with
  | zero => exact ⟨Finset.Subset.refl _, fun i hi => ⟨0, i, hi, rfl⟩, by simp [walk]⟩
  | succ n ih =>
    refine ⟨ih.1.trans visitSet_sub, hangs_visit ih.2.1, ?_⟩
    show (visitSet nb (f n) (walk (visitSet nb) f O n)).card ≤ _
    have := visitSet_card (nb := nb) (x := f n) (O := walk (visitSet nb) f O n)
    omega

theorem border {nb : ℕ → List ℕ} {O T : Finset ℕ} : ∀ {k i j : ℕ}, i ∈ T → i ∉ O → j ∈ O → HopsBy (fun x y => y ∈ nb x ∧ y ∈ T) k i j →
    ∃ i' ∈ T, i' ∉ O ∧ ∃ y ∈ nb i', y ∈ O := by
  intro k
  induction k with
  | zero => rintro i j - h1 h2 rfl; exact absurd h2 h1
  | succ k ih =>
    rintro i j hi h1 h2 (h3 | ⟨x, hx, h3⟩)
    · exact ih hi h1 h2 h3
    · by_cases hxO : x ∈ O
      · exact ⟨i, hi, h1, x, hx.1, hxO⟩
      · exact ih hx.2 hxO h2 h3

theorem walk_reaches {nb : ℕ → List ℕ} {m : ℕ} (hm : 0 < m) {T : Finset ℕ} (hT : ∀ i ∈ T, i < m) : ∀ (n : ℕ) (O : Finset ℕ), O ⊆ T →
    HangsTogether nb O T → T.card ≤ O.card + n → ∃ f : ℕ → ℕ, (∀ t, f t < m) ∧ walk (visitSet nb) f O n = T := by
  intro n
  induction n with
  | zero =>
    intro O h1 _ h3
    exact ⟨fun _ => 0, fun _ => hm, Finset.eq_of_subset_of_card_le (s := O) h1 (by omega)⟩
  | succ n ih =>
    intro O h1 h2 h3
    obtain ⟨x, hx, hsub, hh, hc⟩ : ∃ x, x < m ∧ visitSet nb x O ⊆ T ∧ HangsTogether nb (visitSet nb x O) T ∧ T.card ≤ (visitSet nb x O).card + n := by
      by_cases e : O = T
      · subst e
        rcases Finset.eq_empty_or_nonempty O with rfl | ⟨x, hx⟩
        · have : visitSet nb 0 ∅ = ∅ := by simp [visitSet]
          exact ⟨0, hm, by rw [this], by rw [this]; exact h2, by rw [this]; simp⟩
        · have := visitSet_of_mem (nb := nb) hx
          exact ⟨x, hT x hx, by rw [this], by rw [this]; exact h2, by rw [this]; omega⟩
      · obtain ⟨i, hi, hio⟩ := Finset.exists_of_ssubset (h1.ssubset_of_ne e)
        obtain ⟨k, j, hj, hway⟩ := h2 i hi
        obtain ⟨x, hx, hxO, hy⟩ := border hi hio hj hway
        have ev : visitSet nb x O = insert x O := if_pos hy
        refine ⟨x, hT x hx, ?_, fun i hi => ?_, ?_⟩
        · rw [ev]; exact Finset.insert_subset hx h1
        · obtain ⟨k, j, hj, hway⟩ := h2 i hi
          exact ⟨k, j, visitSet_sub hj, hway⟩
        · rw [ev, Finset.card_insert_of_notMem hxO]; omega
    obtain ⟨f, hf, hw⟩ := ih _ hsub hh hc
    refine ⟨fun t => if t = 0 then x else f (t - 1), fun t => ?_, ?_⟩
    · show (if t = 0 then x else f (t - 1)) < m
      split
      · exact hx
      · exact hf _
    · rw [walk_succ]
      exact hw

theorem cluster_run (c : Ctl) (s0 : SimState) (hs : s0.WF) (hg : s0.getGeneralState ≠ none) (m : ℕ) (hm : 0 < m) (hids : Numbered m s0)
    (nb : ℕ → List ℕ) (hnb : ∀ t, ∀ i, i < m → ∃ l, c.nbs t (.int i) = .ok l ∧ ∀ j, j ∈ l ↔ j ∈ nb i) (hin : ∀ i, i < m → ∀ j ∈ nb i, j < m)
    (p : Val) (hp : p ≠ c.background) (seeds : Finset ℕ) (h0 : ShowsCluster m p c.background seeds s0) (n : ℕ) (draw : ℕ → ℕ) :
    ∃ a, runAsync (controller.inherit draw) (c, 0) s0 n = .ok a ∧ ∀ k : ℕ, k ≤ n → ∃ s, a.res.getStep k = .ok s ∧
      ShowsCluster m p c.background (walk (visitSet nb) (fun t => draw t % m) seeds k) s := by
  have hmem : ∀ k : Key, k ∈ s0.siteIds ↔ ∃ i, i < m ∧ k = .int (i : ℕ) := by
    intro k
    unfold Numbered at hids
    rw [hids.mem_iff, List.mem_map]
    simp only [List.mem_range, eq_comm]
  have hocc : AllOccupied s0 := by
    intro k hk
    obtain ⟨i, hi, rfl⟩ := (hmem k).1 hk
    exact ⟨_, h0 i hi⟩
  have hnb' : ∀ t, ∀ i ∈ s0.siteIds, ∃ l, c.nbs t i = .ok l ∧ ∀ j ∈ l, Key.int j ∈ s0.siteIds := by
    intro t k hk
    obtain ⟨i, hi, rfl⟩ := (hmem k).1 hk
    obtain ⟨l, h1, h2⟩ := hnb t i hi
    exact ⟨l, h1, fun j hj => (hmem _).2 ⟨j, hin i hi j ((h2 j).1 hj), rfl⟩⟩
  obtain ⟨a, h1, h2, h3, h4⟩ := C97_growth c s0 hs hg m hm hids hocc hnb' n draw
  refine ⟨a, h1, fun k => ?_⟩
  induction k with
  | zero => exact fun _ => ⟨s0, h3, h0⟩
  | succ k ih =>
    intro hk
    obtain ⟨x, hx, ih⟩ := ih (by omega)
    obtain ⟨x', y, hx', hy, -, -, hoff, t, l, v, v', hl, hv, hv', hG, -⟩ := h4 k (by omega)
    rw [hx] at hx'; injection hx' with hx'; subst hx'
    refine ⟨y, by exact_mod_cast hy, fun i hi => ?_⟩
    show occ? y (.int i) = some (if i ∈ visitSet nb (draw k % m) (walk (visitSet nb) (fun t => draw t % m) seeds k) then p else c.background)
    generalize walk (visitSet nb) (fun t => draw t % m) seeds k = O at ih
    have hz : draw k % m < m := Nat.mod_lt _ hm
    generalize draw k % m = z at *
    by_cases e : i = z
    · subst e
      obtain ⟨l', hl', hiff⟩ := hnb t i hi
      rw [hl] at hl'; injection hl' with hl'; subst hl'
      rw [ih i hi] at hv; injection hv with hv
      rw [hv']
      congr 1
      by_cases hio : i ∈ O
      · rw [visitSet_of_mem hio, if_pos hio]
        rw [if_pos hio] at hv
        rw [hG.1 (by rw [← hv]; exact hp), hv]
      · rw [if_neg hio] at hv
        by_cases hy : ∃ y ∈ nb i, y ∈ O
        · have ev : i ∈ visitSet nb i O := by
            unfold visitSet; rw [if_pos hy]; exact Finset.mem_insert_self _ _
          rw [if_pos ev]
          obtain ⟨y', hy1, hy2⟩ := hy
          obtain ⟨e1, ⟨j, hj, hjv⟩, -⟩ := hG.2.2 hv.symm ⟨y', (hiff y').2 hy1, by
            rw [ih y' (hin i hi y' hy1), if_pos hy2]
            exact fun h => hp (by injection h)⟩
          rw [ih j (hin i hi j ((hiff j).1 hj))] at hjv
          injection hjv with hjv
          by_cases hjO : j ∈ O
          · rw [if_pos hjO] at hjv; exact hjv.symm
          · rw [if_neg hjO] at hjv; exact absurd hjv.symm e1
        · have ev : visitSet nb i O = O := if_neg hy
          rw [ev, if_neg hio]
          refine hG.2.1 hv.symm fun j hj => ?_
          have hj' := (hiff j).1 hj
          rw [ih j (hin i hi j hj'), if_neg fun h => hy ⟨j, hj', h⟩]
    · have h5 : occ? y (.int i) = occ? x (.int i) := by
        unfold occ?
        rw [hoff (.int i) fun e' => e (by injection e' with e'; exact_mod_cast e')]
      rw [h5, ih i hi]
      have : i ∈ visitSet nb z O ↔ i ∈ O := by
        unfold visitSet
        split
        · rw [Finset.mem_insert]; simp [e]
        · exact Iff.rfl
      simp only [this]

/-- C152: growth of one phase with the asynchronous runner: for a given number of steps, the clusters that some draws lead to are exactly those that contain
the nuclei, hang together with them, and have at most as many further sites as there were steps. -/
theorem C152_reachable (c : Ctl) (s0 : SimState) (hs : s0.WF) (hg : s0.getGeneralState ≠ none) (m : ℕ) (hm : 0 < m) (hids : Numbered m s0)
    (nb : ℕ → List ℕ) (hnb : ∀ t, ∀ i, i < m → ∃ l, c.nbs t (.int i) = .ok l ∧ ∀ j, j ∈ l ↔ j ∈ nb i) (hin : ∀ i, i < m → ∀ j ∈ nb i, j < m)
    (p : Val) (hp : p ≠ c.background) (seeds : Finset ℕ) (hseeds : ∀ i ∈ seeds, i < m) (h0 : ShowsCluster m p c.background seeds s0) (n : ℕ)
    (T : Finset ℕ) (hT : ∀ i ∈ T, i < m) :
    (∃ draw a s, runAsync (controller.inherit draw) (c, 0) s0 n = .ok a ∧ a.res.getStep n = .ok s ∧ ShowsCluster m p c.background T s) ↔
      seeds ⊆ T ∧ HangsTogether nb seeds T ∧ T.card ≤ seeds.card + n := by
  constructor
  · rintro ⟨draw, a, s, h1, h2, h3⟩
    obtain ⟨a', h4, h5⟩ := cluster_run c s0 hs hg m hm hids nb hnb hin p hp seeds h0 n draw
    rw [h1] at h4; injection h4 with h4; subst h4
    obtain ⟨s', h6, h7⟩ := h5 n le_rfl
    rw [h2] at h6; injection h6 with h6; subst h6
    have hlt : ∀ k, ∀ i ∈ walk (visitSet nb) (fun t => draw t % m) seeds k, i < m := by
      intro k
      induction k with
      | zero => exact hseeds
      | succ k ih =>
        intro i hi
        have hi : i ∈ visitSet nb (draw k % m) (walk (visitSet nb) (fun t => draw t % m) seeds k) := hi
        unfold visitSet at hi
        split at hi
        · rcases Finset.mem_insert.1 hi with rfl | h
          · exact Nat.mod_lt _ hm
          · exact ih i h
        · exact ih i hi
    have e : walk (visitSet nb) (fun t => draw t % m) seeds n = T := by
      ext i
      by_cases hi : i < m
      · have h8 := h3 i hi
        rw [h7 i hi] at h8
        injection h8 with h8
        by_cases ha : i ∈ walk (visitSet nb) (fun t => draw t % m) seeds n <;> by_cases hb : i ∈ T
        · simp [ha, hb]
        · rw [if_pos ha, if_neg hb] at h8; exact absurd h8 hp
        · rw [if_neg ha, if_pos hb] at h8; exact absurd h8.symm hp
        · simp [ha, hb]
      · exact ⟨fun h => absurd (hlt n i h) hi, fun h => absurd (hT i h) hi⟩
    have := walk_inv (nb := nb) (fun t => draw t % m) seeds n
    rwa [e] at this
  · rintro ⟨h1, h2, h3⟩
    obtain ⟨f, hf, hw⟩ := walk_reaches hm hT n seeds h1 h2 h3
    obtain ⟨a, h4, h5⟩ := cluster_run c s0 hs hg m hm hids nb hnb hin p hp seeds h0 n f
    obtain ⟨s, h6, h7⟩ := h5 n le_rfl
    rw [show (fun t => f t % m) = f from funext fun t => Nat.mod_eq_of_lt (hf t), hw] at h7
    exact ⟨f, a, s, h4, h6, h7⟩

/-- C152 on square grids with the default (Moore) neighbourhood: the hypotheses on the controller hold for what `GrowthController.__init__` makes, whatever
order the graph lists neighbours in, and being neighbours means being at most one apart along every axis of the torus. -/
theorem C152_grid {S : Structure K d} {N : Fin d → ℤ} (hS : SquareGrid d N S) (bg p : Val) (hp : p ≠ bg) (order : ℕ → List ℕ → List ℕ)
    (hord : ∀ t l, (order t l).Perm l) (s0 : SimState) (hs : s0.WF) (hg : s0.getGeneralState ≠ none) (hsites : SameSites S s0) (seeds : Finset ℕ)
    (hseeds : ∀ i ∈ seeds, i < S.siteIds.length) (h0 : ShowsCluster S.siteIds.length p bg seeds s0) :
    ∃ c nb, Growth.init order S bg = .ok c ∧
      (∀ i j x y, SiteHas S i x → SiteHas S j y → (j ∈ nb i ↔ j ≠ i ∧ ChebyshevLE N x y 1)) ∧
      ∀ n (T : Finset ℕ), (∀ i ∈ T, i < S.siteIds.length) →
        ((∃ draw a s, runAsync (controller.inherit draw) (c, 0) s0 n = .ok a ∧ a.res.getStep n = .ok s ∧ ShowsCluster S.siteIds.length p bg T s) ↔
          seeds ⊆ T ∧ HangsTogether nb seeds T ∧ T.card ≤ seeds.card + n) := by
  have ht := hS.isTorus
  have hids : Numbered S.siteIds.length s0 := idsTo_of_sameSites ht.reachable hs hsites
  obtain ⟨g, hget, hgn⟩ := C53_moore hS 1
  have hpos : 0 < S.siteIds.length := List.length_pos_of_ne_nil ht.ids_ne
  have hSmem : ∀ i, i ∈ S.siteIds ↔ i < S.siteIds.length := fun i => by rw [siteIds_eq ht.reachable]; simp
  obtain ⟨c, hc⟩ : ∃ c, Growth.init order S bg = .ok c := by
    unfold Growth.init
    rw [Option.getD_none, hget]
    exact ⟨_, rfl⟩
  obtain ⟨h1, h2⟩ := init_nbs (order := order) (bg := bg) hget hc
  refine ⟨c, g.neighborsOf, hc, hgn, fun n T hT => ?_⟩
  have := C152_reachable c s0 hs hg _ hpos hids g.neighborsOf (fun t i _ => ⟨_, h2 t i, fun j => (hord t _).mem_iff⟩)
    (fun i _ j hj => (hSmem j).1 ((C55_known_and_other ht.reachable _ none g hget i).1 j hj).1) p (by rw [h1]; exact hp) seeds hseeds
    (by rw [h1]; exact h0) n T hT
  rwa [h1] at this

/-- Three sites in a row, the first occupied: after one step the first two can be occupied, but not the first and the third. -/
example : HangsTogether (fun i => if i = 1 then [0, 2] else [1]) {0} {0, 1} ∧ ¬ HangsTogether (fun i => if i = 1 then [0, 2] else [1]) {0} {0, 2} := by
  constructor
  · intro i hi
    simp only [Finset.mem_insert, Finset.mem_singleton] at hi
    rcases hi with rfl | rfl
    · exact ⟨0, 0, by simp, rfl⟩
    · exact ⟨1, 0, by simp, .inr ⟨0, by simp, rfl⟩⟩
  · intro h
    obtain ⟨k, j, hj, h1⟩ := h 2 (by simp)
    simp only [Finset.mem_singleton] at hj
    subst hj
    have : ∀ k, ¬ HopsBy (fun x y => y ∈ (if x = 1 then [0, 2] else [1]) ∧ y ∈ ({0, 2} : Finset ℕ)) k 2 0 := by
      intro k
      induction k with
      | zero => exact fun h => by simp [HopsBy] at h
      | succ k ih =>
        rintro (h | ⟨x, ⟨hx, hx'⟩, -⟩)
        · exact ih h
        · simp at hx
          subst hx
          simp at hx'
    exact this k h1

end Pyl
