import Verif.Spec.GrowthRect
import Verif.Props.GrowthCount
import Verif.Props.RectSetup
/-
C175: how many sites any cells of one phase have grown to on a rectangular grid.
-/
set_option autoImplicit false
set_option linter.unusedSectionVars false

namespace Pyl
open SimState Spec Growth Analyzer
open Pyl.Lattice Pyl.Structure
variable {K : Type} [Field K] [LinearOrder K] [FloorRing K] [IsStrictOrderedRing K] {d : ℕ}

theorem grownTo_rect {S : Structure K d} {N : Fin d → ℤ} (ht : IsTorus S N) {s0 s : SimState} {bg p : Val} (hne : p ≠ bg) {X : Set (Fin d → ℤ)}
    (h2p : TwoPhases S s0 X p bg) (hX : ∀ x ∈ X, InBox N x) {nbs : ℕ → List ℕ} {k : ℕ} (hg : GrownTo S s0 bg nbs k s) {D : (Fin d → ℤ) → (Fin d → ℤ) → Prop}
    (hD : ∀ i j c x, SiteHas S i c → SiteHas S j x → (Hops nbs k i j ↔ D c x)) (hp : p.hashable = true) (hb : bg.hashable = true)
    (A : Option (Structure K d)) (hA : A = none ∨ A = some S) :
    cellCount A s p = .ok (Set.ncard {c | InBox N c ∧ ∃ x ∈ X, D c x}) ∧
      cellCount A s bg = .ok (gridSize N - Set.ncard {c | InBox N c ∧ ∃ x ∈ X, D c x}) := by
  classical
  set B : Finset (Fin d → ℤ) := Fintype.piFinset fun j => Finset.Ico 0 (N j) with hB
  have hmB : ∀ c, c ∈ B ↔ InBox N c := fun c => by simp [hB, InBox]
  set F : Finset (Fin d → ℤ) := B.filter fun c => ∃ x ∈ X, D c x with hF
  have hmF : ∀ c, c ∈ F ↔ InBox N c ∧ ∃ x ∈ X, D c x := fun c => by rw [hF, Finset.mem_filter, hmB]
  have hcard : Set.ncard {c | InBox N c ∧ ∃ x ∈ X, D c x} = F.card := by
    rw [← Set.ncard_coe_finset]
    congr 1
    ext c
    exact (hmF c).symm
  have hcB : B.card = gridSize N := by simp [hB, gridSize, Fintype.card_piFinset]
  have hocc : ∀ i c, SiteHas S i c → (occ? s (.int i) = some bg ↔ c ∉ F) ∧ (occ? s (.int i) = some p ↔ c ∈ F) := by
    intro i c hc
    have hi := ht.mem_ids ht.reachable hc
    have h1 : occ? s (.int i) ≠ some bg ↔ c ∈ F := by
      rw [hg.occupied i hi, hmF, and_iff_right (ht.inBox_of_has hc)]
      constructor
      · rintro ⟨j, hj, h⟩
        rw [nuclei, List.mem_filter, decide_eq_true_eq] at hj
        obtain ⟨x, -, hx⟩ := ht.site j hj.1
        refine ⟨x, ?_, (hD i j c x hc hx).1 h⟩
        by_contra hn
        exact hj.2 ((h2p j x hx).2 hn)
      · rintro ⟨x, hx, h⟩
        obtain ⟨j, hj, hjx⟩ := ht.ex x (hX x hx)
        refine ⟨j, ?_, (hD i j c x hc hjx).2 h⟩
        rw [nuclei, List.mem_filter, decide_eq_true_eq]
        refine ⟨hj, ?_⟩
        rw [(h2p j x hjx).1 hx]
        simpa using hne
    obtain ⟨v, hv, h2⟩ := hg.phase i hi
    have h3 : v = p ∨ v = bg := by
      rcases h2 with h2 | ⟨j, hj, h2⟩
      · exact .inr h2
      · obtain ⟨x, -, hx⟩ := ht.site j hj
        by_cases hm : x ∈ X
        · rw [(h2p j x hx).1 hm] at h2
          exact .inl (Option.some.inj h2).symm
        · rw [(h2p j x hx).2 hm] at h2
          exact .inr (Option.some.inj h2).symm
    rw [hv] at h1 ⊢
    rcases h3 with rfl | rfl
    · have : c ∈ F := h1.1 (by simpa using hne)
      simp [this, hne]
    · have : c ∉ F := fun h => h1.2 h rfl
      simp [this, hne.symm]
  have hAn : Analyzable s := by
    refine ⟨hg.wf, hg.knows, ?_⟩
    intro q hq
    obtain ⟨i, hi, rfl⟩ := (hg.same q).1 hq
    obtain ⟨c, -, hc⟩ := ht.site i hi
    by_cases hm : c ∈ F
    · exact ⟨p, (hocc i c hc).2.2 hm, hp⟩
    · exact ⟨bg, (hocc i c hc).1.2 hm, hb⟩
  have hfit : Fits A s := by
    intro S' e
    rcases hA with rfl | rfl
    · cases e
    · cases e
      exact ⟨ht.reachable, hg.same⟩
  rw [C71_count A s hAn hfit p hp, C71_count A s hAn hfit bg hb, hcard, ← hcB]
  refine ⟨congrArg _ (sitesWith_cells ht hg.wf hg.same (fun c hc => ((hmF c).1 hc).1) fun i c hc => (hocc i c hc).2), congrArg _ ?_⟩
  rw [sitesWith_cells ht hg.wf hg.same (F := B \ F) (fun c hc => (hmB c).1 (Finset.mem_sdiff.1 hc).1) fun i c hc => by
      rw [(hocc i c hc).1, Finset.mem_sdiff, and_iff_right ((hmB c).2 (ht.inBox_of_has hc))],
    Finset.card_sdiff_of_subset (Finset.filter_subset _ _)]

/-- Both runners, for a graph in which `k` moves are a distance. -/
theorem rect_counts {S : Structure K d} {N : Fin d → ℤ} (ht : IsTorus S N) {s0 : SimState} (hst : StartState S s0) {bg p : Val} (hne : p ≠ bg)
    {X : Set (Fin d → ℤ)} (h2p : TwoPhases S s0 X p bg) (hX : ∀ x ∈ X, InBox N x)
    (hp : p.hashable = true) (hb : bg.hashable = true) {bl : Builder K d} {g : Graph K} (hbl : bl.get S none = .ok g)
    {D : ℕ → (Fin d → ℤ) → (Fin d → ℤ) → Prop} (hD : ∀ k i j c x, SiteHas S i c → SiteHas S j x → (Hops g.neighborsOf k i j ↔ D k c x))
    {order : ℕ → List ℕ → List ℕ} (horder : ∀ t l, (order t l).Perm l) (m : ℕ) :
    ∃ c, Growth.init order S bg (some bl) = .ok c ∧
      (∃ c' res, runSync controller c s0 m = .ok (c', res) ∧ Counts S res m p (fun k => Set.ncard {c | InBox N c ∧ ∃ x ∈ X, D k c x}) ∧
        Counts S res m bg fun k => gridSize N - Set.ncard {c | InBox N c ∧ ∃ x ∈ X, D k c x}) ∧
      ∀ (fork : ℕ → Ctl → Ctl) (w : ℕ) (sched : ℕ → StepSched), (∀ v c, Reorders c (fork v c)) → 0 < w → ValidFor s0.siteIds w m sched →
        ∃ res, runParallel controller fork c s0 w m sched = .ok res ∧ Counts S res m p (fun k => Set.ncard {c | InBox N c ∧ ∃ x ∈ X, D k c x}) ∧
          Counts S res m bg fun k => gridSize N - Set.ncard {c | InBox N c ∧ ∃ x ∈ X, D k c x} := by
  have hS := ht.reachable
  have hids : S.siteIds ≠ [] := ht.ids_ne
  have hcount : ∀ res : SimResult, (∀ k : ℕ, k ≤ m → ∃ s, res.getStep k = .ok s ∧ GrownTo S s0 bg g.neighborsOf k s) →
      Counts S res m p (fun k => Set.ncard {c | InBox N c ∧ ∃ x ∈ X, D k c x}) ∧
        Counts S res m bg fun k => gridSize N - Set.ncard {c | InBox N c ∧ ∃ x ∈ X, D k c x} := by
    intro res h
    constructor <;> intro k hk <;> obtain ⟨s, h1, h2⟩ := h k hk <;>
      have h3 := fun A hA => grownTo_rect ht hne h2p hX h2 (hD k) hp hb A hA
    · exact ⟨s, h1, (h3 _ (.inr rfl)).1, (h3 _ (.inl rfl)).1⟩
    · exact ⟨s, h1, (h3 _ (.inr rfl)).2, (h3 _ (.inl rfl)).2⟩
  obtain ⟨c, c', res, h1, h2, h3⟩ := grown_serial hS hids hst bg hbl horder m
  refine ⟨c, h1, ⟨c', res, h2, hcount res h3⟩, fun fork w sched hfork hw hv => ?_⟩
  obtain ⟨c2, res2, e1, e2, e3⟩ := grown_parallel hS hids hst bg hbl horder m fork hfork w hw sched hv
  rw [h1] at e1; injection e1 with e1; subst e1
  exact ⟨res2, e2, hcount res2 e3⟩

/-- C175, Moore neighbourhood of size 1 (also what `None` stands for): after `k` steps as many sites hold the phase as there are cells within Chebyshev
distance `k` of a cell that held it at the start, and all others hold the background; with the serial runner, and with the parallel runner whatever the workers do. -/
theorem C175_moore {S : Structure K d} {N : Fin d → ℤ} (hS : SquareGrid d N S) (bg p : Val) (hbh : bg.hashable = true) (hph : p.hashable = true) (hne : p ≠ bg)
    (X : Set (Fin d → ℤ)) (hX : ∀ x ∈ X, InBox N x) (s0 : SimState) (hst : StartState S s0) (h2p : TwoPhases S s0 X p bg)
    (nb : Option (Builder K d)) (hnb : nb = none ∨ nb = some (moore 1)) (order : ℕ → List ℕ → List ℕ) (horder : ∀ t l, (order t l).Perm l) (m : ℕ) :
    ∃ c, Growth.init order S bg nb = .ok c ∧
      (∃ c' res, runSync controller c s0 m = .ok (c', res) ∧ Counts S res m p (nearSquare N X) ∧ Counts S res m bg fun k => gridSize N - nearSquare N X k) ∧
      ∀ (fork : ℕ → Ctl → Ctl) (w : ℕ) (sched : ℕ → StepSched), (∀ v c, Reorders c (fork v c)) → 0 < w → ValidFor s0.siteIds w m sched →
        ∃ res, runParallel controller fork c s0 w m sched = .ok res ∧ Counts S res m p (nearSquare N X) ∧
          Counts S res m bg fun k => gridSize N - nearSquare N X k := by
  obtain ⟨g, hb, hgn⟩ := C53_moore hS 1
  have ht := hS.isTorus
  obtain ⟨c, h3, h4⟩ := rect_counts ht hst hne h2p hX hph hbh hb (D := fun k c x => ChebyshevLE N c x k) (fun k i j c x hc hx =>
    moore_dist ht hgn (fun i _ j hj => ((C55_known_and_other ht.reachable _ none g hb i).1 j hj).1) hx k i c hc) horder m
  refine ⟨c, ?_, h4⟩
  rcases hnb with rfl | rfl
  · rw [← h3]; rfl
  · exact h3

/-- C175, von Neumann neighbourhood of size 1: the same with the Manhattan distance. -/
theorem C175_von_neumann {S : Structure K d} {N : Fin d → ℤ} (hS : SquareGrid d N S) (bg p : Val) (hbh : bg.hashable = true) (hph : p.hashable = true)
    (hne : p ≠ bg) (X : Set (Fin d → ℤ)) (hX : ∀ x ∈ X, InBox N x) (s0 : SimState) (hst : StartState S s0) (h2p : TwoPhases S s0 X p bg)
    (order : ℕ → List ℕ → List ℕ) (horder : ∀ t l, (order t l).Perm l) (m : ℕ) :
    ∃ c, Growth.init order S bg (some (vonNeumann 1)) = .ok c ∧
      (∃ c' res, runSync controller c s0 m = .ok (c', res) ∧ Counts S res m p (nearDiamond N X) ∧ Counts S res m bg fun k => gridSize N - nearDiamond N X k) ∧
      ∀ (fork : ℕ → Ctl → Ctl) (w : ℕ) (sched : ℕ → StepSched), (∀ v c, Reorders c (fork v c)) → 0 < w → ValidFor s0.siteIds w m sched →
        ∃ res, runParallel controller fork c s0 w m sched = .ok res ∧ Counts S res m p (nearDiamond N X) ∧
          Counts S res m bg fun k => gridSize N - nearDiamond N X k := by
  obtain ⟨g, hb, hgn⟩ := C54_von_neumann hS 1
  have ht := hS.isTorus
  exact rect_counts ht hst hne h2p hX hph hbh hb (D := fun k c x => torusManhattan N c x ≤ k) (fun k i j c x hc hx =>
    vonNeumann_dist ht hgn (fun i _ j hj => ((C55_known_and_other ht.reachable _ none g hb i).1 j hj).1) hx k i c hc) horder m

/-- The cells of the grid within Chebyshev distance `k` of a cell. -/
noncomputable def boxBall (N : Fin d → ℤ) (x : Fin d → ℤ) (k : ℕ) : Finset (Fin d → ℤ) :=
  Fintype.piFinset fun j => (Finset.Ico 0 (N j)).filter fun a => circ (N j) (a - x j) ≤ k

theorem mem_boxBall {N x c : Fin d → ℤ} {k : ℕ} : c ∈ boxBall N x k ↔ InBox N c ∧ ChebyshevLE N c x k := by
  simp only [boxBall, Fintype.mem_piFinset, Finset.mem_filter, Finset.mem_Ico]
  exact forall_and

theorem card_boxBall {N : Fin d → ℤ} (hN : ∀ j, 0 < N j) (x : Fin d → ℤ) (k : ℕ) : (boxBall N x k).card = ∏ j, (min (N j) (2 * k + 1)).toNat := by
  rw [boxBall, Fintype.card_piFinset]
  exact Finset.prod_congr rfl fun j _ => circ_card (hN j) _ _

/-- C175: for one cell the number with the Moore neighbourhood is the product of the sides, `2k + 1` or the size of the grid along that axis. -/
theorem C175_one (N : Fin d → ℤ) (hN : ∀ j, 0 < N j) (x : Fin d → ℤ) (k : ℕ) : nearSquare N {x} k = ∏ j, (min (N j) (2 * k + 1)).toNat := by
  rw [← card_boxBall hN x, nearSquare, ← Set.ncard_coe_finset]
  congr 1
  ext c
  simp [mem_boxBall]

/-- C175: the number is at most `(2k + 1)^d` for each cell of the start, and at most the number of sites; it is all of them as soon as `2k + 1` is at least every
size, and not before if there was one cell. With the von Neumann neighbourhood it is at most as large. -/
theorem C175_bounds (N : Fin d → ℤ) (hN : ∀ j, 0 < N j) (X : Finset (Fin d → ℤ)) (k : ℕ) :
    nearSquare N X k ≤ X.card * (2 * k + 1) ^ d ∧ nearSquare N X k ≤ gridSize N ∧ nearDiamond N X k ≤ nearSquare N X k ∧
      (X.Nonempty → (∀ j, N j ≤ 2 * k + 1) → nearSquare N X k = gridSize N) ∧
      ∀ x, nearSquare N {x} k = gridSize N → ∀ j, N j ≤ 2 * k + 1 := by
  classical
  have hall : (Fintype.piFinset fun j => Finset.Ico 0 (N j)).card = gridSize N := by simp [gridSize, Fintype.card_piFinset]
  have hu : nearSquare N X k = (X.biUnion fun x => boxBall N x k).card := by
    rw [nearSquare, ← Set.ncard_coe_finset]
    congr 1
    ext c
    simp only [Set.mem_ofPred_eq, Finset.mem_coe, Finset.mem_biUnion, mem_boxBall]
    constructor
    · rintro ⟨h1, x, hx, h2⟩; exact ⟨x, hx, h1, h2⟩
    · rintro ⟨x, hx, h1, h2⟩; exact ⟨h1, x, hx, h2⟩
  have hle : nearSquare N X k ≤ gridSize N := by
    rw [hu, ← hall]
    refine Finset.card_le_card fun c hc => ?_
    obtain ⟨x, -, h⟩ := Finset.mem_biUnion.1 hc
    simpa [InBox] using (mem_boxBall.1 h).1
  refine ⟨?_, hle, ?_, fun ⟨x, hx⟩ hk => le_antisymm hle ?_, fun x h j => ?_⟩
  · rw [hu]
    refine (Finset.card_biUnion_le_card_mul _ _ ((2 * k + 1) ^ d) fun x _ => ?_)
    rw [card_boxBall hN]
    calc ∏ j, (min (N j) (2 * k + 1)).toNat ≤ ∏ _j : Fin d, (2 * k + 1) := Finset.prod_le_prod' fun j _ => by omega
      _ = _ := by simp
  · have hfin : Set.Finite {c | InBox N c ∧ ∃ x ∈ (X : Set (Fin d → ℤ)), ChebyshevLE N c x k} := by
      refine Set.Finite.subset (Finset.finite_toSet (Fintype.piFinset fun j => Finset.Ico 0 (N j))) fun c hc => ?_
      simpa [InBox] using hc.1
    refine Set.ncard_le_ncard (fun c hc => ?_) hfin
    obtain ⟨h1, x, hx, h2⟩ := hc
    refine ⟨h1, x, hx, fun q => le_trans ?_ h2⟩
    exact Finset.single_le_sum (f := fun q => circ (N q) (c q - x q)) (fun q _ => circ_nonneg (hN q) _) (Finset.mem_univ q)
  · rw [hu]
    calc gridSize N = (boxBall N x k).card := by
          rw [card_boxBall hN, gridSize]
          exact Finset.prod_congr rfl fun j _ => by rw [min_eq_left (hk j)]
      _ ≤ _ := Finset.card_le_card fun c hc => Finset.mem_biUnion.2 ⟨x, hx, hc⟩
  · by_contra hj
    rw [C175_one N hN] at h
    refine absurd h (ne_of_lt ?_)
    refine Finset.prod_lt_prod (fun i _ => ?_) (fun i _ => ?_) ⟨j, Finset.mem_univ _, ?_⟩
    · have := hN i; omega
    · omega
    · omega

/-! ### Diamonds -/

noncomputable def rdiamond (N : Fin d → ℤ) (x : Fin d → ℤ) (k : ℤ) : Finset (Fin d → ℤ) :=
  (Fintype.piFinset fun j => Finset.Ico 0 (N j)).filter fun c => torusManhattan N c x ≤ k

theorem mem_rdiamond {N x c : Fin d → ℤ} {k : ℤ} : c ∈ rdiamond N x k ↔ InBox N c ∧ torusManhattan N c x ≤ k := by
  simp only [rdiamond, Fintype.mem_piFinset, Finset.mem_filter, Finset.mem_Ico]
  rfl

theorem card_rdiamond_succ (N : Fin (d + 1) → ℤ) (x : Fin (d + 1) → ℤ) (k : ℤ) :
    (rdiamond N x k).card = ∑ a ∈ Finset.Ico 0 (N 0), (rdiamond (Fin.tail N) (Fin.tail x) (k - circ (N 0) (a - x 0))).card := by
  rw [Finset.card_eq_sum_card_fiberwise (f := fun c : Fin (d + 1) → ℤ => c 0) (t := Finset.Ico 0 (N 0))
    (fun c hc => by rw [Finset.mem_coe, mem_rdiamond] at hc; rw [Finset.mem_coe, Finset.mem_Ico]; exact hc.1 0)]
  refine Finset.sum_congr rfl fun a ha => ?_
  rw [Finset.mem_Ico] at ha
  refine Finset.card_bij (fun c _ => Fin.tail c) (fun c hc => ?_) (fun c hc c' hc' h => ?_) (fun b hb => ?_)
  · rw [Finset.mem_filter, mem_rdiamond] at hc
    rw [mem_rdiamond]
    refine ⟨fun j => hc.1.1 j.succ, ?_⟩
    have := hc.1.2
    rw [torusManhattan, Fin.sum_univ_succ, hc.2] at this
    rw [torusManhattan]
    simp only [Fin.tail]
    linarith
  · rw [Finset.mem_filter] at hc hc'
    rw [← Fin.cons_self_tail c, ← Fin.cons_self_tail c', h, hc.2, hc'.2]
  · rw [mem_rdiamond] at hb
    refine ⟨Fin.cons a b, ?_, Fin.tail_cons _ _⟩
    rw [Finset.mem_filter, mem_rdiamond]
    refine ⟨⟨fun j => ?_, ?_⟩, rfl⟩
    · refine Fin.cases ?_ (fun j => ?_) j
      · exact ha
      · exact hb.1 j
    · rw [torusManhattan, Fin.sum_univ_succ]
      have := hb.2
      rw [torusManhattan] at this
      simp only [Fin.cons_zero, Fin.cons_succ]
      simp only [Fin.tail] at this
      linarith

theorem rdiamond_neg {N : Fin d → ℤ} (hN : ∀ j, 0 < N j) (x : Fin d → ℤ) {k : ℤ} (hk : k < 0) : (rdiamond N x k).card = 0 := by
  rw [Finset.card_eq_zero, Finset.eq_empty_iff_forall_notMem]
  intro c hc
  rw [mem_rdiamond] at hc
  have : 0 ≤ torusManhattan N c x := Finset.sum_nonneg fun j _ => circ_nonneg (hN j) _
  linarith [hc.2]

/-- A diamond that does not meet itself has as many cells as the diamond on any large enough square grid. -/
theorem card_rdiamond : ∀ (d : ℕ) (N x y : Fin d → ℤ) (n : ℤ) (k : ℕ), (∀ j, 2 * (k : ℤ) + 1 ≤ N j) → 2 * (k : ℤ) + 1 ≤ n →
    (rdiamond N x k).card = (diamond d n y k).card := by
  intro d
  induction d with
  | zero =>
    intro N x y n k _ _
    congr 1
  | succ d ih =>
    intro N x y n k hN hn
    have hpos : ∀ j, 0 < (Fin.tail N) j := fun j => by have := hN j.succ; simp only [Fin.tail]; omega
    have hn0 : 0 < n := by omega
    have hstep : ∀ t : ℕ, t ≤ k → (rdiamond (Fin.tail N) (Fin.tail x) ((k : ℤ) - t)).card = (diamond d n (Fin.tail y) ((k : ℤ) - t)).card := by
      intro t ht
      rw [show (k : ℤ) - t = ((k - t : ℕ) : ℤ) by omega]
      exact ih _ _ _ _ _ (fun j => by have := hN j.succ; simp only [Fin.tail]; omega) (by omega)
    rw [card_rdiamond_succ, circ_sum (hN 0) (x 0) (fun t => (rdiamond (Fin.tail N) (Fin.tail x) (k - t)).card) (fun t ht => rdiamond_neg hpos _ (by omega)),
      card_diamond_succ, circ_sum hn (y 0) (fun t => (diamond d n (Fin.tail y) (k - t)).card) (fun t ht => diamond_neg hn0 _ (by omega))]
    congr 1
    · refine Finset.sum_congr rfl fun t ht => ?_
      rw [Finset.mem_range] at ht
      exact hstep t (by omega)
    · refine Finset.sum_congr rfl fun t ht => ?_
      rw [Finset.mem_range] at ht
      exact hstep (t + 1) (by omega)

theorem nearDiamond_one (N x : Fin d → ℤ) (k : ℕ) : nearDiamond N {x} k = (rdiamond N x k).card := by
  rw [nearDiamond, ← Set.ncard_coe_finset]
  congr 1
  ext c
  simp [mem_rdiamond]

/-- C175: for one cell the number with the von Neumann neighbourhood, as long as `2k + 1` is at most every size. -/
theorem C175_diamond : (∀ (N x : Fin 2 → ℤ) (k : ℕ), (∀ j, 2 * (k : ℤ) + 1 ≤ N j) → nearDiamond N {x} k = 2 * k ^ 2 + 2 * k + 1) ∧
    ∀ (N x : Fin 3 → ℤ) (k : ℕ), (∀ j, 2 * (k : ℤ) + 1 ≤ N j) → 3 * nearDiamond N {x} k = (2 * k + 1) * (2 * k ^ 2 + 2 * k + 3) := by
  constructor <;> intro N x k h <;> rw [nearDiamond_one, card_rdiamond _ N x x (2 * k + 1) k h le_rfl]
  · exact card_diamond_two (by omega) x k le_rfl
  · exact card_diamond_three (by omega) x k le_rfl

/-! ### The setups, and a flat interface -/

/-- C175: `setup_coords` with the coordinates of one phase, `setup_interface` and `setup_particle` make such states, for an int or a tuple as size. -/
theorem C175_setups {G : GridSetup K d} (hG : StdSetup d G) {size : SizeArg} {N : Fin d → ℤ} {a : ℤ} (hs : SetupSize d size N a) (p bg : Val) (hp : p.WF) (hbg : bg.WF) :
    (∀ l : List (Fin d → ℤ), ∃ S s, G.coords size bg [(p, l.map intPoint)] = .ok ⟨s, S⟩ ∧ SquareGrid d N S ∧ StartState S s ∧
      TwoPhases S s {c | InBox N c ∧ ∃ x ∈ l, SameCellIn N x c} p bg) ∧
    (∃ S s, G.interface size p bg = .ok ⟨s, S⟩ ∧ SquareGrid d N S ∧ StartState S s ∧
      TwoPhases S s {c | InBox N c ∧ c ⟨0, StdSetup.dim hG⟩ < a / 2} p bg) ∧
    ∀ r : K, ∃ S s, G.particle size r bg p = .ok ⟨s, S⟩ ∧ SquareGrid d N S ∧ StartState S s ∧
      TwoPhases S s {c | InBox N c ∧ 0 < r ∧ ∑ j, ((c j : K) - a / 2) ^ 2 < r ^ 2} p bg := by
  refine ⟨fun l => ?_, ?_, fun r => ?_⟩
  · obtain ⟨S, s, h1, hsq, h2, h3⟩ := C149_coords hG hs bg hbg [(p, l)] (by simpa using hp)
    refine ⟨S, s, h1, hsq, h2, fun i c hc => ?_⟩
    have hbox := hsq.isTorus.inBox_of_has hc
    obtain ⟨v, hv, h4⟩ := h3 i c hc
    have hl : listed [(p, l)] = l.map fun x => (p, x) := by simp [listed]
    rw [hl] at h4
    rcases h4 with ⟨l₁, p', x', l₂, e, h5, -, rfl⟩ | ⟨h5, rfl⟩
    · have hmem : (v, x') ∈ l.map fun x => (p, x) := by rw [e]; simp
      obtain ⟨y, hy, e'⟩ := List.mem_map.1 hmem
      simp only [Prod.mk.injEq] at e'
      obtain ⟨rfl, rfl⟩ := e'
      exact ⟨fun _ => hv, fun h => absurd ⟨hbox, y, hy, h5⟩ h⟩
    · exact ⟨fun ⟨_, x, hx, h⟩ => absurd h (h5 (p, x) (List.mem_map.2 ⟨x, hx, rfl⟩)), fun _ => hv⟩
  · obtain ⟨S, s, h1, hsq, h2, h3⟩ := C149_interface hG hs p bg hp hbg
    refine ⟨S, s, h1, hsq, h2, fun i c hc => ?_⟩
    have hbox := hsq.isTorus.inBox_of_has hc
    rw [h3 i c hc]
    exact ⟨fun h => congrArg some (if_pos h.2), fun h => congrArg some (if_neg fun h' => h ⟨hbox, h'⟩)⟩
  · obtain ⟨S, s, h1, hsq, h2, h3⟩ := C149_particle hG hs r bg p hbg hp
    refine ⟨S, s, h1, hsq, h2, fun i c hc => ?_⟩
    have hbox := hsq.isTorus.inBox_of_has hc
    rw [h3 i c hc]
    exact ⟨fun h => congrArg some (if_pos h.2), fun h => congrArg some (if_neg fun h' => h ⟨hbox, h'⟩)⟩

/-- On a circle of `n` points, the points within distance `k` of the first `h`. -/
theorem near_arc {n h : ℤ} (hn : 0 < n) (hh : 1 ≤ h) (k : ℕ) (c : ℤ) (hc : 0 ≤ c ∧ c < n) :
    (∃ x, (0 ≤ x ∧ x < n) ∧ x < h ∧ circ n (c - x) ≤ k) ↔ c < h + k ∨ n - k ≤ c := by
  constructor
  · rintro ⟨x, hx, hxh, h1⟩
    by_cases hcx : c < h + k
    · exact .inl hcx
    · right
      have e : (c - x) % n = c - x := Int.emod_eq_of_lt (by omega) (by omega)
      rw [circ, e] at h1
      omega
  · intro h1
    by_cases h2 : c < h
    · refine ⟨c, hc, h2, ?_⟩
      rw [sub_self, circ, Int.zero_emod]
      omega
    · by_cases h3 : c < h + k
      · refine ⟨h - 1, by omega, by omega, ?_⟩
        have e : (c - (h - 1)) % n = c - (h - 1) := Int.emod_eq_of_lt (by omega) (by omega)
        rw [circ, e]
        omega
      · refine ⟨0, by omega, by omega, ?_⟩
        have e : (c - 0) % n = c := by rw [sub_zero]; exact Int.emod_eq_of_lt hc.1 hc.2
        rw [circ, e]
        omega

theorem card_arc {n h : ℤ} (hn : 0 < n) (hh : 1 ≤ h) (k : ℕ) : ((Finset.Ico 0 n).filter fun c => c < h + k ∨ n - k ≤ c).card = (min n (h + 2 * k)).toNat := by
  have e : (Finset.Ico 0 n).filter (fun c => c < h + k ∨ n - k ≤ c) = Finset.Ico 0 n \ Finset.Ico (h + k) (n - k) := by
    ext c
    simp only [Finset.mem_filter, Finset.mem_sdiff, Finset.mem_Ico]
    omega
  rw [e, Finset.card_sdiff_of_subset (fun c hc => by rw [Finset.mem_Ico] at hc ⊢; omega), Int.card_Ico, Int.card_Ico]
  omega

/-- C175: from the first `h` layers along an axis the phase grows by one layer on both sides in every step (around the torus), until everything has it. The two
neighbourhoods make no difference. -/
theorem C175_layers (N : Fin d → ℤ) (hN : ∀ j, 0 < N j) (j0 : Fin d) (h : ℤ) (hh : 1 ≤ h) (k : ℕ) :
    nearSquare N {c | InBox N c ∧ c j0 < h} k = ∏ j, (if j = j0 then min (N j) (h + 2 * k) else N j).toNat ∧
    nearDiamond N {c | InBox N c ∧ c j0 < h} k = nearSquare N {c | InBox N c ∧ c j0 < h} k := by
  classical
  have hpick : ∀ c, InBox N c → c j0 < h + k ∨ N j0 - k ≤ c j0 →
      ∃ x, (InBox N x ∧ x j0 < h) ∧ circ (N j0) (c j0 - x j0) ≤ k ∧ ∀ j, j ≠ j0 → x j = c j := by
    intro c hc h1
    obtain ⟨y, hy, hyh, h2⟩ := (near_arc (hN j0) hh k (c j0) (hc j0)).2 h1
    refine ⟨Function.update c j0 y, ⟨fun j => ?_, by simpa using hyh⟩, by simpa using h2, fun j hj => by simp [hj]⟩
    by_cases hj : j = j0
    · subst hj; simpa using hy
    · simpa [hj] using hc j
  have hzero : ∀ j, circ (N j) 0 = 0 := fun j => by have := hN j; rw [circ, Int.zero_emod]; omega
  have hsq : ∀ c, (InBox N c ∧ ∃ x, (InBox N x ∧ x j0 < h) ∧ ChebyshevLE N c x k) ↔ InBox N c ∧ (c j0 < h + k ∨ N j0 - k ≤ c j0) := by
    intro c
    refine and_congr_right fun hc => ⟨?_, fun h1 => ?_⟩
    · rintro ⟨x, ⟨hx, hxh⟩, h2⟩
      exact (near_arc (hN j0) hh k (c j0) (hc j0)).1 ⟨x j0, hx j0, hxh, h2 j0⟩
    · obtain ⟨x, hx, h2, h3⟩ := hpick c hc h1
      refine ⟨x, hx, fun j => ?_⟩
      by_cases hj : j = j0
      · subst hj; exact h2
      · rw [h3 j hj, sub_self, hzero]; omega
  have hdm : ∀ c, (InBox N c ∧ ∃ x, (InBox N x ∧ x j0 < h) ∧ torusManhattan N c x ≤ k) ↔ InBox N c ∧ (c j0 < h + k ∨ N j0 - k ≤ c j0) := by
    intro c
    refine and_congr_right fun hc => ⟨?_, fun h1 => ?_⟩
    · rintro ⟨x, ⟨hx, hxh⟩, h2⟩
      refine (near_arc (hN j0) hh k (c j0) (hc j0)).1 ⟨x j0, hx j0, hxh, le_trans ?_ h2⟩
      exact Finset.single_le_sum (f := fun q => circ (N q) (c q - x q)) (fun q _ => circ_nonneg (hN q) _) (Finset.mem_univ j0)
    · obtain ⟨x, hx, h2, h3⟩ := hpick c hc h1
      refine ⟨x, hx, ?_⟩
      rw [torusManhattan, Finset.sum_eq_single j0 (fun j _ hj => by rw [h3 j hj, sub_self, hzero]) (by simp)]
      exact h2
  have e1 : nearSquare N {c | InBox N c ∧ c j0 < h} k = Set.ncard {c | InBox N c ∧ (c j0 < h + k ∨ N j0 - k ≤ c j0)} := by
    rw [nearSquare]
    congr 1
    ext c
    exact hsq c
  have e2 : nearDiamond N {c | InBox N c ∧ c j0 < h} k = Set.ncard {c | InBox N c ∧ (c j0 < h + k ∨ N j0 - k ≤ c j0)} := by
    rw [nearDiamond]
    congr 1
    ext c
    exact hdm c
  refine ⟨?_, e2.trans e1.symm⟩
  have e3 : (Fintype.piFinset fun j => if j = j0 then (Finset.Ico 0 (N j)).filter fun a => a < h + k ∨ N j - k ≤ a else Finset.Ico 0 (N j)).card =
      ∏ j, (if j = j0 then min (N j) (h + 2 * k) else N j).toNat := by
    rw [Fintype.card_piFinset]
    refine Finset.prod_congr rfl fun j _ => ?_
    split_ifs
    · exact card_arc (hN j) hh k
    · simp
  rw [e1, ← e3, ← Set.ncard_coe_finset]
  congr 1
  ext c
  simp only [Set.mem_ofPred_eq, Finset.mem_coe, Fintype.mem_piFinset]
  constructor
  · rintro ⟨hc, h1⟩ j
    split_ifs with hj
    · subst hj
      exact Finset.mem_filter.2 ⟨Finset.mem_Ico.2 (hc j), h1⟩
    · exact Finset.mem_Ico.2 (hc j)
  · intro hc
    refine ⟨fun j => ?_, ?_⟩
    · have := hc j
      split_ifs at this
      · exact Finset.mem_Ico.1 (Finset.mem_filter.1 this).1
      · exact Finset.mem_Ico.1 this
    · have := hc j0
      rw [if_pos rfl] at this
      exact (Finset.mem_filter.1 this).2

/-! ### A case -/

theorem twoPhases_exists {S : Structure K d} {N : Fin d → ℤ} (h : IsTorus S N) (X : Set (Fin d → ℤ)) {p bg : Val} (hp : p.WF) (hbg : bg.WF) :
    ∃ s : SimState, StartState S s ∧ TwoPhases S s X p bg := by
  classical
  choose! f hf using fun j (hj : j ∈ S.siteIds) => h.site j hj
  have hnd : S.siteIds.Nodup := by rw [siteIds_eq h.reachable]; exact List.nodup_range
  set row : ℕ → Props := fun i => [(DISCRETE_OCCUPANCY, if f i ∈ X then p else bg), (SITE_ID, .num (i : ℚ))] with hrow
  have hk : Dict.keys (S.siteIds.map fun i : ℕ => (Key.int i, row i)) = S.siteIds.map fun i : ℕ => Key.int i := by
    simp [Dict.keys, Function.comp_def]
  have hw : Dict.WF (S.siteIds.map fun i : ℕ => (Key.int i, row i)) := by
    unfold Dict.WF
    rw [hk]
    exact (List.nodup_map_iff_inj_on hnd).2 fun a _ b _ e => by injection e with e; exact_mod_cast e
  have hget : ∀ i ∈ S.siteIds, SimState.getSiteState ⟨S.siteIds.map fun i : ℕ => (.int i, row i), some []⟩ (.int i) = some (row i) := fun i hi =>
    Dict.get?_of_mem hw (List.mem_map.2 ⟨i, hi, rfl⟩)
  have hocc : ∀ i ∈ S.siteIds, occ? ⟨S.siteIds.map fun i : ℕ => (.int i, row i), some []⟩ (.int i) = some (if f i ∈ X then p else bg) := fun i hi => by
    unfold occ?
    rw [hget i hi]
    simp [hrow, Dict.get?]
  refine ⟨⟨S.siteIds.map fun i : ℕ => (.int i, row i), some []⟩, ⟨⟨hw, ?_, ?_⟩, rfl, ?_, ?_, ?_⟩, ?_⟩
  · intro kv hkv
    obtain ⟨i, hi, rfl⟩ := List.mem_map.1 hkv
    refine .dict ?_ ?_
    · simp [Dict.WF, Dict.keys, hrow, DISCRETE_OCCUPANCY, SITE_ID]
    · intro v hv
      simp only [hrow, List.mem_cons, List.not_mem_nil, or_false] at hv
      rcases hv with rfl | rfl
      · dsimp only; split <;> assumption
      · exact .num _
  · rintro g ⟨⟩
    exact .dict Dict.WF.nil (by simp)
  · intro k
    show k ∈ Dict.keys _ ↔ _
    rw [hk, List.mem_map]
    exact ⟨fun ⟨i, hi, e⟩ => ⟨i, hi, e.symm⟩, fun ⟨i, hi, e⟩ => ⟨i, hi, e.symm⟩⟩
  · intro k hk'
    have : k ∈ Dict.keys (S.siteIds.map fun i : ℕ => (Key.int i, row i)) := hk'
    rw [hk, List.mem_map] at this
    obtain ⟨i, hi, rfl⟩ := this
    exact ⟨_, hocc i hi⟩
  · intro i hi
    refine ⟨_, hget i hi, ?_⟩
    simp [hrow, Dict.get?, DISCRETE_OCCUPANCY, SITE_ID]
  · intro i c hc
    have hi := h.mem_ids h.reachable hc
    rw [hocc i hi, IsTorus.has_unique_coord (hf i hi).2 hc]
    exact ⟨fun h1 => by rw [if_pos h1], fun h1 => by rw [if_neg h1]⟩

/-- A 5 by 4 grid with `B` at (4, 0) in `A`: 9 sites hold `B` after one step, all 20 after two, none but `B` is left then. -/
example (order : ℕ → List ℕ → List ℕ) (horder : ∀ t l, (order t l).Perm l) : ∃ (S : Structure ℚ 2) (s0 : SimState) (c c' : Ctl) (res : SimResult) (s1 s2 : SimState),
    SquareGrid 2 ![5, 4] S ∧ TwoPhases S s0 {![4, 0]} (.str "B") (.str "A") ∧ Growth.init order S (.str "A") none = .ok c ∧
    runSync controller c s0 2 = .ok (c', res) ∧ res.getStep 1 = .ok s1 ∧ res.getStep 2 = .ok s2 ∧
    getSiteCountWhereEqual (some S) s1 [(DISCRETE_OCCUPANCY, .str "B")] none = .ok 9 ∧
    getSiteCountWhereEqual (some S) s2 [(DISCRETE_OCCUPANCY, .str "B")] none = .ok 20 ∧
    getSiteCountWhereEqual (some S) s2 [(DISCRETE_OCCUPANCY, .str "A")] none = .ok 0 := by
  obtain ⟨-, S, hS, -⟩ := C52_square2 (K := ℚ) 1 (by norm_num) 4 5 (by norm_num) (by norm_num)
  have hg : SquareGrid 2 ![5, 4] S := .two _ S 5 4 (by norm_num) (by norm_num) (.inl rfl) hS
  obtain ⟨s0, h1, h2⟩ := twoPhases_exists hg.isTorus {![4, 0]} (.str "B") (.str "A")
  obtain ⟨c, h3, ⟨c', res, h4, h5, h6⟩, -⟩ := C175_moore hg (.str "A") (.str "B") rfl rfl (by simp) {![4, 0]}
    (by rintro x rfl j; fin_cases j <;> simp) s0 h1 h2 none (.inl rfl) order horder 2
  obtain ⟨s1, a1, a2, -⟩ := h5 1 (by norm_num)
  obtain ⟨s2, b1, b2, -⟩ := h5 2 (by norm_num)
  obtain ⟨s3, e1, e2, -⟩ := h6 2 (by norm_num)
  rw [b1] at e1; injection e1 with e1; subst e1
  beta_reduce at e2
  rw [C175_one _ hg.isTorus.pos] at a2 b2 e2
  exact ⟨S, s0, c, c', res, s1, s2, hg, h2, h3, h4, by exact_mod_cast a1, by exact_mod_cast b1, by simpa [Fin.prod_univ_succ] using a2,
    by simpa [Fin.prod_univ_succ] using b2, by simpa [Fin.prod_univ_succ, gridSize] using e2⟩

/-- `setup_interface(8, 'B', 'A')` in 2D, then growth of `B` into `A`: 32 sites hold `B` at the start, 48 after one step, all 64 after two. -/
example (order : ℕ → List ℕ → List ℕ) (horder : ∀ t l, (order t l).Perm l) : ∃ (sim : Simulation ℚ 2) (c c' : Ctl) (res : SimResult),
    gridSetup2.interface (.int 8) (.str "B") (.str "A") = .ok sim ∧ Growth.init order sim.struct (.str "A") none = .ok c ∧
    runSync controller c sim.state 2 = .ok (c', res) ∧ ∀ k : ℕ, k ≤ 2 → ∃ s, res.getStep k = .ok s ∧
      getSiteCountWhereEqual (some sim.struct) s [(DISCRETE_OCCUPANCY, .str "B")] none = .ok (32 + 16 * k) := by
  obtain ⟨S, s, h1, hsq, hst, h2⟩ := (C175_setups (K := ℚ) .two (.int 2 8 (by norm_num)) (.str "B") (.str "A") (.str _) (.str _)).2.1
  obtain ⟨c, h3, ⟨c', res, h4, h5, -⟩, -⟩ := C175_moore hsq (.str "A") (.str "B") rfl rfl (by simp) _ (fun x hx => hx.1) s hst h2 none (.inl rfl) order horder 2
  refine ⟨⟨s, S⟩, c, c', res, h1, h3, h4, fun k hk => ?_⟩
  obtain ⟨s', a1, a2, -⟩ := h5 k hk
  refine ⟨s', a1, ?_⟩
  rw [a2, (C175_layers _ (fun _ => by norm_num) _ _ (by norm_num) k).1]
  obtain rfl | rfl | rfl : k = 0 ∨ k = 1 ∨ k = 2 := by omega
  all_goals simp [Fin.prod_univ_succ]

end Pyl
