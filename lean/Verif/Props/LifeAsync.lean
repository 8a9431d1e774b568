import Verif.Spec.LifeAsync
import Verif.Props.LifeVariants
import Verif.Props.RandomGrowth
/-
C151: Life-like rules with the asynchronous runner: opposite rules, rules that come to rest, and when the order of the visits does not matter.
-/
set_option autoImplicit false
set_option linter.unusedSectionVars false

namespace Pyl
open Pyl.Lattice Structure SimState Spec
variable {K : Type} [Field K] [LinearOrder K] [IsStrictOrderedRing K] [FloorRing K]

/-! ### patterns and single visits -/

/-- The pattern after the visit of one cell. -/
def visitCell (N : Fin 2 → ℤ) (b sv : List ℤ) (x : Fin 2 → ℤ) (Q : Set (Fin 2 → ℤ)) : Set (Fin 2 → ℤ) :=
  {y | y ≠ x ∧ y ∈ Q ∨ y = x ∧ y ∈ generation N b sv Q}

theorem mem_visit_other {N : Fin 2 → ℤ} {b sv : List ℤ} {x y : Fin 2 → ℤ} {Q : Set (Fin 2 → ℤ)} (h : y ≠ x) : y ∈ visitCell N b sv x Q ↔ y ∈ Q := by
  constructor
  · rintro (⟨-, h1⟩ | ⟨h1, -⟩)
    · exact h1
    · exact absurd h1 h
  · exact fun h1 => .inl ⟨h, h1⟩

theorem mem_visit_self {N : Fin 2 → ℤ} {b sv : List ℤ} {x : Fin 2 → ℤ} {Q : Set (Fin 2 → ℤ)} : x ∈ visitCell N b sv x Q ↔ x ∈ generation N b sv Q := by
  constructor
  · rintro (⟨h1, -⟩ | ⟨-, h1⟩)
    · exact absurd rfl h1
    · exact h1
  · exact fun h1 => .inr ⟨rfl, h1⟩

/-- The pattern is at rest. -/
def RestPattern (N : Fin 2 → ℤ) (b sv : List ℤ) (L : Set (Fin 2 → ℤ)) : Prop := ∀ c, InBox N c → (c ∈ generation N b sv L ↔ c ∈ L)

theorem visit_rest {N : Fin 2 → ℤ} {b sv : List ℤ} {L : Set (Fin 2 → ℤ)} (h : RestPattern N b sv L) (x : Fin 2 → ℤ) (c : Fin 2 → ℤ) (hc : InBox N c) :
    c ∈ visitCell N b sv x L ↔ c ∈ L := by
  by_cases e : c = x
  · subst e
    rw [mem_visit_self, h c hc]
  · exact mem_visit_other e

theorem liveAround_agree {N : Fin 2 → ℤ} {L L' : Set (Fin 2 → ℤ)} (h : ∀ x, InBox N x → (x ∈ L ↔ x ∈ L')) (c : Fin 2 → ℤ) :
    liveAround N L c = liveAround N L' c := by
  unfold liveAround
  congr 1
  ext x
  constructor
  · rintro ⟨h1, h2, h3, h4⟩; exact ⟨h1, h2, h3, (h x h1).1 h4⟩
  · rintro ⟨h1, h2, h3, h4⟩; exact ⟨h1, h2, h3, (h x h1).2 h4⟩

theorem rest_agree {N : Fin 2 → ℤ} {b sv : List ℤ} {L L' : Set (Fin 2 → ℤ)} (h : ∀ x, InBox N x → (x ∈ L ↔ x ∈ L')) (hr : RestPattern N b sv L) :
    RestPattern N b sv L' := fun c hc => (generation_agree b sv h c hc).symm.trans ((hr c hc).trans (h c hc))

theorem liveAround_mono {N : Fin 2 → ℤ} {L L' : Set (Fin 2 → ℤ)} (h : ∀ x, InBox N x → x ∈ L → x ∈ L') (c : Fin 2 → ℤ) :
    liveAround N L c ≤ liveAround N L' c := by
  unfold liveAround
  refine Set.ncard_le_ncard ?_ (Set.Finite.subset (boxCells N).finite_toSet ?_)
  · rintro x ⟨h1, h2, h3, h4⟩
    exact ⟨h1, h2, h3, h x h1 h4⟩
  · rintro x ⟨h1, -⟩
    exact mem_boxCells.2 h1

theorem generation_mono {N : Fin 2 → ℤ} (hN : ∀ j, 0 < N j) {b sv : List ℤ} (hr : MoreIsBetter b sv) {L L' : Set (Fin 2 → ℤ)}
    (h : ∀ x, InBox N x → x ∈ L → x ∈ L') (c : Fin 2 → ℤ) (hc : InBox N c) (hg : c ∈ generation N b sv L) : c ∈ generation N b sv L' := by
  have h1 := liveAround_mono h c
  have h2 := liveAround_le hN L' c hc
  obtain ⟨hb, hs, -⟩ := hr (liveAround N L c) (liveAround N L' c) (by omega) (by omega) (by omega)
  have hbs := (hr (liveAround N L' c) (liveAround N L' c) (by omega) le_rfl (by omega)).2.2
  rcases hg with ⟨h3, h4⟩ | ⟨h3, h4⟩
  · exact .inl ⟨h c hc h3, hs h4⟩
  · by_cases h5 : c ∈ L'
    · exact .inl ⟨h5, hbs (hb h4)⟩
    · exact .inr ⟨h5, hb h4⟩

/-! ### the run and the patterns -/

theorem asyncLifeRun_steps {S : Structure K 2} {N : Fin 2 → ℤ} (hS : SquareGrid 2 N S) {b sv : List (Fin 10)} {s0 : SimState} (h0 : IsLifeState S s0)
    {n : ℕ} {draw : ℕ → ℕ} {a : AsyncSt (Life.Ctl K × ℕ)} (h : AsyncLifeRun S (variantText b sv) s0 n draw a) :
    ∃ P : ℕ → Set (Fin 2 → ℤ), P 0 = liveCells S s0 ∧
      (∀ k, ∃ x, InBox N x ∧ SiteHas S (draw k % S.siteIds.length) x ∧ P (k + 1) = visitCell N (digitValues b) (digitValues sv) x (P k)) ∧
      ∀ k : ℕ, k ≤ n → ∃ s, a.res.getStep k = .ok s ∧ SameSites S s ∧ ShowsLife S s (P k) := by
  obtain ⟨c, hc, hr⟩ := h
  obtain ⟨cells, hcells⟩ := (C96_cells hS).2 draw
  obtain ⟨c1, a1, h1, h2, -, h3⟩ := C96_life hS b sv s0 h0.1 h0.2.1 h0.2.2.1 _ (showsLife_liveCells h0) n draw cells fun k => (hcells k).2
  rw [hc] at h1; cases h1
  rw [hr] at h2; cases h2
  exact ⟨oneByOne N (digitValues b) (digitValues sv) cells (liveCells S s0), rfl, fun k => ⟨cells k, (hcells k).1, (hcells k).2, rfl⟩, h3⟩

theorem resting_iff {S : Structure K 2} {N : Fin 2 → ℤ} (hS : SquareGrid 2 N S) {b sv : List ℤ} {s : SimState} {L : Set (Fin 2 → ℤ)}
    (hL : ShowsLife S s L) : Resting S N b sv s ↔ RestPattern N b sv L := by
  have ht := hS.isTorus
  have hag : ∀ c, liveAround N {x | CellIs S s x "alive"} c = liveAround N L c := liveAround_agree fun x hx => by
    obtain ⟨i, -, hi⟩ := ht.ex x hx
    exact (cellIs_iff hL hi).1
  constructor
  · intro h c hc
    obtain ⟨i, -, hi⟩ := ht.ex c hc
    obtain ⟨h1, h2⟩ := h c hc
    rw [(cellIs_iff hL hi).1, hag] at h1
    rw [(cellIs_iff hL hi).2, hag] at h2
    constructor
    · rintro (⟨h3, -⟩ | ⟨h3, h4⟩)
      · exact h3
      · exact absurd h4 (h2 h3)
    · exact fun h3 => .inl ⟨h3, h1 h3⟩
  · intro h c hc
    obtain ⟨i, -, hi⟩ := ht.ex c hc
    rw [(cellIs_iff hL hi).1, (cellIs_iff hL hi).2, hag]
    constructor
    · intro h1
      rcases (h c hc).2 h1 with ⟨-, h2⟩ | ⟨h2, -⟩
      · exact h2
      · exact absurd h1 h2
    · intro h1 h2
      exact h1 ((h c hc).1 (.inr ⟨h1, h2⟩))

theorem samePattern_iff {S : Structure K 2} {N : Fin 2 → ℤ} (hS : SquareGrid 2 N S) {s s' : SimState} {L L' : Set (Fin 2 → ℤ)}
    (hL : ShowsLife S s L) (hL' : ShowsLife S s' L') : SamePattern S N s s' ↔ ∀ c, InBox N c → (c ∈ L ↔ c ∈ L') := by
  have ht := hS.isTorus
  constructor
  · intro h c hc
    obtain ⟨i, -, hi⟩ := ht.ex c hc
    have := (h c hc).1
    rwa [(cellIs_iff hL hi).1, (cellIs_iff hL' hi).1] at this
  · intro h c hc
    obtain ⟨i, -, hi⟩ := ht.ex c hc
    rw [(cellIs_iff hL hi).1, (cellIs_iff hL' hi).1, (cellIs_iff hL hi).2, (cellIs_iff hL' hi).2, h c hc]
    exact ⟨Iff.rfl, Iff.rfl⟩

/-! ### opposite rules, rules without deaths or births, rest -/

/-- C151: on tori at least 3 wide, asynchronous runs of opposite rules from opposite states that draw the same sites are opposite at every step. -/
theorem C151_opposite {S : Structure K 2} {N : Fin 2 → ℤ} (hS : SquareGrid 2 N S) (hN : ∀ j, 3 ≤ N j) (b sv b' sv' : List (Fin 10))
    (hr : OppositeRules (digitValues b) (digitValues sv) (digitValues b') (digitValues sv')) (s0 s0' : SimState) (h0 : IsLifeState S s0)
    (h0' : IsLifeState S s0') (hopp : OppositeStates S N s0 s0') (n : ℕ) (draw : ℕ → ℕ) (a a' : AsyncSt (Life.Ctl K × ℕ))
    (ha : AsyncLifeRun S (variantText b sv) s0 n draw a) (ha' : AsyncLifeRun S (variantText b' sv') s0' n draw a') (k : ℕ) (hk : k ≤ n) :
    ∃ s s', a.res.getStep k = .ok s ∧ a'.res.getStep k = .ok s' ∧ OppositeStates S N s s' := by
  have ht := hS.isTorus
  obtain ⟨P, hP0, hP, hs⟩ := asyncLifeRun_steps hS h0 ha
  obtain ⟨P', hP0', hP', hs'⟩ := asyncLifeRun_steps hS h0' ha'
  have key : ∀ k, ∀ x, InBox N x → (x ∈ P' k ↔ x ∉ P k) := by
    intro k
    induction k with
    | zero =>
      intro x hx
      obtain ⟨i, -, hi⟩ := ht.ex x hx
      rw [hP0, hP0']
      exact ((hopp x hx).2).symm.trans (cellIs_iff (showsLife_liveCells h0) hi).2
    | succ k ih =>
      intro x hx
      obtain ⟨y, hy, hsy, e⟩ := hP k
      obtain ⟨y', -, hsy', e'⟩ := hP' k
      obtain rfl : y = y' := IsTorus.has_unique_coord hsy hsy'
      rw [e, e']
      by_cases hxy : x = y
      · subst hxy
        rw [mem_visit_self, mem_visit_self]
        exact generation_opposite hN hr ih x hx
      · rw [mem_visit_other hxy, mem_visit_other hxy]
        exact ih x hx
  obtain ⟨s, h1, -, h2⟩ := hs k hk
  obtain ⟨s', h1', -, h2'⟩ := hs' k hk
  refine ⟨s, s', h1, h1', fun c hc => ?_⟩
  obtain ⟨i, -, hi⟩ := ht.ex c hc
  have := key k c hc
  rw [(cellIs_iff h2 hi).1, (cellIs_iff h2 hi).2, (cellIs_iff h2' hi).1, (cellIs_iff h2' hi).2, this]
  exact ⟨not_not.symm, Iff.rfl⟩

/-- C151: if the survival digits contain 0 to 8, a live cell stays alive; if the birth digits contain none of 0 to 8, a dead cell stays dead, whatever sites
are drawn. -/
theorem C151_one_way {S : Structure K 2} {N : Fin 2 → ℤ} (hS : SquareGrid 2 N S) (b sv : List (Fin 10)) (s0 : SimState) (h0 : IsLifeState S s0) (n : ℕ)
    (draw : ℕ → ℕ) (a : AsyncSt (Life.Ctl K × ℕ)) (ha : AsyncLifeRun S (variantText b sv) s0 n draw a) (j k : ℕ) (hjk : j ≤ k) (hk : k ≤ n) :
    ∃ s s', a.res.getStep j = .ok s ∧ a.res.getStep k = .ok s' ∧
      ((∀ q : ℤ, 0 ≤ q → q ≤ 8 → q ∈ digitValues sv) → ∀ c, InBox N c → CellIs S s c "alive" → CellIs S s' c "alive") ∧
      ((∀ q : ℤ, 0 ≤ q → q ≤ 8 → q ∉ digitValues b) → ∀ c, InBox N c → CellIs S s c "dead" → CellIs S s' c "dead") := by
  have ht := hS.isTorus
  obtain ⟨P, hP0, hP, hs⟩ := asyncLifeRun_steps hS h0 ha
  obtain ⟨s, h1, -, h2⟩ := hs j (by omega)
  obtain ⟨s', h1', -, h2'⟩ := hs k hk
  refine ⟨s, s', h1, h1', fun hsv c hc => ?_, fun hb c hc => ?_⟩
  · obtain ⟨i, -, hi⟩ := ht.ex c hc
    rw [(cellIs_iff h2 hi).1, (cellIs_iff h2' hi).1]
    intro h
    induction k, hjk using Nat.le_induction generalizing s' with
    | base => exact h
    | succ k hjk ih =>
      obtain ⟨s'', h3, -, h4⟩ := hs k (by omega)
      have := ih (by omega) s'' h3 h4
      obtain ⟨y, -, -, e⟩ := hP k
      rw [e]
      by_cases hcy : c = y
      · subst hcy
        rw [mem_visit_self]
        exact generation_grows ht.pos hsv hc this
      · rwa [mem_visit_other hcy]
  · obtain ⟨i, -, hi⟩ := ht.ex c hc
    rw [(cellIs_iff h2 hi).2, (cellIs_iff h2' hi).2]
    intro h
    induction k, hjk using Nat.le_induction generalizing s' with
    | base => exact h
    | succ k hjk ih =>
      obtain ⟨s'', h3, -, h4⟩ := hs k (by omega)
      have := ih (by omega) s'' h3 h4
      obtain ⟨y, -, -, e⟩ := hP k
      rw [e]
      by_cases hcy : c = y
      · subst hcy
        rw [mem_visit_self]
        exact generation_shrinks ht.pos hb hc this
      · rwa [mem_visit_other hcy]

/-- C151: once a step of an asynchronous run is at rest, all later steps show the same pattern. -/
theorem C151_stays {S : Structure K 2} {N : Fin 2 → ℤ} (hS : SquareGrid 2 N S) (b sv : List (Fin 10)) (s0 : SimState) (h0 : IsLifeState S s0) (n : ℕ)
    (draw : ℕ → ℕ) (a : AsyncSt (Life.Ctl K × ℕ)) (ha : AsyncLifeRun S (variantText b sv) s0 n draw a) (j k : ℕ) (hjk : j ≤ k) (hk : k ≤ n) (s : SimState)
    (hs : a.res.getStep j = .ok s) (hrest : Resting S N (digitValues b) (digitValues sv) s) :
    ∃ s', a.res.getStep k = .ok s' ∧ SamePattern S N s s' ∧ Resting S N (digitValues b) (digitValues sv) s' := by
  obtain ⟨P, hP0, hP, hst⟩ := asyncLifeRun_steps hS h0 ha
  obtain ⟨s1, h1, -, h2⟩ := hst j (by omega)
  rw [hs] at h1; cases h1
  have hr := (resting_iff hS h2).1 hrest
  have key : ∀ x, InBox N x → (x ∈ P j ↔ x ∈ P k) := by
    clear hk
    induction k, hjk using Nat.le_induction with
    | base => exact fun _ _ => Iff.rfl
    | succ k hjk ih =>
      intro x hx
      obtain ⟨y, -, -, e⟩ := hP k
      rw [e, visit_rest (rest_agree ih hr) y x hx]
      exact ih x hx
  obtain ⟨s', h1', -, h2'⟩ := hst k hk
  exact ⟨s', h1', (samePattern_iff hS h2 h2').2 key, (resting_iff hS h2').2 (rest_agree key hr)⟩

/-- C151: the states at rest are the same for all runners: those in which one step of the serial (or parallel) runner changes no cell, and those in which no
choice of the site lets one asynchronous step change a cell. -/
theorem C151_same_rest {S : Structure K 2} {N : Fin 2 → ℤ} (hS : SquareGrid 2 N S) (b sv : List (Fin 10)) (s0 : SimState) (h0 : IsLifeState S s0) :
    (∀ res, LifeRun S (variantText b sv) s0 1 res →
      (Resting S N (digitValues b) (digitValues sv) s0 ↔ ∃ s, res.getStep 1 = .ok s ∧ SamePattern S N s0 s)) ∧
    (Resting S N (digitValues b) (digitValues sv) s0 ↔
      ∀ draw a, AsyncLifeRun S (variantText b sv) s0 1 draw a → ∃ s, a.res.getStep 1 = .ok s ∧ SamePattern S N s0 s) := by
  have ht := hS.isTorus
  have hL := showsLife_liveCells h0
  constructor
  · intro res hres
    obtain ⟨s, h1, h2⟩ := lifeRun_steps hS h0 hres 1 le_rfl
    rw [resting_iff hS hL]
    constructor
    · exact fun h => ⟨s, h1, (samePattern_iff hS hL h2).2 fun c hc => (h c hc).symm⟩
    · rintro ⟨s', h3, h4⟩ c hc
      have h1 : res.getStep 1 = .ok s := h1
      rw [h1] at h3; cases h3
      exact ((samePattern_iff hS hL h2).1 h4 c hc).symm
  · rw [resting_iff hS hL]
    constructor
    · intro h draw a ha
      obtain ⟨P, hP0, hP, hst⟩ := asyncLifeRun_steps hS h0 ha
      obtain ⟨s, h1, -, h2⟩ := hst 1 le_rfl
      obtain ⟨y, -, -, e⟩ := hP 0
      refine ⟨s, h1, (samePattern_iff hS hL h2).2 fun c hc => ?_⟩
      rw [e, hP0]
      exact (visit_rest h y c hc).symm
    · intro h c hc
      obtain ⟨draw, hd⟩ := (C96_cells hS).1 (fun _ => c) fun _ => hc
      obtain ⟨c1, a, h1, h2, -⟩ := C96_life hS b sv s0 h0.1 h0.2.1 h0.2.2.1 _ hL 1 draw (fun _ => c) hd
      have ha : AsyncLifeRun S (variantText b sv) s0 1 draw a := ⟨c1, h1, h2⟩
      obtain ⟨s, h3, h4⟩ := h draw a ha
      obtain ⟨P, hP0, hP, hst⟩ := asyncLifeRun_steps hS h0 ha
      obtain ⟨s', h5, -, h6⟩ := hst 1 le_rfl
      have h5 : a.res.getStep 1 = .ok s' := h5
      rw [h3] at h5; cases h5
      obtain ⟨y, -, hy, e⟩ := hP 0
      obtain rfl : y = c := IsTorus.has_unique_coord hy (hd 0)
      have := (samePattern_iff hS hL h6).1 h4 y hc
      rw [e, hP0, mem_visit_self] at this
      exact this.symm

/-! ### when the order does not matter -/

/-- Patterns from which the rule only adds cells (`up`), or only removes cells. -/
def Drifts (N : Fin 2 → ℤ) (b sv : List ℤ) (up : Prop) (L : Set (Fin 2 → ℤ)) : Prop :=
  ∀ c, InBox N c → (c ∈ L ↔ up) → (c ∈ generation N b sv L ↔ up)

theorem visit_drifts {N : Fin 2 → ℤ} (hN : ∀ j, 0 < N j) {b sv : List ℤ} (hr : MoreIsBetter b sv) {up : Prop} {L : Set (Fin 2 → ℤ)} (x : Fin 2 → ℤ)
    (h : Drifts N b sv up L) : Drifts N b sv up (visitCell N b sv x L) := by
  intro c hc hcv
  by_cases hu : up
  · simp only [Drifts, hu, iff_true] at h hcv ⊢
    have hsub : ∀ y, InBox N y → y ∈ L → y ∈ visitCell N b sv x L := by
      intro y hy hyL
      by_cases e : y = x
      · subst e; exact mem_visit_self.2 (h y hy hyL)
      · exact (mem_visit_other e).2 hyL
    refine generation_mono hN hr hsub c hc ?_
    by_cases e : c = x
    · subst e; exact mem_visit_self.1 hcv
    · exact h c hc ((mem_visit_other e).1 hcv)
  · simp only [Drifts, hu, iff_false] at h hcv ⊢
    have hsub : ∀ y, InBox N y → y ∈ visitCell N b sv x L → y ∈ L := by
      intro y hy hyv
      by_cases e : y = x
      · subst e
        by_contra hn
        exact h y hy hn (mem_visit_self.1 hyv)
      · exact (mem_visit_other e).1 hyv
    intro hg
    have hg' := generation_mono hN hr hsub c hc hg
    by_cases e : c = x
    · subst e; exact hcv (mem_visit_self.2 hg')
    · exact h c hc (fun hcl => hcv ((mem_visit_other e).2 hcl)) hg'

/-- The serial iterates of a drifting pattern drift, and end at rest. -/
theorem iterate_drifts {N : Fin 2 → ℤ} (hN : ∀ j, 0 < N j) {b sv : List ℤ} (hr : MoreIsBetter b sv) {up : Prop} {L : Set (Fin 2 → ℤ)}
    (h : Drifts N b sv up L) (k : ℕ) : Drifts N b sv up ((generation N b sv)^[k] L) := by
  induction k with
  | zero => exact h
  | succ k ih =>
    rw [Function.iterate_succ_apply']
    intro c hc hcg
    by_cases hu : up
    · simp only [Drifts, hu, iff_true] at ih hcg ⊢
      exact generation_mono hN hr ih c hc hcg
    · simp only [Drifts, hu, iff_false] at ih hcg ⊢
      exact fun hg => hcg (generation_mono hN hr (fun x hx hxg => by
        by_contra hn
        exact ih x hx hn hxg) c hc hg)

theorem iterate_rest {N : Fin 2 → ℤ} (hN : ∀ j, 0 < N j) {b sv : List ℤ} (hr : MoreIsBetter b sv) {up : Prop} {L : Set (Fin 2 → ℤ)}
    (h : Drifts N b sv up L) (k : ℕ) (hk : (N 0 * N 1).toNat ≤ k) : RestPattern N b sv ((generation N b sv)^[k] L) := by
  have hm := fun k => iterate_drifts hN hr h k
  have key := iterate_settles hN b sv L (by
    by_cases hu : up
    · left
      intro k c hc hck
      rw [Function.iterate_succ_apply']
      exact (hm k c hc (by simp [hu, hck])).2 hu
    · right
      intro k c hc hck
      rw [Function.iterate_succ_apply']
      exact fun hg => hu ((hm k c hc (by simp [hu, hck])).1 hg))
  intro c hc
  have e : generation N b sv ((generation N b sv)^[k] L) = (generation N b sv)^[k + 1] L := (Function.iterate_succ_apply' _ _ _).symm
  rw [e, key (k + 1) (by omega) c hc, key k hk c hc]

/-- A pattern at rest that visits have made out of a drifting one is the pattern in which the serial iteration ends. -/
theorem rest_unique {N : Fin 2 → ℤ} (hN : ∀ j, 0 < N j) {b sv : List ℤ} (hr : MoreIsBetter b sv) {up : Prop} {L : Set (Fin 2 → ℤ)}
    (h : Drifts N b sv up L) (P : ℕ → Set (Fin 2 → ℤ)) (hP0 : P 0 = L) (hP : ∀ k, ∃ x, InBox N x ∧ P (k + 1) = visitCell N b sv x (P k)) (k : ℕ)
    (hrest : RestPattern N b sv (P k)) (k' : ℕ) (hk' : (N 0 * N 1).toNat ≤ k') (c : Fin 2 → ℤ) (hc : InBox N c) :
    c ∈ P k ↔ c ∈ (generation N b sv)^[k'] L := by
  have hF := iterate_rest hN hr h k' hk'
  have hdr : ∀ k, Drifts N b sv up (P k) := by
    intro k
    induction k with
    | zero => rw [hP0]; exact h
    | succ k ih =>
      obtain ⟨x, -, e⟩ := hP k
      rw [e]; exact visit_drifts hN hr x ih
  have hIt := fun k => iterate_drifts hN hr h k
  generalize hFe : (generation N b sv)^[k'] L = F at hF
  by_cases hu : up
  · have hLP : ∀ k, ∀ x, InBox N x → x ∈ L → x ∈ P k := by
      intro k
      induction k with
      | zero => rw [hP0]; exact fun _ _ => id
      | succ k ih =>
        intro x hx hxl
        obtain ⟨y, -, e⟩ := hP k
        rw [e]
        by_cases hxy : x = y
        · subst hxy
          exact mem_visit_self.2 ((hdr k x hx (by simp [hu, ih x hx hxl])).2 hu)
        · exact (mem_visit_other hxy).2 (ih x hx hxl)
    have hLI : ∀ j, ∀ x, InBox N x → x ∈ L → x ∈ (generation N b sv)^[j] L := by
      intro j
      induction j with
      | zero => exact fun _ _ => id
      | succ j ih =>
        intro x hx hxl
        rw [Function.iterate_succ_apply']
        exact (hIt j x hx (by simp [hu, ih x hx hxl])).2 hu
    constructor
    · have : ∀ k, ∀ x, InBox N x → x ∈ P k → x ∈ F := by
        intro k
        induction k with
        | zero => rw [hP0, ← hFe]; exact hLI k'
        | succ k ih =>
          intro x hx hxp
          obtain ⟨y, -, e⟩ := hP k
          rw [e] at hxp
          by_cases hxy : x = y
          · subst hxy
            exact (hF x hx).1 (generation_mono hN hr ih x hx (mem_visit_self.1 hxp))
          · exact ih x hx ((mem_visit_other hxy).1 hxp)
      exact this k c hc
    · have : ∀ j, ∀ x, InBox N x → x ∈ (generation N b sv)^[j] L → x ∈ P k := by
        intro j
        induction j with
        | zero => exact hLP k
        | succ j ih =>
          intro x hx hxg
          rw [Function.iterate_succ_apply'] at hxg
          exact (hrest x hx).1 (generation_mono hN hr ih x hx hxg)
      rw [← hFe]
      exact this k' c hc
  · have hLP : ∀ k, ∀ x, InBox N x → x ∈ P k → x ∈ L := by
      intro k
      induction k with
      | zero => rw [hP0]; exact fun _ _ => id
      | succ k ih =>
        intro x hx hxp
        obtain ⟨y, -, e⟩ := hP k
        rw [e] at hxp
        by_cases hxy : x = y
        · subst hxy
          by_contra hn
          exact hu ((hdr k x hx ⟨fun h' => absurd (ih x hx h') hn, fun h' => absurd h' hu⟩).1 (mem_visit_self.1 hxp))
        · exact ih x hx ((mem_visit_other hxy).1 hxp)
    have hLI : ∀ j, ∀ x, InBox N x → x ∈ (generation N b sv)^[j] L → x ∈ L := by
      intro j
      induction j with
      | zero => exact fun _ _ => id
      | succ j ih =>
        intro x hx hxg
        rw [Function.iterate_succ_apply'] at hxg
        by_contra hn
        exact hu ((hIt j x hx ⟨fun h' => absurd (ih x hx h') hn, fun h' => absurd h' hu⟩).1 hxg)
    constructor
    · have : ∀ j, ∀ x, InBox N x → x ∈ P k → x ∈ (generation N b sv)^[j] L := by
        intro j
        induction j with
        | zero => exact hLP k
        | succ j ih =>
          intro x hx hxp
          rw [Function.iterate_succ_apply']
          exact generation_mono hN hr ih x hx ((hrest x hx).2 hxp)
      rw [← hFe]
      exact this k' c hc
    · have : ∀ k, ∀ x, InBox N x → x ∈ F → x ∈ P k := by
        intro k
        induction k with
        | zero => rw [hP0, ← hFe]; exact hLI k'
        | succ k ih =>
          intro x hx hxf
          obtain ⟨y, -, e⟩ := hP k
          rw [e]
          by_cases hxy : x = y
          · subst hxy
            exact mem_visit_self.2 (generation_mono hN hr ih x hx ((hF x hx).2 hxf))
          · exact (mem_visit_other hxy).2 (ih x hx hxf)
      exact this k c hc

theorem oneWay_drifts {S : Structure K 2} {N : Fin 2 → ℤ} (hS : SquareGrid 2 N S) {b sv : List ℤ} {s : SimState} {L : Set (Fin 2 → ℤ)}
    (hL : ShowsLife S s L) (h : OneWay S N b sv s) : ∃ up : Prop, Drifts N b sv up L := by
  have ht := hS.isTorus
  have hag : ∀ c, liveAround N {x | CellIs S s x "alive"} c = liveAround N L c := liveAround_agree fun x hx => by
    obtain ⟨i, -, hi⟩ := ht.ex x hx
    exact (cellIs_iff hL hi).1
  rcases h with h | h
  · refine ⟨True, fun c hc => ?_⟩
    obtain ⟨i, -, hi⟩ := ht.ex c hc
    have := h c hc
    rw [(cellIs_iff hL hi).1, hag] at this
    simp only [iff_true]
    exact fun h1 => .inl ⟨h1, this h1⟩
  · refine ⟨False, fun c hc => ?_⟩
    obtain ⟨i, -, hi⟩ := ht.ex c hc
    have := h c hc
    rw [(cellIs_iff hL hi).2, hag] at this
    simp only [iff_false]
    rintro h1 (⟨h2, -⟩ | ⟨-, h2⟩)
    · exact h1 h2
    · exact this h1 h2

/-- C151: for a rule for which more live neighbours never hurt, from a state in which no live cell wants to die (or no dead cell wants to be born): every
asynchronous run that comes to rest, whatever sites were drawn, ends in the pattern in which the serial (or parallel) runner comes to rest, which takes at
most as many steps as there are cells. -/
theorem C151_order {S : Structure K 2} {N : Fin 2 → ℤ} (hS : SquareGrid 2 N S) (b sv : List (Fin 10)) (hr : MoreIsBetter (digitValues b) (digitValues sv))
    (s0 : SimState) (h0 : IsLifeState S s0) (hw : OneWay S N (digitValues b) (digitValues sv) s0) (n : ℕ) (draw : ℕ → ℕ) (a : AsyncSt (Life.Ctl K × ℕ))
    (ha : AsyncLifeRun S (variantText b sv) s0 n draw a) (k : ℕ) (hk : k ≤ n) (s : SimState) (hs : a.res.getStep k = .ok s)
    (hrest : Resting S N (digitValues b) (digitValues sv) s) (n' : ℕ) (res : SimResult) (hres : LifeRun S (variantText b sv) s0 n' res) (k' : ℕ) (hk' : k' ≤ n')
    (hlate : (N 0 * N 1).toNat ≤ k') :
    ∃ s', res.getStep k' = .ok s' ∧ SamePattern S N s s' ∧ Resting S N (digitValues b) (digitValues sv) s' := by
  have ht := hS.isTorus
  obtain ⟨up, hd⟩ := oneWay_drifts hS (showsLife_liveCells h0) hw
  obtain ⟨P, hP0, hP, hst⟩ := asyncLifeRun_steps hS h0 ha
  obtain ⟨s1, h1, -, h2⟩ := hst k hk
  rw [hs] at h1; cases h1
  obtain ⟨s', h3, h4⟩ := lifeRun_steps hS h0 hres k' hk'
  refine ⟨s', h3, (samePattern_iff hS h2 h4).2 fun c hc => ?_, (resting_iff hS h4).2 (iterate_rest ht.pos hr hd k' hlate)⟩
  exact rest_unique ht.pos hr hd P hP0 (fun k => by
    obtain ⟨x, hx, -, e⟩ := hP k
    exact ⟨x, hx, e⟩) k ((resting_iff hS h2).1 hrest) k' hlate c hc

/-! ### coming to rest with probability 1 -/

open Classical in
/-- How far the pattern is from rest: nothing if it is at rest, otherwise the number of cells that can still change. -/
noncomputable def unrest (N : Fin 2 → ℤ) (b sv : List ℤ) (up : Prop) (L : Set (Fin 2 → ℤ)) : ℕ :=
  if RestPattern N b sv L then 0 else {c | InBox N c ∧ ¬ (c ∈ L ↔ up)}.ncard

theorem box_finite {N : Fin 2 → ℤ} (p : (Fin 2 → ℤ) → Prop) : {c | InBox N c ∧ p c}.Finite :=
  Set.Finite.subset (boxCells N).finite_toSet fun _ hc => mem_boxCells.2 hc.1

theorem unrest_le {N : Fin 2 → ℤ} {b sv : List ℤ} {up : Prop} {L : Set (Fin 2 → ℤ)} {x : Fin 2 → ℤ} (h : Drifts N b sv up L) :
    unrest N b sv up (visitCell N b sv x L) ≤ unrest N b sv up L := by
  classical
  unfold unrest
  by_cases hr : RestPattern N b sv L
  · rw [if_pos hr, if_pos (rest_agree (fun c hc => (visit_rest hr x c hc).symm) hr)]
  · rw [if_neg hr]
    by_cases hr' : RestPattern N b sv (visitCell N b sv x L)
    · rw [if_pos hr']; omega
    · rw [if_neg hr']
      refine Set.ncard_le_ncard (fun c hc => ?_) (box_finite _)
      refine ⟨hc.1, fun hcl => hc.2 ?_⟩
      by_cases e : c = x
      · subst e
        rw [mem_visit_self]
        exact h c hc.1 hcl
      · rwa [mem_visit_other e]

theorem unrest_lt {N : Fin 2 → ℤ} {b sv : List ℤ} {up : Prop} {L : Set (Fin 2 → ℤ)} (h : Drifts N b sv up L) (hpos : 0 < unrest N b sv up L) :
    ∃ x, InBox N x ∧ unrest N b sv up (visitCell N b sv x L) < unrest N b sv up L := by
  classical
  have hr : ¬ RestPattern N b sv L := fun hr => by
    unfold unrest at hpos
    rw [if_pos hr] at hpos
    omega
  obtain ⟨x, hx, hne⟩ : ∃ x, InBox N x ∧ ¬ (x ∈ generation N b sv L ↔ x ∈ L) := by
    unfold RestPattern at hr
    push Not at hr
    obtain ⟨x, hx, hr⟩ := hr
    refine ⟨x, hx, fun e => ?_⟩
    rcases hr with ⟨h1, h2⟩ | ⟨h1, h2⟩
    · exact h2 (e.1 h1)
    · exact h1 (e.2 h2)
  have hxl : ¬ (x ∈ L ↔ up) := fun e => hne ((h x hx e).trans e.symm)
  have hxg : x ∈ generation N b sv L ↔ up := by
    by_cases hu : up <;> by_cases h1 : x ∈ L <;> by_cases h2 : x ∈ generation N b sv L <;> simp_all
  refine ⟨x, hx, ?_⟩
  have hlt : {c | InBox N c ∧ ¬ (c ∈ visitCell N b sv x L ↔ up)}.ncard < {c | InBox N c ∧ ¬ (c ∈ L ↔ up)}.ncard := by
    refine Set.ncard_lt_ncard ((Set.ssubset_iff_of_subset fun c hc => ?_).2 ⟨x, ⟨hx, hxl⟩, fun hin => ?_⟩) (box_finite _)
    · refine ⟨hc.1, fun hcl => hc.2 ?_⟩
      by_cases e : c = x
      · subst e
        rw [mem_visit_self]
        exact h c hc.1 hcl
      · rwa [mem_visit_other e]
    · exact hin.2 (mem_visit_self.trans hxg)
  unfold unrest
  rw [if_neg hr]
  split
  · omega
  · exact hlt

theorem async_settles {S : Structure K 2} {N : Fin 2 → ℤ} (hS : SquareGrid 2 N S) (b sv : List (Fin 10)) (s0 : SimState) (h0 : IsLifeState S s0) (up : Prop)
    (Inv : Set (Fin 2 → ℤ) → Prop) (hI0 : Inv (liveCells S s0)) (hI : ∀ L x, InBox N x → Inv L → Inv (visitCell N (digitValues b) (digitValues sv) x L))
    (hd : ∀ L, Inv L → Drifts N (digitValues b) (digitValues sv) up L) (n : ℕ) :
    1 - 2 ^ unrest N (digitValues b) (digitValues sv) up (liveCells S s0) * (1 - 1 / (2 * (S.siteIds.length : ℝ))) ^ n ≤
      chance S.siteIds.length (n + 1) fun f => ∃ a s, AsyncLifeRun S (variantText b sv) s0 n (outcome f) a ∧ a.res.getStep n = .ok s ∧
        Resting S N (digitValues b) (digitValues sv) s := by
  have ht := hS.isTorus
  have hpos : 0 < S.siteIds.length := List.length_pos_of_ne_nil ht.ids_ne
  have hmem : ∀ i, i < S.siteIds.length → i ∈ S.siteIds := fun i hi => by rw [siteIds_eq ht.reachable] at hi ⊢; simpa using hi
  choose! cell hbox hcell using fun i (hi : i ∈ S.siteIds) => ht.site i hi
  have hset := chance_settle (step := fun i => visitCell N (digitValues b) (digitValues sv) (cell i)) (μ := unrest N (digitValues b) (digitValues sv) up)
    (Inv := Inv) hpos (fun L hL i hi => ⟨hI L _ (hbox i (hmem i hi)) hL, unrest_le (hd L hL)⟩) (fun L hL hp => by
      obtain ⟨x, hx, hlt⟩ := unrest_lt (hd L hL) hp
      obtain ⟨i, hi, hix⟩ := ht.ex x hx
      obtain rfl : cell i = x := IsTorus.has_unique_coord (hcell i hi) hix
      exact ⟨i, by rw [siteIds_eq ht.reachable] at hi ⊢; simpa using hi, hlt⟩) n (liveCells S s0) hI0
  have hcompl : chance S.siteIds.length (n + 1) (fun f => ¬ ∃ a s, AsyncLifeRun S (variantText b sv) s0 n (outcome f) a ∧ a.res.getStep n = .ok s ∧
      Resting S N (digitValues b) (digitValues sv) s) ≤ chance S.siteIds.length n (fun f => 0 < unrest N (digitValues b) (digitValues sv) up
        (walk (fun i => visitCell N (digitValues b) (digitValues sv) (cell i)) (outcome f) (liveCells S s0) n)) := by
    rw [← chance_init hpos fun f => 0 < unrest N (digitValues b) (digitValues sv) up
        (walk (fun i => visitCell N (digitValues b) (digitValues sv) (cell i)) (outcome f) (liveCells S s0) n)]
    refine chance_mono fun f hf => ?_
    by_contra hzero
    apply hf
    obtain ⟨c, a, h1, h2, -, h3⟩ := C96_life hS b sv s0 h0.1 h0.2.1 h0.2.2.1 _ (showsLife_liveCells h0) n (outcome f) (fun k => cell (outcome f k))
      fun k => by
        rw [Nat.mod_eq_of_lt (outcome_lt hpos f k)]
        exact hcell _ (hmem _ (outcome_lt hpos f k))
    obtain ⟨s, h4, -, h5⟩ := h3 n le_rfl
    have e : ∀ k, k ≤ n → walk (fun i => visitCell N (digitValues b) (digitValues sv) (cell i)) (outcome (Fin.init f)) (liveCells S s0) k =
        oneByOne N (digitValues b) (digitValues sv) (fun k => cell (outcome f k)) (liveCells S s0) k := by
      intro k
      induction k with
      | zero => intro _; rfl
      | succ k ih =>
        intro hk
        simp only [walk, oneByOne]
        rw [ih (by omega), outcome_init f (by omega)]
        rfl
    rw [e n le_rfl] at hzero
    have hinv : ∀ k, Inv (oneByOne N (digitValues b) (digitValues sv) (fun k => cell (outcome f k)) (liveCells S s0) k) := by
      intro k
      induction k with
      | zero => exact hI0
      | succ k ih => exact hI _ _ (hbox _ (hmem _ (outcome_lt hpos f k))) ih
    refine ⟨a, s, ⟨c, h1, h2⟩, h4, (resting_iff hS h5).2 ?_⟩
    by_contra hr
    apply hzero
    have hdn := hd _ (hinv n)
    unfold unrest
    rw [if_neg hr, Set.ncard_pos (box_finite _)]
    by_contra hemp
    rw [Set.not_nonempty_iff_eq_empty] at hemp
    refine hr fun c hc => ?_
    have hcu : c ∈ oneByOne N (digitValues b) (digitValues sv) (fun k => cell (outcome f k)) (liveCells S s0) n ↔ up := by
      by_contra hn
      exact Set.eq_empty_iff_forall_notMem.1 hemp c ⟨hc, hn⟩
    exact (hdn c hc hcu).trans hcu.symm
  rw [chance_not hpos] at hcompl
  linarith

theorem unrest_dead {S : Structure K 2} {N : Fin 2 → ℤ} (hS : SquareGrid 2 N S) (b sv : List ℤ) {s0 : SimState} (h0 : IsLifeState S s0) :
    unrest N b sv True (liveCells S s0) ≤ {c | InBox N c ∧ CellIs S s0 c "dead"}.ncard := by
  classical
  unfold unrest
  split
  · omega
  · refine Set.ncard_le_ncard ?_ (box_finite _)
    intro c hc
    rw [Set.mem_ofPred_eq, iff_true] at hc
    obtain ⟨i, -, hi⟩ := hS.isTorus.ex c hc.1
    exact ⟨hc.1, (cellIs_iff (showsLife_liveCells h0) hi).2.2 hc.2⟩

theorem unrest_alive {S : Structure K 2} {N : Fin 2 → ℤ} (b sv : List ℤ) {s0 : SimState} :
    unrest N b sv False (liveCells S s0) ≤ {c | InBox N c ∧ CellIs S s0 c "alive"}.ncard := by
  classical
  unfold unrest
  split
  · omega
  · refine Set.ncard_le_ncard ?_ (box_finite _)
    intro c hc
    rw [Set.mem_ofPred_eq, iff_false, not_not] at hc
    exact hc

theorem weaken_bound {m : ℕ} (hm : 0 < m) {u v : ℕ} (huv : u ≤ v) (n : ℕ) {p : ℝ} (h : 1 - 2 ^ u * (1 - 1 / (2 * (m : ℝ))) ^ n ≤ p) :
    1 - 2 ^ v * (1 - 1 / (2 * (m : ℝ))) ^ n ≤ p := by
  have hmR : (1 : ℝ) ≤ m := by exact_mod_cast hm
  have hρ : (0 : ℝ) ≤ 1 - 1 / (2 * m) := by
    have : (1 : ℝ) / (2 * m) ≤ 1 := by rw [div_le_one (by linarith)]; linarith
    linarith
  have h1 : (2 : ℝ) ^ u ≤ 2 ^ v := pow_le_pow_right₀ (by norm_num) huv
  have h2 := mul_le_mul_of_nonneg_right h1 (pow_nonneg hρ n)
  linarith

theorem bound_tends {m : ℕ} (hm : 0 < m) (u : ℕ) {E : ∀ n, (Fin (n + 1) → Fin m) → Prop}
    (h : ∀ n, 1 - 2 ^ u * (1 - 1 / (2 * (m : ℝ))) ^ n ≤ chance m (n + 1) (E n)) : Filter.Tendsto (fun n => chance m (n + 1) (E n)) Filter.atTop (nhds 1) := by
  have hmR : (1 : ℝ) ≤ m := by exact_mod_cast hm
  have hρ : (0 : ℝ) ≤ 1 - 1 / (2 * m) := by
    have : (1 : ℝ) / (2 * m) ≤ 1 := by rw [div_le_one (by linarith)]; linarith
    linarith
  have hρ1 : (1 : ℝ) - 1 / (2 * m) < 1 := by
    have : (0 : ℝ) < 1 / (2 * m) := by positivity
    linarith
  have hlim : Filter.Tendsto (fun n : ℕ => 1 - 2 ^ u * (1 - 1 / (2 * (m : ℝ))) ^ n) Filter.atTop (nhds 1) := by
    have := ((tendsto_pow_atTop_nhds_zero_of_lt_one hρ hρ1).const_mul ((2 : ℝ) ^ u)).const_sub 1
    simpa using this
  refine tendsto_of_tendsto_of_tendsto_of_le_of_le hlim tendsto_const_nhds h fun n => ?_
  show chance m (n + 1) _ ≤ 1
  rw [← chance_true (m := m) (k := n + 1) hm]
  exact chance_mono fun _ _ => trivial

/-- C151: a rule without deaths comes to rest: with `u` dead cells at the start and `m` cells, the probability that step `n` of an asynchronous run with
sites drawn at random is at rest is at least 1 - 2^u (1 - 1/(2m))^n. -/
theorem C151_settles_no_deaths {S : Structure K 2} {N : Fin 2 → ℤ} (hS : SquareGrid 2 N S) (b sv : List (Fin 10))
    (hsv : ∀ k : ℤ, 0 ≤ k → k ≤ 8 → k ∈ digitValues sv) (s0 : SimState) (h0 : IsLifeState S s0) (n : ℕ) :
    1 - 2 ^ {c | InBox N c ∧ CellIs S s0 c "dead"}.ncard * (1 - 1 / (2 * (S.siteIds.length : ℝ))) ^ n ≤
      chance S.siteIds.length (n + 1) fun f => ∃ a s, AsyncLifeRun S (variantText b sv) s0 n (outcome f) a ∧ a.res.getStep n = .ok s ∧
        Resting S N (digitValues b) (digitValues sv) s := by
  have ht := hS.isTorus
  refine weaken_bound (List.length_pos_of_ne_nil ht.ids_ne) (unrest_dead hS (digitValues b) (digitValues sv) h0) n
    (async_settles hS b sv s0 h0 True (fun _ => True) trivial (fun _ _ _ _ => trivial) (fun L _ c hc h => ?_) n)
  simp only [iff_true] at h ⊢
  exact generation_grows ht.pos hsv hc h

/-- C151: a rule without births comes to rest, with `u` live cells at the start. -/
theorem C151_settles_no_births {S : Structure K 2} {N : Fin 2 → ℤ} (hS : SquareGrid 2 N S) (b sv : List (Fin 10))
    (hb : ∀ k : ℤ, 0 ≤ k → k ≤ 8 → k ∉ digitValues b) (s0 : SimState) (h0 : IsLifeState S s0) (n : ℕ) :
    1 - 2 ^ {c | InBox N c ∧ CellIs S s0 c "alive"}.ncard * (1 - 1 / (2 * (S.siteIds.length : ℝ))) ^ n ≤
      chance S.siteIds.length (n + 1) fun f => ∃ a s, AsyncLifeRun S (variantText b sv) s0 n (outcome f) a ∧ a.res.getStep n = .ok s ∧
        Resting S N (digitValues b) (digitValues sv) s := by
  have ht := hS.isTorus
  refine weaken_bound (List.length_pos_of_ne_nil ht.ids_ne) (unrest_alive (digitValues b) (digitValues sv)) n
    (async_settles hS b sv s0 h0 False (fun _ => True) trivial (fun _ _ _ _ => trivial) (fun L _ c hc h => ?_) n)
  simp only [iff_false] at h ⊢
  exact generation_shrinks ht.pos hb hc h

/-- C151: in both cases the probability tends to 1. -/
theorem C151_settles_limit {S : Structure K 2} {N : Fin 2 → ℤ} (hS : SquareGrid 2 N S) (b sv : List (Fin 10))
    (h : (∀ k : ℤ, 0 ≤ k → k ≤ 8 → k ∈ digitValues sv) ∨ ∀ k : ℤ, 0 ≤ k → k ≤ 8 → k ∉ digitValues b) (s0 : SimState) (h0 : IsLifeState S s0) :
    Filter.Tendsto (fun n => chance S.siteIds.length (n + 1) fun f => ∃ a s, AsyncLifeRun S (variantText b sv) s0 n (outcome f) a ∧
      a.res.getStep n = .ok s ∧ Resting S N (digitValues b) (digitValues sv) s) Filter.atTop (nhds 1) := by
  have hpos : 0 < S.siteIds.length := List.length_pos_of_ne_nil hS.isTorus.ids_ne
  rcases h with h | h
  · exact bound_tends hpos _ fun n => C151_settles_no_deaths hS b sv h s0 h0 n
  · exact bound_tends hpos _ fun n => C151_settles_no_births hS b sv h s0 h0 n

/-- C151: for a rule for which more live neighbours never hurt, from a state in which no live cell wants to die (or no dead cell wants to be born), the
probability that step `n` of an asynchronous run shows the pattern in which the serial (or parallel) run ends tends to 1. -/
theorem C151_order_limit {S : Structure K 2} {N : Fin 2 → ℤ} (hS : SquareGrid 2 N S) (b sv : List (Fin 10))
    (hr : MoreIsBetter (digitValues b) (digitValues sv)) (s0 : SimState) (h0 : IsLifeState S s0) (hw : OneWay S N (digitValues b) (digitValues sv) s0)
    (n' : ℕ) (res : SimResult) (hres : LifeRun S (variantText b sv) s0 n' res) (hlate : (N 0 * N 1).toNat ≤ n') (s' : SimState)
    (hs' : res.getStep n' = .ok s') :
    Filter.Tendsto (fun n => chance S.siteIds.length (n + 1) fun f => ∃ a s, AsyncLifeRun S (variantText b sv) s0 n (outcome f) a ∧
      a.res.getStep n = .ok s ∧ SamePattern S N s s') Filter.atTop (nhds 1) := by
  have ht := hS.isTorus
  have hpos : 0 < S.siteIds.length := List.length_pos_of_ne_nil ht.ids_ne
  obtain ⟨up, hd⟩ := oneWay_drifts hS (showsLife_liveCells h0) hw
  refine bound_tends hpos (unrest N (digitValues b) (digitValues sv) up (liveCells S s0)) fun n => ?_
  refine (async_settles hS b sv s0 h0 up (Drifts N (digitValues b) (digitValues sv) up) hd (fun L x _ h => visit_drifts ht.pos hr x h)
    (fun _ h => h) n).trans (chance_mono fun f => ?_)
  rintro ⟨a, s, ha, hs, hrest⟩
  obtain ⟨s2, h1, h2, -⟩ := C151_order hS b sv hr s0 h0 hw n (outcome f) a ha n le_rfl s hs hrest n' res hres n' le_rfl hlate
  rw [hs'] at h1; cases h1
  exact ⟨a, s, ha, hs, h2⟩

/-- On every grid, from every pattern, for every rule and all draws there is an asynchronous run. -/
theorem asyncLifeRun_exists {S : Structure K 2} {N : Fin 2 → ℤ} (hS : SquareGrid 2 N S) (b sv : List (Fin 10)) (L : Set (Fin 2 → ℤ)) (n : ℕ)
    (draw : ℕ → ℕ) : ∃ s0 a, IsLifeState S s0 ∧ (∀ c, InBox N c → (CellIs S s0 c "alive" ↔ c ∈ L)) ∧ AsyncLifeRun S (variantText b sv) s0 n draw a := by
  obtain ⟨s0, -, -, -, h1, -, -, h2, -⟩ := opposite_runs_exist hS L 0
  obtain ⟨cells, hcells⟩ := (C96_cells hS).2 draw
  obtain ⟨c, a, h3, h4, -⟩ := C96_life hS b sv s0 h1.1 h1.2.1 h1.2.2.1 _ (showsLife_liveCells h1) n draw cells fun k => (hcells k).2
  exact ⟨s0, a, h1, h2, c, h3, h4⟩

/-- On the torus of width and height 3 every cell is next to every other. -/
theorem liveAround_three (L : Set (Fin 2 → ℤ)) (c : Fin 2 → ℤ) (hc : InBox (fun _ => 3) c) :
    liveAround (fun _ => 3) L c = {x | InBox (fun _ => 3) x ∧ x ≠ c ∧ x ∈ L}.ncard := by
  unfold liveAround
  congr 1
  ext x
  constructor
  · rintro ⟨h1, h2, -, h3⟩; exact ⟨h1, h2, h3⟩
  · rintro ⟨h1, h2, h3⟩
    refine ⟨h1, h2, fun j => (circ_le_iff (by norm_num) _ _).2 ?_, h3⟩
    have e1 := hc j
    have e2 := h1 j
    simp only at e1 e2
    rcases (by omega : c j - x j = -2 ∨ c j - x j = -1 ∨ c j - x j = 0 ∨ c j - x j = 1 ∨ c j - x j = 2) with e | e | e | e | e
    · exact ⟨1, by rw [e]; norm_num⟩
    · exact ⟨0, by rw [e]; norm_num⟩
    · exact ⟨0, by rw [e]; norm_num⟩
    · exact ⟨0, by rw [e]; norm_num⟩
    · exact ⟨-1, by rw [e]; norm_num⟩

/-- C151: the condition on the digits is needed: with the rule B1/S012345678 (no deaths) on the torus of width and height 3 there is a state from which
some asynchronous run is at rest after one step, and every serial (or parallel) run ends in another pattern. -/
theorem C151_order_needed {S : Structure K 2} (hS : SquareGrid 2 (fun _ => 3) S) :
    ∃ s0 draw a s, IsLifeState S s0 ∧ OneWay S (fun _ => 3) (digitValues [1]) (digitValues [0, 1, 2, 3, 4, 5, 6, 7, 8]) s0 ∧
      AsyncLifeRun S (variantText [1] [0, 1, 2, 3, 4, 5, 6, 7, 8]) s0 1 draw a ∧ a.res.getStep 1 = .ok s ∧
      Resting S (fun _ => 3) (digitValues [1]) (digitValues [0, 1, 2, 3, 4, 5, 6, 7, 8]) s ∧
      ∀ n res, LifeRun S (variantText [1] [0, 1, 2, 3, 4, 5, 6, 7, 8]) s0 n res → ∀ k : ℕ, 0 < k → k ≤ n → ∃ s', res.getStep k = .ok s' ∧
        ¬ SamePattern S (fun _ => 3) s s' := by
  have ht := hS.isTorus
  set b : List ℤ := digitValues [1] with hb
  set sv : List ℤ := digitValues [0, 1, 2, 3, 4, 5, 6, 7, 8] with hsv
  have hfull : ∀ k : ℤ, 0 ≤ k → k ≤ 8 → k ∈ sv := by
    intro k h1 h2
    have : ∀ m : Fin 9, ((m : ℕ) : ℤ) ∈ digitValues [0, 1, 2, 3, 4, 5, 6, 7, 8] := by decide +kernel
    have h3 := this ⟨k.toNat, by omega⟩
    rwa [show (((⟨k.toNat, by omega⟩ : Fin 9) : ℕ) : ℤ) = k from Int.toNat_of_nonneg h1] at h3
  have hb1 : ∀ k : ℤ, k ∈ b ↔ k = 1 := fun k => by simp [hb, digitValues]
  have z0 : InBox (fun _ => 3) (0 : Fin 2 → ℤ) := fun j => by simp
  have z1 : InBox (fun _ => 3) (1 : Fin 2 → ℤ) := fun j => by simp
  have z2 : InBox (fun _ => 3) (2 : Fin 2 → ℤ) := fun j => ⟨by simp, by show (2 : ℤ) < 3; norm_num⟩
  have n10 : (1 : Fin 2 → ℤ) ≠ 0 := fun e => by simpa using congrFun e 0
  have n20 : (2 : Fin 2 → ℤ) ≠ 0 := fun e => by simpa using congrFun e 0
  have n21 : (2 : Fin 2 → ℤ) ≠ 1 := fun e => by have := congrFun e 0; revert this; show ¬ (2 : ℤ) = 1; norm_num
  have hone : ∀ L : Set (Fin 2 → ℤ), (∀ x, InBox (fun _ => 3) x → (x ∈ L ↔ x = 0)) → ∀ c, InBox (fun _ => 3) c → c ≠ 0 →
      liveAround (fun _ => 3) L c = 1 := by
    intro L hL c hc hc0
    rw [liveAround_three L c hc, Set.ncard_eq_one]
    refine ⟨0, ?_⟩
    ext x
    constructor
    · rintro ⟨h1, -, h2⟩; exact (hL x h1).1 h2
    · rintro rfl; exact ⟨z0, hc0.symm, (hL 0 z0).2 rfl⟩
  have htwo : ∀ L : Set (Fin 2 → ℤ), (∀ x, InBox (fun _ => 3) x → (x ∈ L ↔ x = 0 ∨ x = 1)) → ∀ c, InBox (fun _ => 3) c → c ≠ 0 → c ≠ 1 →
      liveAround (fun _ => 3) L c = 2 := by
    intro L hL c hc hc0 hc1
    rw [liveAround_three L c hc, Set.ncard_eq_two]
    refine ⟨0, 1, n10.symm, ?_⟩
    ext x
    constructor
    · rintro ⟨h1, -, h2⟩; exact (hL x h1).1 h2
    · rintro (rfl | rfl)
      · exact ⟨z0, hc0.symm, (hL 0 z0).2 (.inl rfl)⟩
      · exact ⟨z1, hc1.symm, (hL 1 z1).2 (.inr rfl)⟩
  obtain ⟨draw, hd⟩ := (C96_cells hS).1 (fun _ => 1) fun _ => z1
  obtain ⟨s0, a, h0, hL0, ha⟩ := asyncLifeRun_exists hS [1] [0, 1, 2, 3, 4, 5, 6, 7, 8] {0} 1 draw
  have hL0 : ∀ x, InBox (fun _ => 3) x → (x ∈ liveCells S s0 ↔ x = 0) := hL0
  obtain ⟨P, hP0, hP, hst⟩ := asyncLifeRun_steps hS h0 ha
  obtain ⟨s, h1, -, h2⟩ := hst 1 le_rfl
  obtain ⟨y, -, hy, e⟩ := hP 0
  obtain rfl : y = 1 := IsTorus.has_unique_coord hy (hd 0)
  have hP1 : ∀ x, InBox (fun _ => 3) x → (x ∈ P 1 ↔ x = 0 ∨ x = 1) := by
    intro x hx
    rw [e, hP0]
    by_cases hx1 : x = 1
    · subst hx1
      rw [mem_visit_self]
      exact ⟨fun _ => .inr rfl, fun _ => .inr ⟨fun h => n10 ((hL0 1 z1).1 h), (hb1 _).2 (by rw [hone _ hL0 1 z1 n10]; rfl)⟩⟩
    · rw [mem_visit_other hx1, hL0 x hx]
      simp [hx1]
  refine ⟨s0, draw, a, s, h0, .inl fun c hc _ => hfull _ (by omega) (by have := liveAround_le ht.pos {x | CellIs S s0 x "alive"} c hc; omega), ha, h1,
    (resting_iff hS h2).2 fun c hc => ⟨?_, generation_grows ht.pos hfull hc⟩, fun n res hres k hk hkn => ?_⟩
  · rintro (⟨h3, -⟩ | ⟨h3, h4⟩)
    · exact h3
    · exfalso
      rw [hP1 c hc, not_or] at h3
      rw [htwo _ hP1 c hc h3.1 h3.2, hb1] at h4
      norm_num at h4
  · obtain ⟨s', h3, h4⟩ := lifeRun_steps hS h0 hres k hkn
    refine ⟨s', h3, fun hsame => ?_⟩
    have := (samePattern_iff hS h2 h4).1 hsame 2 z2
    rw [hP1 2 z2] at this
    have hin : ∀ k : ℕ, (2 : Fin 2 → ℤ) ∈ (generation (fun _ => 3) b sv)^[k + 1] (liveCells S s0) := by
      intro k
      induction k with
      | zero => exact .inr ⟨fun h => n20 ((hL0 2 z2).1 h), (hb1 _).2 (by rw [hone _ hL0 2 z2 n20]; rfl)⟩
      | succ k ih =>
        rw [Function.iterate_succ_apply']
        exact generation_grows ht.pos hfull z2 ih
    obtain ⟨k, rfl⟩ : ∃ j, k = j + 1 := ⟨k - 1, by omega⟩
    rcases this.2 (hin k) with h5 | h5
    · exact n20 h5
    · exact n21 h5

/-! ### the hypotheses can be met -/

/-- B345678/S012345678 (a cell joins when three neighbours have) and B/S45678 (cells with fewer than four live neighbours die). -/
example : MoreIsBetter (digitValues [3, 4, 5, 6, 7, 8]) (digitValues [0, 1, 2, 3, 4, 5, 6, 7, 8]) ∧ MoreIsBetter (digitValues []) (digitValues [4, 5, 6, 7, 8]) := by
  have key : ∀ b sv : List (Fin 10), (∀ m m' : Fin 9, m ≤ m' → (((m : ℕ) : ℤ) ∈ digitValues b → ((m' : ℕ) : ℤ) ∈ digitValues b) ∧
      (((m : ℕ) : ℤ) ∈ digitValues sv → ((m' : ℕ) : ℤ) ∈ digitValues sv) ∧ (((m : ℕ) : ℤ) ∈ digitValues b → ((m : ℕ) : ℤ) ∈ digitValues sv)) →
      MoreIsBetter (digitValues b) (digitValues sv) := by
    intro b sv h k k' h1 h2 h3
    have := h ⟨k.toNat, by omega⟩ ⟨k'.toNat, by omega⟩ (by show k.toNat ≤ k'.toNat; omega)
    simpa only [Int.toNat_of_nonneg h1, Int.toNat_of_nonneg (h1.trans h2)] using this
  exact ⟨key _ _ (by decide +kernel), key _ _ (by decide +kernel)⟩

/-- With a rule without deaths or without births, every state is one in which no live cell wants to die, or no dead cell wants to be born. -/
theorem oneWay_of_digits {S : Structure K 2} {N : Fin 2 → ℤ} (hS : SquareGrid 2 N S) {b sv : List ℤ}
    (h : (∀ k : ℤ, 0 ≤ k → k ≤ 8 → k ∈ sv) ∨ ∀ k : ℤ, 0 ≤ k → k ≤ 8 → k ∉ b) (s : SimState) : OneWay S N b sv s := by
  rcases h with h | h
  · exact .inl fun c hc _ => h _ (by omega) (by have := liveAround_le hS.isTorus.pos {x | CellIs S s x "alive"} c hc; omega)
  · exact .inr fun c hc _ => h _ (by omega) (by have := liveAround_le hS.isTorus.pos {x | CellIs S s x "alive"} c hc; omega)

end Pyl
