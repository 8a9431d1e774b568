import Verif.Spec.LifeEden
import Verif.Props.LifeLinear
import Mathlib.Data.Fintype.EquivFin
/-
C154: states that no run can produce.
-/
set_option autoImplicit false
set_option linter.unusedSectionVars false

namespace Pyl
open Pyl.Lattice Structure SimState Spec
variable {K : Type} [Field K] [LinearOrder K] [IsStrictOrderedRing K] [FloorRing K]

/-- The patterns of a torus. -/
def Pattern (N : Fin 2 → ℤ) : Type := {L : Set (Fin 2 → ℤ) // ∀ x ∈ L, InBox N x}

instance (N : Fin 2 → ℤ) : Finite (Pattern N) := by
  have : Set.Finite {L : Set (Fin 2 → ℤ) | L ⊆ (boxCells N : Set (Fin 2 → ℤ))} := (boxCells N).finite_toSet.finite_subsets
  exact Set.Finite.to_subtype (s := {L : Set (Fin 2 → ℤ) | ∀ x ∈ L, InBox N x}) (this.subset fun L h x hx => by
    rw [Finset.mem_coe, mem_boxCells]; exact h x hx)

/-- The next generation, on the torus. -/
def nextPattern (N : Fin 2 → ℤ) (b sv : List ℤ) (P : Pattern N) : Pattern N := ⟨{c | InBox N c ∧ c ∈ generation N b sv P.1}, fun _ h => h.1⟩

/-- The part of a pattern that lies on the torus. -/
def onTorus (N : Fin 2 → ℤ) (L : Set (Fin 2 → ℤ)) : Pattern N := ⟨{c | InBox N c ∧ c ∈ L}, fun _ h => h.1⟩

theorem onTorus_eq {N : Fin 2 → ℤ} {L L' : Set (Fin 2 → ℤ)} : onTorus N L = onTorus N L' ↔ ∀ c, InBox N c → (c ∈ L ↔ c ∈ L') := by
  constructor
  · intro h c hc
    have : c ∈ (onTorus N L).1 ↔ c ∈ (onTorus N L').1 := by rw [h]
    exact ⟨fun h1 => (this.1 ⟨hc, h1⟩).2, fun h1 => (this.2 ⟨hc, h1⟩).2⟩
  · refine fun h => Subtype.ext (Set.ext fun c => ?_)
    constructor
    · rintro ⟨h1, h2⟩; exact ⟨h1, (h c h1).1 h2⟩
    · rintro ⟨h1, h2⟩; exact ⟨h1, (h c h1).2 h2⟩

theorem onTorus_self {N : Fin 2 → ℤ} (P : Pattern N) : onTorus N P.1 = P := Subtype.ext (Set.ext fun c => ⟨fun h => h.2, fun h => ⟨P.2 c h, h⟩⟩)

theorem onTorus_generation {N : Fin 2 → ℤ} (b sv : List ℤ) (L : Set (Fin 2 → ℤ)) : onTorus N (generation N b sv L) = nextPattern N b sv (onTorus N L) :=
  Subtype.ext (Set.ext fun c => by
    show (InBox N c ∧ _) ↔ (InBox N c ∧ _)
    refine and_congr_right fun hc => generation_agree b sv (fun x hx => ?_) c hc
    show _ ↔ (InBox N x ∧ x ∈ L)
    simp [hx])

theorem lifeState_of_pattern {S : Structure K 2} {N : Fin 2 → ℤ} (hS : SquareGrid 2 N S) (L : Set (Fin 2 → ℤ)) : ∃ s, IsLifeState S s ∧ ShowsLife S s L := by
  obtain ⟨s, h1, h2, h3, h4⟩ := life_state_exists hS.isTorus L
  refine ⟨s, ⟨h1, h2, h3, fun i c hi => ?_⟩, h4⟩
  by_cases hc : c ∈ L
  · exact .inl ((cellIs_iff h4 hi).1.2 hc)
  · exact .inr ((cellIs_iff h4 hi).2.2 hc)

theorem onTorus_live {S : Structure K 2} {N : Fin 2 → ℤ} (hS : SquareGrid 2 N S) {s : SimState} {L : Set (Fin 2 → ℤ)} (hL : ShowsLife S s L) :
    onTorus N (liveCells S s) = onTorus N L := onTorus_eq.2 fun c hc => by
  obtain ⟨i, -, hi⟩ := hS.isTorus.ex c hc
  exact (cellIs_iff hL hi).1

theorem unreachable_iff {S : Structure K 2} {N : Fin 2 → ℤ} (hS : SquareGrid 2 N S) (b sv : List (Fin 10)) {s : SimState} (h : IsLifeState S s) :
    Unreachable S N (variantText b sv) s ↔ ∀ P, nextPattern N (digitValues b) (digitValues sv) P ≠ onTorus N (liveCells S s) := by
  constructor
  · intro hu P hP
    obtain ⟨s0, h0, hl⟩ := lifeState_of_pattern hS P.1
    obtain ⟨res, hres⟩ := lifeRun_exists hS b sv h0 1
    obtain ⟨x, hx, hxl⟩ := lifeRun_steps hS h0 hres 1 le_rfl
    refine hu s0 1 res 1 x h0 hres one_pos le_rfl hx ((samePattern_iff hS hxl (showsLife_liveCells h)).2 ?_)
    rw [← onTorus_eq, ← hP]
    show onTorus N (generation N (digitValues b) (digitValues sv) (liveCells S s0)) = _
    rw [onTorus_generation, onTorus_live hS hl, onTorus_self]
  · rintro hu s0 n res k x h0 hres hk hkn hx hsame
    obtain ⟨x', hx', hxl⟩ := lifeRun_steps hS h0 hres k hkn
    rw [hx] at hx'; cases hx'
    have := (samePattern_iff hS hxl (showsLife_liveCells h)).1 hsame
    rw [← onTorus_eq] at this
    obtain ⟨j, rfl⟩ : ∃ j, k = j + 1 := ⟨k - 1, by omega⟩
    rw [Function.iterate_succ_apply', onTorus_generation] at this
    exact hu _ this

/-- C154: for every variant and torus: there is a state that no run can produce exactly if there are two different patterns with the same next pattern. -/
theorem C154_exists_iff {S : Structure K 2} {N : Fin 2 → ℤ} (hS : SquareGrid 2 N S) (b sv : List (Fin 10)) :
    (∃ s, IsLifeState S s ∧ Unreachable S N (variantText b sv) s) ↔ TwoMerge S N (variantText b sv) := by
  have hfin := Finite.injective_iff_surjective (f := nextPattern N (digitValues b) (digitValues sv))
  have hL : (∃ s, IsLifeState S s ∧ Unreachable S N (variantText b sv) s) ↔ ¬ Function.Surjective (nextPattern N (digitValues b) (digitValues sv)) := by
    unfold Function.Surjective
    push Not
    constructor
    · rintro ⟨s, h, hu⟩
      exact ⟨_, (unreachable_iff hS b sv h).1 hu⟩
    · rintro ⟨P, hP⟩
      obtain ⟨s, h, hl⟩ := lifeState_of_pattern hS P.1
      refine ⟨s, h, (unreachable_iff hS b sv h).2 ?_⟩
      rwa [onTorus_live hS hl, onTorus_self]
  rw [hL, ← hfin]
  constructor
  · intro h
    unfold Function.Injective at h
    push Not at h
    obtain ⟨P, P', h1, h2⟩ := h
    obtain ⟨s, h0, hl⟩ := lifeState_of_pattern hS P.1
    obtain ⟨s', h0', hl'⟩ := lifeState_of_pattern hS P'.1
    obtain ⟨res, hres⟩ := lifeRun_exists hS b sv h0 1
    obtain ⟨res', hres'⟩ := lifeRun_exists hS b sv h0' 1
    obtain ⟨x, hx, hxl⟩ := lifeRun_steps hS h0 hres 1 le_rfl
    obtain ⟨x', hx', hxl'⟩ := lifeRun_steps hS h0' hres' 1 le_rfl
    refine ⟨s, s', res, res', x, x', h0, h0', fun hsame => h2 ?_, hres, hres', hx, hx', (samePattern_iff hS hxl hxl').2 ?_⟩
    · rw [samePattern_iff hS hl hl', ← onTorus_eq, onTorus_self, onTorus_self] at hsame
      exact hsame
    · rw [← onTorus_eq]
      show onTorus N (generation N _ _ _) = onTorus N (generation N _ _ _)
      rw [onTorus_generation, onTorus_generation, onTorus_live hS hl, onTorus_live hS hl', onTorus_self, onTorus_self, h1]
  · rintro ⟨s, s', res, res', x, x', h0, h0', hne, hres, hres', hx, hx', hsame⟩ hinj
    obtain ⟨y, hy, hxl⟩ := lifeRun_steps hS h0 hres 1 le_rfl
    obtain ⟨y', hy', hxl'⟩ := lifeRun_steps hS h0' hres' 1 le_rfl
    have hy : res.getStep 1 = .ok y := hy
    have hy' : res'.getStep 1 = .ok y' := hy'
    rw [hx] at hy; cases hy
    rw [hx'] at hy'; cases hy'
    rw [samePattern_iff hS hxl hxl', ← onTorus_eq] at hsame
    have hsame : onTorus N (generation N _ _ _) = onTorus N (generation N _ _ _) := hsame
    rw [onTorus_generation, onTorus_generation] at hsame
    exact hne ((samePattern_iff hS (showsLife_liveCells h0) (showsLife_liveCells h0')).2 (onTorus_eq.1 (hinj hsame)))

/-- C154: if 0 and 1 are not birth digits and 0 is not a survival digit, there is such a state on every torus: a single cell vanishes as nothing does. -/
theorem C154_exists {S : Structure K 2} {N : Fin 2 → ℤ} (hS : SquareGrid 2 N S) (b sv : List (Fin 10)) (h0 : (0 : Fin 10) ∉ b) (h1 : (1 : Fin 10) ∉ b)
    (h2 : (0 : Fin 10) ∉ sv) : ∃ s, IsLifeState S s ∧ Unreachable S N (variantText b sv) s := by
  have ht := hS.isTorus
  rw [C154_exists_iff hS]
  have hdig : ∀ (l : List (Fin 10)) (k : Fin 10), (((k : ℕ) : ℤ) ∈ digitValues l ↔ k ∈ l) := by
    intro l k
    unfold digitValues
    rw [List.mem_map]
    constructor
    · rintro ⟨x, hx, e⟩
      have e : (x : ℕ) = k := by exact_mod_cast e
      rwa [← Fin.ext e]
    · exact fun h => ⟨k, h, rfl⟩
  have hb0 : (0 : ℤ) ∉ digitValues b := fun h => h0 ((hdig b 0).1 h)
  have hb1 : (1 : ℤ) ∉ digitValues b := fun h => h1 ((hdig b 1).1 h)
  have hs0 : (0 : ℤ) ∉ digitValues sv := fun h => h2 ((hdig sv 0).1 h)
  have hsmall : ∀ (L : Set (Fin 2 → ℤ)), L ⊆ {fun _ => 0} → ∀ c, liveAround N L c = 0 ∨ liveAround N L c = 1 ∧ c ∉ L := by
    intro L hLs c
    have hle : liveAround N L c ≤ 1 := by
      unfold liveAround
      rw [← Set.ncard_singleton (fun _ : Fin 2 => (0 : ℤ))]
      exact Set.ncard_le_ncard (fun x hx => hLs hx.2.2.2) (Set.finite_singleton _)
    by_cases hc : c ∈ L
    · left
      unfold liveAround
      rw [show {x | InBox N x ∧ x ≠ c ∧ ChebyshevLE N c x 1 ∧ x ∈ L} = ∅ from Set.eq_empty_of_forall_notMem ?_, Set.ncard_empty]
      rintro x ⟨-, hx, -, hxL⟩
      exact hx ((hLs hxL).trans (hLs hc).symm)
    · rcases Nat.le_one_iff_eq_zero_or_eq_one.1 hle with h | h
      · exact .inl h
      · exact .inr ⟨h, hc⟩
  have hdie : ∀ (L : Set (Fin 2 → ℤ)), L ⊆ {fun _ => 0} → ∀ c, c ∉ generation N (digitValues b) (digitValues sv) L := by
    rintro L hLs c (⟨h3, h4⟩ | ⟨h3, h4⟩)
    · rcases hsmall L hLs c with h5 | ⟨-, h5⟩
      · rw [h5] at h4; exact hs0 (by exact_mod_cast h4)
      · exact h5 h3
    · rcases hsmall L hLs c with h5 | ⟨h5, -⟩
      · rw [h5] at h4; exact hb0 (by exact_mod_cast h4)
      · rw [h5] at h4; exact hb1 (by exact_mod_cast h4)
  obtain ⟨s, g0, hl⟩ := lifeState_of_pattern hS (∅ : Set (Fin 2 → ℤ))
  obtain ⟨s', g0', hl'⟩ := lifeState_of_pattern hS ({fun _ => 0} : Set (Fin 2 → ℤ))
  obtain ⟨res, hres⟩ := lifeRun_exists hS b sv g0 1
  obtain ⟨res', hres'⟩ := lifeRun_exists hS b sv g0' 1
  obtain ⟨x, hx, hxl⟩ := lifeRun_steps hS g0 hres 1 le_rfl
  obtain ⟨x', hx', hxl'⟩ := lifeRun_steps hS g0' hres' 1 le_rfl
  refine ⟨s, s', res, res', x, x', g0, g0', fun h => ?_, hres, hres', hx, hx', (samePattern_iff hS hxl hxl').2 fun c hc => ?_⟩
  · have := (samePattern_iff hS hl hl').1 h (fun _ => 0) (fun j => ⟨le_rfl, ht.pos j⟩)
    simp at this
  · have e : c ∈ generation N (digitValues b) (digitValues sv) (liveCells S s) ↔ c ∈ generation N (digitValues b) (digitValues sv) ∅ :=
      generation_agree _ _ (onTorus_eq.1 (onTorus_live hS hl)) c hc
    have e' : c ∈ generation N (digitValues b) (digitValues sv) (liveCells S s') ↔ c ∈ generation N (digitValues b) (digitValues sv) {fun _ => 0} :=
      generation_agree _ _ (onTorus_eq.1 (onTorus_live hS hl')) c hc
    show c ∈ generation N _ _ _ ↔ c ∈ generation N _ _ _
    rw [e, e']
    exact ⟨fun h => absurd h (hdie _ (Set.empty_subset _) c), fun h => absurd h (hdie _ le_rfl c)⟩

/-- C154: so there are such states, on every torus, for each of the five variants the code names. -/
theorem C154_named {S : Structure K 2} {N : Fin 2 → ℤ} (hS : SquareGrid 2 N S) (v : String)
    (hv : v ∈ [Life.life, Life.anneal, Life.diamoeba, Life.seeds, Life.maze]) : ∃ s, IsLifeState S s ∧ Unreachable S N v s := by
  have e1 : Life.life = variantText [3] [2, 3] := by decide +kernel
  have e2 : Life.anneal = variantText [4, 6, 7, 8] [3, 5, 6, 7, 8] := by decide +kernel
  have e3 : Life.diamoeba = variantText [3, 5, 6, 7, 8] [5, 6, 7, 8] := by decide +kernel
  have e4 : Life.seeds = variantText [2] [] := by decide +kernel
  have e5 : Life.maze = variantText [3] [1, 2, 3, 4, 5] := by decide +kernel
  simp only [List.mem_cons, List.not_mem_nil, or_false] at hv
  rcases hv with rfl | rfl | rfl | rfl | rfl
  · rw [e1]; exact C154_exists hS _ _ (by decide) (by decide) (by decide)
  · rw [e2]; exact C154_exists hS _ _ (by decide) (by decide) (by decide)
  · rw [e3]; exact C154_exists hS _ _ (by decide) (by decide) (by decide)
  · rw [e4]; exact C154_exists hS _ _ (by decide) (by decide) (by decide)
  · rw [e5]; exact C154_exists hS _ _ (by decide) (by decide) (by decide)

/-- C154: Fredkin's rule (C153) has none on a torus whose sides divide a power of 2: every pattern has a predecessor. -/
theorem C154_none {S : Structure K 2} {N : Fin 2 → ℤ} (hS : SquareGrid 2 N S) (hN : ∀ j, 3 ≤ N j) (b sv : List (Fin 10))
    (hr : OddOfNine (digitValues b) (digitValues sv)) (k : ℕ) (hdvd : ∀ j, N j ∣ 2 ^ k) (s : SimState) (h : IsLifeState S s) :
    ¬ Unreachable S N (variantText b sv) s := by
  intro hu
  obtain ⟨res, hres⟩ := lifeRun_exists hS b sv h (2 ^ k)
  obtain ⟨x, x', hx, hx', hsame⟩ := C153_returns hS hN b sv hr s h _ res hres k hdvd 0 (by omega)
  obtain ⟨y, hy, hyl⟩ := lifeRun_steps hS h hres 0 (Nat.zero_le _)
  rw [hx] at hy; cases hy
  obtain ⟨y', hy', hyl'⟩ := lifeRun_steps hS h hres (0 + 2 ^ k) (by omega)
  rw [hx'] at hy'; cases hy'
  have h1 := (samePattern_iff hS hyl hyl').1 hsame
  refine hu s _ res (0 + 2 ^ k) x' h hres (by have := Nat.two_pow_pos k; omega) (by omega) hx' ((samePattern_iff hS hyl' (showsLife_liveCells h)).2 fun c hc => ?_)
  exact (h1 c hc).symm

end Pyl
