import Verif.Props.LifePlane
import Mathlib.Data.Int.Interval
import Mathlib.Data.Fintype.Pi
import Mathlib.Combinatorics.Pigeonhole
/-
C134, continued: every Life-like automaton is eventually periodic.
-/
set_option autoImplicit false
set_option linter.unusedSectionVars false

namespace Pyl
open Pyl.Lattice Structure SimState Spec
variable {K : Type} [Field K] [LinearOrder K] [IsStrictOrderedRing K] [FloorRing K]

theorem iterate_congr {N : Fin 2 → ℤ} (hN : ∀ j, 0 < N j) (born survive : List ℤ) {L L' : Set (Fin 2 → ℤ)} (h : ∀ x, InBox N x → (x ∈ L' ↔ x ∈ L))
    (k : ℕ) : ∀ c, InBox N c → (c ∈ (generation N born survive)^[k] L' ↔ c ∈ (generation N born survive)^[k] L) := by
  induction k with
  | zero => exact h
  | succ k ih =>
    intro c hc
    rw [Function.iterate_succ_apply', Function.iterate_succ_apply']
    exact generation_congr hN born survive ih c hc

/-- Patterns on a torus repeat themselves. -/
theorem generation_periodic {N : Fin 2 → ℤ} (hN : ∀ j, 0 < N j) (born survive : List ℤ) (L : Set (Fin 2 → ℤ)) :
    ∃ j p : ℕ, 0 < p ∧ j + p ≤ 2 ^ ((N 0).toNat * (N 1).toNat) ∧ ∀ k, j ≤ k → ∀ c, InBox N c →
      (c ∈ (generation N born survive)^[k + p] L ↔ c ∈ (generation N born survive)^[k] L) := by
  classical
  set box : Finset (Fin 2 → ℤ) := Fintype.piFinset fun j => Finset.Ico 0 (N j) with hbox
  have hmem : ∀ c, c ∈ box ↔ InBox N c := by intro c; simp [hbox, Fintype.mem_piFinset, InBox]
  have hcard : box.card = (N 0).toNat * (N 1).toNat := by
    rw [hbox, Fintype.card_piFinset, Fin.prod_univ_two, Int.card_Ico, Int.card_Ico]; simp
  set P : ℕ → Finset (Fin 2 → ℤ) := fun k => box.filter (· ∈ (generation N born survive)^[k] L) with hP
  obtain ⟨x, hx, y, hy, hxy, he⟩ := Finset.exists_ne_map_eq_of_card_lt_of_maps_to (s := Finset.range (2 ^ box.card + 1)) (t := box.powerset) (f := P)
    (by rw [Finset.card_powerset, Finset.card_range]; omega) (fun k _ => Finset.mem_powerset.2 (Finset.filter_subset _ _))
  rw [Finset.mem_range] at hx hy
  wlog hlt : x < y generalizing x y
  · exact this y hy x hx hxy.symm he.symm (by omega)
  rw [hcard] at hy
  refine ⟨x, y - x, by omega, by omega, fun k hk c hc => ?_⟩
  obtain ⟨m, rfl⟩ := Nat.exists_eq_add_of_le hk
  rw [show x + m + (y - x) = m + y by omega, show x + m = m + x by omega, Function.iterate_add_apply, Function.iterate_add_apply]
  refine iterate_congr hN born survive (fun z hz => ?_) m c hc
  have := congrArg (z ∈ ·) he
  simpa [hP, hmem, hz] using this.symm

/-- C134: every Life-like automaton on an `a × b` torus is periodic after at most `2 ^ (a * b)` steps, whatever its rule and its start, and the
start of the period and its length do not depend on how long the run is. -/
theorem C134_life {S : Structure K 2} {N : Fin 2 → ℤ} (hS : SquareGrid 2 N S) (b sv : List (Fin 10)) (s0 : SimState) (h0 : IsLifeState S s0) :
    ∃ j p : ℕ, 0 < p ∧ j + p ≤ 2 ^ ((N 0).toNat * (N 1).toNat) ∧ ∀ n, ∃ ctl c' res, Life.init none S (variantText b sv) = .ok ctl ∧
      runSync Life.controller ctl s0 n = .ok (c', res) ∧ ∀ k, j ≤ k → k + p ≤ n → ∃ s s', res.getStep k = .ok s ∧
        res.getStep (k + p : ℕ) = .ok s' ∧ ∀ c, InBox N c → (CellIs S s' c "alive" ↔ CellIs S s c "alive") ∧ (CellIs S s' c "dead" ↔ CellIs S s c "dead") := by
  have h := hS.isTorus
  obtain ⟨j, p, h1, h2, h3⟩ := generation_periodic h.pos (digitValues b) (digitValues sv) (liveCells S s0)
  refine ⟨j, p, h1, h2, fun n => ?_⟩
  obtain ⟨ctl, c1, res, hi, hr, -, hk⟩ := C60_life hS b sv s0 h0.1 h0.2.1 h0.2.2.1 _ (showsLife_liveCells h0) n
  refine ⟨ctl, c1, res, hi, hr, fun k hjk hkn => ?_⟩
  obtain ⟨s, hs, -, hsl⟩ := hk k (by omega)
  obtain ⟨s', hs', -, hsl'⟩ := hk (k + p) hkn
  refine ⟨s, s', hs, hs', fun c hc => ?_⟩
  obtain ⟨i, -, hi⟩ := h.ex c hc
  have e := h3 k hjk c hc
  rw [(cellIs_iff hsl hi).1, (cellIs_iff hsl' hi).1, (cellIs_iff hsl hi).2, (cellIs_iff hsl' hi).2, e]
  exact ⟨Iff.rfl, Iff.rfl⟩

/-- On the 5 × 7 torus a glider's run is one the theorem speaks about. -/
example : ∃ (S : Structure ℚ 2) (s0 : SimState), SquareGrid 2 ![5, 7] S ∧ IsLifeState S s0 ∧ ShowsLife S s0 (wrapped ![5, 7] (cellsAt (gliderAt 0) ![3, 4])) := by
  obtain ⟨-, S, hS, -⟩ := C52_square2 (K := ℚ) 1 (by norm_num) 7 5 (by norm_num) (by norm_num)
  have hg : SquareGrid 2 ![5, 7] S := .two _ S 5 7 (by norm_num) (by norm_num) (.inl rfl) hS
  obtain ⟨s0, h1, h2, h3, h4⟩ := life_state_exists hg.isTorus (wrapped ![5, 7] (cellsAt (gliderAt 0) ![3, 4]))
  refine ⟨S, s0, hg, ⟨h1, h2, h3, fun i c hi => ?_⟩, h4⟩
  rw [(cellIs_iff h4 hi).1, (cellIs_iff h4 hi).2]
  exact em _

end Pyl
