import Verif.Spec.LifeFraction
import Verif.Props.LifeDrift
import Mathlib.Analysis.SpecificLimits.Basic
/-
C174: what the result analyzer reports about asynchronous runs of Life, on average.
-/
set_option autoImplicit false
set_option linter.unusedSectionVars false

namespace Pyl
open SimState Spec ResultAnalyzer
open Pyl.Lattice Pyl.Structure
variable {K : Type} [Field K] [LinearOrder K] [FloorRing K] [IsStrictOrderedRing K]

section
variable {S : Structure K 2} {N : Fin 2 → ℤ} (hS : SquareGrid 2 N S) (b sv : List (Fin 10)) (s0 : SimState) (h0 : IsLifeState S s0) (hid : KnowsIds s0)
    (m : ℕ) (hm : m = S.siteIds.length)
include hS h0 hid hm

/-- C174: the analyzer reports the fraction of live cells for every sequence of draws, and it is the part of the cells that are alive after these visits. -/
theorem C174_reported : ∃ fr, ReportsAlive S (variantText b sv) s0 m fr ∧
    ∀ n f, (fr n f : ℝ) = (Spec.cellCount N (· ∈ patternAfter S N (variantText b sv) s0 n (outcome f)) : ℝ) / m := by
  have ht := hS.isTorus
  obtain ⟨pos, hp, -⟩ := cell_of_site hS
  have hpos : 0 < m := hm ▸ List.length_pos_of_ne_nil ht.ids_ne
  have hN : ((N 0 : ℚ) * N 1) = m := by
    have h1 := ht.count
    rw [← hm, Fin.prod_univ_two] at h1
    have h2 : (m : ℤ) = N 0 * N 1 := by
      rw [h1]
      have := ht.pos 0
      have := ht.pos 1
      push_cast
      rw [Int.toNat_of_nonneg (ht.pos 0).le, Int.toNat_of_nonneg (ht.pos 1).le]
    have : ((m : ℤ) : ℚ) = N 0 * N 1 := by rw [h2]; push_cast; ring
    rw [← this]; simp
  have key : ∀ n (f : Fin n → Fin m), ∃ q : ℚ, (∃ a, AsyncLifeRun S (variantText b sv) s0 n (outcome f) a ∧ phaseFractionAt a.res n (.str "alive") = .ok q) ∧
      (q : ℝ) = (Spec.cellCount N (· ∈ patternAfter S N (variantText b sv) s0 n (outcome f)) : ℝ) / m := by
    intro n f
    have hcells : ∀ t, SiteHas S (outcome f t % S.siteIds.length) (pos (outcome f t)) := fun t => by
      rw [← hm, Nat.mod_eq_of_lt (outcome_lt hpos f t)]
      exact hp _ (hm ▸ outcome_lt hpos f t)
    obtain ⟨c, a, h1, h2, -⟩ := C96_life hS b sv s0 h0.1 h0.2.1 h0.2.2.1 _ (showsLife_liveCells h0) n (outcome f) (fun t => pos (outcome f t)) hcells
    have hr : VisitingLifeRun S (variantText b sv) s0 (fun t => pos (outcome f t)) n a.res := ⟨_, c, a, hcells, h1, h2, rfl⟩
    obtain ⟨s, e1, -, -, -, e5⟩ := (asyncLife_analyzable hS h0 hid hr).2.2 n le_rfl
    refine ⟨_, ⟨a, ⟨c, h1, h2⟩, (C165_fraction_at hS b sv s0 h0 hid _ n a.res hr n le_rfl).1⟩, ?_⟩
    have hc : Spec.cellCount N (· ∈ oneByOne N (digitValues b) (digitValues sv) (fun t => pos (outcome f t)) (liveCells S s0) n) =
        Spec.cellCount N (· ∈ patternAfter S N (variantText b sv) s0 n (outcome f)) := by
      refine cellCount_congr fun x hx => ?_
      obtain ⟨i, -, hi⟩ := ht.ex x hx
      rw [← (cellIs_iff e5 hi).1]
      constructor
      · intro h
        exact ⟨hx, a, s, ⟨c, h1, h2⟩, e1, h⟩
      · rintro ⟨-, a', s', ⟨c', g1, g2⟩, g3, g4⟩
        rw [h1] at g1; cases g1
        rw [h2] at g2; cases g2
        rw [e1] at g3; cases g3
        exact g4
    rw [hc, hN]
    push_cast
    rfl
  choose fr g1 g2 using key
  exact ⟨fr, g1, g2⟩

/-- What the reports average to, in terms of the patterns. -/
theorem alive_mean {fr : (n : ℕ) → (Fin n → Fin m) → ℚ} (hfr : ReportsAlive S (variantText b sv) s0 m fr) (n : ℕ) :
    mean m n (fun f => (fr n f : ℝ)) = mean m n (fun f => (Spec.cellCount N (· ∈ patternAfter S N (variantText b sv) s0 n (outcome f)) : ℝ)) / m := by
  obtain ⟨fr', h1, h2⟩ := C174_reported hS b sv s0 h0 hid m hm
  have heq : ∀ f, (fr n f : ℝ) = (m : ℝ)⁻¹ * (Spec.cellCount N (· ∈ patternAfter S N (variantText b sv) s0 n (outcome f)) : ℝ) := by
    intro f
    rw [← div_eq_inv_mul, ← h2 n f]
    obtain ⟨a, ⟨c, e1, e2⟩, e3⟩ := hfr n f
    obtain ⟨a', ⟨c', f1, f2⟩, f3⟩ := h1 n f
    rw [e1] at f1; cases f1
    rw [e2] at f2; cases f2
    rw [e3] at f3
    injection f3 with f3
    rw [f3]
  simp only [heq]
  rw [mean_mul, div_eq_inv_mul]

/-- C174: with one more step the average report moves by the `m`-th part of the way to the average fraction of live cells of the next generation. -/
theorem C174_drift {fr : (n : ℕ) → (Fin n → Fin m) → ℚ} (hfr : ReportsAlive S (variantText b sv) s0 m fr) (n : ℕ) :
    mean m (n + 1) (fun f => (fr (n + 1) f : ℝ)) = mean m n (fun f => (fr n f : ℝ)) +
      (mean m n (fun f => (Spec.cellCount N (· ∈ generation N (digitValues b) (digitValues sv) (patternAfter S N (variantText b sv) s0 n (outcome f))) : ℝ) / m) -
        mean m n (fun f => (fr n f : ℝ))) / m := by
  rw [alive_mean hS b sv s0 h0 hid m hm hfr, alive_mean hS b sv s0 h0 hid m hm hfr, C170_drift hS b sv s0 h0 m hm n]
  have e : ∀ X : (Fin n → Fin m) → ℝ, mean m n (fun f => X f / m) = mean m n X / m := by
    intro X
    simp only [div_eq_inv_mul]
    rw [mean_mul]
  rw [e]
  ring

/-- C174: whatever the variant, the average reports of live and of dead cells fall at most by the factor `1 - 1 / m` a step. -/
theorem C174_bounds {fr : (n : ℕ) → (Fin n → Fin m) → ℚ} (hfr : ReportsAlive S (variantText b sv) s0 m fr) (n : ℕ) :
    ((Spec.cellCount N fun c => CellIs S s0 c "alive") / (m : ℝ)) * (1 - 1 / (m : ℝ)) ^ n ≤ mean m n (fun f => (fr n f : ℝ)) ∧
    mean m n (fun f => (fr n f : ℝ)) ≤ 1 - (1 - (Spec.cellCount N fun c => CellIs S s0 c "alive") / (m : ℝ)) * (1 - 1 / (m : ℝ)) ^ n := by
  have hpos : 0 < m := hm ▸ List.length_pos_of_ne_nil hS.isTorus.ids_ne
  have hmR : (0 : ℝ) < m := by exact_mod_cast hpos
  obtain ⟨h1, h2⟩ := C170_bounds hS b sv s0 h0 m hm n
  rw [alive_mean hS b sv s0 h0 hid m hm hfr]
  constructor
  · have := div_le_div_of_nonneg_right h1 hmR.le
    rw [mul_div_right_comm] at this
    exact this
  · have := div_le_div_of_nonneg_right h2 hmR.le
    rw [mul_div_right_comm, sub_div, sub_div, div_self hmR.ne'] at this
    linarith

/-- C174: under "B/S", where every visited cell dies, the average report is the fraction at the start times `(1 - 1 / m) ^ n`; so it tends to 0. -/
theorem C174_fade {fr : (n : ℕ) → (Fin n → Fin m) → ℚ} (hfr : ReportsAlive S (variantText [] []) s0 m fr) :
    (∀ n, mean m n (fun f => (fr n f : ℝ)) = ((Spec.cellCount N fun c => CellIs S s0 c "alive") / (m : ℝ)) * (1 - 1 / (m : ℝ)) ^ n) ∧
    Filter.Tendsto (fun n => mean m n (fun f => (fr n f : ℝ))) Filter.atTop (nhds 0) := by
  have hpos : 0 < m := hm ▸ List.length_pos_of_ne_nil hS.isTorus.ids_ne
  have hmR : (0 : ℝ) < m := by exact_mod_cast hpos
  have hm1 : (1 : ℝ) ≤ m := by exact_mod_cast hpos
  have h1 : ∀ n, mean m n (fun f => (fr n f : ℝ)) = ((Spec.cellCount N fun c => CellIs S s0 c "alive") / (m : ℝ)) * (1 - 1 / (m : ℝ)) ^ n := by
    intro n
    rw [alive_mean hS [] [] s0 h0 hid m hm hfr, C170_fade hS s0 h0 m hm n, mul_div_right_comm]
  refine ⟨h1, ?_⟩
  simp only [h1]
  have hq : 1 / (m : ℝ) ≤ 1 := by rw [div_le_one hmR]; exact hm1
  have hq0 : 0 < 1 / (m : ℝ) := by positivity
  have := (tendsto_pow_atTop_nhds_zero_of_lt_one (r := 1 - 1 / (m : ℝ)) (by linarith) (by linarith)).const_mul ((Spec.cellCount N fun c => CellIs S s0 c "alive") / (m : ℝ))
  rw [mul_zero] at this
  exact this

end

/-- A case of the theorems: noise of "alive" and "dead" on a grid of any size, under the Game of Life and under "B/S". -/
example {G : GridSetup K 2} (hG : StdSetup 2 G) (n : ℤ) (hn : 0 < n) (draw : ℕ → ℕ) :
    ∃ S s0 fr fr', G.noise (.int n) [.str "alive", .str "dead"] draw = .ok ⟨s0, S⟩ ∧ SquareGrid 2 (fun _ => n) S ∧ IsLifeState S s0 ∧ KnowsIds s0 ∧
      ReportsAlive S Life.life s0 S.siteIds.length fr ∧ ReportsAlive S (variantText [] []) s0 S.siteIds.length fr' ∧
      Filter.Tendsto (fun n => mean S.siteIds.length n (fun f => (fr' n f : ℝ))) Filter.atTop (nhds 0) := by
  obtain ⟨S, hb, hsq, -⟩ := setup_builds hG hn
  obtain ⟨s0, h1, h2, h3⟩ := noise_lifeState hb hsq [.str "alive", .str "dead"] (by simp) (by simp) draw
  have e : Life.life = variantText [3] [2, 3] := by decide +kernel
  obtain ⟨fr, g1, -⟩ := C174_reported hsq [3] [2, 3] s0 h2 h3 _ rfl
  obtain ⟨fr', g2, -⟩ := C174_reported hsq [] [] s0 h2 h3 _ rfl
  exact ⟨S, s0, fr, fr', h1, hsq, h2, h3, by rw [e]; exact g1, g2, (C174_fade hsq s0 h2 h3 _ rfl g2).2⟩

end Pyl
