import Verif.Props.GrowthParallel
import Verif.Tests.Exec
/-
C91 on a structure that is really built: the counterexample to "every step of a parallel growth run is a growth step" (`C91_false` in GrowthParallel.lean)
with the 6 by 6 grid made by the square grid builder and the controller made by `GrowthController.__init__` with its default neighbourhood.
-/
set_option autoImplicit false

namespace Pyl
open Pyl.Lattice Pyl.Structure Pyl.Growth Spec

/-- The Moore neighbours of cell (x, y), numbered `6 y + x`, in the order in which the builder adds the edges. -/
def ring6 (i : ℕ) : List ℕ :=
  [(5, 5), (0, 5), (1, 5), (5, 0), (1, 0), (5, 1), (0, 1), (1, 1)].map fun ab : ℕ × ℕ => 6 * ((i / 6 + ab.1) % 6) + (i % 6 + ab.2) % 6

/-- The inverse of the matrix of the 6 by 6 grid. -/
def sixInv : Matrix (Fin 2) (Fin 2) ℚ := !![0, 1 / 6; 1 / 6, 0]

theorem six_inv : ((gridLattice2 : Lattice ℚ 2).scaled fun _ => 6).mat * sixInv = 1 := by
  ext i j
  rw [Matrix.mul_apply, Fin.sum_univ_two]
  fin_cases i <;> fin_cases j <;> simp [sixInv, Lattice.scaled, gridLattice2]

/-- The grid is built with sites 0 to 35 and the Moore builder connects them as `ring6` says. -/
theorem grid6 : ∃ (S : Structure ℚ 2) (g : Graph ℚ), SquareGrid 2 ![6, 6] S ∧ (moore 1).get S none = .ok g ∧ S.siteIds = List.range 36 ∧
    (∀ i < 36, g.neighborsOf i = ring6 i) ∧ ∀ i, 36 ≤ i → g.neighborsOf i = [] := by
  obtain ⟨S, g, h1, h2, h3⟩ := Exec.built_graph (L := (gridLattice2 : Lattice ℚ 2)) (n := fun _ => 6) (motif := gridMotif) (frac := false) (b := moore 1)
    (cls := none) six_inv (fun s g => decide (s.siteIds = List.range 36) && ((List.range 36).all fun i => decide (g.neighborsOf i = ring6 i)) &&
      g.edges.all fun e => decide (e.1 < 36)) (by decide +kernel)
  simp only [Bool.and_eq_true, decide_eq_true_eq, List.all_eq_true, List.mem_range] at h3
  have hb : buildSquare2 (K := ℚ) (.int 6) = .ok S := by
    rw [← h1]
    rfl
  refine ⟨S, g, .two (.int 6) S 6 6 (by norm_num) (by norm_num) (.inr ⟨rfl, rfl⟩) hb, h2, h3.1.1, h3.1.2, fun i hi => ?_⟩
  unfold Graph.neighborsOf Graph.neighbors
  rw [List.filter_eq_nil_iff.2, List.map_nil, List.dedup_nil]
  intro e he
  have := h3.2 e he
  simp
  omega

/-- The controller as the run sees it. -/
def ctlR : Ctl := ⟨.str "bg", fun _ i => match i with
  | .int z => if 0 ≤ z then .ok (if z < 36 then ring6 z.toNat else []) else .error .overflowError
  | .str _ => .error .typeError, 0⟩

theorem runR : occAt (runParallel controller (fun _ c => c) ctlR init6 2 3 sched6) 2 (.int 10) = some (.str "B") ∧
    occAt (runParallel controller (fun _ c => c) ctlR init6 2 3 sched6) 3 (.int 10) = some (.str "A") := by
  decide +kernel

/-- `GrowthController.__init__` makes this controller for the grid. -/
theorem gridR : ∃ (S : Structure ℚ 2) (g : Graph ℚ), SquareGrid 2 ![6, 6] S ∧ (moore 1).get S none = .ok g ∧ S.siteIds = List.range 36 ∧
    (∀ i < 36, g.neighborsOf i = ring6 i) ∧ SameSites S init6 ∧ Growth.init (fun _ l => l) S (.str "bg") = .ok ctlR := by
  obtain ⟨S, g, hS, hg, hids, hnbs, hout⟩ := grid6
  have hsites : SameSites S init6 := by
    intro k
    rw [mem6, hids]
    simp
  have hc : Growth.init (fun _ l => l) S (.str "bg") = .ok ctlR := by
    unfold Growth.init
    rw [Option.getD_none, hg]
    show Except.ok _ = Except.ok _
    congr 1
    unfold ctlR
    congr 1
    funext t k
    cases k with
    | str s => rfl
    | int z =>
      unfold neighborsOfKey
      by_cases hz : 0 ≤ z
      · simp only [if_pos hz]
        by_cases h36 : z < 36
        · rw [if_pos h36, hnbs z.toNat (by omega)]; rfl
        · rw [if_neg h36, hout z.toNat (by omega)]; rfl
      · simp only [if_neg hz]; rfl
  exact ⟨S, g, hS, hg, hids, hnbs, hsites, hc⟩

theorem occR : AllOccupied init6 := by
  intro k hk
  obtain ⟨i, hi, rfl⟩ := mem6.1 hk
  have : ∀ i < 36, (occ? init6 (.int (i : ℕ))).isSome = true := by decide +kernel
  exact Option.isSome_iff_exists.1 (this i hi)

theorem nbR : ∀ t, ∀ i ∈ init6.siteIds, ∃ l, ctlR.nbs t i = .ok l ∧ ∀ j ∈ l, Key.int j ∈ init6.siteIds := by
  intro t k hk
  obtain ⟨i, hi, rfl⟩ := mem6.1 hk
  refine ⟨ring6 i, ?_, fun j hj => mem6.2 ⟨j, ?_, rfl⟩⟩
  · show (if (0 : ℤ) ≤ (i : ℤ) then Except.ok (if (i : ℤ) < 36 then ring6 (i : ℤ).toNat else []) else Except.error Err.overflowError) = _
    rw [if_pos (by omega), if_pos (by omega), Int.toNat_natCast]
  · unfold ring6 at hj
    obtain ⟨ab, -, rfl⟩ := List.mem_map.1 hj
    omega

theorem validR : ∀ k, k < 3 → (sched6 k).Valid 2 (chunks init6.siteIds (chunkSize init6.siteIds.length 2)).length := by
  intro k hk
  have : k = 0 ∨ k = 1 ∨ k = 2 := by omega
  unfold StepSched.Valid
  rcases this with rfl | rfl | rfl <;> decide +kernel

/-- C91 is false on a 6 by 6 grid with the default neighbourhood: three nuclei, `A` in cells (2, 0) and (0, 3), `B` in cell (5, 0); cell (4, 1) is `B` after two steps and `A` after
the third, in which its batch went to a worker that had received nothing before. The step from the second to the third state is not a growth step at that site. -/
theorem C91_false_grid : ∃ (S : Structure ℚ 2) (g : Graph ℚ) (c : Ctl) (s0 : SimState) (sched : ℕ → StepSched) (res : SimResult) (i : ℕ) (a b : SimState) (u v : Val),
    SquareGrid 2 ![6, 6] S ∧ (moore 1).get S none = .ok g ∧ Growth.init (fun _ l => l) S (.str "bg") = .ok c ∧
    s0.WF ∧ s0.getGeneralState ≠ none ∧ SameSites S s0 ∧ AllOccupied s0 ∧
    (∀ k, k < 3 → (sched k).Valid 2 (chunks s0.siteIds (chunkSize s0.siteIds.length 2)).length) ∧
    runParallel controller (fun _ c => c) c s0 2 3 sched = .ok res ∧
    res.getStep 2 = .ok a ∧ res.getStep 3 = .ok b ∧ i ∈ S.siteIds ∧ occ? a (.int i) = some u ∧ occ? b (.int i) = some v ∧ u ≠ .str "bg" ∧
    ¬ GrowthStep (.str "bg") a (g.neighborsOf i) u v := by
  obtain ⟨S, g, hS, hg, hids, hnbs, hsites, hc⟩ := gridR
  obtain ⟨res, h1, h2, h3⟩ := C90_growth (.str "bg") ctlR init6 wf6 (by decide) (by decide) occR (fun _ c => c) (fun _ => rfl) (fun _ => nbR) 2
    (by omega) 3 sched6 validR
  have h := runR
  rw [h1] at h
  obtain ⟨a, ha, -⟩ := h3 2 (by omega)
  obtain ⟨b, hb, -⟩ := h3 3 (by omega)
  have ha' : res.getStep 2 = .ok a := ha
  have hb' : res.getStep 3 = .ok b := hb
  simp only [occAt, ha', hb'] at h
  refine ⟨S, g, ctlR, init6, sched6, res, 10, a, b, _, _, hS, hg, hc, wf6, by decide, hsites, occR, validR, h1, ha', hb', by rw [hids]; decide, h.1, h.2, by decide, fun hG => ?_⟩
  exact absurd (hG.1 (by decide)) (by decide)

end Pyl
