import Verif.Tests.Exec
import Verif.Props.SetupCount
import Verif.Props.Simulation
import Verif.Props.Life
import Verif.Model.Viz
import Verif.Model.Honeycomb
/-
The expectations of /repo/tests/structures/square_grid/test_grid_setup.py, models/test_gol_models.py, discrete/*, visualization/test_cell_artists.py,
visualization/test_helpers.py and structures/honeycombs/*.  Where the model cannot be evaluated by the kernel, the expectation is derived from the
property theorems, so that these are tests of the theorems as well.
-/
set_option autoImplicit false

namespace Pyl
namespace Tests
open SimState Spec Analyzer
open Pyl.Lattice Pyl.Structure

/-! ### test_grid_setup.py -/

/-- `simulation.state_at(x)["DISCRETE_OCCUPANCY"]` -/
def phaseAt (sim : Simulation ℚ 2) (x : Fin 2 → ℤ) (v : Val) : Prop :=
  ∃ p, sim.stateAt (intPoint x) = some p ∧ Dict.get? p DISCRETE_OCCUPANCY = some v

theorem phaseAt_of {S : Structure ℚ 2} {s : SimState} {n : ℤ} (hsq : SquareGrid 2 (fun _ => n) S) (x : Fin 2 → ℤ) {v : Val}
    (h : ∀ i, SiteHas S i (fun j => x j % n) → occ? s (.int i) = some v) : phaseAt ⟨s, S⟩ x v := by
  obtain ⟨i, -, hi⟩ := hsq.isTorus.idAt_some x
  obtain ⟨p, hp, hv⟩ := occ?_eq.1 (h i hi)
  exact ⟨p, by rw [C94_grid ⟨s, S⟩ hsq x i hi]; exact hp, hv⟩

/-- test_setup_interface -/
example : ∃ sim, (gridSetup2 : GridSetup ℚ 2).interface (.int 4) (.str "A") (.str "B") = .ok sim ∧
    phaseAt sim ![1, 1] (.str "A") ∧ phaseAt sim ![1, 2] (.str "A") ∧ phaseAt sim ![2, 2] (.str "B") ∧ phaseAt sim ![2, 3] (.str "B") := by
  obtain ⟨S, s, h1, hsq, -, h⟩ := C64_interface (K := ℚ) .two 4 (by norm_num) (.str "A") (.str "B") (.str _) (.str _)
  exact ⟨⟨s, S⟩, h1, phaseAt_of hsq _ fun i hi => h i _ hi, phaseAt_of hsq _ fun i hi => h i _ hi, phaseAt_of hsq _ fun i hi => h i _ hi,
    phaseAt_of hsq _ fun i hi => h i _ hi⟩

/-- test_setup_specific_coords -/
example : ∃ sim, (gridSetup2 : GridSetup ℚ 2).coords (.int 4) (.str "A") [(.str "B", [intPoint ![0, 0]]), (.str "C", [intPoint ![1, 1]])] = .ok sim ∧
    phaseAt sim ![0, 0] (.str "B") ∧ phaseAt sim ![1, 1] (.str "C") ∧ phaseAt sim ![1, 0] (.str "A") := by
  obtain ⟨S, s, h1, hsq, -, h⟩ := C66_coords (K := ℚ) .two 4 (by norm_num) (.str "A") (.str _) [(.str "B", [![0, 0]]), (.str "C", [![1, 1]])]
    (by rintro pl (_ | ⟨_, _ | ⟨_, ⟨⟩⟩⟩) <;> exact .str _)
  have hl : listed [(Val.str "B", [(![0, 0] : Fin 2 → ℤ)]), (.str "C", [![1, 1]])] = [(.str "B", ![0, 0]), (.str "C", ![1, 1])] := rfl
  have key : ∀ (x : Fin 2 → ℤ) (v : Val), (∀ w, LastListed 4 [(.str "B", (![0, 0] : Fin 2 → ℤ)), (.str "C", ![1, 1])] (.str "A") (fun j => x j % 4) w → w = v) →
      phaseAt ⟨s, S⟩ x v := fun x v hx => phaseAt_of hsq x fun i hi => by
    obtain ⟨w, hw, h2⟩ := h i _ hi
    rw [hl] at h2
    rw [hw, hx w h2]
  have last : ∀ (x : Fin 2 → ℤ) (w : Val), LastListed 4 [(.str "B", (![0, 0] : Fin 2 → ℤ)), (.str "C", ![1, 1])] (.str "A") x w →
      (SameCell 4 ![0, 0] x ∧ w = .str "B") ∨ (SameCell 4 ![1, 1] x ∧ w = .str "C") ∨ (¬ SameCell 4 ![0, 0] x ∧ ¬ SameCell 4 ![1, 1] x ∧ w = .str "A") := by
    rintro x w (⟨l₁, p, y, l₂, e, h5, -, rfl⟩ | ⟨h5, rfl⟩)
    · have : (w, y) ∈ [(.str "B", (![0, 0] : Fin 2 → ℤ)), (.str "C", ![1, 1])] := by rw [e]; simp
      simp only [List.mem_cons, Prod.mk.injEq, List.not_mem_nil, or_false] at this
      rcases this with ⟨rfl, rfl⟩ | ⟨rfl, rfl⟩
      · exact .inl ⟨h5, rfl⟩
      · exact .inr (.inl ⟨h5, rfl⟩)
    · exact .inr (.inr ⟨h5 (.str "B", ![0, 0]) (by simp), h5 (.str "C", ![1, 1]) (by simp), rfl⟩)
  refine ⟨⟨s, S⟩, h1, key _ _ fun w hw => ?_, key _ _ fun w hw => ?_, key _ _ fun w hw => ?_⟩ <;>
    · rcases last _ w hw with ⟨h, e⟩ | ⟨h, e⟩ | ⟨h, h', e⟩
      all_goals first
        | exact e
        | exact absurd h (by unfold SameCell; decide)
        | exact absurd (by unfold SameCell; decide) h
        | exact absurd (by unfold SameCell; decide) h'

/-! ### test_gol_models.py, test_discrete_result_analyzer.py, test_discrete_step_analyzer.py -/

/-- test_gol_update_rule: on an interface of width 10 the cell (4, 4), dead at first, is alive after one step of the default variant. -/
example : ∃ sim c c' res s, (gridSetup2 : GridSetup ℚ 2).interface (.int 10) (.str "dead") (.str "alive") = .ok sim ∧
    Life.init none sim.struct "B3/S23" = .ok c ∧ runSync Life.controller c sim.state 1 = .ok (c', res) ∧ res.getStep 1 = .ok s ∧
    phaseAt sim ![4, 4] (.str "dead") ∧ phaseAt ⟨s, sim.struct⟩ ![4, 4] (.str "alive") := by
  obtain ⟨S, s0, h1, hsq, hst, h⟩ := C64_interface (K := ℚ) .two 10 (by norm_num) (.str "dead") (.str "alive") (.str _) (.str _)
  let L : Set (Fin 2 → ℤ) := {c | ¬ c 0 < 5}
  have hL : ShowsLife S s0 L := by
    intro i c hc
    have h2 := h i c hc
    obtain ⟨p, hp, hv⟩ := occ?_eq.1 h2
    refine ⟨p, hp, fun hcL => ?_, fun hcL => ?_⟩
    · rw [hv]; exact congrArg some (if_neg hcL)
    · rw [hv]; exact congrArg some (if_pos (not_not.1 hcL))
  obtain ⟨c, c', res, h2, h3, -, h4⟩ := C60_life hsq [3] [2, 3] s0 hst.1 (by rw [hst.2.1]; simp) hst.2.2.1 L hL 1
  obtain ⟨s, h5, -, h6⟩ := h4 1 le_rfl
  refine ⟨⟨s0, S⟩, c, c', res, s, h1, h2, h3, h5, phaseAt_of hsq _ fun i hi => h i _ hi, phaseAt_of hsq _ fun i hi => ?_⟩
  obtain ⟨p, hp, h7, -⟩ := h6 i _ hi
  refine occ?_eq.2 ⟨p, hp, h7 ?_⟩
  classical
  have h8 := C60_eight (N := fun _ => 10) (fun _ => by norm_num) L (fun j => (![4, 4] : Fin 2 → ℤ) j % 10) (by unfold InBox; decide)
  refine .inr ⟨fun hc => hc (by decide), ?_⟩
  rw [h8]
  have : liveOfEight (fun _ => 10) L (fun j => (![4, 4] : Fin 2 → ℤ) j % 10) = 3 := by
    simp [liveOfEight, L]
  rw [this]
  decide

/-- test_phase_fraction_at_step (the initial step): half of the sites are dead, as a double. -/
example : ∃ sim, (gridSetup2 : GridSetup ℚ 2).interface (.int 10) (.str "dead") (.str "alive") = .ok sim ∧
    Dbl.cellFraction (none : Option (Structure ℚ 2)) sim.state (.str "dead") = .ok (1 / 2) := by
  obtain ⟨sim, h1, h2⟩ := C132_interface (K := ℚ) .two 10 (by norm_num) (.str "dead") (.str "alive") (.str _) (.str _) rfl rfl (by simp)
  exact ⟨sim, h1, ((h2 none (.inl rfl)).2.2.2.2 (by norm_num)).1⟩

def threeSites : SimState := ((SimState.empty.setSiteState (.int 1) [(DISCRETE_OCCUPANCY, .str "A")]).setSiteState (.int 3)
  [(DISCRETE_OCCUPANCY, .str "A")]).setSiteState (.int 2) [(DISCRETE_OCCUPANCY, .str "B")]

/-- test_cell_count -/
example : sitesWith threeSites (.str "A") = 2 ∧ sitesWith threeSites (.str "B") = 1 ∧
    phaseCount id threeSites = .ok 2 := by decide +kernel
example : cellCount (none : Option (Structure ℚ 2)) threeSites (.str "A") = .ok 2 ∧ cellCount (none : Option (Structure ℚ 2)) threeSites (.str "B") = .ok 1 ∧
    cellRatio (none : Option (Structure ℚ 2)) threeSites (.str "A") (.str "B") = .ok 2 ∧
    cellRatio (none : Option (Structure ℚ 2)) threeSites (.str "B") (.str "A") = .ok (1 / 2) := by
  have hA : sitesWith threeSites (.str "A") = 2 := by decide +kernel
  have hB : sitesWith threeSites (.str "B") = 1 := by decide +kernel
  have hs : threeSites.sites = [(.int 1, [(SITE_ID, .num 1), (DISCRETE_OCCUPANCY, .str "A")]), (.int 3, [(SITE_ID, .num 3), (DISCRETE_OCCUPANCY, .str "A")]),
      (.int 2, [(SITE_ID, .num 2), (DISCRETE_OCCUPANCY, .str "B")])] := by decide +kernel
  have hu : ∀ v : String, (Val.dict [(DISCRETE_OCCUPANCY, .str v)]).WF := fun v =>
    .dict (by simp [Dict.WF, Dict.keys]) fun kv hkv => by rw [List.mem_singleton.1 hkv]; exact .str _
  have hAn : Analyzable threeSites := by
    refine ⟨((Filling.empty.1.setSiteState _ (hu _)).setSiteState _ (hu _)).setSiteState _ (hu _), fun k p hp => ?_, fun k hk => ?_⟩
    · have := Dict.mem_of_get? hp
      rw [hs] at this
      simp only [List.mem_cons, Prod.mk.injEq, List.not_mem_nil, or_false] at this
      rcases this with ⟨rfl, rfl⟩ | ⟨rfl, rfl⟩ | ⟨rfl, rfl⟩ <;> decide +kernel
    · have : k ∈ threeSites.sites.map Prod.fst := hk
      rw [hs] at this
      simp only [List.map_cons, List.map_nil, List.mem_cons, List.not_mem_nil, or_false] at this
      rcases this with rfl | rfl | rfl
      · exact ⟨.str "A", by decide +kernel, rfl⟩
      · exact ⟨.str "A", by decide +kernel, rfl⟩
      · exact ⟨.str "B", by decide +kernel, rfl⟩
  have hf : Fits (none : Option (Structure ℚ 2)) threeSites := by intro S hS; cases hS
  refine ⟨?_, ?_, ?_, ?_⟩
  · rw [C71_count _ _ hAn hf _ rfl, hA]
  · rw [C71_count _ _ hAn hf _ rfl, hB]
  · rw [(C71_ratio _ _ hAn hf _ _ rfl rfl).1 (by rw [hB]; decide), hA, hB]; norm_num
  · rw [(C71_ratio _ _ hAn hf _ _ rfl rfl).1 (by rw [hA]; decide), hA, hB]; norm_num

/-! ### test_cell_artists.py, test_helpers.py -/

def strOf : Val → String
  | .str s => s
  | _ => ""
def cell (v : String) : Option Props := some [(.str "x", .str v)]
def twoCells : SimState := (SimState.empty.setSiteState (.int 1) [(.str "x", .str "a")]).setSiteState (.int 2) [(.str "x", .str "b")]
def cmap : Dict Val Color := [(.str "a", (50, 60, 70)), (.str "b", (110, 120, 130))]

/-- test_discrete_cell_artist_no_legend_no_cmap -/
example : ∃ m A ca cb, buildColorMap [.str "a", .str "b"] = .ok m ∧ A = discreteArtist strOf (some m) (.str "x") none ∧
    A.color (cell "a") = .ok ca ∧ ca ≠ (0, 0, 0) ∧ A.color (cell "c") = .ok (0, 0, 0) ∧ A.color (cell "b") = .ok cb ∧ cb ≠ (0, 0, 0) ∧ cb ≠ ca ∧
    A.label (cell "a") = .ok "a" ∧ A.label (cell "b") = .ok "b" ∧ A.label (cell "c") = .ok "c" ∧ A.getLegend twoCells = .ok [("a", ca), ("b", cb)] :=
  ⟨_, _, _, _, rfl, rfl, rfl, by decide +kernel, rfl, rfl, by decide +kernel, by decide +kernel, rfl, rfl, rfl, rfl⟩
/-- test_discrete_cell_artist_no_legend_cmap -/
example : let A := discreteArtist strOf (some cmap) (.str "x") none
    A.color (cell "a") = .ok (50, 60, 70) ∧ A.color (cell "c") = .ok (0, 0, 0) ∧ A.color (cell "b") = .ok (110, 120, 130) ∧
    A.label (cell "a") = .ok "a" ∧ A.label (cell "b") = .ok "b" ∧ A.label (cell "c") = .ok "c" ∧
    A.getLegend twoCells = .ok [("a", (50, 60, 70)), ("b", (110, 120, 130))] := ⟨rfl, rfl, rfl, rfl, rfl, rfl, rfl⟩
/-- test_discrete_cell_artist_legend_and_cmap -/
example : let A := discreteArtist strOf (some cmap) (.str "x") (some [("a", (200, 210, 220)), ("b", (230, 240, 250))])
    A.color (cell "a") = .ok (50, 60, 70) ∧ A.color (cell "c") = .ok (0, 0, 0) ∧ A.label (cell "c") = .ok "c" ∧
    A.getLegend twoCells = .ok [("a", (200, 210, 220)), ("b", (230, 240, 250))] := ⟨rfl, rfl, rfl, rfl⟩

/-- test_color_map_no_extra_phases, with fixed names -/
example : (match colorMap ((List.range 10).map fun i => .str (toString i)) with
    | .ok m => decide ((m.map Prod.snd).Nodup ∧ m.length = 10)
    | .error _ => false) = true := by decide +kernel

/-! ### honeycombs, with 1.732 as the square root of three and exact arithmetic -/

def hexInv (a b : ℤ) : Matrix (Fin 2) (Fin 2) ℚ := !![1 / a, 0; -1 / (1.732 * a), 2 / (1.732 * b)]

/-- test_rhombohedral_lattice -/
theorem hex_inv : (honeyLattice (1.732 : ℚ)).mat * hexInv 1 1 = 1 := by decide +kernel
example : (honeyLattice (1.732 : ℚ)).periodized ![1 / 2, 1 / 2] = ![1 / 2, 1 / 2] ∧ (honeyLattice (1.732 : ℚ)).periodized ![0, 1 / 2] = ![1, 1 / 2] ∧
    (honeyLattice (1.732 : ℚ)).periodized ![1, 3 / 2] = ![1 / 2, 3 / 2 - 1.732 / 2] := by
  simp only [Exec.periodized_eq hex_inv]; decide +kernel

/-- test_small_honeycomb_tiling_builder -/
theorem hex11_inv : ((honeyLattice (1.732 : ℚ)).scaled ![1, 1]).mat * hexInv 1 1 = 1 := by decide +kernel
example : ∃ s, Structure.buildFrom (honeyLattice (1.732 : ℚ)) ![1, 1] honeyMotif true = .ok s ∧ (s.siteIds.length = 1 ∧
    (s.getSite 0).map Site.loc = some ![3 / 4, 1.732 / 4]) :=
  Exec.built (te := fun s => decide (s.siteIds.length = 1 ∧ (s.getSite 0).map Site.loc = some ![3 / 4, 1.732 / 4])) hex11_inv
    (fun _ _ h => of_decide_eq_true h) (by decide +kernel)

/-- test_medium_honeycomb_tiling_builder_uneven_size -/
def hex21Inv : Matrix (Fin 2) (Fin 2) ℚ := !![1 / 2, 0; -1 / (2 * 1.732), 2 / 1.732]
theorem hex21_inv : ((honeyLattice (1.732 : ℚ)).scaled ![2, 1]).mat * hex21Inv = 1 := by decide +kernel
example : ∃ s, Structure.buildFrom (honeyLattice (1.732 : ℚ)) ![2, 1] honeyMotif true = .ok s ∧
    ((s.getSite 0).map Site.loc = some ![3 / 4, 1.732 / 4] ∧ (s.getSite 1).map Site.loc = some ![7 / 4, 1.732 / 4]) :=
  Exec.built (te := fun s => decide ((s.getSite 0).map Site.loc = some ![3 / 4, 1.732 / 4] ∧ (s.getSite 1).map Site.loc = some ![7 / 4, 1.732 / 4])) hex21_inv
    (fun _ _ h => of_decide_eq_true h) (by decide +kernel)

/-- test_medium_honeycomb_tiling_builder_even_size (`get_cartesian_coords` as in the test; there are sites at both places) and
test_basic_tiling_neighborhood -/
def hex33Inv : Matrix (Fin 2) (Fin 2) ℚ := !![1 / 3, 0; -1 / (3 * 1.732), 2 / (3 * 1.732)]
theorem hex33_inv : ((honeyLattice (1.732 : ℚ)).scaled ![3, 3]).mat * hex33Inv = 1 := by decide +kernel
example : let L := (honeyLattice (1.732 : ℚ)).scaled ![3, 3]
    L.toCart ![1 / 2, 1 / 2] = ![9 / 4, 3 * 1.732 / 4] ∧ L.toCart ![1 / 6, 5 / 6] = ![7 / 4, 5 * 1.732 / 4] := by decide +kernel
example : ∃ s, Structure.buildFrom (honeyLattice (1.732 : ℚ)) ![3, 3] honeyMotif true = .ok s ∧ s.siteIds.length = 9 ∧
    ∀ q ∈ [((![9 / 4, 3 * 1.732 / 4] : Fin 2 → ℚ), some "A"), (![7 / 4, 5 * 1.732 / 4], some "A")], s.classAt q.1 = q.2 :=
  Exec.built_classes hex33_inv _ _ (by decide +kernel)
example : ∃ s g, Structure.buildFrom (honeyLattice (1.732 : ℚ)) ![3, 3] honeyMotif true = .ok s ∧
    honeycombNbhd.get s none = .ok g ∧ ∀ q ∈ [((![3 / 4, 1.732 / 4] : Fin 2 → ℚ), 6)], ∃ i, s.idAt q.1 = some i ∧ (g.neighborsOf i).length = q.2 :=
  Exec.built_counts hex33_inv _ (by decide +kernel)

end Tests
end Pyl
