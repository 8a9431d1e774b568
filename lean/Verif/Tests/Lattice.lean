import Verif.Tests.Exec
/-
The expectations of /repo/tests/core/test_lattice.py, test_lattice_utils.py, test_periodic_structure.py,
test_structure_builder.py, test_neighborhoods.py and test_neighborhood_builders.py, evaluated on the model by Lean's kernel.
These are tests of the model, not proofs of properties.  The arithmetic is exact, so `np.isclose` becomes equality.
-/
set_option autoImplicit false

namespace Pyl
namespace Tests
open Pyl.Structure

/-! ### test_lattice.py -/

def rect : Lattice ℚ 2 := ⟨!![1, 0; 0, 1/2], fun _ => true⟩
def rectInv : Matrix (Fin 2) (Fin 2) ℚ := !![1, 0; 0, 2]
theorem rect_inv : rect.mat * rectInv = 1 := by decide +kernel

/-- test_rectangular_lattice_point_conversions -/
example : rect.periodized ![1/2, 1/4] = ![1/2, 1/4] ∧ rect.periodized ![1/2, 3/4] = ![1/2, 1/4] ∧
    rect.periodized ![0, 1/2] = ![0, 0] := by
  simp only [Exec.periodized_eq rect_inv]; decide +kernel
example : rect.toFrac ![1/2, 1/4] = ![1/2, 1/2] ∧ rect.toFrac ![1/2, 3/4] = ![1/2, 3/2] ∧
    rect.toFrac ![0, 1/2] = ![0, 1] := by
  simp only [Exec.toFrac_eq rect_inv]; decide +kernel
example : rect.toCart ![1/2, 1/4] = ![1/2, 1/8] ∧ rect.toCart ![1/2, 3/4] = ![1/2, 3/8] ∧
    rect.toCart ![0, 1/2] = ![0, 1/4] := by
  decide +kernel

def rect21Inv : Matrix (Fin 2) (Fin 2) ℚ := !![1/2, 0; 0, 2]
theorem rect21_inv : (rect.scaled ![2, 1]).mat * rect21Inv = 1 := by decide +kernel

/-- test_scaled_rectangular_lattice_point_conversions -/
example : let L := rect.scaled ![2, 1]
    L.periodized ![3/2, 1/4] = ![3/2, 1/4] ∧ L.periodized ![5/2, 3/4] = ![1/2, 1/4] ∧
    L.periodized ![0, 1/2] = ![0, 0] ∧ L.periodized ![1, 1/4] = ![1, 1/4] := by
  simp only [Exec.periodized_eq rect21_inv]; decide +kernel
example : let L := rect.scaled ![2, 1]
    L.toFrac ![3/2, 1/4] = ![3/4, 1/2] ∧ L.toFrac ![5/2, 3/4] = ![5/4, 3/2] ∧
    L.toFrac ![0, 1/2] = ![0, 1] ∧ L.toFrac ![1, 1/4] = ![1/2, 1/2] := by
  simp only [Exec.toFrac_eq rect21_inv]; decide +kernel
example : let L := rect.scaled ![2, 1]
    L.toCart ![3/2, 1/4] = ![3, 1/8] ∧ L.toCart ![5/2, 3/4] = ![5, 3/8] ∧
    L.toCart ![0, 1/2] = ![0, 1/4] ∧ L.toCart ![1, 1/4] = ![2, 1/8] := by
  decide +kernel

theorem rect22_inv : (rect.scaled ![2, 2]).mat * !![1/2, 0; 0, 1] = 1 := by decide +kernel

/-- test_rectangular_lattice_pbc_distance -/
example : let L := rect.scaled ![2, 2]
    L.dist ![0.5, 0.5] ![0.5, 0.75] = 0.25 ∧ L.dist ![0.5, 0.5] ![2.5, 0.5] = 0 ∧
    L.dist ![0.5, 0.75] ![2.5, 0.5] = 0.25 := by
  simp only [Exec.dist_eq rect22_inv]; decide +kernel

def unit (a b : Bool) : Lattice ℚ 2 := ⟨!![1, 0; 0, 1], ![a, b]⟩
theorem unit_inv (a b : Bool) : (unit a b).mat * !![1, 0; 0, 1] = 1 := by
  show !![(1 : ℚ), 0; 0, 1] * !![1, 0; 0, 1] = 1
  decide +kernel

/-- test_square_lattice_non_pbc_distance, test_square_lattice_non_pbc_coords -/
example : let L := unit false false
    L.dist ![0.1, 0.5] ![0.9, 0.5] = 0.8 ∧ L.dist ![0.1, 0.5] ![1.5, 0.5] = 1.4 ∧ L.dist ![0.9, 0.5] ![1.5, 0.5] = 0.6 := by
  simp only [Exec.dist_eq (unit_inv false false)]; decide +kernel
example : let L := unit false false
    L.periodized ![0.1, 0.5] = ![0.1, 0.5] ∧ L.periodized ![0.9, 0.5] = ![0.9, 0.5] ∧
    L.periodized ![1.5, 0.5] = ![1.5, 0.5] := by
  simp only [Exec.periodized_eq (unit_inv false false)]; decide +kernel

def canted : Lattice ℚ 2 := ⟨!![1, 0; 1, 1], fun _ => true⟩
theorem canted_inv : canted.mat * !![1, 0; -1, 1] = 1 := by decide +kernel
theorem canted22_inv : (canted.scaled ![2, 2]).mat * !![1/2, 0; -1/2, 1/2] = 1 := by decide +kernel

/-- test_canted_lattice_pbc_distance -/
example : let L := canted.scaled ![2, 2]
    L.dist ![0.75, 0.5] ![1.75, 0.5] = 1 ∧ L.dist ![0.75, 0.5] ![0, 0.5] = 0.75 ∧
    L.dist ![2.5, 0.25] ![0.5, 0.25] = 0 ∧ L.dist ![1, 1.5] ![1, 0.5] = 1 := by
  simp only [Exec.dist_eq canted22_inv]; decide +kernel

/-- test_canted_rectangular_lattice_point_conversions -/
example : canted.periodized ![1/2, 1/4] = ![1/2, 1/4] ∧ canted.periodized ![1/2, 3/4] = ![3/2, 3/4] ∧
    canted.periodized ![0, 1/2] = ![1, 1/2] := by
  simp only [Exec.periodized_eq canted_inv]; decide +kernel
example : canted.toFrac ![1/2, 1/4] = ![1/4, 1/4] ∧ canted.toFrac ![1/2, 3/4] = ![-1/4, 3/4] ∧
    canted.toFrac ![0, 1/2] = ![-1/2, 1/2] := by
  simp only [Exec.toFrac_eq canted_inv]; decide +kernel
example : canted.toCart ![1/2, 1/4] = ![3/4, 1/4] ∧ canted.toCart ![1/2, 3/4] = ![5/4, 3/4] ∧
    canted.toCart ![0, 1/2] = ![1/2, 1/2] := by
  decide +kernel

/-- test_periodizing_point -/
example : periodizeFrac ![true, true, true] ![(0.5 : ℚ), 1.5, 0.8] = ![0.5, 0.5, 0.8] ∧
    periodizeFrac ![true, true, true] ![(0 : ℚ), 0, 0] = ![0, 0, 0] ∧
    periodizeFrac ![false, false, false] ![(1.5 : ℚ), 0.8, -0.5] = ![1.5, 0.8, -0.5] ∧
    periodizeFrac ![false, false, true] ![(1.5 : ℚ), 0.8, -0.5] = ![1.5, 0.8, 0.5] ∧
    periodizeFrac ![true, false, true] ![(1.5 : ℚ), 0.8, -0.5] = ![0.5, 0.8, 0.5] ∧
    periodizeFrac ![true, false] ![(1.5 : ℚ), 1.5] = ![0.5, 1.5] := by
  decide +kernel

/-- test_nonperiodic_lattice, test_basic_points -/
example : (unit false false).periodized ![1.5, 1.5] = ![1.5, 1.5] ∧ (unit true true).periodized ![1.5, 1.5] = ![0.5, 0.5] ∧
    (unit true false).periodized ![1.5, 1.5] = ![0.5, 1.5] ∧ (unit true true).toCart ![1.5, 0.5] = ![1.5, 0.5] := by
  simp only [Exec.periodized_eq (unit_inv _ _)]; decide +kernel

theorem unit33_inv (a b : Bool) : ((unit a b).scaled ![3, 3]).mat * !![1/3, 0; 0, 1/3] = 1 := by
  cases a <;> cases b <;> decide +kernel
theorem unit22_inv (a b : Bool) : ((unit a b).scaled ![2, 2]).mat * !![1/2, 0; 0, 1/2] = 1 := by
  cases a <;> cases b <;> decide +kernel

/-- test_partially_periodic_lattice -/
example : let L := (unit true false).scaled ![3, 3]
    L.periodized ![-0.5, 1.5] = ![2.5, 1.5] ∧ L.periodized ![1.5, -0.5] = ![1.5, -0.5] ∧
    L.periodized ![-0.5, -0.5] = ![2.5, -0.5] := by
  simp only [Exec.periodized_eq (unit33_inv true false)]; decide +kernel

/-- test_scaling_lattice_retains_periodicity -/
example : ((unit false false).scaled ![2, 2]).periodic = ![false, false] ∧
    ((unit false true).scaled ![2, 2]).periodic = ![false, true] ∧
    ((unit true true).scaled ![2, 2]).periodic = ![true, true] := by
  decide +kernel

/-! ### test_lattice_utils.py -/

/-- test_pbc_diff_frac_vec -/
example : pbcDiffFrac ![true, true] ![(0.1 : ℚ), 0] ![0.9, 0] = ![0.2, 0] ∧
    pbcDiffFrac ![false, false] ![(0.1 : ℚ), 0] ![0.9, 0] = ![-0.8, 0] ∧
    pbcDiffFrac ![false, false] ![(0.1 : ℚ), 0] ![1.9, 0] = ![-1.8, 0] ∧
    pbcDiffFrac ![true, true] ![(0.9 : ℚ), 0.9] ![0.1, 0.1] = ![-0.2, -0.2] ∧
    pbcDiffFrac ![false, false] ![(0.9 : ℚ), 0.9] ![0.1, 0.1] = ![0.8, 0.8] ∧
    pbcDiffFrac ![false, true] ![(0.9 : ℚ), 0.9] ![0.1, 0.1] = ![0.8, -0.2] ∧
    pbcDiffFrac ![true, false] ![(0.9 : ℚ), 0.9] ![0.1, 0.1] = ![-0.2, 0.8] ∧
    pbcDiffFrac ![true, true] ![(1.1 : ℚ), 1.1] ![-0.1, -0.1] = ![0.2, 0.2] ∧
    pbcDiffFrac ![true, false] ![(1.1 : ℚ), 1.1] ![-0.1, -0.1] = ![0.2, 1.2] ∧
    pbcDiffFrac ![false, true] ![(1.1 : ℚ), 1.1] ![-0.1, -0.1] = ![1.2, 0.2] ∧
    pbcDiffFrac ![false, false] ![(1.1 : ℚ), 1.1] ![-0.1, -0.1] = ![1.2, 1.2] := by
  decide +kernel

/-- test_pbc_diff_cart -/
example : (unit true true).dist ![0.1, 0.1] ![0.1, 0.9] = 0.2 ∧ (unit false true).dist ![0.1, 0.1] ![0.1, 0.9] = 0.2 ∧
    (unit true false).dist ![0.1, 0.1] ![0.1, 0.9] = 0.8 ∧ (unit false false).dist ![0.1, 0.1] ![0.1, 0.9] = 0.8 ∧
    (unit true true).dist ![0.1, 0.1] ![-0.9, 0.1] = 0 ∧ (unit false true).dist ![0.1, 0.1] ![-0.9, 0.1] = 1 ∧
    (unit true false).dist ![0.1, 0.1] ![-0.9, 0.1] = 0 ∧ (unit false false).dist ![0.1, 0.1] ![-0.9, 0.1] = 1 := by
  simp only [Exec.dist_eq (unit_inv _ _)]; decide +kernel

/-! ### test_periodic_structure.py and the structures of test_lattice.py -/

def motifA : Motif ℚ 2 := .byClass [("A", [![0.5, 0.5]])]
def motifList : Motif ℚ 2 := .plain [![0.5, 0.5]]
def motifABC : Motif ℚ 2 := .byClass [("A", [![0.25, 0.25]]), ("B", [![0.35, 0.25]]), ("C", [![0.35, 0.45]])]

/-- The class of sites of a list motif. -/
def D : Option String := some "A"

example : ∃ s, Structure.buildFrom (unit true true) ![2, 2] motifA false = .ok s ∧ s.siteIds.length = 4 ∧
    ∀ q ∈ [(![0.5, 0.5], some "A"), (![0.5, 1.5], some "A"), (![1.5, 0.5], some "A"), (![1.5, 1.5], some "A"),
      (![0.5, 0.501], none), (![-1.5, -1.5], some "A"), (![-1.5, 1.5], some "A"), (![-1.5, 2.5], some "A"),
      (![2.5, -0.5], some "A")], s.classAt q.1 = q.2 :=
  Exec.built_classes (unit22_inv true true) _ _ (by decide +kernel)

/-- test_build_structure_from_list_motif -/
example : ∃ s, Structure.buildFrom (unit true true) ![3, 3] motifList false = .ok s ∧ s.siteIds.length = 9 ∧
    ∀ q ∈ [(![0.5, 0.5], D), (![-0.5, 2.5], D), (![0.25, 0.25], none)], s.classAt q.1 = q.2 :=
  Exec.built_classes (unit33_inv true true) _ _ (by decide +kernel)

/-- test_periodic_structure_class_iding, test_id_at -/
example : ∃ s, Structure.buildFrom (unit true true) ![2, 2] motifABC false = .ok s ∧ s.siteIds.length = 12 ∧
    ∀ q ∈ [(![0.25, 0.25], some "A"), (![1.35, 0.25], some "B"), (![1.35, 1.45], some "C"), (![0, 0], none)],
      s.classAt q.1 = q.2 :=
  Exec.built_classes (unit22_inv true true) _ _ (by decide +kernel)

/-- test_partially_periodic_structure -/
example : ∃ s, Structure.buildFrom (unit false true) ![3, 3] motifList false = .ok s ∧ s.siteIds.length = 9 ∧
    ∀ q ∈ [(![-0.5, 0.5], none), (![0.5, 1.5], D), (![0.5, -1.5], D)], s.classAt q.1 = q.2 :=
  Exec.built_classes (unit33_inv false true) _ _ (by decide +kernel)

/-! ### test_structure_builder.py -/

def motifAB : Motif ℚ 2 := .byClass [("A", [![0.5, 0.5]]), ("B", [![0.25, 0.5]])]

example : ∃ s, Structure.buildFrom (unit true true) ![1, 1] motifAB false = .ok s ∧ s.siteIds.length = 2 ∧
    ∀ q ∈ [(![0, 0], none), (![0.5, 0.5], some "A"), (![0.25, 0.5], some "B")], s.classAt q.1 = q.2 :=
  Exec.built_classes (inv := !![1, 0; 0, 1]) (by decide +kernel) _ _ (by decide +kernel)
example : ∃ s, Structure.buildFrom (unit true true) ![2, 2] motifAB false = .ok s ∧ s.siteIds.length = 8 ∧
    ∀ q ∈ [(![0, 0], none), (![0.5, 0.5], some "A"), (![0.25, 0.5], some "B")], s.classAt q.1 = q.2 :=
  Exec.built_classes (unit22_inv true true) _ _ (by decide +kernel)
/-- test_structure_building_unequal_dirs -/
example : ∃ s, Structure.buildFrom (unit true true) ![2, 1] motifAB false = .ok s ∧ s.siteIds.length = 4 ∧
    ∀ q ∈ [(![0, 0], none), (![1.5, 0.5], some "A"), (![0.25, 0.5], some "B"), (![1.25, 0.5], some "B")],
      s.classAt q.1 = q.2 :=
  Exec.built_classes (inv := !![1/2, 0; 0, 1]) (by decide +kernel) _ _ (by decide +kernel)
/-- test_structure_building_frac_coords -/
def double : Lattice ℚ 2 := ⟨!![2, 0; 0, 2], ![true, true]⟩
example : ∃ s, Structure.buildFrom double ![2, 1] motifAB true = .ok s ∧ s.siteIds.length = 4 ∧
    ∀ q ∈ [(![0, 0], none), (![3, 1], some "A"), (![0.5, 1], some "B")], s.classAt q.1 = q.2 :=
  Exec.built_classes (inv := !![1/4, 0; 0, 1/2]) (by decide +kernel) _ _ (by decide +kernel)
/-- `build(2)` is `build((2, 2))`; a size of the wrong length: ValueError -/
example : Structure.build (unit true true) motifAB false (.int 2) =
    Structure.build (unit true true) motifAB false (.tup [2, 2]) := by
  unfold Structure.build
  simp only [List.length_cons, List.length_nil, dite_true]
  congr 1
  funext i
  fin_cases i <;> rfl
example : Structure.build (unit true true) motifAB false (.tup [2, 2, 2, 2]) = .error .valueError := rfl

/-! ### test_neighborhoods.py, test_neighborhood_builders.py -/

/-- test_fully_periodic_neighborhoods, test_partially_periodic_neighborhoods, test_non_periodic_neighborhoods -/
example : ∃ s g, Structure.buildFrom (unit true true) ![3, 3] motifList false = .ok s ∧
    (Builder.distance 1.01).get s none = .ok g ∧
    ∀ q ∈ [(![0.5, 1.5], 4), (![0.5, 2.5], 4)], ∃ i, s.idAt q.1 = some i ∧ (g.neighborsOf i).length = q.2 :=
  Exec.built_counts (unit33_inv true true) _ (by decide +kernel)
example : ∃ s g, Structure.buildFrom (unit false true) ![3, 3] motifList false = .ok s ∧
    (Builder.distance 1.01).get s none = .ok g ∧
    ∀ q ∈ [(![0.5, 1.5], 3), (![0.5, 2.5], 3)], ∃ i, s.idAt q.1 = some i ∧ (g.neighborsOf i).length = q.2 :=
  Exec.built_counts (unit33_inv false true) _ (by decide +kernel)
example : ∃ s g, Structure.buildFrom (unit false false) ![3, 3] motifList false = .ok s ∧
    (Builder.distance 1.01).get s none = .ok g ∧
    ∀ q ∈ [(![0.5, 1.5], 3), (![0.5, 2.5], 2)], ∃ i, s.idAt q.1 = some i ∧ (g.neighborsOf i).length = q.2 :=
  Exec.built_counts (unit33_inv false false) _ (by decide +kernel)

/-- test_motif_nbhood -/
example : ∃ s g, Structure.buildFrom (unit true true) ![3, 3] motifList false = .ok s ∧
    (Builder.motif [![0, 1]]).get s none = .ok g ∧
    decide ((g.neighborsOf 4).map (fun i => (s.getSite i).map Site.loc) = [some ![1.5, 2.5]]) = true :=
  Exec.built_graph (unit33_inv true true) (fun s g => decide ((g.neighborsOf 4).map (fun i => (s.getSite i).map Site.loc) =
    [some ![1.5, 2.5]])) (by decide +kernel)

def motifDiag : Motif ℚ 2 := .byClass [("A", [![0.25, 0.25]]), ("B", [![0.5, 0.5]]), ("C", [![0.75, 0.75]])]

/-- The classes of the neighbours of the site at a place that is stored unchanged. -/
def classesOf (s : Structure ℚ 2) (g : Graph ℚ) (p : Fin 2 → ℚ) : List (Option String) :=
  match (s.sitesOf none).find? fun t => decide (t.loc = p) with
  | some t => (g.neighborsOf t.id).map fun i => (s.getSite i).map Site.cls
  | none => []

/-- test_site_class_neighborhood: the graphs of the two classes; class B has none. -/
example : ∃ s g, Structure.buildFrom (unit true true) ![3, 3] motifDiag false = .ok s ∧
    (Builder.motif [![0.25, 0.25], ![0.5, 0.5]]).get s (some "A") = .ok g ∧
    decide (classesOf s g ![1.25, 1.25] = [some "B", some "C"]) = true :=
  Exec.built_graph (unit33_inv true true) (fun s g => decide (classesOf s g ![1.25, 1.25] = [some "B", some "C"]))
    (by decide +kernel)
example : ∃ s g, Structure.buildFrom (unit true true) ![3, 3] motifDiag false = .ok s ∧
    (Builder.motif [![0.5, 0.5]]).get s (some "C") = .ok g ∧
    decide (classesOf s g ![1.75, 1.75] = [some "A"]) = true :=
  Exec.built_graph (unit33_inv true true) (fun s g => decide (classesOf s g ![1.75, 1.75] = [some "A"])) (by decide +kernel)

/-- The inverse for the grid of `n * n` sites. -/
def gridInv (n : ℤ) : Matrix (Fin 2) (Fin 2) ℚ := !![0, 1 / (n : ℚ); 1 / (n : ℚ), 0]
theorem grid_inv (n : ℤ) (hn : n ≠ 0) : ((gridLattice2 : Lattice ℚ 2).scaled fun _ => n).mat * gridInv n = 1 := by
  have : (n : ℚ) ≠ 0 := Int.cast_ne_zero.2 hn
  ext i j
  rw [Matrix.mul_apply, Fin.sum_univ_two]
  fin_cases i <;> fin_cases j <;> simp [gridInv, Lattice.scaled, gridLattice2, this]

/-- There are `k` neighbours, all different, with weights in the list. -/
def weights (i k : ℕ) (l : List ℚ) (g : Graph ℚ) : Bool :=
  (g.weightedNeighborsOf i).length == k && decide ((g.weightedNeighborsOf i).map Prod.fst).Nodup &&
    (g.weightedNeighborsOf i).all fun e => match e.2 with | some w => l.contains w | none => false

/-- test_distance_nb_builder -/
example : ∃ s g, Structure.buildFrom (gridLattice2 : Lattice ℚ 2) (fun _ => 4) gridMotif false = .ok s ∧
    (Builder.distance 1.01).get s none = .ok g ∧ weights 1 4 [1] g = true :=
  Exec.built_graph (grid_inv 4 (by decide)) (fun _ g => weights 1 4 [1] g) (by decide +kernel)
example : ∃ s g, Structure.buildFrom (gridLattice2 : Lattice ℚ 2) (fun _ => 4) gridMotif false = .ok s ∧
    (Builder.distance 1.5).get s none = .ok g ∧ weights 1 8 [1, 1.414] g = true :=
  Exec.built_graph (grid_inv 4 (by decide)) (fun _ g => weights 1 8 [1, 1.414] g) (by decide +kernel)
/-- test_struct_nb_hood_builder -/
example : ∃ s g, Structure.buildFrom (gridLattice2 : Lattice ℚ 2) (fun _ => 4) gridMotif false = .ok s ∧
    (Builder.motif [![0, 1], ![0, -1]]).get s none = .ok g ∧ weights 1 2 [1] g = true :=
  Exec.built_graph (grid_inv 4 (by decide)) (fun _ g => weights 1 2 [1] g) (by decide +kernel)
/-- test_annular_nb_hood_builder -/
example : ∃ s g, Structure.buildFrom (gridLattice2 : Lattice ℚ 2) (fun _ => 5) gridMotif false = .ok s ∧
    (Builder.annular 1.2 2.1).get s none = .ok g ∧ weights 1 8 [1.414, 2] g = true :=
  Exec.built_graph (grid_inv 5 (by decide)) (fun _ g => weights 1 8 [1.414, 2] g) (by decide +kernel)

/-! ### structures/square_grid/test_grid_structure.py, test_neighborhoods.py -/

def gridClass : Option String := some "_A"

example : ∃ s, Structure.buildFrom (gridLattice2 : Lattice ℚ 2) (fun _ => 2) gridMotif false = .ok s ∧ s.siteIds.length = 4 ∧
    ∀ q ∈ [(![0, 0], gridClass), (![0, 1], gridClass), (![1, 0], gridClass), (![1, 1], gridClass), (![0, -1], gridClass),
      (![0, 2], gridClass), (![4, 0], gridClass), (![12, 31], gridClass), (![0, 0.5], none), (![0, -0.1], none),
      (![1, 1.5], none), (![-12.001, 1], none)], s.classAt q.1 = q.2 :=
  Exec.built_classes (grid_inv 2 (by decide)) _ _ (by decide +kernel)

/-- test_circular_neighborhood, on a 5 x 5 grid instead of 20 x 20 -/
example : ∃ s g, Structure.buildFrom (gridLattice2 : Lattice ℚ 2) (fun _ => 5) gridMotif false = .ok s ∧
    (Builder.distance 3).get s none = .ok g ∧ decide ((g.neighborsOf 0).length = 24) = true :=
  Exec.built_graph (grid_inv 5 (by decide)) (fun _ g => decide ((g.neighborsOf 0).length = 24)) (by decide +kernel)
example : ∃ s g, Structure.buildFrom (gridLattice2 : Lattice ℚ 2) (fun _ => 5) gridMotif false = .ok s ∧
    (Builder.distance 2).get s none = .ok g ∧ decide ((g.neighborsOf 0).length = 8) = true :=
  Exec.built_graph (grid_inv 5 (by decide)) (fun _ g => decide ((g.neighborsOf 0).length = 8)) (by decide +kernel)

/-- test_von_neumann_neighborhood, test_moore_neighborhood, on a 6 x 6 grid instead of 10 x 10 -/
example : ∃ s g, Structure.buildFrom (gridLattice2 : Lattice ℚ 2) (fun _ => 6) gridMotif false = .ok s ∧
    (vonNeumann 1).get s none = .ok g ∧ ∀ q ∈ [(![5, 5], 4)], ∃ i, s.idAt q.1 = some i ∧ (g.neighborsOf i).length = q.2 :=
  Exec.built_counts (grid_inv 6 (by decide)) _ (by decide +kernel)
example : ∃ s g, Structure.buildFrom (gridLattice2 : Lattice ℚ 2) (fun _ => 6) gridMotif false = .ok s ∧
    (moore 1).get s none = .ok g ∧ ∀ q ∈ [(![5, 5], 8)], ∃ i, s.idAt q.1 = some i ∧ (g.neighborsOf i).length = q.2 :=
  Exec.built_counts (grid_inv 6 (by decide)) _ (by decide +kernel)

/-- test_pseudo_hexagonal_nb_hood, test_pseudo_pentagonal_nb_hood (5 x 5): whichever member is picked -/
theorem members {l : List (Builder ℚ 2)} {k : ℕ}
    (h : Exec.okAnd (Exec.buildFrom (gridInv 5) gridLattice2 (fun _ => 5) gridMotif false) (fun s =>
      l.all fun b => Exec.okAnd (Exec.get (gridInv 5) b s none) fun g => decide ((g.neighborsOf 0).length = k)) = true) :
    ∃ s, Structure.buildFrom (gridLattice2 : Lattice ℚ 2) (fun _ => 5) gridMotif false = .ok s ∧
      ∀ b ∈ l, ∃ g, b.get s none = .ok g ∧ (g.neighborsOf 0).length = k := by
  refine Exec.built (grid_inv 5 (by decide)) (fun s hs ht b hb => ?_) h
  rw [Exec.get_eq (grid_inv 5 (by decide)) hs]
  obtain ⟨g, hg, e⟩ := Exec.okAnd_ok (List.all_eq_true.1 ht b hb)
  exact ⟨g, hg, of_decide_eq_true e⟩

example : ∃ s, Structure.buildFrom (gridLattice2 : Lattice ℚ 2) (fun _ => 5) gridMotif false = .ok s ∧
    ∀ b ∈ pseudoHex2, ∃ g, b.get s none = .ok g ∧ (g.neighborsOf 0).length = 6 := members (by decide +kernel)
example : ∃ s, Structure.buildFrom (gridLattice2 : Lattice ℚ 2) (fun _ => 5) gridMotif false = .ok s ∧
    ∀ b ∈ pseudoPent, ∃ g, b.get s none = .ok g ∧ (g.neighborsOf 0).length = 5 := members (by decide +kernel)

end Tests
end Pyl
