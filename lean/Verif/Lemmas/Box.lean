import Verif.Model.Structure
import Mathlib.Data.List.Forall2
import Mathlib.Data.List.OfFn
import Mathlib.Data.List.Nodup
import Mathlib.Order.Basic
import Mathlib.Algebra.BigOperators.Group.List.Basic
import Mathlib.Tactic.Common
/-
Facts about `get_points_in_box`.
-/
set_option autoImplicit false

namespace Pyl

theorem mem_pyRange {lb ub x : ℤ} : x ∈ pyRange lb ub ↔ lb ≤ x ∧ x < ub := by
  simp only [pyRange, List.mem_map, List.mem_range]
  constructor
  · rintro ⟨k, h, rfl⟩; omega
  · intro h; exact ⟨(x - lb).toNat, by omega, by omega⟩

theorem length_pyRange (lb ub : ℤ) : (pyRange lb ub).length = (ub - lb).toNat := by simp [pyRange]

theorem pairwise_pyRange (lb ub : ℤ) : (pyRange lb ub).Pairwise (· < ·) := by
  rw [pyRange, List.pairwise_map]
  exact List.pairwise_lt_range.imp (by intro a b h; omega)

theorem mem_cartesianProduct {α : Type} {ls : List (List α)} {p : List α} :
    p ∈ cartesianProduct ls ↔ List.Forall₂ (fun x l => x ∈ l) p ls := by
  induction ls generalizing p with
  | nil => simp [cartesianProduct]
  | cons l ls ih =>
    simp only [cartesianProduct, List.mem_flatMap, List.mem_map]
    constructor
    · rintro ⟨x, hx, q, hq, rfl⟩
      exact .cons hx (ih.1 hq)
    · intro h
      cases h with
      | cons hx hq => exact ⟨_, hx, _, ih.2 hq, rfl⟩

theorem length_cartesianProduct {α : Type} (ls : List (List α)) :
    (cartesianProduct ls).length = (ls.map List.length).prod := by
  induction ls with
  | nil => simp [cartesianProduct]
  | cons l ls ih =>
    simp [cartesianProduct, List.length_flatMap, ih]

theorem pairwise_cartesianProduct {α : Type} {R : α → α → Prop} {ls : List (List α)} (h : ∀ l ∈ ls, l.Pairwise R) :
    (cartesianProduct ls).Pairwise (List.Lex R) := by
  induction ls with
  | nil => simp [cartesianProduct]
  | cons l ls ih =>
    rw [cartesianProduct, List.pairwise_flatMap]
    refine ⟨fun x _ => ?_, ?_⟩
    · rw [List.pairwise_map]
      exact (ih fun l hl => h l (by simp [hl])).imp fun hab => .cons hab
    · refine (h l (by simp)).imp ?_
      intro a b hab p hp q hq
      obtain ⟨p', -, rfl⟩ := List.mem_map.1 hp
      obtain ⟨q', -, rfl⟩ := List.mem_map.1 hq
      exact .rel hab

theorem nodup_cartesianProduct {α : Type} {ls : List (List α)} (h : ∀ l ∈ ls, l.Nodup) : (cartesianProduct ls).Nodup := by
  refine (pairwise_cartesianProduct (R := (· ≠ ·)) h).imp ?_
  intro a b hab e
  subst e
  induction a with
  | nil => cases hab
  | cons x a ih =>
    cases hab with
    | rel h => exact h rfl
    | cons h => exact ih h

/-- The integer coordinates of a listed point. -/
def cellVec (d : ℕ) (p : List ℤ) : Fin d → ℤ := fun i => p.getD i 0

theorem vecOf_eq {K : Type} [Field K] {d : ℕ} (p : List ℤ) : (Structure.vecOf p : Fin d → K) = fun i => (cellVec d p i : K) := rfl

theorem ofFn_cellVec {d : ℕ} {p : List ℤ} (h : p.length = d) : List.ofFn (cellVec d p) = p := by
  subst h
  refine List.ext_getElem (by simp) fun i h1 h2 => ?_
  simp [cellVec, h2]

theorem cellVec_ofFn {d : ℕ} (c : Fin d → ℤ) : cellVec d (List.ofFn c) = c := by
  funext i
  simp [cellVec]

/-- The cells of `build_from`. -/
def cells {d : ℕ} (n : Fin d → ℤ) : List (List ℤ) := getPointsInBox (List.replicate d 0) (List.ofFn n)

theorem cells_ranges {d : ℕ} (n : Fin d → ℤ) :
    ((List.replicate d (0 : ℤ)).zip (List.ofFn n)).map (fun b => pyRange b.1 b.2) = List.ofFn fun i => pyRange 0 (n i) := by
  refine List.ext_getElem (by simp) fun i h1 h2 => ?_
  simp

theorem cells_eq {d : ℕ} (n : Fin d → ℤ) : cells n = cartesianProduct (List.ofFn fun i => pyRange 0 (n i)) := by
  rw [cells, getPointsInBox, cells_ranges]

theorem forall₂_ofFn_iff {α β : Type} {R : α → β → Prop} {d : ℕ} {f : Fin d → α} {g : Fin d → β} :
    List.Forall₂ R (List.ofFn f) (List.ofFn g) ↔ ∀ i, R (f i) (g i) := by
  rw [List.forall₂_iff_get]
  constructor
  · rintro ⟨-, h⟩ i
    simpa using h i (by simp) (by simp)
  · intro h
    refine ⟨by simp, fun i h1 h2 => ?_⟩
    simpa using h ⟨i, by simpa using h1⟩

theorem mem_cells {d : ℕ} {n : Fin d → ℤ} {p : List ℤ} :
    p ∈ cells n ↔ p.length = d ∧ ∀ i, 0 ≤ cellVec d p i ∧ cellVec d p i < n i := by
  rw [cells_eq, mem_cartesianProduct]
  constructor
  · intro h
    have hl : p.length = d := by simpa using h.length_eq
    refine ⟨hl, ?_⟩
    rw [← ofFn_cellVec hl, forall₂_ofFn_iff] at h
    exact fun i => mem_pyRange.1 (h i)
  · rintro ⟨hl, h⟩
    rw [← ofFn_cellVec hl, forall₂_ofFn_iff]
    exact fun i => mem_pyRange.2 (h i)

theorem lex_cells {d : ℕ} (n : Fin d → ℤ) : (cells n).Pairwise (List.Lex (· < ·)) := by
  rw [cells_eq]
  refine pairwise_cartesianProduct fun l hl => ?_
  obtain ⟨i, rfl⟩ := List.mem_ofFn.1 hl
  exact pairwise_pyRange _ _

theorem nodup_cells {d : ℕ} (n : Fin d → ℤ) : (cells n).Nodup := by
  rw [cells_eq]
  refine nodup_cartesianProduct fun l hl => ?_
  obtain ⟨i, rfl⟩ := List.mem_ofFn.1 hl
  exact (pairwise_pyRange _ _).imp fun h => ne_of_lt h

theorem length_cells {d : ℕ} (n : Fin d → ℤ) : (cells n).length = ∏ i, (n i).toNat := by
  rw [cells_eq, length_cartesianProduct, List.map_ofFn, List.prod_ofFn]
  refine Finset.prod_congr rfl fun i _ => ?_
  simp [length_pyRange]

end Pyl
