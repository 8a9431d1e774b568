import Verif.Spec.Life
import Mathlib.Logic.Equiv.Defs
/-
Specification of the symmetries of a torus (C121) and of Life-like automata on the plane (C122).
-/
set_option autoImplicit false

namespace Pyl
namespace Spec

/-- A symmetry of the torus: the axes are exchanged (only if they are equally long), reversed where `sign j = -1`, and everything is shifted. -/
structure TorusMove (N : Fin 2 → ℤ) where
  axes : Equiv.Perm (Fin 2)
  sign : Fin 2 → ℤ
  shift : Fin 2 → ℤ
  sign_eq : ∀ j, sign j = 1 ∨ sign j = -1
  sides : ∀ j, N (axes j) = N j

/-- Where the symmetry takes a cell. -/
def TorusMove.apply {N : Fin 2 → ℤ} (m : TorusMove N) (c : Fin 2 → ℤ) : Fin 2 → ℤ :=
  fun j => (m.sign j * c (m.axes j) + m.shift j) % N j

/-- In the state the site at `c` has the occupancy `v`. -/
def CellIs {K : Type} [Field K] [LinearOrder K] [FloorRing K] (S : Structure K 2) (s : SimState) (c : Fin 2 → ℤ) (v : String) : Prop :=
  ∀ i, SiteHas S i c → ∃ p, s.getSiteState (.int i) = some p ∧ Dict.get? p DISCRETE_OCCUPANCY = some (.str v)

/-- Every cell of the state is either alive or dead. -/
def IsLifeState {K : Type} [Field K] [LinearOrder K] [FloorRing K] (S : Structure K 2) (s : SimState) : Prop :=
  s.WF ∧ s.getGeneralState ≠ none ∧ SameSites S s ∧ ∀ i c, SiteHas S i c → CellIs S s c "alive" ∨ CellIs S s c "dead"

/-- How many of the eight cells around `c` are live, on the plane. -/
def planeAround (M : Set (Fin 2 → ℤ)) [DecidablePred (· ∈ M)] (c : Fin 2 → ℤ) : ℕ :=
  ([![-1, -1], ![-1, 0], ![-1, 1], ![0, -1], ![0, 1], ![1, -1], ![1, 0], ![1, 1]] : List (Fin 2 → ℤ)).countP fun v => decide (c + v ∈ M)

open Classical in
/-- One generation on the plane. -/
def planeGeneration (born survive : List ℤ) (M : Set (Fin 2 → ℤ)) : Set (Fin 2 → ℤ) :=
  {c | (c ∈ M ∧ (planeAround M c : ℤ) ∈ survive) ∨ (c ∉ M ∧ (planeAround M c : ℤ) ∈ born)}

/-- A plane pattern wrapped around the torus. -/
def wrapped (N : Fin 2 → ℤ) (M : Set (Fin 2 → ℤ)) : Set (Fin 2 → ℤ) := {c | ∃ x ∈ M, ∀ j, x j % N j = c j}

/-- The pattern lies in some square of `w` by `w` cells. -/
def FitsIn (w : ℤ) (M : Set (Fin 2 → ℤ)) : Prop := ∃ m : Fin 2 → ℤ, ∀ x ∈ M, ∀ j, m j ≤ x j ∧ x j < m j + w

/-- The listed cells, moved by `a`. -/
def cellsAt (P : List (Fin 2 → ℤ)) (a : Fin 2 → ℤ) : Set (Fin 2 → ℤ) := {x | ∃ p ∈ P, x = p + a}

/-- A block. -/
def block : List (Fin 2 → ℤ) := [![0, 0], ![0, 1], ![1, 0], ![1, 1]]

/-- A blinker: three cells in a row along one axis at even times, along the other at odd times. -/
def blinkerAt (k : ℕ) : List (Fin 2 → ℤ) := if k % 2 = 0 then [![-1, 0], ![0, 0], ![1, 0]] else [![0, -1], ![0, 0], ![0, 1]]

/-- The four shapes of a glider. -/
def gliderAt (k : ℕ) : List (Fin 2 → ℤ) :=
  match k % 4 with
  | 0 => [![0, 1], ![1, 2], ![2, 0], ![2, 1], ![2, 2]]
  | 1 => [![1, 0], ![1, 2], ![2, 1], ![2, 2], ![3, 1]]
  | 2 => [![1, 2], ![2, 0], ![2, 2], ![3, 1], ![3, 2]]
  | _ => [![1, 1], ![2, 2], ![2, 3], ![3, 1], ![3, 2]]

end Spec
end Pyl
