import Verif.Model.GridSetup
import Verif.Spec.SquareGrid
import Verif.Spec.Growth
/-
Specification vocabulary for the grid setups (C64-C69, C83).
-/
set_option autoImplicit false

namespace Pyl
namespace Spec
variable {K : Type} [Field K] [LinearOrder K] [FloorRing K] {d : ℕ}

/-- A setup object as the constructor makes it, for `dim` 2 or 3. -/
inductive StdSetup : (d : ℕ) → GridSetup K d → Prop
  | two : StdSetup 2 gridSetup2
  | three : StdSetup 3 gridSetup3

/-- A state a run over the structure can start from: it has exactly the sites of the structure, each with an occupancy and with its own id, and an
empty general part. -/
def StartState (S : Structure K d) (s : SimState) : Prop :=
  s.WF ∧ s.getGeneralState = some [] ∧ SameSites S s ∧ AllOccupied s ∧
    ∀ i ∈ S.siteIds, ∃ p, s.getSiteState (.int i) = some p ∧ Dict.get? p SITE_ID = some (.num i)

/-- The site at `c` has the phase `f c`, for every site. -/
def Shows (S : Structure K d) (s : SimState) (f : (Fin d → ℤ) → Val) : Prop := ∀ i c, SiteHas S i c → occ? s (.int i) = some (f c)

/-- The integer coordinates name the same cell of a torus with `n` points along every axis. -/
def SameCell (n : ℤ) (a b : Fin d → ℤ) : Prop := ∀ j, n ∣ a j - b j

/-- All (phase, coordinate) pairs of a dict of coordinate lists, in the order in which they are listed. -/
def listed {α : Type} (m : Dict Val (List α)) : List (Val × α) := m.flatMap fun pl => pl.2.map fun c => (pl.1, c)

/-- What the cell `c` shall hold: the phase of the last pair naming that cell, or the background if there is none. -/
def LastListed (n : ℤ) (l : List (Val × (Fin d → ℤ))) (background : Val) (c : Fin d → ℤ) (v : Val) : Prop :=
  (∃ l₁ p x l₂, l = l₁ ++ (p, x) :: l₂ ∧ SameCell n x c ∧ (∀ q ∈ l₂, ¬ SameCell n q.2 c) ∧ v = p) ∨
  ((∀ q ∈ l, ¬ SameCell n q.2 c) ∧ v = background)

/-- Along some axis the coordinate is more than half a thousandth away from every integer. -/
def OffGrid (x : Fin d → K) : Prop := ∃ j, ∀ m : ℤ, 1 / 2000 < |x j - m|

/-- Integer points `a` and `b` are closer than `r` (Euclidean, compared by squares). -/
def Closer (a b : Fin d → ℤ) (r : K) : Prop := 0 < r ∧ ((∑ j, (a j - b j) ^ 2 : ℤ) : K) < r ^ 2

/-- What the cell `c` shall hold when particles with these centres and phases are dropped one after the other: the phase of the last particle that
covers the cell, or the bulk phase. -/
def LastDropped (r : K) (centre : ℕ → Fin d → ℤ) (phase : ℕ → Val) (num : ℕ) (bulk : Val) (c : Fin d → ℤ) (v : Val) : Prop :=
  (∃ p < num, Closer c (centre p) r ∧ (∀ q, p < q → q < num → ¬ Closer c (centre q) r) ∧ v = phase p) ∨
  ((∀ p < num, ¬ Closer c (centre p) r) ∧ v = bulk)

/-- The sites that do not have the background phase. -/
def nuclei (S : Structure K d) (s : SimState) (background : Val) : List ℕ :=
  S.siteIds.filter fun i : ℕ => decide (occ? s (.int i) ≠ some background)

/-- How many sites have the phase `p`. -/
def phaseCount (S : Structure K d) (s : SimState) (p : Val) : ℕ := (S.siteIds.filter fun i : ℕ => decide (occ? s (.int i) = some p)).length

end Spec
end Pyl
