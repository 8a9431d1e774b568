import Verif.Model.Growth
import Verif.Spec.Life
/-
Specification of growth (C62, C63).
-/
set_option autoImplicit false

namespace Pyl
namespace Spec

/-- The occupancy of a site, if it has one. -/
def occ? (s : SimState) (i : Key) : Option Val := (s.getSiteState i).bind fun p => Dict.get? p DISCRETE_OCCUPANCY

/-- How many of the listed sites have the phase `p`. -/
def tally (s : SimState) (l : List ℕ) (p : Val) : ℕ := l.countP fun j : ℕ => decide (occ? s (.int j) = some p)

/-- A site with phase `v` and neighbours `l` may have phase `v'` one growth step later: an occupied site keeps its phase; a background site stays
background if all neighbours are background, and otherwise takes the phase of some neighbour, not the background, whose count is largest. -/
def GrowthStep (bg : Val) (s : SimState) (l : List ℕ) (v v' : Val) : Prop :=
  (v ≠ bg → v' = v) ∧
  (v = bg → (∀ j ∈ l, occ? s (.int j) = some bg) → v' = bg) ∧
  (v = bg → (∃ j ∈ l, occ? s (.int j) ≠ some bg) →
    v' ≠ bg ∧ (∃ j ∈ l, occ? s (.int j) = some v') ∧ ∀ q, q ≠ bg → tally s l q ≤ tally s l v')

/-- The controller `c'` is `c` except that neighbours may be listed in another order (the copies of a controller in forked processes). -/
def Reorders (c c' : Growth.Ctl) : Prop :=
  c'.background = c.background ∧ ∀ t i l, c.nbs t i = .ok l → ∃ l', c'.nbs t i = .ok l' ∧ l'.Perm l

/-- `i` is `j`, or at most `k` moves to a neighbour lead from `i` to `j`. -/
def Hops (nb : ℕ → List ℕ) : ℕ → ℕ → ℕ → Prop
  | 0, i, j => i = j
  | k + 1, i, j => Hops nb k i j ∨ ∃ x ∈ nb i, Hops nb k x j

/-- Every site has an occupancy. -/
def AllOccupied (s : SimState) : Prop := ∀ i ∈ s.siteIds, ∃ v, occ? s i = some v

end Spec
end Pyl
