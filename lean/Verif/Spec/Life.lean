import Verif.Model.Life
import Verif.Spec.SquareGrid
import Mathlib.Data.Set.Card
/-
Specification of Life-like automata on a torus (C60, C61).
-/
set_option autoImplicit false

namespace Pyl
namespace Spec

/-- How many live cells are next to `c`: other cells of the box at torus Chebyshev distance at most 1. -/
noncomputable def liveAround (N : Fin 2 → ℤ) (L : Set (Fin 2 → ℤ)) (c : Fin 2 → ℤ) : ℕ :=
  Set.ncard {x | InBox N x ∧ x ≠ c ∧ ChebyshevLE N c x 1 ∧ x ∈ L}

/-- The usual way to say it: how many of the eight offsets lead, around the edges of the torus, to a live cell. -/
def liveOfEight (N : Fin 2 → ℤ) (L : Set (Fin 2 → ℤ)) [DecidablePred (· ∈ L)] (c : Fin 2 → ℤ) : ℕ :=
  ([![-1, -1], ![-1, 0], ![-1, 1], ![0, -1], ![0, 1], ![1, -1], ![1, 0], ![1, 1]] : List (Fin 2 → ℤ)).countP fun v =>
    decide ((fun j => (c j + v j) % N j) ∈ L)

/-- One generation: a live cell stays alive if its number of live neighbours is one of `survive`; a dead one is born if it is one of `born`. -/
def generation (N : Fin 2 → ℤ) (born survive : List ℤ) (L : Set (Fin 2 → ℤ)) : Set (Fin 2 → ℤ) :=
  {c | (c ∈ L ∧ (liveAround N L c : ℤ) ∈ survive) ∨ (c ∉ L ∧ (liveAround N L c : ℤ) ∈ born)}

/-- The pattern after `k` single-cell updates: the cells `cells 0`, `cells 1`, ... are visited one after the other, and each visit gives the visited
cell, and only it, its state in the next generation of the current pattern. -/
def oneByOne (N : Fin 2 → ℤ) (born survive : List ℤ) (cells : ℕ → Fin 2 → ℤ) (L : Set (Fin 2 → ℤ)) : ℕ → Set (Fin 2 → ℤ)
  | 0 => L
  | k + 1 =>
    let P := oneByOne N born survive cells L k
    {x | x ≠ cells k ∧ x ∈ P ∨ x = cells k ∧ x ∈ generation N born survive P}

/-- The state's sites are those of the structure. -/
def SameSites {K : Type} [Field K] [LinearOrder K] [FloorRing K] {d : ℕ} (S : Structure K d) (s : SimState) : Prop :=
  ∀ k, k ∈ s.siteIds ↔ ∃ i ∈ S.siteIds, k = .int i

/-- The state shows the pattern with the live cells `L`. -/
def ShowsLife {K : Type} [Field K] [LinearOrder K] [FloorRing K] (S : Structure K 2) (s : SimState) (L : Set (Fin 2 → ℤ)) : Prop :=
  ∀ i c, SiteHas S i c → ∃ p, s.getSiteState (.int i) = some p ∧
    (c ∈ L → Dict.get? p DISCRETE_OCCUPANCY = some (.str "alive")) ∧ (c ∉ L → Dict.get? p DISCRETE_OCCUPANCY = some (.str "dead"))

/-- The digits as ints. -/
def digitValues (l : List (Fin 10)) : List ℤ := l.map fun x : Fin 10 => ((x : ℕ) : ℤ)

/-- The text of a rule with the birth digits `b` and the survival digits `s`. -/
def variantText (b s : List (Fin 10)) : String :=
  String.ofList ('B' :: b.map (fun x : Fin 10 => Nat.digitChar x) ++ '/' :: 'S' :: s.map (fun x : Fin 10 => Nat.digitChar x))

end Spec
end Pyl
