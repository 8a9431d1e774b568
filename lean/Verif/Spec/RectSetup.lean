import Verif.Spec.GridSetup
/-
Specification for C149: grid setups whose size is a tuple.
-/
set_option autoImplicit false

namespace Pyl.Spec
open Pyl.Structure
variable {K : Type} [Field K] [LinearOrder K] [FloorRing K] {d : ℕ}

/-- The sizes a setup takes, the extents of the grid along the axes and the FIRST entry of the size.  The first lattice vector of a square grid points along the
second axis, so that the first entry of a tuple is the extent of the second axis. -/
inductive SetupSize : (d : ℕ) → SizeArg → (Fin d → ℤ) → ℤ → Prop
  | int (d : ℕ) (n : ℤ) (hn : 0 < n) : SetupSize d (.int n) (fun _ => n) n
  | two (a b : ℤ) (ha : 0 < a) (hb : 0 < b) : SetupSize 2 (.tup [a, b]) ![b, a] a
  | three (a b c : ℤ) (ha : 0 < a) (hb : 0 < b) (hc : 0 < c) : SetupSize 3 (.tup [a, b, c]) ![b, a, c] a

/-- The integer coordinates name the same cell of a torus with extents `N`. -/
def SameCellIn (N : Fin d → ℤ) (a b : Fin d → ℤ) : Prop := ∀ j, N j ∣ a j - b j

/-- What the cell `c` shall hold: the phase of the last pair naming that cell, or the background if there is none. -/
def LastListedIn (N : Fin d → ℤ) (l : List (Val × (Fin d → ℤ))) (background : Val) (c : Fin d → ℤ) (v : Val) : Prop :=
  (∃ l₁ p x l₂, l = l₁ ++ (p, x) :: l₂ ∧ SameCellIn N x c ∧ (∀ q ∈ l₂, ¬ SameCellIn N q.2 c) ∧ v = p) ∨
  ((∀ q ∈ l, ¬ SameCellIn N q.2 c) ∧ v = background)

end Pyl.Spec
