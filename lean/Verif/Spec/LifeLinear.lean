import Verif.Spec.LifeAsync
import Mathlib.Algebra.Group.Even
/-
Specifications for C153: Life-like rules that only ask whether the number of live cells is odd.
-/
set_option autoImplicit false

namespace Pyl.Spec
variable {K : Type} [Field K] [LinearOrder K] [FloorRing K]

/-- A cell lives next if the number of live cells among its eight neighbours is odd (Replicator, B1357/S1357). -/
def OddOfEight (b sv : List ℤ) : Prop := ∀ k : ℤ, 0 ≤ k → k ≤ 8 → (k ∈ b ↔ Odd k) ∧ (k ∈ sv ↔ Odd k)

/-- A cell lives next if the number of live cells among its eight neighbours and itself is odd (Fredkin, B1357/S02468). -/
def OddOfNine (b sv : List ℤ) : Prop := ∀ k : ℤ, 0 ≤ k → k ≤ 8 → (k ∈ b ↔ Odd k) ∧ (k ∈ sv ↔ Odd (k + 1))

open Classical in
/-- How many of the eight cells that are reached from `c` by `m` moves in one of the eight directions, around the edges of the torus, are alive. -/
noncomputable def aliveAt (S : Structure K 2) (N : Fin 2 → ℤ) (s : SimState) (m : ℤ) (c : Fin 2 → ℤ) : ℕ :=
  ([![-1, -1], ![-1, 0], ![-1, 1], ![0, -1], ![0, 1], ![1, -1], ![1, 0], ![1, 1]] : List (Fin 2 → ℤ)).countP fun v =>
    decide (CellIs S s (fun j => (c j + m * v j) % N j) "alive")

/-- In `s` exactly those cells are alive that are alive in one of `s1`, `s2` but not in both; the others are dead. -/
def Overlay (S : Structure K 2) (N : Fin 2 → ℤ) (s1 s2 s : SimState) : Prop :=
  ∀ c, InBox N c → (CellIs S s c "alive" ↔ Xor (CellIs S s1 c "alive") (CellIs S s2 c "alive")) ∧
    (CellIs S s c "dead" ↔ ¬ Xor (CellIs S s1 c "alive") (CellIs S s2 c "alive"))

end Pyl.Spec
