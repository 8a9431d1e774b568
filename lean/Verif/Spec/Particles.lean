import Verif.Spec.GridSetup
import Mathlib.Data.Real.Basic
import Mathlib.Data.Fintype.Pi
/-
Specification vocabulary for the law of randomly dropped particles (C138).
-/
set_option autoImplicit false

namespace Pyl
namespace Spec

open Classical in
/-- The probability of `P` when one of finitely many equally likely cases happens: the fraction of the cases for which `P` holds. -/
noncomputable def fraction {Ω : Type} [Fintype Ω] (P : Ω → Prop) : ℝ := (Finset.univ.filter P).card / (Fintype.card Ω : ℝ)

/-- What is drawn for one particle: a centre in a grid with `n` cells per axis, and one of `m` entries of the list of phases. -/
abbrev Drop (d n m : ℕ) : Type := (Fin d → Fin n) × Fin m

/-- The centres drawn (the draws for particles after the `k`-th do not happen; the model then needs some value). -/
def dropCoord {d n m k : ℕ} (ω : Fin k → Drop d n m) : ℕ → Fin d → ℕ := fun p j => if h : p < k then (ω ⟨p, h⟩).1 j else 0

/-- The phases drawn, by their places in the list. -/
def dropPhase {d n m k : ℕ} (ω : Fin k → Drop d n m) : ℕ → ℕ := fun p => if h : p < k then (ω ⟨p, h⟩).2 else 0

open Classical in
/-- The fraction of the cells of an `n x ... x n` grid closer than `r` to the cell `c`, measured inside the grid and not across its border. -/
noncomputable def coverage {K : Type} [Field K] [LinearOrder K] {d : ℕ} (n : ℕ) (r : K) (c : Fin d → ℤ) : ℝ :=
  (Finset.univ.filter fun x : Fin d → Fin n => Closer c (fun j => ((x j : ℕ) : ℤ)) r).card / (n : ℝ) ^ d

end Spec
end Pyl
