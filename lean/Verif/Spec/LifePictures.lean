import Verif.Spec.Viz
/-
Specification vocabulary for the pictures of Life runs (C163).
-/
set_option autoImplicit false

namespace Pyl
namespace Spec

/-- The label, written where the artists write it, does not reach the pixel. -/
def Uncovered (text : TextTool) (label : String) (x y : ℤ) : Prop := ∀ I, (text I 5 5 label).px x y = I.px x y

/-- The picture shows the cells in `L` in the colour `on` and the other cells of the grid in the colour `off`, at all pixels outside the label. -/
def DrawsCells (N : Fin 2 → ℤ) (cs : ℕ) (text : TextTool) (label : String) (I : Img) (L : Set (Fin 2 → ℤ)) (on off : Color) : Prop :=
  ∀ c : Fin 2 → ℤ, (0 ≤ c 0 ∧ c 0 < N 0) → (0 ≤ c 1 ∧ c 1 < N 1) → ∀ x y, InBlock (N 1) cs c x y → Uncovered text label x y →
    InImg I x y ∧ (c ∈ L → I.px x y = on) ∧ (c ∉ L → I.px x y = off)

end Spec
end Pyl
