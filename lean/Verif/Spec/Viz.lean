import Verif.Model.Viz
import Verif.Spec.Analyzer
/-
Specification vocabulary for the visualization properties (C74-C77, C85-C87).
-/
set_option autoImplicit false

namespace Pyl
namespace Spec

/-- `p` stands at place `i` of the list and nowhere after it. -/
def LastAt {α : Type} (l : List α) (p : α) (i : ℕ) : Prop := l[i]? = some p ∧ ∀ j, i < j → l[j]? ≠ some p

/-- `i` is the first place of the list with the property. -/
def FirstWith {α : Type} (l : List α) (P : α → Prop) (i : ℕ) (a : α) : Prop := l[i]? = some a ∧ P a ∧ ∀ j b, j < i → l[j]? = some b → ¬ P b

/-- The pixel is inside the image. -/
def InImg (I : Img) (x y : ℤ) : Prop := 0 ≤ x ∧ x < I.w ∧ 0 ≤ y ∧ y < I.h

/-- The pixel belongs to the `cs * cs` block of the site with coordinates `c` in the picture of a grid with `n` rows: row 0 of the grid is at the bottom. -/
def InBlock (n : ℤ) (cs : ℕ) (c : Fin 2 → ℤ) (x y : ℤ) : Prop :=
  c 0 * cs ≤ x ∧ x < c 0 * cs + cs ∧ (n - 1 - c 1) * cs ≤ y ∧ y < (n - 1 - c 1) * cs + cs

/-- Text written at `(x, y)` does not change pixels more than `slack` pixels to the left of `x`, nor the size of the image. -/
def TextRight (text : TextTool) (slack : ℤ) : Prop :=
  ∀ I x y str, (text I x y str).w = I.w ∧ (text I x y str).h = I.h ∧ ∀ a b, a < x - slack → (text I x y str).px a b = I.px a b

/-- The cell is filled in the array of the colour string. -/
def Filled (data : Artist3D.Voxels) (str : String) (v : ℤ × ℤ × ℤ) : Prop := ∃ cells, Dict.get? data str = some cells ∧ v ∈ cells

end Spec
end Pyl
