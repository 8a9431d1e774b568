import Verif.Spec.LifePictures
import Verif.Spec.GrowthAnalyzer
/-
Specification vocabulary for the pictures of growth runs (C166).
-/
set_option autoImplicit false

namespace Pyl
namespace Spec

/-- The picture shows every cell of the grid in the colour that `f` gives the phase the cell has in the state `s`, at all pixels outside the label. -/
def DrawsPhases {K : Type} [Field K] [LinearOrder K] [FloorRing K] (S : Structure K 2) (N : Fin 2 → ℤ) (cs : ℕ) (text : TextTool) (label : String) (I : Img) (s : SimState)
    (f : Val → Color) : Prop :=
  ∀ i c, SiteHas S i c → ∃ v, occ? s (.int i) = some v ∧ ∀ x y, InBlock (N 1) cs c x y → Uncovered text label x y → InImg I x y ∧ I.px x y = f v

end Spec
end Pyl
