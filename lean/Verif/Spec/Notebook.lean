import Verif.Model.Notebook
/-
Specification vocabulary for what notebooks show (C167).
-/
set_option autoImplicit false

namespace Pyl
namespace Spec
open ResultArtist

/-- The pictures in the output of a notebook cell after the events, if it had the pictures `x` before. -/
def screen : List Img → List Event → List Img
  | x, [] => x
  | _, .clear :: es => screen [] es
  | x, .display I :: es => screen (x ++ [I]) es
  | x, .sleep _ :: es => screen x es

/-- What a viewer has time to see: the pictures in the output during each pause, with the length of the pause. -/
def seen : List Img → List Event → List (List Img × ℚ)
  | _, [] => []
  | _, .clear :: es => seen [] es
  | x, .display I :: es => seen (x ++ [I]) es
  | x, .sleep w :: es => (x, w) :: seen x es

end Spec
end Pyl
