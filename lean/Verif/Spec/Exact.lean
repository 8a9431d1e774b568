import Verif.Spec.Structure
/-
Conditions on stored locations (C46, C47, C93).
-/
set_option autoImplicit false

namespace Pyl
namespace Structure
variable {K : Type} [Field K] [LinearOrder K] [FloorRing K] {d : ℕ}

/-- All stored locations are at different places. -/
def StoredApart (S : Structure K d) : Prop :=
  ∀ i j t u, S.getSite i = some t → S.getSite j = some u → S.lattice.SamePlace t.loc u.loc → i = j

/-- Every site is found at its stored location, and storing that location again would not move it. -/
def StoredWell (S : Structure K d) : Prop :=
  ∀ i t, S.getSite i = some t → S.siteAt t.loc = some t ∧ S.lattice.Stored t.loc t.loc

end Structure
end Pyl
