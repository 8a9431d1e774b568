import Verif.Model.DoubleNested
import Verif.Spec.DoubleSetup
import Verif.Spec.Nested
/-
Specification of growth with random neighbourhoods in double precision (C119), in terms of cell coordinates.
-/
set_option autoImplicit false

namespace Pyl
namespace Spec
variable {d : ℕ}

/-- One of the offsets leads, around the torus with the numbers of cells `N`, from site `i` to another site `j`. -/
def Leads (S : Structure ℚ d) (N : Fin d → ℤ) (offs : List (Fin d → ℤ)) (i j : ℕ) : Prop :=
  j ≠ i ∧ ∃ a b, SiteHas S i a ∧ SiteHas S j b ∧ ∃ v ∈ offs, ∀ k, N k ∣ b k - (a k + v k)

/-- A controller all of whose calls of `neighbors_of` list, without repetition, the sites that one of the motifs leads to. -/
def DrawsMotifs (S : Structure ℚ d) (N : Fin d → ℤ) (ms : List (List (Fin d → ℤ))) (c : Growth.Ctl) : Prop :=
  ∀ (t : ℕ), ∀ i ∈ S.siteIds, ∃ l, c.nbs t (.int i) = .ok l ∧ l.Nodup ∧ ∃ offs ∈ ms, ∀ j, j ∈ l ↔ Leads S N offs i j

/-- What a forked worker may make of the controller: the same background, other draws. -/
def OtherDraws (S : Structure ℚ d) (N : Fin d → ℤ) (ms : List (List (Fin d → ℤ))) (fork : ℕ → Growth.Ctl → Growth.Ctl) : Prop :=
  ∀ v c, DrawsMotifs S N ms c → (fork v c).background = c.background ∧ DrawsMotifs S N ms (fork v c)

end Spec
end Pyl
