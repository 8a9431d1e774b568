import Verif.Model.Analyzer
import Verif.Spec.Growth
import Verif.Spec.Result
import Verif.Spec.Structure
/-
Specification vocabulary for the analyzers (C70-C73, C84).
-/
set_option autoImplicit false

namespace Pyl
namespace Spec

/-- Every site's dict holds the site's own id (C03: true of every state built through the API without overwriting the id). -/
def KnowsIds (s : SimState) : Prop := ∀ k p, s.getSiteState k = some p → Dict.get? p SITE_ID = some k.toVal

/-- The criteria neither raise on any site of the state nor depend on anything but the site's dict. -/
def Total (crits : List Criterion) (s : SimState) : Prop := ∀ c ∈ crits, ∀ k p, s.getSiteState k = some p → ∃ b, c (some p) = .ok b

/-- All criteria say yes. -/
def Accepts (crits : List Criterion) (p : Props) : Prop := ∀ c ∈ crits, c (some p) = .ok true

/-- The dict has all the listed keys, with the listed values (up to Python's `==`). -/
def HasAll (pairs : Props) (p : Props) : Prop := ∀ k v, (k, v) ∈ pairs → ∃ w, Dict.get? p k = some w ∧ Val.PyEq w v

/-- Every site has an occupancy that can be put into a set. -/
def Occupied (s : SimState) : Prop := ∀ k ∈ s.siteIds, ∃ v, occ? s k = some v ∧ v.hashable = true

/-- The number of sites with the phase `v`. -/
def sitesWith (s : SimState) (v : Val) : ℕ := (s.siteIds.filter fun k => decide (occ? s k = some v)).length

/-- A state the analyzers can handle. -/
def Analyzable (s : SimState) : Prop := s.WF ∧ KnowsIds s ∧ Occupied s

end Spec
end Pyl
