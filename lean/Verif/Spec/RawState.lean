import Verif.Model.RawState
/-
Which raw values are states.
-/
set_option autoImplicit false

namespace Pyl
namespace Spec

/-- The value `v` is a dict that holds the site states of `s` under `SITES`, in the same order, and its general state under `GENERAL` (no entry if `s` has none).
There may be further entries. -/
def Holds (v : Val) (s : SimState) : Prop :=
  ∃ d, v = .dict d ∧ Dict.get? d (.str "SITES") = some (.dict (s.sites.map fun kp => (kp.1, .dict kp.2))) ∧
    Dict.get? d (.str "GENERAL") = s.general.map Val.dict

/-- Apart from `SITES` and `GENERAL` the two dicts have the same entries. -/
def SameExtras (v w : Val) : Prop :=
  ∃ d e, v = .dict d ∧ w = .dict e ∧ ∀ k, k ≠ .str "SITES" → k ≠ .str "GENERAL" → Dict.get? d k = Dict.get? e k

/-- There are no entries besides `SITES` and `GENERAL`. -/
def NoExtras (v : Val) : Prop := ∀ d, v = .dict d → ∀ k ∈ Dict.keys d, k = .str "SITES" ∨ k = .str "GENERAL"

end Spec
end Pyl
