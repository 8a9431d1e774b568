import Verif.Model.ResultFile
import Verif.Spec.Result
/-
Specification vocabulary for result files (C168).
-/
set_option autoImplicit false

namespace Pyl
namespace Spec
open SimResult

/-- A time of day on a date. -/
def Clock.Valid (t : Clock) : Prop := 1 ≤ t.month ∧ t.month ≤ 12 ∧ 1 ≤ t.day ∧ t.day ≤ 31 ∧ t.hour < 24 ∧ t.minute < 60 ∧ t.second < 60

/-- The two times lie in the same minute. -/
def SameMinute (t u : Clock) : Prop := t.year = u.year ∧ t.month = u.month ∧ t.day = u.day ∧ t.hour = u.hour ∧ t.minute = u.minute

/-- Reading the file gives a result with the steps of `r`. -/
def FileHolds (files : ResultFiles) (name : String) (r : SimResult) : Prop :=
  ∃ r', fromFile files name = some (.ok r') ∧ r'.len = r.len ∧ ∀ k : Nat, k < r.len → r'.getStep k = r.getStep k

end Spec
end Pyl
