import Verif.Model.State
/-
Specification vocabulary for C10 and C35.
-/
set_option autoImplicit false

namespace Pyl

/-- A value that JSON can represent as it is: `None`, numbers, strings, lists and dicts with string keys. -/
inductive Val.JsonNative : Val → Prop
  | pyNone : Val.JsonNative .pyNone
  | num (q) : Val.JsonNative (.num q)
  | str (s) : Val.JsonNative (.str s)
  | list {l : List Val} : (∀ a ∈ l, Val.JsonNative a) → Val.JsonNative (.list l)
  | dict {d : Props} : (∀ kv ∈ d, ∃ s, kv.1 = .str s) → (∀ kv ∈ d, Val.JsonNative kv.2) → Val.JsonNative (.dict d)

/-- A state whose site ids are ints and whose site states and general state JSON can represent. -/
structure SimState.JsonNative (s : SimState) : Prop where
  ids : ∀ k ∈ s.siteIds, ∃ i, k = .int i
  site : ∀ k p, s.getSiteState k = some p → (Val.dict p).JsonNative
  general : ∀ g, s.getGeneralState = some g → (Val.dict g).JsonNative

/-- A diff in the documented format of `add_step`: site ids (ints) to dicts of new values. -/
structure FlatDiff (d : Props) : Prop where
  wf : Dict.WF d
  ids : ∀ kv ∈ d, ∃ i, kv.1 = .int i
  wfVal : ∀ kv ∈ d, kv.2.WF
  native : ∀ kv ∈ d, kv.2.JsonNative

end Pyl
