import Verif.Model.Runner
import Verif.Model.Result
import Verif.Spec.State
/-
Specifications for the runner properties.
-/
set_option autoImplicit false

namespace Pyl
namespace Spec

/-- The dict `d` is read as an update of a single site: it has no SITES/GENERAL key and is not a nonempty dict
all of whose keys are ints. -/
def IsPatch (d : Props) : Prop :=
  SITES ∉ Dict.keys d ∧ GENERAL ∉ Dict.keys d ∧ (d = [] ∨ ∃ s, Key.str s ∈ Dict.keys d)

/-- `Answers i r p`: the answer `r` of an update rule at site `i` asks for the update `p` of site `i` and for
nothing else (`none`: no update).  All the ways to write this down that the library accepts. -/
inductive Answers (i : Key) : Resp → Option Props → Prop
  /-- `None` -/
  | nothing : Answers i .noUpdate none
  /-- a bare dict of state keys -/
  | patch (d : Props) (h : IsPatch d) : Answers i (.dict d) (some d)
  /-- `{i: {...}}` -/
  | self (n : Int) (hi : i = .int n) (u : Props) : Answers i (.dict [(i, .dict u)]) (some u)
  /-- `{"SITES": {i: {...}}}`, possibly with an empty GENERAL part -/
  | total (d u : Props) (h : Dict.get? d SITES = some (.dict [(i, .dict u)]))
      (hg : Dict.get? d GENERAL = none ∨ Dict.get? d GENERAL = some (.dict [])) : Answers i (.dict d) (some u)

/-- The controller `c` that additionally writes down every call of `get_state_update`: the site and the state
it was shown. -/
def logged {σ : Type} (c : Controller σ) : Controller (σ × List (Key × SimState)) where
  update st sid s := do
    let (st', r) ← c.update st.1 sid s
    pure ((st', st.2 ++ [(sid, s)]), r)
  randomSite st s := do
    let (st', r) ← c.randomSite st.1 s
    pure ((st', st.2), r)
  preRun st s := do
    let (st', s') ← c.preRun st.1 s
    pure ((st', st.2), s')

/-- A controller without internal state given by a function. -/
def ofRule (f : Key → SimState → Resp) : Controller Unit where
  update _ sid s := .ok ((), f sid s)

/-- The `pre_run` hook does not change the state it is given. -/
def PreRunPure {σ : Type} (c : Controller σ) : Prop :=
  ∀ st s st' s', c.preRun st s = .ok (st', s') → s' = s

/-- The rule only ever updates the site it is asked about. -/
def SiteLocal (f : Key → SimState → Resp) : Prop := ∀ i s, ∃ p, Answers i (f i s) p

end Spec
end Pyl

namespace Pyl
namespace Spec

/-- The dicts inside an answer have pairwise different keys (true of every Python object). -/
def RespWF : Resp → Prop
  | .noUpdate => True
  | .dict d => (Val.dict d).WF
  | .tuple d _ => ∀ e, d = some e → (Val.dict e).WF

/-- A rule all of whose answers are proper Python dicts. -/
def RuleWF (f : Key → SimState → Resp) : Prop := ∀ i s, RespWF (f i s)

/-- `s'` arises from `s` by applying the rule at every site simultaneously: the site list and the general state
stay, and the new dict of each site is its old dict overwritten with the rule's answer on `s`. -/
def SimultaneousStep (f : Key → SimState → Resp) (s s' : SimState) : Prop :=
  s'.siteIds = s.siteIds ∧ s'.getGeneralState = s.getGeneralState ∧
  ∀ i old, s.getSiteState i = some old →
    ∃ p new, Answers i (f i s) p ∧ s'.getSiteState i = some new ∧
      (p = none → new = old) ∧ (∀ q, p = some q → Merged old q new)

/-- The parts `(SITES, GENERAL)` that an answer at site `i` asks for. -/
inductive Parts (i : Key) : Resp → Props → Props → Prop
  | nothing : Parts i .noUpdate [] []
  | patch (d : Props) (h : IsPatch d) : Parts i (.dict d) [(i, .dict d)] []
  | perSite (d : Props) (h0 : d ≠ []) (h : ∀ k ∈ Dict.keys d, ∃ n, k = .int n) : Parts i (.dict d) d []
  | total (d ss gs : Props) (h : SITES ∈ Dict.keys d ∨ GENERAL ∈ Dict.keys d)
      (hs : Dict.get? d SITES = some (.dict ss) ∨ SITES ∉ Dict.keys d ∧ ss = [])
      (hg : Dict.get? d GENERAL = some (.dict gs) ∨ GENERAL ∉ Dict.keys d ∧ gs = []) :
      Parts i (.dict d) ss gs

/-- What the last dict in the list that has the key says about it. -/
def lastSays : List Props → Key → Option Val
  | [], _ => none
  | d :: ds, k => match lastSays ds k with
    | some v => some v
    | none => Dict.get? d k

end Spec
end Pyl
