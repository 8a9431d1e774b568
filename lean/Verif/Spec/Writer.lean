import Verif.Model.Writer
import Verif.Spec.Async
/-
Specifications for controllers that write into the state they are shown.
-/
set_option autoImplicit false

namespace Pyl
namespace Spec
variable {σ : Type}

/-- `w` answers as `c` does and writes nothing. -/
structure OnlyReads (w : Writer σ) (c : Controller σ) : Prop where
  update : ∀ st i s, w.update st i s = (c.update st i s).map fun x => (x.1, s, x.2)
  randomSite : ∀ st s, w.randomSite st s = (c.randomSite st s).map fun x => (x.1, s, x.2)
  preRun : w.preRun = c.preRun

/-- `s'` is `s` with what the answer `r` at site `i` asks for carried out on the spot: nothing if the answer is `None`,
otherwise `set_site_state` for every updated site and `set_general_state` if general keys are updated. -/
def CarriedOut (i : Key) (r : Resp) (s s' : SimState) : Prop :=
  body r = .noUpdate ∧ s' = s ∨
  ∃ ss gs s1, body r ≠ .noUpdate ∧ Parts i (body r) ss gs ∧ (Val.dict ss).WF ∧ (Val.dict gs).WF ∧
    s.setSites ss = .ok s1 ∧ (gs = [] ∧ s' = s1 ∨ s1.setGeneralState gs = .ok s')

/-- `w` answers as `c` does and also carries out its own answer on the state it is shown. -/
structure CarriesOut (w : Writer σ) (c : Controller σ) : Prop where
  update : ∀ st i s, match c.update st i s with
    | .error e => w.update st i s = .error e
    | .ok (st', r) => ∃ s', w.update st i s = .ok (st', s', r) ∧ CarriedOut i r s s'
  randomSite : ∀ st s, w.randomSite st s = (c.randomSite st s).map fun x => (x.1, s, x.2)
  preRun : w.preRun = c.preRun

/-- The sites are visited one after the other, and every application sees what the earlier ones wrote. -/
inductive Sweep (w : Writer σ) : List Key → σ → SimState → σ → SimState → Prop where
  | nil (st : σ) (s : SimState) : Sweep w [] st s st s
  | cons {i : Key} {ids : List Key} {st st1 st2 : σ} {s s1 s2 : SimState} {r : Resp} :
      w.update st i s = .ok (st1, s1, r) → Sweep w ids st1 s1 st2 s2 → Sweep w (i :: ids) st s st2 s2

/-- One sweep after the other, starting with the controller `st` and the state `s`: `l` are the states before, between and
after the sweeps. -/
inductive Sweeps (w : Writer σ) : List SimState → σ → SimState → Prop where
  | one (st : σ) (s : SimState) : Sweeps w [s] st s
  | more {l : List SimState} {st st1 : σ} {s s1 : SimState} :
      Sweep w s.siteIds st s st1 s1 → Sweeps w l st1 s1 → Sweeps w (s :: l) st s

/-- The rule answers with an update of the site it is asked about or with `None`, never with a tuple. -/
def OwnSite (w : Writer σ) : Prop :=
  ∀ st i s st' s' r, w.update st i s = .ok (st', s', r) → ∃ p, Answers i r p

/-- The answers are ones the runners understand: nothing, or parts for sites and for the general state. -/
def Understood (w : Writer σ) : Prop :=
  ∀ st i s st' s' r, w.update st i s = .ok (st', s', r) →
    body r = .noUpdate ∨ ∃ ss gs, body r ≠ .noUpdate ∧ Parts i (body r) ss gs ∧ (Val.dict ss).WF ∧ (Val.dict gs).WF

/-- The calls of an asynchronous run, every one with all that was written and carried out before it.  A visit takes the site
at the front of the queue, its answer `r` is carried out on the state the rule left behind, and the follow-up sites go to the
back; `get_random_site` is asked when the queue is empty and may write as well.
`Passage w q st s l q' st' s'`: from queue `q`, controller `st` and state `s`, the visits `l` lead to `q'`, `st'` and `s'`. -/
inductive Passage (w : Writer σ) : List Key → σ → SimState → List (Key × Resp) → List Key → σ → SimState → Prop where
  | nil (q : List Key) (st : σ) (s : SimState) : Passage w q st s [] q st s
  | visit {i : Key} {q q' : List Key} {st st1 st' : σ} {s s1 s2 s' : SimState} {r : Resp} {l : List (Key × Resp)} :
      w.update st i s = .ok (st1, s1, r) → CarriedOut i r s1 s2 → Passage w (q ++ followUps r) st1 s2 l q' st' s' →
      Passage w (i :: q) st s ((i, r) :: l) q' st' s'
  | ask {q' : List Key} {st st1 st' : σ} {s s1 s' : SimState} {a : SiteReq} {l : List (Key × Resp)} :
      w.randomSite st s = .ok (st1, s1, a) → Passage w (offered a) st1 s1 l q' st' s' → Passage w [] st s l q' st' s'

/-- The answers are carried out one after the other, and nothing else happens. -/
inductive CarriedOutAll : List (Key × Resp) → SimState → SimState → Prop where
  | nil (s : SimState) : CarriedOutAll [] s s
  | cons {i : Key} {r : Resp} {l : List (Key × Resp)} {s s1 s2 : SimState} :
      CarriedOut i r s s1 → CarriedOutAll l s1 s2 → CarriedOutAll ((i, r) :: l) s s2

end Spec
end Pyl
