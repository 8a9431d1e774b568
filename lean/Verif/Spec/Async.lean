import Verif.Spec.Runner
/-
Specifications for the asynchronous runner.
-/
set_option autoImplicit false

namespace Pyl
namespace Spec

/-- What a controller experiences during an asynchronous run. -/
inductive Ev where
  /-- `get_state_update(i, s)` was called and answered `r` -/
  | visit (i : Key) (s : SimState) (r : Resp)
  /-- `get_random_site(s)` was called and answered `q` -/
  | ask (s : SimState) (q : SiteReq)

/-- `c` with a notebook of all calls. -/
def traced {σ : Type} (c : Controller σ) : Controller (σ × List Ev) where
  update st sid s := do
    let (st', r) ← c.update st.1 sid s
    pure ((st', st.2 ++ [.visit sid s r]), r)
  randomSite st s := do
    let (st', r) ← c.randomSite st.1 s
    pure ((st', st.2 ++ [.ask s r]), r)
  preRun st s := do
    let (st', s') ← c.preRun st.1 s
    pure ((st', st.2), s')

/-- The sites a supplier's answer puts on the queue. -/
def offered : SiteReq → List Key
  | .one i => [.int i]
  | .many l => l
  | .other => []

/-- The follow-up sites of an answer. -/
def followUps : Resp → List Key
  | .tuple _ l => l
  | _ => []

/-- A first-in first-out queue, as an automaton on events: a visit takes the front element and puts the follow-ups
at the back; the supplier is asked only when the queue is empty. `Fifo q l q'`: from queue `q` the events `l` are
allowed and leave queue `q'`. -/
inductive Fifo : List Key → List Ev → List Key → Prop
  | done (q : List Key) : Fifo q [] q
  | visit {i : Key} {q q' : List Key} {s : SimState} {r : Resp} {l : List Ev} :
      Fifo (q ++ followUps r) l q' → Fifo (i :: q) (.visit i s r :: l) q'
  | ask {s : SimState} {a : SiteReq} {q' : List Key} {l : List Ev} :
      Fifo (offered a) l q' → Fifo [] (.ask s a :: l) q'

/-- The visits among the events. -/
def visits : List Ev → List (Key × SimState × Resp)
  | [] => []
  | .visit i s r :: l => (i, s, r) :: visits l
  | .ask _ _ :: l => visits l

/-- Everything ever put on the queue, in order. -/
def enqueued : List Ev → List Key
  | [] => []
  | .visit _ _ r :: l => followUps r ++ enqueued l
  | .ask _ a :: l => offered a ++ enqueued l

/-- The dict part of an answer of an asynchronous rule. -/
def body : Resp → Resp
  | .tuple (some d) _ => .dict d
  | .tuple none _ => .noUpdate
  | r => r

end Spec
end Pyl
