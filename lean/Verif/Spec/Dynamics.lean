import Verif.Spec.Runner
/-
Specifications for serial runs as dynamical systems: what a site's state depends on, and when the history repeats.
-/
set_option autoImplicit false

namespace Pyl
namespace Spec

/-- The rule's answer at site `i` depends only on the general state and on the states of `i` and of the sites `j` with `N i j`. -/
def ReadsOnly (f : Key → SimState → Resp) (N : Key → Key → Prop) : Prop :=
  ∀ i s t, s.getGeneralState = t.getGeneralState → s.getSiteState i = t.getSiteState i →
    (∀ j, N i j → s.getSiteState j = t.getSiteState j) → f i s = f i t

/-- `j` can be reached from `i` in at most `k` hops. -/
inductive Within (N : Key → Key → Prop) : Nat → Key → Key → Prop where
  | here (k : Nat) (i : Key) : Within N k i i
  | hop {k : Nat} {i j l : Key} : N i j → Within N k j l → Within N (k + 1) i l

/-- No hop leads out of `A`. -/
def ClosedUnder (N : Key → Key → Prop) (A : Key → Prop) : Prop := ∀ i j, A i → N i j → A j

/-- From step `j` on the history repeats itself every `p` steps. -/
def RepeatsFrom (res : SimResult) (j p : Nat) : Prop :=
  ∀ k : Nat, j ≤ k → k + p < res.len → res.getStep (k + p : Nat) = res.getStep k

/-- Sites with states from `V` get states from `V`: what `old.update(answer)` makes of them is in `V` again. -/
def KeepsTo (f : Key → SimState → Resp) (V : List Props) : Prop :=
  ∀ (s : SimState), (∀ i p, s.getSiteState i = some p → p ∈ V) → ∀ i old q, s.getSiteState i = some old → Answers i (f i s) (some q) →
    Dict.update old q ∈ V

end Spec
end Pyl
