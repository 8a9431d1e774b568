import Verif.Spec.LifePlane
import Verif.Model.Life
/-
Specification for C150: what can be said of a Life-like rule from its digits.
-/
set_option autoImplicit false

namespace Pyl.Spec

/-- `res` is what a run of the variant from `s0` for `n` steps returned, with the serial runner or with the parallel runner under any schedule. -/
def LifeRun {K : Type} [Field K] [LinearOrder K] [FloorRing K] (S : Structure K 2) (variant : String) (s0 : SimState) (n : ℕ) (res : SimResult) : Prop :=
  ∃ c, Life.init none S variant = .ok c ∧ ((∃ c', runSync Life.controller c s0 n = .ok (c', res)) ∨
    ∃ w sched, 0 < w ∧ (∀ k, k < n → (sched k).Valid w (chunks s0.siteIds (chunkSize s0.siteIds.length w)).length) ∧
      runParallel Life.controller (fun _ c => c) c s0 w n sched = .ok res)

/-- The rule `b', sv'` does to dead cells what `b, sv` does to live ones: with 8 neighbours, `k` live neighbours are `8 - k` dead ones. -/
def OppositeRules (b sv b' sv' : List ℤ) : Prop := ∀ k : ℤ, 0 ≤ k → k ≤ 8 → (k ∈ b' ↔ 8 - k ∉ sv) ∧ (k ∈ sv' ↔ 8 - k ∉ b)

/-- Exactly the cells that are live in one state are dead in the other. -/
def OppositeStates {K : Type} [Field K] [LinearOrder K] [FloorRing K] (S : Structure K 2) (N : Fin 2 → ℤ) (s s' : SimState) : Prop :=
  ∀ c, InBox N c → (CellIs S s c "alive" ↔ CellIs S s' c "dead") ∧ (CellIs S s c "dead" ↔ CellIs S s' c "alive")

end Pyl.Spec
