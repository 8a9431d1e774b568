import Verif.Spec.LifeVariants
/-
Specifications for C151: Life-like rules with the asynchronous runner.
-/
set_option autoImplicit false

namespace Pyl.Spec
variable {K : Type} [Field K] [LinearOrder K] [FloorRing K]

/-- `a` is what the asynchronous runner returned for the variant from `s0` after `n` steps, when the sites were drawn as `draw` says. -/
def AsyncLifeRun (S : Structure K 2) (variant : String) (s0 : SimState) (n : ℕ) (draw : ℕ → ℕ) (a : AsyncSt (Life.Ctl K × ℕ)) : Prop :=
  ∃ c, Life.init none S variant = .ok c ∧ runAsync (Life.controller.inherit draw) (c, 0) s0 n = .ok a

/-- No cell wants to change: live cells have a number of live neighbours that is one of `sv`, and dead cells have one that is not one of `b`. -/
def Resting (S : Structure K 2) (N : Fin 2 → ℤ) (b sv : List ℤ) (s : SimState) : Prop :=
  ∀ c, InBox N c → (CellIs S s c "alive" → (liveAround N {x | CellIs S s x "alive"} c : ℤ) ∈ sv) ∧
    (CellIs S s c "dead" → (liveAround N {x | CellIs S s x "alive"} c : ℤ) ∉ b)

/-- The two states have the same live cells and the same dead cells. -/
def SamePattern (S : Structure K 2) (N : Fin 2 → ℤ) (s s' : SimState) : Prop :=
  ∀ c, InBox N c → (CellIs S s c "alive" ↔ CellIs S s' c "alive") ∧ (CellIs S s c "dead" ↔ CellIs S s' c "dead")

/-- More live neighbours never hurt: with a birth (survival) digit all larger ones up to 8 are birth (survival) digits, and birth digits are survival
digits. -/
def MoreIsBetter (b sv : List ℤ) : Prop :=
  ∀ k k' : ℤ, 0 ≤ k → k ≤ k' → k' ≤ 8 → (k ∈ b → k' ∈ b) ∧ (k ∈ sv → k' ∈ sv) ∧ (k ∈ b → k ∈ sv)

/-- In the state no live cell wants to die, or no dead cell wants to be born. -/
def OneWay (S : Structure K 2) (N : Fin 2 → ℤ) (b sv : List ℤ) (s : SimState) : Prop :=
  (∀ c, InBox N c → CellIs S s c "alive" → (liveAround N {x | CellIs S s x "alive"} c : ℤ) ∈ sv) ∨
  ∀ c, InBox N c → CellIs S s c "dead" → (liveAround N {x | CellIs S s x "alive"} c : ℤ) ∉ b

end Pyl.Spec
