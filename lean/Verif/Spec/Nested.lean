import Verif.Model.Nested
import Verif.Spec.Growth
/-
Specification of compound neighbourhood builders (C116) and of growth with them (C117).
-/
set_option autoImplicit false

namespace Pyl
namespace Spec
variable {K : Type} [Field K] [LinearOrder K] [FloorRing K] {d : ℕ}

/-- The dicts of the builder have pairwise different keys (true of every Python dict). -/
inductive KeysDiffer : NbBuilder K d → Prop
  | one (b : Builder K d) : KeysDiffer (.one b)
  | stochastic (bs : List (NbBuilder K d)) : (∀ b ∈ bs, KeysDiffer b) → KeysDiffer (.stochastic bs)
  | siteClass (bs : List (String × NbBuilder K d)) : Dict.WF bs → KeysDiffer (.siteClass bs)

/-- No random choice among no members. -/
inductive Stocked : NbBuilder K d → Prop
  | one (b : Builder K d) : Stocked (.one b)
  | stochastic (bs : List (NbBuilder K d)) : bs ≠ [] → (∀ b ∈ bs, Stocked b) → Stocked (.stochastic bs)
  | siteClass (bs : List (String × NbBuilder K d)) : Stocked (.siteClass bs)

/-- Every builder of one graph inside can build its graph for the structure, and the builder of a site class is one of those. -/
inductive Buildable (s : Structure K d) : NbBuilder K d → Prop
  | one (b : Builder K d) (g : Graph K) : b.get s none = .ok g → Buildable s (.one b)
  | stochastic (bs : List (NbBuilder K d)) : (∀ b ∈ bs, Buildable s b) → Buildable s (.stochastic bs)
  | siteClass (bs : List (String × NbBuilder K d)) :
      (∀ cb ∈ bs, ∃ b g, cb.2 = .one b ∧ b.get s (some cb.1) = .ok g) → Buildable s (.siteClass bs)

/-- `l` is a possible answer (ids with weights) for site `i`: a builder of one graph answers with the neighbours in its graph, a stochastic builder with
a possible answer of one of its members, a builder by site class with the neighbours in the graph of the site's class, or with nothing if it has
no builder for that class. -/
inductive CanAnswer (s : Structure K d) (i : ℕ) : NbBuilder K d → List (ℕ × Option K) → Prop
  | one (b : Builder K d) (g : Graph K) : b.get s none = .ok g → CanAnswer s i (.one b) (g.weightedNeighborsOf i)
  | stochastic (bs : List (NbBuilder K d)) (b : NbBuilder K d) (l : List (ℕ × Option K)) :
      b ∈ bs → CanAnswer s i b l → CanAnswer s i (.stochastic bs) l
  | siteClass (bs : List (String × NbBuilder K d)) (c : String) (b : Builder K d) (g : Graph K) :
      s.siteClass i = .ok c → (c, .one b) ∈ bs → b.get s (some c) = .ok g → CanAnswer s i (.siteClass bs) (g.weightedNeighborsOf i)
  | other (bs : List (String × NbBuilder K d)) (c : String) :
      s.siteClass i = .ok c → c ∉ Dict.keys bs → CanAnswer s i (.siteClass bs) []

/-- `j` is a neighbour of `i` in every possible answer. -/
def Always (s : Structure K d) (b : NbBuilder K d) (i j : ℕ) : Prop := ∀ l, CanAnswer s i b l → j ∈ l.map Prod.fst

/-- `j` is a neighbour of `i` in some possible answer. -/
def Sometimes (s : Structure K d) (b : NbBuilder K d) (i j : ℕ) : Prop := ∃ l, CanAnswer s i b l ∧ j ∈ l.map Prod.fst

/-- `i` is `j`, or at most `k` moves along `R` lead from `i` to `j`. -/
def HopsBy (R : ℕ → ℕ → Prop) : ℕ → ℕ → ℕ → Prop
  | 0, i, j => i = j
  | k + 1, i, j => HopsBy R k i j ∨ ∃ x, R i x ∧ HopsBy R k x j

/-- A worker's copy of the controller: same background, and every call of `neighbors_of` gives a possible answer, in some order (a forked process
has its own random numbers). -/
def Redraws (s : Structure K d) (b : NbBuilder K d) (c c' : Growth.Ctl) : Prop :=
  c'.background = c.background ∧
    ∀ (t : ℕ), ∀ i ∈ s.siteIds, ∃ l l', CanAnswer s i b l ∧ l'.Perm (l.map Prod.fst) ∧ c'.nbs t (.int i) = .ok l'

end Spec
end Pyl
