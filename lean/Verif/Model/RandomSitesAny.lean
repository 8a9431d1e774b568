import Verif.Model.GridSetup
/-
Model of `setup_random_sites` (src/pylattica/structures/square_grid/grid_setup.py:279-382) for amounts of every kind: numpy's division by a total of 0 gives nan or an infinity
and raises nothing.  Verif/Model/GridSetup.lean is the same for amounts that do not add up to 0 (`C140_same`).
-/
set_option autoImplicit false

namespace Pyl
open Structure

/-- A float without rounding: a number, an infinity, or nan. -/
inductive Ext (K : Type) where
  | fin (x : K)
  | inf
  | ninf
  | nan

namespace Ext
variable {K : Type} [Field K] [LinearOrder K]

/-- numpy's `a / b` (a warning, no exception, for `b = 0`).  A total that is 0 is the float `+0.0`, unless all amounts are zeros; then every quotient is nan in any case. -/
def div (a b : K) : Ext K :=
  if b = 0 then if a = 0 then .nan else if 0 < a then .inf else .ninf
  else .fin (a / b)

/-- numpy's `x * n`. -/
def mulInt (x : Ext K) (n : ℤ) : Ext K :=
  match x with
  | .fin x => .fin (x * n)
  | .inf => if n = 0 then .nan else if 0 < n then .inf else .ninf
  | .ninf => if n = 0 then .nan else if 0 < n then .ninf else .inf
  | .nan => .nan

/-- `r < x`; every comparison with nan is False. -/
def above (r : ℤ) (x : Ext K) : Prop :=
  match x with
  | .fin x => (r : K) < x
  | .inf => True
  | .ninf => False
  | .nan => False

end Ext

namespace GridSetup
variable {K : Type} [Field K] [LinearOrder K] {d : ℕ}

open Classical in
/-- structures/square_grid/grid_setup.py:343-347: one round of the quota loop. `cycle` of an empty list raises StopIteration. -/
noncomputable def quotaRoundAny (species : List Val) (ideal : Dict Val (Ext K)) (q : Quota) : Py Quota :=
  match species[q.calls % species.length]? with
  | none => .error .stopIteration
  | some phase =>
    match Dict.get? q.real phase, Dict.get? ideal phase with
    | some r, some i =>
      if i.above r then .ok ⟨q.ids ++ [phase], Dict.set q.real phase (r + 1), q.calls + 1⟩ else .ok { q with calls := q.calls + 1 }
    | _, _ => .error .typeError

/-- structures/square_grid/grid_setup.py:342 `while len(nuc_identities) < num_sites_desired`. -/
noncomputable def quotaLoopAny (species : List Val) (ideal : Dict Val (Ext K)) (num : ℤ) : ℕ → Quota → Option (Py Quota)
  | 0, q => if (q.ids.length : ℤ) < num then none else some (.ok q)
  | fuel + 1, q =>
    if (q.ids.length : ℤ) < num then
      match quotaRoundAny species ideal q with
      | .error e => some (.error e)
      | .ok q' => quotaLoopAny species ideal num fuel q'
    else some (.ok q)

/-- structures/square_grid/grid_setup.py:322-335: `ideal_num_sites`. -/
def idealSitesAny (nucAmts : Dict Val K) (num : ℤ) : Dict Val (Ext K) :=
  let total := (Dict.values nucAmts).sum
  nucAmts.foldl (fun m sa => Dict.set m sa.1 ((Ext.div sa.2 total).mulInt num)) []

/-- structures/square_grid/grid_setup.py:337-382: the two loops of `setup_random_sites` and what it returns, as in `plantSites`. -/
noncomputable def plantSitesAny (S : Structure K d) (nbs : Option (ℕ → ℕ → List ℕ)) (num : ℤ) (background : Val) (nucAmts : Dict Val K)
    (draw : ℕ → ℕ) (fuel : ℕ) : Option (Py (Simulation K d)) :=
  match quotaLoopAny (Dict.keys nucAmts) (idealSitesAny nucAmts num) num fuel ⟨[], zeroSites nucAmts, 0⟩ with
  | none => none
  | some (.error e) => some (.error e)
  | some (.ok q) =>
    match placeLoop (S.sitesOf none) nbs background q.ids num draw fuel ⟨blank S background, 0, 0⟩ with
    | none => none
    | some (.error e) => some (.error e)
    | some (.ok p) => some (.ok ⟨p.state, S⟩)

variable [FloorRing K]

/-- structures/square_grid/grid_setup.py:279-382 `setup_random_sites`, as `randomSites` but for amounts of every kind. -/
noncomputable def randomSitesAny (G : GridSetup K d) (size : SizeArg) (num : K) (background : Val) (nucAmts : Dict Val K) (buffer : Option ℤ)
    (order : ℕ → List ℕ → List ℕ) (draw : ℕ → ℕ) (fuel : ℕ) : Option (Py (Simulation K d)) :=
  match G.builder size with
  | .error e => some (.error e)
  | .ok S =>
    let num := roundHalfEven num
    let nbs : Py (Option (ℕ → ℕ → List ℕ)) := match buffer with
      | none => .ok none
      | some r => do
        let g ← (moore r).get S none
        pure (some fun t i => order t (g.neighborsOf i))
    match nbs with
    | .error e => some (.error e)
    | .ok nbs => plantSitesAny S nbs num background nucAmts draw fuel

end GridSetup
end Pyl
