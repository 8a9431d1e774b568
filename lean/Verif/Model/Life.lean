import Verif.Model.Runner
import Verif.Model.SquareGrid
/-
Model of src/pylattica/discrete/state_constants.py and src/pylattica/models/game_of_life/controller.py.
-/
set_option autoImplicit false

namespace Pyl

/-- discrete/state_constants.py:2 -/
def DISCRETE_OCCUPANCY : Key := .str "DISCRETE_OCCUPANCY"
/-- discrete/state_constants.py:1 -/
def VACANT : Val := .str "VACANT"

/-- `state.get_site_state(i)[DISCRETE_OCCUPANCY]`: TypeError for an unknown site (`None[...]`), KeyError for a site without occupancy. -/
def occupancy (s : SimState) (i : Key) : Py Val :=
  match s.getSiteState i with
  | none => .error .typeError
  | some p =>
    match Dict.get? p DISCRETE_OCCUPANCY with
    | none => .error .keyError
    | some v => .ok v

/-- `graph.neighbors(site_id)`: the argument has to be a nonnegative int. -/
def neighborsOfKey {K : Type} (g : Graph K) : Key → Py (List ℕ)
  | .int i => if 0 ≤ i then .ok (g.neighborsOf i.toNat) else .error .overflowError
  | .str _ => .error .typeError

namespace Life

/-- `s.split("/")` on the characters. -/
def splitSlash : List Char → List (List Char)
  | [] => [[]]
  | c :: cs =>
    if c = '/' then [] :: splitSlash cs
    else match splitSlash cs with
      | [] => [[c]]
      | p :: ps => (c :: p) :: ps

/-- `int(el)` for one character.  Python also accepts the decimal digits of other scripts; those are not modelled. -/
def intOfChar (c : Char) : Py ℤ := if c.isDigit then .ok ((c.toNat : ℤ) - 48) else .error .valueError

/-- models/game_of_life/controller.py:6-10 `process_variant_string`. -/
def processVariant (v : String) : Py (List ℤ × List ℤ) := do
  match splitSlash v.toList with
  | b :: s :: _ => do
    let born ← (b.drop 1).mapM intOfChar
    let survive ← (s.drop 1).mapM intOfChar
    pure (born, survive)
  | b :: [] => do
    let _ ← (b.drop 1).mapM intOfChar
    .error .indexError
  | [] => .error .indexError

/-- models/game_of_life/controller.py:13-20.  The attributes of a controller. -/
structure Ctl (K : Type) where
  born : List ℤ
  survive : List ℤ
  struct : Structure K 2
  neighborhood : Option (Graph K)

variable {K : Type} [Field K] [LinearOrder K] [FloorRing K]

/-- models/game_of_life/controller.py:14, 16-20 `__init__`: a class-level `variant` of a subclass takes precedence over the argument. -/
def init (clsVariant : Option String) (s : Structure K 2) (variant : String := "B3/S23") : Py (Ctl K) := do
  let (born, survive) ← processVariant (clsVariant.getD variant)
  pure ⟨born, survive, s, none⟩

/-- models/game_of_life/controller.py:22-23 `pre_run`; `MooreNbHoodBuilder()` has size 1 and dimension 2. -/
noncomputable def preRun (c : Ctl K) (s : SimState) : Py (Ctl K × SimState) := do
  let g ← (moore 1 : Builder K 2).get c.struct none
  pure ({ c with neighborhood := some g }, s)

/-- models/game_of_life/controller.py:25-48 `get_state_update` (without the count of dead neighbours, which is not used). -/
def update (c : Ctl K) (sid : Key) (s : SimState) : Py (Ctl K × Resp) := do
  let g ← match c.neighborhood with
    | none => .error .attributeError
    | some g => .ok g
  let nbs ← neighborsOfKey g sid
  let alive ← nbs.foldlM (fun (n : ℤ) (nb : ℕ) => do
    let o ← occupancy s (.int nb)
    pure (if o = .str "alive" then n + 1 else n)) (0 : ℤ)
  let cur ← occupancy s sid
  let new := if cur = .str "alive" ∧ alive ∈ c.survive then "alive"
    else if cur = .str "dead" ∧ alive ∈ c.born then "alive"
    else "dead"
  pure (c, .dict [(DISCRETE_OCCUPANCY, .str new)])

/-- models/game_of_life/controller.py:13 `GameOfLifeController` as the runner sees it. -/
noncomputable def controller : Controller (Ctl K) where
  update := update
  preRun := preRun

/-- models/game_of_life/controller.py:51-55 -/
def life : String := "B3/S23"
/-- models/game_of_life/controller.py:52 -/
def anneal : String := "B4678/S35678"
/-- models/game_of_life/controller.py:53 -/
def diamoeba : String := "B35678/S5678"
/-- models/game_of_life/controller.py:54 -/
def seeds : String := "B2/S"
/-- models/game_of_life/controller.py:55 -/
def maze : String := "B3/S12345"

end Life
end Pyl
