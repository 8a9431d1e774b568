import Verif.Model.Result
/-
Model of the serialisation methods of core/simulation_state.py and core/simulation_result.py, and of what
`json.loads(json.dumps(x))` does to a Python value.

The JSON text itself is not modelled: `Val.json v` is the value that comes back.  (Numbers print and parse exactly:
Python's `repr` of a float parses back to the same float.)  `dumpfn`/`loadfn` of monty add and strip keys starting with
`@`, which the modelled `from_dict` methods never look at.
-/
set_option autoImplicit false

namespace Pyl

/-- `json.dumps` prints an int key in decimal. -/
def decimal (i : Int) : String :=
  String.ofList (if i < 0 then '-' :: Nat.toDigits 10 i.natAbs else Nat.toDigits 10 i.natAbs)

/-- A dict key after a trip through JSON: always a string. -/
def Key.json : Key → Key
  | .int i => .str (decimal i)
  | .str s => .str s

mutual
/-- `json.loads(json.dumps(v))`: tuples become lists, keys become strings, and of two keys with the same string the
later entry wins (`json.loads` builds the dict from the pairs in order). -/
def Val.json : Val → Val
  | .pyNone => .pyNone
  | .num q => .num q
  | .str s => .str s
  | .list l => .list (Val.jsonList l)
  | .tup l => .list (Val.jsonList l)
  | .dict d => .dict (Dict.ofPairs (Val.jsonPairs d))
/-- elements of a list -/
def Val.jsonList : List Val → List Val
  | [] => []
  | v :: l => v.json :: Val.jsonList l
/-- entries of a dict -/
def Val.jsonPairs : List (Key × Val) → List (Key × Val)
  | [] => []
  | (k, v) :: d => (k.json, v.json) :: Val.jsonPairs d
end

/-- The digits of an int literal after its first digit: digits, with single underscores allowed between them. -/
def intTail : Nat → List Char → Option Nat
  | n, [] => some n
  | n, '_' :: c :: l => if c.isDigit then intTail (n * 10 + (c.toNat - '0'.toNat)) l else none
  | n, c :: l => if c.isDigit then intTail (n * 10 + (c.toNat - '0'.toNat)) l else none

/-- An unsigned int literal. -/
def intBody : List Char → Option Nat
  | [] => none
  | c :: l => if c.isDigit then intTail (c.toNat - '0'.toNat) l else none

/-- A signed int literal. -/
def intSigned : List Char → Option Int
  | '-' :: l => (intBody l).map fun n : Nat => -(n : Int)
  | '+' :: l => (intBody l).map fun n : Nat => (n : Int)
  | l => (intBody l).map fun n : Nat => (n : Int)

/-- The ASCII characters that `int()` skips at both ends: tab, line feed, vertical tab, form feed, carriage return, the separators
0x1c to 0x1f and the blank. -/
def isSpace (c : Char) : Bool := (9 ≤ c.toNat && c.toNat ≤ 13) || (28 ≤ c.toNat && c.toNat ≤ 32)

/-- Remove white space at both ends. -/
def stripped (l : List Char) : List Char :=
  ((l.dropWhile isSpace).reverse.dropWhile isSpace).reverse

/-- `int(k)` for a dict key: an int is itself; a string is parsed (surrounding white space, a sign and underscores
between digits are allowed; non-ASCII digits and white space are not modelled), otherwise ValueError. -/
def Key.toInt : Key → Py Int
  | .int i => .ok i
  | .str s =>
    match intSigned (stripped s.toList) with
    | some i => .ok i
    | none => .error .valueError

/-- `{int(k): v for k, v in d.items()}` -/
def intKeys (d : Props) : Py Props := do
  let l ← d.mapM fun kv => do pure (Key.int (← kv.1.toInt), kv.2)
  pure (Dict.ofPairs l)

namespace SimState

/-- core/simulation_state.py:20-21: the dict `self._state`. -/
def stateDict (s : SimState) : Props :=
  (SITES, .dict (s.sites.map fun kp => (kp.1, .dict kp.2))) ::
    match s.general with
    | none => []
    | some g => [(GENERAL, .dict g)]

/-- core/simulation_state.py:19-24 `as_dict`. -/
def asDict (s : SimState) : Props :=
  [(.str "state", .dict s.stateDict), (.str "@module", .str "pylattica.core.simulation_state"),
    (.str "@class", .str "SimulationState")]

/-- A value as a site's state.  Python stores whatever it is given; the model can only hold dicts. -/
def asProps : Val → Py Props
  | .dict d => .ok d
  | _ => .error .typeError

/-- core/simulation_state.py:26-30, 55 `from_dict`: missing `"state"` or `SITES` raise KeyError, a `SITES` that is not a
dict raises AttributeError, a key that is no int literal raises ValueError.  Two simplifications: site states and the
general state that are not dicts are stored as they are by Python and rejected (TypeError) here, and further keys of the
state dict, which no method reads, are dropped.  Without them: `Raw.fromDict` in Model/RawState.lean.  That the argument's own `SITES` entry is replaced is modelled in `Model/HeapJson.lean`. -/
def fromDict (d : Props) : Py SimState :=
  match Dict.get? d (.str "state") with
  | none => .error .keyError
  | some (.dict st) =>
    match Dict.get? st SITES with
    | none => .error .keyError
    | some (.dict sites) => do
      let sites' ← intKeys sites
      let ps ← sites'.mapM fun kv => do pure (kv.1, ← asProps kv.2)
      match Dict.get? st GENERAL with
      | none => pure ⟨ps, none⟩
      | some g => do pure ⟨ps, some (← asProps g)⟩
    | some _ => .error .attributeError
  | some _ => .error .typeError

end SimState

namespace SimResult

/-- A recorded diff as a value (`None` when a parallel step had no updates). -/
def diffVal : Option Props → Val
  | none => .pyNone
  | some d => .dict d

/-- core/simulation_result.py:132-138 `as_dict`. -/
def asDict (r : SimResult) : Props :=
  [(.str "initial_state", .dict r.initial.asDict), (.str "diffs", .list (r.diffs.map diffVal)),
    (.str "@module", .str "pylattica.core.simulation_result"), (.str "@class", .str "SimulationResult")]

/-- core/simulation_result.py:28: `{int(k): v for k, v in diff.items() if k != "GENERAL"}`; `None` has no `items`. -/
def reformat : Val → Py Props
  | .dict d => intKeys (d.filter fun kv => kv.1 ≠ GENERAL)
  | _ => .error .attributeError

/-- What a `for` loop over a value goes through: the items of a list or tuple, the keys of a dict, the characters of a string.  Numbers and
None raise TypeError. -/
def iterate : Val → Py (List Val)
  | .list l => .ok l
  | .tup l => .ok l
  | .dict d => .ok (d.map fun kv => kv.1.toVal)
  | .str s => .ok (s.toList.map fun c => .str (String.singleton c))
  | _ => .error .typeError

/-- core/simulation_result.py:23-30 `from_dict`. -/
def fromDict (d : Props) : Py SimResult :=
  match Dict.get? d (.str "diffs") with
  | none => .error .keyError
  | some diffs =>
    match Dict.get? d (.str "initial_state") with
    | none => .error .keyError
    | some (.dict s) => do
      let s0 ← SimState.fromDict s
      (← iterate diffs).foldlM (fun r v => do pure (r.addStep (some (← reformat v)))) (new s0)
    | some _ => .error .typeError

end SimResult
end Pyl
