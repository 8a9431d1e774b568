import Verif.Model.Analyzer
/-
Model of the cache behind `DiscreteResultAnalyzer.all_phases` (src/pylattica/discrete/discrete_state_result_analyzer.py:28): `functools.lru_cache` on a method
keeps one cache for all analyzers of the process.
-/
set_option autoImplicit false

namespace Pyl

/-- A call of `all_phases`: the number of the analyzer (its identity; the cache keeps its keys alive, so identities are not reused while they are in it), its
result object as it is at the time of the call, and the orders in which the sets are listed. -/
structure PhaseCall where
  who : Nat
  result : SimResult
  order : Nat → List Val → List Val

namespace PhaseCall

/-- discrete/discrete_state_result_analyzer.py:37-43, the body of `all_phases`. -/
def fresh (c : PhaseCall) : Py (List Val) := do
  let (l, _) ← ResultAnalyzer.new.allPhases c.result c.order
  pure l

end PhaseCall

namespace PhaseCache

/-- `lru_cache` without arguments keeps 128 answers (Python documentation, `functools.lru_cache(user_function)`: `maxsize=128`). -/
def CAPACITY : Nat := 128

/-- discrete/discrete_state_result_analyzer.py:28 `@lru_cache`: a call of the method.  The cache is the list of analyzers and answers, the most recently used
first.  A hit moves the entry to the front; a miss runs the body, and if that does not raise the answer is put in front and the least recently used
answer beyond the capacity is dropped. -/
def ask (C : List (Nat × List Val)) (c : PhaseCall) : Py (List Val) × List (Nat × List Val) :=
  match C.find? (fun e => e.1 = c.who) with
  | some e => (.ok e.2, e :: C.filter (fun e' => e'.1 ≠ c.who))
  | none =>
    match c.fresh with
    | .error e => (.error e, C)
    | .ok l => (.ok l, ((c.who, l) :: C).take CAPACITY)

/-- The cache before call number `t` of a process that makes these calls one after the other. -/
def before (calls : Nat → PhaseCall) : Nat → List (Nat × List Val)
  | 0 => []
  | t + 1 => (ask (before calls t) (calls t)).2

/-- The answer of call number `t`. -/
def answer (calls : Nat → PhaseCall) (t : Nat) : Py (List Val) := (ask (before calls t) (calls t)).1

end PhaseCache
end Pyl
