import Verif.Model.Double
import Verif.Model.Analyzer
import Verif.Model.Runner
/-
The numbers that the analyzers and the parallel runner compute by division, once more, in double precision.  Python's `a / b` of two ints is
the double nearest to the exact quotient (also for ints that are no doubles).
-/
set_option autoImplicit false

namespace Pyl
namespace Dbl
open Analyzer ResultAnalyzer
variable {K : Type} {d : ℕ}

/-- discrete/discrete_step_analyzer.py:12-30 `cell_fraction`. -/
noncomputable def cellFraction (A : Option (Structure K d)) (s : SimState) (phase : Val) : Py ℚ := do
  let n ← cellCount A s phase
  if s.size = 0 then .error .zeroDivisionError else pure (fl ((n : ℚ) / s.size))

/-- discrete/discrete_step_analyzer.py:50-67 `cell_ratio`. -/
noncomputable def cellRatio (A : Option (Structure K d)) (s : SimState) (p1 p2 : Val) : Py ℚ := do
  let n1 ← cellCount A s p1
  let n2 ← cellCount A s p2
  if n2 = 0 then .error .zeroDivisionError else pure (fl ((n1 : ℚ) / n2))

/-- discrete/discrete_state_result_analyzer.py:73-85 `final_phase_fractions`. -/
noncomputable def finalPhaseFractions (A : ResultAnalyzer) (r : SimResult) (order : ℕ → List Val → List Val) : Py (Dict Val ℚ) := do
  let (phases, _) ← A.allPhases r order
  phases.foldlM (fun fracs phase => do
    let s ← r.lastStep
    let f ← cellFraction (K := Unit) (d := 0) none s phase
    pure (Dict.set fracs phase f)) []

/-- discrete/discrete_state_result_analyzer.py:87-103 `phase_fraction_at`. -/
noncomputable def phaseFractionAt (r : SimResult) (step : ℤ) (phase : Val) : Py ℚ := do
  let s ← r.getStep step
  cellFraction (K := Unit) (d := 0) none s phase

/-- discrete/discrete_state_result_analyzer.py:114-115: the distance between plotted steps; `round` of a double rounds half to even. -/
def stepSize (len : ℕ) : ℤ := max 1 (roundHalfEven (fl ((len : ℚ) / (min 100 len : ℕ))))

/-- discrete/discrete_state_result_analyzer.py:113-118 `_get_steps_to_plot`. -/
def getStepsToPlot (r : SimResult) : Py (List ℤ × List SimState × SimResult) := do
  if r.len = 0 then .error .zeroDivisionError
  else do
    let k := stepSize r.len
    let r ← r.loadSteps k
    let idxs := stepRange r.len k
    let states ← idxs.mapM r.getStep
    pure (idxs, states, r)

/-- discrete/discrete_state_result_analyzer.py:45-71 `plot_phase_fractions`. -/
noncomputable def plotPhaseFractions (A : ResultAnalyzer) (r : SimResult) (order : ℕ → List Val → List Val) (minPrevalence : ℚ) :
    Py (List (Val × List ℤ × List ℚ) × ℤ) := do
  let (idxs, states, r) ← getStepsToPlot r
  match idxs.getLast? with
  | none => .error .indexError
  | some right => do
    let (phases, _) ← A.allPhases r order
    let traces ← phases.mapM fun phase => do
      let ys ← states.mapM fun s => cellFraction (K := Unit) (d := 0) none s phase
      pure (phase, idxs, ys)
    pure (traces.filter fun t => decide (∃ y ∈ t.2.2, minPrevalence < y), right)

/-- core/runner/synchronous_runner.py:62 `math.ceil(num_sites / PROCESSES)`; division by zero raises (modelled in `runParallel`). -/
def chunkSize (n w : ℕ) : ℕ := ⌈fl ((n : ℚ) / w)⌉.toNat

/-- core/runner/base_runner.py:63-70 with `SynchronousRunner(parallel=True, workers=w)`, as `runParallel`, with the batch size in double precision. -/
def runParallel {σ : Type} (c : Controller σ) (fork : ℕ → σ → σ) (st : σ) (s0 : SimState) (w n : ℕ) (sched : ℕ → StepSched) : Py SimResult := do
  let res := SimResult.new s0.copy
  let (st, s1) ← c.preRun st s0
  if w = 0 then .error .zeroDivisionError
  else
    let res ← parallelLoop c s1.siteIds (chunkSize s1.size w) sched 0 n (some [])
      (fun v => ⟨fork v st, s1⟩) res
    pure (res.setOutput s1.copy)

end Dbl
end Pyl
