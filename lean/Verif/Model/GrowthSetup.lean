import Verif.Model.GridSetup
/-
Model of src/pylattica/structures/square_grid/growth_setup.py.
-/
set_option autoImplicit false

namespace Pyl
variable {K : Type} [Field K] [LinearOrder K] [FloorRing K] {d : ℕ}

/-- structures/square_grid/growth_setup.py:34-85 `grow`: random nuclei, then `size` parallel steps of the growth model; the result is the last step.
`G` is the `DiscreteGridSetup` of the chosen dimension, `order`, `draw` and `fuel` are as in `randomSites`; `ord` is the order in which the growth graph
lists neighbours, `fork` what forking does to the controller, `w` the number of CPUs and `sched` which worker executes which batch.  `none`: the
placement of the nuclei is still running. -/
noncomputable def grow (G : GridSetup K d) (size : ℤ) (num : K) (background : Val) (nucAmts : Dict Val K) (nb : Option (Builder K d))
    (buffer : Option ℤ) (order : ℕ → List ℕ → List ℕ) (draw : ℕ → ℕ) (fuel : ℕ) (ord : ℕ → List ℕ → List ℕ)
    (fork : ℕ → Growth.Ctl → Growth.Ctl) (w : ℕ) (sched : ℕ → StepSched) : Option (Py (Simulation K d)) :=
  match G.randomSites (.int size) num background nucAmts buffer order draw fuel with
  | none => none
  | some (.error e) => some (.error e)
  | some (.ok sim) => some (do
    let c ← Growth.init ord sim.struct background nb
    let res ← runParallel Growth.controller fork c sim.state w size.toNat sched
    let s ← res.lastStep
    pure ⟨s, sim.struct⟩)

end Pyl
