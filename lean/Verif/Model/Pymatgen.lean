import Verif.Model.Structure
import Verif.Model.Life
/-
Model of src/pylattica/atomic/pymatgen_struct_converter.py.

pymatgen itself is not modelled beyond the few attributes that the converter reads and the constructor calls it makes:
a lattice has a matrix (rows are the lattice vectors) and periodicity flags `pbc`; a structure has a lattice and a list of sites; a site has
a `species_string`, fractional coordinates `frac_coords`, and Cartesian coordinates `coords` that are `frac_coords @ matrix`;
`PmgStructure(lattice, species, coords)` keeps the given species strings and fractional coordinates in the given order.
The dimension is `d` (3 in pymatgen).
-/
set_option autoImplicit false

namespace Pyl
open Structure
variable {K : Type} [Field K] [LinearOrder K] [FloorRing K] {d : ℕ}

/-- `pymatgen.core.lattice.Lattice`: `matrix` and `pbc`. -/
structure PmgLattice (K : Type) (d : ℕ) where
  mat : Matrix (Fin d) (Fin d) K
  pbc : Fin d → Bool

/-- `pymatgen.core.sites.PeriodicSite`: `species_string` and `frac_coords`. -/
structure PmgSite (K : Type) (d : ℕ) where
  species : String
  frac : Fin d → K

/-- `pymatgen.core.structure.Structure`: `lattice` and `sites`. -/
structure PmgStructure (K : Type) (d : ℕ) where
  lattice : PmgLattice K d
  sites : List (PmgSite K d)

/-- `site.coords` of a site of this structure. -/
def PmgStructure.coords (P : PmgStructure K d) (s : PmgSite K d) : Fin d → K := Matrix.vecMul s.frac P.lattice.mat

namespace Converter

/-- atomic/pymatgen_struct_converter.py:20-34 `to_pylattica_lattice`: `Lattice(matrix)` with the default `periodic=True`
(core/lattice.py:109, 125-126). -/
def toPylLattice (l : PmgLattice K d) : Lattice K d := ⟨l.mat, fun _ => true⟩

/-- atomic/pymatgen_struct_converter.py:57-64, one round of the loop. -/
def addToMotif (m : Dict String (List (Fin d → K))) (s : PmgSite K d) : Dict String (List (Fin d → K)) :=
  match Dict.get? m s.species with
  | some l => Dict.set m s.species (l ++ [s.frac])
  | none => Dict.set m s.species [s.frac]

/-- atomic/pymatgen_struct_converter.py:55-64: the motif. -/
def motif (P : PmgStructure K d) : Dict String (List (Fin d → K)) := P.sites.foldl addToMotif []

/-- atomic/pymatgen_struct_converter.py:36-68 `to_pylattica_structure_builder(pmg_struct).build(size)`. -/
noncomputable def buildPmg (P : PmgStructure K d) (size : SizeArg) : Py (Structure K d) :=
  build (toPylLattice P.lattice) (.byClass (motif P)) true size

/-- atomic/pymatgen_struct_converter.py:92-93; subscripting `None` raises TypeError. -/
noncomputable def occupy (P : PmgStructure K d) (S : Structure K d) (st : SimState) (s : PmgSite K d) : Py SimState :=
  match S.siteAt (P.coords s) with
  | some t => .ok (st.setSiteState (.int t.id) [(DISCRETE_OCCUPANCY, .str s.species)])
  | none => .error .typeError

/-- atomic/pymatgen_struct_converter.py:70-95 `to_pylattica_structure_and_state`. -/
noncomputable def toPyl (P : PmgStructure K d) : Py (Structure K d × SimState) := do
  let S ← buildPmg P (.int 1)
  let st ← P.sites.foldlM (occupy P S) (SimState.fromStruct (S.siteIds.map fun i : ℕ => Key.int i))
  pure (S, st)

/-- atomic/pymatgen_struct_converter.py:97-110 `to_pymatgen_lattice`: `PmgLattice(vecs)` with the default `pbc=(True, True, True)`. -/
def toPmgLattice (L : Lattice K d) : PmgLattice K d := ⟨L.mat, fun _ => true⟩

/-- atomic/pymatgen_struct_converter.py:131-134 -/
noncomputable def toPmgSite (S : Structure K d) (i : ℕ) : Py (PmgSite K d) := do
  let c ← S.siteClass i
  let x ← S.siteLocation i
  pure ⟨c, S.lattice.toFrac x⟩

/-- atomic/pymatgen_struct_converter.py:112-136 `to_pymatgen_structure`. -/
noncomputable def toPmg (S : Structure K d) : Py (PmgStructure K d) := do
  let sites ← S.siteIds.mapM (toPmgSite S)
  pure ⟨toPmgLattice S.lattice, sites⟩

end Converter
end Pyl
