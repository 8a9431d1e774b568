import Verif.Model.Structure
/-
Model of src/pylattica/core/lattice.py and of the parts of core/periodic_structure.py that compute with locations, for lists of
numbers of every length: what `np.dot`, `reshape`, `np.linalg.inv` and broadcasting do with shapes that do not fit.
Arithmetic is exact, as in Model/Lattice.lean.
-/
set_option autoImplicit false

namespace Pyl

/-- numpy's rule for an operation on two one-dimensional arrays: equal lengths element by element, an array of length one
is repeated, everything else raises ValueError. -/
def bcast {α β γ : Type} (op : α → β → γ) (a : List α) (b : List β) : Py (List γ) :=
  if a.length = b.length then .ok (List.zipWith op a b)
  else match a, b with
    | [x], b => .ok (b.map (op x))
    | a, [y] => .ok (a.map fun x => op x y)
    | _, _ => .error .valueError

/-- core/lattice.py:109-143: the attributes `vecs` and `periodic` of a lattice.  `_matrix` and `dim` are computed from `vecs` by
the constructor and never changed; here they are functions of `vecs` (`matrix`, `dim`). -/
structure RawLattice (K : Type) where
  vecs : List (List K)
  flags : List Bool

namespace RawLattice
section
variable {K : Type} [Field K] [LinearOrder K] [FloorRing K]

/-- core/lattice.py:132 `int(math.sqrt(len(flatten)))`: the number of rows and columns of `_matrix` (exact for all arrays that
fit into a memory: the square root of a number below 2^52 in double precision has the right integer part). -/
def size (R : RawLattice K) : ℕ := Nat.sqrt R.vecs.flatten.length

/-- core/lattice.py:139 `self.dim = len(vecs[0])`. -/
def dim (R : RawLattice K) : ℕ := (R.vecs.headD []).length

/-- core/lattice.py:133 `reshape((dim, dim))`: entry (i, j) of the matrix with `s` rows is number `i * s + j` of the flat list. -/
def reshape (flat : List K) (s : ℕ) : Matrix (Fin s) (Fin s) K := fun i j => flat.getD (i * s + j) 0

/-- core/lattice.py:125-128 `self.periodic`. -/
def flagsOf (vecs : List (List K)) : PeriodicArg → List Bool
  | .flag b => vecs.map fun _ => b
  | .many l => l

/-- core/lattice.py:109-143 `Lattice.__init__` for a list of lists of numbers.  Vectors of unequal length: ValueError
(`np.array`, lines 123 and 133, before the assertion of line 141).  `reshape` (line 133) raises ValueError unless the number of
entries is a square.  No vectors at all: `vecs[0]` (line 139) raises IndexError. -/
def init (vecs : List (List K)) (p : PeriodicArg) : Py (RawLattice K) :=
  let R : RawLattice K := ⟨vecs, flagsOf vecs p⟩
  if ∀ v ∈ vecs, v.length = R.dim then
    if R.size * R.size = vecs.flatten.length then
      match vecs with
      | [] => .error .indexError
      | _ :: _ => .ok R
    else .error .valueError
  else .error .valueError

/-- `np.dot(v, m)` for a list of numbers and a matrix with `s` rows and columns: ValueError unless the list has `s` entries. -/
def dotRow {s : ℕ} (v : List K) (m : Matrix (Fin s) (Fin s) K) : Py (List K) :=
  if v.length = s then .ok (List.ofFn (Matrix.vecMul (fun i : Fin s => v.getD i 0) m)) else .error .valueError

/-- `m @ v`, likewise. -/
def dotCol {s : ℕ} (m : Matrix (Fin s) (Fin s) K) (v : List K) : Py (List K) :=
  if v.length = s then .ok (List.ofFn (Matrix.mulVec m (fun i : Fin s => v.getD i 0))) else .error .valueError

/-- core/lattice.py:132-136, 148-151 `matrix`. -/
def matrix (R : RawLattice K) : Matrix (Fin R.size) (Fin R.size) K := reshape R.vecs.flatten R.size

/-- core/lattice.py:161-174 `get_cartesian_coords`. -/
def toCart (R : RawLattice K) (f : List K) : Py (List K) := dotRow f R.matrix

/-- core/lattice.py:153-159, 176-189 `get_fractional_coords`: `self.inv_matrix` is evaluated first and raises LinAlgError for a
singular matrix (nothing is stored then, so every later call raises again). -/
noncomputable def toFrac (R : RawLattice K) (x : List K) : Py (List K) :=
  if R.matrix.det = 0 then .error .linAlgError else dotRow x R.matrix⁻¹

/-- `np.array(periodic, dtype=int)`: a flag as a number. -/
def flagNum (b : Bool) : K := if b then 1 else 0

/-- core/lattice.py:11-30 `periodize` with a tuple of flags. -/
def periodize (frac : List K) (flags : List Bool) : Py (List K) := do
  bcast (fun x y => x - y) frac (← bcast (fun x b => x * flagNum b) (frac.map fun x => ((⌊x⌋ : ℤ) : K)) flags)

/-- core/lattice.py:191-206 `get_periodized_cartesian_coords`. -/
noncomputable def periodized (R : RawLattice K) (x : List K) : Py (List K) := do
  R.toCart (← periodize (← R.toFrac x) R.flags)

/-- core/lattice.py:33-58 `pbc_diff_frac_vec`. -/
def pbcDiffFrac (f g : List K) (flags : List Bool) : Py (List K) := do
  let fdist ← bcast (fun x y => x - y) f g
  bcast (fun x y => x - y) fdist (← bcast (fun x b => x * flagNum b) (fdist.map fun x => ((roundHalfEven x : ℤ) : K)) flags)

/-- core/lattice.py:61-84 `pbc_diff_cart`, 227-246 `cartesian_periodic_distance`. -/
noncomputable def dist (R : RawLattice K) (a b : List K) : Py K := do
  let f ← R.toFrac a
  let g ← R.toFrac b
  let v ← R.toCart (← pbcDiffFrac f g R.flags)
  pure (roundSqrt PRECISION (v.map fun x => x ^ 2).sum)

/-- core/lattice.py:208-225 `get_scaled_lattice`: `zip` stops at the shorter of the counts and the vectors. -/
def scaled (R : RawLattice K) (n : List ℤ) : Py (RawLattice K) :=
  init (List.zipWith (fun (amt : ℤ) v => v.map fun x => x * amt) n R.vecs) (.many R.flags)

end
end RawLattice

/-- core/periodic_structure.py:178-182, the dict of a site. -/
structure RawSite (K : Type) where
  cls : String
  loc : List K
  id : ℕ

/-- core/periodic_structure.py:104-118. -/
structure RawStructure (K : Type) where
  lattice : RawLattice K
  sites : Dict ℕ (RawSite K)
  siteIds : List ℕ
  lookup : Dict (List K) ℕ

namespace RawStructure
section
variable {K : Type} [Field K] [LinearOrder K] [FloorRing K]

/-- core/periodic_structure.py:104-118 `__init__`. -/
def new (R : RawLattice K) : RawStructure K := ⟨R, [], [], []⟩

/-- core/periodic_structure.py:140-141 `_get_rounded_coords`. -/
def rounded (x : List K) : List K := x.map (roundTo PRECISION)

/-- core/periodic_structure.py:118, 143-144 `_coords_with_offset`: the offset vector has `dim` entries. -/
def withOffset (s : RawStructure K) (x : List K) : Py (List K) := do
  pure (rounded (← bcast (fun a b => a + b) x (List.replicate s.lattice.dim VEC_OFFSET)))

/-- core/periodic_structure.py:146-149 `_transformed_coords`. -/
noncomputable def transformed (s : RawStructure K) (x : List K) : Py (List K) := do
  s.withOffset (← s.lattice.periodized x)

/-- core/periodic_structure.py:151-186 `add_site`: the structure after the call and the outcome of the call.  Everything that can
raise comes before the first change. -/
noncomputable def addSite (s : RawStructure K) (cls : String) (loc : List K) : RawStructure K × Py ℕ :=
  let newId := s.sites.length
  match s.lattice.periodized loc with
  | .error e => (s, .error e)
  | .ok per =>
    match s.transformed loc with
    | .error e => (s, .error e)
    | .ok key =>
      if Dict.get? s.lookup key = none then
        ({ s with sites := Dict.set s.sites newId ⟨cls, rounded per, newId⟩,
                  lookup := Dict.set s.lookup key newId,
                  siteIds := s.siteIds ++ [newId] }, .ok newId)
      else (s, .error .assertionError)

/-- core/periodic_structure.py:188-207 `site_at`. -/
noncomputable def siteAt (s : RawStructure K) (loc : List K) : Py (Option (RawSite K)) := do
  match Dict.get? s.lookup (← s.transformed loc) with
  | some i => pure (Dict.get? s.sites i)
  | none => pure none

/-- One call of `add_site` in a loop that an exception leaves. -/
noncomputable def addOrRaise (s : RawStructure K) (cls : String) (loc : List K) : Py (RawStructure K) :=
  match s.addSite cls loc with
  | (s', .ok _) => .ok s'
  | (_, .error e) => .error e

/-- core/periodic_structure.py:84-87: the corner of the cell with these coefficients. -/
def cellPoint (R : RawLattice K) (frac : Bool) (coeffs : List K) : Py (List K) :=
  if frac then .ok coeffs else RawLattice.dotCol R.matrix coeffs

/-- core/periodic_structure.py:94-97: the Cartesian location of a site. -/
def siteLoc (R : RawLattice K) (frac : Bool) (loc : List K) : Py (List K) := if frac then R.toCart loc else .ok loc

/-- core/periodic_structure.py:90-99: one site of the motif in one cell. -/
noncomputable def placeSite (R : RawLattice K) (frac : Bool) (point : List K) (s : RawStructure K) (cv : String × List K) :
    Py (RawStructure K) := do
  let loc ← bcast (fun a b => a + b) point cv.2
  let loc ← siteLoc R frac loc
  s.addOrRaise cv.1 loc

/-- core/periodic_structure.py:82-99: one cell. -/
noncomputable def placeCell (R : RawLattice K) (frac : Bool) (motif : List (String × List K)) (s : RawStructure K)
    (c : List ℤ) : Py (RawStructure K) := do
  let point ← cellPoint R frac (c.map fun k => ((k : ℤ) : K))
  motif.foldlM (placeSite R frac point) s

/-- core/periodic_structure.py:30-102 `build_from` for counts, positions and vectors of every length.  The motif is given as the
list of its positions with their classes, in the order of the loops of lines 90-91. -/
noncomputable def buildFrom (R : RawLattice K) (n : List ℤ) (motif : List (String × List K)) (frac : Bool) :
    Py (RawStructure K) := do
  let R' ← R.scaled n
  let cells := getPointsInBox (List.replicate R'.dim 0) n
  cells.foldlM (placeCell R frac motif) (new R')

/-- core/structure_builder.py:32-64 `StructureBuilder.build`. -/
noncomputable def build (R : RawLattice K) (motif : List (String × List K)) (frac : Bool) : Structure.SizeArg → Py (RawStructure K)
  | .int k => buildFrom R (List.replicate R.dim k) motif frac
  | .tup l => if l.length = R.dim then buildFrom R l motif frac else .error .valueError

end
end RawStructure
end Pyl
