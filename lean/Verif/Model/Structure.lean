import Verif.Model.Lattice
import Verif.Model.Json
import Mathlib.Data.Rat.Floor
/-
Model of src/pylattica/core/periodic_structure.py, coordinate_utils.py and structure_builder.py.
-/
set_option autoImplicit false

namespace Pyl

/-! ### coordinate_utils -/

/-- `list(range(lb, ub))` -/
def pyRange (lb ub : ℤ) : List ℤ := (List.range (ub - lb).toNat).map fun (k : ℕ) => lb + k

/-- `list(itertools.product(*args))` -/
def cartesianProduct {α : Type} : List (List α) → List (List α)
  | [] => [[]]
  | l :: ls => l.flatMap fun x => (cartesianProduct ls).map fun p => x :: p

/-- core/coordinate_utils.py:25-46 `get_points_in_box` (`zip` stops at the shorter list). -/
def getPointsInBox (lbs ubs : List ℤ) : List (List ℤ) :=
  cartesianProduct ((lbs.zip ubs).map fun b => pyRange b.1 b.2)

/-- core/coordinate_utils.py:5-22 `get_points_in_cube`. -/
def getPointsInCube (lb ub : ℤ) (dim : ℕ) : List (List ℤ) :=
  getPointsInBox (List.replicate dim lb) (List.replicate dim ub)

/-! ### PeriodicStructure -/

/-- The dict stored for a site, core/periodic_structure.py:178-182.  Site classes are strings. -/
structure Site (K : Type) (d : ℕ) where
  cls : String
  loc : Fin d → K
  id : ℕ

/-- core/periodic_structure.py:104-118. -/
structure Structure (K : Type) (d : ℕ) where
  lattice : Lattice K d
  sites : Dict ℕ (Site K d)
  siteIds : List ℕ
  lookup : Dict (Fin d → K) ℕ

/-- core/periodic_structure.py:11 `VEC_OFFSET = 0.001`. -/
def VEC_OFFSET {K : Type} [Field K] : K := 1 / 1000

namespace Structure
section
variable {K : Type} [Field K] [LinearOrder K] [FloorRing K] {d : ℕ}

/-- core/periodic_structure.py:104-118 `__init__`. -/
def new (L : Lattice K d) : Structure K d := ⟨L, [], [], []⟩

/-- core/periodic_structure.py:140-141 `_get_rounded_coords`. -/
def rounded (x : Fin d → K) : Fin d → K := fun i => roundTo PRECISION (x i)

/-- core/periodic_structure.py:143-144 `_coords_with_offset`. -/
def withOffset (x : Fin d → K) : Fin d → K := rounded fun i => x i + VEC_OFFSET

/-- core/periodic_structure.py:146-149 `_transformed_coords`. -/
noncomputable def transformed (s : Structure K d) (x : Fin d → K) : Fin d → K := withOffset (s.lattice.periodized x)

/-- core/periodic_structure.py:151-186 `add_site`: the structure after the call and the outcome of the call.
Assumes a location with `d` entries and independent lattice vectors (`np.linalg.inv` raises otherwise). -/
noncomputable def addSite (s : Structure K d) (cls : String) (loc : Fin d → K) : Structure K d × Py ℕ :=
  let newId := s.sites.length
  let periodizedCoords := rounded (s.lattice.periodized loc)
  let key := s.transformed loc
  if Dict.get? s.lookup key = none then
    ({ s with sites := Dict.set s.sites newId ⟨cls, periodizedCoords, newId⟩,
              lookup := Dict.set s.lookup key newId,
              siteIds := s.siteIds ++ [newId] }, .ok newId)
  else (s, .error .assertionError)

/-- core/periodic_structure.py:229-242 `get_site`. -/
def getSite (s : Structure K d) (i : ℕ) : Option (Site K d) := Dict.get? s.sites i

/-- core/periodic_structure.py:188-207 `site_at`. -/
noncomputable def siteAt (s : Structure K d) (loc : Fin d → K) : Option (Site K d) :=
  match Dict.get? s.lookup (s.transformed loc) with
  | some i => s.getSite i
  | none => none

/-- core/periodic_structure.py:209-214 `id_at`. -/
noncomputable def idAt (s : Structure K d) (loc : Fin d → K) : Option ℕ := (s.siteAt loc).map Site.id

/-- core/periodic_structure.py:216-221 `class_at`. -/
noncomputable def classAt (s : Structure K d) (loc : Fin d → K) : Option String := (s.siteAt loc).map Site.cls

/-- core/periodic_structure.py:223-224 `site_class`: subscripting `None` raises TypeError. -/
def siteClass (s : Structure K d) (i : ℕ) : Py String :=
  match s.getSite i with
  | some t => .ok t.cls
  | none => .error .typeError

/-- core/periodic_structure.py:226-227 `site_location`. -/
def siteLocation (s : Structure K d) (i : ℕ) : Py (Fin d → K) :=
  match s.getSite i with
  | some t => .ok t.loc
  | none => .error .typeError

/-- core/periodic_structure.py:254-271 `sites`. -/
def sitesOf (s : Structure K d) (cls : Option String) : List (Site K d) :=
  match cls with
  | none => Dict.values s.sites
  | some c => (Dict.values s.sites).filter fun t => t.cls = c

/-- core/periodic_structure.py:244-252 `all_site_classes`: `list` of a `set`.  The order in which a Python set is listed
is not modelled (here: order of last occurrence); no theorem depends on it. -/
def allSiteClasses (s : Structure K d) : List String := ((s.sitesOf none).map Site.cls).dedup

/-- The motif argument: a dict from classes to positions or a plain list of positions. -/
inductive Motif (K : Type) (d : ℕ) where
  | byClass (m : Dict String (List (Fin d → K)))
  | plain (l : List (Fin d → K))

/-- core/periodic_structure.py:12, 78-79: a plain list gets the class "A". -/
def Motif.toDict : Motif K d → Dict String (List (Fin d → K))
  | .byClass m => m
  | .plain l => [("A", l)]

/-- A row of integers as a vector. -/
def vecOf (p : List ℤ) : Fin d → K := fun i => (p.getD i 0 : ℤ)

/-- core/periodic_structure.py:83-97: the class and location of the sites of one cell, in the order in which they are added.
Line 85 multiplies `matrix @ coefficients` (columns), line 97 `fractional @ matrix` (rows). -/
def cellSites (L : Lattice K d) (motif : Dict String (List (Fin d → K))) (frac : Bool) (c : Fin d → K) :
    List (String × (Fin d → K)) :=
  let point := if frac then c else Matrix.mulVec L.mat c
  motif.flatMap fun cv => cv.2.map fun v =>
    (cv.1, if frac then L.toCart (point + v) else point + v)

/-- One call of `add_site` in a loop that an exception leaves. -/
noncomputable def addOrRaise (s : Structure K d) (cl : String × (Fin d → K)) : Py (Structure K d) :=
  match s.addSite cl.1 cl.2 with
  | (s', .ok _) => .ok s'
  | (_, .error e) => .error e

/-- core/periodic_structure.py:30-102 `build_from`, for one count per axis. -/
noncomputable def buildFrom (L : Lattice K d) (n : Fin d → ℤ) (motif : Motif K d) (frac : Bool) : Py (Structure K d) :=
  let coeffs := getPointsInBox (List.replicate d 0) (List.ofFn n)
  coeffs.foldlM (fun s c => (cellSites L motif.toDict frac (vecOf c)).foldlM addOrRaise s) (new (L.scaled n))

/-- The size argument of `StructureBuilder.build`: a tuple or an int. -/
inductive SizeArg where
  | int (k : ℤ)
  | tup (l : List ℤ)

/-- core/structure_builder.py:32-64 `StructureBuilder.build` of a builder with this lattice, motif and `frac_coords`. -/
noncomputable def build (L : Lattice K d) (motif : Motif K d) (frac : Bool) : SizeArg → Py (Structure K d)
  | .int k => buildFrom L (fun _ => k) motif frac
  | .tup l => if h : l.length = d then buildFrom L (fun i => l.get (i.cast h.symm)) motif frac else .error .valueError

end

/-! ### Dictionaries (over ℚ) -/

/-- core/constants.py:1-3 -/
def LOCATION : Key := .str "_location"
/-- core/constants.py:1-3 -/
def SITE_ID : Key := .str "_site_id"
/-- core/constants.py:1-3 -/
def SITE_CLASS : Key := .str "_site_class"

variable {d : ℕ}

/-- The dict of a site with the location as a list (core/periodic_structure.py:121-123, 178-182). -/
def siteDict (t : Site ℚ d) : Props :=
  [(SITE_CLASS, .str t.cls), (LOCATION, .list (List.ofFn fun i => .num (t.loc i))), (SITE_ID, .num t.id)]

/-- core/periodic_structure.py:120-128 `as_dict`. -/
def asDict (s : Structure ℚ d) : Props :=
  [(.str "lattice", .dict s.lattice.asDict),
    (.str "_sites", .dict (s.sites.map fun kt => (.int kt.1, .dict (siteDict kt.2))))]

/-- The class and location read from the dict of a site (core/periodic_structure.py:136).  Simplifications: the class must be a
string and the location must have `d` entries. -/
def readSite (d : ℕ) (v : Val) : Py (String × (Fin d → ℚ)) :=
  match v with
  | .dict t =>
    match Dict.get? t SITE_CLASS, Dict.get? t LOCATION with
    | some (.str c), some l => do
      let xs ← (← l.toItems).mapM Val.toNum
      if h : xs.length = d then pure (c, fun i => xs.get (i.cast h.symm)) else .error .valueError
    | some _, some _ => .error .typeError
    | _, _ => .error .keyError
  | _ => .error .typeError

/-- core/periodic_structure.py:130-138 `from_dict`. -/
noncomputable def fromDict (dct : Props) : Py (Σ d, Structure ℚ d) :=
  match Dict.get? dct (.str "lattice") with
  | some (.dict l) => do
    let L ← Lattice.fromDict l
    match Dict.get? dct (.str "_sites") with
    | some (.dict sites) => do
      let sites' ← intKeys sites
      let s ← sites'.foldlM (fun s kv => do addOrRaise s (← readSite L.1 kv.2)) (new L.2)
      pure ⟨L.1, s⟩
    | some _ => .error .attributeError
    | none => .error .keyError
  | some _ => .error .typeError
  | none => .error .keyError

end Structure
end Pyl
