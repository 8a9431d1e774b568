import Mathlib.Algebra.Order.Floor.Ring
import Mathlib.LinearAlgebra.Matrix.NonsingularInverse
import Verif.Model.Py
/-
Model of src/pylattica/core/lattice.py over an arbitrary linearly ordered field `K` with floor (ℚ, ℝ, ...).
Arithmetic is exact: floating point rounding is not modelled.
-/
set_option autoImplicit false

namespace Pyl

section
variable {K : Type} [Field K] [LinearOrder K] [FloorRing K]

/-- `np.round(x)` (`np.rint`): nearest integer, ties to the even one. -/
def roundHalfEven (x : K) : ℤ :=
  if 2 * (x - (⌊x⌋ : ℤ)) < 1 then ⌊x⌋
  else if 1 < 2 * (x - (⌊x⌋ : ℤ)) then ⌊x⌋ + 1
  else if ⌊x⌋ % 2 = 0 then ⌊x⌋ else ⌊x⌋ + 1

/-- `np.round(x, k)` with `N = 10 ** k`: numpy scales, rounds to the nearest integer and scales back. -/
def roundTo (N : ℕ) (x : K) : K := (roundHalfEven (x * N) : K) / N

/-- `np.round(np.sqrt(q), k)` with `N = 10 ** k`, for `q ≥ 0`, without leaving the field: `m` is the integer part of
`N * sqrt(q)`, compared with the half-way point by squares.  `roundSqrt_real` (Lemmas/Lattice.lean) shows that it is
`roundTo N (Real.sqrt q)` when `K = ℝ`. -/
def roundSqrt (N : ℕ) (q : K) : K :=
  let t := q * N * N
  let m : ℕ := Nat.sqrt ⌊t⌋.toNat
  let r : ℕ :=
    if 4 * t < (2 * (m : K) + 1) ^ 2 then m
    else if (2 * (m : K) + 1) ^ 2 < 4 * t then m + 1
    else if m % 2 = 0 then m else m + 1
  (r : K) / N

/-- core/constants.py:7 `OFFSET_PRECISION = 3`, as a power of ten. -/
def PRECISION : ℕ := 1000

end

/-- core/lattice.py:87-143: the lattice vectors (rows of the matrix) and the periodicity flag of every axis.  Only square
matrices with one flag per axis are represented; see `Lattice.init` for the constructor. -/
structure Lattice (K : Type) (d : ℕ) where
  mat : Matrix (Fin d) (Fin d) K
  periodic : Fin d → Bool

section
variable {K : Type} [Field K] [LinearOrder K] [FloorRing K] {d : ℕ}

/-- core/lattice.py:11-30 `periodize`: `frac - floor(frac) * periodic`. -/
def periodizeFrac (periodic : Fin d → Bool) (f : Fin d → K) : Fin d → K :=
  fun i => f i - (⌊f i⌋ : K) * (if periodic i then 1 else 0)

/-- core/lattice.py:33-58 `pbc_diff_frac_vec`: `fdist - round(fdist) * periodic`. -/
def pbcDiffFrac (periodic : Fin d → Bool) (f g : Fin d → K) : Fin d → K :=
  fun i => (f i - g i) - (roundHalfEven (f i - g i) : K) * (if periodic i then 1 else 0)

namespace Lattice

/-- core/lattice.py:161-174 `get_cartesian_coords`: `frac @ matrix`. -/
def toCart (L : Lattice K d) (f : Fin d → K) : Fin d → K := Matrix.vecMul f L.mat

/-- core/lattice.py:153-159, 176-189 `get_fractional_coords`: `cart @ inv(matrix)`.  `np.linalg.inv` raises LinAlgError on a
singular matrix; every theorem about this function assumes independent lattice vectors. -/
noncomputable def toFrac (L : Lattice K d) (x : Fin d → K) : Fin d → K := Matrix.vecMul x L.mat⁻¹

/-- core/lattice.py:191-206 `get_periodized_cartesian_coords`. -/
noncomputable def periodized (L : Lattice K d) (x : Fin d → K) : Fin d → K :=
  L.toCart (periodizeFrac L.periodic (L.toFrac x))

/-- core/lattice.py:79-83, the vector whose norm `pbc_diff_cart` takes. -/
noncomputable def pbcVec (L : Lattice K d) (a b : Fin d → K) : Fin d → K :=
  L.toCart (pbcDiffFrac L.periodic (L.toFrac a) (L.toFrac b))

/-- core/lattice.py:61-84 `pbc_diff_cart`, 227-246 `cartesian_periodic_distance`. -/
noncomputable def dist (L : Lattice K d) (a b : Fin d → K) : K :=
  roundSqrt PRECISION (∑ i, L.pbcVec a b i ^ 2)

/-- core/lattice.py:208-225 `get_scaled_lattice`, for one count per axis. -/
def scaled (L : Lattice K d) (n : Fin d → ℤ) : Lattice K d :=
  ⟨fun i j => L.mat i j * n i, L.periodic⟩

end Lattice
end

/-- The `periodic` argument of the constructor: one flag, or a tuple/list of flags. -/
inductive PeriodicArg where
  | flag (b : Bool)
  | many (l : List Bool)

/-- core/lattice.py:109-143 `Lattice.__init__`.  No vector: IndexError (line 139).  Vectors of different lengths: ValueError
(`np.array` of a ragged list; the assertion of line 141 comes later).  A number of vectors different from their length:
ValueError from `reshape`; simplification: when the number of entries happens to be a square (e.g. four vectors of length
one) Python builds a misshapen lattice instead.  A list of flags of the wrong length is accepted by Python and raises on
first use (except a list of one flag, which numpy applies to every axis); the model rejects it at once.  Model/RawLattice.lean has
the constructor without these simplifications (C141). -/
def Lattice.init {K : Type} (vecs : List (List K)) (p : PeriodicArg) : Py (Σ d, Lattice K d) :=
  match vecs with
  | [] => .error .indexError
  | _ =>
    if h : (∀ v ∈ vecs, v.length = vecs.length) then
      let mat : Matrix (Fin vecs.length) (Fin vecs.length) K :=
        fun i j => (vecs.get i).get (j.cast (h _ (List.get_mem vecs i)).symm)
      match p with
      | .flag b => .ok ⟨vecs.length, mat, fun _ => b⟩
      | .many l =>
        if hl : l.length = vecs.length then .ok ⟨vecs.length, mat, fun i => l.get (i.cast hl.symm)⟩
        else .error .valueError
    else .error .valueError

/-! ### Dictionaries (over ℚ, the numbers that `Val` holds; every finite float is a rational) -/

/-- A number value.  Simplification: numpy makes numbers of some strings and raises ValueError or TypeError, depending on the value and on where it
stands, for what it cannot convert; here everything but a number raises TypeError. -/
def Val.toNum : Val → Py ℚ
  | .num q => .ok q
  | _ => .error .typeError
/-- A truth value: `np.array(periodic, dtype=int)` turns flags into 0/1, and only their product with numbers is used;
numbers other than 0 and 1 are not modelled (ValueError). -/
def Val.toFlag : Val → Py Bool
  | .num q => if q = 0 then .ok false else if q = 1 then .ok true else .error .valueError
  | _ => .error .typeError
/-- A list or tuple of values. -/
def Val.toItems : Val → Py (List Val)
  | .list l => .ok l
  | .tup l => .ok l
  | _ => .error .typeError
/-- The `periodic` argument as a value. -/
def Val.toPeriodicArg : Val → Py PeriodicArg
  | .list l => do pure (.many (← l.mapM Val.toFlag))
  | .tup l => do pure (.many (← l.mapM Val.toFlag))
  | v => do pure (.flag (← v.toFlag))

/-- `True`/`False` as a value (`num`, see `Val`). -/
def boolVal (b : Bool) : Val := .num (if b then 1 else 0)

namespace Lattice

/-- core/lattice.py:145-146 `as_dict`. -/
def asDict {d : ℕ} (L : Lattice ℚ d) : Dict Key Val :=
  [(.str "vectors", .list (List.ofFn fun i => .list (List.ofFn fun j => .num (L.mat i j)))),
    (.str "periodic", .tup (List.ofFn fun i => boolVal (L.periodic i)))]

/-- core/lattice.py:105-107 `from_dict`. -/
def fromDict (dct : Dict Key Val) : Py (Σ d, Lattice ℚ d) :=
  match Dict.get? dct (.str "vectors"), Dict.get? dct (.str "periodic") with
  | some v, some p => do
    let rows ← v.toItems
    let vecs ← rows.mapM fun r => do (← r.toItems).mapM Val.toNum
    init vecs (← p.toPeriodicArg)
  | _, _ => .error .keyError

end Lattice
end Pyl
