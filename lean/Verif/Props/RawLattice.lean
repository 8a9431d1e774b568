import Mathlib.Algebra.BigOperators.Fin
import Verif.Model.RawLattice
import Verif.Spec.RawLattice
import Verif.Lemmas.Lattice
import Verif.Lemmas.Runner
/-
C141: which arguments make a lattice, and what a lattice does with lists of every length.
-/
set_option autoImplicit false
set_option linter.unusedSectionVars false

namespace Pyl
open Pyl.Spec

/-! ### broadcasting -/

theorem bcast_error {α β γ : Type} {op : α → β → γ} {a : List α} {b : List β} {e : Err} (h : bcast op a b = .error e) :
    e = .valueError ∧ a.length ≠ b.length ∧ a.length ≠ 1 ∧ b.length ≠ 1 := by
  unfold bcast at h
  split_ifs at h with hl
  split at h
  · cases h
  · cases h
  · rename_i h1 h2
    injection h with h
    refine ⟨h.symm, hl, fun e => ?_, fun e => ?_⟩
    · obtain ⟨x, rfl⟩ := List.length_eq_one_iff.1 e
      exact h1 x rfl
    · obtain ⟨y, rfl⟩ := List.length_eq_one_iff.1 e
      exact h2 y rfl

theorem bcast_length {α β γ : Type} {op : α → β → γ} {a : List α} {b : List β} {c : List γ} (h : bcast op a b = .ok c) :
    (a.length = b.length ∧ c.length = b.length) ∨ (a.length = 1 ∧ c.length = b.length) ∨ (b.length = 1 ∧ c.length = a.length) := by
  unfold bcast at h
  split_ifs at h with hl
  · injection h with h
    subst h
    exact Or.inl ⟨hl, by simp [hl]⟩
  · split at h
    · injection h with h
      subst h
      exact Or.inr (Or.inl ⟨rfl, by simp⟩)
    · injection h with h
      subst h
      exact Or.inr (Or.inr ⟨rfl, by simp⟩)
    · cases h

theorem bcast_ofFn {α β γ : Type} (op : α → β → γ) {d : ℕ} (f : Fin d → α) (g : Fin d → β) :
    bcast op (List.ofFn f) (List.ofFn g) = .ok (List.ofFn fun i => op (f i) (g i)) := by
  unfold bcast
  rw [if_pos (by simp)]
  congr 1
  apply List.ext_getElem
  · simp
  · intro i h1 h2
    simp

theorem bcast_one {α β γ : Type} (op : α → β → γ) {d : ℕ} (f : Fin d → α) (y : β) :
    bcast op (List.ofFn f) [y] = .ok (List.ofFn fun i => op (f i) y) := by
  unfold bcast
  split_ifs with h
  · congr 1
    have hd : d = 1 := by simpa using h
    subst hd
    simp
  · generalize hl : List.ofFn f = l at h
    have e : List.ofFn (fun i => op (f i) y) = l.map fun x => op x y := by
      rw [← hl, List.map_ofFn]
      rfl
    rw [e]
    match l, h with
    | [], _ => rfl
    | [_], h => exact absurd rfl h
    | _ :: _ :: _, _ => rfl

namespace RawLattice
variable {K : Type} [Field K] [LinearOrder K] [FloorRing K] {d : ℕ}

/-! ### the matrix -/

theorem flatten_length {m : ℕ} : ∀ {vecs : List (List K)}, (∀ v ∈ vecs, v.length = m) → vecs.flatten.length = vecs.length * m
  | [], _ => by simp
  | v :: vs, h => by
    rw [List.flatten_cons, List.length_append, flatten_length fun w hw => h w (List.mem_cons_of_mem _ hw),
      h v List.mem_cons_self, List.length_cons, Nat.succ_mul, Nat.add_comm]

theorem flatten_getD {m : ℕ} : ∀ {vecs : List (List K)}, (∀ v ∈ vecs, v.length = m) → ∀ {i j : ℕ}, j < m → i < vecs.length →
    vecs.flatten.getD (i * m + j) 0 = (vecs.getD i []).getD j 0
  | [], _, i, j, _, hi => absurd hi (Nat.not_lt_zero _)
  | v :: vs, h, 0, j, hj, _ => by
    have hv := h v List.mem_cons_self
    simp only [List.flatten_cons, Nat.zero_mul, Nat.zero_add, List.getD_cons_zero]
    rw [List.getD_eq_getElem?_getD, List.getElem?_append_left (by omega), ← List.getD_eq_getElem?_getD]
  | v :: vs, h, i + 1, j, hj, hi => by
    have hv := h v List.mem_cons_self
    rw [List.flatten_cons, List.getD_eq_getElem?_getD, List.getElem?_append_right (by rw [hv, Nat.succ_mul]; omega),
      ← List.getD_eq_getElem?_getD, List.getD_cons_succ]
    have e : (i + 1) * m + j - v.length = i * m + j := by rw [hv, Nat.succ_mul]; omega
    rw [e]
    exact flatten_getD (fun w hw => h w (List.mem_cons_of_mem _ hw)) hj (by simpa using hi)

theorem getD_ofFn (f : Fin d → K) : (fun i : Fin d => (List.ofFn f).getD i 0) = f := by
  funext i
  simp [List.getD_eq_getElem?_getD]

theorem dotRow_ofFn (f : Fin d → K) (m : Matrix (Fin d) (Fin d) K) :
    dotRow (List.ofFn f) m = .ok (List.ofFn (Matrix.vecMul f m)) := by
  unfold dotRow
  rw [if_pos (by simp), getD_ofFn]

theorem dotCol_ofFn (f : Fin d → K) (m : Matrix (Fin d) (Fin d) K) :
    dotCol m (List.ofFn f) = .ok (List.ofFn (Matrix.mulVec m f)) := by
  unfold dotCol
  rw [if_pos (by simp), getD_ofFn]

theorem dotRow_other {v : List K} (h : v.length ≠ d) (m : Matrix (Fin d) (Fin d) K) : dotRow v m = .error .valueError := if_neg h

/-! ### lattices of the right shape -/

/-- The matrix of `R` is that of `L`, and `R` has the flags of `L` or one flag for all axes. -/
structure Fits (R : RawLattice K) (L : Lattice K d) : Prop where
  size : R.size = d
  mat : reshape R.vecs.flatten d = L.mat
  flags : R.flags = List.ofFn L.periodic ∨ ∃ b, R.flags = [b] ∧ L.periodic = fun _ => b

theorem Fits.toCart_eq {R : RawLattice K} {L : Lattice K d} (h : Fits R L) (f : List K) : R.toCart f = dotRow f L.mat := by
  obtain ⟨hs, hm, -⟩ := h
  rw [← hm]
  show dotRow f (reshape R.vecs.flatten R.size) = _
  rw [hs]

theorem Fits.det_eq {R : RawLattice K} {L : Lattice K d} (h : Fits R L) : R.matrix.det = L.mat.det := by
  obtain ⟨hs, hm, -⟩ := h
  rw [← hm]
  show (reshape R.vecs.flatten R.size).det = _
  rw [hs]

theorem Fits.toFrac_eq {R : RawLattice K} {L : Lattice K d} (h : Fits R L) (x : List K) :
    R.toFrac x = if L.mat.det = 0 then .error .linAlgError else dotRow x L.mat⁻¹ := by
  obtain ⟨hs, hm, -⟩ := h
  rw [← hm]
  show (if (reshape R.vecs.flatten R.size).det = 0 then (.error .linAlgError : Py (List K))
    else dotRow x (reshape R.vecs.flatten R.size)⁻¹) = _
  rw [hs]

theorem Fits.dotCol_eq {R : RawLattice K} {L : Lattice K d} (h : Fits R L) (f : List K) : dotCol R.matrix f = dotCol L.mat f := by
  obtain ⟨hs, hm, -⟩ := h
  rw [← hm]
  show dotCol (reshape R.vecs.flatten R.size) f = _
  rw [hs]

theorem Fits.bcast_flags {R : RawLattice K} {L : Lattice K d} (h : Fits R L) (f : Fin d → K) :
    bcast (fun x b => x * flagNum b) (List.ofFn f) R.flags = .ok (List.ofFn fun i => f i * (if L.periodic i then 1 else 0)) := by
  rcases h.flags with e | ⟨b, e, e'⟩
  · rw [e, bcast_ofFn]
    rfl
  · rw [e, bcast_one, e']
    rfl

theorem Fits.periodize_eq {R : RawLattice K} {L : Lattice K d} (h : Fits R L) (f : Fin d → K) :
    periodize (List.ofFn f) R.flags = .ok (List.ofFn (periodizeFrac L.periodic f)) := by
  unfold periodize
  rw [List.map_ofFn]
  show (bcast _ (List.ofFn fun i => ((⌊f i⌋ : ℤ) : K)) R.flags >>= _) = _
  rw [h.bcast_flags]
  exact bcast_ofFn _ _ _

theorem Fits.pbcDiff_eq {R : RawLattice K} {L : Lattice K d} (h : Fits R L) (f g : Fin d → K) :
    RawLattice.pbcDiffFrac (List.ofFn f) (List.ofFn g) R.flags = .ok (List.ofFn (Pyl.pbcDiffFrac L.periodic f g)) := by
  unfold RawLattice.pbcDiffFrac
  rw [bcast_ofFn]
  show (bcast _ ((List.ofFn fun i => f i - g i).map _) R.flags >>= _) = _
  rw [List.map_ofFn]
  show (bcast _ (List.ofFn fun i => ((roundHalfEven (f i - g i) : ℤ) : K)) R.flags >>= _) = _
  rw [h.bcast_flags]
  exact bcast_ofFn _ _ _

theorem regular_iff_det (L : Lattice K d) : L.Regular ↔ L.mat.det ≠ 0 := by
  rw [← isUnit_iff_ne_zero, ← Matrix.isUnit_iff_isUnit_det]
  exact Matrix.linearIndependent_rows_iff_isUnit

theorem Fits.computes {R : RawLattice K} {L : Lattice K d} (h : Fits R L) : Computes R L := by
  have hfo : L.mat.det ≠ 0 → ∀ x : List K, x.length ≠ d → R.toFrac x = .error .valueError := fun hd x hx => by
    rw [h.toFrac_eq, if_neg hd, dotRow_other hx]
  have hf : L.mat.det ≠ 0 → ∀ x : Fin d → K, R.toFrac (List.ofFn x) = .ok (List.ofFn (L.toFrac x)) := fun hd x => by
    rw [h.toFrac_eq, if_neg hd, dotRow_ofFn]
    rfl
  have hc : ∀ f : Fin d → K, R.toCart (List.ofFn f) = .ok (List.ofFn (L.toCart f)) := fun f => by
    rw [h.toCart_eq, dotRow_ofFn]
    rfl
  refine ⟨hc, fun f hl => by rw [h.toCart_eq, dotRow_other hl], fun hr => hf ((regular_iff_det L).1 hr),
    fun hr => hfo ((regular_iff_det L).1 hr), fun hd x => ?_, fun hd x hx => ?_, fun hd a b => ?_,
    fun hd a b hab => ?_, fun hd x y => ?_⟩
  · have hd := (regular_iff_det L).1 hd
    unfold RawLattice.periodized
    rw [hf hd]
    show (periodize _ _ >>= _) = _
    rw [h.periodize_eq]
    exact hc _
  · have hd := (regular_iff_det L).1 hd
    unfold RawLattice.periodized
    rw [hfo hd x hx]
    rfl
  · have hd := (regular_iff_det L).1 hd
    unfold RawLattice.dist
    rw [hf hd, hf hd]
    show (RawLattice.pbcDiffFrac _ _ _ >>= _) = _
    rw [h.pbcDiff_eq]
    show (R.toCart _ >>= _) = _
    rw [hc]
    show Except.ok (roundSqrt PRECISION ((List.ofFn _).map _).sum) = _
    rw [List.map_ofFn, List.sum_ofFn]
    rfl
  · have hd := (regular_iff_det L).1 hd
    unfold RawLattice.dist
    by_cases ha : a.length = d
    · have hb : b.length ≠ d := hab.resolve_left fun h => h ha
      rw [hfo hd b hb, h.toFrac_eq, if_neg hd, dotRow, if_pos ha]
      rfl
    · rw [hfo hd a ha]
      rfl
  · have hd : L.mat.det = 0 := not_not.1 fun h0 => hd ((regular_iff_det L).2 h0)
    have e : ∀ z, R.toFrac z = .error .linAlgError := fun z => by rw [h.toFrac_eq, if_pos hd]
    refine ⟨e x, ?_, ?_⟩
    · unfold RawLattice.periodized
      rw [e]
      rfl
    · unfold RawLattice.dist
      rw [e]
      rfl

/-! ### the constructor -/

theorem dim_of {R : RawLattice K} {m : ℕ} (hne : R.vecs ≠ []) (h : ∀ v ∈ R.vecs, v.length = m) : R.dim = m := by
  unfold RawLattice.dim
  cases hv : R.vecs with
  | nil => exact absurd hv hne
  | cons v vs => exact h v (hv ▸ List.mem_cons_self)

theorem init_ok {vecs : List (List K)} {p : PeriodicArg} {R : RawLattice K} (h : init vecs p = .ok R) :
    R = ⟨vecs, flagsOf vecs p⟩ ∧ vecs ≠ [] ∧ (∀ v ∈ vecs, v.length = R.dim) ∧ R.size * R.size = vecs.length * R.dim := by
  unfold init at h
  simp only at h
  split_ifs at h with h1 h2
  cases vecs with
  | nil => cases h
  | cons v vs =>
    injection h with h
    subst h
    exact ⟨rfl, by simp, h1, by rw [h2, flatten_length h1]⟩

theorem init_of {vecs : List (List K)} (p : PeriodicArg) {m s : ℕ} (hne : vecs ≠ []) (hl : ∀ v ∈ vecs, v.length = m)
    (hs : vecs.length * m = s * s) : init vecs p = .ok ⟨vecs, flagsOf vecs p⟩ := by
  have hd : (⟨vecs, flagsOf vecs p⟩ : RawLattice K).dim = m := dim_of hne hl
  unfold init
  simp only
  rw [if_pos (fun v hv => by rw [hd, hl v hv]), if_pos]
  · cases vecs with
    | nil => exact absurd rfl hne
    | cons v vs => rfl
  · show Nat.sqrt vecs.flatten.length * Nat.sqrt vecs.flatten.length = _
    rw [flatten_length hl, hs, Nat.sqrt_eq]

theorem size_of {R : RawLattice K} {m s : ℕ} (hl : ∀ v ∈ R.vecs, v.length = m) (hs : R.vecs.length * m = s * s) : R.size = s := by
  unfold RawLattice.size
  rw [flatten_length hl, hs, Nat.sqrt_eq]

/-- The side is fixed by the flat list. -/
theorem fits_square {R : RawLattice K} {L : Lattice K d} (hk : R.vecs.length = d) (hl : ∀ v ∈ R.vecs, v.length = d)
    (hm : ∀ i j : Fin d, (R.vecs.getD i []).getD j 0 = L.mat i j)
    (hf : R.flags = List.ofFn L.periodic ∨ ∃ b, R.flags = [b] ∧ L.periodic = fun _ => b) : Fits R L := by
  refine ⟨size_of hl (by rw [hk]), ?_, hf⟩
  funext i j
  unfold reshape
  rw [flatten_getD hl j.isLt (by rw [hk]; exact i.isLt)]
  exact hm i j

/-! ### C141 -/

/-- **C141.** The constructor accepts exactly the nonempty lists of vectors of one length whose number of entries is a square,
whatever the `periodic` argument is.  No vectors: IndexError; everything else: ValueError. -/
theorem C141_accepts (vecs : List (List K)) (p : PeriodicArg) :
    ((∃ R, init vecs p = .ok R) ↔ vecs ≠ [] ∧ ∃ m s, (∀ v ∈ vecs, v.length = m) ∧ vecs.length * m = s * s) ∧
    ∀ e, init vecs p = .error e → (e = .indexError ∧ vecs = []) ∨ (e = .valueError ∧ vecs ≠ []) := by
  constructor
  · constructor
    · rintro ⟨R, h⟩
      obtain ⟨-, h1, h2, h3⟩ := init_ok h
      exact ⟨h1, _, _, h2, h3.symm⟩
    · rintro ⟨h1, m, s, h2, h3⟩
      exact ⟨_, init_of p h1 h2 h3⟩
  · intro e h
    cases vecs with
    | nil =>
      left
      have : init ([] : List (List K)) p = .error .indexError := by
        unfold init
        simp only
        rw [if_pos (by simp), if_pos]
        simp [RawLattice.size]
      rw [this] at h
      injection h with h
      exact ⟨h.symm, rfl⟩
    | cons v vs =>
      right
      refine ⟨?_, by simp⟩
      unfold init at h
      simp only at h
      split_ifs at h <;> injection h with h <;> exact h.symm

/-- The lattice that `Lattice.init` makes of a square list of vectors. -/
theorem latticeInit_ok {vecs : List (List K)} {p : PeriodicArg} {L : Lattice K d} (h : Lattice.init vecs p = .ok ⟨d, L⟩) :
    vecs ≠ [] ∧ vecs.length = d ∧ (∀ v ∈ vecs, v.length = d) ∧ (∀ i j : Fin d, (vecs.getD i []).getD j 0 = L.mat i j) ∧
      flagsOf vecs p = List.ofFn L.periodic := by
  cases vecs with
  | nil => cases h
  | cons v vs =>
    unfold Lattice.init at h
    simp only at h
    split_ifs at h with hl
    have key : ∀ (m : Matrix (Fin (v :: vs).length) (Fin (v :: vs).length) K) (per : Fin (v :: vs).length → Bool),
        (∀ i j, m i j = ((v :: vs).getD i []).getD j 0) → flagsOf (v :: vs) p = List.ofFn per →
        (Except.ok (⟨(v :: vs).length, ⟨m, per⟩⟩ : Σ d, Lattice K d) : Py _) = .ok ⟨d, L⟩ →
        (v :: vs) ≠ [] ∧ (v :: vs).length = d ∧ (∀ w ∈ v :: vs, w.length = d) ∧
          (∀ i j : Fin d, ((v :: vs).getD i []).getD j 0 = L.mat i j) ∧ flagsOf (v :: vs) p = List.ofFn L.periodic := by
      intro m per hm hp he
      injection he with he
      obtain ⟨e1, e2⟩ := Sigma.mk.inj_iff.1 he
      subst e1
      have e2 := eq_of_heq e2
      subst e2
      exact ⟨by simp, rfl, hl, fun i j => (hm i j).symm, hp⟩
    have hmat : ∀ i j : Fin (v :: vs).length, ((v :: vs).get i).get (j.cast (hl _ (List.get_mem _ i)).symm) =
        ((v :: vs).getD i []).getD j 0 := by
      intro i j
      have hj : (j : ℕ) < ((v :: vs)[(i : ℕ)]'i.isLt).length := by
        rw [hl _ (List.getElem_mem _)]
        exact j.isLt
      have e : (v :: vs).getD i [] = (v :: vs)[(i : ℕ)]'i.isLt := by
        rw [List.getD_eq_getElem?_getD, List.getElem?_eq_getElem i.isLt]
        rfl
      rw [e, List.getD_eq_getElem?_getD, List.getElem?_eq_getElem hj]
      rfl
    cases p with
    | flag b =>
      refine key _ _ hmat ?_ h
      rw [List.ofFn_const]
      exact List.map_const'
    | many l =>
      simp only at h
      split_ifs at h with hll
      refine key _ _ hmat ?_ h
      show l = _
      apply List.ext_getElem
      · simp [hll]
      · intro i h1 h2
        rw [List.getElem_ofFn]
        rfl

/-- **C141.** Square lists of vectors: the object has the dimension `d` and computes in the lattice with these vectors as rows. -/
theorem C141_square {vecs : List (List K)} {p : PeriodicArg} {L : Lattice K d} (h : Lattice.init vecs p = .ok ⟨d, L⟩) :
    ∃ R, init vecs p = .ok R ∧ R.dim = d ∧ Computes R L := by
  obtain ⟨h1, h2, h3, h4, h5⟩ := latticeInit_ok h
  exact ⟨_, init_of p h1 h3 (by rw [h2]), dim_of h1 h3, (fits_square h2 h3 h4 (Or.inl h5)).computes⟩

/-- **C141.** A list of one flag is one flag for all axes. -/
theorem C141_one_flag {vecs : List (List K)} {b : Bool} {L : Lattice K d} (h : Lattice.init vecs (.flag b) = .ok ⟨d, L⟩) :
    ∃ R, init vecs (.many [b]) = .ok R ∧ R.dim = d ∧ Computes R L := by
  obtain ⟨h1, h2, h3, h4, h5⟩ := latticeInit_ok h
  refine ⟨_, init_of _ h1 h3 (by rw [h2]), dim_of h1 h3, (fits_square h2 h3 h4 (Or.inr ⟨b, rfl, ?_⟩)).computes⟩
  have e : List.ofFn L.periodic = List.ofFn (fun _ : Fin d => b) := by
    rw [← h5, List.ofFn_const, ← h2]
    exact List.map_const'
  exact List.ofFn_injective e

/-- The errors of `toFrac`. -/
theorem toFrac_ok {R : RawLattice K} {x f : List K} (h : R.toFrac x = .ok f) :
    R.matrix.det ≠ 0 ∧ x.length = R.size ∧ f.length = R.size := by
  unfold RawLattice.toFrac dotRow at h
  split_ifs at h with h1 h2
  injection h with h
  subst h
  exact ⟨h1, h2, by simp⟩

theorem toCart_ok {R : RawLattice K} {x f : List K} (h : R.toCart x = .ok f) : x.length = R.size ∧ f.length = R.size := by
  unfold RawLattice.toCart dotRow at h
  split_ifs at h with h1
  injection h with h
  subst h
  exact ⟨h1, by simp⟩

theorem bcast_flags_length {f : List K} {c v : List K} {flags : List Bool} {g : K → K → K} {g' : K → Bool → K} {n : ℕ} (hf : f.length = n)
    {u : List K} (hu : u.length = n) (h1 : bcast g' u flags = .ok c) (h2 : bcast g f c = .ok v) (hv : v.length = n) :
    flags.length = 1 ∨ flags.length = n := by
  have a := bcast_length h1
  have b := bcast_length h2
  omega

/-- **C141.** `periodic` is not checked by the constructor.  A list of flags that has neither one entry nor one for each row of the
matrix makes an object on which both methods that use the flags raise for all arguments. -/
theorem C141_flags {vecs : List (List K)} {p : PeriodicArg} {R : RawLattice K} (h : init vecs p = .ok R)
    (hf : R.flags.length ≠ 1) (hf' : R.flags.length ≠ R.size) (x y : List K) :
    (∃ e, R.periodized x = .error e) ∧ ∃ e, R.dist x y = .error e := by
  constructor
  · cases hr : R.periodized x with
    | error e => exact ⟨e, rfl⟩
    | ok v =>
      exfalso
      unfold RawLattice.periodized at hr
      obtain ⟨f, h1, hr⟩ := bind_ok hr
      obtain ⟨g, h2, hr⟩ := bind_ok hr
      unfold periodize at h2
      obtain ⟨c, h3, h2⟩ := bind_ok h2
      obtain ⟨-, -, hl⟩ := toFrac_ok h1
      rcases bcast_flags_length hl (by simpa using hl) h3 h2 (toCart_ok hr).1 with h | h
      · exact hf h
      · exact hf' h
  · cases hr : R.dist x y with
    | error e => exact ⟨e, rfl⟩
    | ok v =>
      exfalso
      unfold RawLattice.dist at hr
      obtain ⟨f, h1, hr⟩ := bind_ok hr
      obtain ⟨g, h2, hr⟩ := bind_ok hr
      obtain ⟨w, h3, hr⟩ := bind_ok hr
      obtain ⟨u, h4, hr⟩ := bind_ok hr
      unfold RawLattice.pbcDiffFrac at h3
      obtain ⟨fd, h5, h3⟩ := bind_ok h3
      obtain ⟨c, h6, h3⟩ := bind_ok h3
      obtain ⟨-, -, hl1⟩ := toFrac_ok h1
      obtain ⟨-, -, hl2⟩ := toFrac_ok h2
      have hl : fd.length = R.size := by
        have := bcast_length h5
        omega
      rcases bcast_flags_length hl (by simpa using hl) h6 h3 (toCart_ok h4).1 with h | h
      · exact hf h
      · exact hf' h

/-- With one flag, or one for each row, the object computes in the lattice of its matrix. -/
theorem fits_view (R : RawLattice K) (hf : R.flags.length = 1 ∨ R.flags.length = R.size) :
    ∃ L : Lattice K R.size, Fits R L ∧ L.mat = R.matrix := by
  refine ⟨⟨R.matrix, fun i => if R.flags.length = 1 then R.flags.headD false else R.flags.getD i false⟩, ⟨rfl, rfl, ?_⟩, rfl⟩
  by_cases h1 : R.flags.length = 1
  · right
    obtain ⟨b, hb⟩ := List.length_eq_one_iff.1 h1
    refine ⟨b, hb, ?_⟩
    funext i
    simp [hb]
  · left
    apply List.ext_getElem
    · simp [hf.resolve_left h1]
    · intro i h2 h3
      simp [h1, List.getD_eq_getElem?_getD, h2]

/-- **C141.** Lists of every accepted shape, `k` vectors of length `m` with `k * m = s * s`: the object computes in a lattice of
dimension `s`, whose rows are read off the list of all entries, `s` at a time.  Its `dim` is `m`. -/
theorem C141_any_shape {vecs : List (List K)} {p : PeriodicArg} {R : RawLattice K} (h : init vecs p = .ok R) {m s : ℕ}
    (hm : ∀ v ∈ vecs, v.length = m) (hs : vecs.length * m = s * s) (hf : R.flags.length = 1 ∨ R.flags.length = s) :
    R.dim = m ∧ ∃ L : Lattice K s, Computes R L ∧
      ∀ (i j : Fin s) (q r : ℕ), q < vecs.length → r < m → (i : ℕ) * s + j = q * m + r → L.mat i j = (vecs.getD q []).getD r 0 := by
  obtain ⟨e, hne, -, -⟩ := init_ok h
  have hv : R.vecs = vecs := by rw [e]
  have hm' : ∀ v ∈ R.vecs, v.length = m := hv ▸ hm
  have hsz : R.size = s := size_of hm' (hv ▸ hs)
  subst hsz
  obtain ⟨L, hL, hLm⟩ := fits_view R hf
  refine ⟨dim_of (hv ▸ hne) hm', L, hL.computes, fun i j q r hq hr hij => ?_⟩
  rw [hLm]
  show R.vecs.flatten.getD (i * R.size + j) 0 = _
  rw [hij, hv]
  exact flatten_getD hm hr hq

/-- **C141.** If the number of vectors is not their length, neither is the dimension of the space the object computes in; and
with one flag for all axes (as by default) and more than one vector, the methods that use the flags raise for all arguments. -/
theorem C141_misshapen {vecs : List (List K)} {b : Bool} {R : RawLattice K} (h : init vecs (.flag b) = .ok R)
    (hk : vecs.length ≠ R.dim) (h0 : 0 < R.dim) :
    R.size ≠ R.dim ∧ R.size ≠ vecs.length ∧
      (vecs.length ≠ 1 → ∀ x y, (∃ e, R.periodized x = .error e) ∧ ∃ e, R.dist x y = .error e) := by
  obtain ⟨e, hne, hl, hs⟩ := init_ok h
  have hpos : 0 < vecs.length := List.length_pos_iff.2 hne
  have h1 : R.size ≠ R.dim := by
    intro he
    rw [he] at hs
    exact hk (Nat.eq_of_mul_eq_mul_right h0 hs).symm
  have h2 : R.size ≠ vecs.length := by
    intro he
    rw [he] at hs
    exact hk (Nat.eq_of_mul_eq_mul_left hpos hs)
  refine ⟨h1, h2, fun hk1 => C141_flags h ?_ ?_⟩
  · rw [e]
    simpa [flagsOf] using hk1
  · rw [e] at h2 ⊢
    simpa [flagsOf] using Ne.symm h2

/-! ### examples -/

/-- `Lattice.init` accepts a square list of vectors with one flag for each. -/
theorem latticeInit_square {vecs : List (List K)} (hne : vecs ≠ []) (hl : ∀ v ∈ vecs, v.length = vecs.length) {l : List Bool}
    (hb : l.length = vecs.length) : ∃ L : Lattice K vecs.length, Lattice.init vecs (.many l) = .ok ⟨vecs.length, L⟩ := by
  cases vecs with
  | nil => exact absurd rfl hne
  | cons v vs =>
    unfold Lattice.init
    rw [dif_pos hl]
    dsimp only
    rw [dif_pos hb]
    exact ⟨_, rfl⟩

/-- A skew plane lattice with one periodic axis meets the hypothesis of `C141_square`. -/
example : ∃ L : Lattice ℚ 2, Lattice.init [[2, 0], [1, 3]] (.many [true, false]) = .ok ⟨2, L⟩ :=
  latticeInit_square (vecs := [[(2 : ℚ), 0], [1, 3]]) (by simp) (by simp) rfl

/-- **C141.** Four vectors of length one are accepted: the object has `dim` 1 and computes in the plane. -/
theorem C141_four_numbers (a b c e : K) : ∃ R, init [[a], [b], [c], [e]] (.many [true, true]) = .ok R ∧ R.dim = 1 ∧
    Computes R (⟨![![a, b], ![c, e]], fun _ => true⟩ : Lattice K 2) := by
  refine ⟨_, init_of (m := 1) (s := 2) _ (by simp) (by simp) rfl, rfl, Fits.computes ⟨?_, ?_, Or.inl ?_⟩⟩
  · exact size_of (m := 1) (s := 2) (by simp) rfl
  · funext i j
    fin_cases i <;> fin_cases j <;> rfl
  · rfl

/-- Two flags for three axes meet the hypotheses of `C141_flags`. -/
example : ∃ R, init [[(1 : ℚ), 0, 0], [0, 1, 0], [0, 0, 1]] (.many [true, true]) = .ok R ∧ R.flags.length ≠ 1 ∧ R.flags.length ≠ R.size := by
  refine ⟨_, init_of (m := 3) (s := 3) _ (by simp) (by simp) rfl, by simp [flagsOf], ?_⟩
  rw [size_of (m := 3) (s := 3) (by simp) rfl]
  simp [flagsOf]

/-- Eight vectors of length two meet the hypotheses of `C141_misshapen`. -/
example : ∃ R, init (List.replicate 8 [(1 : ℚ), 2]) (.flag true) = .ok R ∧ (List.replicate 8 [(1 : ℚ), 2]).length ≠ R.dim ∧ 0 < R.dim :=
  ⟨_, init_of (m := 2) (s := 4) _ (by simp [List.replicate]) (by simp [List.replicate]) rfl, by simp [RawLattice.dim, List.replicate],
    by simp [RawLattice.dim, List.replicate]⟩

end RawLattice
end Pyl
