import Verif.Props.StructureJson
import Verif.Lemmas.Box
/-
C49-C51: building structures by tiling.
-/
set_option autoImplicit false
set_option linter.unusedSectionVars false

namespace Pyl

/-! ### C51 -/

/-- C51: `get_points_in_box` lists every integer point with `lb <= x < ub` on each axis exactly once, in lexicographic order; their
number is the product of the extents, a non-positive extent counting as 0. -/
theorem C51_points_in_box (lbs ubs : List ℤ) (hl : lbs.length = ubs.length) :
    (∀ p, p ∈ getPointsInBox lbs ubs ↔ p.length = lbs.length ∧
      ∀ (i : ℕ) (x lb ub : ℤ), p[i]? = some x → lbs[i]? = some lb → ubs[i]? = some ub → lb ≤ x ∧ x < ub) ∧
    (getPointsInBox lbs ubs).Pairwise (List.Lex (· < ·)) ∧ (getPointsInBox lbs ubs).Nodup ∧
    (getPointsInBox lbs ubs).length = (List.zipWith (fun lb ub => (ub - lb).toNat) lbs ubs).prod := by
  have hpw : ∀ l ∈ (lbs.zip ubs).map (fun b => pyRange b.1 b.2), l.Pairwise (· < ·) := by
    intro l h
    obtain ⟨b, -, rfl⟩ := List.mem_map.1 h
    exact pairwise_pyRange _ _
  refine ⟨fun p => ?_, pairwise_cartesianProduct hpw,
    nodup_cartesianProduct fun l h => (hpw l h).imp fun hab => ne_of_lt hab, ?_⟩
  · rw [getPointsInBox, mem_cartesianProduct, List.forall₂_iff_get]
    constructor
    · rintro ⟨h1, h2⟩
      have hpl : p.length = lbs.length := by simpa [hl] using h1
      refine ⟨hpl, fun i x lb ub hx hlb hub => ?_⟩
      obtain ⟨hi, rfl⟩ := List.getElem?_eq_some_iff.1 hx
      obtain ⟨hi', rfl⟩ := List.getElem?_eq_some_iff.1 hlb
      obtain ⟨hi'', rfl⟩ := List.getElem?_eq_some_iff.1 hub
      have := h2 i hi (by simp; omega)
      simpa [mem_pyRange] using this
    · rintro ⟨h1, h2⟩
      refine ⟨by simp [hl, h1], fun i hi hi' => ?_⟩
      simp only [List.length_map, List.length_zip] at hi'
      have := h2 i p[i] (lbs[i]'(by omega)) (ubs[i]'(by omega)) (List.getElem?_eq_getElem hi)
        (List.getElem?_eq_getElem (by omega)) (List.getElem?_eq_getElem (by omega))
      simpa [mem_pyRange] using this
  · rw [getPointsInBox, length_cartesianProduct, List.map_map]
    have : (List.length ∘ fun b : ℤ × ℤ => pyRange b.1 b.2) = fun b => (b.2 - b.1).toNat := by
      funext b; simp [length_pyRange]
    rw [this, ← List.map_uncurry_zip_eq_zipWith]
    rfl

/-- C51 for cubes: the points with all `dim` coordinates in `[lb, ub)`. -/
theorem C51_points_in_cube (lb ub : ℤ) (dim : ℕ) :
    (∀ p, p ∈ getPointsInCube lb ub dim ↔ p.length = dim ∧ ∀ x ∈ p, lb ≤ x ∧ x < ub) ∧
    (getPointsInCube lb ub dim).Pairwise (List.Lex (· < ·)) ∧ (getPointsInCube lb ub dim).Nodup ∧
    (getPointsInCube lb ub dim).length = (ub - lb).toNat ^ dim := by
  obtain ⟨h1, h2, h3, h4⟩ := C51_points_in_box (List.replicate dim lb) (List.replicate dim ub) (by simp)
  refine ⟨fun p => ?_, h2, h3, ?_⟩
  · rw [getPointsInCube, h1]
    simp only [List.length_replicate]
    refine and_congr_right fun hp => ?_
    constructor
    · intro h x hx
      obtain ⟨i, hi⟩ := List.mem_iff_getElem?.1 hx
      have hi' : i < dim := by rw [← hp]; exact (List.getElem?_eq_some_iff.1 hi).1
      exact h i x lb ub hi (by simp [hi']) (by simp [hi'])
    · intro h i x lb' ub' hx hlb hub
      rw [List.getElem?_replicate] at hlb hub
      split at hlb
      · simp only [*, if_true, Option.some.injEq] at hlb hub
        subst hlb; subst hub
        exact h x (List.mem_of_getElem? hx)
      · cases hlb
  · rw [getPointsInCube, h4]
    have : List.zipWith (fun lb ub : ℤ => (ub - lb).toNat) (List.replicate dim lb) (List.replicate dim ub) =
        List.replicate dim (ub - lb).toNat := by simp
    rw [this, List.prod_replicate]

example : getPointsInBox [0, 1] [2, 3] = [[0, 1], [0, 2], [1, 1], [1, 2]] := by decide
example : getPointsInBox [0, 5] [2, 3] = [] := by decide

namespace Structure
open Pyl.Lattice
variable {K : Type} [Field K] [LinearOrder K] [IsStrictOrderedRing K] [FloorRing K] {d : ℕ}

/-! ### C49 -/

/-- The positions of a motif with their classes, in order. -/
def Motif.entries (m : Motif K d) : List (String × (Fin d → K)) :=
  match m with
  | .byClass m => m.flatMap fun cv => cv.2.map fun v => (cv.1, v)
  | .plain l => l.map fun v => ("A", v)

/-- The class and Cartesian location of the site that the motif entry `e` should give in cell `c`: the motif position (given
in fractional or Cartesian coordinates) plus the cell's translation. -/
def siteIn (L : Lattice K d) (frac : Bool) (c : Fin d → ℤ) (e : String × (Fin d → K)) : String × (Fin d → K) :=
  (e.1, (if frac then L.point e.2 else e.2) + L.point fun i => (c i : K))

theorem cellSites_eq {L : Lattice K d} {frac : Bool} (hs : frac = true ∨ ∀ i j, L.mat i j = L.mat j i) (m : Motif K d) (c : Fin d → ℤ) :
    cellSites L m.toDict frac (fun i => (c i : K)) = m.entries.map (siteIn L frac c) := by
  have key : ∀ (s : String) (v : Fin d → K), (s, if frac then L.toCart ((if frac then (fun i => (c i : K)) else Matrix.mulVec L.mat (fun i => (c i : K))) + v)
      else (if frac then (fun i => (c i : K)) else Matrix.mulVec L.mat (fun i => (c i : K))) + v) = siteIn L frac c (s, v) := by
    intro s v
    cases frac with
    | true => simp only [if_true, siteIn, toCart_add, ← toCart_eq_point]; rw [add_comm]
    | false =>
      have hsym : ∀ i j, L.mat i j = L.mat j i := by simpa using hs
      simp only [siteIn, Bool.false_eq_true, if_false]
      congr 1
      rw [add_comm]
      congr 1
      funext j
      simp only [Matrix.mulVec, dotProduct, point]
      exact Finset.sum_congr rfl fun i _ => by rw [hsym j i, mul_comm]
  cases m with
  | byClass m =>
    simp only [cellSites, Motif.toDict, Motif.entries, List.map_flatMap, List.map_map, Function.comp_def, key]
  | plain l =>
    simp only [cellSites, Motif.toDict, Motif.entries, List.flatMap_cons, List.flatMap_nil, List.append_nil, List.map_map,
      Function.comp_def, key]

theorem foldlM_flatMap' {α β : Type} {m : Type → Type} [Monad m] [LawfulMonad m] {σ : Type} (l : List α) (g : α → List β)
    (f : σ → β → m σ) (s : σ) : (l.flatMap g).foldlM f s = l.foldlM (fun s a => (g a).foldlM f s) s := by
  induction l generalizing s with
  | nil => rfl
  | cons a l ih =>
    rw [List.flatMap_cons, List.foldlM_append, List.foldlM_cons]
    congr 1
    funext s'
    exact ih s'

/-- All sites to be added by `build_from`, in order. -/
def tiling (L : Lattice K d) (n : Fin d → ℤ) (m : Motif K d) (frac : Bool) : List (String × (Fin d → K)) :=
  (cells n).flatMap fun p => cellSites L m.toDict frac (vecOf p)

theorem buildFrom_eq (L : Lattice K d) (n : Fin d → ℤ) (m : Motif K d) (frac : Bool) :
    (Distinct (L.scaled n) (tiling L n m frac) → buildFrom L n m frac = .ok (built (L.scaled n) (tiling L n m frac))) ∧
    (¬ Distinct (L.scaled n) (tiling L n m frac) → buildFrom L n m frac = .error .assertionError) := by
  have e : buildFrom L n m frac = (tiling L n m frac).foldlM addOrRaise (built (L.scaled n) []) := by
    rw [tiling, foldlM_flatMap']; rfl
  rw [e]
  simpa using foldlM_addOrRaise (L := L.scaled n) (tiling L n m frac) [] (by simp [Distinct])

theorem tiling_eq {L : Lattice K d} {n : Fin d → ℤ} {m : Motif K d} {frac : Bool} (hs : frac = true ∨ ∀ i j, L.mat i j = L.mat j i) :
    tiling L n m frac = (cells n).flatMap fun p => m.entries.map (siteIn L frac (cellVec d p)) := by
  rw [tiling]
  congr 1
  funext p
  rw [vecOf_eq, cellSites_eq hs]

theorem getElem?_flatMap_map {α β γ : Type} (l : List α) (e : List β) (f : α → β → γ) (m k : ℕ) (a : α) (b : β)
    (ha : l[m]? = some a) (hb : e[k]? = some b) : (l.flatMap fun a => e.map (f a))[m * e.length + k]? = some (f a b) := by
  have hk := (List.getElem?_eq_some_iff.1 hb).1
  induction l generalizing m with
  | nil => simp at ha
  | cons x l ih =>
    rw [List.flatMap_cons]
    cases m with
    | zero =>
      simp only [List.getElem?_cons_zero, Option.some.injEq] at ha
      subst ha
      rw [List.getElem?_append_left (by simp; exact hk), Nat.zero_mul, Nat.zero_add, List.getElem?_map, hb]; rfl
    | succ m =>
      rw [List.getElem?_append_right (by simp; rw [Nat.succ_mul]; omega)]
      have : (m + 1) * e.length + k - (List.map (f x) e).length = m * e.length + k := by
        rw [List.length_map, Nat.succ_mul]; omega
      rw [this]
      exact ih m (by simpa using ha)

/-- C49 (the part that holds): for motifs in fractional coordinates on all lattices, and for Cartesian motifs on lattices whose
matrix is symmetric (the square grids are such): if the resulting positions are pairwise different, `build_from` succeeds, with
`prod n * |motif|` sites; the site of motif entry number `e` in cell number `q` has id `q * |motif| + e`, the class of the entry
and the location motif position + cell translation.  Cells are numbered in lexicographic order.  If two positions coincide,
AssertionError is raised.  Missing: Cartesian motifs on other lattices (`C49_false`). -/
theorem C49_tiling_partial (L : Lattice K d) (h : L.Regular) (n : Fin d → ℤ) (hn : ∀ i, 0 < n i) (m : Motif K d) (frac : Bool)
    (hs : frac = true ∨ ∀ i j, L.mat i j = L.mat j i) :
    ∃ cs : List (Fin d → ℤ), (∀ c, c ∈ cs ↔ ∀ i, 0 ≤ c i ∧ c i < n i) ∧
      cs.Pairwise (fun c c' => List.Lex (· < ·) (List.ofFn c) (List.ofFn c')) ∧
      ((∀ c ∈ cs, ∀ c' ∈ cs, ∀ (e e' : ℕ) (a a' : String × (Fin d → K)), m.entries[e]? = some a → m.entries[e']? = some a' →
          (L.scaled n).SamePlace (siteIn L frac c a).2 (siteIn L frac c' a').2 → c = c' ∧ e = e') →
        ∃ s, buildFrom L n m frac = .ok s ∧ s.lattice = L.scaled n ∧
          s.siteIds = List.range ((∏ i, (n i).toNat) * m.entries.length) ∧
          ∀ (q e : ℕ) (c : Fin d → ℤ) (a : String × (Fin d → K)), cs[q]? = some c → m.entries[e]? = some a →
            ∃ y, (L.scaled n).Stored (siteIn L frac c a).2 y ∧
              s.getSite (q * m.entries.length + e) = some ⟨a.1, y, q * m.entries.length + e⟩ ∧
              ∀ x, (L.scaled n).Image x (siteIn L frac c a).2 → s.idAt x = some (q * m.entries.length + e)) ∧
      (∀ c ∈ cs, ∀ c' ∈ cs, ∀ (e e' : ℕ) (a a' : String × (Fin d → K)), m.entries[e]? = some a → m.entries[e']? = some a' →
          (L.scaled n).SamePlace (siteIn L frac c a).2 (siteIn L frac c' a').2 → (c ≠ c' ∨ e ≠ e') →
        buildFrom L n m frac = .error .assertionError) := by
  have hr : (L.scaled n).Regular := (C38_scaled L n).2.2.2.1 h fun i => (hn i).ne'
  have ht := tiling_eq (n := n) (m := m) hs
  have hlen : (tiling L n m frac).length = (∏ i, (n i).toNat) * m.entries.length := by
    rw [ht, List.length_flatMap]
    simp only [List.length_map]
    rw [List.map_const', List.sum_replicate, length_cells, smul_eq_mul]
  have hcs : ∀ c : Fin d → ℤ, c ∈ (cells n).map (cellVec d) ↔ ∀ i, 0 ≤ c i ∧ c i < n i := by
    intro c
    rw [List.mem_map]
    constructor
    · rintro ⟨p, hp, rfl⟩
      exact (mem_cells.1 hp).2
    · intro hc
      exact ⟨List.ofFn c, mem_cells.2 ⟨by simp, by rw [cellVec_ofFn]; exact hc⟩, cellVec_ofFn c⟩
  have hnd : ((cells n).map (cellVec d)).Pairwise (fun c c' => List.Lex (· < ·) (List.ofFn c) (List.ofFn c')) := by
    rw [List.pairwise_map]
    refine (lex_cells n).imp_of_mem ?_
    intro p q hp hq hlex
    rwa [ofFn_cellVec (mem_cells.1 hp).1, ofFn_cellVec (mem_cells.1 hq).1]
  have hget : ∀ (q e : ℕ) (c : Fin d → ℤ) (a : String × (Fin d → K)), ((cells n).map (cellVec d))[q]? = some c → m.entries[e]? = some a →
      (tiling L n m frac)[q * m.entries.length + e]? = some (siteIn L frac c a) := by
    intro q e c a hq he
    rw [List.getElem?_map] at hq
    cases hq' : (cells n)[q]? with
    | none => rw [hq'] at hq; cases hq
    | some p =>
      rw [hq'] at hq
      injection hq with hq
      subst hq
      rw [ht]
      exact getElem?_flatMap_map _ _ (fun p => siteIn L frac (cellVec d p)) q e p a hq' he
  refine ⟨(cells n).map (cellVec d), hcs, hnd, fun hd => ?_, fun c hc c' hc' e e' a a' he he' hp hne => ?_⟩
  · have hD : Distinct (L.scaled n) (tiling L n m frac) := by
      rw [Distinct, ht, List.map_flatMap, List.nodup_flatMap]
      refine ⟨fun p hp => ?_, ?_⟩
      · rw [List.map_map, List.nodup_iff_injective_getElem]
        intro i j hij
        have h1 : (i : ℕ) < m.entries.length := by simpa using i.2
        have h2 : (j : ℕ) < m.entries.length := by simpa using j.2
        simp only [List.getElem_map, Function.comp] at hij
        have hc : cellVec d p ∈ (cells n).map (cellVec d) := List.mem_map_of_mem hp
        have := (hd _ hc _ hc i j _ _ (List.getElem?_eq_getElem h1) (List.getElem?_eq_getElem h2) ((keyOf_eq_iff hr).1 hij)).2
        exact Fin.ext this
      · refine (nodup_cells n).imp_of_mem ?_
        intro p q hp hq hne
        rw [Function.onFun, List.disjoint_left]
        intro k hk hk'
        rw [List.map_map, List.mem_map] at hk hk'
        obtain ⟨a, ha, rfl⟩ := hk
        obtain ⟨a', ha', hkk⟩ := hk'
        obtain ⟨e, he⟩ := List.mem_iff_getElem?.1 ha
        obtain ⟨e', he'⟩ := List.mem_iff_getElem?.1 ha'
        have := (hd _ (List.mem_map_of_mem hp) _ (List.mem_map_of_mem hq) e e' a a' he he' ((keyOf_eq_iff hr).1 hkk.symm)).1
        apply hne
        rw [← ofFn_cellVec (mem_cells.1 hp).1, ← ofFn_cellVec (mem_cells.1 hq).1, this]
    refine ⟨_, (buildFrom_eq L n m frac).1 hD, rfl, by rw [← hlen]; rfl, fun q e c a hq he => ?_⟩
    have hg := hget q e c a hq he
    refine ⟨_, (stored_iff hr).2 rfl, by rw [getSite_built, hg]; rfl, fun x hx => ?_⟩
    have := (siteAt_built hD x ⟨a.1, rounded ((L.scaled n).periodized (siteIn L frac c a).2), q * m.entries.length + e⟩).2
      ⟨_, hg, by rw [keyOf, keyOf, periodized_image hr hx], rfl⟩
    rw [idAt, this]; rfl
  · refine (buildFrom_eq L n m frac).2 fun hD => ?_
    obtain ⟨q, hq⟩ := List.mem_iff_getElem?.1 hc
    obtain ⟨q', hq'⟩ := List.mem_iff_getElem?.1 hc'
    have g := hget q e c a hq he
    have g' := hget q' e' c' a' hq' he'
    obtain ⟨hi, gi⟩ := List.getElem?_eq_some_iff.1 g
    obtain ⟨hi', gi'⟩ := List.getElem?_eq_some_iff.1 g'
    have heq : q * m.entries.length + e = q' * m.entries.length + e' := by
      refine (List.Nodup.getElem_inj_iff hD (i := _) (j := _) (hi := by simpa using hi) (hj := by simpa using hi')).1 ?_
      rw [List.getElem_map, List.getElem_map, gi, gi']
      exact (keyOf_eq_iff hr).2 hp
    have hel := (List.getElem?_eq_some_iff.1 he).1
    have hel' := (List.getElem?_eq_some_iff.1 he').1
    have hqq : q = q' := by
      have h1 : (q * m.entries.length + e) / m.entries.length = q := by
        rw [Nat.mul_comm, Nat.mul_add_div (by omega), Nat.div_eq_of_lt hel]; rfl
      have h2 : (q' * m.entries.length + e') / m.entries.length = q' := by
        rw [Nat.mul_comm, Nat.mul_add_div (by omega), Nat.div_eq_of_lt hel']; rfl
      rw [← h1, ← h2, heq]
    subst hqq
    rw [hq] at hq'
    injection hq' with hq'
    have : e = e' := by omega
    rcases hne with hne | hne
    · exact hne hq'
    · exact hne this

/-- With whole thousandths, "same rounded position" means "periodic image". -/
theorem samePlace_iff_image {L : Lattice K d} (h : L.Regular) (hL : ∀ i, Aligned (L.mat i)) {x y : Fin d → K} (hx : Aligned x) (hy : Aligned y) :
    L.SamePlace x y ↔ L.Image x y := by
  refine ⟨fun hp => ?_, samePlace_of_image h⟩
  have e := (keyOf_eq_iff h).2 hp
  rw [keyOf_of_untied (aligned_untied h hL hx), keyOf_of_untied (aligned_untied h hL hy),
    aligned_rounded (aligned_periodized h hL hx), aligned_rounded (aligned_periodized h hL hy)] at e
  refine C37_injective L h x y ?_
  funext i
  have := congrFun e i
  exact add_right_cancel this

theorem aligned_add {x y : Fin d → K} (hx : Aligned x) (hy : Aligned y) : Aligned (x + y) := by
  intro i
  obtain ⟨m, hm⟩ := hx i
  obtain ⟨k, hk⟩ := hy i
  exact ⟨m + k, by rw [Pi.add_apply, mul_add, hm, hk]; push_cast; rfl⟩

theorem aligned_point {L : Lattice K d} (hL : ∀ i, Aligned (L.mat i)) (c : Fin d → ℤ) : Aligned (L.point fun i => (c i : K)) := by
  intro j
  choose q hq using fun i => hL i j
  refine ⟨∑ i, c i * q i, ?_⟩
  rw [point, Finset.mul_sum]
  push_cast
  refine Finset.sum_congr rfl fun i _ => ?_
  rw [← hq i]; ring

theorem aligned_scaled {L : Lattice K d} (hL : ∀ i, Aligned (L.mat i)) (n : Fin d → ℤ) : ∀ i, Aligned ((L.scaled n).mat i) := by
  intro i j
  obtain ⟨q, hq⟩ := hL i j
  refine ⟨q * n i, ?_⟩
  push_cast
  rw [← hq, scaled]
  simp only
  ring

/-- C49: when do positions stay distinct?  On the grid of thousandths it is enough that no two motif positions differ by an integer
combination of the lattice vectors. -/
theorem C49_distinct (L : Lattice K d) (h : L.Regular) (hL : ∀ i, Aligned (L.mat i)) (n : Fin d → ℤ) (hn : ∀ i, 0 < n i) (frac : Bool)
    (es : List (String × (Fin d → K))) (hal : ∀ a ∈ es, Aligned (siteIn L frac 0 a).2)
    (hdiff : ∀ (e e' : ℕ) (a a' : String × (Fin d → K)) (t : Fin d → ℤ), es[e]? = some a → es[e']? = some a' →
      (siteIn L frac 0 a).2 - (siteIn L frac 0 a').2 = L.point (fun i => (t i : K)) → e = e')
    (c c' : Fin d → ℤ) (hc : ∀ i, 0 ≤ c i ∧ c i < n i) (hc' : ∀ i, 0 ≤ c' i ∧ c' i < n i) (e e' : ℕ) (a a' : String × (Fin d → K))
    (he : es[e]? = some a) (he' : es[e']? = some a')
    (hp : (L.scaled n).SamePlace (siteIn L frac c a).2 (siteIn L frac c' a').2) : c = c' ∧ e = e' := by
  have hr : (L.scaled n).Regular := (C38_scaled L n).2.2.2.1 h fun i => (hn i).ne'
  have h0 : ∀ (c : Fin d → ℤ) (a : String × (Fin d → K)), (siteIn L frac c a).2 = (siteIn L frac 0 a).2 + L.point fun i => (c i : K) := by
    intro c a
    have : (L.point fun _ => ((0 : ℤ) : K)) = 0 := by
      funext j; simp [point]
    simp only [siteIn, Pi.zero_apply, this, add_zero]
  have hala : ∀ (c : Fin d → ℤ) (a : String × (Fin d → K)), a ∈ es → Aligned (siteIn L frac c a).2 := by
    intro c a ha
    rw [h0]
    exact aligned_add (hal a ha) (aligned_point hL c)
  rw [samePlace_iff_image hr (aligned_scaled hL n) (hala _ _ (List.mem_of_getElem? he)) (hala _ _ (List.mem_of_getElem? he'))] at hp
  obtain ⟨m, hm, em⟩ := hp
  have epoint : (L.scaled n).point (fun i => (m i : K)) = L.point fun i => ((m i * n i : ℤ) : K) := by
    funext j; simp only [point, scaled]; exact Finset.sum_congr rfl fun i _ => by push_cast; ring
  rw [epoint, h0 c, h0 c'] at em
  have hsub : ∀ u v : Fin d → ℤ, (L.point fun i => (u i : K)) - (L.point fun i => (v i : K)) = L.point fun i => ((u i - v i : ℤ) : K) := by
    intro u v
    rw [← toCart_eq_point, ← toCart_eq_point, ← toCart_eq_point, ← toCart_sub]
    congr 1
    funext i
    push_cast; rfl
  have e1 : (siteIn L frac 0 a).2 - (siteIn L frac 0 a').2 = L.point fun i => ((m i * n i - (c i - c' i) : ℤ) : K) := by
    have := hsub (fun i => m i * n i) (fun i => c i - c' i)
    rw [← this, ← hsub c c', ← em]
    abel
  have hee := hdiff e e' a a' _ he he' e1
  refine ⟨?_, hee⟩
  subst hee
  rw [he] at he'
  injection he' with he'
  subst he'
  rw [sub_self] at e1
  have hz := congrArg L.toFrac e1
  rw [toFrac_point h] at hz
  have hz0 : L.toFrac 0 = 0 := by rw [toFrac]; exact Matrix.zero_vecMul _
  rw [hz0] at hz
  funext i
  have hi : m i * n i - (c i - c' i) = 0 := by
    have := congrFun hz i
    rw [Pi.zero_apply] at this
    exact_mod_cast this.symm
  have hd1 := hc i
  have hd2 := hc' i
  have : m i = 0 := by
    by_contra hne
    have hpos := hn i
    rcases lt_or_gt_of_ne hne with hlt | hgt
    · nlinarith
    · nlinarith
  rw [this] at hi
  omega

/-- C49 is false for a Cartesian motif on the lattice with vectors (1,0), (1/2,1): two cells along the second vector, one site at the
origin of each cell.  There should be a site at (1/2, 1); there is none. -/
theorem C49_false : skew.Regular ∧ ∃ s, buildFrom skew ![1, 2] (.plain [![0, 0]]) false = .ok s ∧
    s.siteAt (skew.point ![0, 1]) = none := by
  refine ⟨skew_regular, ?_⟩
  have hr : (skew.scaled ![1, 2]).Regular := (C38_scaled skew ![1, 2]).2.2.2.1 skew_regular (by decide)
  have hal : ∀ i, Aligned (skew.mat i) := by
    intro i j
    fin_cases i <;> fin_cases j <;> simp [skew]
    · exact ⟨1000, by norm_num⟩
    · exact ⟨0, by norm_num⟩
    · exact ⟨500, by norm_num⟩
    · exact ⟨1000, by norm_num⟩
  have ht : tiling skew ![1, 2] (.plain [![0, 0]]) false = [("A", ![0, 0]), ("A", ![0, 1])] := by
    have hc : cells ![1, 2] = [[0, 0], [0, 1]] := by decide
    rw [tiling, hc]
    simp only [List.flatMap_cons, List.flatMap_nil, cellSites, Motif.toDict, List.map_cons, List.map_nil, List.append_nil,
      List.cons_append, List.nil_append, Bool.false_eq_true, if_false]
    congr 2
    · funext i; fin_cases i <;> simp [vecOf, skew, dotProduct, Fin.sum_univ_two]
    · congr 1; funext i; fin_cases i <;> simp [vecOf, skew, dotProduct, Fin.sum_univ_two]
  have a0 : Aligned (![0, 0] : Fin 2 → ℚ) := by
    intro i; fin_cases i
    · exact ⟨0, by simp⟩
    · exact ⟨0, by simp⟩
  have a1 : Aligned (![0, 1] : Fin 2 → ℚ) := by
    intro i; fin_cases i
    · exact ⟨0, by simp⟩
    · exact ⟨1000, by simp⟩
  have a2 : Aligned (skew.point ![0, 1]) := by
    intro i; fin_cases i
    · exact ⟨500, by norm_num [point, skew, Fin.sum_univ_two]⟩
    · exact ⟨1000, by norm_num [point, skew, Fin.sum_univ_two]⟩
  have hno : ∀ x y : Fin 2 → ℚ, Aligned x → Aligned y → ¬ (skew.scaled ![1, 2]).Image x y →
      keyOf (skew.scaled ![1, 2]) x ≠ keyOf (skew.scaled ![1, 2]) y := by
    intro x y hx hy hi e
    exact hi ((samePlace_iff_image hr (aligned_scaled hal _) hx hy).1 ((keyOf_eq_iff hr).1 e))
  have n01 : ¬ (skew.scaled ![1, 2]).Image ![0, 0] ![0, 1] := by
    rintro ⟨m, -, e⟩
    have e1 := congrFun e 1
    simp [point, scaled, skew, Fin.sum_univ_two] at e1
    have : (m 1 * 2 : ℤ) + 1 = 0 := by
      have e2 : (m 1 * 2 : ℚ) + 1 = 0 := by linarith
      exact_mod_cast e2
    omega
  have n02 : ¬ (skew.scaled ![1, 2]).Image ![0, 0] (skew.point ![0, 1]) := by
    rintro ⟨m, -, e⟩
    have e1 := congrFun e 1
    simp [point, scaled, skew, Fin.sum_univ_two] at e1
    have : (m 1 * 2 : ℤ) + 1 = 0 := by
      have e2 : (m 1 * 2 : ℚ) + 1 = 0 := by linarith
      exact_mod_cast e2
    omega
  have n12 : ¬ (skew.scaled ![1, 2]).Image ![0, 1] (skew.point ![0, 1]) := by
    rintro ⟨m, -, e⟩
    have e1 := congrFun e 1
    have e0 := congrFun e 0
    simp [point, scaled, skew, Fin.sum_univ_two] at e1 e0
    rw [e1] at e0
    have : (2 * m 0 : ℚ) = -1 := by linarith
    have : (2 * m 0 : ℤ) = -1 := by exact_mod_cast this
    omega
  have hD : Distinct (skew.scaled ![1, 2]) (tiling skew ![1, 2] (.plain [![0, 0]]) false) := by
    rw [ht, Distinct]
    simpa using hno _ _ a0 a1 n01
  refine ⟨_, (buildFrom_eq _ _ _ _).1 hD, ?_⟩
  rw [siteAt_built_none hD, ht]
  intro c hc
  simp only [List.mem_cons, List.not_mem_nil, or_false] at hc
  rcases hc with rfl | rfl
  · exact hno _ _ a0 a2 n02
  · exact hno _ _ a1 a2 n12

/-! ### C50 -/

/-- C50: an int size means that many cells along every axis; a tuple means one count per axis and must have one entry per axis,
otherwise ValueError. -/
theorem C50_size (L : Lattice K d) (m : Motif K d) (frac : Bool) :
    (∀ k, build L m frac (.int k) = build L m frac (.tup (List.replicate d k))) ∧
    (∀ n : Fin d → ℤ, build L m frac (.tup (List.ofFn n)) = buildFrom L n m frac) ∧
    (∀ l : List ℤ, l.length ≠ d → build L m frac (.tup l) = .error .valueError) := by
  refine ⟨fun k => ?_, fun n => ?_, fun l hl => ?_⟩
  · simp only [build]
    rw [dif_pos (by simp)]
    congr 1
    funext i; simp
  · simp only [build]
    rw [dif_pos (by simp)]
    congr 1
    funext i; simp [Fin.cast]
  · simp only [build, dif_neg hl]

end Structure
end Pyl
