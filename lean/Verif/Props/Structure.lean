import Verif.Lemmas.Structure
import Verif.Props.Lattice
import Mathlib.Algebra.BigOperators.Group.List.Basic
/-
C43-C48: periodic structures.
-/
set_option autoImplicit false
set_option linter.unusedSectionVars false

namespace Pyl
namespace Structure
open Pyl.Lattice
variable {K : Type} [Field K] [LinearOrder K] [IsStrictOrderedRing K] [FloorRing K] {d : ℕ} {L : Lattice K d}

/-! ### C43 -/

/-- C43: after any history of `add_site` calls, successful or not: the successful ones returned 0, 1, 2, ... in order;
`site_ids` is `[0..n-1]`; site `k` has the class given to the call that returned `k`, its location rounded to thousandths,
and id `k`; no other id is known. -/
theorem C43_ids (h : L.Regular) (ops : List (String × (Fin d → K))) :
    let r := history (new L) ops
    r.2.length = ops.length ∧
    r.2.filterMap Except.toOption = List.range r.1.siteIds.length ∧
    r.1.siteIds = List.range r.1.siteIds.length ∧
    (∀ (j k : ℕ) (c : String) (x : Fin d → K), ops[j]? = some (c, x) → r.2[j]? = some (.ok k) →
      ∃ y, L.Stored x y ∧ r.1.getSite k = some ⟨c, y, k⟩ ∧ r.1.siteClass k = .ok c ∧ r.1.siteLocation k = .ok y) ∧
    (∀ k, r.1.getSite k = none ↔ r.1.siteIds.length ≤ k) := by
  obtain ⟨acc, h1, h2, h3, h4, h5, h6, h7, h8⟩ := history_new L ops
  simp only
  rw [h1]
  have hl : (built L acc).siteIds.length = acc.length := by simp [built]
  refine ⟨h3, by rw [hl, h4], by rw [hl]; rfl, fun j k c x hj hk => ?_, fun k => ?_⟩
  · have hc : acc[k]? = some (c, x) := (h5 j k hk).trans hj
    have hg : (built L acc).getSite k = some ⟨c, rounded (L.periodized x), k⟩ := by rw [getSite_built, hc]; rfl
    exact ⟨_, (stored_iff h).2 rfl, hg, by rw [siteClass, hg], by rw [siteLocation, hg]⟩
  · rw [getSite_built, hl]; simp

/-! ### C44 -/

/-- C44: in any history, a call raises (AssertionError) iff an earlier successful call had a location with the same rounded
position in the cell. -/
theorem C44_occupied (h : L.Regular) (ops : List (String × (Fin d → K))) :
    let r := history (new L) ops
    ∀ (j : ℕ) (c : String) (x : Fin d → K), ops[j]? = some (c, x) →
      (r.2[j]? = some (.error .assertionError) ↔
        ∃ (i k : ℕ) (c' : String) (x' : Fin d → K), i < j ∧ ops[i]? = some (c', x') ∧ r.2[i]? = some (.ok k) ∧ L.SamePlace x' x) ∧
      ((∃ k, r.2[j]? = some (.ok k)) ↔ ¬ r.2[j]? = some (.error .assertionError)) := by
  obtain ⟨acc, h1, h2, h3, h4, h5, h6, h7, h8⟩ := history_new L ops
  intro r j c x hj
  constructor
  · rw [h8 j (c, x) hj]
    constructor
    · rintro ⟨i, ⟨c', x'⟩, k, a, b, e, f⟩
      exact ⟨i, k, c', x', a, b, e, (keyOf_eq_iff h).1 f⟩
    · rintro ⟨i, k, c', x', a, b, e, f⟩
      exact ⟨i, (c', x'), k, a, b, e, (keyOf_eq_iff h).2 f⟩
  · have hjl : j < r.2.length := by rw [h3]; exact (List.getElem?_eq_some_iff.1 hj).1
    have hget := List.getElem?_eq_getElem hjl
    cases hr : r.2[j] with
    | ok k => rw [hr] at hget; simp [hget]
    | error e =>
      rw [hr] at hget
      have := h6 j e hget
      subst this
      simp [hget]

/-- C44: a call that raises changes nothing. -/
theorem C44_unchanged (s : Structure K d) (c : String) (x : Fin d → K) (e : Err) (he : (s.addSite c x).2 = .error e) :
    e = .assertionError ∧ (s.addSite c x).1 = s := by
  unfold addSite at he ⊢
  simp only at he ⊢
  split at he
  · cases he
  · rename_i hc
    rw [if_neg hc]
    exact ⟨by injection he with he; exact he.symm, rfl⟩

/-- C44: so the locations of different sites never have the same rounded position in the cell. -/
theorem C44_distinct (h : L.Regular) (ops : List (String × (Fin d → K))) (i j k l : ℕ) (c c' : String) (x y : Fin d → K)
    (hi : ops[i]? = some (c, x)) (hj : ops[j]? = some (c', y)) (hk : (history (new L) ops).2[i]? = some (.ok k))
    (hl : (history (new L) ops).2[j]? = some (.ok l)) (hp : L.SamePlace x y) : k = l := by
  obtain ⟨acc, h1, h2, h3, h4, h5, h6, h7, h8⟩ := history_new L ops
  have ek : acc[k]? = some (c, x) := (h5 i k hk).trans hi
  have el : acc[l]? = some (c', y) := (h5 j l hl).trans hj
  have e := (keyOf_eq_iff h).2 hp
  obtain ⟨hk', ek'⟩ := List.getElem?_eq_some_iff.1 ek
  obtain ⟨hl', el'⟩ := List.getElem?_eq_some_iff.1 el
  refine (List.Nodup.getElem_inj_iff h2 (i := k) (j := l) (hi := by simpa using hk') (hj := by simpa using hl')).1 ?_
  rw [List.getElem_map, List.getElem_map, ek', el']
  exact e

/-- No coordinate of the image in the cell is half-way between two thousandths. -/
def Untied (L : Lattice K d) (x : Fin d → K) : Prop := ∀ i, ¬ Tie (1000 * L.periodized x i)

theorem keyOf_of_untied {x : Fin d → K} (hu : Untied L x) : keyOf L x = fun i => rounded (L.periodized x) i + 1 / 1000 := by
  funext i
  have := roundHalfEven_add_int (hu i) 1
  push_cast at this
  rw [keyOf_apply, this, rounded, roundTo, PRECISION, mul_comm (1000 : K)]
  push_cast
  ring

/-- C44 (the part that holds for the stored locations): sites whose exact locations are not half-way between thousandths have
different stored locations.  Missing: half-way locations (`C44_false`). -/
theorem C44_stored_partial (ops : List (String × (Fin d → K))) (i j k l : ℕ) (c c' : String) (x y : Fin d → K) (z : Fin d → K)
    (hi : ops[i]? = some (c, x)) (hj : ops[j]? = some (c', y)) (hk : (history (new L) ops).2[i]? = some (.ok k))
    (hl : (history (new L) ops).2[j]? = some (.ok l)) (h : L.Regular) (hx : Untied L x) (hy : Untied L y)
    (hz : (history (new L) ops).1.siteLocation k = .ok z) (hz' : (history (new L) ops).1.siteLocation l = .ok z) : k = l := by
  have h43 := (C43_ids h ops).2.2.2.1
  obtain ⟨p, hp, -, -, hp'⟩ := h43 i k c x hi hk
  obtain ⟨q, hq, -, -, hq'⟩ := h43 j l c' y hj hl
  rw [hz] at hp'; rw [hz'] at hq'
  injection hp' with hp'; injection hq' with hq'
  subst hp'
  rw [stored_iff h] at hp hq
  refine C44_distinct h ops i j k l c c' x y hi hj hk hl ((keyOf_eq_iff h).1 ?_)
  rw [keyOf_of_untied hx, keyOf_of_untied hy, ← hp, ← hq, hq']

/-- The unit interval, periodic. -/
def unitCell : Lattice ℚ 1 := ⟨!![1], fun _ => true⟩
theorem unitCell_regular : unitCell.Regular := regular_of_isUnit (by simp [unitCell])

/-- Points in `[0, 1)` are not moved. -/
theorem unitCell_periodized {q : ℚ} (h0 : 0 ≤ q) (h1 : q < 1) : unitCell.periodized ![q] = ![q] := by
  refine InCell.periodized unitCell_regular ⟨![q], ?_, fun i _ => ?_⟩
  · funext i; fin_cases i; simp [point, unitCell]
  · fin_cases i; exact ⟨h0, h1⟩

theorem unitCell_keyOf {q : ℚ} (h0 : 0 ≤ q) (h1 : q < 1) : keyOf unitCell ![q] = ![(roundHalfEven (1000 * q + 1) : ℚ) / 1000] := by
  funext i
  rw [keyOf_apply, unitCell_periodized h0 h1]
  fin_cases i; rfl

theorem unitCell_stored {q : ℚ} (h0 : 0 ≤ q) (h1 : q < 1) :
    rounded (unitCell.periodized ![q]) = ![(roundHalfEven (1000 * q) : ℚ) / 1000] := by
  funext i
  rw [unitCell_periodized h0 h1]
  fin_cases i
  simp [rounded, roundTo, PRECISION, mul_comm]

/-- C44 is false for the stored locations: sites added at 0 and 0.0005 are both stored at 0. -/
theorem C44_false : unitCell.Regular ∧
    let r := history (new unitCell) [("A", ![0]), ("A", ![1/2000])]
    r.2 = [.ok 0, .ok 1] ∧ r.1.siteLocation 0 = .ok ![0] ∧ r.1.siteLocation 1 = .ok ![0] := by
  refine ⟨unitCell_regular, ?_⟩
  have r1 : roundHalfEven (1000 * 0 + 1 : ℚ) = 1 := roundHalfEven_of (.inl (by norm_num))
  have r2 : roundHalfEven (1000 * (1/2000) + 1 : ℚ) = 2 := roundHalfEven_of (.inr (by norm_num))
  have r3 : roundHalfEven (1000 * 0 : ℚ) = 0 := roundHalfEven_of (.inl (by norm_num))
  have r4 : roundHalfEven (1000 * (1/2000) : ℚ) = 0 := roundHalfEven_of (.inr (by norm_num))
  have k1 : keyOf unitCell ![0] = ![1/1000] := by rw [unitCell_keyOf (by norm_num) (by norm_num), r1]; norm_num
  have k2 : keyOf unitCell ![1/2000] = ![2/1000] := by rw [unitCell_keyOf (by norm_num) (by norm_num), r2]; norm_num
  have s1 : rounded (unitCell.periodized ![0]) = ![0] := by rw [unitCell_stored (by norm_num) (by norm_num), r3]; norm_num
  have s2 : rounded (unitCell.periodized ![1/2000]) = ![0] := by rw [unitCell_stored (by norm_num) (by norm_num), r4]; norm_num
  have hne : (![2/1000] : Fin 1 → ℚ) ≠ ![1/1000] := by
    intro e; have := congrFun e 0; norm_num at this
  simp only [history]
  rw [← built_nil, addSite_built]
  simp only [List.map_nil, List.not_mem_nil, if_false, List.nil_append]
  rw [addSite_built]
  simp only [List.map_cons, List.map_nil, List.mem_singleton, k1, k2, if_neg hne, List.cons_append, List.nil_append]
  refine ⟨rfl, ?_, ?_⟩
  · simp [siteLocation, getSite_built, s1]
  · simp only [siteLocation, getSite_built, List.getElem?_cons_succ, List.getElem?_cons_zero, Option.map_some, s2]

/-! ### C45 -/

/-- C45: after any history, `site_at(x)` is the site of the successful call whose location has the rounded position of `x`,
and None if there is no such call. -/
theorem C45_site_at (h : L.Regular) (ops : List (String × (Fin d → K))) (x : Fin d → K) :
    let r := history (new L) ops
    (∀ t, r.1.siteAt x = some t ↔ r.1.getSite t.id = some t ∧
      ∃ (j : ℕ) (c : String) (y : Fin d → K), ops[j]? = some (c, y) ∧ r.2[j]? = some (.ok t.id) ∧ L.SamePlace y x) ∧
    (r.1.siteAt x = none ↔ ∀ (j k : ℕ) (c : String) (y : Fin d → K), ops[j]? = some (c, y) → r.2[j]? = some (.ok k) → ¬ L.SamePlace y x) := by
  obtain ⟨acc, h1, h2, h3, h4, h5, h6, h7, h8⟩ := history_new L ops
  simp only
  rw [h1]
  constructor
  · intro t
    rw [siteAt_built h2]
    constructor
    · rintro ⟨c, hc, hk, ht⟩
      obtain ⟨j, hj, hj'⟩ := h7 _ _ hc
      refine ⟨?_, j, c.1, c.2, hj', hj, (keyOf_eq_iff h).1 hk⟩
      rw [getSite_built, hc]
      exact congrArg some ht.symm
    · rintro ⟨hg, j, c, y, hj, hj', hp⟩
      have hc : acc[t.id]? = some (c, y) := (h5 j _ hj').trans hj
      refine ⟨_, hc, (keyOf_eq_iff h).2 hp, ?_⟩
      rw [getSite_built, hc] at hg
      injection hg with hg
      exact hg.symm
  · rw [siteAt_built_none h2]
    constructor
    · intro hn j k c y hj hk hp
      have hc : acc[k]? = some (c, y) := (h5 j k hk).trans hj
      exact hn _ (List.mem_of_getElem? hc) ((keyOf_eq_iff h).2 hp)
    · intro hn c hc e
      obtain ⟨k, hk⟩ := List.mem_iff_getElem?.1 hc
      obtain ⟨j, hj, hj'⟩ := h7 _ _ hk
      exact hn j k c.1 c.2 hj' hj ((keyOf_eq_iff h).1 e)

/-- C45: a site is found at the location it was added with and at all its periodic images, whatever was added before and
after. -/
theorem C45_images (h : L.Regular) (before after : List (String × (Fin d → K))) (c : String) (x x' : Fin d → K) (k : ℕ)
    (hk : (history (new L) (before ++ (c, x) :: after)).2[before.length]? = some (.ok k)) (hi : L.Image x' x) :
    let s := (history (new L) (before ++ (c, x) :: after)).1
    ∃ y, L.Stored x y ∧ s.siteAt x' = some ⟨c, y, k⟩ ∧ s.idAt x' = some k ∧ s.classAt x' = some c := by
  have hop : (before ++ (c, x) :: after)[before.length]? = some (c, x) := by simp
  obtain ⟨y, hy, hg, -, -⟩ := (C43_ids h (before ++ (c, x) :: after)).2.2.2.1 _ k c x hop hk
  have hs := ((C45_site_at h (before ++ (c, x) :: after) x').1 ⟨c, y, k⟩).2
    ⟨hg, _, c, x, hop, hk, (samePlace_of_image h hi).symm⟩
  exact ⟨y, hy, hs, by rw [idAt, hs]; rfl, by rw [classAt, hs]; rfl⟩

/-! ### C46 -/

/-- C46 (the part that holds): a site is found at its stored location if that location is in the cell and the location it was
added with is not half-way between thousandths.  Missing: stored locations that rounding moved out of the cell, and half-way
locations (`C46_false`). -/
theorem C46_stored_partial (h : L.Regular) (ops : List (String × (Fin d → K))) (j k : ℕ) (c : String) (x y : Fin d → K)
    (hj : ops[j]? = some (c, x)) (hk : (history (new L) ops).2[j]? = some (.ok k))
    (hy : (history (new L) ops).1.siteLocation k = .ok y) (hu : Untied L x) (hc : L.InCell y) :
    (history (new L) ops).1.siteAt y = some ⟨c, y, k⟩ := by
  obtain ⟨y', hs, hg, -, hy'⟩ := (C43_ids h ops).2.2.2.1 j k c x hj hk
  rw [hy] at hy'; injection hy' with hy'; subst hy'
  refine ((C45_site_at h ops y).1 ⟨c, y, k⟩).2 ⟨hg, j, c, x, hj, hk, (keyOf_eq_iff h).1 ?_⟩
  rw [keyOf_of_untied hu]
  rw [stored_iff h] at hs
  funext i
  rw [keyOf_apply, hc.periodized h, ← hs]
  obtain ⟨m, hm⟩ : ∃ m : ℤ, 1000 * y i = m := by
    refine ⟨roundHalfEven (L.periodized x i * 1000), ?_⟩
    rw [hs, rounded, roundTo, PRECISION]
    push_cast
    rw [mul_div_cancel₀ _ (by norm_num)]
  rw [hm]
  have := roundHalfEven_int (K := K) (m + 1)
  push_cast at this
  rw [this]
  push_cast
  rw [← hm]
  field_simp

/-- C46 for structures on the grid of thousandths: if all lattice vectors and the location are whole thousandths, the site is
found at its stored location, which is the location's image in the cell. -/
theorem aligned_periodized (h : L.Regular) (hL : ∀ i, Aligned (L.mat i)) {x : Fin d → K} (hx : Aligned x) : Aligned (L.periodized x) := by
  obtain ⟨n, -, e⟩ := periodized_isImage h x
  have e' : L.periodized x = x + L.point fun i => (n i : K) := by rw [← e]; abel
  intro j
  obtain ⟨m, hm⟩ := hx j
  choose q hq using fun i => hL i j
  refine ⟨m + ∑ i, n i * q i, ?_⟩
  rw [e', Pi.add_apply, mul_add, hm, point, Finset.mul_sum]
  push_cast
  congr 1
  refine Finset.sum_congr rfl fun i _ => ?_
  rw [← hq i]; ring

theorem aligned_untied (h : L.Regular) (hL : ∀ i, Aligned (L.mat i)) {x : Fin d → K} (hx : Aligned x) : Untied L x := by
  intro i
  obtain ⟨m, hm⟩ := aligned_periodized h hL hx i
  rw [hm, not_tie_iff]
  simp

theorem aligned_rounded {x : Fin d → K} (hx : Aligned x) : rounded x = x := by
  funext i
  obtain ⟨m, hm⟩ := hx i
  exact roundTo_of_mul_int (by decide) (m := m) (by rw [mul_comm, PRECISION]; exact_mod_cast hm)

/-- C46 on structures whose lattice vectors and locations are whole thousandths: every site is found at its stored location,
which is exactly the image in the cell of the location it was added with. -/
theorem C46_aligned_partial (h : L.Regular) (hL : ∀ i, Aligned (L.mat i)) (ops : List (String × (Fin d → K)))
    (hops : ∀ op ∈ ops, Aligned op.2) (j k : ℕ) (c : String) (x : Fin d → K)
    (hj : ops[j]? = some (c, x)) (hk : (history (new L) ops).2[j]? = some (.ok k)) :
    ∃ y, (history (new L) ops).1.siteLocation k = .ok y ∧ L.Image y x ∧ L.InCell y ∧
      (history (new L) ops).1.siteAt y = some ⟨c, y, k⟩ := by
  obtain ⟨y, hs, -, -, hy⟩ := (C43_ids h ops).2.2.2.1 j k c x hj hk
  have hx := hops _ (List.mem_of_getElem? hj)
  have e : y = L.periodized x := by rw [(stored_iff h).1 hs]; exact aligned_rounded (aligned_periodized h hL hx)
  refine ⟨y, hy, e ▸ periodized_isImage h x, e ▸ inCell_periodized h x, ?_⟩
  exact C46_stored_partial h ops j k c x y hj hk hy (aligned_untied h hL hx) (e ▸ inCell_periodized h x)

theorem unitCell_periodized_one : unitCell.periodized ![1] = ![0] := by
  have : unitCell.periodized ![1] = unitCell.periodized ![0] := by
    refine periodized_image unitCell_regular ⟨fun _ => 1, fun i hi => by simp [unitCell] at hi, ?_⟩
    funext i; fin_cases i; simp [point, unitCell]
  rw [this, unitCell_periodized (by norm_num) (by norm_num)]

/-- C46 is false: a site added at 0.9996 is stored at 1.0 and is not found there. -/
theorem C46_false : unitCell.Regular ∧
    let r := history (new unitCell) [("A", ![9996/10000])]
    r.2 = [.ok 0] ∧ r.1.siteLocation 0 = .ok ![1] ∧ r.1.siteAt ![1] = none := by
  refine ⟨unitCell_regular, ?_⟩
  have r1 : roundHalfEven (1000 * (9996/10000) + 1 : ℚ) = 1001 := roundHalfEven_of (.inl (by norm_num [abs_lt]))
  have r3 : roundHalfEven (1000 * (9996/10000) : ℚ) = 1000 := roundHalfEven_of (.inl (by norm_num [abs_lt]))
  have r0 : roundHalfEven (1000 * 0 + 1 : ℚ) = 1 := roundHalfEven_of (.inl (by norm_num))
  have k1 : keyOf unitCell ![9996/10000] = ![1001/1000] := by rw [unitCell_keyOf (by norm_num) (by norm_num), r1]; norm_num
  have k2 : keyOf unitCell ![1] = ![1/1000] := by
    funext i; rw [keyOf_apply, unitCell_periodized_one]; fin_cases i
    simp only [Matrix.cons_val_fin_one]
    rw [r0]; norm_num
  have s1 : rounded (unitCell.periodized ![9996/10000]) = ![1] := by
    rw [unitCell_stored (by norm_num) (by norm_num), r3]; norm_num
  simp only [history]
  rw [← built_nil, addSite_built]
  simp only [List.map_nil, List.not_mem_nil, if_false, List.nil_append]
  refine ⟨rfl, by simp [siteLocation, getSite_built, s1], ?_⟩
  rw [siteAt_built_none (by simp [Distinct])]
  intro c hc
  rw [List.mem_singleton] at hc
  subst hc
  rw [k1, k2]
  intro e
  have := congrFun e 0
  norm_num at this

/-! ### C48 -/

/-- C48: `sites()` lists all sites in id order, `sites(c)` those of class `c` in the same order; `all_site_classes` lists every
occurring class exactly once; and the class sizes add up. -/
theorem C48_classes (L : Lattice K d) (ops : List (String × (Fin d → K))) :
    let s := (history (new L) ops).1
    (s.sitesOf none).map Site.id = s.siteIds ∧ (∀ t, t ∈ s.sitesOf none ↔ s.getSite t.id = some t) ∧
    (∀ c t, t ∈ s.sitesOf (some c) ↔ s.getSite t.id = some t ∧ t.cls = c) ∧
    (∀ c, ((s.sitesOf (some c)).map Site.id).Pairwise (· < ·)) ∧
    s.allSiteClasses.Nodup ∧ (∀ c, c ∈ s.allSiteClasses ↔ ∃ i, s.siteClass i = .ok c) ∧
    (s.allSiteClasses.map fun c => (s.sitesOf (some c)).length).sum = s.siteIds.length := by
  obtain ⟨acc, h1, -⟩ := history_new L ops
  simp only
  rw [h1]
  have hid : ((built L acc).sitesOf none).map Site.id = (built L acc).siteIds := by
    simp only [sitesOf, built, Dict.values, List.map_map, Function.comp_def]
    exact (List.zipIdx_map_snd 0 acc).trans List.range_eq_range'.symm
  have hmem : ∀ t, t ∈ (built L acc).sitesOf none ↔ (built L acc).getSite t.id = some t := by
    intro t
    have hwf : Dict.WF (built L acc).sites := by rw [Dict.WF, keys_built_sites]; exact List.nodup_range
    rw [getSite, ← Dict.mem_iff_get? hwf]
    simp only [sitesOf, Dict.values, List.mem_map]
    constructor
    · rintro ⟨⟨k, u⟩, hku, rfl⟩
      obtain ⟨c, -, e⟩ := List.mem_map.1 hku
      injection e with e1 e2
      subst e1; subst e2
      exact hku
    · intro hk; exact ⟨_, hk, rfl⟩
  have hmem' : ∀ c t, t ∈ (built L acc).sitesOf (some c) ↔ (built L acc).getSite t.id = some t ∧ t.cls = c := by
    intro c t
    rw [← hmem]
    simp [sitesOf]
  refine ⟨hid, hmem, hmem', fun c => ?_, List.nodup_dedup _, fun c => ?_, ?_⟩
  · have hsub : ((built L acc).sitesOf (some c)).Sublist ((built L acc).sitesOf none) := List.filter_sublist
    refine (List.Pairwise.sublist (hsub.map Site.id) ?_)
    rw [hid]
    exact List.pairwise_lt_range
  · rw [allSiteClasses, List.mem_dedup, List.mem_map]
    constructor
    · rintro ⟨t, ht, rfl⟩
      refine ⟨t.id, ?_⟩
      rw [siteClass, (hmem t).1 ht]
    · rintro ⟨i, hi⟩
      rw [siteClass] at hi
      cases hg : (built L acc).getSite i with
      | none => rw [hg] at hi; cases hi
      | some t =>
        rw [hg] at hi
        injection hi with hi
        have : t.id = i := by
          rw [getSite_built] at hg
          cases ha : acc[i]? with
          | none => rw [ha] at hg; cases hg
          | some u => rw [ha] at hg; injection hg with hg; rw [← hg]
        exact ⟨t, (hmem t).2 (by rw [this, hg]), hi⟩
  · have hlen : (built L acc).siteIds.length = (((built L acc).sitesOf none).map Site.cls).length := by
      rw [← hid]; simp
    rw [hlen]
    have hcount : ∀ c, ((built L acc).sitesOf (some c)).length = (((built L acc).sitesOf none).map Site.cls).count c := by
      intro c
      simp only [sitesOf]
      rw [List.count_eq_countP, List.countP_map, List.countP_eq_length_filter]
      congr 1
    simp only [hcount, allSiteClasses]
    exact List.sum_map_count_dedup_eq_length _

/-! ### Examples: a skew cell with an open direction, sites of two classes, one call that fails because its location is an
image of an earlier one. -/

theorem demo_samePlace : demo.SamePlace (demo.point ![1/4, 5/2]) (demo.point ![-3/4, 5/2]) := by
  refine samePlace_of_image demo_regular ⟨![1, 0], ?_, ?_⟩
  · intro i hi
    fin_cases i
    · simp [demo] at hi
    · simp
  · rw [← toCart_eq_point, ← toCart_eq_point, ← toCart_eq_point, ← toCart_sub]
    congr 1
    funext i; fin_cases i <;> simp
    norm_num

example : (history (new demo) [("A", demo.point ![1/4, 5/2]), ("B", demo.point ![-3/4, 5/2])]).2 =
    [.ok 0, .error .assertionError] := by
  simp only [history]
  rw [← built_nil, addSite_built]
  simp only [List.map_nil, List.not_mem_nil, if_false, List.nil_append]
  rw [addSite_built]
  rw [if_pos (by rw [(keyOf_eq_iff demo_regular).2 demo_samePlace.symm]; simp)]
  rfl

/-- Whole-thousandth lattices exist in every interesting shape. -/
example : ∀ i, Aligned (demo.mat i) := by
  intro i j
  fin_cases i <;> fin_cases j <;> simp [demo]
  · exact ⟨1000, by norm_num⟩
  · exact ⟨0, by norm_num⟩
  · exact ⟨500, by norm_num⟩
  · exact ⟨1000, by norm_num⟩

end Structure
end Pyl
