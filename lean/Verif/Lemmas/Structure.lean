import Verif.Spec.Structure
import Verif.Lemmas.Lattice
import Verif.Lemmas.Dict
import Verif.Lemmas.Json
import Mathlib.Data.List.OfFn
import Mathlib.Tactic.Linarith
import Mathlib.Tactic.FieldSimp
set_option autoImplicit false
set_option linter.unusedSectionVars false

namespace Pyl
section
variable {K : Type} [Field K] [LinearOrder K] [IsStrictOrderedRing K] [FloorRing K] {d : ℕ}

theorem nearestEven_iff {x : K} {m : ℤ} : NearestEven x m ↔ roundHalfEven x = m := roundHalfEven_eq_iff.symm

theorem nearestOdd_iff {x : K} {m : ℤ} : NearestOdd x m ↔ roundHalfEven (x + 1) = m + 1 := by
  rw [roundHalfEven_eq_iff, NearestOdd, Nearest]
  have e : x + 1 - ((m + 1 : ℤ) : K) = x - m := by push_cast; ring
  rw [e]
  have : m % 2 = 1 ↔ (m + 1) % 2 = 0 := by omega
  rw [this]

namespace Lattice
variable {L : Lattice K d}

theorem InCell.periodized (h : L.Regular) {x : Fin d → K} (hx : L.InCell x) : L.periodized x = x := by
  obtain ⟨f, rfl, hf⟩ := hx
  refine periodized_eq_self h fun i hi => ?_
  rw [toFrac_point h]
  exact hf i hi

theorem inCell_periodized (_ : L.Regular) (x : Fin d → K) : L.InCell (L.periodized x) := by
  refine ⟨periodizeFrac L.periodic (L.toFrac x), rfl, fun i hi => ?_⟩
  simp only [periodizeFrac, hi, if_true, mul_one]
  exact ⟨Int.fract_nonneg _, Int.fract_lt_one _⟩

/-- The image in the cell is the periodized point. -/
theorem image_inCell_iff (h : L.Regular) {x y : Fin d → K} : L.Image y x ∧ L.InCell y ↔ y = L.periodized x := by
  constructor
  · rintro ⟨h1, h2⟩
    rw [← h2.periodized h, periodized_image h h1]
  · rintro rfl
    exact ⟨periodized_isImage h x, inCell_periodized h x⟩

theorem place_iff (h : L.Regular) {x : Fin d → K} {m : Fin d → ℤ} :
    L.Place x m ↔ ∀ i, roundHalfEven (1000 * L.periodized x i + 1) = m i + 1 := by
  simp only [Place, ← nearestOdd_iff]
  constructor
  · rintro ⟨y, h1, h2, h3⟩
    rwa [← (image_inCell_iff h).1 ⟨h1, h2⟩]
  · intro h1
    exact ⟨_, ((image_inCell_iff h).2 rfl).1, ((image_inCell_iff h).2 rfl).2, h1⟩

theorem place_exists (h : L.Regular) (x : Fin d → K) : ∃ m, L.Place x m :=
  ⟨fun i => roundHalfEven (1000 * L.periodized x i + 1) - 1, (place_iff h).2 fun i => by ring⟩

theorem place_unique (h : L.Regular) {x : Fin d → K} {m m' : Fin d → ℤ} (h1 : L.Place x m) (h2 : L.Place x m') : m = m' := by
  funext i
  have := ((place_iff h).1 h1 i).symm.trans ((place_iff h).1 h2 i)
  omega

theorem SamePlace.refl (h : L.Regular) (x : Fin d → K) : L.SamePlace x x := by
  obtain ⟨m, hm⟩ := place_exists h x
  exact ⟨m, hm, hm⟩

theorem SamePlace.symm {x y : Fin d → K} (h : L.SamePlace x y) : L.SamePlace y x := by
  obtain ⟨m, h1, h2⟩ := h
  exact ⟨m, h2, h1⟩

theorem samePlace_of_image (h : L.Regular) {x y : Fin d → K} (hi : L.Image x y) : L.SamePlace x y := by
  obtain ⟨m, hm⟩ := place_exists h x
  refine ⟨m, hm, ?_⟩
  rw [place_iff h, ← periodized_image h hi, ← place_iff h]
  exact hm

theorem stored_iff (h : L.Regular) {x y : Fin d → K} :
    L.Stored x y ↔ y = Structure.rounded (L.periodized x) := by
  have key : (∃ z, L.Image z x ∧ L.InCell z ∧ ∀ i, ∃ m : ℤ, NearestEven (1000 * z i) m ∧ y i = m / 1000) ↔
      ∀ i, ∃ m : ℤ, NearestEven (1000 * L.periodized x i) m ∧ y i = m / 1000 := by
    constructor
    · rintro ⟨z, h1, h2, h3⟩
      rwa [← (image_inCell_iff h).1 ⟨h1, h2⟩]
    · intro h1
      exact ⟨_, ((image_inCell_iff h).2 rfl).1, ((image_inCell_iff h).2 rfl).2, h1⟩
  rw [Stored, key]
  constructor
  · intro h1
    funext i
    obtain ⟨m, h2, h3⟩ := h1 i
    rw [nearestEven_iff] at h2
    rw [h3, Structure.rounded, roundTo, PRECISION, mul_comm]
    push_cast
    rw [h2]
  · rintro rfl i
    refine ⟨roundHalfEven (1000 * L.periodized x i), nearestEven_iff.2 rfl, ?_⟩
    rw [Structure.rounded, roundTo, PRECISION, mul_comm]
    push_cast
    rfl

theorem SamePlace.trans (h : L.Regular) {x y z : Fin d → K} (h1 : L.SamePlace x y) (h2 : L.SamePlace y z) : L.SamePlace x z := by
  obtain ⟨m, a, b⟩ := h1
  obtain ⟨m', a', b'⟩ := h2
  rw [place_unique h b a'] at a
  exact ⟨m', a, b'⟩

end Lattice

namespace Structure
open Pyl.Lattice
variable {L : Lattice K d}

/-- The lookup key of a location (`transformed` only needs the lattice). -/
noncomputable def keyOf (L : Lattice K d) (x : Fin d → K) : Fin d → K := withOffset (L.periodized x)

theorem keyOf_apply (L : Lattice K d) (x : Fin d → K) (i : Fin d) :
    keyOf L x i = (roundHalfEven (1000 * L.periodized x i + 1) : K) / 1000 := by
  have e : (L.periodized x i + VEC_OFFSET) * ((1000 : ℕ) : K) = 1000 * L.periodized x i + 1 := by
    rw [VEC_OFFSET]; push_cast; ring
  simp only [keyOf, withOffset, rounded, roundTo, PRECISION]
  rw [e]
  push_cast
  rfl

theorem keyOf_eq_iff (h : L.Regular) {x y : Fin d → K} : keyOf L x = keyOf L y ↔ L.SamePlace x y := by
  constructor
  · intro e
    obtain ⟨m, hm⟩ := place_exists h x
    refine ⟨m, hm, (place_iff h).2 fun i => ?_⟩
    have := congrFun e i
    rw [keyOf_apply, keyOf_apply, div_left_inj' (by norm_num)] at this
    have : roundHalfEven (1000 * L.periodized x i + 1) = roundHalfEven (1000 * L.periodized y i + 1) := by exact_mod_cast this
    rw [← this, (place_iff h).1 hm i]
  · rintro ⟨m, h1, h2⟩
    funext i
    rw [keyOf_apply, keyOf_apply, (place_iff h).1 h1 i, (place_iff h).1 h2 i]

/-- The structure in which the listed sites have been added. -/
noncomputable def built (L : Lattice K d) (acc : List (String × (Fin d → K))) : Structure K d where
  lattice := L
  sites := acc.zipIdx.map fun ck => (ck.2, ⟨ck.1.1, rounded (L.periodized ck.1.2), ck.2⟩)
  siteIds := List.range acc.length
  lookup := acc.zipIdx.map fun ck => (keyOf L ck.1.2, ck.2)

theorem built_nil (L : Lattice K d) : built L [] = new L := rfl

@[simp] theorem built_lattice (L : Lattice K d) (acc) : (built L acc).lattice = L := rfl

theorem keys_built_sites (L : Lattice K d) (acc : List (String × (Fin d → K))) :
    Dict.keys (built L acc).sites = List.range acc.length := by
  simp only [built, Dict.keys, List.map_map, Function.comp_def]
  exact (List.zipIdx_map_snd 0 acc).trans List.range_eq_range'.symm

theorem keys_built_lookup (L : Lattice K d) (acc : List (String × (Fin d → K))) :
    Dict.keys (built L acc).lookup = acc.map fun c => keyOf L c.2 := by
  simp only [built, Dict.keys, List.map_map, Function.comp_def]
  conv_rhs => rw [← List.zipIdx_map_fst 0 acc, List.map_map]
  rfl

theorem set_fresh {κ ν : Type} [DecidableEq κ] (dd : Dict κ ν) (k : κ) (v : ν) (h : k ∉ Dict.keys dd) :
    Dict.set dd k v = dd ++ [(k, v)] := by
  induction dd with
  | nil => rfl
  | cons p dd ih =>
    rw [Dict.keys_cons, List.mem_cons, not_or] at h
    rw [Dict.set, if_neg (Ne.symm h.1), ih h.2]; rfl

theorem addSite_built (L : Lattice K d) (acc : List (String × (Fin d → K))) (c : String) (x : Fin d → K) :
    addSite (built L acc) c x =
      if keyOf L x ∈ acc.map (fun c => keyOf L c.2) then (built L acc, .error .assertionError)
      else (built L (acc ++ [(c, x)]), .ok acc.length) := by
  have hk : (built L acc).transformed x = keyOf L x := rfl
  have hlen : (built L acc).sites.length = acc.length := by simp [built]
  unfold addSite
  simp only [hk, hlen, Dict.get?_eq_none_iff, keys_built_lookup]
  by_cases hm : keyOf L x ∈ acc.map (fun c => keyOf L c.2)
  · rw [if_neg (not_not.2 hm), if_pos hm]
  · rw [if_pos hm, if_neg hm, set_fresh _ _ _ (by rw [keys_built_sites]; simp), set_fresh _ _ _ (by rw [keys_built_lookup]; exact hm)]
    simp [built, List.zipIdx_append, List.range_succ]

theorem getSite_built (L : Lattice K d) (acc : List (String × (Fin d → K))) (k : ℕ) :
    (built L acc).getSite k = (acc[k]?).map fun c => ⟨c.1, rounded (L.periodized c.2), k⟩ := by
  have hwf : Dict.WF (built L acc).sites := by rw [Dict.WF, keys_built_sites]; exact List.nodup_range
  rw [getSite]
  by_cases hk : k < acc.length
  · have : (k, (⟨acc[k].1, rounded (L.periodized acc[k].2), k⟩ : Site K d)) ∈ (built L acc).sites :=
      List.mem_map.2 ⟨(acc[k], k), by rw [List.mem_zipIdx_iff_getElem?]; simp, rfl⟩
    rw [Dict.get?_of_mem hwf this, List.getElem?_eq_getElem hk]; rfl
  · rw [Dict.get?_eq_none_iff.2 (by rw [keys_built_sites]; simpa using hk), List.getElem?_eq_none (by omega)]; rfl

/-- The sites have pairwise different keys. -/
def Distinct (L : Lattice K d) (acc : List (String × (Fin d → K))) : Prop := (acc.map fun c => keyOf L c.2).Nodup

theorem get?_lookup_built {acc : List (String × (Fin d → K))} (ha : Distinct L acc) (key : Fin d → K) (k : ℕ) :
    Dict.get? (built L acc).lookup key = some k ↔ ∃ c, acc[k]? = some c ∧ keyOf L c.2 = key := by
  have hwf : Dict.WF (built L acc).lookup := by rw [Dict.WF, keys_built_lookup]; exact ha
  rw [← Dict.mem_iff_get? hwf]
  simp only [built, List.mem_map, Prod.mk.injEq]
  constructor
  · rintro ⟨⟨c, k'⟩, h1, h2, h3⟩
    rw [List.mem_zipIdx_iff_getElem?] at h1
    simp only at h1 h2 h3
    subst h3
    exact ⟨c, h1, h2⟩
  · rintro ⟨c, h1, h2⟩
    exact ⟨(c, k), by rw [List.mem_zipIdx_iff_getElem?]; exact h1, h2, rfl⟩

theorem siteAt_built {acc : List (String × (Fin d → K))} (ha : Distinct L acc) (x : Fin d → K) (t : Site K d) :
    (built L acc).siteAt x = some t ↔
      ∃ c, acc[t.id]? = some c ∧ keyOf L c.2 = keyOf L x ∧ t = ⟨c.1, rounded (L.periodized c.2), t.id⟩ := by
  have hk : (built L acc).transformed x = keyOf L x := rfl
  unfold siteAt
  rw [hk]
  cases hg : Dict.get? (built L acc).lookup (keyOf L x) with
  | none =>
    simp only [reduceCtorEq, false_iff]
    rintro ⟨c, h1, h2, -⟩
    have := (get?_lookup_built ha (keyOf L x) t.id).2 ⟨c, h1, h2⟩
    rw [hg] at this; cases this
  | some k =>
    obtain ⟨c, h1, h2⟩ := (get?_lookup_built ha _ _).1 hg
    simp only [getSite_built, h1, Option.map_some, Option.some.injEq]
    constructor
    · rintro rfl
      exact ⟨c, h1, h2, rfl⟩
    · rintro ⟨c', h1', h2', h3'⟩
      have := (get?_lookup_built ha (keyOf L x) t.id).2 ⟨c', h1', h2'⟩
      rw [hg, Option.some.injEq] at this
      subst this
      rw [h1, Option.some.injEq] at h1'
      subst h1'
      exact h3'.symm

theorem siteAt_built_none {acc : List (String × (Fin d → K))} (ha : Distinct L acc) (x : Fin d → K) :
    (built L acc).siteAt x = none ↔ ∀ c ∈ acc, keyOf L c.2 ≠ keyOf L x := by
  constructor
  · intro hn c hc e
    obtain ⟨k, hk⟩ := List.mem_iff_getElem?.1 hc
    have := (siteAt_built ha x ⟨c.1, rounded (L.periodized c.2), k⟩).2 ⟨c, hk, e, rfl⟩
    rw [hn] at this; cases this
  · intro h
    cases hs : (built L acc).siteAt x with
    | none => rfl
    | some t =>
      obtain ⟨c, h1, h2, -⟩ := (siteAt_built ha x t).1 hs
      exact absurd h2 (h c (List.mem_of_getElem? h1))

/-- Every history adds a sublist of its operations; the outcomes say which. -/
theorem history_built (L : Lattice K d) (ops : List (String × (Fin d → K))) (acc : List (String × (Fin d → K)))
    (ha : Distinct L acc) :
    ∃ acc' : List (String × (Fin d → K)), (history (built L acc) ops).1 = built L (acc ++ acc') ∧ Distinct L (acc ++ acc') ∧
      (history (built L acc) ops).2.length = ops.length ∧
      (history (built L acc) ops).2.filterMap Except.toOption = (List.range acc'.length).map (acc.length + ·) ∧
      (∀ (j k : ℕ), (history (built L acc) ops).2[j]? = some (.ok k) → acc.length ≤ k ∧ (acc ++ acc')[k]? = ops[j]?) ∧
      (∀ (j : ℕ) (e : Err), (history (built L acc) ops).2[j]? = some (.error e) → e = .assertionError) ∧
      (∀ (k : ℕ) (c : String × (Fin d → K)), acc.length ≤ k → (acc ++ acc')[k]? = some c → ∃ j : ℕ, (history (built L acc) ops).2[j]? = some (.ok k) ∧ ops[j]? = some c) ∧
      (∀ (j : ℕ) (c : String × (Fin d → K)), ops[j]? = some c → ((history (built L acc) ops).2[j]? = some (.error .assertionError) ↔
        (keyOf L c.2 ∈ acc.map (fun c => keyOf L c.2)) ∨
          ∃ (j' : ℕ) (c' : String × (Fin d → K)) (k : ℕ), j' < j ∧ ops[j']? = some c' ∧ (history (built L acc) ops).2[j']? = some (.ok k) ∧ keyOf L c'.2 = keyOf L c.2)) := by
  induction ops generalizing acc with
  | nil => refine ⟨[], by simp [history], by simpa using ha, rfl, rfl, by simp [history], by simp [history], ?_, by simp⟩
           intro k c hk hc
           simp only [List.append_nil] at hc
           rw [List.getElem?_eq_none hk] at hc; cases hc
  | cons op ops ih =>
    obtain ⟨c, x⟩ := op
    simp only [history]
    rw [addSite_built]
    by_cases hm : keyOf L x ∈ acc.map (fun c => keyOf L c.2)
    · rw [if_pos hm]
      obtain ⟨acc', h1, h2, h3, h4, h5, h6, h7, h8⟩ := ih acc ha
      refine ⟨acc', h1, h2, by simp [h3], by rw [List.filterMap_cons_none (by rfl)]; exact h4, ?_, ?_, ?_, ?_⟩
      · intro j k hj
        cases j with
        | zero => simp at hj
        | succ j => simpa using h5 j k (by simpa using hj)
      · intro j e hj
        cases j with
        | zero => simpa using hj.symm
        | succ j => exact h6 j e (by simpa using hj)
      · intro k cc hk hcc
        obtain ⟨j, h⟩ := h7 k cc hk hcc
        exact ⟨j + 1, by simpa using h⟩
      · intro j cc hj
        cases j with
        | zero =>
          simp only [List.getElem?_cons_zero, Option.some.injEq] at hj
          subst hj
          simp [hm]
        | succ j =>
          have := h8 j cc (by simpa using hj)
          simp only [List.getElem?_cons_succ]
          rw [this]
          constructor
          · rintro (h | ⟨j', c', k, a, b, e, f⟩)
            · exact .inl h
            · exact .inr ⟨j' + 1, c', k, by omega, by simpa using b, by simpa using e, f⟩
          · rintro (h | ⟨j', c', k, a, b, e, f⟩)
            · exact .inl h
            · cases j' with
              | zero => simp at e
              | succ j' => exact .inr ⟨j', c', k, by omega, by simpa using b, by simpa using e, f⟩
    · rw [if_neg hm]
      have ha' : Distinct L (acc ++ [(c, x)]) := by
        rw [Distinct, List.map_append, List.nodup_append]
        refine ⟨ha, by simp, ?_⟩
        intro a h1 b h2 e
        rw [List.map_cons, List.map_nil, List.mem_singleton] at h2
        exact hm (h2 ▸ e ▸ h1)
      obtain ⟨acc', h1, h2, h3, h4, h5, h6, h7, h8⟩ := ih (acc ++ [(c, x)]) ha'
      have eqa : acc ++ [(c, x)] ++ acc' = acc ++ ((c, x) :: acc') := by simp
      rw [eqa] at h1 h2 h5 h7
      refine ⟨(c, x) :: acc', h1, h2, by simp [h3], ?_, ?_, ?_, ?_, ?_⟩
      · rw [List.filterMap_cons_some (b := acc.length) (by rfl), h4]
        simp only [List.length_cons, List.range_succ_eq_map, List.map_cons, List.map_map, List.length_append, List.length_nil]
        simp [Function.comp_def, Nat.add_assoc, Nat.add_comm 1]
      · intro j k hj
        cases j with
        | zero =>
          simp only [List.getElem?_cons_zero, Option.some.injEq, Except.ok.injEq] at hj
          subst hj
          simp
        | succ j =>
          obtain ⟨p, q⟩ := h5 j k (by simpa using hj)
          simp only [List.length_append] at p
          exact ⟨by omega, by simpa using q⟩
      · intro j e hj
        cases j with
        | zero => simp at hj
        | succ j => exact h6 j e (by simpa using hj)
      · intro k cc hk hcc
        by_cases hkk : k = acc.length
        · subst hkk
          refine ⟨0, by simp, ?_⟩
          rw [← hcc]; simp
        · obtain ⟨j, h⟩ := h7 k cc (by simp; omega) hcc
          exact ⟨j + 1, by simpa using h⟩
      · intro j cc hj
        cases j with
        | zero =>
          simp only [List.getElem?_cons_zero, Option.some.injEq] at hj
          subst hj
          simp [hm]
        | succ j =>
          have := h8 j cc (by simpa using hj)
          simp only [List.getElem?_cons_succ]
          rw [this]
          simp only [List.map_append, List.map_cons, List.map_nil, List.mem_append, List.mem_singleton]
          constructor
          · rintro ((h | h) | ⟨j', c', k, a, b, e, f⟩)
            · exact .inl h
            · exact .inr ⟨0, (c, x), acc.length, by omega, by simp, by simp, h.symm⟩
            · exact .inr ⟨j' + 1, c', k, by omega, by simpa using b, by simpa using e, f⟩
          · rintro (h | ⟨j', c', k, a, b, e, f⟩)
            · exact .inl (.inl h)
            · cases j' with
              | zero =>
                simp only [List.getElem?_cons_zero, Option.some.injEq] at b
                subst b
                exact .inl (.inr f.symm)
              | succ j' => exact .inr ⟨j', c', k, by omega, by simpa using b, by simpa using e, f⟩

theorem history_new (L : Lattice K d) (ops : List (String × (Fin d → K))) :
    ∃ acc : List (String × (Fin d → K)), (history (new L) ops).1 = built L acc ∧ Distinct L acc ∧
      (history (new L) ops).2.length = ops.length ∧
      (history (new L) ops).2.filterMap Except.toOption = List.range acc.length ∧
      (∀ (j k : ℕ), (history (new L) ops).2[j]? = some (.ok k) → acc[k]? = ops[j]?) ∧
      (∀ (j : ℕ) (e : Err), (history (new L) ops).2[j]? = some (.error e) → e = .assertionError) ∧
      (∀ (k : ℕ) (c : String × (Fin d → K)), acc[k]? = some c → ∃ j : ℕ, (history (new L) ops).2[j]? = some (.ok k) ∧ ops[j]? = some c) ∧
      (∀ (j : ℕ) (c : String × (Fin d → K)), ops[j]? = some c → ((history (new L) ops).2[j]? = some (.error .assertionError) ↔
          ∃ (j' : ℕ) (c' : String × (Fin d → K)) (k : ℕ), j' < j ∧ ops[j']? = some c' ∧ (history (new L) ops).2[j']? = some (.ok k) ∧ keyOf L c'.2 = keyOf L c.2)) := by
  rw [← built_nil]
  obtain ⟨acc', h1, h2, h3, h4, h5, h6, h7, h8⟩ := history_built L ops [] (by simp [Distinct])
  refine ⟨acc', by simpa using h1, by simpa using h2, h3, by simpa using h4, fun j k h => by simpa using (h5 j k h).2, h6,
    fun k c h => h7 k c (by simp) (by simpa using h), fun j c h => by simpa using h8 j c h⟩

end Structure
end
end Pyl
