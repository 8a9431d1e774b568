import Verif.Model.DoubleHoneycomb
import Verif.Props.Build
/-
Structures in double precision, for any arithmetic: what `build_from` returns.
-/
set_option autoImplicit false
set_option linter.unusedSectionVars false

namespace Pyl
open Pyl.Lattice Pyl.Structure
namespace Dbl.Arith
variable {d : ℕ} (A : Arith d) (L : Lattice ℚ d)

/-- The structure in which the listed sites have been added. -/
def built (acc : List (String × (Fin d → ℚ))) : Structure ℚ d where
  lattice := L
  sites := acc.zipIdx.map fun ck => (ck.2, ⟨ck.1.1, rounded (A.periodized L ck.1.2), ck.2⟩)
  siteIds := List.range acc.length
  lookup := acc.zipIdx.map fun ck => (A.transformed L ck.1.2, ck.2)

theorem keys_built_sites (acc : List (String × (Fin d → ℚ))) : Dict.keys (A.built L acc).sites = List.range acc.length := by
  simp only [built, Dict.keys, List.map_map, Function.comp_def]
  exact (List.zipIdx_map_snd 0 acc).trans List.range_eq_range'.symm

theorem keys_built_lookup (acc : List (String × (Fin d → ℚ))) : Dict.keys (A.built L acc).lookup = acc.map fun c => A.transformed L c.2 := by
  simp only [built, Dict.keys, List.map_map, Function.comp_def]
  conv_rhs => rw [← List.zipIdx_map_fst 0 acc, List.map_map]
  rfl

theorem addSite_built (acc : List (String × (Fin d → ℚ))) (c : String) (x : Fin d → ℚ) :
    A.addSite (A.built L acc) c x =
      if A.transformed L x ∈ acc.map (fun c => A.transformed L c.2) then (A.built L acc, .error .assertionError)
      else (A.built L (acc ++ [(c, x)]), .ok acc.length) := by
  have hk : A.transformed (A.built L acc).lattice x = A.transformed L x := rfl
  have hlen : (A.built L acc).sites.length = acc.length := by simp [built]
  unfold addSite
  simp only [hk, hlen, Dict.get?_eq_none_iff, keys_built_lookup]
  by_cases hm : A.transformed L x ∈ acc.map (fun c => A.transformed L c.2)
  · rw [if_neg (not_not.2 hm), if_pos hm]
  · rw [if_pos hm, if_neg hm, set_fresh _ _ _ (by rw [keys_built_sites]; simp), set_fresh _ _ _ (by rw [keys_built_lookup]; exact hm)]
    simp [built, List.zipIdx_append, List.range_succ]

theorem getSite_built (acc : List (String × (Fin d → ℚ))) (k : ℕ) :
    (A.built L acc).getSite k = (acc[k]?).map fun c => ⟨c.1, rounded (A.periodized L c.2), k⟩ := by
  have hwf : Dict.WF (A.built L acc).sites := by rw [Dict.WF, keys_built_sites]; exact List.nodup_range
  rw [getSite]
  by_cases hk : k < acc.length
  · have : (k, (⟨acc[k].1, rounded (A.periodized L acc[k].2), k⟩ : Site ℚ d)) ∈ (A.built L acc).sites :=
      List.mem_map.2 ⟨(acc[k], k), by rw [List.mem_zipIdx_iff_getElem?]; simp, rfl⟩
    rw [Dict.get?_of_mem hwf this, List.getElem?_eq_getElem hk]; rfl
  · rw [Dict.get?_eq_none_iff.2 (by rw [keys_built_sites]; simpa using hk), List.getElem?_eq_none (by omega)]; rfl

/-- The sites have pairwise different keys. -/
def Distinct (acc : List (String × (Fin d → ℚ))) : Prop := (acc.map fun c => A.transformed L c.2).Nodup

theorem get?_lookup_built {acc : List (String × (Fin d → ℚ))} (ha : A.Distinct L acc) (key : Fin d → ℚ) (k : ℕ) :
    Dict.get? (A.built L acc).lookup key = some k ↔ ∃ c, acc[k]? = some c ∧ A.transformed L c.2 = key := by
  have hwf : Dict.WF (A.built L acc).lookup := by rw [Dict.WF, keys_built_lookup]; exact ha
  rw [← Dict.mem_iff_get? hwf]
  simp only [built, List.mem_map, Prod.mk.injEq]
  constructor
  · rintro ⟨⟨c, k'⟩, h1, h2, h3⟩
    rw [List.mem_zipIdx_iff_getElem?] at h1
    simp only at h1 h2 h3
    subst h3
    exact ⟨c, h1, h2⟩
  · rintro ⟨c, h1, h2⟩
    exact ⟨(c, k), by rw [List.mem_zipIdx_iff_getElem?]; exact h1, h2, rfl⟩

theorem siteAt_built {acc : List (String × (Fin d → ℚ))} (ha : A.Distinct L acc) (x : Fin d → ℚ) (t : Site ℚ d) :
    A.siteAt (A.built L acc) x = some t ↔
      ∃ c, acc[t.id]? = some c ∧ A.transformed L c.2 = A.transformed L x ∧ t = ⟨c.1, rounded (A.periodized L c.2), t.id⟩ := by
  have hk : A.transformed (A.built L acc).lattice x = A.transformed L x := rfl
  unfold siteAt
  rw [hk]
  cases hg : Dict.get? (A.built L acc).lookup (A.transformed L x) with
  | none =>
    simp only [reduceCtorEq, false_iff, not_exists]
    rintro c ⟨h1, h2, -⟩
    rw [(A.get?_lookup_built L ha (A.transformed L x) t.id).2 ⟨c, h1, h2⟩] at hg
    cases hg
  | some k =>
    obtain ⟨c, h1, h2⟩ := (A.get?_lookup_built L ha _ _).1 hg
    simp only [getSite_built, h1, Option.map_some, Option.some.injEq]
    constructor
    · rintro rfl
      exact ⟨c, h1, h2, rfl⟩
    · rintro ⟨c', h1', h2', h3'⟩
      have := (A.get?_lookup_built L ha (A.transformed L x) t.id).2 ⟨c', h1', h2'⟩
      rw [hg] at this
      injection this with this
      rw [← this] at h1'
      rw [h1] at h1'; injection h1' with h1'
      subst h1'
      rw [h3', ← this]

theorem foldlM_addOrRaise (l acc : List (String × (Fin d → ℚ))) (ha : A.Distinct L acc) :
    (A.Distinct L (acc ++ l) → l.foldlM A.addOrRaise (A.built L acc) = .ok (A.built L (acc ++ l))) ∧
      (¬ A.Distinct L (acc ++ l) → l.foldlM A.addOrRaise (A.built L acc) = .error .assertionError) := by
  induction l generalizing acc with
  | nil => exact ⟨fun _ => by simp [pure, Except.pure], fun h => absurd (by simpa using ha) h⟩
  | cons c l ih =>
    have e : acc ++ c :: l = (acc ++ [c]) ++ l := by simp
    rw [List.foldlM_cons, addOrRaise, addSite_built]
    by_cases hm : A.transformed L c.2 ∈ acc.map (fun c => A.transformed L c.2)
    · rw [if_pos hm]
      have hnd : ¬ A.Distinct L (acc ++ c :: l) := by
        intro hd
        rw [Distinct, List.map_append, List.nodup_append] at hd
        exact hd.2.2 _ hm _ (by simp) rfl
      exact ⟨fun hd => absurd hd hnd, fun _ => rfl⟩
    · rw [if_neg hm, e]
      refine ih (acc ++ [c]) ?_
      rw [Distinct, List.map_append, List.nodup_append]
      refine ⟨ha, by simp, ?_⟩
      intro a h1 b h2 hab
      simp only [List.map_cons, List.map_nil, List.mem_singleton] at h2
      subst h2; subst hab
      exact hm h1

/-- All sites to be added by `build_from`, in order. -/
def tiling (n : Fin d → ℤ) (m : Motif ℚ d) : List (String × (Fin d → ℚ)) :=
  (cells n).flatMap fun p => A.cellSites L m.toDict (vecOf p)

theorem buildFrom_eq (n : Fin d → ℤ) (m : Motif ℚ d) :
    (A.Distinct (scaled L n) (A.tiling L n m) → A.buildFrom L n m = .ok (A.built (scaled L n) (A.tiling L n m))) ∧
    (¬ A.Distinct (scaled L n) (A.tiling L n m) → A.buildFrom L n m = .error .assertionError) := by
  have e : A.buildFrom L n m = (A.tiling L n m).foldlM A.addOrRaise (A.built (scaled L n) []) := by
    rw [tiling, foldlM_flatMap']; rfl
  rw [e]
  simpa using A.foldlM_addOrRaise (scaled L n) (A.tiling L n m) [] (by simp [Distinct])

end Dbl.Arith
end Pyl
