import Verif.Lemmas.DoubleHoneyDist
/-
The honeycomb tiling in double precision: the sites.
-/
set_option autoImplicit false
set_option linter.unusedSectionVars false

namespace Pyl
open Pyl.Lattice Pyl.Structure

/-- The sites that the builder adds. -/
def honeySites (A : Dbl.Arith 2) (n : Fin 2 → ℤ) : List (String × (Fin 2 → ℚ)) :=
  (cells n).map fun p => ("A", A.toCart Dbl.honeyLattice fun i => fl ((cellVec 2 p i : ℚ) + 1 / 2))

theorem honey_tiling (A : Dbl.Arith 2) (n : Fin 2 → ℤ) : A.tiling Dbl.honeyLattice n honeyMotif = honeySites A n := by
  rw [Dbl.Arith.tiling, honeySites, ← List.flatMap_pure_eq_map]
  refine List.flatMap_congr fun p _ => ?_
  have : (honeyMotif (K := ℚ)).toDict = [("A", [![1 / 2, 1 / 2]])] := rfl
  rw [this, Dbl.Arith.cellSites]
  simp only [List.flatMap_cons, List.flatMap_nil, List.map_cons, List.map_nil, List.append_nil, vecOf_eq]
  congr 3
  funext i
  revert i
  exact vec2 rfl rfl

section
variable {A : Dbl.Arith 2} {n : Fin 2 → ℤ}
variable (h : HoneyArith A n)
include h

/-- The key and the stored location of the site of a hexagon. -/
theorem HoneyArith.cellKey {c : Fin 2 → ℤ} (hc : ∀ k, 0 ≤ c k ∧ c k < n k) :
    Dbl.rounded (A.periodized (Dbl.scaled Dbl.honeyLattice n) (A.toCart Dbl.honeyLattice fun i => fl ((c i : ℚ) + 1 / 2))) = hexStored c ∧
      A.transformed (Dbl.scaled Dbl.honeyLattice n) (A.toCart Dbl.honeyLattice fun i => fl ((c i : ℚ) + 1 / 2)) =
        fun i => fl (((hexMil c i + 1 : ℤ) : ℚ) / 1000) := by
  rw [hexStored_eq]
  refine h.key (c := c) (k := hexMil c) (inBox_near hc) (fun i => by rw [wrapCell_of_inBox hc]; exact hexMil_half c i) fun i => ?_
  rw [wrapCell_of_inBox hc, sub_add_cancel]
  have h1 := abs_le.1 (h.cellLoc hc i)
  have h2 := abs_le.1 (hexMil_err (fun k => (h.size k).2) hc i)
  rw [abs_le]; constructor <;> norm_num at h1 h2 ⊢ <;> linarith

theorem HoneyArith.keyInj {c c' : Fin 2 → ℤ} (hc : ∀ k, 0 ≤ c k ∧ c k < n k) (hc' : ∀ k, 0 ≤ c' k ∧ c' k < n k)
    (e : (fun i => fl (((hexMil c i + 1 : ℤ) : ℚ) / 1000)) = fun i => fl (((hexMil c' i + 1 : ℤ) : ℚ) / 1000)) : c = c' := by
  refine hexMil_inj fun i => ?_
  have b : ∀ {c : Fin 2 → ℤ}, (∀ k, 0 ≤ c k ∧ c k < n k) → |hexMil c i + 1| ≤ 2 ^ 40 := fun hc => by
    have := abs_le.1 (hexMil_small (fun k => (h.size k).2) hc i)
    rw [abs_le]; omega
  have := fl_thousandth_inj (b hc) (b hc') (congrFun e i)
  omega

theorem HoneyArith.distinct : A.Distinct (Dbl.scaled Dbl.honeyLattice n) (honeySites A n) := by
  rw [Dbl.Arith.Distinct, honeySites, List.map_map]
  refine List.Nodup.map_on (fun p hp q hq e => ?_) (nodup_cells n)
  obtain ⟨lp, bp⟩ := mem_cells.1 hp
  obtain ⟨lq, bq⟩ := mem_cells.1 hq
  simp only [Function.comp_def] at e
  rw [(h.cellKey bp).2, (h.cellKey bq).2] at e
  rw [← ofFn_cellVec lp, ← ofFn_cellVec lq, h.keyInj bp bq e]

/-- The tiling. -/
theorem HoneyArith.build : Dbl.buildHoneycomb A (.tup [n 0, n 1]) = .ok (A.built (Dbl.scaled Dbl.honeyLattice n) (honeySites A n)) := by
  have e : (fun i : Fin 2 => [n 0, n 1].get (i.cast (rfl : 2 = [n 0, n 1].length))) = n := by
    funext i
    revert i
    exact vec2 rfl rfl
  rw [Dbl.buildHoneycomb, Dbl.Arith.build, dif_pos (show [n 0, n 1].length = 2 from rfl), e, (A.buildFrom_eq _ _ _).1 (by rw [honey_tiling]; exact h.distinct), honey_tiling]

theorem HoneyArith.buildInt {m : ℤ} (hm : ∀ k, n k = m) :
    Dbl.buildHoneycomb A (.int m) = .ok (A.built (Dbl.scaled Dbl.honeyLattice n) (honeySites A n)) := by
  have e : n = fun _ => m := funext hm
  subst e
  rw [Dbl.buildHoneycomb, Dbl.Arith.build, (A.buildFrom_eq _ _ _).1 (by rw [honey_tiling]; exact h.distinct), honey_tiling]

/-- The sites of the tiling. -/
theorem HoneyArith.site {c : Fin 2 → ℤ} (hc : ∀ k, 0 ≤ c k ∧ c k < n k) : ∃ i, i < (n 0).toNat * (n 1).toNat ∧
    (honeySites A n)[i]? = some ("A", A.toCart Dbl.honeyLattice fun i => fl ((c i : ℚ) + 1 / 2)) ∧
    (A.built (Dbl.scaled Dbl.honeyLattice n) (honeySites A n)).getSite i = some ⟨"A", hexStored c, i⟩ := by
  have hm : List.ofFn c ∈ cells n := mem_cells.2 ⟨by simp, by rw [cellVec_ofFn]; exact hc⟩
  obtain ⟨i, hi, he⟩ := List.mem_iff_getElem.1 hm
  have hs : (honeySites A n)[i]? = some ("A", A.toCart Dbl.honeyLattice fun i => fl ((c i : ℚ) + 1 / 2)) := by
    rw [honeySites, List.getElem?_map, List.getElem?_eq_getElem hi, he, Option.map_some, cellVec_ofFn]
  refine ⟨i, ?_, hs, ?_⟩
  · rwa [length_cells, Fin.prod_univ_two] at hi
  · rw [Dbl.Arith.getSite_built, hs]
    simp only [Option.map_some]
    rw [(h.cellKey hc).1]

theorem HoneyArith.siteCell {i : ℕ} {t : Site ℚ 2} (ht : (A.built (Dbl.scaled Dbl.honeyLattice n) (honeySites A n)).getSite i = some t) :
    ∃ c : Fin 2 → ℤ, (∀ k, 0 ≤ c k ∧ c k < n k) ∧ t = ⟨"A", hexStored c, i⟩ ∧ (cells n)[i]? = some (List.ofFn c) := by
  rw [Dbl.Arith.getSite_built, honeySites, List.getElem?_map, Option.map_map] at ht
  obtain ⟨p, hp, rfl⟩ := Option.map_eq_some_iff.1 ht
  obtain ⟨l, b⟩ := mem_cells.1 (List.mem_of_getElem? hp)
  refine ⟨cellVec 2 p, b, ?_, by rw [hp, ofFn_cellVec l]⟩
  simp only [Function.comp_def]
  rw [(h.cellKey b).1]

end
end Pyl
