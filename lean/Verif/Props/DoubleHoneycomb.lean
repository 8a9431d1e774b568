import Verif.Lemmas.DoubleHoneyBuild
/-
C111: the honeycomb tiling in double precision.
-/
set_option autoImplicit false
set_option linter.unusedSectionVars false

namespace Pyl
open Pyl.Lattice Pyl.Structure

/-! ### neighbourhoods by distance of any built structure -/

namespace Dbl.Arith
variable {d : ℕ} (A : Arith d) (L : Lattice ℚ d)

theorem mem_sitesOf_built (acc : List (String × (Fin d → ℚ))) (t : Site ℚ d) :
    t ∈ (A.built L acc).sitesOf none ↔ (A.built L acc).getSite t.id = some t := by
  rw [getSite_built]
  simp only [sitesOf, Dict.values, built, List.map_map, List.mem_map, Function.comp_def]
  constructor
  · rintro ⟨⟨c, k⟩, h1, rfl⟩
    rw [List.mem_zipIdx_iff_getElem?] at h1
    simp only at h1 ⊢
    rw [h1]; rfl
  · intro h
    obtain ⟨c, h1, h2⟩ := Option.map_eq_some_iff.1 h
    exact ⟨(c, t.id), by rw [List.mem_zipIdx_iff_getElem?]; exact h1, h2⟩

theorem id_of_getSite_built {acc : List (String × (Fin d → ℚ))} {i : ℕ} {t : Site ℚ d} (h : (A.built L acc).getSite i = some t) :
    t.id = i ∧ i < acc.length := by
  rw [getSite_built] at h
  obtain ⟨c, h1, rfl⟩ := Option.map_eq_some_iff.1 h
  exact ⟨rfl, (List.getElem?_eq_some_iff.1 h1).1⟩

theorem distanceGet_built (cutoff : ℚ) (acc : List (String × (Fin d → ℚ))) :
    ∃ g, A.distanceGet cutoff (A.built L acc) = .ok g ∧ ∀ i j w, (j, w) ∈ g.weightedNeighborsOf i ↔
      ∃ t t', (A.built L acc).getSite i = some t ∧ (A.built L acc).getSite j = some t' ∧ i ≠ j ∧
        A.dist L t'.loc t.loc < cutoff ∧ w = some (A.dist L t'.loc t.loc) := by
  set s := A.built L acc with hs
  have hlen : (s.sitesOf none).length = acc.length := by simp [sitesOf, Dict.values, hs, built]
  have hmem : ∀ t o w, (o, w) ∈ A.distanceNeighbors cutoff t s ↔
      ∃ t' ∈ s.sitesOf none, o = some t'.id ∧ t.id ≠ t'.id ∧ A.dist L t'.loc t.loc < cutoff ∧ w = some (A.dist L t'.loc t.loc) := by
    intro t o w
    have hl : s.lattice = L := rfl
    rw [distanceNeighbors, List.mem_filterMap]
    constructor
    · rintro ⟨t', ht', e⟩
      simp only [hl] at e
      split_ifs at e with h1 h2
      injection e with e
      injection e with e1 e2
      exact ⟨t', ht', e1.symm, h1, h2, e2.symm⟩
    · rintro ⟨t', ht', rfl, h1, h2, rfl⟩
      exact ⟨t', ht', by simp only [hl]; rw [if_pos h1, if_pos h2]⟩
  have hlt : ∀ t ∈ s.sitesOf none, t.id < (s.sitesOf none).length := fun t ht => by
    rw [hlen]; exact (A.id_of_getSite_built L ((A.mem_sitesOf_built L acc t).1 ht)).2
  have hconn := (foldlM_connect (K := ℚ) (s.sitesOf none).length (fun t => A.distanceNeighbors cutoff t s) (s.sitesOf none) hlt (by
      intro t ht nb hnb j hj
      obtain ⟨o, w⟩ := nb
      obtain ⟨t', ht', h1, -⟩ := (hmem t o w).1 hnb
      simp only at hj
      rw [h1] at hj; injection hj with hj; subst hj
      exact hlt t' ht') []).1 (by
      intro t ht nb hnb
      obtain ⟨o, w⟩ := nb
      obtain ⟨t', ht', h1, -⟩ := (hmem t o w).1 hnb
      simp [h1])
  rw [List.nil_append] at hconn
  have hedge : ∀ i j w, (i, j, w) ∈ ((s.sitesOf none).flatMap fun t => edgesFrom t.id (A.distanceNeighbors cutoff t s)) ↔
      ∃ t t', s.getSite i = some t ∧ s.getSite j = some t' ∧ i ≠ j ∧ A.dist L t'.loc t.loc < cutoff ∧ w = some (A.dist L t'.loc t.loc) := by
    intro i j w
    rw [List.mem_flatMap]
    constructor
    · rintro ⟨t, ht, he⟩
      obtain ⟨rfl, he'⟩ := mem_edgesFrom.1 he
      obtain ⟨t', ht', h1, h2, h3, h4⟩ := (hmem t _ _).1 he'
      injection h1 with h1; subst h1
      exact ⟨t, t', (A.mem_sitesOf_built L acc _).1 ht, (A.mem_sitesOf_built L acc _).1 ht', h2, h3, h4⟩
    · rintro ⟨t, t', h1, h2, h3, h4, h5⟩
      have e1 := (A.id_of_getSite_built L h1).1
      have e2 := (A.id_of_getSite_built L h2).1
      subst e1 e2
      exact ⟨t, (A.mem_sitesOf_built L acc _).2 h1, mem_edgesFrom.2 ⟨rfl, (hmem t _ _).2 ⟨t', (A.mem_sitesOf_built L acc _).2 h2, rfl, h3, h4, h5⟩⟩⟩
  refine ⟨_, hconn, fun i j w => ?_⟩
  have huniq : ∀ w w', (i, j, w) ∈ ((s.sitesOf none).flatMap fun t => edgesFrom t.id (A.distanceNeighbors cutoff t s)) →
      (i, j, w') ∈ ((s.sitesOf none).flatMap fun t => edgesFrom t.id (A.distanceNeighbors cutoff t s)) → w' = w := by
    intro w w' h1 h2
    obtain ⟨t, t', a1, a2, -, -, a3⟩ := (hedge _ _ _).1 h1
    obtain ⟨u, u', b1, b2, -, -, b3⟩ := (hedge _ _ _).1 h2
    rw [a1] at b1; injection b1 with b1; subst b1
    rw [a2] at b2; injection b2 with b2; subst b2
    rw [a3, b3]
  rw [Graph.mem_weighted, Graph.mem_neighbors, ← hedge]
  constructor
  · rintro ⟨⟨w', hw'⟩, rfl⟩
    rw [Graph.edgeData_eq hw' fun w'' h'' => huniq w' w'' hw' h'']; exact hw'
  · intro hw
    exact ⟨⟨w, hw⟩, (Graph.edgeData_eq hw fun w'' h'' => huniq w w'' hw h'').symm⟩

end Dbl.Arith

/-! ### the theorems -/

section
variable (A : Dbl.Arith 2) (hA : A.Products) (n : Fin 2 → ℤ) (hn : ∀ k, 3 ≤ n k ∧ n k ≤ 2 ^ 10)
  (hinv : InverseOf (Dbl.scaled Dbl.honeyLattice n).mat (A.inv (Dbl.scaled Dbl.honeyLattice n).mat))
include hA hn hinv

/-- C111: for sizes from 3 to 1024 in both directions the honeycomb tiling can be built in double precision; it has exactly one site for every hexagon
of the box, of class "A", stored at the middle of the hexagon rounded to the nearest thousandth; different hexagons are stored at different locations.
`build(m)` builds the same as `build((m, m))`. -/
theorem C111_sites : ∃ S, Dbl.buildHoneycomb A (.tup [n 0, n 1]) = .ok S ∧ (n 0 = n 1 → Dbl.buildHoneycomb A (.int (n 0)) = .ok S) ∧
    S.siteIds = List.range ((n 0).toNat * (n 1).toNat) ∧
    (∀ c : Fin 2 → ℤ, (∀ k, 0 ≤ c k ∧ c k < n k) → ∃ i ∈ S.siteIds, S.siteLocation i = .ok (hexStored c)) ∧
    (∀ i ∈ S.siteIds, S.siteClass i = .ok "A" ∧ ∃ c : Fin 2 → ℤ, (∀ k, 0 ≤ c k ∧ c k < n k) ∧ S.siteLocation i = .ok (hexStored c)) ∧
    (∀ i j x, S.siteLocation i = .ok x → S.siteLocation j = .ok x → i = j) ∧
    ∀ c c' : Fin 2 → ℤ, (∀ k, 0 ≤ c k ∧ c k < n k) → (∀ k, 0 ≤ c' k ∧ c' k < n k) → hexStored c = hexStored c' → c = c' := by
  have h : HoneyArith A n := ⟨hn, hA, hinv⟩
  have hids : (A.built (Dbl.scaled Dbl.honeyLattice n) (honeySites A n)).siteIds = List.range ((n 0).toNat * (n 1).toNat) := by
    have : (honeySites A n).length = (n 0).toNat * (n 1).toNat := by rw [honeySites, List.length_map, length_cells, Fin.prod_univ_two]
    rw [← this]; rfl
  refine ⟨_, h.build, fun e => h.buildInt (vec2 rfl e.symm), hids, fun c hc => ?_, fun i hi => ?_, fun i j x hi hj => ?_, fun c c' hc hc' => hexStored_inj (fun k => (hn k).2) hc hc'⟩
  · obtain ⟨i, hi, -, hg⟩ := h.site hc
    exact ⟨i, by rw [hids]; exact List.mem_range.2 hi, by rw [siteLocation, hg]⟩
  · have hl : i < (honeySites A n).length := List.mem_range.1 hi
    obtain ⟨t, ht⟩ : ∃ t, (A.built (Dbl.scaled Dbl.honeyLattice n) (honeySites A n)).getSite i = some t := by
      rw [Dbl.Arith.getSite_built, List.getElem?_eq_getElem hl]; exact ⟨_, rfl⟩
    obtain ⟨c, hc, rfl, -⟩ := h.siteCell ht
    exact ⟨by rw [siteClass, ht], c, hc, by rw [siteLocation, ht]⟩
  · obtain ⟨t, ht, e⟩ := siteLocation_iff.1 hi
    obtain ⟨t', ht', e'⟩ := siteLocation_iff.1 hj
    obtain ⟨c, hc, rfl, h1⟩ := h.siteCell ht
    obtain ⟨c', hc', rfl, h1'⟩ := h.siteCell ht'
    have := hexStored_inj (fun k => (hn k).2) hc hc' (e.trans e'.symm)
    subst this
    obtain ⟨l1, e1⟩ := List.getElem?_eq_some_iff.1 h1
    obtain ⟨l2, e2⟩ := List.getElem?_eq_some_iff.1 h1'
    exact (List.Nodup.getElem_inj_iff (nodup_cells n)).1 (e1.trans e2.symm)

/-- C111: a location finds the site of a hexagon if it is within a hundred-millionth of the middle of the hexagon, or within 0.0004 of the stored location,
also when it is moved by up to one period of the structure in each direction. -/
theorem C111_lookup (S : Structure ℚ 2) (hS : Dbl.buildHoneycomb A (.tup [n 0, n 1]) = .ok S) (b c : Fin 2 → ℤ) (hb : ∀ k, 0 ≤ b k ∧ b k < n k)
    (hc : ∀ k, c k = b k ∨ c k = b k + n k ∨ c k = b k - n k) (x : Fin 2 → ℚ)
    (hx : (∀ i, |(x i : ℝ) - hexCentre (√3) c i| ≤ 1 / 10 ^ 8) ∨
      ∀ i, |(x i : ℝ) - (hexStored b i + (hexCentre (√3) c i - hexCentre (√3) b i))| ≤ 1 / 2500) :
    ∃ i, A.idAt S x = some i ∧ S.siteLocation i = .ok (hexStored b) := by
  have h : HoneyArith A n := ⟨hn, hA, hinv⟩
  rw [h.build] at hS
  injection hS with hS
  subst hS
  have hnear : NearBox n c := fun k => by
    have := hb k
    rcases hc k with e | e | e <;> omega
  have hw : wrapCell n c = b := by
    funext k
    have := hb k
    rw [wrapCell]
    rcases hc k with e | e | e
    · rw [e]; exact Int.emod_eq_of_lt this.1 this.2
    · rw [e, Int.add_emod_right]; exact Int.emod_eq_of_lt this.1 this.2
    · rw [e, Int.sub_emod_right]; exact Int.emod_eq_of_lt this.1 this.2
  have hk := h.key (c := c) (k := hexMil b) hnear (fun i => by rw [hw]; exact hexMil_half b i) (x := x) (fun i => by
    rw [hw]
    rcases hx with hx | hx
    · have h1 := abs_le.1 (hx i)
      have h2 := abs_le.1 (hexMil_err (fun k => (hn k).2) hb i)
      rw [abs_le]; constructor <;> norm_num at h1 h2 ⊢ <;> linarith
    · have h1 := abs_le.1 (hx i)
      have h2 := abs_le.1 (hexStored_near (fun k => (hn k).2) hb i)
      rw [abs_le]; constructor <;> norm_num at h1 h2 ⊢ <;> linarith)
  obtain ⟨i, -, hs, hg⟩ := h.site hb
  refine ⟨i, ?_, by rw [siteLocation, hg]⟩
  have := (A.siteAt_built (Dbl.scaled Dbl.honeyLattice n) h.distinct x ⟨"A", hexStored b, i⟩).2 ⟨_, hs, by rw [hk.2, (h.cellKey hb).2], by
    simp only; rw [(h.cellKey hb).1]⟩
  rw [Dbl.Arith.idAt, this]; rfl

/-- C111: the honeycomb neighbourhood of the tiling in double precision: the sites of two hexagons are neighbours iff the hexagons touch across the edges
of the box, with a weight that is the double nearest to 0.998, 0.999, 1, 1.001 or 1.002; every site has exactly six neighbours. -/
theorem C111_neighbours (S : Structure ℚ 2) (hS : Dbl.buildHoneycomb A (.tup [n 0, n 1]) = .ok S) :
    ∃ g, Dbl.honeycombGet A S = .ok g ∧
      (∀ i j (c c' : Fin 2 → ℤ), (∀ k, 0 ≤ c k ∧ c k < n k) → (∀ k, 0 ≤ c' k ∧ c' k < n k) →
        S.siteLocation i = .ok (hexStored c) → S.siteLocation j = .ok (hexStored c') →
        (j ∈ g.neighborsOf i ↔ ∃ v ∈ hexSteps, ∀ k, n k ∣ c' k - c k - v k)) ∧
      (∀ i j w, (j, w) ∈ g.weightedNeighborsOf i → i ∈ S.siteIds ∧ j ∈ S.siteIds ∧ ∃ k : ℤ, w = some (fl ((k : ℚ) / 1000)) ∧ |k - 1000| ≤ 2) ∧
      ∀ i ∈ S.siteIds, (g.neighborsOf i).length = 6 := by
  have h : HoneyArith A n := ⟨hn, hA, hinv⟩
  obtain ⟨S', hS', -, -, hcell, hid, hinj, -⟩ := C111_sites A hA n hn hinv
  rw [hS'] at hS
  injection hS with hS
  subst hS
  rw [h.build] at hS'
  injection hS' with hS'
  subst hS'
  set S := A.built (Dbl.scaled Dbl.honeyLattice n) (honeySites A n) with hSdef
  obtain ⟨g, hg, hw⟩ := A.distanceGet_built (Dbl.scaled Dbl.honeyLattice n) (fl (1 + fl (1 / 100))) (honeySites A n)
  have cut : 1009 / 1000 ≤ fl (1 + fl (1 / 100)) ∧ fl (1 + fl (1 / 100)) ≤ 1011 / 1000 := by
    have h1 := fl_err (1 / 100)
    rw [abs_of_pos (by norm_num : (0 : ℚ) < 1 / 100)] at h1
    have h1' := abs_le.1 h1
    have h2 := fl_err (1 + fl (1 / 100))
    have h3 : |1 + fl (1 / 100)| ≤ 2 := by rw [abs_le]; constructor <;> norm_num at h1' ⊢ <;> linarith
    have h4 := abs_le.1 (h2.trans (by gcongr : |1 + fl (1 / 100)| / 2 ^ 53 ≤ 2 / 2 ^ 53))
    constructor <;> norm_num at h1' h4 ⊢ <;> linarith
  -- steps between different hexagons
  have nostep : ∀ c : Fin 2 → ℤ, ¬ ∃ v ∈ hexSteps, ∀ k, n k ∣ c k - c k - v k := by
    rintro c ⟨v, hv, hd⟩
    have hz : ∀ k, v k = 0 := fun k => by
      have := hd k
      rw [sub_self, zero_sub, dvd_neg] at this
      refine Int.eq_zero_of_abs_lt_dvd this ?_
      have := (by decide : ∀ v ∈ hexSteps, ∀ k, |v k| ≤ 1) v hv k
      have := hn k
      omega
    exact (by decide : ∀ v ∈ hexSteps, ¬ (v 0 = 0 ∧ v 1 = 0)) v hv ⟨hz 0, hz 1⟩
  have flip : ∀ {c c' : Fin 2 → ℤ}, (∃ v ∈ hexSteps, ∀ k, n k ∣ c' k - c k - v k) → ∃ v ∈ hexSteps, ∀ k, n k ∣ c k - c' k - v k := by
    rintro c c' ⟨v, hv, hd⟩
    refine ⟨fun k => - v k, (by decide : ∀ v ∈ hexSteps, (fun k => - v k) ∈ hexSteps) v hv, fun k => ?_⟩
    have e : c k - c' k - - v k = - (c' k - c k - v k) := by ring
    rw [e]; exact (dvd_neg).2 (hd k)
  have dist : ∀ {c c' : Fin 2 → ℤ}, (∀ k, 0 ≤ c k ∧ c k < n k) → (∀ k, 0 ≤ c' k ∧ c' k < n k) → c ≠ c' →
      (A.dist (Dbl.scaled Dbl.honeyLattice n) (hexStored c') (hexStored c) < fl (1 + fl (1 / 100)) ↔ ∃ v ∈ hexSteps, ∀ k, n k ∣ c' k - c k - v k) ∧
      ((∃ v ∈ hexSteps, ∀ k, n k ∣ c' k - c k - v k) → |A.dist (Dbl.scaled Dbl.honeyLattice n) (hexStored c') (hexStored c) - 1| ≤ 1 / 400) := by
    intro c c' hc hc' hne
    obtain ⟨d1, d2⟩ := h.dist hc' hc hne.symm
    refine ⟨⟨fun hlt => ?_, fun hv => ?_⟩, fun hv => d1 (flip hv)⟩
    · by_contra hno
      have := d2 fun hv => hno (flip hv)
      linarith [cut.2]
    · have := abs_le.1 (d1 (flip hv))
      linarith [cut.1]
  have nbr : ∀ i j (c c' : Fin 2 → ℤ), (∀ k, 0 ≤ c k ∧ c k < n k) → (∀ k, 0 ≤ c' k ∧ c' k < n k) →
        S.siteLocation i = .ok (hexStored c) → S.siteLocation j = .ok (hexStored c') →
        (j ∈ g.neighborsOf i ↔ ∃ v ∈ hexSteps, ∀ k, n k ∣ c' k - c k - v k) := by
    intro i j c c' hc hc' hi hj
    rw [mem_neighborsOf_iff_weighted]
    simp only [hw]
    by_cases hne : c = c'
    · subst hne
      have : i = j := hinj _ _ _ hi hj
      subst this
      exact ⟨fun ⟨_, _, _, _, _, e, _⟩ => absurd rfl e, fun hv => absurd hv (nostep c)⟩
    · have hij : i ≠ j := by
        rintro rfl
        rw [hi] at hj
        injection hj with hj
        exact hne (hexStored_inj (fun k => (hn k).2) hc hc' hj)
      obtain ⟨t, ht, e⟩ := siteLocation_iff.1 hi
      obtain ⟨t', ht', e'⟩ := siteLocation_iff.1 hj
      rw [← (dist hc hc' hne).1]
      constructor
      · rintro ⟨w, u, u', h1, h2, -, h3, -⟩
        rw [ht] at h1; injection h1 with h1; subst h1
        rw [ht'] at h2; injection h2 with h2; subst h2
        rwa [e, e'] at h3
      · intro hlt
        exact ⟨_, t, t', ht, ht', hij, by rw [e, e']; exact hlt, rfl⟩
  have ids : ∀ {i t}, S.getSite i = some t → i ∈ S.siteIds := fun {i t} ht =>
    List.mem_range.2 (A.id_of_getSite_built _ ht).2
  have wts : ∀ i j w, (j, w) ∈ g.weightedNeighborsOf i → i ∈ S.siteIds ∧ j ∈ S.siteIds ∧ ∃ k : ℤ, w = some (fl ((k : ℚ) / 1000)) ∧ |k - 1000| ≤ 2 := by
    intro i j w hm
    obtain ⟨t, t', h1, h2, hne, h3, rfl⟩ := (hw i j w).1 hm
    obtain ⟨c, hc, rfl, -⟩ := h.siteCell h1
    obtain ⟨c', hc', rfl, -⟩ := h.siteCell h2
    have hcc : c ≠ c' := by
      rintro rfl
      exact hne (hinj i j _ (by rw [siteLocation, h1]) (by rw [siteLocation, h2]))
    have hd := (dist hc hc' hcc).2 ((dist hc hc' hcc).1.1 h3)
    obtain ⟨k, hk⟩ : ∃ k : ℤ, A.dist (Dbl.scaled Dbl.honeyLattice n) (hexStored c') (hexStored c) = fl ((k : ℚ) / 1000) := ⟨_, rfl⟩
    refine ⟨ids h1, ids h2, k, by simp only; rw [hk], ?_⟩
    rw [hk] at hd
    have e1 := fl_err ((k : ℚ) / 1000)
    have e2 := abs_le.1 hd
    rw [abs_div, abs_of_pos (by norm_num : (0 : ℚ) < 1000)] at e1
    have e3 := abs_le.1 e1
    have hk : |(k : ℚ)| ≤ 1500 := by
      have := neg_abs_le (k : ℚ)
      have := le_abs_self (k : ℚ)
      rcases abs_cases (k : ℚ) with ⟨e, -⟩ | ⟨e, -⟩ <;> rw [e] at e3 ⊢ <;> norm_num at e3 ⊢ <;> linarith
    have e4 := abs_le.1 (e1.trans (by gcongr : |(k : ℚ)| / 1000 / 2 ^ 53 ≤ 1500 / 1000 / 2 ^ 53))
    have : |((k - 1000 : ℤ) : ℚ)| < ((3 : ℤ) : ℚ) := by
      push_cast
      rw [abs_lt]; constructor <;> norm_num at e4 ⊢ <;> linarith
    rw [← Int.cast_abs, Int.cast_lt] at this
    omega
  refine ⟨g, hg, nbr, wts, fun i hi => ?_⟩
  obtain ⟨-, c, hc, hci⟩ := hid i hi
  have hbox : ∀ v : Fin 2 → ℤ, ∀ k, 0 ≤ wrapCell n (fun k => c k + v k) k ∧ wrapCell n (fun k => c k + v k) k < n k :=
    fun v => wrapCell_inBox (fun k => (hn k).1) _
  choose f hf1 hf2 using fun v : Fin 2 → ℤ => hcell _ (hbox v)
  have hmod : ∀ (v : Fin 2 → ℤ) k, n k ∣ wrapCell n (fun k => c k + v k) k - c k - v k := fun v k => by
    have := Int.dvd_self_sub_emod (x := c k + v k) (m := n k)
    have e : wrapCell n (fun k => c k + v k) k - c k - v k = - (c k + v k - (c k + v k) % n k) := by rw [wrapCell]; ring
    rw [e]; exact (dvd_neg).2 this
  have small : ∀ {v w : Fin 2 → ℤ}, v ∈ hexSteps → w ∈ hexSteps → (∀ k, n k ∣ v k - w k) → v = w := by
    intro v w hv hw hd
    funext k
    have bv := abs_le.1 ((by decide : ∀ v ∈ hexSteps, ∀ k, |v k| ≤ 1) v hv k)
    have bw := abs_le.1 ((by decide : ∀ v ∈ hexSteps, ∀ k, |v k| ≤ 1) w hw k)
    have := hn k
    exact sub_eq_zero.1 (Int.eq_zero_of_abs_lt_dvd (hd k) (by rw [abs_lt]; omega))
  have hperm : (g.neighborsOf i).Perm (hexSteps.map f) := by
    rw [List.perm_ext_iff_of_nodup (g.nodup_neighbors i)]
    · intro j
      rw [List.mem_map]
      constructor
      · intro hj
        obtain ⟨w, hjw⟩ := mem_neighborsOf_iff_weighted.1 hj
        obtain ⟨-, c', hc', hcj⟩ := hid j (wts i j w hjw).2.1
        obtain ⟨v, hv, hdv⟩ := (nbr i j c c' hc hc' hci hcj).1 hj
        refine ⟨v, hv, hinj _ _ _ (hf2 v) ?_⟩
        have : c' = wrapCell n fun k => c k + v k := by
          funext k
          have h1 := hc' k
          have h2 := hbox v k
          refine sub_eq_zero.1 (Int.eq_zero_of_abs_lt_dvd (m := n k) ?_ (by rw [abs_lt]; omega))
          have := dvd_sub (hdv k) (hmod v k)
          have e : c' k - c k - v k - (wrapCell n (fun k => c k + v k) k - c k - v k) = c' k - wrapCell n (fun k => c k + v k) k := by ring
          rwa [e] at this
        rw [← this]; exact hcj
      · rintro ⟨v, hv, rfl⟩
        exact (nbr i _ c _ hc (hbox v) hci (hf2 v)).2 ⟨v, hv, hmod v⟩
    · refine List.Nodup.map_on (fun v hv w hw e => small hv hw fun k => ?_) (by decide)
      have e1 := hf2 v
      rw [e, hf2 w] at e1
      injection e1 with e1
      have e2 := hexStored_inj (fun k => (hn k).2) (hbox w) (hbox v) e1
      have h1 := hmod v k
      have h2 := hmod w k
      rw [← e2] at h1
      have := dvd_sub h2 h1
      have e : wrapCell n (fun k => c k + w k) k - c k - w k - (wrapCell n (fun k => c k + w k) k - c k - v k) = v k - w k := by ring
      rwa [e] at this
  rw [hperm.length_eq]; rfl

end

/-! ### the inverse -/

/-- Close to one. -/
def NearOne (k x : ℚ) : Prop := |x - 1| ≤ k / 2 ^ 53

theorem NearOne.mul {k m x y : ℚ} (hk : k ≤ 16) (hm : m ≤ 16) (hx : NearOne k x) (hy : NearOne m y) : NearOne (k + m + 1 / 1000) (x * y) := by
  have e : x * y - 1 = (x - 1) + (y - 1) + (x - 1) * (y - 1) := by ring
  have h1 : |(x - 1) * (y - 1)| ≤ 16 / 2 ^ 53 * (16 / 2 ^ 53) := by
    rw [abs_mul]
    exact mul_le_mul (hx.trans (by gcongr)) (hy.trans (by gcongr)) (abs_nonneg _) (by positivity)
  have h2 := abs_le.1 hx
  have h3 := abs_le.1 hy
  have h4 := abs_le.1 h1
  rw [NearOne, e, abs_le]
  constructor <;> norm_num at h2 h3 h4 ⊢ <;> linarith

theorem NearOne.inv {k x : ℚ} (hk : k ≤ 16) (hx : NearOne k x) : NearOne (k + 1 / 1000) (1 / x) := by
  have k0 : 0 ≤ k := by
    have := (abs_nonneg _).trans hx
    by_contra hlt
    have : k / 2 ^ 53 < 0 := div_neg_of_neg_of_pos (not_le.1 hlt) (by positivity)
    linarith
  have h2 := abs_le.1 hx
  have hpos : 1 - 16 / 2 ^ 53 ≤ x := by norm_num at h2 ⊢; linarith
  have x0 : 0 < x := lt_of_lt_of_le (by norm_num) hpos
  have e : 1 / x - 1 = -((x - 1) / x) := by field_simp; ring
  rw [NearOne, e, abs_neg, abs_div, abs_of_pos x0, div_le_iff₀ x0]
  refine hx.trans ?_
  have h5 : k / 2 ^ 53 ≤ (k + 1 / 1000) / 2 ^ 53 * (1 - 16 / 2 ^ 53) := by norm_num; linarith
  exact h5.trans (mul_le_mul_of_nonneg_left hpos (by positivity))

theorem NearOne.ne_zero {k x : ℚ} (hk : k ≤ 16) (hx : NearOne k x) : x ≠ 0 := by
  rintro rfl
  rw [NearOne, zero_sub, abs_neg, abs_one] at hx
  have : k / 2 ^ 53 ≤ 16 / 2 ^ 53 := by gcongr
  norm_num at this hx
  linarith

theorem fl_near (x : ℚ) : ∃ f, NearOne 1 f ∧ fl x = x * f := by
  by_cases hx : x = 0
  · exact ⟨1, by rw [NearOne, sub_self, abs_zero]; positivity, by rw [hx, fl_zero, zero_mul]⟩
  · refine ⟨fl x / x, ?_, by field_simp⟩
    have h1 := fl_err x
    have e : fl x / x - 1 = (fl x - x) / x := by field_simp
    rw [NearOne, e, abs_div, div_le_iff₀ (abs_pos.2 hx)]
    linarith

theorem QuotOf.near {a b q : ℚ} (h : QuotOf a b q) : ∃ f, NearOne (2001 / 1000) f ∧ q = a / b * f := by
  rcases h with rfl | rfl
  · obtain ⟨f, hf, e⟩ := fl_near (a / b)
    exact ⟨f, hf.trans (by gcongr; norm_num), e⟩
  · obtain ⟨f, hf, e⟩ := fl_near (1 / b)
    obtain ⟨f', hf', e'⟩ := fl_near (a * fl (1 / b))
    refine ⟨f * f', (hf.mul (by norm_num) (by norm_num) hf').trans (by gcongr; norm_num), ?_⟩
    rw [e', e]; ring

theorem QuotOf.double {a b q : ℚ} (h : QuotOf a b q) : IsDouble q := by
  rcases h with rfl | rfl <;> exact isDouble_fl _

theorem MinusOf.double {a x y r : ℚ} (h : MinusOf a x y r) : IsDouble r := by
  rcases h with rfl | rfl <;> exact isDouble_fl _

theorem MinusOf.zero_right {a x r : ℚ} (ha : IsDouble a) (h : MinusOf a x 0 r) : r = a := by
  rcases h with rfl | rfl <;> simp [fl_zero, fl_of_isDouble ha]

theorem MinusOf.zero_left {a y r : ℚ} (ha : IsDouble a) (h : MinusOf a 0 y r) : r = a := by
  rcases h with rfl | rfl <;> simp [fl_zero, fl_of_isDouble ha]

theorem MinusOf.neg {x y r : ℚ} (h : MinusOf 0 x y r) : ∃ f, NearOne 1 f ∧ r = -(x * y) * f := by
  have e : r = fl (-(x * y)) := by
    rcases h with rfl | rfl
    · rw [zero_sub, ← fl_neg, fl_of_isDouble (isDouble_fl _)]
    · rw [zero_sub]
  rw [e]; exact fl_near _

theorem NearOne.scaled {k x y : ℚ} (hx : NearOne k x) : |y * x - y| ≤ k / 2 ^ 53 * |y| := by
  have e : y * x - y = (x - 1) * y := by ring
  rw [e, abs_mul]; exact mul_le_mul_of_nonneg_right hx (abs_nonneg _)

/-- Gaussian elimination on a lower triangular matrix. -/
theorem gauss_lower {a b s : ℚ} (ha : 0 < a) (hb : 0 < b) (hs : 0 < s) (ds : IsDouble s) {N : Matrix (Fin 2) (Fin 2) ℚ}
    (h : GaussOf !![a, 0; b, s] N) (i j : Fin 2) :
    |N i j - (!![1 / a, 0; -(b / (a * s)), 1 / s] : Matrix (Fin 2) (Fin 2) ℚ) i j| ≤ (1 / a + b / (a * s) + 1 / s) / 2 ^ 49 := by
  have d1 : IsDouble 1 := by have := isDouble_fl 1; rwa [show fl 1 = 1 by simpa using fl_int (m := 1) (by norm_num)] at this
  have d0 := isDouble_zero
  have pa : 0 < 1 / a := by positivity
  have pb : 0 < b / (a * s) := by positivity
  have ps : 0 < 1 / s := by positivity
  have fin : ∀ {k f y : ℚ}, NearOne k f → k ≤ 16 → |y| ≤ 1 / a + b / (a * s) + 1 / s → |y * f - y| ≤ (1 / a + b / (a * s) + 1 / s) / 2 ^ 49 := by
    intro k f y hf hk hy
    refine hf.scaled.trans ?_
    have : k / 2 ^ 53 * |y| ≤ 16 / 2 ^ 53 * (1 / a + b / (a * s) + 1 / s) := mul_le_mul (by gcongr) hy (abs_nonneg _) (by positivity)
    refine this.trans (le_of_eq ?_)
    ring
  obtain ⟨p, q, hpq, hpiv, l, u, hl, hu, hcol⟩ := h
  have cases := (by decide : ∀ p q : Fin 2, p ≠ q → (p = 0 ∧ q = 1) ∨ (p = 1 ∧ q = 0)) p q hpq
  obtain ⟨fl', hfl, el⟩ := hl.near
  rcases cases with ⟨rfl, rfl⟩ | ⟨rfl, rfl⟩
  · simp only [Matrix.of_apply, Matrix.cons_val_zero, Matrix.cons_val_one, Matrix.cons_val_fin_one] at hl hu hcol el hpiv
    have eu := hu.zero_right ds
    obtain ⟨⟨y0, hy0, hN10⟩, z0, hz0, hN00⟩ := hcol 0
    obtain ⟨⟨y1, hy1, hN11⟩, z1, hz1, hN01⟩ := hcol 1
    simp only [Matrix.one_apply_eq, Matrix.one_apply_ne (show (1 : Fin 2) ≠ 0 by decide), Matrix.one_apply_ne (show (0 : Fin 2) ≠ 1 by decide)] at hy0 hz0 hy1 hz1
    have ey0 : y0 = -l := by
      rcases hy0 with rfl | rfl <;> simp [fl_neg, fl_of_isDouble hl.double]
    have ey1 := hy1.zero_right d1
    have ez0 := hz0.zero_left d1
    have ez1 := hz1.zero_left d0
    subst eu ey0 ey1 ez0 ez1
    obtain ⟨f00, h00, e00⟩ := hN00.near
    obtain ⟨f10, h10, e10⟩ := hN10.near
    obtain ⟨f11, h11, e11⟩ := hN11.near
    have e01 : N 0 1 = 0 := by rcases hN01 with e | e <;> simpa using e
    revert i j
    refine vec2 (vec2 ?_ ?_) (vec2 ?_ ?_)
    · change |N 0 0 - 1 / a| ≤ _
      rw [e00]
      exact fin h00 (by norm_num) (by rw [abs_of_pos pa]; linarith)
    · change |N 0 1 - 0| ≤ _
      rw [e01, sub_zero, abs_zero]; positivity
    · change |N 1 0 - -(b / (a * u))| ≤ _
      have e : N 1 0 = -(b / (a * u)) * (fl' * f10) := by rw [e10, el]; field_simp
      rw [e]
      exact fin (hfl.mul (by norm_num) (by norm_num) h10) (by norm_num) (by rw [abs_neg, abs_of_pos pb]; linarith)
    · change |N 1 1 - 1 / u| ≤ _
      rw [e11]
      exact fin h11 (by norm_num) (by rw [abs_of_pos ps]; linarith)
  · simp only [Matrix.of_apply, Matrix.cons_val_zero, Matrix.cons_val_one, Matrix.cons_val_fin_one] at hl hu hcol el hpiv
    rw [abs_of_pos ha, abs_of_pos hb] at hpiv
    obtain ⟨⟨y0, hy0, hN10⟩, z0, hz0, hN00⟩ := hcol 0
    obtain ⟨⟨y1, hy1, hN11⟩, z1, hz1, hN01⟩ := hcol 1
    simp only [Matrix.one_apply_eq, Matrix.one_apply_ne (show (1 : Fin 2) ≠ 0 by decide), Matrix.one_apply_ne (show (0 : Fin 2) ≠ 1 by decide)] at hy0 hz0 hy1 hz1
    have ey1 : y1 = -l := by
      rcases hy1 with rfl | rfl <;> simp [fl_neg, fl_of_isDouble hl.double]
    have ey0 := hy0.zero_right d1
    subst ey0 ey1
    obtain ⟨fu, hfu, eu⟩ := hu.neg
    obtain ⟨fz, hfz, ez⟩ := hz0.neg
    obtain ⟨f00, h00, e00⟩ := hN00.near
    obtain ⟨f10, h10, e10⟩ := hN10.near
    obtain ⟨f11, h11, e11⟩ := hN11.near
    obtain ⟨f01, h01, e01⟩ := hN01.near
    have nl := hfl.ne_zero (by norm_num)
    have nu := hfu.ne_zero (by norm_num)
    have E10 : N 1 0 = -(b / (a * s)) * (1 / fl' * (1 / fu) * f10) := by rw [e10, eu, el]; field_simp
    have H10 := ((hfl.inv (by norm_num)).mul (by norm_num) (by norm_num) (hfu.inv (by norm_num))).mul (by norm_num) (by norm_num) h10
    have E00 : N 0 0 = 1 / a * (1 / fl' * (1 / fu) * f10 * fz * f00) := by rw [e00, ez, E10]; field_simp
    have H00 := (H10.mul (by norm_num) (by norm_num) hfz).mul (by norm_num) (by norm_num) h00
    have E11 : N 1 1 = 1 / s * (1 / fu * f11) := by rw [e11, eu, el]; field_simp
    have H11 := (hfu.inv (by norm_num)).mul (by norm_num) (by norm_num) h11
    revert i j
    refine vec2 (vec2 ?_ ?_) (vec2 ?_ ?_)
    · change |N 0 0 - 1 / a| ≤ _
      rw [E00]
      exact fin H00 (by norm_num) (by rw [abs_of_pos pa]; linarith)
    · change |N 0 1 - 0| ≤ _
      have hz : |z1| ≤ 6 / 2 ^ 53 := by
        have w : s * N 1 1 = 1 / fu * f11 := by rw [E11]; field_simp
        have H := abs_le.1 H11
        rw [← w] at H
        rcases hz1 with rfl | rfl
        · obtain ⟨g, hg, eg⟩ := fl_near (s * N 1 1)
          have G := hg.mul (by norm_num) (by norm_num) (w ▸ H11)
          rw [mul_comm, ← eg] at G
          have G' := abs_le.1 G
          have hf := fl_err (1 - fl (s * N 1 1))
          have hsm : |1 - fl (s * N 1 1)| ≤ 5 / 2 ^ 53 := by rw [abs_le]; constructor <;> norm_num at G' ⊢ <;> linarith
          have hf' := abs_le.1 (hf.trans (by gcongr : |1 - fl (s * N 1 1)| / 2 ^ 53 ≤ 5 / 2 ^ 53 / 2 ^ 53))
          have hsm' := abs_le.1 hsm
          rw [abs_le]; constructor <;> norm_num at hf' hsm' ⊢ <;> linarith
        · have hf := fl_err (1 - s * N 1 1)
          have hsm : |1 - s * N 1 1| ≤ 5 / 2 ^ 53 := by rw [abs_le]; constructor <;> norm_num at H ⊢ <;> linarith
          have hf' := abs_le.1 (hf.trans (by gcongr : |1 - s * N 1 1| / 2 ^ 53 ≤ 5 / 2 ^ 53 / 2 ^ 53))
          have hsm' := abs_le.1 hsm
          rw [abs_le]; constructor <;> norm_num at hf' hsm' ⊢ <;> linarith
      have hf : |f01| ≤ 2 := by
        have := abs_le.1 h01
        rw [abs_le]; constructor <;> norm_num at this ⊢ <;> linarith
      rw [sub_zero, e01, abs_mul, abs_div, abs_of_pos hb]
      have hab : 1 / b ≤ 1 / a := one_div_le_one_div_of_le ha hpiv
      calc |z1| / b * |f01| = |z1| * |f01| * (1 / b) := by ring
        _ ≤ 6 / 2 ^ 53 * 2 * (1 / a) := by gcongr
        _ ≤ (1 / a) / 2 ^ 49 := by norm_num; linarith [inv_pos.2 ha]
        _ ≤ _ := by gcongr; linarith
    · change |N 1 0 - -(b / (a * s))| ≤ _
      rw [E10]
      exact fin H10 (by norm_num) (by rw [abs_neg, abs_of_pos pb]; linarith)
    · change |N 1 1 - 1 / s| ≤ _
      rw [E11]
      exact fin H11 (by norm_num) (by rw [abs_of_pos ps]; linarith)

/-- C111: Gaussian elimination with partial pivoting, in double arithmetic, inverts the matrix of every honeycomb tiling well enough for the theorems above. -/
theorem C111_inverse (n : Fin 2 → ℤ) (hn : ∀ k, 3 ≤ n k ∧ n k ≤ 2 ^ 10) (N : Matrix (Fin 2) (Fin 2) ℚ)
    (h : GaussOf (Dbl.scaled Dbl.honeyLattice n).mat N) : InverseOf (Dbl.scaled Dbl.honeyLattice n).mat N := by
  have p : ∀ k, (0 : ℚ) < n k := fun k => by exact_mod_cast (by have := hn k; omega : 0 < n k)
  have r := honeyRoot_bounds (n := n 1) (by have := hn 1; omega)
  have hs : (0 : ℚ) < honeyRoot (n 1) / 2 * n 1 := mul_pos (by linarith) (p 1)
  have ds : IsDouble (honeyRoot (n 1) / 2 * n 1) := by
    have e : honeyRoot (n 1) / 2 * n 1 = fl (flSqrt 3 / 2 * n 1) := by rw [honeyRoot]; field_simp [(p 1).ne']
    rw [e]; exact isDouble_fl _
  have hinv := honey_inv (R := honeyRoot (n 1)) (by linarith) (n := n) (fun k => by have := hn k; omega)
  have e : ((honeyLattice (honeyRoot (n 1))).scaled n).mat = !![(n 0 : ℚ), 0; n 1 / 2, honeyRoot (n 1) / 2 * n 1] := by
    ext a b
    fin_cases a <;> fin_cases b <;> simp [honeyLattice, Lattice.scaled]
    ring
  rw [honey_scaled hn] at h ⊢
  intro i j
  rw [hinv]
  rw [e] at h
  have g := gauss_lower (p 0) (half_pos (p 1)) hs ds h i j
  have m : (!![1 / (n 0 : ℚ), 0; -((n 1 : ℚ) / 2 / (n 0 * (honeyRoot (n 1) / 2 * n 1))), 1 / (honeyRoot (n 1) / 2 * n 1)] : Matrix (Fin 2) (Fin 2) ℚ) =
      !![1 / (n 0 : ℚ), 0; -(1 / (n 0 * honeyRoot (n 1))), 2 / (n 1 * honeyRoot (n 1))] := by
    have r0 : honeyRoot (n 1) ≠ 0 := by linarith
    have := (p 0).ne'
    have := (p 1).ne'
    have e1 : -((n 1 : ℚ) / 2 / (n 0 * (honeyRoot (n 1) / 2 * n 1))) = -(1 / (n 0 * honeyRoot (n 1))) := by field_simp
    have e2 : 1 / (honeyRoot (n 1) / 2 * (n 1 : ℚ)) = 2 / (n 1 * honeyRoot (n 1)) := by field_simp
    rw [e1, e2]
  have t : 1 / (n 0 : ℚ) + (n 1 : ℚ) / 2 / (n 0 * (honeyRoot (n 1) / 2 * n 1)) + 1 / (honeyRoot (n 1) / 2 * n 1) =
      ∑ i, ∑ j, |(!![1 / (n 0 : ℚ), 0; -((n 1 : ℚ) / 2 / (n 0 * (honeyRoot (n 1) / 2 * n 1))), 1 / (honeyRoot (n 1) / 2 * n 1)] : Matrix (Fin 2) (Fin 2) ℚ) i j| := by
    have p0 := p 0
    have p1 := p 1
    simp only [Fin.sum_univ_two, Matrix.of_apply, Matrix.cons_val_zero, Matrix.cons_val_one, Matrix.cons_val_fin_one, abs_zero, add_zero, abs_neg]
    rw [abs_of_pos (by positivity : 0 < 1 / (n 0 : ℚ)), abs_of_pos (by positivity : 0 < 1 / (honeyRoot (n 1) / 2 * n 1)),
      abs_of_pos (by positivity : 0 < (n 1 : ℚ) / 2 / (n 0 * (honeyRoot (n 1) / 2 * n 1)))]
    ring
  rw [t] at g
  rw [m] at g
  exact g

/-! ### the hypotheses can be met -/

/-- Gaussian elimination with the pivot row `p`. -/
def gaussInv (M : Matrix (Fin 2) (Fin 2) ℚ) (p q : Fin 2) : Matrix (Fin 2) (Fin 2) ℚ :=
  let l := fl (M q 0 / M p 0)
  let u := fl (M q 1 - fl (l * M p 1))
  let I : Matrix (Fin 2) (Fin 2) ℚ := 1
  let low := fun j => fl (fl (I q j - fl (l * I p j)) / u)
  Matrix.of ![fun j => fl (fl (I p j - fl (M p 1 * low j)) / M p 0), low]

/-- Products from left to right and the inverse by Gaussian elimination. -/
def plainArith : Dbl.Arith 2 where
  vecMul v M j := fl (fl (v 0 * M 0 j) + fl (v 1 * M 1 j))
  sq v := fl (fl (v 0 * v 0) + fl (v 1 * v 1))
  inv M := if |M 1 0| ≤ |M 0 0| then gaussInv M 0 1 else gaussInv M 1 0

theorem plainArith_products : plainArith.Products := by
  have two : ∀ x y x' y' : ℚ, DotOf [(x, y), (x', y')] (fl (fl (x * y) + fl (x' * y'))) := fun x y x' y' => .add (.mul x y) (.mul x' y')
  exact ⟨fun v M j => by simpa [List.ofFn_succ, plainArith] using two (v 0) (M 0 j) (v 1) (M 1 j),
    fun v => by simpa [List.ofFn_succ, plainArith] using two (v 0) (v 0) (v 1) (v 1)⟩

theorem plainArith_gauss (M : Matrix (Fin 2) (Fin 2) ℚ) : GaussOf M (plainArith.inv M) := by
  by_cases hp : |M 1 0| ≤ |M 0 0|
  · rw [show plainArith.inv M = gaussInv M 0 1 from if_pos hp]
    exact ⟨0, 1, by decide, hp, _, _, .inl rfl, .inl rfl, fun j => ⟨⟨_, .inl rfl, .inl rfl⟩, _, .inl rfl, .inl rfl⟩⟩
  · rw [show plainArith.inv M = gaussInv M 1 0 from if_neg hp]
    exact ⟨1, 0, by decide, (not_le.1 hp).le, _, _, .inl rfl, .inl rfl, fun j => ⟨⟨_, .inl rfl, .inl rfl⟩, _, .inl rfl, .inl rfl⟩⟩

/-- C111 with nothing left open: products from left to right and Gaussian elimination, every size from 3 to 1024. -/
theorem C111_plain (n : Fin 2 → ℤ) (hn : ∀ k, 3 ≤ n k ∧ n k ≤ 2 ^ 10) :
    ∃ S g, Dbl.buildHoneycomb plainArith (.tup [n 0, n 1]) = .ok S ∧ Dbl.honeycombGet plainArith S = .ok g ∧
      S.siteIds.length = (n 0).toNat * (n 1).toNat ∧ ∀ i ∈ S.siteIds, (g.neighborsOf i).length = 6 := by
  have hinv := C111_inverse n hn _ (plainArith_gauss _)
  obtain ⟨S, hS, -, hids, -⟩ := C111_sites plainArith plainArith_products n hn hinv
  obtain ⟨g, hg, -, -, h6⟩ := C111_neighbours plainArith plainArith_products n hn hinv S hS
  exact ⟨S, g, hS, hg, by rw [hids, List.length_range], h6⟩

/-- A location that meets the hypothesis of `C111_lookup`: the stored location itself. -/
example (b : Fin 2 → ℤ) : ∀ i, |((hexStored b i : ℚ) : ℝ) - (hexStored b i + (hexCentre (√3) b i - hexCentre (√3) b i))| ≤ 1 / 2500 :=
  fun i => by simp

end Pyl
