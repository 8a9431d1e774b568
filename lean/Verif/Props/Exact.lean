import Verif.Props.Simulation
import Verif.Spec.Exact
/-
Exact conditions for C46, C47 and C93: which sites are found at their stored location, which structures and simulations can be read back, and which
come back unchanged.
-/
set_option autoImplicit false
set_option linter.unusedSectionVars false

namespace Pyl
open SimState Spec
open Pyl.Lattice

namespace Structure
section
variable {K : Type} [Field K] [LinearOrder K] [IsStrictOrderedRing K] [FloorRing K] {d : ℕ}

/-- C46, the exact condition: a site is found at its stored location iff that location is at the place the site was added at. -/
theorem C46_exact {L : Lattice K d} (h : L.Regular) (ops : List (String × (Fin d → K))) (j k : ℕ) (c : String) (x y : Fin d → K)
    (hj : ops[j]? = some (c, x)) (hk : (history (new L) ops).2[j]? = some (.ok k)) (hy : (history (new L) ops).1.siteLocation k = .ok y) :
    ((history (new L) ops).1.siteAt y = some ⟨c, y, k⟩ ↔ L.SamePlace x y) := by
  obtain ⟨acc, h1, h2, -, -, h5, -, -, -⟩ := history_new L ops
  have hacc := (h5 j k hk)
  rw [hj] at hacc
  rw [h1] at hy ⊢
  obtain ⟨t, ht, hty⟩ := siteLocation_iff.1 hy
  rw [getSite_built, hacc] at ht
  injection ht with ht
  subst ht
  simp only at hty
  rw [siteAt_built h2, ← keyOf_eq_iff h]
  constructor
  · rintro ⟨c', hc', e, -⟩
    simp only [hacc, Option.some.injEq] at hc'
    subst hc'
    exact e
  · intro e
    exact ⟨(c, x), hacc, e, by rw [hty]⟩

end

section
variable {d : ℕ}

theorem apart_iff {L : Lattice ℚ d} (h : L.Regular) (acc : List (String × (Fin d → ℚ))) :
    StoredApart (built L acc) ↔ Distinct L (acc.map fun c => (c.1, rounded (L.periodized c.2))) := by
  rw [Distinct, List.map_map, List.nodup_iff_injective_get]
  constructor
  · intro hd a b e
    have ha : (a : ℕ) < acc.length := by simpa using a.2
    have hb : (b : ℕ) < acc.length := by simpa using b.2
    refine Fin.ext (hd a b ⟨acc[(a : ℕ)].1, _, a⟩ ⟨acc[(b : ℕ)].1, _, b⟩ (by rw [getSite_built, List.getElem?_eq_getElem ha]; rfl)
      (by rw [getSite_built, List.getElem?_eq_getElem hb]; rfl) ((keyOf_eq_iff h).1 ?_))
    simpa using e
  · intro hd i j t u ht hu hs
    rw [getSite_built] at ht hu
    obtain ⟨c, hc, rfl⟩ := Option.map_eq_some_iff.1 ht
    obtain ⟨c', hc', rfl⟩ := Option.map_eq_some_iff.1 hu
    obtain ⟨hi, rfl⟩ := List.getElem?_eq_some_iff.1 hc
    obtain ⟨hj, rfl⟩ := List.getElem?_eq_some_iff.1 hc'
    have := @hd ⟨i, by simpa using hi⟩ ⟨j, by simpa using hj⟩ (by simpa using (keyOf_eq_iff h).2 hs)
    simpa using this

theorem well_iff {L : Lattice ℚ d} (h : L.Regular) (acc : List (String × (Fin d → ℚ))) (ha : Distinct L acc) :
    StoredWell (built L acc) ↔ built L (acc.map fun c => (c.1, rounded (L.periodized c.2))) = built L acc := by
  have hone : ∀ i c, acc[i]? = some c → (built L acc).siteAt (rounded (L.periodized c.2)) = some ⟨c.1, rounded (L.periodized c.2), i⟩ →
      keyOf L (rounded (L.periodized c.2)) = keyOf L c.2 := by
    intro i c hc hs
    obtain ⟨c', hc', e, -⟩ := (siteAt_built ha _ _).1 hs
    simp only [hc, Option.some.injEq] at hc'
    subst hc'
    exact e.symm
  constructor
  · intro hw
    have hk : ∀ ck ∈ acc.zipIdx, keyOf L (rounded (L.periodized ck.1.2)) = keyOf L ck.1.2 ∧
        rounded (L.periodized (rounded (L.periodized ck.1.2))) = rounded (L.periodized ck.1.2) := by
      rintro ⟨c, i⟩ hci
      rw [List.mem_zipIdx_iff_getElem?] at hci
      obtain ⟨h1, h2⟩ := hw i ⟨c.1, rounded (L.periodized c.2), i⟩ (by rw [getSite_built, hci]; rfl)
      exact ⟨hone i c hci h1, ((stored_iff h).1 h2).symm⟩
    simp only [built, List.length_map, List.zipIdx_map, List.map_map, mk.injEq, true_and]
    refine ⟨List.map_congr_left fun ck hck => ?_, List.map_congr_left fun ck hck => ?_⟩
    · simp only [Function.comp, Prod.map, id]
      rw [(hk ck hck).2]
    · simp only [Function.comp, Prod.map, id]
      rw [(hk ck hck).1]
  · intro e i t ht
    rw [getSite_built] at ht
    obtain ⟨c, hc, rfl⟩ := Option.map_eq_some_iff.1 ht
    have h1 := congrArg (fun S => S.getSite i) e
    simp only [getSite_built, List.getElem?_map, hc, Option.map_some, Option.some.injEq, Site.mk.injEq, true_and, and_true] at h1
    have hm : (keyOf L (rounded (L.periodized c.2)), i) ∈ (built L acc).lookup := by
      rw [← e]
      refine List.mem_map.2 ⟨((c.1, rounded (L.periodized c.2)), i), ?_, rfl⟩
      rw [List.mem_zipIdx_iff_getElem?, List.getElem?_map, hc]
      rfl
    have hwf : Dict.WF (built L acc).lookup := by rw [Dict.WF, keys_built_lookup]; exact ha
    obtain ⟨c', hc', e'⟩ := (get?_lookup_built ha _ _).1 ((Dict.mem_iff_get? hwf).1 hm)
    rw [hc] at hc'; injection hc' with hc'; subst hc'
    exact ⟨(siteAt_built ha _ _).2 ⟨c, hc, e', rfl⟩, (stored_iff h).2 h1.symm⟩

theorem reachable_built {S : Structure ℚ d} (hS : S.Reachable) : ∃ acc, S = built S.lattice acc ∧ Distinct S.lattice acc := by
  obtain ⟨h, ops, e⟩ := hS
  obtain ⟨acc, h1, h2, -⟩ := history_new S.lattice ops
  exact ⟨acc, e.trans h1, h2⟩

/-- C47, the exact condition: `from_dict(as_dict())` succeeds iff no two stored locations are at the same place, and otherwise raises AssertionError; the
same after a trip through JSON. -/
theorem C47_loads (hd : d ≠ 0) {S : Structure ℚ d} (hS : S.Reachable) :
    (StoredApart S ↔ ∃ T : Structure ℚ d, fromDict S.asDict = .ok ⟨d, T⟩) ∧ (¬ StoredApart S → fromDict S.asDict = .error .assertionError) ∧
      ∃ j, (Val.dict S.asDict).json = .dict j ∧ fromDict j = fromDict S.asDict := by
  obtain ⟨acc, e, hD⟩ := reachable_built hS
  have hL := hS.1
  generalize S.lattice = L at e hD hL
  subst e
  obtain ⟨e1, e2⟩ := fromDict_asDict (L := L) hd acc
  have hf := foldlM_addOrRaise (L := L) (acc.map fun c => (c.1, rounded (L.periodized c.2))) [] (by simp [Distinct])
  rw [built_nil, List.nil_append] at hf
  have hno : ¬ StoredApart (built L acc) → fromDict (built L acc).asDict = .error .assertionError := by
    intro hn
    rw [apart_iff hL] at hn
    rw [e1, hf.2 hn]
  refine ⟨⟨fun ha => ?_, fun ⟨T, hT⟩ => ?_⟩, hno, e2⟩
  · rw [apart_iff hL] at ha
    rw [e1, hf.1 ha]
    exact ⟨_, rfl⟩
  · by_contra hn
    rw [hno hn] at hT
    cases hT

/-- C47, the exact condition for coming back unchanged: every site is found at its stored location, and storing that location again does not move it. -/
theorem C47_same (hd : d ≠ 0) {S : Structure ℚ d} (hS : S.Reachable) : fromDict S.asDict = .ok ⟨d, S⟩ ↔ StoredWell S := by
  obtain ⟨acc, e, hD⟩ := reachable_built hS
  have hL := hS.1
  generalize S.lattice = L at e hD hL
  subst e
  obtain ⟨e1, -⟩ := fromDict_asDict (L := L) hd acc
  have hf := foldlM_addOrRaise (L := L) (acc.map fun c => (c.1, rounded (L.periodized c.2))) [] (by simp [Distinct])
  rw [built_nil, List.nil_append] at hf
  rw [well_iff hL acc hD]
  by_cases h : Distinct L (acc.map fun c => (c.1, rounded (L.periodized c.2)))
  · rw [e1, hf.1 h]
    constructor
    · intro e
      injection e with e
      simpa using e
    · intro e
      rw [e]
  · rw [e1, hf.2 h]
    constructor
    · intro e; cases e
    · intro e
      refine absurd ?_ h
      have := keys_built_lookup L (acc.map fun c => (c.1, rounded (L.periodized c.2)))
      rw [e, keys_built_lookup] at this
      rw [Distinct, ← this]
      exact hD

end
end Structure

/-- C93, the exact conditions: a simulation can be read back iff no two stored locations of its structure are at the same place (otherwise AssertionError),
and comes back unchanged iff the structure does; from the dict and from the file. -/
theorem C93_exact {d : ℕ} (hd : d ≠ 0) (sim : Simulation ℚ d) (hw : sim.state.WF) (hn : sim.state.JsonNative) (hS : sim.struct.Reachable) :
    ((∃ sim' : Simulation ℚ d, Simulation.fromDict sim.asDict = .ok ⟨d, sim'⟩) ↔ sim.struct.StoredApart) ∧
    ((∃ sim' : Simulation ℚ d, Simulation.fromFile sim.toFile = .ok ⟨d, sim'⟩) ↔ sim.struct.StoredApart) ∧
    (¬ sim.struct.StoredApart → Simulation.fromDict sim.asDict = .error .assertionError ∧ Simulation.fromFile sim.toFile = .error .assertionError) ∧
    (Simulation.fromDict sim.asDict = .ok ⟨d, sim⟩ ↔ sim.struct.StoredWell) ∧
    (Simulation.fromFile sim.toFile = .ok ⟨d, sim⟩ ↔ sim.struct.StoredWell) := by
  obtain ⟨h1, h2, j, hj, h3⟩ := Structure.C47_loads hd hS
  have h4 := Structure.C47_same hd hS
  obtain ⟨j', hj', h5⟩ := C10_round_trip sim.state hw hn
  cases hr : Structure.fromDict sim.struct.asDict with
  | error e =>
    have hdict : Simulation.fromDict sim.asDict = .error e := sim_fromDict_of (state_fromDict_asDict hw hn.ids) hr
    have hfile : Simulation.fromFile sim.toFile = .error e := by
      rw [toFile_of hj' hj]
      exact sim_fromDict_of h5 (h3.trans hr)
    rw [hr] at h1 h2 h4
    rw [hfile, hdict]
    simp only [reduceCtorEq, exists_false, iff_false, false_iff] at h1 h4 ⊢
    refine ⟨h1, h1, fun h => ?_, h4, h4⟩
    have := h2 h
    injection this with this
    subst this
    exact ⟨rfl, rfl⟩
  | ok s =>
    obtain ⟨d', T⟩ := s
    have hdict : Simulation.fromDict sim.asDict = .ok ⟨d', ⟨sim.state, T⟩⟩ := sim_fromDict_of (state_fromDict_asDict hw hn.ids) hr
    have hfile : Simulation.fromFile sim.toFile = .ok ⟨d', ⟨sim.state, T⟩⟩ := by
      rw [toFile_of hj' hj]
      exact sim_fromDict_of h5 (h3.trans hr)
    rw [hr] at h1 h2 h4
    rw [hfile, hdict]
    have key : (∃ sim' : Simulation ℚ d, (.ok ⟨d', ⟨sim.state, T⟩⟩ : Py (Σ d, Simulation ℚ d)) = .ok ⟨d, sim'⟩) ↔ sim.struct.StoredApart := by
      rw [h1]
      constructor
      · rintro ⟨sim', h⟩
        injection h with h
        simp only [Sigma.mk.injEq] at h
        obtain ⟨rfl, -⟩ := h
        exact ⟨T, rfl⟩
      · rintro ⟨T', h⟩
        injection h with h
        simp only [Sigma.mk.injEq] at h
        obtain ⟨rfl, h⟩ := h
        exact ⟨⟨sim.state, T⟩, rfl⟩
    have same : (.ok ⟨d', ⟨sim.state, T⟩⟩ : Py (Σ d, Simulation ℚ d)) = .ok ⟨d, sim⟩ ↔ sim.struct.StoredWell := by
      rw [← h4]
      constructor
      · intro h
        injection h with h
        simp only [Sigma.mk.injEq] at h
        obtain ⟨rfl, h⟩ := h
        rw [← eq_of_heq h]
      · intro h
        injection h with h
        simp only [Sigma.mk.injEq] at h
        obtain ⟨rfl, h⟩ := h
        rw [eq_of_heq h]
    refine ⟨key, key, fun hna => ?_, same, same⟩
    cases h2 hna

/-- Both outcomes occur: every square grid is stored apart and well; of the structure with sites at 0 and 0.9996 neither is true (`C47_false`). -/
example : ∃ S : Structure ℚ 2, buildSquare2 (.int 3) = .ok S ∧ S.Reachable ∧ S.StoredApart ∧ S.StoredWell ∧ S.siteIds ≠ [] := by
  obtain ⟨S, h1, ht, -⟩ := completeTorus (K := ℚ) isGrid2 (fun _ => 3) fun _ => by norm_num
  obtain ⟨h, hL, ops, hops, e⟩ := ht.reach
  have h2 := (Structure.C47_aligned_partial (by decide) h hL ops hops).1
  rw [← e] at h2
  exact ⟨S, h1, ht.reachable, (Structure.C47_loads (by decide) ht.reachable).1.2 ⟨S, h2⟩, (Structure.C47_same (by decide) ht.reachable).1 h2, ht.ids_ne⟩

example : ∃ S : Structure ℚ 1, S.Reachable ∧ ¬ S.StoredApart ∧ ¬ S.StoredWell := by
  obtain ⟨h, -, h2⟩ := Structure.C47_false
  have hR : (Structure.history (Structure.new Structure.unitCell) [("A", ![0]), ("B", ![9996/10000])]).1.Reachable := by
    obtain ⟨acc, h3, -⟩ := Structure.history_new Structure.unitCell [("A", ![0]), ("B", ![9996/10000])]
    have hl : (Structure.history (Structure.new Structure.unitCell) [("A", ![0]), ("B", ![9996/10000])]).1.lattice = Structure.unitCell := by rw [h3]; rfl
    exact ⟨by rw [hl]; exact h, [("A", ![0]), ("B", ![9996/10000])], by rw [hl]⟩
  refine ⟨_, hR, fun ha => ?_, fun hw => ?_⟩
  · obtain ⟨T, hT⟩ := (Structure.C47_loads (by decide) hR).1.1 ha
    rw [h2] at hT; cases hT
  · have := (Structure.C47_same (by decide) hR).2 hw
    rw [h2] at this; cases this

end Pyl
