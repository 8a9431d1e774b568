import Verif.Model.Neighborhood
import Verif.Props.StructureJson
/-
What the neighbourhood builders build.
-/
set_option autoImplicit false
set_option linter.unusedSectionVars false

namespace Pyl
open Pyl.Lattice Structure
variable {K : Type} [Field K] [LinearOrder K] [IsStrictOrderedRing K] [FloorRing K] {d : ℕ}

/-! ### reachable structures -/

theorem Structure.Reachable.built {s : Structure K d} (h : s.Reachable) :
    ∃ acc, s = Structure.built s.lattice acc ∧ Distinct s.lattice acc := by
  obtain ⟨-, ops, e⟩ := h
  obtain ⟨acc, h1, h2, -⟩ := history_new s.lattice ops
  exact ⟨acc, e.trans h1, h2⟩

theorem values_built (L : Lattice K d) (acc : List (String × (Fin d → K))) :
    (built L acc).sitesOf none = acc.zipIdx.map fun ck => (⟨ck.1.1, rounded (L.periodized ck.1.2), ck.2⟩ : Site K d) := by
  simp only [sitesOf, Dict.values, built, List.map_map, Function.comp_def]

theorem length_sitesOf_built (L : Lattice K d) (acc : List (String × (Fin d → K))) : ((built L acc).sitesOf none).length = acc.length := by
  rw [values_built]; simp

theorem ids_built (L : Lattice K d) (acc : List (String × (Fin d → K))) :
    ((built L acc).sitesOf none).map Site.id = List.range acc.length := by
  rw [values_built, List.map_map]
  exact (List.zipIdx_map_snd 0 acc).trans List.range_eq_range'.symm

theorem mem_sitesOf_built {L : Lattice K d} {acc : List (String × (Fin d → K))} {t : Site K d} :
    t ∈ (built L acc).sitesOf none ↔ (built L acc).getSite t.id = some t := by
  rw [values_built, getSite_built, List.mem_map]
  constructor
  · rintro ⟨⟨c, k⟩, h, rfl⟩
    rw [List.mem_zipIdx_iff_getElem?] at h
    simp only at h ⊢
    rw [h]; rfl
  · intro h
    cases hc : acc[t.id]? with
    | none => rw [hc] at h; cases h
    | some c =>
      rw [hc] at h
      exact ⟨(c, t.id), by rw [List.mem_zipIdx_iff_getElem?]; exact hc, by simpa using h⟩

theorem mem_sitesOf {s : Structure K d} (h : s.Reachable) {t : Site K d} : t ∈ s.sitesOf none ↔ s.getSite t.id = some t := by
  obtain ⟨acc, e, -⟩ := h.built
  rw [e]; exact mem_sitesOf_built

theorem mem_sitesOf_class {s : Structure K d} (h : s.Reachable) {t : Site K d} {cls : Option String} :
    t ∈ s.sitesOf cls ↔ s.getSite t.id = some t ∧ ∀ c, cls = some c → t.cls = c := by
  rw [← mem_sitesOf h]
  cases cls with
  | none => simp
  | some c => simp [sitesOf]

theorem nodup_ids {s : Structure K d} (h : s.Reachable) : ((s.sitesOf none).map Site.id).Nodup := by
  obtain ⟨acc, e, -⟩ := h.built
  rw [e, ids_built]; exact List.nodup_range

theorem siteIds_eq {s : Structure K d} (h : s.Reachable) : s.siteIds = List.range (s.sitesOf none).length := by
  obtain ⟨acc, e, -⟩ := h.built
  rw [e, length_sitesOf_built]; rfl

theorem id_of_getSite {s : Structure K d} (h : s.Reachable) {i : ℕ} {t : Site K d} (ht : s.getSite i = some t) : t.id = i := by
  obtain ⟨acc, e, -⟩ := h.built
  rw [e, getSite_built] at ht
  cases hc : acc[i]? with
  | none => rw [hc] at ht; cases ht
  | some c => rw [hc] at ht; simp only [Option.map_some, Option.some.injEq] at ht; rw [← ht]

theorem getSite_isSome_iff {s : Structure K d} (h : s.Reachable) {i : ℕ} : (∃ t, s.getSite i = some t) ↔ i < (s.sitesOf none).length := by
  obtain ⟨acc, e, -⟩ := h.built
  rw [e, length_sitesOf_built]
  simp only [getSite_built]
  constructor
  · rintro ⟨t, ht⟩
    by_contra hc
    rw [List.getElem?_eq_none (by omega)] at ht; cases ht
  · intro hi
    exact ⟨_, by rw [List.getElem?_eq_getElem hi]; rfl⟩

theorem getSite_of_siteAt {s : Structure K d} (h : s.Reachable) {x : Fin d → K} {t : Site K d} (ht : s.siteAt x = some t) :
    s.getSite t.id = some t := by
  obtain ⟨acc, e, hd⟩ := h.built
  rw [e] at ht ⊢
  obtain ⟨c, h1, h2, h3⟩ := (siteAt_built hd x t).1 ht
  rw [getSite_built, h1]
  exact congrArg some h3.symm

theorem siteLocation_iff {s : Structure K d} {i : ℕ} {x : Fin d → K} :
    s.siteLocation i = .ok x ↔ ∃ t, s.getSite i = some t ∧ t.loc = x := by
  rw [siteLocation]
  cases s.getSite i with
  | none => simp
  | some t => simp

theorem siteClass_iff {s : Structure K d} {i : ℕ} {c : String} :
    s.siteClass i = .ok c ↔ ∃ t, s.getSite i = some t ∧ t.cls = c := by
  rw [siteClass]
  cases s.getSite i with
  | none => simp
  | some t => simp

/-! ### graphs -/

theorem Graph.mem_neighbors {g : Graph K} {i j : ℕ} : j ∈ g.neighborsOf i ↔ ∃ w, (i, j, w) ∈ g.edges := by
  simp only [Graph.neighborsOf, Graph.neighbors, List.mem_dedup, List.mem_map, List.mem_filter, decide_eq_true_eq]
  constructor
  · rintro ⟨⟨a, b, w⟩, ⟨h1, h2⟩, h3⟩
    simp only at h2 h3
    subst h2 h3
    exact ⟨w, h1⟩
  · rintro ⟨w, h⟩
    exact ⟨(i, j, w), ⟨h, rfl⟩, rfl⟩

theorem Graph.nodup_neighbors (g : Graph K) (i : ℕ) : (g.neighborsOf i).Nodup := List.nodup_dedup _

/-- If all edges from `i` to `j` have the same weight, that is the weight read. -/
theorem Graph.edgeData_eq {g : Graph K} {i j : ℕ} {w : Option K} (hm : (i, j, w) ∈ g.edges)
    (ha : ∀ w', (i, j, w') ∈ g.edges → w' = w) : g.edgeData i j = w := by
  unfold Graph.edgeData
  have hmem : (i, j, w) ∈ g.edges.filter fun e => e.1 = i ∧ e.2.1 = j := by simp [hm]
  cases hl : (g.edges.filter fun e => e.1 = i ∧ e.2.1 = j).getLast? with
  | none => rw [List.getLast?_eq_none_iff] at hl; rw [hl] at hmem; cases hmem
  | some e =>
    have he := List.mem_of_getLast? hl
    obtain ⟨a, b, w'⟩ := e
    simp only [List.mem_filter, decide_eq_true_eq] at he
    obtain ⟨h1, h2, h3⟩ := he
    subst h2 h3
    exact ha w' h1

theorem Graph.mem_weighted {g : Graph K} {i j : ℕ} {w : Option K} :
    (j, w) ∈ g.weightedNeighborsOf i ↔ j ∈ g.neighborsOf i ∧ w = g.edgeData i j := by
  simp only [Graph.weightedNeighborsOf, List.mem_map, Prod.mk.injEq]
  constructor
  · rintro ⟨a, h1, rfl, rfl⟩; exact ⟨h1, rfl⟩
  · rintro ⟨h1, rfl⟩; exact ⟨j, h1, rfl, rfl⟩

/-- The edges from `i` that a list of neighbours gives. -/
def edgesFrom (i : ℕ) (nbs : List (Option ℕ × Option K)) : List (ℕ × ℕ × Option K) :=
  nbs.filterMap fun nb => nb.1.map fun j => (i, j, nb.2)

theorem mem_edgesFrom {i : ℕ} {nbs : List (Option ℕ × Option K)} {a b : ℕ} {w : Option K} :
    (a, b, w) ∈ edgesFrom i nbs ↔ a = i ∧ (some b, w) ∈ nbs := by
  simp only [edgesFrom, List.mem_filterMap, Option.map_eq_some_iff, Prod.mk.injEq]
  constructor
  · rintro ⟨⟨o, w'⟩, h, j, h1, rfl, rfl, rfl⟩
    simp only at h1; subst h1
    exact ⟨rfl, h⟩
  · rintro ⟨rfl, h⟩
    exact ⟨_, h, b, rfl, rfl, rfl, rfl⟩

theorem foldlM_addEdge (g : Graph K) (i : ℕ) (nbs : List (Option ℕ × Option K)) (hi : i < g.numNodes)
    (hn : ∀ nb ∈ nbs, ∀ j, nb.1 = some j → j < g.numNodes) :
    ((∀ nb ∈ nbs, nb.1 ≠ none) → nbs.foldlM (fun g nb => g.addEdge i nb) g = .ok ⟨g.numNodes, g.edges ++ edgesFrom i nbs⟩) ∧
    ((∃ nb ∈ nbs, nb.1 = none) → nbs.foldlM (fun g nb => g.addEdge i nb) g = .error .typeError) := by
  induction nbs generalizing g with
  | nil => simp [edgesFrom, pure, Except.pure]
  | cons nb nbs ih =>
    obtain ⟨o, w⟩ := nb
    rw [List.foldlM_cons]
    cases o with
    | none =>
      refine ⟨fun h => absurd rfl (h (none, w) (by simp)), fun _ => rfl⟩
    | some j =>
      have hj : j < g.numNodes := hn _ (List.mem_cons_self) j rfl
      have e : g.addEdge i (some j, w) = .ok { g with edges := g.edges ++ [(i, j, w)] } := by
        simp only [Graph.addEdge]; rw [if_pos ⟨hi, hj⟩]
      rw [e, ok_bind]
      obtain ⟨i1, i2⟩ := ih { g with edges := g.edges ++ [(i, j, w)] } hi fun nb hnb j' hj' => hn nb (List.mem_cons_of_mem _ hnb) j' hj'
      refine ⟨fun h => ?_, fun ⟨nb, hnb, h0⟩ => ?_⟩
      · rw [i1 fun nb hnb => h nb (List.mem_cons_of_mem _ hnb)]
        simp [edgesFrom]
      · rcases List.mem_cons.1 hnb with rfl | hnb
        · cases h0
        · exact i2 ⟨nb, hnb, h0⟩

/-- The loop over the sites, with the neighbours found for each of them. -/
theorem foldlM_connect (m : ℕ) (nbs : Site K d → List (Option ℕ × Option K)) (ts : List (Site K d)) (hlt : ∀ t ∈ ts, t.id < m)
    (hn : ∀ t ∈ ts, ∀ nb ∈ nbs t, ∀ j, nb.1 = some j → j < m) (es : List (ℕ × ℕ × Option K)) :
    ((∀ t ∈ ts, ∀ nb ∈ nbs t, nb.1 ≠ none) →
      ts.foldlM (fun (g : Graph K) t => (nbs t).foldlM (fun g nb => g.addEdge t.id nb) g) ⟨m, es⟩ =
        .ok ⟨m, es ++ ts.flatMap fun t => edgesFrom t.id (nbs t)⟩) ∧
    ((∃ t ∈ ts, ∃ nb ∈ nbs t, nb.1 = none) →
      ts.foldlM (fun (g : Graph K) t => (nbs t).foldlM (fun g nb => g.addEdge t.id nb) g) ⟨m, es⟩ = .error .typeError) := by
  induction ts generalizing es with
  | nil => simp [pure, Except.pure]
  | cons t ts ih =>
    obtain ⟨f1, f2⟩ := foldlM_addEdge ⟨m, es⟩ t.id (nbs t) (hlt t List.mem_cons_self) (hn t List.mem_cons_self)
    obtain ⟨i1, i2⟩ := ih (fun t ht => hlt t (List.mem_cons_of_mem _ ht)) (fun t ht => hn t (List.mem_cons_of_mem _ ht))
      (es ++ edgesFrom t.id (nbs t))
    rw [List.foldlM_cons]
    by_cases hc : ∀ nb ∈ nbs t, nb.1 ≠ none
    · rw [f1 hc, ok_bind]
      refine ⟨fun hh => ?_, fun ⟨t', ht', nb, hnb, h0⟩ => ?_⟩
      · rw [i1 fun t ht => hh t (List.mem_cons_of_mem _ ht)]
        simp
      · rcases List.mem_cons.1 ht' with rfl | ht'
        · exact absurd h0 (hc nb hnb)
        · exact i2 ⟨t', ht', nb, hnb, h0⟩
    · push Not at hc
      rw [f2 hc]
      refine ⟨fun hh => ?_, fun _ => rfl⟩
      obtain ⟨nb, hnb, h0⟩ := hc
      exact absurd h0 (hh t List.mem_cons_self nb hnb)

namespace Builder

theorem getNeighbors_lt {s : Structure K d} (h : s.Reachable) (b : Builder K d) (t : Site K d) (nb : Option ℕ × Option K)
    (hnb : nb ∈ b.getNeighbors t s) (j : ℕ) (hj : nb.1 = some j) : j < (s.sitesOf none).length ∧ j ≠ t.id := by
  rw [← getSite_isSome_iff h]
  cases b with
  | distance cutoff =>
    simp only [getNeighbors, List.mem_filterMap] at hnb
    obtain ⟨o, ho, e⟩ := hnb
    split_ifs at e with h1 h2
    injection e with e
    subst e
    injection hj with hj
    subst hj
    exact ⟨⟨o, (mem_sitesOf h).1 ho⟩, Ne.symm h1⟩
  | annular inner outer =>
    simp only [getNeighbors, List.mem_filterMap] at hnb
    obtain ⟨o, ho, e⟩ := hnb
    split_ifs at e with h1 h2
    injection e with e
    subst e
    injection hj with hj
    subst hj
    exact ⟨⟨o, (mem_sitesOf h).1 ho⟩, Ne.symm h1⟩
  | motif offsets =>
    simp only [getNeighbors, List.mem_filterMap] at hnb
    obtain ⟨v, hv, e⟩ := hnb
    split_ifs at e with h1
    injection e with e
    subst e
    simp only at hj
    rw [hj] at h1
    rw [idAt, Option.map_eq_some_iff] at hj
    obtain ⟨o, ho, rfl⟩ := hj
    exact ⟨⟨o, getSite_of_siteAt h ho⟩, fun e => h1 (congrArg some e)⟩

/-- The edges of the graph built for a class. -/
noncomputable def allEdges (b : Builder K d) (s : Structure K d) (cls : Option String) : List (ℕ × ℕ × Option K) :=
  (s.sitesOf cls).flatMap fun t => edgesFrom t.id (b.getNeighbors t s)

theorem get_eq {s : Structure K d} (h : s.Reachable) (b : Builder K d) (cls : Option String) :
    ((∀ t ∈ s.sitesOf cls, ∀ nb ∈ b.getNeighbors t s, nb.1 ≠ none) → b.get s cls = .ok ⟨(s.sitesOf none).length, b.allEdges s cls⟩) ∧
    ((∃ t ∈ s.sitesOf cls, ∃ nb ∈ b.getNeighbors t s, nb.1 = none) → b.get s cls = .error .typeError) := by
  unfold get allEdges connect
  simpa using foldlM_connect (s.sitesOf none).length (fun t => b.getNeighbors t s) (s.sitesOf cls)
    (fun t ht => (getSite_isSome_iff h).1 ⟨t, ((mem_sitesOf_class h).1 ht).1⟩)
    (fun t _ nb hnb j hj => (getNeighbors_lt h b t nb hnb j hj).1) []

theorem get_ok {s : Structure K d} (h : s.Reachable) {b : Builder K d} {cls : Option String} {g : Graph K} (hg : b.get s cls = .ok g) :
    g = ⟨(s.sitesOf none).length, b.allEdges s cls⟩ ∧ ∀ t ∈ s.sitesOf cls, ∀ nb ∈ b.getNeighbors t s, nb.1 ≠ none := by
  obtain ⟨h1, h2⟩ := get_eq h b cls
  by_cases hc : ∀ t ∈ s.sitesOf cls, ∀ nb ∈ b.getNeighbors t s, nb.1 ≠ none
  · rw [h1 hc] at hg
    injection hg with hg
    exact ⟨hg.symm, hc⟩
  · push Not at hc
    rw [h2 hc] at hg
    cases hg

theorem mem_allEdges {s : Structure K d} (h : s.Reachable) {b : Builder K d} {cls : Option String} {i j : ℕ} {w : Option K} :
    (i, j, w) ∈ b.allEdges s cls ↔ ∃ t, s.getSite i = some t ∧ (∀ c, cls = some c → t.cls = c) ∧ (some j, w) ∈ b.getNeighbors t s := by
  rw [allEdges, List.mem_flatMap]
  constructor
  · rintro ⟨t, ht, he⟩
    obtain ⟨rfl, he'⟩ := mem_edgesFrom.1 he
    obtain ⟨h1, h2⟩ := (mem_sitesOf_class h).1 ht
    exact ⟨t, h1, h2, he'⟩
  · rintro ⟨t, h1, h2, h3⟩
    have := id_of_getSite h h1
    subst this
    exact ⟨t, (mem_sitesOf_class h).2 ⟨h1, h2⟩, mem_edgesFrom.2 ⟨rfl, h3⟩⟩

end Builder

theorem getDist_distanceMap (dist : (Fin d → K) → K) (locs : List (Fin d → K)) (v : Fin d → K) :
    getDist (distanceMap dist locs) v = if v ∈ locs then some (dist v) else none := by
  unfold getDist distanceMap
  have key : ∀ m : Dict (Fin d → K) K, Dict.get? (locs.foldl (fun m v => Dict.set m v (dist v)) m) v =
      if v ∈ locs then some (dist v) else Dict.get? m v := by
    induction locs with
    | nil => simp
    | cons u locs ih =>
      intro m
      rw [List.foldl_cons, ih, Dict.get?_set]
      by_cases h1 : v ∈ locs
      · simp [h1]
      · by_cases h2 : u = v
        · subst h2; simp
        · have : v ≠ u := Ne.symm h2
          simp [h1, h2, this]
  rw [key]; rfl

end Pyl
