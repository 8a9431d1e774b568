import Verif.Lemmas.Neighborhood
import Verif.Spec.Neighborhood
import Verif.Props.Build
/-
C55-C59, C80: neighbourhoods and distance maps.
-/
set_option autoImplicit false
set_option linter.unusedSectionVars false

namespace Pyl
open Pyl.Lattice Structure
variable {K : Type} [Field K] [LinearOrder K] [IsStrictOrderedRing K] [FloorRing K] {d : ℕ}

/-! ### C55 -/

/-- C55: whatever the structure, the builder and the class the neighbourhood is built for, `neighbors_of(i)` contains only ids of the
structure, never `i`, and no id twice. -/
theorem C55_known_and_other {s : Structure K d} (h : s.Reachable) (b : Builder K d) (cls : Option String) (g : Graph K)
    (hg : b.get s cls = .ok g) (i : ℕ) :
    (∀ j ∈ g.neighborsOf i, j ∈ s.siteIds ∧ j ≠ i ∧ i ∈ s.siteIds) ∧ (g.neighborsOf i).Nodup := by
  refine ⟨fun j hj => ?_, g.nodup_neighbors i⟩
  obtain ⟨rfl, -⟩ := Builder.get_ok h hg
  obtain ⟨w, hw⟩ := Graph.mem_neighbors.1 hj
  obtain ⟨t, h1, -, h3⟩ := (Builder.mem_allEdges h).1 hw
  have := Builder.getNeighbors_lt h b t _ h3 j rfl
  rw [siteIds_eq h, List.mem_range, List.mem_range]
  refine ⟨this.1, ?_, (getSite_isSome_iff h).1 ⟨t, h1⟩⟩
  rw [← id_of_getSite h h1]; exact this.2

/-- The list with weights has the same ids in the same order. -/
theorem C55_weighted (g : Graph K) (i : ℕ) : (g.weightedNeighborsOf i).map Prod.fst = g.neighborsOf i := by
  simp [Graph.weightedNeighborsOf, Graph.neighborsOf, Function.comp_def]

/-! ### C56 -/

theorem mem_neighbors_get {s : Structure K d} (h : s.Reachable) {b : Builder K d} {cls : Option String} {g : Graph K}
    (hg : b.get s cls = .ok g) {i j : ℕ} :
    j ∈ g.neighborsOf i ↔ ∃ t w, s.getSite i = some t ∧ (∀ c, cls = some c → t.cls = c) ∧ (some j, w) ∈ b.getNeighbors t s := by
  obtain ⟨rfl, -⟩ := Builder.get_ok h hg
  rw [Graph.mem_neighbors]
  simp only [Builder.mem_allEdges h]
  constructor
  · rintro ⟨w, t, h⟩; exact ⟨t, w, h⟩
  · rintro ⟨t, w, h⟩; exact ⟨w, t, h⟩

/-- For builders whose weight is a function of the end points. -/
theorem mem_weighted_get {s : Structure K d} (h : s.Reachable) {b : Builder K d} {cls : Option String} {g : Graph K}
    (hg : b.get s cls = .ok g)
    (hf : ∀ t j w w', (some j, w) ∈ b.getNeighbors t s → (some j, w') ∈ b.getNeighbors t s → w = w') {i j : ℕ} {w : Option K} :
    (j, w) ∈ g.weightedNeighborsOf i ↔ ∃ t, s.getSite i = some t ∧ (∀ c, cls = some c → t.cls = c) ∧ (some j, w) ∈ b.getNeighbors t s := by
  obtain ⟨rfl, -⟩ := Builder.get_ok h hg
  have huniq : ∀ w w', (i, j, w) ∈ b.allEdges s cls → (i, j, w') ∈ b.allEdges s cls → w' = w := by
    intro w w' h1 h2
    obtain ⟨t, a1, -, a3⟩ := (Builder.mem_allEdges h).1 h1
    obtain ⟨t', b1, -, b3⟩ := (Builder.mem_allEdges h).1 h2
    rw [a1] at b1; injection b1 with b1; subst b1
    exact hf t j w' w b3 a3
  rw [Graph.mem_weighted, Graph.mem_neighbors, ← Builder.mem_allEdges h]
  constructor
  · rintro ⟨⟨w', hw'⟩, rfl⟩
    have := Graph.edgeData_eq (g := ⟨(s.sitesOf none).length, b.allEdges s cls⟩) hw' fun w'' h'' => huniq w' w'' hw' h''
    rw [this]; exact hw'
  · intro hw
    refine ⟨⟨w, hw⟩, ?_⟩
    exact (Graph.edgeData_eq (g := ⟨(s.sitesOf none).length, b.allEdges s cls⟩) hw fun w'' h'' => huniq w w'' hw h'').symm

/-- The Distance and Annular builders: which distances are inside. -/
inductive ByDistance : Builder K d → (K → Prop) → Prop
  | distance (cutoff : K) : ByDistance (.distance cutoff) fun r => r < cutoff
  | annular (inner outer : K) : ByDistance (.annular inner outer) fun r => inner < r ∧ r < outer

theorem mem_getNeighbors_byDistance {s : Structure K d} (h : s.Reachable) {b : Builder K d} {P : K → Prop} (hb : ByDistance b P)
    {t : Site K d} {o : Option ℕ} {w : Option K} :
    (o, w) ∈ b.getNeighbors t s ↔ ∃ t', s.getSite t'.id = some t' ∧ o = some t'.id ∧ t.id ≠ t'.id ∧
      P (s.lattice.dist t'.loc t.loc) ∧ w = some (s.lattice.dist t'.loc t.loc) := by
  cases hb with
  | distance cutoff =>
    simp only [Builder.getNeighbors, List.mem_filterMap]
    constructor
    · rintro ⟨t', ht', e⟩
      split_ifs at e with h1 h2
      injection e with e
      injection e with e1 e2
      exact ⟨t', (mem_sitesOf h).1 ht', e1.symm, h1, h2, e2.symm⟩
    · rintro ⟨t', ht', rfl, h1, h2, rfl⟩
      exact ⟨t', (mem_sitesOf h).2 ht', by rw [if_pos h1, if_pos h2]⟩
  | annular inner outer =>
    simp only [Builder.getNeighbors, List.mem_filterMap]
    constructor
    · rintro ⟨t', ht', e⟩
      split_ifs at e with h1 h2
      injection e with e
      injection e with e1 e2
      exact ⟨t', (mem_sitesOf h).1 ht', e1.symm, h1, h2, e2.symm⟩
    · rintro ⟨t', ht', rfl, h1, h2, rfl⟩
      exact ⟨t', (mem_sitesOf h).2 ht', by rw [if_pos h1, if_pos h2]⟩

/-- C56: a Distance or Annular neighbourhood can be built for every structure, and `j` is a neighbour of `i` with weight `w` iff they are
different sites, `w` is their periodic distance, and `w` is strictly inside the cutoff (annulus). -/
theorem C56_distance {s : Structure K d} (h : s.Reachable) (b : Builder K d) (P : K → Prop) (hb : ByDistance b P) :
    ∃ g, b.get s none = .ok g ∧ ∀ i j w, (j, w) ∈ g.weightedNeighborsOf i ↔
      i ≠ j ∧ ∃ x y r, s.siteLocation i = .ok x ∧ s.siteLocation j = .ok y ∧ s.lattice.dist x y = r ∧ P r ∧ w = some r := by
  have hok := (Builder.get_eq h b none).1 fun t ht nb hnb e => by
    obtain ⟨o, w⟩ := nb
    obtain ⟨t', -, h2, -⟩ := (mem_getNeighbors_byDistance h hb).1 hnb
    simp only at e
    rw [e] at h2; cases h2
  refine ⟨_, hok, fun i j w => ?_⟩
  rw [mem_weighted_get h hok]
  · constructor
    · rintro ⟨t, ht, -, hm⟩
      obtain ⟨t', h1, h2, h3, h4, h5⟩ := (mem_getNeighbors_byDistance h hb).1 hm
      injection h2 with h2
      subst h2
      have := id_of_getSite h ht
      rw [(C39_distance s.lattice h.1 _ _).1] at h4 h5
      exact ⟨this ▸ h3, t.loc, t'.loc, _, siteLocation_iff.2 ⟨t, ht, rfl⟩, siteLocation_iff.2 ⟨t', h1, rfl⟩, rfl, h4, h5⟩
    · rintro ⟨hne, x, y, r, hx, hy, hr, hP, hw⟩
      obtain ⟨t, ht, rfl⟩ := siteLocation_iff.1 hx
      obtain ⟨t', ht', rfl⟩ := siteLocation_iff.1 hy
      have e := id_of_getSite h ht
      have e' := id_of_getSite h ht'
      subst e e'
      rw [(C39_distance s.lattice h.1 _ _).1] at hr
      subst hr
      exact ⟨t, ht, by simp, (mem_getNeighbors_byDistance h hb).2 ⟨t', ht', rfl, hne, hP, hw⟩⟩
  · intro t j w w' h1 h2
    obtain ⟨t1, a1, a2, -, -, a5⟩ := (mem_getNeighbors_byDistance h hb).1 h1
    obtain ⟨t2, b1, b2, -, -, b5⟩ := (mem_getNeighbors_byDistance h hb).1 h2
    rw [a2] at b2; injection b2 with b2
    rw [b2, b1] at a1; injection a1 with a1
    rw [a5, b5, a1]

/-- C56: the relation is symmetric, with equal weights; the weight is always present and strictly inside. -/
theorem C56_symmetric {s : Structure K d} (h : s.Reachable) (b : Builder K d) (P : K → Prop) (hb : ByDistance b P) (g : Graph K)
    (hg : b.get s none = .ok g) (i j : ℕ) :
    (∀ w, (j, w) ∈ g.weightedNeighborsOf i ↔ (i, w) ∈ g.weightedNeighborsOf j) ∧
    (j ∈ g.neighborsOf i ↔ i ∈ g.neighborsOf j) ∧
    (∀ w, (j, w) ∈ g.weightedNeighborsOf i → ∃ r, w = some r ∧ P r) := by
  obtain ⟨g', hg', key⟩ := C56_distance h b P hb
  rw [hg] at hg'; injection hg' with hg'; subst hg'
  have sym : ∀ i j w, (j, w) ∈ g.weightedNeighborsOf i → (i, w) ∈ g.weightedNeighborsOf j := by
    intro i j w hw
    obtain ⟨hne, x, y, r, hx, hy, hr, hP, e⟩ := (key i j w).1 hw
    exact (key j i w).2 ⟨hne.symm, y, x, r, hy, hx, by rw [← hr]; exact (C39_distance s.lattice h.1 y x).1, hP, e⟩
  refine ⟨fun w => ⟨sym i j w, sym j i w⟩, ?_, fun w hw => ?_⟩
  · constructor
    · intro hj; exact (Graph.mem_weighted.1 (sym i j _ (Graph.mem_weighted.2 ⟨hj, rfl⟩))).1
    · intro hj; exact (Graph.mem_weighted.1 (sym j i _ (Graph.mem_weighted.2 ⟨hj, rfl⟩))).1
  · obtain ⟨-, x, y, r, -, -, -, hP, e⟩ := (key i j w).1 hw
    exact ⟨r, e, hP⟩

/-! ### C57, C58 -/

theorem mem_getNeighbors_motif {s : Structure K d} {offsets : List (Fin d → K)} {t : Site K d} {o : Option ℕ} {w : Option K} :
    (o, w) ∈ (Builder.motif offsets).getNeighbors t s ↔
      ∃ v ∈ offsets, o = s.idAt (t.loc + v) ∧ o ≠ some t.id ∧ w = some (euclideanDist v) := by
  simp only [Builder.getNeighbors, List.mem_filterMap]
  constructor
  · rintro ⟨v, hv, e⟩
    split_ifs at e with h1
    injection e with e
    injection e with e1 e2
    subst e1
    rw [getDist_distanceMap, if_pos hv] at e2
    exact ⟨v, hv, rfl, h1, e2.symm⟩
  · rintro ⟨v, hv, rfl, h1, rfl⟩
    exact ⟨v, hv, by rw [if_pos h1, getDist_distanceMap, if_pos hv]⟩

/-- C57: in a motif neighbourhood `j` is a neighbour of `i` iff `j` is not `i` and `j` is the site found at the location of `i` plus some
offset of the motif.  If no two offsets lead to the same site, its weight is the rounded length of that offset. -/
theorem C57_motif {s : Structure K d} (h : s.Reachable) (offsets : List (Fin d → K)) (g : Graph K)
    (hg : (Builder.motif offsets).get s none = .ok g) (i j : ℕ) :
    (j ∈ g.neighborsOf i ↔ j ≠ i ∧ ∃ x, s.siteLocation i = .ok x ∧ ∃ v ∈ offsets, s.idAt (x + v) = some j) ∧
    (∀ x, s.siteLocation i = .ok x → ∀ v ∈ offsets, s.idAt (x + v) = some j → j ≠ i →
      (∀ v' ∈ offsets, s.idAt (x + v') = some j → v' = v) → (j, some (euclideanDist v)) ∈ g.weightedNeighborsOf i) := by
  have key : j ∈ g.neighborsOf i ↔ j ≠ i ∧ ∃ x, s.siteLocation i = .ok x ∧ ∃ v ∈ offsets, s.idAt (x + v) = some j := by
    rw [mem_neighbors_get h hg]
    constructor
    · rintro ⟨t, w, ht, -, hm⟩
      obtain ⟨v, hv, e, hne, -⟩ := mem_getNeighbors_motif.1 hm
      rw [← id_of_getSite h ht]
      exact ⟨fun hh => hne (congrArg some hh), t.loc, siteLocation_iff.2 ⟨t, by rw [id_of_getSite h ht]; exact ht, rfl⟩, v, hv, e.symm⟩
    · rintro ⟨hne, x, hx, v, hv, e⟩
      obtain ⟨t, ht, rfl⟩ := siteLocation_iff.1 hx
      rw [← id_of_getSite h ht] at hne
      exact ⟨t, _, ht, by simp, mem_getNeighbors_motif.2 ⟨v, hv, e.symm, fun hh => hne (Option.some.inj hh), rfl⟩⟩
  refine ⟨key, fun x hx v hv e hne huniq => ?_⟩
  have hj := key.2 ⟨hne, x, hx, v, hv, e⟩
  refine Graph.mem_weighted.2 ⟨hj, ?_⟩
  obtain ⟨t, ht, rfl⟩ := siteLocation_iff.1 hx
  obtain ⟨rfl, -⟩ := Builder.get_ok h hg
  refine (Graph.edgeData_eq (g := ⟨(s.sitesOf none).length, (Builder.motif offsets).allEdges s none⟩) ?_ fun w' hw' => ?_).symm
  · refine (Builder.mem_allEdges h).2 ⟨t, ht, by simp, mem_getNeighbors_motif.2 ⟨v, hv, e.symm, fun hh => hne ?_, rfl⟩⟩
    rw [Option.some.inj hh, id_of_getSite h ht]
  · obtain ⟨t', ht', -, hm⟩ := (Builder.mem_allEdges h).1 hw'
    rw [ht] at ht'; injection ht' with ht'; subst ht'
    obtain ⟨v', hv', e', -, rfl⟩ := mem_getNeighbors_motif.1 hm
    rw [huniq v' hv' e'.symm]

theorem AlignedReachable.reachable {s : Structure K d} (h : s.AlignedReachable) : s.Reachable :=
  ⟨h.1, h.2.2.imp fun _ h => h.2⟩

/-- On aligned structures a site is found exactly at the periodic images of its stored location (among aligned points). -/
theorem AlignedReachable.idAt_iff {s : Structure K d} (h : s.AlignedReachable) {x : Fin d → K} (hx : Aligned x) {j : ℕ} :
    s.idAt x = some j ↔ ∃ y, s.siteLocation j = .ok y ∧ s.lattice.Image y x := by
  obtain ⟨hr, hL, ops, hops, e⟩ := h
  obtain ⟨acc, h1, h2, -, -, -, -, h7, -⟩ := history_new s.lattice ops
  have hal : ∀ (k : ℕ) (c : String × (Fin d → K)), acc[k]? = some c → Aligned c.2 := by
    intro k c hc
    obtain ⟨q, -, hq⟩ := h7 k c hc
    exact hops c (List.mem_of_getElem? hq)
  have es : s = built s.lattice acc := e.trans h1
  have hloc : ∀ (k : ℕ) (c : String × (Fin d → K)), acc[k]? = some c → rounded (s.lattice.periodized c.2) = s.lattice.periodized c.2 :=
    fun k c hc => aligned_rounded (aligned_periodized hr hL (hal k c hc))
  rw [idAt, Option.map_eq_some_iff]
  constructor
  · rintro ⟨t, ht, rfl⟩
    rw [es] at ht
    obtain ⟨c, hc, hk, et⟩ := (siteAt_built h2 x t).1 ht
    refine ⟨s.lattice.periodized c.2, ?_, ?_⟩
    · rw [siteLocation_iff, es]
      refine ⟨t, by rw [getSite_built, hc]; exact congrArg some et.symm, ?_⟩
      rw [et]; exact hloc _ _ hc
    · exact (periodized_isImage hr c.2).trans ((samePlace_iff_image hr hL (hal _ _ hc) hx).1 ((keyOf_eq_iff hr).1 hk))
  · rintro ⟨y, hy, hi⟩
    obtain ⟨t, ht, rfl⟩ := siteLocation_iff.1 hy
    rw [es, getSite_built] at ht
    cases hc : acc[j]? with
    | none => rw [hc] at ht; cases ht
    | some c =>
      rw [hc] at ht
      simp only [Option.map_some, Option.some.injEq] at ht
      subst ht
      refine ⟨⟨c.1, rounded (s.lattice.periodized c.2), j⟩, ?_, rfl⟩
      rw [es]
      refine (siteAt_built h2 x ⟨c.1, rounded (s.lattice.periodized c.2), j⟩).2 ⟨c, hc, (keyOf_eq_iff hr).2 ?_, rfl⟩
      refine samePlace_of_image hr ((periodized_isImage hr c.2).symm.trans ?_)
      rw [← hloc _ _ hc]; exact hi

theorem AlignedReachable.aligned {s : Structure K d} (h : s.AlignedReachable) {i : ℕ} {x : Fin d → K} (hx : s.siteLocation i = .ok x) :
    Aligned x := by
  obtain ⟨hr, hL, ops, hops, e⟩ := h
  obtain ⟨acc, h1, h2, -, -, -, -, h7, -⟩ := history_new s.lattice ops
  obtain ⟨t, ht, rfl⟩ := siteLocation_iff.1 hx
  rw [e.trans h1, getSite_built] at ht
  cases hc : acc[i]? with
  | none => rw [hc] at ht; cases ht
  | some c =>
    rw [hc] at ht
    simp only [Option.map_some, Option.some.injEq] at ht
    subst ht
    obtain ⟨q, -, hq⟩ := h7 i c hc
    have := aligned_periodized hr hL (hops c (List.mem_of_getElem? hq))
    simp only
    rw [aligned_rounded this]; exact this

/-- C57: if the motif is closed under negation, and everything is a whole number of thousandths, the relation is symmetric. -/
theorem C57_symmetric {s : Structure K d} (h : s.AlignedReachable) (offsets : List (Fin d → K)) (hal : ∀ v ∈ offsets, Aligned v)
    (hneg : ∀ v ∈ offsets, -v ∈ offsets) (g : Graph K) (hg : (Builder.motif offsets).get s none = .ok g) (i j : ℕ) :
    j ∈ g.neighborsOf i ↔ i ∈ g.neighborsOf j := by
  have key : ∀ i j, j ∈ g.neighborsOf i → i ∈ g.neighborsOf j := by
    intro i j hj
    have hr := AlignedReachable.reachable h
    obtain ⟨hne, x, hx, v, hv, e⟩ := (C57_motif hr offsets g hg i j).1.1 hj
    have hxa := AlignedReachable.aligned h hx
    obtain ⟨y, hy, hi⟩ := (AlignedReachable.idAt_iff h (aligned_add hxa (hal v hv))).1 e
    refine (C57_motif hr offsets g hg j i).1.2 ⟨hne.symm, y, hy, -v, hneg v hv, ?_⟩
    refine (AlignedReachable.idAt_iff h (aligned_add (AlignedReachable.aligned h hy) (hal _ (hneg v hv)))).2 ⟨x, hx, ?_⟩
    have := hi.symm
    unfold Lattice.Image at this ⊢
    rwa [show x - (y + -v) = x + v - y by abel]
  exact ⟨key i j, key j i⟩

/-- C58: building a motif neighbourhood raises TypeError if some site plus offset is empty, and succeeds otherwise; there is no truncated
neighbourhood. -/
theorem C58_open_boundary {s : Structure K d} (h : s.Reachable) (offsets : List (Fin d → K)) (cls : Option String) :
    ((∃ i x v, s.siteLocation i = .ok x ∧ (∀ c, cls = some c → s.siteClass i = .ok c) ∧ v ∈ offsets ∧ s.siteAt (x + v) = none) →
      (Builder.motif offsets).get s cls = .error .typeError) ∧
    ((∀ i x v, s.siteLocation i = .ok x → (∀ c, cls = some c → s.siteClass i = .ok c) → v ∈ offsets → s.siteAt (x + v) ≠ none) →
      ∃ g, (Builder.motif offsets).get s cls = .ok g) := by
  constructor
  · rintro ⟨i, x, v, hx, hc, hv, hn⟩
    obtain ⟨t, ht, rfl⟩ := siteLocation_iff.1 hx
    have hid := id_of_getSite h ht
    refine (Builder.get_eq h _ cls).2 ⟨t, (mem_sitesOf_class h).2 ⟨by rw [hid]; exact ht, fun c e => ?_⟩,
      (none, some (euclideanDist v)), mem_getNeighbors_motif.2 ⟨v, hv, ?_, by simp, rfl⟩, rfl⟩
    · obtain ⟨t', ht', e'⟩ := siteClass_iff.1 (hc c e)
      rw [ht] at ht'; injection ht' with ht'; rw [ht']; exact e'
    · rw [idAt, hn]; rfl
  · intro hall
    refine ⟨_, (Builder.get_eq h _ cls).1 fun t ht nb hnb e => ?_⟩
    obtain ⟨o, w⟩ := nb
    simp only at e; subst e
    obtain ⟨v, hv, e, -, -⟩ := mem_getNeighbors_motif.1 hnb
    obtain ⟨h1, h2⟩ := (mem_sitesOf_class h).1 ht
    refine hall t.id t.loc v (siteLocation_iff.2 ⟨t, h1, rfl⟩) (fun c ec => siteClass_iff.2 ⟨t, h1, h2 c ec⟩) hv ?_
    rw [idAt] at e
    exact Option.map_eq_none_iff.1 e.symm

/-! ### C59 -/

/-- The neighbours found when a builder is restricted to the class of the site are those found without restriction. -/
theorem get_class_eq {s : Structure K d} (h : s.Reachable) (b : Builder K d) {i : ℕ} {c : String} (hc : s.siteClass i = .ok c)
    {g g' : Graph K} (hg : b.get s (some c) = .ok g) (hg' : b.get s none = .ok g') :
    g.neighborsOf i = g'.neighborsOf i ∧ g.weightedNeighborsOf i = g'.weightedNeighborsOf i := by
  obtain ⟨rfl, -⟩ := Builder.get_ok h hg
  obtain ⟨rfl, -⟩ := Builder.get_ok h hg'
  obtain ⟨t, ht, rfl⟩ := siteClass_iff.1 hc
  have key : (b.allEdges s (some t.cls)).filter (fun e => e.1 = i) = (b.allEdges s none).filter (fun e => e.1 = i) := by
    have hf : ∀ t' : Site K d, s.getSite t'.id = some t' → t'.cls ≠ t.cls → (edgesFrom t'.id (b.getNeighbors t' s)).filter (fun e => e.1 = i) = [] := by
      intro t' ht' hne
      rw [List.filter_eq_nil_iff]
      rintro ⟨a, b', w⟩ he
      obtain ⟨rfl, -⟩ := mem_edgesFrom.1 he
      simp only [decide_eq_true_eq]
      rintro rfl
      rw [ht] at ht'; injection ht' with ht'
      exact hne (by rw [ht'])
    simp only [Builder.allEdges, List.filter_flatMap]
    have hsub : ∀ t' ∈ s.sitesOf none, s.getSite t'.id = some t' := fun t' ht' => (mem_sitesOf h).1 ht'
    have es : s.sitesOf (some t.cls) = (s.sitesOf none).filter fun t' => t'.cls = t.cls := rfl
    rw [es]
    generalize s.sitesOf none = ts at hsub
    induction ts with
    | nil => rfl
    | cons u ts ih =>
      have := ih fun t' ht' => hsub t' (List.mem_cons_of_mem _ ht')
      by_cases hu : u.cls = t.cls
      · rw [List.filter_cons_of_pos (by simpa using hu), List.flatMap_cons, List.flatMap_cons, this]
      · rw [List.filter_cons_of_neg (by simpa using hu), List.flatMap_cons, hf u (hsub u List.mem_cons_self) hu, List.nil_append, this]
  have k1 : ∀ n n', (⟨n, b.allEdges s (some t.cls)⟩ : Graph K).neighborsOf i = (⟨n', b.allEdges s none⟩ : Graph K).neighborsOf i := by
    intro n n'
    simp only [Graph.neighborsOf, Graph.neighbors, key]
  have k2 : ∀ n n' j, (⟨n, b.allEdges s (some t.cls)⟩ : Graph K).edgeData i j = (⟨n', b.allEdges s none⟩ : Graph K).edgeData i j := by
    intro n n' j
    have e : ∀ l : List (ℕ × ℕ × Option K), (l.filter fun e => e.1 = i ∧ e.2.1 = j) = (l.filter fun e => e.1 = i).filter fun e => e.2.1 = j := by
      intro l
      rw [List.filter_filter]
      refine List.filter_congr fun e _ => ?_
      simp [Bool.and_comm]
    simp only [Graph.edgeData, e, key]
  refine ⟨k1 _ _, ?_⟩
  have k1' := k1 (s.sitesOf none).length (s.sitesOf none).length
  simp only [Graph.neighborsOf] at k1'
  simp only [Graph.weightedNeighborsOf, k1', k2 _ (s.sitesOf none).length]

theorem siteClassGet_eq {s : Structure K d} {bs : Dict String (Builder K d)} {m : Dict String (Graph K)}
    (hm : siteClassGet bs s = .ok m) (hwf : Dict.WF bs) (c : String) :
    (∀ b, Dict.get? bs c = some b → ∃ g, b.get s (some c) = .ok g ∧ Dict.get? m c = some g) ∧
    (Dict.get? bs c = none → Dict.get? m c = none) := by
  have key : ∀ (bs : Dict String (Builder K d)) (m0 m : Dict String (Graph K)), Dict.WF bs →
      bs.foldlM (fun m cb => do pure (Dict.set m cb.1 (← cb.2.get s (some cb.1)))) m0 = (.ok m : Py _) →
      (∀ b, Dict.get? bs c = some b → ∃ g, b.get s (some c) = .ok g ∧ Dict.get? m c = some g) ∧
      (Dict.get? bs c = none → Dict.get? m c = Dict.get? m0 c) := by
    intro bs
    induction bs with
    | nil =>
      intro m0 m _ hm
      simp only [List.foldlM_nil, pure, Except.pure, Except.ok.injEq] at hm
      subst hm; simp
    | cons cb bs ih =>
      intro m0 m hwf hm
      obtain ⟨c', b⟩ := cb
      rw [List.foldlM_cons] at hm
      simp only at hm
      cases hg : b.get s (some c') with
      | error e => rw [hg] at hm; cases hm
      | ok g =>
        rw [hg] at hm
        simp only [pure, Except.pure, ok_bind] at hm
        obtain ⟨i1, i2⟩ := ih _ m hwf.tail hm
        rw [Dict.get?_cons]
        by_cases hc : c' = c
        · subst hc
          rw [if_pos rfl]
          refine ⟨fun b' hb' => ?_, fun h => by cases h⟩
          injection hb' with hb'; subst hb'
          refine ⟨g, hg, ?_⟩
          rw [i2 (Dict.get?_eq_none_iff.2 hwf.head), Dict.get?_set_self]
        · rw [if_neg hc]
          refine ⟨i1, fun h => ?_⟩
          rw [i2 h, Dict.get?_set_ne _ _ hc]
  have := key bs [] m hwf hm
  simpa using this

/-- C59: a SiteClassNeighborhood answers, for a site of class `c`, with what the builder of `c` gives for that site (restricted to the
class or not), with and without weights, and with the empty list if there is no builder for `c`. -/
theorem C59_site_class {s : Structure K d} (h : s.Reachable) (bs : Dict String (Builder K d)) (hwf : Dict.WF bs) (m : Dict String (Graph K))
    (hm : siteClassGet bs s = .ok m) (i : ℕ) (c : String) (hc : s.siteClass i = .ok c) :
    (∀ b, Dict.get? bs c = some b → ∃ g, b.get s (some c) = .ok g ∧
      multiNeighborsOf (siteClassNbhood s m i) i = .ok (g.neighborsOf i) ∧
      multiWeightedNeighborsOf (siteClassNbhood s m i) i = .ok (g.weightedNeighborsOf i) ∧
      ∀ g', b.get s none = .ok g' → g.neighborsOf i = g'.neighborsOf i ∧ g.weightedNeighborsOf i = g'.weightedNeighborsOf i) ∧
    (c ∉ Dict.keys bs → multiNeighborsOf (siteClassNbhood s m i) i = .ok [] ∧ multiWeightedNeighborsOf (siteClassNbhood s m i) i = .ok []) := by
  obtain ⟨h1, h2⟩ := siteClassGet_eq hm hwf c
  have e : siteClassNbhood s m i = .ok (Dict.get? m c) := by rw [siteClassNbhood, hc]; rfl
  rw [e]
  refine ⟨fun b hb => ?_, fun hn => ?_⟩
  · obtain ⟨g, hg, hmg⟩ := h1 b hb
    exact ⟨g, hg, by rw [hmg]; rfl, by rw [hmg]; rfl, fun g' hg' => get_class_eq h b hc hg hg'⟩
  · rw [h2 (Dict.get?_eq_none_iff.2 hn)]
    exact ⟨rfl, rfl⟩

/-- C59: building with a class map raises only what one of its builders raises. -/
theorem C59_site_class_builds {s : Structure K d} (bs : Dict String (Builder K d))
    (hb : ∀ cb ∈ bs, ∃ g, cb.2.get s (some cb.1) = .ok g) : ∃ m, siteClassGet bs s = .ok m := by
  unfold siteClassGet
  have key : ∀ m0 : Dict String (Graph K), ∃ m, bs.foldlM (fun m cb => do pure (Dict.set m cb.1 (← cb.2.get s (some cb.1)))) m0 = (.ok m : Py _) := by
    induction bs with
    | nil => exact fun m0 => ⟨m0, rfl⟩
    | cons cb bs ih =>
      intro m0
      obtain ⟨g, hg⟩ := hb cb List.mem_cons_self
      obtain ⟨m, hm⟩ := ih (fun cb h => hb cb (List.mem_cons_of_mem _ h)) (Dict.set m0 cb.1 g)
      refine ⟨m, ?_⟩
      rw [List.foldlM_cons, hg]
      exact hm
  exact key []

theorem mapM_ok_getElem? {α β : Type} {f : α → Py β} {l : List α} {r : List β} (h : l.mapM f = .ok r) :
    r.length = l.length ∧ ∀ (k : ℕ) (b : β), r[k]? = some b → ∃ a, l[k]? = some a ∧ f a = .ok b := by
  induction l generalizing r with
  | nil =>
    simp only [List.mapM_nil, pure, Except.pure, Except.ok.injEq] at h
    subst h; simp
  | cons a l ih =>
    rw [List.mapM_cons] at h
    cases hf : f a with
    | error e => rw [hf] at h; cases h
    | ok b =>
      rw [hf, ok_bind] at h
      cases hl : l.mapM f with
      | error e => rw [hl] at h; cases h
      | ok bs =>
        rw [hl] at h
        simp only [pure, Except.pure, ok_bind, Except.ok.injEq] at h
        subst h
        obtain ⟨h1, h2⟩ := ih hl
        refine ⟨by simp [h1], fun k b' hk => ?_⟩
        cases k with
        | zero =>
          simp only [List.getElem?_cons_zero, Option.some.injEq] at hk
          subst hk
          exact ⟨a, by simp, hf⟩
        | succ k => simpa using h2 k b' (by simpa using hk)

/-- C59: whatever `random.choice` picks, a StochasticNeighborhood answers (with or without weights) with what one of its member builders
gives; every member can be picked; with no member it raises IndexError. -/
theorem C59_stochastic (bs : List (Builder K d)) (s : Structure K d) (gs : List (Graph K)) (hgs : stochasticGet bs s = .ok gs) (i : ℕ) :
    (bs ≠ [] → ∀ r, ∃ b ∈ bs, ∃ g, b.get s none = .ok g ∧ multiNeighborsOf (stochasticNbhood gs r) i = .ok (g.neighborsOf i) ∧
      multiWeightedNeighborsOf (stochasticNbhood gs r) i = .ok (g.weightedNeighborsOf i)) ∧
    (∀ b ∈ bs, ∃ r g, b.get s none = .ok g ∧ multiNeighborsOf (stochasticNbhood gs r) i = .ok (g.neighborsOf i)) ∧
    (bs = [] → ∀ r, multiNeighborsOf (stochasticNbhood gs r) i = .error .indexError) := by
  obtain ⟨hl, hk⟩ := mapM_ok_getElem? hgs
  refine ⟨fun hne r => ?_, fun b hb => ?_, fun h0 r => ?_⟩
  · have hpos : 0 < gs.length := by rw [hl]; exact List.length_pos_iff.2 hne
    have hlt := Nat.mod_lt r hpos
    have hg : gs[r % gs.length]? = some gs[r % gs.length] := List.getElem?_eq_getElem hlt
    obtain ⟨b, hb, hbg⟩ := hk _ _ hg
    refine ⟨b, List.mem_of_getElem? hb, _, hbg, ?_, ?_⟩
    · simp only [stochasticNbhood, hg]; rfl
    · simp only [stochasticNbhood, hg]; rfl
  · obtain ⟨k, hkb⟩ := List.mem_iff_getElem?.1 hb
    have hlt : k < gs.length := by rw [hl]; exact (List.getElem?_eq_some_iff.1 hkb).1
    have hg : gs[k]? = some gs[k] := List.getElem?_eq_getElem hlt
    obtain ⟨b', hb', hbg⟩ := hk _ _ hg
    rw [hkb] at hb'; injection hb' with hb'; subst hb'
    refine ⟨k, _, hbg, ?_⟩
    simp only [stochasticNbhood, Nat.mod_eq_of_lt hlt, hg]; rfl
  · have : gs = [] := List.length_eq_zero_iff.1 (by rw [hl, h0]; rfl)
    subst this
    rfl

/-! ### C80 -/

theorem roundedLength_euclideanDist (v : Fin d → K) : RoundedLength v (euclideanDist v) := by
  have hs : (∑ i, (0 - v i) ^ 2) = ∑ i, v i ^ 2 := Finset.sum_congr rfl fun i _ => by ring
  have h0 : 0 ≤ ∑ i, v i ^ 2 := Finset.sum_nonneg fun i _ => sq_nonneg _
  unfold euclideanDist
  rw [hs]
  obtain ⟨k, h1, h2, h3⟩ := roundSqrt_bounds 100 h0
  have e : 4 * ((∑ i, v i ^ 2) * ((100 : ℕ) : K) * ((100 : ℕ) : K)) = 4 * (10000 * ∑ i, v i ^ 2) := by push_cast; ring
  rw [e] at h2 h3
  exact ⟨k, by rw [h1]; push_cast; rfl, h2, h3⟩

/-- C80: an EuclideanDistanceMap gives every listed offset its length rounded to hundredths, a ManhattanDistanceMap its taxicab length; both
give None for offsets that are not listed, and the same to opposite offsets that are both listed. -/
theorem C80_maps (locs : List (Fin d → K)) (v : Fin d → K) :
    (v ∈ locs → (∃ w, getDist (distanceMap euclideanDist locs) v = some w ∧ RoundedLength v w) ∧
      getDist (distanceMap manhattanDist locs) v = some (taxicab v)) ∧
    (v ∉ locs → getDist (distanceMap euclideanDist locs) v = none ∧ getDist (distanceMap manhattanDist locs) v = none) ∧
    (v ∈ locs → -v ∈ locs →
      getDist (distanceMap euclideanDist locs) (-v) = getDist (distanceMap euclideanDist locs) v ∧
      getDist (distanceMap manhattanDist locs) (-v) = getDist (distanceMap manhattanDist locs) v) := by
  simp only [getDist_distanceMap]
  refine ⟨fun h => ?_, fun h => by simp [h], fun h h' => ?_⟩
  · rw [if_pos h, if_pos h]
    exact ⟨⟨_, rfl, roundedLength_euclideanDist v⟩, by simp [manhattanDist, taxicab]⟩
  · rw [if_pos h, if_pos h', if_pos h, if_pos h']
    constructor
    · simp [euclideanDist]
    · simp [manhattanDist]

/-- C80: over the reals, the value is the real square root rounded to hundredths. -/
theorem C80_real (locs : List (Fin d → ℝ)) (v : Fin d → ℝ) (hv : v ∈ locs) :
    getDist (distanceMap euclideanDist locs) v = some (roundTo 100 (Real.sqrt (∑ i, v i ^ 2))) := by
  rw [getDist_distanceMap, if_pos hv, euclideanDist, roundSqrt_real _ (Finset.sum_nonneg fun i _ => sq_nonneg _)]
  simp

end Pyl
