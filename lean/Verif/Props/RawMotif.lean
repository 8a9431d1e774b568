import Verif.Model.RawMotif
import Verif.Props.RawStructure
import Verif.Props.SquareGrid
/-
C143: motif neighbourhoods with offsets of every length.
-/
set_option autoImplicit false
set_option linter.unusedSectionVars false

namespace Pyl
open Pyl.Spec Structure
variable {K : Type} [Field K] [LinearOrder K] [IsStrictOrderedRing K] [FloorRing K] {d : ℕ}

namespace RawStructure

/-- The first `d` entries of an offset. -/
def firstOf (d : ℕ) (v : List K) : Fin d → K := fun i => v.getD i 0

/-- A site with its location as a list. -/
def rawOf (t : Site K d) : RawSite K := ⟨t.cls, List.ofFn t.loc, t.id⟩

/-- The offsets that lead from the site `t` to another place, with what is there and the length of the whole offset. -/
noncomputable def nbsOf (S : Structure K d) (offsets : List (List K)) (t : Site K d) : List (Option ℕ × Option K) :=
  offsets.filterMap fun v => if S.idAt (t.loc + firstOf d v) ≠ some t.id then some (S.idAt (t.loc + firstOf d v), some (rawEuclid v)) else none

theorem zipWith_first {v : List K} (hv : d ≤ v.length) (x : Fin d → K) :
    List.zipWith (fun a b => a + b) (List.ofFn x) v = List.ofFn (x + firstOf d v) := by
  apply List.ext_getElem
  · simp [hv]
  · intro i h1 h2
    have : i < v.length := by simp at h1; omega
    simp [firstOf, List.getD_eq_getElem?_getD, this]

theorem get?_rawDistanceMap (offsets : List (List K)) (v : List K) (hv : v ∈ offsets) :
    Dict.get? (rawDistanceMap offsets) v = some (rawEuclid v) := by
  have key : ∀ (l : List (List K)) (m : Dict (List K) K), (v ∈ l ∨ Dict.get? m v = some (rawEuclid v)) →
      Dict.get? (l.foldl (fun m v => Dict.set m v (rawEuclid v)) m) v = some (rawEuclid v) := by
    intro l
    induction l with
    | nil => intro m h; exact h.resolve_left (by simp)
    | cons w l ih =>
      intro m h
      rw [List.foldl_cons]
      apply ih
      by_cases hw : w = v
      · subst hw
        exact Or.inr (Dict.get?_set_self _ _ _)
      · rcases h with h | h
        · rcases List.mem_cons.1 h with h | h
          · exact absurd h.symm hw
          · exact Or.inl h
        · right
          rw [Dict.get?_set_ne _ _ hw]
          exact h
  exact key offsets [] (Or.inl hv)

theorem idAt_ofFn {s : RawStructure K} {S : Structure K d} (h : Mirrors s S) (hr : S.lattice.Regular) (x : Fin d → K) :
    s.idAt (List.ofFn x) = .ok (S.idAt x) := by
  unfold RawStructure.idAt
  rw [C142_at h hr]
  show Except.ok (Option.map RawSite.id ((S.siteAt x).map _)) = _
  rw [Option.map_map]
  rfl

theorem motifNeighbors_long {s : RawStructure K} {S : Structure K d} (h : Mirrors s S) (hr : S.lattice.Regular) {offsets : List (List K)}
    (ho : ∀ v ∈ offsets, d ≤ v.length) (t : Site K d) : s.motifNeighbors offsets (rawOf t) = .ok (nbsOf S offsets t) := by
  have key : ∀ (l : List (List K)), (∀ v ∈ l, v ∈ offsets) → ∀ acc : List (Option ℕ × Option K),
      l.foldlM (fun nbs v => do
        let nb ← s.idAt (List.zipWith (fun a b => a + b) (rawOf t).loc v)
        pure (if nb ≠ some (rawOf t).id then nbs ++ [(nb, Dict.get? (rawDistanceMap offsets) v)] else nbs)) acc =
      (.ok (acc ++ nbsOf S l t) : Py _) := by
    intro l
    induction l with
    | nil =>
      intro _ acc
      simp [nbsOf, pure, Except.pure]
    | cons v l ih =>
      intro hl acc
      have hv := hl v List.mem_cons_self
      rw [List.foldlM_cons]
      show (s.idAt (List.zipWith (fun a b => a + b) (List.ofFn t.loc) v) >>= _ >>= _) = _
      rw [zipWith_first (ho v hv), idAt_ofFn h hr, get?_rawDistanceMap _ _ hv, ok_bind]
      show (Except.ok _ >>= _) = _
      rw [ok_bind, ih fun w hw => hl w (List.mem_cons_of_mem _ hw)]
      unfold nbsOf
      rw [List.filterMap_cons]
      by_cases hc : S.idAt (t.loc + firstOf d v) ≠ some t.id
      · rw [if_pos hc]
        have hc' : S.idAt (t.loc + firstOf d v) ≠ some (rawOf t).id := hc
        rw [if_pos hc']
        simp
      · rw [if_neg hc]
        have hc' : ¬ S.idAt (t.loc + firstOf d v) ≠ some (rawOf t).id := hc
        rw [if_neg hc']
  have := key offsets (fun v hv => hv) []
  rwa [List.nil_append] at this

theorem sitesOf_mirror {s : RawStructure K} {S : Structure K d} (h : Mirrors s S) (cls : Option String) :
    s.sitesOf cls = (S.sitesOf cls).map rawOf := by
  have hv : Dict.values s.sites = (Dict.values S.sites).map rawOf := by
    rw [h.sites]
    simp only [Dict.values, List.map_map]
    rfl
  unfold RawStructure.sitesOf Structure.sitesOf
  cases cls with
  | none => exact hv
  | some c =>
    simp only
    rw [hv, List.filter_map]
    rfl

theorem motifGet_long {s : RawStructure K} {S : Structure K d} (h : Mirrors s S) (hr : S.lattice.Regular) {offsets : List (List K)}
    (ho : ∀ v ∈ offsets, d ≤ v.length) (cls : Option String) :
    s.motifGet offsets cls = (S.sitesOf cls).foldlM (fun (g : Graph K) t => (nbsOf S offsets t).foldlM (fun g nb => g.addEdge t.id nb) g)
      ⟨(S.sitesOf none).length, []⟩ := by
  unfold motifGet
  rw [sitesOf_mirror h, sitesOf_mirror h, List.foldlM_map, List.length_map]
  congr 1
  funext g t
  rw [motifNeighbors_long h hr ho]
  rfl

theorem nbsOf_fst (S : Structure K d) (offsets : List (List K)) (t : Site K d) :
    (nbsOf S offsets t).map Prod.fst = ((Builder.motif (offsets.map (firstOf d))).getNeighbors t S).map Prod.fst := by
  unfold nbsOf Builder.getNeighbors
  simp only
  rw [List.filterMap_map, List.map_filterMap, List.map_filterMap]
  congr 1
  funext v
  by_cases hc : S.idAt (t.loc + firstOf d v) ≠ some t.id
  · simp [hc]
  · simp [hc]

theorem edgesFrom_fst {i : ℕ} {l l' : List (Option ℕ × Option K)} (h : l.map Prod.fst = l'.map Prod.fst) :
    (edgesFrom i l).map (fun e => (e.1, e.2.1)) = (edgesFrom i l').map fun e => (e.1, e.2.1) := by
  have key : ∀ l : List (Option ℕ × Option K), (edgesFrom i l).map (fun e => (e.1, e.2.1)) = (l.map Prod.fst).filterMap fun o => o.map fun j => (i, j) := by
    intro l
    unfold edgesFrom
    rw [List.map_filterMap, List.filterMap_map]
    congr 1
    funext nb
    simp only [Option.map_map, Function.comp]
    cases nb.1 <;> rfl
  rw [key, key, h]

theorem mem_fst_iff {l l' : List (Option ℕ × Option K)} (h : l.map Prod.fst = l'.map Prod.fst) {P : Option ℕ → Prop} :
    (∀ nb ∈ l, P nb.1) ↔ ∀ nb ∈ l', P nb.1 := by
  have key : ∀ l : List (Option ℕ × Option K), (∀ nb ∈ l, P nb.1) ↔ ∀ o ∈ l.map Prod.fst, P o := by
    intro l
    rw [List.forall_mem_map]
  rw [key, key, h]

/-- **C143.** Offsets with at least as many entries as the space has dimensions: the builder connects the same sites, edge for edge,
as the offsets cut to the dimension do, and raises in the same cases.  Every edge carries the length of a whole offset. -/
theorem C143_long {s : RawStructure K} {S : Structure K d} (h : Mirrors s S) (hS : S.Reachable) {offsets : List (List K)}
    (ho : ∀ v ∈ offsets, d ≤ v.length) (cls : Option String) :
    (∃ g g', s.motifGet offsets cls = .ok g ∧ (Builder.motif (offsets.map (firstOf d))).get S cls = .ok g' ∧ g.numNodes = g'.numNodes ∧
      g.edges.map (fun e => (e.1, e.2.1)) = g'.edges.map (fun e => (e.1, e.2.1)) ∧
      (∀ i j w, (i, j, w) ∈ g.edges ↔ j ≠ i ∧ ∃ t, S.getSite i = some t ∧ (∀ c, cls = some c → t.cls = c) ∧
        ∃ v ∈ offsets, S.idAt (t.loc + firstOf d v) = some j ∧ w = some (rawEuclid v))) ∨
    (s.motifGet offsets cls = .error .typeError ∧ (Builder.motif (offsets.map (firstOf d))).get S cls = .error .typeError) := by
  have hlt : ∀ t ∈ S.sitesOf cls, t.id < (S.sitesOf none).length :=
    fun t ht => (getSite_isSome_iff hS).1 ⟨t, ((mem_sitesOf_class hS).1 ht).1⟩
  have hb : ∀ t ∈ S.sitesOf cls, ∀ nb ∈ nbsOf S offsets t, ∀ j, nb.1 = some j → j < (S.sitesOf none).length := by
    intro t _
    rw [mem_fst_iff (P := fun o => ∀ j, o = some j → j < (S.sitesOf none).length) (nbsOf_fst S offsets t)]
    exact fun nb hnb j hj => (Builder.getNeighbors_lt hS _ t nb hnb j hj).1
  obtain ⟨f1, f2⟩ := foldlM_connect (S.sitesOf none).length (nbsOf S offsets) (S.sitesOf cls) hlt hb []
  obtain ⟨g1, g2⟩ := Builder.get_eq hS (.motif (offsets.map (firstOf d))) cls
  rw [motifGet_long h hS.1 ho]
  by_cases hc : ∀ t ∈ S.sitesOf cls, ∀ nb ∈ nbsOf S offsets t, nb.1 ≠ none
  · left
    have hc' : ∀ t ∈ S.sitesOf cls, ∀ nb ∈ (Builder.motif (offsets.map (firstOf d))).getNeighbors t S, nb.1 ≠ none :=
      fun t ht => (mem_fst_iff (P := fun o => o ≠ none) (nbsOf_fst S offsets t)).1 (hc t ht)
    refine ⟨_, _, f1 hc, g1 hc', rfl, ?_, ?_⟩
    · simp only [List.nil_append, Builder.allEdges, List.map_flatMap]
      congr 1
      funext t
      exact edgesFrom_fst (nbsOf_fst S offsets t)
    · intro i j w
      simp only [List.nil_append, List.mem_flatMap, mem_edgesFrom]
      constructor
      · rintro ⟨t, ht, rfl, hm⟩
        obtain ⟨k1, k2⟩ := (mem_sitesOf_class hS).1 ht
        obtain ⟨v, hv, e⟩ := List.mem_filterMap.1 hm
        split_ifs at e with hne
        simp only [Option.some.injEq, Prod.mk.injEq] at e
        obtain ⟨e1, e2⟩ := e
        refine ⟨?_, t, k1, k2, v, hv, e1, e2.symm⟩
        rintro rfl
        exact hne e1
      · rintro ⟨hji, t, k1, k2, v, hv, e1, rfl⟩
        have := id_of_getSite hS k1
        subst this
        refine ⟨t, (mem_sitesOf_class hS).2 ⟨k1, k2⟩, rfl, List.mem_filterMap.2 ⟨v, hv, ?_⟩⟩
        rw [if_pos (by rw [e1]; exact fun e => hji (Option.some.inj e)), e1]
  · right
    have hc' : ¬ ∀ t ∈ S.sitesOf cls, ∀ nb ∈ (Builder.motif (offsets.map (firstOf d))).getNeighbors t S, nb.1 ≠ none :=
      fun hh => hc fun t ht => (mem_fst_iff (P := fun o => o ≠ none) (nbsOf_fst S offsets t)).2 (hh t ht)
    push Not at hc hc'
    exact ⟨f2 hc, g2 hc'⟩

/-- **C143.** The same neighbours, listed in the same order. -/
theorem C143_neighbours {s : RawStructure K} {S : Structure K d} (h : Mirrors s S) (hS : S.Reachable) {offsets : List (List K)}
    (ho : ∀ v ∈ offsets, d ≤ v.length) (cls : Option String) {g g' : Graph K} (hg : s.motifGet offsets cls = .ok g)
    (hg' : (Builder.motif (offsets.map (firstOf d))).get S cls = .ok g') (i : ℕ) : g.neighborsOf i = g'.neighborsOf i := by
  rcases C143_long h hS ho cls with ⟨a, a', h1, h2, -, h3, -⟩ | ⟨h1, -⟩
  · rw [hg] at h1
    rw [hg'] at h2
    cases h1
    cases h2
    have key : ∀ l : List (ℕ × ℕ × Option K), (l.filter fun e => e.1 = i).map (fun e => e.2.1) =
        ((l.map fun e => (e.1, e.2.1)).filter fun e => e.1 = i).map fun e => e.2 := by
      intro l
      rw [List.filter_map, List.map_map]
      rfl
    unfold Graph.neighborsOf Graph.neighbors
    rw [key, key, h3]
  · rw [hg] at h1
    cases h1

/-- **C143.** An offset with fewer entries than the space has dimensions makes the builder raise as soon as there is a site. -/
theorem C143_short {s : RawStructure K} {S : Structure K d} (h : Mirrors s S) (hS : S.Reachable) {offsets : List (List K)} {v : List K}
    (hv : v ∈ offsets) (hl : v.length < d) {cls : Option String} (hne : S.sitesOf cls ≠ []) : ∃ e, s.motifGet offsets cls = .error e := by
  have hnb : ∀ t : Site K d, ∃ e, s.motifNeighbors offsets (rawOf t) = .error e := by
    intro t
    have key : ∀ (l : List (List K)), v ∈ l → ∀ acc : List (Option ℕ × Option K),
        ∃ e, l.foldlM (fun nbs v => do
          let nb ← s.idAt (List.zipWith (fun a b => a + b) (rawOf t).loc v)
          pure (if nb ≠ some (rawOf t).id then nbs ++ [(nb, Dict.get? (rawDistanceMap offsets) v)] else nbs)) acc = (.error e : Py _) := by
      intro l
      induction l with
      | nil => intro h; simp at h
      | cons w l ih =>
        intro hm acc
        rw [List.foldlM_cons]
        by_cases hw : w = v
        · subst hw
          have : s.idAt (List.zipWith (fun a b => a + b) (rawOf t).loc w) = .error .valueError := by
            unfold RawStructure.idAt
            rw [((C142_refuses h "" _).1 hS.1 ?_).2]
            · rfl
            · rw [List.length_zipWith]
              simp only [rawOf, List.length_ofFn]
              omega
          rw [this]
          exact ⟨_, rfl⟩
        · cases hi : s.idAt (List.zipWith (fun a b => a + b) (rawOf t).loc w) with
          | error e => exact ⟨e, rfl⟩
          | ok o => exact ih ((List.mem_cons.1 hm).resolve_left (Ne.symm hw)) _
    exact key offsets hv []
  unfold motifGet
  rw [sitesOf_mirror h cls]
  cases hs : S.sitesOf cls with
  | nil => exact absurd hs hne
  | cons t ts =>
    rw [List.map_cons, List.foldlM_cons]
    obtain ⟨e, he⟩ := hnb t
    rw [he]
    exact ⟨e, rfl⟩

/-! ### square grids -/

theorem firstOf_cast (p : List ℤ) : firstOf d (p.map fun x => ((x : ℤ) : K)) = intPoint (cellVec d p) := by
  funext i
  simp only [firstOf, intPoint, cellVec, List.getD_eq_getElem?_getD, List.getElem?_map]
  cases p[(i : ℕ)]? <;> simp

theorem torus_raw {s : RawStructure K} {S : Structure K d} {N : Fin d → ℤ} (h : Mirrors s S) (hT : IsTorus S N) {ps : List (List ℤ)}
    (hp : ∀ p ∈ ps, d ≤ p.length) :
    ∃ g, s.motifGet (ps.map fun p => p.map fun x => ((x : ℤ) : K)) none = .ok g ∧ ∀ i j a b, SiteHas S i a → SiteHas S j b →
      (j ∈ g.neighborsOf i ↔ j ≠ i ∧ ∃ p ∈ ps, ∀ k, N k ∣ b k - (a k + cellVec d p k)) := by
  have ho : ∀ v ∈ ps.map (fun p => p.map fun x => ((x : ℤ) : K)), d ≤ v.length := by
    intro v hv
    obtain ⟨p, hm, rfl⟩ := List.mem_map.1 hv
    rw [List.length_map]
    exact hp p hm
  obtain ⟨g', hg', hm⟩ := torus_motif hT (ps.map (cellVec d))
  have e : (ps.map (fun p => p.map fun x => ((x : ℤ) : K))).map (firstOf d) = (ps.map (cellVec d)).map intPoint := by
    rw [List.map_map, List.map_map]
    exact List.map_congr_left fun p _ => firstOf_cast p
  rw [← e] at hg'
  rcases C143_long h hT.reachable ho none with ⟨g, a', h1, -⟩ | ⟨-, h2⟩
  · refine ⟨g, h1, fun i j a b ha hb => ?_⟩
    rw [C143_neighbours h hT.reachable ho none h1 hg' i, hm i j a b ha hb]
    simp only [List.mem_map, exists_exists_and_eq_and]
  · rw [hg'] at h2
    cases h2

/-- The point with further zeros. -/
def padded (e : ℕ) (w : Fin d → ℤ) : List ℤ := List.ofFn w ++ List.replicate (e - d) 0

theorem cellVec_padded (e : ℕ) (w : Fin d → ℤ) : cellVec d (padded e w) = w := by
  funext i
  simp [cellVec, padded, List.getD_eq_getElem?_getD, List.getElem?_append_left]

theorem mem_cube_list {r : ℤ} {e : ℕ} {p : List ℤ} : p ∈ getPointsInCube (-r) (r + 1) e ↔ p.length = e ∧ ∀ x ∈ p, |x| ≤ r := by
  rw [(C51_points_in_cube (-r) (r + 1) e).1 p]
  have e : ∀ x, -r ≤ x ∧ x < r + 1 ↔ |x| ≤ r := fun x => by rw [abs_le]; omega
  simp only [e]

theorem padded_mem_cube {e : ℕ} (hde : d ≤ e) {r : ℤ} (hr : 0 ≤ r) {w : Fin d → ℤ} (hw : ∀ k, |w k| ≤ r) :
    padded e w ∈ getPointsInCube (-r) (r + 1) e := by
  refine mem_cube_list.2 ⟨by simp [padded]; omega, fun x hx => ?_⟩
  rcases List.mem_append.1 hx with hx | hx
  · obtain ⟨k, rfl⟩ := List.mem_ofFn.1 hx
    exact hw k
  · rw [(List.mem_replicate.1 hx).2]
    simpa using hr

theorem abs_cellVec_le {e : ℕ} (hde : d ≤ e) {r : ℤ} {p : List ℤ} (hp : p ∈ getPointsInCube (-r) (r + 1) e) (k : Fin d) : |cellVec d p k| ≤ r := by
  obtain ⟨hl, hx⟩ := mem_cube_list.1 hp
  have hk : (k : ℕ) < p.length := by omega
  have : cellVec d p k = p[(k : ℕ)] := by simp [cellVec, hk]
  rw [this]
  exact hx _ (List.getElem_mem hk)

theorem sum_abs_first {p : List ℤ} (hp : d ≤ p.length) : ∑ k, |cellVec d p k| ≤ (p.map fun x => |x|).sum := by
  have hl : (p.take d).length = d := by simp [hp]
  have e : cellVec d p = cellVec d (p.take d) := by
    funext k
    simp [cellVec, List.getD_eq_getElem?_getD, List.getElem?_take]
  rw [e, ← sum_abs_cellVec hl]
  conv_rhs => rw [← List.take_append_drop d p]
  rw [List.map_append, List.sum_append]
  have : 0 ≤ ((p.drop d).map fun x => |x|).sum := by
    apply List.sum_nonneg
    intro x hx
    obtain ⟨y, -, rfl⟩ := List.mem_map.1 hx
    exact abs_nonneg y
  omega

theorem grid_dim_pos {N : Fin d → ℤ} {S : Structure K d} (h : SquareGrid d N S) : 0 < d := by
  cases h <;> omega

theorem grid_sites {N : Fin d → ℤ} {S : Structure K d} (h : IsTorus S N) : S.sitesOf none ≠ [] := by
  obtain ⟨i, hi, -⟩ := h.idAt_some (fun _ => 0)
  obtain ⟨c, hc, -⟩ := h.idAt_iff.1 hi
  obtain ⟨t, ht, -⟩ := siteLocation_iff.1 hc
  have := (getSite_isSome_iff h.reachable).1 ⟨t, ht⟩
  intro h0
  rw [h0] at this
  simp at this

/-- **C143.** A Moore builder made for more dimensions than the grid has gives every site exactly the other sites within the torus
Chebyshev distance `r`: the neighbours that the builder of the right dimension gives. -/
theorem C143_moore {s : RawStructure K} {S : Structure K d} {N : Fin d → ℤ} (h : Mirrors s S) (hs : SquareGrid d N S) {e : ℕ} (hde : d ≤ e) (r : ℤ) :
    ∃ g, s.motifGet (mooreOffsets K r e) none = .ok g ∧ ∀ i j a b, SiteHas S i a → SiteHas S j b →
      (j ∈ g.neighborsOf i ↔ j ≠ i ∧ ChebyshevLE N a b r) := by
  have hT := hs.isTorus
  obtain ⟨g, hg, hm⟩ := torus_raw h hT (ps := getPointsInCube (-r) (r + 1) e) fun p hp => by rw [(mem_cube_list.1 hp).1]; exact hde
  refine ⟨g, hg, fun i j a b ha hb => ?_⟩
  rw [hm i j a b ha hb]
  refine and_congr_right fun hne => ?_
  constructor
  · rintro ⟨p, hp, hd⟩ k
    obtain ⟨q, hq⟩ := hd k
    refine (circ_le_iff (hT.pos k) _ _).2 ⟨q, ?_⟩
    have : a k - b k + q * N k = - cellVec d p k := by linarith
    rw [this, abs_neg]
    exact abs_cellVec_le hde hp k
  · intro hc
    choose q hq using fun k => (circ_le_iff (hT.pos k) _ _).1 (hc k)
    have hr : 0 ≤ r := le_trans (abs_nonneg _) (hq ⟨0, grid_dim_pos hs⟩)
    refine ⟨padded e fun k => -(a k - b k + q k * N k), padded_mem_cube hde hr fun k => by rw [abs_neg]; exact hq k, fun k => ⟨q k, ?_⟩⟩
    rw [cellVec_padded]
    ring

/-- **C143.** The same for the von Neumann builders and the torus Manhattan distance. -/
theorem C143_vonNeumann {s : RawStructure K} {S : Structure K d} {N : Fin d → ℤ} (h : Mirrors s S) (hs : SquareGrid d N S) {e : ℕ} (hde : d ≤ e)
    (r : ℤ) :
    ∃ g, s.motifGet (vonNeumannOffsets K r e) none = .ok g ∧ ∀ i j a b, SiteHas S i a → SiteHas S j b →
      (j ∈ g.neighborsOf i ↔ j ≠ i ∧ torusManhattan N a b ≤ r) := by
  have hT := hs.isTorus
  obtain ⟨g, hg, hm⟩ := torus_raw h hT (ps := (getPointsInCube (-r) (r + 1) e).filter fun p => (p.map fun x => |x|).sum ≤ r)
    fun p hp => by rw [(mem_cube_list.1 (List.mem_filter.1 hp).1).1]; exact hde
  refine ⟨g, hg, fun i j a b ha hb => ?_⟩
  rw [hm i j a b ha hb]
  refine and_congr_right fun hne => ?_
  rw [torusManhattan, sum_circ_le_iff hT.pos]
  constructor
  · rintro ⟨p, hp, hd⟩
    obtain ⟨hp, hsum⟩ := List.mem_filter.1 hp
    choose q hq using hd
    refine ⟨q, ?_⟩
    have e' : ∀ k, a k - b k + q k * N k = - cellVec d p k := fun k => by have := hq k; linarith
    simp only [e', abs_neg]
    refine le_trans (sum_abs_first ?_) (by simpa using hsum)
    rw [(mem_cube_list.1 hp).1]
    exact hde
  · rintro ⟨q, hq⟩
    have hle : ∀ k, |-(a k - b k + q k * N k)| ≤ r := fun k => by
      rw [abs_neg]
      exact le_trans (Finset.single_le_sum (f := fun k => |a k - b k + q k * N k|) (fun _ _ => abs_nonneg _) (Finset.mem_univ k)) hq
    have hr : 0 ≤ r := le_trans (abs_nonneg _) (hle ⟨0, grid_dim_pos hs⟩)
    refine ⟨padded e fun k => -(a k - b k + q k * N k), List.mem_filter.2 ⟨padded_mem_cube hde hr hle, ?_⟩, fun k => ⟨q k, ?_⟩⟩
    · rw [decide_eq_true_eq, padded, List.map_append, List.sum_append, List.map_ofFn, List.sum_ofFn, List.map_replicate, abs_zero,
        List.sum_replicate, smul_zero, add_zero]
      refine le_trans (le_of_eq (Finset.sum_congr rfl fun k _ => ?_)) hq
      exact abs_neg _
    · rw [cellVec_padded]
      ring

/-- **C143.** A Moore or von Neumann builder made for fewer dimensions than the grid has raises. -/
theorem C143_too_few {s : RawStructure K} {S : Structure K d} {N : Fin d → ℤ} (h : Mirrors s S) (hs : SquareGrid d N S) {e : ℕ} (hed : e < d) {r : ℤ}
    (hr : 0 ≤ r) : (∃ x, s.motifGet (mooreOffsets K r e) none = .error x) ∧ ∃ x, s.motifGet (vonNeumannOffsets K r e) none = .error x := by
  have hm : List.replicate e (0 : ℤ) ∈ getPointsInCube (-r) (r + 1) e :=
    mem_cube_list.2 ⟨by simp, fun x hx => by rw [(List.mem_replicate.1 hx).2]; simpa using hr⟩
  have hl : ((List.replicate e (0 : ℤ)).map fun x => ((x : ℤ) : K)).length < d := by simpa using hed
  constructor
  · exact C143_short h hs.isTorus.reachable (List.mem_map_of_mem hm) hl (grid_sites hs.isTorus)
  · refine C143_short h hs.isTorus.reachable (List.mem_map_of_mem (List.mem_filter.2 ⟨hm, ?_⟩)) hl (grid_sites hs.isTorus)
    simpa using hr

/-! ### the distances stored with the neighbours -/

theorem edgeData_last {g : Graph K} {X Y : List (ℕ × ℕ × Option K)} {i j : ℕ} {w : Option K} (h : g.edges = X ++ (i, j, w) :: Y)
    (hY : ∀ w', (i, j, w') ∉ Y) : g.edgeData i j = w := by
  unfold Graph.edgeData
  have hf : Y.filter (fun e => decide (e.1 = i ∧ e.2.1 = j)) = [] := by
    rw [List.filter_eq_nil_iff]
    rintro ⟨a, b, c⟩ hm he
    obtain ⟨rfl, rfl⟩ := of_decide_eq_true he
    exact hY c hm
  rw [h, List.filter_append, List.filter_cons_of_pos (by simp), hf, List.getLast?_append_of_ne_nil _ (by simp)]
  rfl

/-- **C143.** The distance stored for a neighbour is the length of the last offset leading to it, counted with all its entries. -/
theorem C143_weight {s : RawStructure K} {S : Structure K d} (h : Mirrors s S) (hS : S.Reachable) {l l' : List (List K)} {v : List K}
    (ho : ∀ u ∈ l ++ v :: l', d ≤ u.length) {g : Graph K} (hg : s.motifGet (l ++ v :: l') none = .ok g) {i j : ℕ} (hij : j ≠ i) {t : Site K d}
    (ht : S.getSite i = some t) (hv : S.idAt (t.loc + firstOf d v) = some j) (hlast : ∀ u ∈ l', S.idAt (t.loc + firstOf d u) ≠ some j) :
    g.edgeData i j = some (rawEuclid v) := by
  have hlt : ∀ t ∈ S.sitesOf none, t.id < (S.sitesOf none).length :=
    fun t ht => (getSite_isSome_iff hS).1 ⟨t, ((mem_sitesOf_class hS).1 ht).1⟩
  have hb : ∀ t ∈ S.sitesOf none, ∀ nb ∈ nbsOf S (l ++ v :: l') t, ∀ j, nb.1 = some j → j < (S.sitesOf none).length := by
    intro t _
    rw [mem_fst_iff (P := fun o => ∀ j, o = some j → j < (S.sitesOf none).length) (nbsOf_fst S _ t)]
    exact fun nb hnb j hj => (Builder.getNeighbors_lt hS _ t nb hnb j hj).1
  obtain ⟨f1, f2⟩ := foldlM_connect (S.sitesOf none).length (nbsOf S (l ++ v :: l')) (S.sitesOf none) hlt hb []
  rw [motifGet_long h hS.1 ho] at hg
  have hgE : g = ⟨(S.sitesOf none).length, [] ++ (S.sitesOf none).flatMap fun t => edgesFrom t.id (nbsOf S (l ++ v :: l') t)⟩ := by
    by_cases hc : ∀ t ∈ S.sitesOf none, ∀ nb ∈ nbsOf S (l ++ v :: l') t, nb.1 ≠ none
    · rw [f1 hc] at hg
      exact (Except.ok.inj hg).symm
    · push Not at hc
      rw [f2 hc] at hg
      cases hg
  have hid := id_of_getSite hS ht
  subst hid
  have hmem : t ∈ S.sitesOf none := (mem_sitesOf hS).2 ht
  obtain ⟨A, B, hAB⟩ := List.append_of_mem hmem
  have hB : ∀ u ∈ B, u.id ≠ t.id := by
    have hnd := nodup_ids hS
    rw [hAB, List.map_append, List.map_cons, List.nodup_append] at hnd
    intro u hu he
    exact (List.nodup_cons.1 hnd.2.1).1 (he ▸ List.mem_map_of_mem hu)
  have hne : S.idAt (t.loc + firstOf d v) ≠ some t.id := by
    rw [hv]
    exact fun e => hij (Option.some.inj e)
  have hnbs : nbsOf S (l ++ v :: l') t = nbsOf S l t ++ (some j, some (rawEuclid v)) :: nbsOf S l' t := by
    unfold nbsOf
    rw [List.filterMap_append, List.filterMap_cons, if_pos hne, hv]
  have hedges : g.edges = (A.flatMap (fun u => edgesFrom u.id (nbsOf S (l ++ v :: l') u)) ++ edgesFrom t.id (nbsOf S l t)) ++
      (t.id, j, some (rawEuclid v)) :: (edgesFrom t.id (nbsOf S l' t) ++ B.flatMap fun u => edgesFrom u.id (nbsOf S (l ++ v :: l') u)) := by
    rw [hgE, hAB]
    simp only [List.nil_append, List.flatMap_append, List.flatMap_cons]
    rw [hnbs]
    simp [edgesFrom]
  refine edgeData_last hedges fun w hw => ?_
  rcases List.mem_append.1 hw with hw | hw
  · obtain ⟨-, hm⟩ := mem_edgesFrom.1 hw
    obtain ⟨u, hu, e⟩ := List.mem_filterMap.1 hm
    split_ifs at e
    simp only [Option.some.injEq, Prod.mk.injEq] at e
    exact hlast u hu e.1
  · obtain ⟨u, hu, hw⟩ := List.mem_flatMap.1 hw
    exact hB u hu (mem_edgesFrom.1 hw).1.symm

/-! ### the weights of a Moore builder -/

theorem cube_eq (r : ℤ) (e : ℕ) : getPointsInCube (-r) (r + 1) e = cartesianProduct (List.replicate e (pyRange (-r) (r + 1))) := by
  unfold getPointsInCube getPointsInBox
  congr 1
  induction e with
  | zero => rfl
  | succ e ih => simp [List.replicate_succ, ih]

theorem pyRange_last {r : ℤ} (hr : 0 ≤ r) : ∃ l, pyRange (-r) (r + 1) = l ++ [r] := by
  refine ⟨(List.range (2 * r).toNat).map fun (k : ℕ) => -r + k, ?_⟩
  unfold pyRange
  rw [show (r + 1 - -r).toNat = (2 * r).toNat + 1 by omega, List.range_succ, List.map_append, List.map_singleton]
  congr 2
  omega

theorem product_last {r : ℤ} (hr : 0 ≤ r) (e : ℕ) :
    ∃ l, cartesianProduct (List.replicate e (pyRange (-r) (r + 1))) = l ++ [List.replicate e r] := by
  induction e with
  | zero => exact ⟨[], rfl⟩
  | succ e ih =>
    obtain ⟨l, hl⟩ := ih
    obtain ⟨A, hA⟩ := pyRange_last hr
    rw [List.replicate_succ, cartesianProduct, hl, hA, List.flatMap_append, List.flatMap_singleton, List.map_append, ← List.append_assoc]
    exact ⟨_, rfl⟩

/-- The last point of the cube that begins with given entries ends with the largest ones. -/
theorem product_prefix {r : ℤ} (hr : 0 ≤ r) (n : ℕ) : ∀ (v : List ℤ), (∀ x ∈ v, |x| ≤ r) →
    ∃ l l', cartesianProduct (List.replicate (v.length + n) (pyRange (-r) (r + 1))) = l ++ (v ++ List.replicate n r) :: l' ∧
      ∀ p ∈ l', p.take v.length ≠ v := by
  intro v
  induction v with
  | nil =>
    intro _
    obtain ⟨l, hl⟩ := product_last hr n
    exact ⟨l, [], by simpa using hl, by simp⟩
  | cons x v ih =>
    intro hx
    obtain ⟨l, l', hl, hl'⟩ := ih fun y hy => hx y (List.mem_cons_of_mem _ hy)
    have hxm : x ∈ pyRange (-r) (r + 1) := by
      have := abs_le.1 (hx x List.mem_cons_self)
      exact mem_pyRange.2 ⟨this.1, by omega⟩
    obtain ⟨A, B, hAB⟩ := List.append_of_mem hxm
    have hxB : x ∉ B := by
      have hp := pairwise_pyRange (-r) (r + 1)
      rw [hAB, List.pairwise_append] at hp
      intro hm
      exact lt_irrefl x ((List.pairwise_cons.1 hp.2.1).1 x hm)
    rw [show (x :: v).length + n = (v.length + n) + 1 by simp; omega, List.replicate_succ, cartesianProduct]
    generalize cartesianProduct (List.replicate (v.length + n) (pyRange (-r) (r + 1))) = C at hl ⊢
    refine ⟨A.flatMap (fun y => C.map fun p => y :: p) ++ l.map (fun p => x :: p),
      l'.map (fun p => x :: p) ++ B.flatMap fun y => C.map fun p => y :: p, ?_, ?_⟩
    · rw [hAB, List.flatMap_append, List.flatMap_cons]
      conv => enter [1, 2, 1]; rw [hl]
      simp
    · intro p hp he
      rcases List.mem_append.1 hp with hp | hp
      · obtain ⟨q, hq, rfl⟩ := List.mem_map.1 hp
        rw [List.length_cons, List.take_succ_cons] at he
        exact hl' q hq (List.cons.inj he).2
      · obtain ⟨y, hy, hp⟩ := List.mem_flatMap.1 hp
        obtain ⟨q, -, rfl⟩ := List.mem_map.1 hp
        rw [List.length_cons, List.take_succ_cons] at he
        exact hxB ((List.cons.inj he).1 ▸ hy)

/-- **C143.** On a grid at least `2r+1` wide, a Moore builder made for `e ≥ d` dimensions stores with the neighbour at the offset `w` the
rounded root of `|w|² + (e-d)·r²`: the true length only if it was made for the right dimension. -/
theorem C143_moore_weight {s : RawStructure K} {S : Structure K d} {N : Fin d → ℤ} (h : Mirrors s S) (hs : SquareGrid d N S) {e : ℕ} (hde : d ≤ e)
    {r : ℤ} (hN : ∀ k, 2 * r + 1 ≤ N k) {g : Graph K} (hg : s.motifGet (mooreOffsets K r e) none = .ok g) {i j : ℕ} (hij : j ≠ i)
    {a b w : Fin d → ℤ} (ha : SiteHas S i a) (hb : SiteHas S j b) (hw : ∀ k, |w k| ≤ r) (hd : ∀ k, N k ∣ b k - (a k + w k)) :
    g.edgeData i j = some (roundSqrt 100 (((∑ k, w k ^ 2 + (e - d : ℕ) * r ^ 2 : ℤ)) : K)) := by
  have hT := hs.isTorus
  have hr : 0 ≤ r := le_trans (abs_nonneg _) (hw ⟨0, grid_dim_pos hs⟩)
  obtain ⟨l, l', hl, hl'⟩ := product_prefix hr (e - d) (List.ofFn w) fun x hx => by
    obtain ⟨k, rfl⟩ := List.mem_ofFn.1 hx
    exact hw k
  rw [List.length_ofFn, Nat.add_sub_cancel' hde, ← cube_eq] at hl
  rw [List.length_ofFn] at hl'
  have hcube : ∀ p ∈ l ++ (List.ofFn w ++ List.replicate (e - d) r) :: l', p ∈ getPointsInCube (-r) (r + 1) e := fun p hp => hl ▸ hp
  unfold mooreOffsets at hg
  rw [hl, List.map_append, List.map_cons] at hg
  obtain ⟨t, ht, hta⟩ := siteLocation_iff.1 ha
  have hidx : ∀ p : List ℤ, S.idAt (t.loc + firstOf d (p.map fun x => ((x : ℤ) : K))) = some j ↔ ∀ k, N k ∣ b k - (a k + cellVec d p k) := by
    intro p
    rw [firstOf_cast, hta, intPoint_add, hT.idAt_iff]
    constructor
    · rintro ⟨c, hc, hcd⟩
      rwa [IsTorus.has_unique_coord hc hb] at hcd
    · exact fun hh => ⟨b, hb, hh⟩
  have hcv : cellVec d (List.ofFn w ++ List.replicate (e - d) r) = w := by
    funext k
    simp [cellVec, List.getD_eq_getElem?_getD, List.getElem?_append_left]
  rw [C143_weight h hT.reachable ?_ hg hij ht ((hidx _).2 (by rw [hcv]; exact hd)) ?_]
  · congr 1
    unfold rawEuclid
    congr 1
    rw [List.map_map, List.map_append, List.sum_append, List.map_ofFn, List.sum_ofFn, List.map_replicate, List.sum_replicate]
    simp [Function.comp_def]
  · intro u hu
    rw [← List.map_cons (f := fun p : List ℤ => p.map fun x => ((x : ℤ) : K)), ← List.map_append] at hu
    obtain ⟨p, hp, rfl⟩ := List.mem_map.1 hu
    rw [List.length_map, (mem_cube_list.1 (hcube p hp)).1]
    exact hde
  · intro u hu hj
    obtain ⟨p, hp, rfl⟩ := List.mem_map.1 hu
    have hpc := hcube p (List.mem_append_right _ (List.mem_cons_of_mem _ hp))
    have hdv := (hidx p).1 hj
    have hpl := (mem_cube_list.1 hpc).1
    refine hl' p hp ?_
    have key : cellVec d p = w := by
      funext k
      have h1 := abs_le.1 (abs_cellVec_le hde hpc k)
      have h2 := abs_le.1 (hw k)
      obtain ⟨q1, e1⟩ := hdv k
      obtain ⟨q2, e2⟩ := hd k
      have e3 : w k - cellVec d p k = N k * (q1 - q2) := by linarith
      have h3 := hN k
      have : q1 - q2 = 0 := by
        by_contra hne
        rcases lt_or_gt_of_ne hne with hlt | hgt
        · have : q1 - q2 ≤ -1 := by omega
          nlinarith
        · have : 1 ≤ q1 - q2 := by omega
          nlinarith
      rw [this, mul_zero] at e3
      linarith
    have hl2 : (p.take d).length = d := by simp [hpl, hde]
    rw [← ofFn_cellVec hl2]
    congr 1
    rw [← key]
    funext k
    simp [cellVec, List.getD_eq_getElem?_getD]

/-! ### examples -/

theorem gridInit : Lattice.init [[(0 : K), 1], [1, 0]] (.flag true) = .ok ⟨2, gridLattice2⟩ := by
  unfold Lattice.init
  rw [dif_pos (by simp)]
  simp only [gridLattice2]
  refine congrArg Except.ok ?_
  refine congrArg (Sigma.mk 2) ?_
  congr 1
  ext i j
  fin_cases i <;> fin_cases j <;> rfl

/-- The hypotheses of the theorems about grids are met by every plane grid that `SimpleSquare2DStructureBuilder` builds. -/
theorem gridMirrors {a b : ℤ} (ha : 0 < a) (hb : 0 < b) : ∃ (R : RawLattice K) (s : RawStructure K) (S : Structure K 2),
    RawLattice.init [[0, 1], [1, 0]] (.flag true) = .ok R ∧ build R [("_A", [0, 0])] false (.tup [b, a]) = .ok s ∧ Mirrors s S ∧
      SquareGrid 2 ![a, b] S := by
  obtain ⟨R, hR, -, -⟩ := RawLattice.C141_square (gridInit (K := K))
  obtain ⟨S, hS, -⟩ := (C52_square2 (K := K) 1 one_pos b a hb ha).2
  have hm : List.Forall₂ (SamePos (K := K)) [("_A", [0, 0])] (gridMotif (K := K) (d := 2)).entries := by
    refine .cons ⟨rfl, Or.inl ?_⟩ .nil
    simp [List.ofFn_succ]
  rcases C142_builder gridInit hR isGrid2.regular (.tup [b, a]) false hm with ⟨s, S', h1, h2, h3⟩ | ⟨e, -, h2⟩
  · refine ⟨R, s, S', hR, h1, h3, .two _ _ a b ha hb (Or.inl rfl) h2⟩
  · have : (.ok S : Py (Structure K 2)) = .error e := hS.symm.trans h2
    cases this

/-- The hypotheses of `C143_long`, `C143_short`, `C143_moore`, `C143_vonNeumann` and `C143_too_few` are met on a 5 by 4 grid. -/
example : ∃ (s : RawStructure ℚ) (S : Structure ℚ 2), Mirrors s S ∧ S.Reachable ∧ SquareGrid 2 ![5, 4] S ∧
    (∀ v ∈ [[(1 : ℚ), 0, 7], [0, 1]], 2 ≤ v.length) ∧ S.sitesOf none ≠ [] ∧ [(1 : ℚ)].length < 2 := by
  obtain ⟨R, s, S, -, -, h1, h2⟩ := gridMirrors (K := ℚ) (a := 5) (b := 4) (by norm_num) (by norm_num)
  exact ⟨s, S, h1, h2.isTorus.reachable, h2, by simp, grid_sites h2.isTorus, by simp⟩

/-- The hypotheses of `C143_moore_weight` (and of `C143_weight`, from which it follows) are met on a 5 by 4 grid: a Moore builder made for
three dimensions stores 1.41 with the site to the right, whose distance is 1. -/
example : ∃ (s : RawStructure ℚ) (g : Graph ℚ) (i j : ℕ), s.motifGet (mooreOffsets ℚ 1 3) none = .ok g ∧ j ∈ g.neighborsOf i ∧
    g.edgeData i j = some (roundSqrt 100 2) := by
  obtain ⟨R, s, S, -, -, h1, h2⟩ := gridMirrors (K := ℚ) (a := 5) (b := 4) (by norm_num) (by norm_num)
  obtain ⟨g, hg, hm⟩ := C143_moore h1 h2 (e := 3) (by norm_num) 1
  obtain ⟨i, -, hi⟩ := h2.isTorus.idAt_some ![0, 0]
  obtain ⟨j, -, hj⟩ := h2.isTorus.idAt_some ![1, 0]
  have hij : j ≠ i := by
    rintro rfl
    have := congrFun (IsTorus.has_unique_coord hi hj) 0
    simp at this
  have hd : ∀ k : Fin 2, (![5, 4] : Fin 2 → ℤ) k ∣ ((![1, 0] : Fin 2 → ℤ) k % (![5, 4] : Fin 2 → ℤ) k) - ((![0, 0] : Fin 2 → ℤ) k % (![5, 4] : Fin 2 → ℤ) k + (![1, 0] : Fin 2 → ℤ) k) := by
    intro k
    fin_cases k <;> simp
  refine ⟨s, g, i, j, hg, ?_, ?_⟩
  · refine (hm i j _ _ hi hj).2 ⟨hij, fun k => ?_⟩
    fin_cases k <;> simp [circ]
  · rw [C143_moore_weight h1 h2 (by norm_num) (fun k => by fin_cases k <;> norm_num) hg hij hi hj (w := ![1, 0]) (fun k => by fin_cases k <;> simp) hd]
    norm_num

end RawStructure
end Pyl
