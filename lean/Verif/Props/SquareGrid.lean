import Verif.Lemmas.SquareGrid
/-
C52-C54: square grids, Moore and von Neumann neighbourhoods.
-/
set_option autoImplicit false
set_option linter.unusedSectionVars false

namespace Pyl
open Pyl.Lattice Structure
variable {K : Type} [Field K] [LinearOrder K] [IsStrictOrderedRing K] [FloorRing K] {d : ℕ}

/-! ### C52 -/

/-- `s` has exactly one site for each integer coordinate vector in the box, all of class "_A", and the site found at any integer location is the
one at that location modulo the size. -/
def CompleteTorus (s : Structure K d) (N : Fin d → ℤ) : Prop :=
  (∀ i ∈ s.siteIds, s.siteClass i = .ok "_A" ∧ ∃ c, InBox N c ∧ SiteHas s i c) ∧
  (∀ c, InBox N c → ∃! i, i ∈ s.siteIds ∧ SiteHas s i c) ∧
  s.siteIds.length = ∏ j, (N j).toNat ∧
  (∀ x : Fin d → ℤ, ∃ t, s.siteAt (intPoint x) = some t ∧ t.loc = intPoint fun j => x j % N j)

theorem IsTorus.siteAt (s : Structure K d) (N : Fin d → ℤ) (h : IsTorus s N) (x : Fin d → ℤ) :
    ∃ t, s.siteAt (intPoint x) = some t ∧ t.loc = intPoint fun j => x j % N j := by
  obtain ⟨i, h1, h2⟩ := h.idAt_some x
  rw [idAt, Option.map_eq_some_iff] at h1
  obtain ⟨t, ht, rfl⟩ := h1
  refine ⟨t, ht, ?_⟩
  obtain ⟨t', ht', e⟩ := siteLocation_iff.1 h2
  rw [getSite_of_siteAt h.reachable ht] at ht'
  injection ht' with ht'
  rw [ht', e]

theorem completeTorus {L : Lattice K d} {σ : Fin d → Fin d} (h : IsGrid L σ) (n : Fin d → ℤ) (hn : ∀ i, 0 < n i) :
    ∃ s, buildFrom L n gridMotif false = .ok s ∧ IsTorus s (fun j => n (σ j)) ∧ CompleteTorus s (fun j => n (σ j)) := by
  obtain ⟨s, hs, hl, ht, hsite, hids⟩ := h.build_grid n hn
  refine ⟨s, hs, ht, fun i hi => ⟨?_, ht.site i hi⟩, fun c hc => ?_, ht.count, IsTorus.siteAt s _ ht⟩
  · rw [hids, List.mem_range] at hi
    exact siteClass_iff.2 ⟨_, hsite i _ (List.getElem?_eq_getElem hi), rfl⟩
  · obtain ⟨i, hi, hic⟩ := ht.ex c hc
    exact ⟨i, ⟨hi, hic⟩, fun i' ⟨_, h'⟩ => ht.site_unique h' hic⟩

/-- C52 in 2D: `SimpleSquare2DStructureBuilder().build(size)` succeeds for all positive sizes and is a complete torus.  A tuple `(a, b)` gives `b`
points along the first axis and `a` along the second. -/
theorem C52_square2 (n : ℤ) (hn : 0 < n) (a b : ℤ) (ha : 0 < a) (hb : 0 < b) :
    (∃ s : Structure K 2, buildSquare2 (.int n) = .ok s ∧ CompleteTorus s ![n, n]) ∧
    (∃ s : Structure K 2, buildSquare2 (.tup [a, b]) = .ok s ∧ CompleteTorus s ![b, a]) := by
  constructor
  · obtain ⟨s, hs, -, h⟩ := completeTorus (K := K) isGrid2 (fun _ => n) fun _ => hn
    refine ⟨s, hs, ?_⟩
    rwa [show (fun j : Fin 2 => n) = ![n, n] by funext j; fin_cases j <;> rfl] at h
  · obtain ⟨s, hs, -, h⟩ := completeTorus (K := K) isGrid2 ![a, b] fun i => by fin_cases i <;> assumption
    refine ⟨s, ?_, ?_⟩
    · rw [← hs, buildSquare2, build, dif_pos (by rfl)]
      congr 1
      funext i; fin_cases i <;> rfl
    · rwa [show (fun j : Fin 2 => ![a, b] (![1, 0] j)) = ![b, a] by funext j; fin_cases j <;> rfl] at h

/-- C52 in 3D: a tuple `(a, b, c)` gives `b`, `a`, `c` points along the three axes. -/
theorem C52_square3 (n : ℤ) (hn : 0 < n) (a b c : ℤ) (ha : 0 < a) (hb : 0 < b) (hc : 0 < c) :
    (∃ s : Structure K 3, buildSquare3 (.int n) = .ok s ∧ CompleteTorus s ![n, n, n]) ∧
    (∃ s : Structure K 3, buildSquare3 (.tup [a, b, c]) = .ok s ∧ CompleteTorus s ![b, a, c]) := by
  constructor
  · obtain ⟨s, hs, -, h⟩ := completeTorus (K := K) isGrid3 (fun _ => n) fun _ => hn
    refine ⟨s, hs, ?_⟩
    rwa [show (fun j : Fin 3 => n) = ![n, n, n] by funext j; fin_cases j <;> rfl] at h
  · obtain ⟨s, hs, -, h⟩ := completeTorus (K := K) isGrid3 ![a, b, c] fun i => by fin_cases i <;> assumption
    refine ⟨s, ?_, ?_⟩
    · rw [← hs, buildSquare3, build, dif_pos (by rfl)]
      congr 1
      funext i; fin_cases i <;> rfl
    · rwa [show (fun j : Fin 3 => ![a, b, c] (![1, 0, 2] j)) = ![b, a, c] by funext j; fin_cases j <;> rfl] at h

/-- The structures that the builders return. -/
inductive SquareGrid : (d : ℕ) → (Fin d → ℤ) → Structure K d → Prop
  | two (size : SizeArg) (s : Structure K 2) (a b : ℤ) (ha : 0 < a) (hb : 0 < b) (hsz : size = .tup [b, a] ∨ size = .int a ∧ a = b)
      (h : buildSquare2 size = .ok s) : SquareGrid 2 ![a, b] s
  | three (size : SizeArg) (s : Structure K 3) (a b c : ℤ) (ha : 0 < a) (hb : 0 < b) (hc : 0 < c)
      (hsz : size = .tup [b, a, c] ∨ size = .int a ∧ a = b ∧ a = c) (h : buildSquare3 size = .ok s) : SquareGrid 3 ![a, b, c] s

theorem SquareGrid.isTorus {N : Fin d → ℤ} {s : Structure K d} (h : SquareGrid d N s) : IsTorus s N := by
  cases h with
  | two size s a b ha hb hsz h =>
    rcases hsz with rfl | ⟨rfl, rfl⟩
    · obtain ⟨s', hs, ht, -⟩ := completeTorus (K := K) isGrid2 ![b, a] fun i => by fin_cases i <;> assumption
      have e : buildSquare2 (K := K) (.tup [b, a]) = buildFrom gridLattice2 ![b, a] gridMotif false := by
        rw [buildSquare2, build, dif_pos (by rfl)]
        congr 1
        funext i; fin_cases i <;> rfl
      rw [e, hs] at h
      injection h with h; subst h
      rwa [show (fun j : Fin 2 => ![b, a] (![1, 0] j)) = ![a, b] by funext j; fin_cases j <;> rfl] at ht
    · obtain ⟨s', hs, ht, -⟩ := completeTorus (K := K) isGrid2 (fun _ => a) fun _ => ha
      have e : buildSquare2 (K := K) (.int a) = buildFrom gridLattice2 (fun _ => a) gridMotif false := rfl
      rw [e, hs] at h
      injection h with h; subst h
      rwa [show (fun j : Fin 2 => a) = ![a, a] by funext j; fin_cases j <;> rfl] at ht
  | three size s a b c ha hb hc hsz h =>
    rcases hsz with rfl | ⟨rfl, rfl, rfl⟩
    · obtain ⟨s', hs, ht, -⟩ := completeTorus (K := K) isGrid3 ![b, a, c] fun i => by fin_cases i <;> assumption
      have e : buildSquare3 (K := K) (.tup [b, a, c]) = buildFrom gridLattice3 ![b, a, c] gridMotif false := by
        rw [buildSquare3, build, dif_pos (by rfl)]
        congr 1
        funext i; fin_cases i <;> rfl
      rw [e, hs] at h
      injection h with h; subst h
      rwa [show (fun j : Fin 3 => ![b, a, c] (![1, 0, 2] j)) = ![a, b, c] by funext j; fin_cases j <;> rfl] at ht
    · obtain ⟨s', hs, ht, -⟩ := completeTorus (K := K) isGrid3 (fun _ => a) fun _ => ha
      have e : buildSquare3 (K := K) (.int a) = buildFrom gridLattice3 (fun _ => a) gridMotif false := rfl
      rw [e, hs] at h
      injection h with h; subst h
      rwa [show (fun j : Fin 3 => a) = ![a, a, a] by funext j; fin_cases j <;> rfl] at ht

/-! ### C53, C54 -/

theorem mem_cube {r : ℤ} {p : List ℤ} : p ∈ getPointsInCube (-r) (r + 1) d ↔ p.length = d ∧ ∀ i, |cellVec d p i| ≤ r := by
  rw [(C51_points_in_cube (-r) (r + 1) d).1 p]
  refine and_congr_right fun hp => ?_
  have e : ∀ x, -r ≤ x ∧ x < r + 1 ↔ |x| ≤ r := fun x => by rw [abs_le]; omega
  simp only [e]
  conv_lhs => rw [← ofFn_cellVec hp]
  simp [List.mem_ofFn]

theorem intPoint_add (x y : Fin d → ℤ) : (intPoint x + intPoint y : Fin d → K) = intPoint fun j => x j + y j := by
  funext j; simp [intPoint]

/-- Motif neighbourhoods with integer offsets on a torus always exist. -/
theorem torus_motif {s : Structure K d} {N : Fin d → ℤ} (h : IsTorus s N) (offs : List (Fin d → ℤ)) :
    ∃ g, (Builder.motif (offs.map intPoint)).get s none = .ok g ∧ ∀ i j a b, SiteHas s i a → SiteHas s j b →
      (j ∈ g.neighborsOf i ↔ j ≠ i ∧ ∃ v ∈ offs, ∀ k, N k ∣ b k - (a k + v k)) := by
  obtain ⟨g, hg⟩ := (C58_open_boundary h.reachable (offs.map intPoint) none).2 (by
    intro i x v hx _ hv hn
    obtain ⟨t, ht, rfl⟩ := siteLocation_iff.1 hx
    obtain ⟨w, -, rfl⟩ := List.mem_map.1 hv
    have hi : i ∈ s.siteIds := by
      rw [siteIds_eq h.reachable, List.mem_range]
      exact (getSite_isSome_iff h.reachable).1 ⟨t, ht⟩
    obtain ⟨c, -, hc⟩ := h.site i hi
    obtain ⟨t', ht', e⟩ := siteLocation_iff.1 hc
    rw [ht] at ht'; injection ht' with ht'; subst ht'
    rw [e, intPoint_add] at hn
    obtain ⟨k, hk, -⟩ := h.idAt_some (fun j => c j + w j)
    rw [idAt, hn] at hk; cases hk)
  refine ⟨g, hg, fun i j a b ha hb => ?_⟩
  rw [(C57_motif h.reachable _ g hg i j).1]
  refine and_congr_right fun hne => ?_
  constructor
  · rintro ⟨x, hx, v, hv, e⟩
    obtain ⟨w, hw, rfl⟩ := List.mem_map.1 hv
    have ex : (.ok x : Py (Fin d → K)) = .ok (intPoint a) := (Eq.symm hx).trans ha
    injection ex with ex
    rw [ex, intPoint_add, h.idAt_iff] at e
    obtain ⟨c, hc, hd⟩ := e
    rw [IsTorus.has_unique_coord hc hb] at hd
    exact ⟨w, hw, hd⟩
  · rintro ⟨w, hw, hd⟩
    refine ⟨intPoint a, ha, intPoint w, List.mem_map_of_mem hw, ?_⟩
    rw [intPoint_add, h.idAt_iff]
    exact ⟨b, hb, hd⟩

theorem moore_eq (r : ℤ) : (moore r : Builder K d) = .motif (((getPointsInCube (-r) (r + 1) d).map (cellVec d)).map intPoint) := by
  rw [moore, List.map_map]; rfl

theorem vonNeumann_eq (r : ℤ) : (vonNeumann r : Builder K d) =
    .motif ((((getPointsInCube (-r) (r + 1) d).filter fun p => (p.map fun x => |x|).sum ≤ r).map (cellVec d)).map intPoint) := by
  rw [vonNeumann, List.map_map]; rfl

theorem torus_moore {s : Structure K d} {N : Fin d → ℤ} (h : IsTorus s N) (r : ℤ) :
    ∃ g, (moore r).get s none = .ok g ∧ ∀ i j a b, SiteHas s i a → SiteHas s j b →
      (j ∈ g.neighborsOf i ↔ j ≠ i ∧ ChebyshevLE N a b r) := by
  obtain ⟨g, hg, hm⟩ := torus_motif h ((getPointsInCube (-r) (r + 1) d).map (cellVec d))
  refine ⟨g, by rw [moore_eq]; exact hg, fun i j a b ha hb => ?_⟩
  rw [hm i j a b ha hb]
  refine and_congr_right fun hne => ?_
  constructor
  · rintro ⟨v, hv, hd⟩ k
    obtain ⟨p, hp, rfl⟩ := List.mem_map.1 hv
    obtain ⟨q, hq⟩ := hd k
    refine (circ_le_iff (h.pos k) _ _).2 ⟨q, ?_⟩
    have : a k - b k + q * N k = - cellVec d p k := by linarith
    rw [this, abs_neg]
    exact (mem_cube.1 hp).2 k
  · intro hc
    choose q hq using fun k => (circ_le_iff (h.pos k) _ _).1 (hc k)
    refine ⟨fun k => -(a k - b k + q k * N k), List.mem_map.2 ⟨List.ofFn fun k => -(a k - b k + q k * N k), mem_cube.2 ⟨by simp, ?_⟩, cellVec_ofFn _⟩, fun k => ⟨q k, by ring⟩⟩
    intro k
    rw [cellVec_ofFn, abs_neg]; exact hq k

/-- C53: on a square grid of any size, 2D or 3D, the Moore builder of size `r` gives each site exactly the other sites whose torus Chebyshev
distance is at most `r`. -/
theorem C53_moore {s : Structure K d} {N : Fin d → ℤ} (hs : SquareGrid d N s) (r : ℤ) :
    ∃ g, (moore r).get s none = .ok g ∧ ∀ i j a b, SiteHas s i a → SiteHas s j b →
      (j ∈ g.neighborsOf i ↔ j ≠ i ∧ ChebyshevLE N a b r) :=
  torus_moore hs.isTorus r

/-- How many neighbours a motif with offsets of at most `r` per axis gives on a torus at least `2r+1` wide. -/
theorem torus_motif_count {s : Structure K d} {N : Fin d → ℤ} (h : IsTorus s N) (offs : List (Fin d → ℤ)) (hnd : offs.Nodup) (r : ℕ)
    (hb : ∀ v ∈ offs, ∀ k, |v k| ≤ r) (hr : ∀ j, 2 * (r : ℤ) + 1 ≤ N j)
    (g : Graph K) (hg : (Builder.motif (offs.map intPoint)).get s none = .ok g) (i : ℕ) (hi : i ∈ s.siteIds) :
    (g.neighborsOf i).length = (offs.erase 0).length := by
  obtain ⟨a, -, ha⟩ := h.site i hi
  obtain ⟨g', hg', hm⟩ := torus_motif h offs
  rw [hg] at hg'
  injection hg' with hg'; subst hg'
  -- the site that an offset leads to
  choose f hf hfc using fun v : Fin d → ℤ => h.idAt_some (fun j => a j + v j)
  have hinj : ∀ v w : Fin d → ℤ, (∀ k, |v k| ≤ r) → (∀ k, |w k| ≤ r) → f v = f w → v = w := by
    intro v w hv hw e
    have h1 := hfc v
    have h2 := hfc w
    rw [e] at h1
    have e1 := IsTorus.has_unique_coord h1 h2
    funext k
    have e2 := congrFun e1 k
    obtain ⟨c, hc⟩ := Int.dvd_of_emod_eq_zero (Int.emod_eq_emod_iff_emod_sub_eq_zero.1 e2)
    have b1 := abs_le.1 (hv k)
    have b2 := abs_le.1 (hw k)
    have b3 := hr k
    have hc0 : c = 0 := by
      by_contra hne
      rcases lt_or_gt_of_ne hne with hlt | hgt
      · have : c ≤ -1 := by omega
        nlinarith
      · have : 1 ≤ c := by omega
        nlinarith
    rw [hc0] at hc
    linarith
  have hself : f 0 = i := by
    refine h.site_unique (hfc _) ?_
    have : (fun j => (a j + (0 : Fin d → ℤ) j) % N j) = a := by
      funext j
      rw [Pi.zero_apply, add_zero]
      have := h.inBox_of_has ha j
      exact Int.emod_eq_of_lt this.1 this.2
    rw [this]; exact ha
  have hperm : (g.neighborsOf i).Perm ((offs.erase 0).map f) := by
    rw [List.perm_ext_iff_of_nodup (g.nodup_neighbors i)]
    · intro j
      rw [List.mem_map]
      constructor
      · intro hj
        have hjs := ((C55_known_and_other h.reachable _ none g hg i).1 j hj).1
        obtain ⟨b, -, hb⟩ := h.site j hjs
        obtain ⟨hne, v, hv, hd⟩ := (hm i j a b ha hb).1 hj
        have hfj : f v = j := by
          have := h.idAt_iff.2 ⟨b, hb, hd⟩
          rw [hf v] at this
          exact Option.some.inj this
        refine ⟨v, (List.Nodup.mem_erase_iff hnd).2 ⟨?_, hv⟩, hfj⟩
        rintro rfl
        exact hne (by rw [← hfj, hself])
      · rintro ⟨v, hv, rfl⟩
        obtain ⟨hv0, hv⟩ := (List.Nodup.mem_erase_iff hnd).1 hv
        refine (hm i (f v) a _ ha (hfc v)).2 ⟨fun e => hv0 (hinj v 0 (hb v hv) (by simp) (by rw [e, hself])), v, hv, fun k => ?_⟩
        have := Int.emod_add_mul_ediv (a k + v k) (N k)
        exact ⟨-((a k + v k) / N k), by linarith⟩
    · refine (List.nodup_map_iff_inj_on (hnd.erase _)).2 fun v hv w hw e => ?_
      exact hinj v w (hb v (List.mem_of_mem_erase hv)) (hb w (List.mem_of_mem_erase hw)) e
  rw [hperm.length_eq, List.length_map]

/-- C53: there are `(2r+1)^d - 1` of them when the grid is at least `2r+1` wide along every axis. -/
theorem C53_count {s : Structure K d} {N : Fin d → ℤ} (hs : SquareGrid d N s) (r : ℕ) (hr : ∀ j, 2 * (r : ℤ) + 1 ≤ N j)
    (g : Graph K) (hg : (moore r).get s none = .ok g) (i : ℕ) (hi : i ∈ s.siteIds) : (g.neighborsOf i).length = (2 * r + 1) ^ d - 1 := by
  have hnd : ((getPointsInCube (-(r : ℤ)) (r + 1) d).map (cellVec d)).Nodup := by
    refine (List.nodup_map_iff_inj_on (C51_points_in_cube _ _ d).2.2.1).2 fun p hp q hq e => ?_
    rw [← ofFn_cellVec (mem_cube.1 hp).1, ← ofFn_cellVec (mem_cube.1 hq).1, e]
  rw [torus_motif_count hs.isTorus _ hnd r ?_ hr g (by rw [← moore_eq]; exact hg) i hi, List.length_erase_of_mem, List.length_map,
    (C51_points_in_cube _ _ d).2.2.2]
  · congr 2; omega
  · exact List.mem_map.2 ⟨List.ofFn fun _ : Fin d => (0 : ℤ), mem_cube.2 ⟨by simp, fun k => by rw [cellVec_ofFn]; simp⟩, by rw [cellVec_ofFn]; rfl⟩
  · intro v hv k
    obtain ⟨p, hp, rfl⟩ := List.mem_map.1 hv
    exact (mem_cube.1 hp).2 k

theorem sum_abs_cellVec {p : List ℤ} (hp : p.length = d) : (p.map fun x => |x|).sum = ∑ j, |cellVec d p j| := by
  conv_lhs => rw [← ofFn_cellVec hp]
  rw [List.map_ofFn, List.sum_ofFn]; rfl

theorem torus_vonNeumann {s : Structure K d} {N : Fin d → ℤ} (h : IsTorus s N) (r : ℤ) :
    ∃ g, (vonNeumann r).get s none = .ok g ∧ ∀ i j a b, SiteHas s i a → SiteHas s j b →
      (j ∈ g.neighborsOf i ↔ j ≠ i ∧ torusManhattan N a b ≤ r) := by
  obtain ⟨g, hg, hm⟩ := torus_motif h (((getPointsInCube (-r) (r + 1) d).filter fun p => (p.map fun x => |x|).sum ≤ r).map (cellVec d))
  refine ⟨g, by rw [vonNeumann_eq]; exact hg, fun i j a b ha hb => ?_⟩
  rw [hm i j a b ha hb]
  refine and_congr_right fun hne => ?_
  rw [torusManhattan, sum_circ_le_iff h.pos]
  constructor
  · rintro ⟨v, hv, hd⟩
    obtain ⟨p, hp, rfl⟩ := List.mem_map.1 hv
    obtain ⟨hp, hsum⟩ := List.mem_filter.1 hp
    choose q hq using hd
    refine ⟨q, ?_⟩
    have e : ∀ k, a k - b k + q k * N k = - cellVec d p k := fun k => by have := hq k; linarith
    simp only [e, abs_neg]
    rw [← sum_abs_cellVec (mem_cube.1 hp).1]
    simpa using hsum
  · rintro ⟨q, hq⟩
    refine ⟨fun k => -(a k - b k + q k * N k), List.mem_map.2 ⟨List.ofFn fun k => -(a k - b k + q k * N k),
      List.mem_filter.2 ⟨mem_cube.2 ⟨by simp, fun k => ?_⟩, ?_⟩, cellVec_ofFn _⟩, fun k => ⟨q k, by ring⟩⟩
    · rw [cellVec_ofFn, abs_neg]
      exact le_trans (Finset.single_le_sum (f := fun k => |a k - b k + q k * N k|) (fun _ _ => abs_nonneg _) (Finset.mem_univ k)) hq
    · rw [decide_eq_true_eq, sum_abs_cellVec (d := d) (by simp), cellVec_ofFn]
      refine le_trans (le_of_eq (Finset.sum_congr rfl fun k _ => ?_)) hq
      exact abs_neg _

/-- C54: on a square grid of any size, 2D or 3D, the von Neumann builder of size `r` gives each site exactly the other sites whose torus Manhattan
distance is at most `r`. -/
theorem C54_von_neumann {s : Structure K d} {N : Fin d → ℤ} (hs : SquareGrid d N s) (r : ℤ) :
    ∃ g, (vonNeumann r).get s none = .ok g ∧ ∀ i j a b, SiteHas s i a → SiteHas s j b →
      (j ∈ g.neighborsOf i ↔ j ≠ i ∧ torusManhattan N a b ≤ r) :=
  torus_vonNeumann hs.isTorus r

/-! ### C82 -/

theorem mapM_ok_of {α β : Type} {f : α → Py β} {l : List α} (h : ∀ a ∈ l, ∃ b, f a = .ok b) : ∃ r, l.mapM f = .ok r := by
  induction l with
  | nil => exact ⟨[], rfl⟩
  | cons a l ih =>
    obtain ⟨b, hb⟩ := h a List.mem_cons_self
    obtain ⟨r, hr⟩ := ih fun a ha => h a (List.mem_cons_of_mem _ ha)
    exact ⟨b :: r, by rw [List.mapM_cons, hb, ok_bind, hr]; rfl⟩

theorem stochastic_torus {s : Structure K d} {N : Fin d → ℤ} (h : IsTorus s N) (hN : ∀ j, 3 ≤ N j) (ms : List (List (Fin d → ℤ))) (m : ℕ)
    (hne : ms ≠ []) (hms : ∀ offs ∈ ms, offs.Nodup ∧ (0 : Fin d → ℤ) ∉ offs ∧ (∀ v ∈ offs, ∀ k, |v k| ≤ 1) ∧ offs.length = m) :
    ∃ gs, stochasticGet (ms.map fun offs => Builder.motif (offs.map intPoint)) s = .ok gs ∧ ∀ (r i : ℕ) (a : Fin d → ℤ), SiteHas s i a →
      ∃ l, multiNeighborsOf (stochasticNbhood gs r) i = .ok l ∧ l.length = m ∧ l.Nodup ∧
        ∀ j ∈ l, j ≠ i ∧ ∃ b, SiteHas s j b ∧ ChebyshevLE N a b 1 := by
  obtain ⟨gs, hgs⟩ := mapM_ok_of (l := ms.map fun offs => Builder.motif (offs.map intPoint)) (f := fun b : Builder K d => b.get s none) (by
    intro b hb
    obtain ⟨offs, -, rfl⟩ := List.mem_map.1 hb
    exact (torus_motif h offs).imp fun g hg => hg.1)
  refine ⟨gs, hgs, fun r i a ha => ?_⟩
  obtain ⟨b, hb, g, hg, e, -⟩ := (C59_stochastic _ s gs hgs i).1 (by simpa using hne) r
  obtain ⟨offs, ho, rfl⟩ := List.mem_map.1 hb
  obtain ⟨h1, h2, h3, h4⟩ := hms offs ho
  refine ⟨_, e, ?_, g.nodup_neighbors i, fun j hj => ?_⟩
  · rw [torus_motif_count h offs h1 1 (by simpa using h3) (by intro j; have := hN j; push_cast; linarith) g hg i (h.mem_ids h.reachable ha),
      List.erase_of_not_mem h2, h4]
  · have hjs := ((C55_known_and_other h.reachable _ none g hg i).1 j hj).1
    obtain ⟨b, -, hb⟩ := h.site j hjs
    obtain ⟨g', hg', hm⟩ := torus_motif h offs
    rw [hg] at hg'; injection hg' with hg'; subst hg'
    obtain ⟨hne, v, hv, hd⟩ := (hm i j a b ha hb).1 hj
    refine ⟨hne, b, hb, fun k => ?_⟩
    obtain ⟨q, hq⟩ := hd k
    refine (circ_le_iff (h.pos k) _ _).2 ⟨q, ?_⟩
    have : a k - b k + q * N k = - v k := by linarith
    rw [this, abs_neg]
    exact h3 v hv k

/-- C82: on a 2D grid at least 3 wide, whatever `random.choice` picks, the pseudohexagonal neighbourhood gives each site six different other
sites, all at torus Chebyshev distance 1. -/
theorem C82_pseudohexagonal_2d {s : Structure K 2} {N : Fin 2 → ℤ} (hs : SquareGrid 2 N s) (hN : ∀ j, 3 ≤ N j) :
    ∃ gs, stochasticGet pseudoHex2 s = .ok gs ∧ ∀ (r i : ℕ) (a : Fin 2 → ℤ), SiteHas s i a →
      ∃ l, multiNeighborsOf (stochasticNbhood gs r) i = .ok l ∧ l.length = 6 ∧ l.Nodup ∧
        ∀ j ∈ l, j ≠ i ∧ ∃ b, SiteHas s j b ∧ ChebyshevLE N a b 1 := by
  have := stochastic_torus hs.isTorus hN
    [[![1, 0], ![0, 1], ![-1, 0], ![0, -1], ![1, 1], ![-1, -1]], [![1, 0], ![0, 1], ![-1, 0], ![0, -1], ![-1, 1], ![1, -1]]] 6 (by simp) (by decide)
  have e : (pseudoHex2 : List (Builder K 2)) = List.map (fun offs => Builder.motif (offs.map intPoint))
      [[![1, 0], ![0, 1], ![-1, 0], ![0, -1], ![1, 1], ![-1, -1]], [![1, 0], ![0, 1], ![-1, 0], ![0, -1], ![-1, 1], ![1, -1]]] := by
    simp only [pseudoHex2, List.map_cons, List.map_nil]
    congr <;> (funext k; fin_cases k <;> simp [intPoint])
  rw [e]; exact this

/-- C82: the pseudohexagonal 3D neighbourhood gives eight. -/
theorem C82_pseudohexagonal_3d {s : Structure K 3} {N : Fin 3 → ℤ} (hs : SquareGrid 3 N s) (hN : ∀ j, 3 ≤ N j) :
    ∃ gs, stochasticGet pseudoHex3 s = .ok gs ∧ ∀ (r i : ℕ) (a : Fin 3 → ℤ), SiteHas s i a →
      ∃ l, multiNeighborsOf (stochasticNbhood gs r) i = .ok l ∧ l.length = 8 ∧ l.Nodup ∧
        ∀ j ∈ l, j ≠ i ∧ ∃ b, SiteHas s j b ∧ ChebyshevLE N a b 1 := by
  let c : List (Fin 3 → ℤ) := [![1, 0, 0], ![-1, 0, 0], ![0, 1, 0], ![0, -1, 0], ![0, 0, 1], ![0, 0, -1]]
  have := stochastic_torus hs.isTorus hN
    [c ++ [![-1, -1, 1], ![1, 1, -1]], c ++ [![-1, 1, 1], ![1, -1, -1]], c ++ [![1, 1, 1], ![-1, -1, -1]], c ++ [![1, -1, 1], ![-1, 1, -1]]]
    8 (by simp) (by decide)
  have e : (pseudoHex3 : List (Builder K 3)) = List.map (fun offs => Builder.motif (offs.map intPoint))
      [c ++ [![-1, -1, 1], ![1, 1, -1]], c ++ [![-1, 1, 1], ![1, -1, -1]], c ++ [![1, 1, 1], ![-1, -1, -1]], c ++ [![1, -1, 1], ![-1, 1, -1]]] := by
    simp only [pseudoHex3, List.map_cons, List.map_nil, List.cons_append, List.nil_append, c]
    congr <;> (funext k; fin_cases k <;> simp [intPoint])
  rw [e]; exact this

/-- C82: the pseudopentagonal neighbourhood gives five. -/
theorem C82_pseudopentagonal {s : Structure K 2} {N : Fin 2 → ℤ} (hs : SquareGrid 2 N s) (hN : ∀ j, 3 ≤ N j) :
    ∃ gs, stochasticGet pseudoPent s = .ok gs ∧ ∀ (r i : ℕ) (a : Fin 2 → ℤ), SiteHas s i a →
      ∃ l, multiNeighborsOf (stochasticNbhood gs r) i = .ok l ∧ l.length = 5 ∧ l.Nodup ∧
        ∀ j ∈ l, j ≠ i ∧ ∃ b, SiteHas s j b ∧ ChebyshevLE N a b 1 := by
  have := stochastic_torus hs.isTorus hN
    [[![-1, 0], ![1, 0], ![-1, -1], ![0, -1], ![1, -1]], [![-1, 1], ![0, 1], ![1, 1], ![-1, 0], ![1, 0]],
     [![0, 1], ![1, 1], ![1, 0], ![0, -1], ![1, -1]], [![-1, 1], ![0, 1], ![-1, 0], ![-1, -1], ![0, -1]]] 5 (by simp) (by decide)
  have e : (pseudoPent : List (Builder K 2)) = List.map (fun offs => Builder.motif (offs.map intPoint))
      [[![-1, 0], ![1, 0], ![-1, -1], ![0, -1], ![1, -1]], [![-1, 1], ![0, 1], ![1, 1], ![-1, 0], ![1, 0]],
       [![0, 1], ![1, 1], ![1, 0], ![0, -1], ![1, -1]], [![-1, 1], ![0, 1], ![-1, 0], ![-1, -1], ![0, -1]]] := by
    simp only [pseudoPent, List.map_cons, List.map_nil]
    congr <;> (funext k; fin_cases k <;> simp [intPoint])
  rw [e]; exact this

/-! ### the hypotheses can be met -/

/-- A 5 x 4 grid. -/
example : ∃ s : Structure ℚ 2, SquareGrid 2 ![5, 4] s ∧ ∃ i j, SiteHas s i ![0, 1] ∧ SiteHas s j ![4, 1] ∧
    ∃ g, (moore 1).get s none = .ok g ∧ j ∈ g.neighborsOf i := by
  obtain ⟨-, s, hs, hc⟩ := C52_square2 (K := ℚ) 1 (by norm_num) 4 5 (by norm_num) (by norm_num)
  have hg : SquareGrid 2 ![5, 4] s := .two _ s 5 4 (by norm_num) (by norm_num) (.inl rfl) hs
  obtain ⟨i, ⟨-, hi⟩, -⟩ := hc.2.1 ![0, 1] (by intro j; fin_cases j <;> simp)
  obtain ⟨j, ⟨-, hj⟩, -⟩ := hc.2.1 ![4, 1] (by intro j; fin_cases j <;> simp)
  obtain ⟨g, hgg, hm⟩ := C53_moore hg 1
  refine ⟨s, hg, i, j, hi, hj, g, hgg, (hm i j _ _ hi hj).2 ⟨?_, ?_⟩⟩
  · rintro rfl
    have := congrFun (IsTorus.has_unique_coord hi hj) 0
    simp at this
  · intro k; fin_cases k <;> decide

/-- A cell with an open boundary. -/
def openCell : Lattice ℚ 1 := ⟨!![1], fun _ => false⟩

/-- Two sites in it, at 0 and 1/2. -/
noncomputable def openPair : Structure ℚ 1 := built openCell [("A", ![0]), ("B", ![1/2])]

theorem openCell_regular : openCell.Regular := regular_of_isUnit (by simp [openCell])

theorem openCell_aligned (i : Fin 1) : Aligned (openCell.mat i) :=
  fun j => ⟨1000, by fin_cases i; fin_cases j; simp [openCell]⟩

theorem openCell_key {x y : Fin 1 → ℚ} (hx : Aligned x) (hy : Aligned y) : keyOf openCell x = keyOf openCell y ↔ x = y := by
  rw [keyOf_eq_iff openCell_regular, samePlace_iff_image openCell_regular openCell_aligned hx hy]
  constructor
  · rintro ⟨n, hn, e⟩
    have h0 : n = 0 := by funext i; exact hn i rfl
    subst h0
    have : openCell.point (fun i => (((0 : Fin 1 → ℤ) i : ℤ) : ℚ)) = 0 := by funext j; simp [point]
    rw [this] at e
    exact sub_eq_zero.1 e
  · rintro rfl; exact Image.refl _

theorem aligned_half (k : ℤ) : Aligned (![(k : ℚ) / 2] : Fin 1 → ℚ) := fun i => ⟨500 * k, by fin_cases i; simp; ring⟩

theorem openPair_distinct : Distinct openCell [("A", ![0]), ("B", ![1/2])] := by
  have h0 := aligned_half 0
  have h1 := aligned_half 1
  norm_num at h0 h1
  have : keyOf openCell ![0] ≠ keyOf openCell ![1/2] := by
    rw [Ne, openCell_key (by simpa using h0) (by simpa using h1)]
    intro e; have := congrFun e 0; norm_num at this
  simpa [Distinct] using this

/-- C58 at work: in the open cell the motif builder raises TypeError. -/
example : openPair.Reachable ∧ (Builder.motif [![1/2]]).get openPair none = .error .typeError := by
  have hr := reachable_built openCell_regular openPair_distinct
  refine ⟨hr, (C58_open_boundary hr _ none).1 ⟨1, _, ![1/2], siteLocation_iff.2 ⟨_, getSite_built _ _ 1, rfl⟩, by simp, by simp, ?_⟩⟩
  have h0 := aligned_half 0
  have h1 := aligned_half 1
  have h2 := aligned_half 2
  norm_num at h0 h1 h2
  have hin : rounded (openCell.periodized ![1/2]) = ![1/2] := by
    have : openCell.InCell ![1/2] := ⟨![1/2], by funext j; fin_cases j; simp [point, openCell], fun i hi => by simp [openCell] at hi⟩
    rw [this.periodized openCell_regular, aligned_rounded (by simpa using h1)]
  have e2 : (![1/2] + ![1/2] : Fin 1 → ℚ) = ![1] := by funext j; fin_cases j; norm_num
  simp only [hin, e2]
  rw [siteAt_built_none openPair_distinct]
  intro c hc
  simp only [List.mem_cons, List.not_mem_nil, or_false] at hc
  rcases hc with rfl | rfl
  · rw [Ne, openCell_key (by simpa using h0) h2]; intro e; have := congrFun e 0; norm_num at this
  · rw [Ne, openCell_key (by simpa using h1) h2]; intro e; have := congrFun e 0; norm_num at this

/-- C56 and C59 at work: distance neighbours of sites of class "B" only. -/
example : ∃ m, siteClassGet [("B", Builder.distance 1)] openPair = .ok m ∧ openPair.siteClass 0 = .ok "A" ∧ openPair.siteClass 1 = .ok "B" ∧
    multiNeighborsOf (siteClassNbhood openPair m 0) 0 = .ok [] ∧ ∃ g, (Builder.distance 1).get openPair (some "B") = .ok g ∧
      multiNeighborsOf (siteClassNbhood openPair m 1) 1 = .ok (g.neighborsOf 1) := by
  have hr : openPair.Reachable := reachable_built openCell_regular openPair_distinct
  have hb : ∃ g, (Builder.distance 1).get openPair (some "B") = .ok g := ⟨_, (Builder.get_eq hr _ _).1 fun t ht nb hnb e => by
    obtain ⟨o, w⟩ := nb
    obtain ⟨t', -, h2, -⟩ := (mem_getNeighbors_byDistance hr (.distance 1)).1 hnb
    simp only at e
    rw [e] at h2; cases h2⟩
  obtain ⟨m, hm⟩ := C59_site_class_builds (s := openPair) [("B", Builder.distance 1)] (by simpa using hb)
  have h0 : openPair.siteClass 0 = .ok "A" := siteClass_iff.2 ⟨_, getSite_built _ _ 0, rfl⟩
  have h1 : openPair.siteClass 1 = .ok "B" := siteClass_iff.2 ⟨_, getSite_built _ _ 1, rfl⟩
  refine ⟨m, hm, h0, h1, ((C59_site_class hr _ (by simp [Dict.WF]) m hm 0 "A" h0).2 (by simp)).1, ?_⟩
  obtain ⟨g, hg, e, -⟩ := (C59_site_class hr _ (by simp [Dict.WF]) m hm 1 "B" h1).1 (.distance 1) rfl
  exact ⟨g, hg, e⟩

end Pyl
