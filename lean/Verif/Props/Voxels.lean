import Verif.Props.Drawing
/-
C86, C87: the cells the 3D artist fills.
-/
set_option autoImplicit false
set_option linter.unusedSectionVars false

namespace Pyl
open Pyl.Lattice Structure SimState Spec Artist3D
variable {K : Type} [Field K] [LinearOrder K] [IsStrictOrderedRing K] [FloorRing K]

/-- The side is recovered from the number of sites. -/
theorem cubeSide_cube (n : ℕ) : cubeSide (n ^ 3) = n := by
  unfold cubeSide
  have h : ∀ m : ℕ, (2 * m - 1) ^ 3 ≤ 8 * n ^ 3 ↔ m ≤ n := by
    intro m
    rw [show 8 * n ^ 3 = (2 * n) ^ 3 by ring, Nat.pow_le_pow_iff_left (by norm_num)]
    omega
  have e : (List.range (n ^ 3 + 1)).filter (fun m => decide ((2 * m - 1) ^ 3 ≤ 8 * n ^ 3)) = (List.range (n ^ 3 + 1)).filter (fun m => decide (m < n + 1)) := by
    refine List.filter_congr fun m _ => decide_eq_decide.2 ?_
    rw [h]; omega
  rw [e]
  have hle : n + 1 ≤ n ^ 3 + 1 := by
    have := Nat.le_self_pow (n := 3) (by norm_num) n
    omega
  have key : ∀ a b : ℕ, b ≤ a → ((List.range a).filter fun m => decide (m < b)).length = b := by
    intro a b hab
    induction a with
    | zero => simp; omega
    | succ a ih =>
      rw [List.range_succ, List.filter_append, List.length_append]
      by_cases hb : b ≤ a
      · rw [ih hb]; simp [hb]
      · have : b = a + 1 := by omega
        subst this
        rw [List.filter_eq_self.2 fun m hm => by simp at hm ⊢; omega]
        simp
  rw [key _ _ hle]
  omega

theorem cell_ok {side : ℕ} {c : Fin 3 → ℤ} (h : ∀ j, 0 ≤ c j ∧ c j < side) {t : Site K 3} (ht : t.loc = intPoint c) :
    cell side (pyInt (t.loc 0), pyInt (t.loc 1), pyInt (t.loc 2)) = .ok (c 0, c 1, c 2) := by
  have e : ∀ j, pyInt (t.loc j) = c j := fun j => by rw [ht]; exact pyInt_int _
  unfold cell
  simp only [e, if_neg (not_lt.2 (h _).1)]
  rw [if_pos ⟨h 0, h 1, h 2⟩]

/-- Filling cells: after the sites of a list, a cell is filled in a colour's array iff it was before or a drawn site of that colour is there. -/
theorem foldlM_addSite (A : CellArtist) (colorStr : Color → String) (s : SimState) {side : ℕ} (shellOnly : Bool) (l : List (Site K 3))
    (at_ : Site K 3 → Fin 3 → ℤ) (col : Site K 3 → Color) (h1 : ∀ t ∈ l, t.loc = intPoint (at_ t) ∧ ∀ j, 0 ≤ at_ t j ∧ at_ t j < side)
    (h2 : ∀ t ∈ l, A.color (s.getSiteState (.int t.id)) = .ok (col t)) (data : Voxels) :
    ∃ data', l.foldlM (addSite A colorStr s side shellOnly) data = .ok data' ∧ ∀ str v, Filled data' str v ↔
      Filled data str v ∨ ∃ t ∈ l, (shellOnly = true → at_ t 1 = 0) ∧ colorStr (col t) = str ∧ v = (at_ t 0, at_ t 1, at_ t 2) := by
  induction l generalizing data with
  | nil => exact ⟨data, rfl, by simp⟩
  | cons t l ih =>
    obtain ⟨hl, hb⟩ := h1 t (by simp)
    have hcond : (!shellOnly || (decide (t.loc 1 = 0) || decide (t.loc 0 = (side : K)) || decide (t.loc 2 = (side : K)))) = true ↔
        (shellOnly = true → at_ t 1 = 0) := by
      have e : ∀ j, t.loc j = ((side : ℕ) : K) ↔ False := fun j => by
        rw [hl]
        refine iff_false_intro fun e => ?_
        have : at_ t j = side := by
          have e' : ((at_ t j : ℤ) : K) = ((side : ℤ) : K) := by rw [Int.cast_natCast]; exact e
          exact_mod_cast e'
        have := (hb j).2
        omega
      have e1 : t.loc 1 = 0 ↔ at_ t 1 = 0 := by
        rw [hl]
        show ((at_ t 1 : ℤ) : K) = 0 ↔ _
        exact_mod_cast Iff.rfl
      simp only [e, e1]
      cases shellOnly <;> simp
    by_cases hc : shellOnly = true → at_ t 1 = 0
    · obtain ⟨d', h3, h4⟩ := ih (fun u hu => h1 u (by simp [hu])) (fun u hu => h2 u (by simp [hu]))
        (Dict.set data (colorStr (col t)) ((Dict.get? data (colorStr (col t))).getD [] ++ [(at_ t 0, at_ t 1, at_ t 2)]))
      refine ⟨d', ?_, fun str v => ?_⟩
      · rw [List.foldlM_cons]
        have : addSite A colorStr s side shellOnly data t =
            .ok (Dict.set data (colorStr (col t)) ((Dict.get? data (colorStr (col t))).getD [] ++ [(at_ t 0, at_ t 1, at_ t 2)])) := by
          unfold Artist3D.addSite
          rw [if_pos (hcond.2 hc), h2 t (by simp), ok_bind, cell_ok hb hl, ok_bind]
          rfl
        rw [this, ok_bind]; exact h3
      · have hset : Filled (Dict.set data (colorStr (col t)) ((Dict.get? data (colorStr (col t))).getD [] ++ [(at_ t 0, at_ t 1, at_ t 2)])) str v ↔
            Filled data str v ∨ (colorStr (col t) = str ∧ v = (at_ t 0, at_ t 1, at_ t 2)) := by
          unfold Filled
          rw [Dict.get?_set]
          by_cases he : colorStr (col t) = str
          · subst he
            rw [if_pos rfl]
            cases Dict.get? data (colorStr (col t)) <;> simp
          · rw [if_neg he]; simp [he]
        rw [h4, hset]
        constructor
        · rintro ((h | h) | ⟨u, hu, h⟩)
          · exact .inl h
          · exact .inr ⟨t, by simp, hc, h⟩
          · exact .inr ⟨u, by simp [hu], h⟩
        · rintro (h | ⟨u, hu, hk, h⟩)
          · exact .inl (.inl h)
          · rcases List.mem_cons.1 hu with rfl | hu
            · exact .inl (.inr h)
            · exact .inr ⟨u, hu, hk, h⟩
    · obtain ⟨d', h3, h4⟩ := ih (fun u hu => h1 u (by simp [hu])) (fun u hu => h2 u (by simp [hu])) data
      refine ⟨d', ?_, fun str v => ?_⟩
      · rw [List.foldlM_cons]
        have : addSite A colorStr s side shellOnly data t = .ok data := by
          unfold Artist3D.addSite
          rw [if_neg fun h => hc (hcond.1 h)]
        rw [this, ok_bind]; exact h3
      · rw [h4]
        constructor
        · rintro (h | ⟨u, hu, h⟩)
          · exact .inl h
          · exact .inr ⟨u, by simp [hu], h⟩
        · rintro (h | ⟨u, hu, hk, h⟩)
          · exact .inl h
          · rcases List.mem_cons.1 hu with rfl | hu
            · exact absurd hk hc
            · exact .inr ⟨u, hu, hk, h⟩

/-- The sites of a torus with their coordinates. -/
theorem torus_cells {d : ℕ} {N : Fin d → ℤ} {S : Structure K d} (hT : IsTorus S N) :
    ∃ at_ : Site K d → Fin d → ℤ, ∀ t ∈ S.sitesOf none, SiteHas S t.id (at_ t) ∧ InBox N (at_ t) ∧ t.loc = intPoint (at_ t) := by
  have hR := hT.reachable
  have : ∀ t : Site K d, ∃ c, t ∈ S.sitesOf none → SiteHas S t.id c ∧ InBox N c ∧ t.loc = intPoint c := by
    intro t
    by_cases ht : t ∈ S.sitesOf none
    · obtain ⟨c, hb, hc⟩ := hT.site _ ((mem_siteIds_iff hR).2 ⟨t, ht, rfl⟩)
      refine ⟨c, fun _ => ⟨hc, hb, ?_⟩⟩
      obtain ⟨u, hu, e⟩ := siteLocation_iff.1 hc
      rw [(mem_sitesOf hR).1 ht] at hu; injection hu with hu; subst hu; exact e
    · exact ⟨0, fun h => absurd h ht⟩
  choose f hf using this
  exact ⟨f, hf⟩

/-- C86 and C87 in one: which cells are filled, for a cubic grid. -/
theorem voxels_eq {n : ℕ} {S : Structure K 3} (hS : SquareGrid 3 (fun _ => (n : ℤ)) S) (A : CellArtist) (colorStr : Color → String) (s : SimState) (hs : s.size = n ^ 3)
    (col : ℕ → Color) (hcol : ∀ i ∈ S.siteIds, A.color (s.getSiteState (.int i)) = .ok (col i)) (shellOnly : Bool) :
    ∃ data, voxels A colorStr S s shellOnly = .ok data ∧ ∀ str v, Filled data str v ↔
      ∃ i c, SiteHas S i c ∧ (shellOnly = true → c 1 = 0) ∧ colorStr (col i) = str ∧ v = (c 0, c 1, c 2) := by
  have hT := hS.isTorus
  have hR := hT.reachable
  obtain ⟨at_, hat⟩ := torus_cells hT
  obtain ⟨data, h1, h2⟩ := foldlM_addSite A colorStr s (side := n) shellOnly (S.sitesOf none) at_ (fun t => col t.id)
    (fun t ht => ⟨(hat t ht).2.2, fun j => (hat t ht).2.1 j⟩) (fun t ht => hcol _ ((mem_siteIds_iff hR).2 ⟨t, ht, rfl⟩)) []
  refine ⟨data, ?_, fun str v => ?_⟩
  · unfold voxels
    rw [hs, cubeSide_cube]; exact h1
  · rw [h2]
    constructor
    · rintro (⟨cells, h, -⟩ | ⟨t, ht, h⟩)
      · simp at h
      · exact ⟨t.id, at_ t, (hat t ht).1, h⟩
    · rintro ⟨i, c, hc, h⟩
      obtain ⟨t, ht, rfl, -⟩ := site_of_has hR hc
      have e : c = at_ t := IsTorus.has_unique_coord hc (hat t ht).1
      subst e
      exact .inr ⟨t, ht, h⟩

theorem mem_emptyCells {side : ℕ} {data : Voxels} {v : ℤ × ℤ × ℤ} :
    v ∈ emptyCells side data ↔ ((0 ≤ v.1 ∧ v.1 < side) ∧ (0 ≤ v.2.1 ∧ v.2.1 < side) ∧ (0 ≤ v.2.2 ∧ v.2.2 < side)) ∧ ∀ str, ¬ Filled data str v := by
  unfold emptyCells
  rw [List.mem_filter, List.mem_map]
  simp only [Bool.not_eq_true', List.any_eq_false, decide_eq_true_eq]
  refine and_congr ?_ ?_
  · obtain ⟨x, y, z⟩ := v
    simp only
    constructor
    · rintro ⟨⟨a, b, c⟩, h, e⟩
      simp only [List.mem_product, List.mem_range] at h
      simp only [Prod.mk.injEq] at e
      omega
    · rintro ⟨⟨h1, h2⟩, ⟨h3, h4⟩, h5, h6⟩
      refine ⟨(x.toNat, y.toNat, z.toNat), ?_, ?_⟩
      · simp only [List.mem_product, List.mem_range]; omega
      · simp only [Prod.mk.injEq]; omega
  · constructor
    · rintro h str ⟨cells, h1, h2⟩
      exact h str (Dict.mem_keys_of_get? h1) (by rw [h1]; exact h2)
    · intro h k _ hv
      cases e : Dict.get? data k with
      | none => rw [e] at hv; cases hv
      | some cells => rw [e] at hv; exact h k ⟨cells, e, hv⟩

/-- C86: every site of a cubic grid fills its own cell in the array of its colour and in no other array, no other cell is filled, and no cell of the cube is left
over for the array "empty". -/
theorem C86_voxels {n : ℕ} {S : Structure K 3} (hS : SquareGrid 3 (fun _ => (n : ℤ)) S) (A : CellArtist) (colorStr : Color → String) (s : SimState) (hs : s.size = n ^ 3)
    (col : ℕ → Color) (hcol : ∀ i ∈ S.siteIds, A.color (s.getSiteState (.int i)) = .ok (col i)) :
    ∃ data, voxels A colorStr S s false = .ok data ∧
      (∀ i c, SiteHas S i c → ∀ str, Filled data str (c 0, c 1, c 2) ↔ str = colorStr (col i)) ∧
      (∀ str v, Filled data str v → ∃ i c, SiteHas S i c ∧ v = (c 0, c 1, c 2)) ∧ emptyCells (cubeSide s.size) data = [] := by
  obtain ⟨data, h1, h2⟩ := voxels_eq hS A colorStr s hs col hcol false
  refine ⟨data, h1, fun i c hc str => ?_, fun str v h => ?_, ?_⟩
  · rw [h2]
    constructor
    · rintro ⟨i', c', hc', -, e1, e2⟩
      simp only [Prod.mk.injEq] at e2
      have e : c = c' := by
        funext j
        fin_cases j
        · exact e2.1
        · exact e2.2.1
        · exact e2.2.2
      subst e
      rw [hS.isTorus.site_unique hc hc', e1]
    · rintro rfl
      exact ⟨i, c, hc, by simp, rfl, rfl⟩
  · obtain ⟨i, c, hc, -, -, e⟩ := (h2 str v).1 h
    exact ⟨i, c, hc, e⟩
  · rw [List.eq_nil_iff_forall_not_mem]
    intro v hv
    rw [hs, cubeSide_cube] at hv
    obtain ⟨hb, hn⟩ := mem_emptyCells.1 hv
    obtain ⟨i, -, hi⟩ := hS.isTorus.ex ![v.1, v.2.1, v.2.2] (by intro j; fin_cases j; exacts [hb.1, hb.2.1, hb.2.2])
    exact hn _ ((h2 _ _).2 ⟨i, _, hi, by simp, rfl, rfl⟩)

/-- C87 (partial): `shell_only` draws the sites of the plane `y = 0`, each in its colour, and nothing else; all other cells of the cube are drawn as empty. -/
theorem C87_shell_partial {n : ℕ} {S : Structure K 3} (hS : SquareGrid 3 (fun _ => (n : ℤ)) S) (A : CellArtist) (colorStr : Color → String) (s : SimState) (hs : s.size = n ^ 3)
    (col : ℕ → Color) (hcol : ∀ i ∈ S.siteIds, A.color (s.getSiteState (.int i)) = .ok (col i)) :
    ∃ data, voxels A colorStr S s true = .ok data ∧
      (∀ i c, SiteHas S i c → ∀ str, Filled data str (c 0, c 1, c 2) ↔ c 1 = 0 ∧ str = colorStr (col i)) ∧
      (∀ str v, Filled data str v → ∃ i c, SiteHas S i c ∧ v = (c 0, c 1, c 2)) ∧
      ∀ v, v ∈ emptyCells (cubeSide s.size) data ↔ ∃ i c, SiteHas S i c ∧ c 1 ≠ 0 ∧ v = (c 0, c 1, c 2) := by
  obtain ⟨data, h1, h2⟩ := voxels_eq hS A colorStr s hs col hcol true
  refine ⟨data, h1, fun i c hc str => ?_, fun str v h => ?_, fun v => ?_⟩
  rotate_left
  · obtain ⟨i, c, hc, -, -, e⟩ := (h2 str v).1 h
    exact ⟨i, c, hc, e⟩
  · rw [hs, cubeSide_cube, mem_emptyCells]
    constructor
    · rintro ⟨hb, hn⟩
      obtain ⟨i, -, hi⟩ := hS.isTorus.ex ![v.1, v.2.1, v.2.2] (by intro j; fin_cases j; exacts [hb.1, hb.2.1, hb.2.2])
      exact ⟨i, _, hi, fun e => hn _ ((h2 _ _).2 ⟨i, _, hi, fun _ => e, rfl, rfl⟩), rfl⟩
    · rintro ⟨i, c, hc, hne, rfl⟩
      obtain ⟨c', hb, hc'⟩ := hS.isTorus.site i (hS.isTorus.mem_ids hS.isTorus.reachable hc)
      have e : c = c' := IsTorus.has_unique_coord hc hc'
      subst e
      refine ⟨⟨hb 0, hb 1, hb 2⟩, fun str hf => ?_⟩
      obtain ⟨i', c', -, hk, -, e⟩ := (h2 _ _).1 hf
      simp only [Prod.mk.injEq] at e
      exact hne (by rw [e.2.1, hk rfl])
  rw [h2]
  constructor
  · rintro ⟨i', c', hc', hk, e1, e2⟩
    simp only [Prod.mk.injEq] at e2
    have e : c = c' := by
      funext j
      fin_cases j
      · exact e2.1
      · exact e2.2.1
      · exact e2.2.2
    subst e
    exact ⟨hk rfl, by rw [hS.isTorus.site_unique hc hc', e1]⟩
  · rintro ⟨h, rfl⟩
    exact ⟨i, c, hc, fun _ => h, rfl, rfl⟩

/-- C87 as the name of the option says it is false: for `n ≥ 2` the site at `(n - 1, n - 1, n - 1)`, a corner of the cube on three of its faces, is not drawn. -/
theorem C87_false {n : ℕ} (hn : 2 ≤ n) {S : Structure K 3} (hS : SquareGrid 3 (fun _ => (n : ℤ)) S) (A : CellArtist) (colorStr : Color → String) (s : SimState)
    (hs : s.size = n ^ 3) (col : ℕ → Color) (hcol : ∀ i ∈ S.siteIds, A.color (s.getSiteState (.int i)) = .ok (col i)) :
    ∃ data, voxels A colorStr S s true = .ok data ∧ (∃ i, SiteHas S i fun _ => (n : ℤ) - 1) ∧ ∀ str, ¬ Filled data str ((n : ℤ) - 1, (n : ℤ) - 1, (n : ℤ) - 1) := by
  obtain ⟨data, h1, h2, -⟩ := C87_shell_partial hS A colorStr s hs col hcol
  obtain ⟨i, -, hi⟩ := hS.isTorus.ex (fun _ => (n : ℤ) - 1) (fun j => ⟨by dsimp only; omega, by dsimp only; omega⟩)
  refine ⟨data, h1, ⟨i, hi⟩, fun str h => ?_⟩
  have := ((h2 i _ hi str).1 h).1
  omega

theorem foldlM_fails {α β : Type} {f : β → α → Py β} {e : Err} (l : List α) (h1 : ∀ b, ∀ a ∈ l, (∃ b', f b a = .ok b') ∨ f b a = .error e)
    (h2 : ∃ a ∈ l, ∀ b, f b a = .error e) (b : β) : l.foldlM f b = .error e := by
  induction l generalizing b with
  | nil => obtain ⟨a, ha, -⟩ := h2; cases ha
  | cons a l ih =>
    rw [List.foldlM_cons]
    rcases h1 b a (by simp) with ⟨b', hb⟩ | hb
    · rw [hb, ok_bind]
      refine ih (fun b a ha => h1 b a (by simp [ha])) ?_ b'
      obtain ⟨a', ha', he⟩ := h2
      rcases List.mem_cons.1 ha' with rfl | ha'
      · rw [he b] at hb; cases hb
      · exact ⟨a', ha', he⟩
    · rw [hb]; rfl

/-- C86 for other boxes: if the box is longer along some axis than the rounded cube root of the number of sites, drawing raises IndexError. -/
theorem C86_not_cubic {N : Fin 3 → ℤ} {S : Structure K 3} (hS : SquareGrid 3 N S) (A : CellArtist) (colorStr : Color → String) (s : SimState)
    (hN : ∃ j, (cubeSide s.size : ℤ) < N j) (col : ℕ → Color) (hcol : ∀ i ∈ S.siteIds, A.color (s.getSiteState (.int i)) = .ok (col i)) :
    voxels A colorStr S s false = .error .indexError := by
  have hT := hS.isTorus
  have hR := hT.reachable
  obtain ⟨at_, hat⟩ := torus_cells hT
  have hint : ∀ t ∈ S.sitesOf none, ∀ j, pyInt (t.loc j) = at_ t j := fun t ht j => by rw [(hat t ht).2.2]; exact pyInt_int _
  have hstep : ∀ b : Voxels, ∀ t ∈ S.sitesOf none, addSite A colorStr s (cubeSide s.size) false b t = (do
      let v ← cell (cubeSide s.size) (at_ t 0, at_ t 1, at_ t 2)
      pure (Dict.set b (colorStr (col t.id)) ((Dict.get? b (colorStr (col t.id))).getD [] ++ [v]))) := by
    intro b t ht
    unfold Artist3D.addSite
    rw [if_pos (by rfl), hcol _ ((mem_siteIds_iff hR).2 ⟨t, ht, rfl⟩), ok_bind, hint t ht, hint t ht, hint t ht]
  have hcell : ∀ t ∈ S.sitesOf none, cell (cubeSide s.size) (at_ t 0, at_ t 1, at_ t 2) =
      if ∀ j, at_ t j < cubeSide s.size then .ok (at_ t 0, at_ t 1, at_ t 2) else .error .indexError := by
    intro t ht
    have hb := (hat t ht).2.1
    unfold cell
    simp only [if_neg (not_lt.2 (hb _).1)]
    refine if_congr ?_ rfl rfl
    constructor
    · rintro ⟨h0, h1, h2⟩ j
      fin_cases j
      · exact h0.2
      · exact h1.2
      · exact h2.2
    · intro h
      exact ⟨⟨(hb 0).1, h 0⟩, ⟨(hb 1).1, h 1⟩, ⟨(hb 2).1, h 2⟩⟩
  unfold voxels
  refine foldlM_fails _ (fun b t ht => ?_) ?_ _
  · rw [hstep b t ht, hcell t ht]
    split_ifs
    · exact .inl ⟨_, rfl⟩
    · exact .inr rfl
  · obtain ⟨j, hj⟩ := hN
    obtain ⟨i, -, hi⟩ := hT.ex (fun k => N k - 1) (fun k => ⟨by have := hT.pos k; dsimp only; omega, by dsimp only; omega⟩)
    obtain ⟨t, ht, rfl, -⟩ := site_of_has hR hi
    have e : (fun k => N k - 1) = at_ t := IsTorus.has_unique_coord hi (hat t ht).1
    refine ⟨t, ht, fun b => ?_⟩
    rw [hstep b t ht, hcell t ht, if_neg]
    · rfl
    · intro h
      have h' := h j
      rw [← e] at h'
      simp only at h'
      omega

/-- A state that starts on a cubic grid has as many sites as the grid. -/
theorem size_of_start {n : ℕ} {S : Structure K 3} (hS : SquareGrid 3 (fun _ => (n : ℤ)) S) {s : SimState} (h : StartState S s) : s.size = n ^ 3 := by
  have hc := hS.isTorus.count
  simp only [Int.toNat_natCast, Finset.prod_const, Finset.card_univ, Fintype.card_fin] at hc
  rw [← hc]
  unfold SimState.size
  have hp : (SimState.siteIds s).Perm (S.siteIds.map fun i : ℕ => Key.int i) := by
    refine (List.perm_ext_iff_of_nodup h.1.1 ?_).2 fun k => ?_
    · refine List.Nodup.map ?_ ?_
      · intro a b e
        injection e with e
        exact_mod_cast e
      · rw [siteIds_eq hS.isTorus.reachable]; exact List.nodup_range
    · rw [List.mem_map]
      refine (h.2.2.1 k).trans ?_
      constructor
      · rintro ⟨i, hi, rfl⟩; exact ⟨i, hi, rfl⟩
      · rintro ⟨i, hi, rfl⟩; exact ⟨i, hi, rfl⟩
  rw [hp.length_eq, List.length_map]

/-- Non-vacuity of `C86_voxels`, `C87_shell_partial` and `C87_false`: a 3 x 3 x 3 interface and the artist made from its state. -/
example : ∃ (S : Structure ℚ 3) (s : SimState) (A : CellArtist) (col : ℕ → Color), SquareGrid 3 (fun _ => ((3 : ℕ) : ℤ)) S ∧ s.size = 3 ^ 3 ∧
    artistFromState (fun _ => "x") id s = .ok A ∧ ∀ i ∈ S.siteIds, A.color (s.getSiteState (.int i)) = .ok (col i) := by
  obtain ⟨S, s, h1, h2, h3, h4⟩ := C64_interface (K := ℚ) StdSetup.three 3 (by norm_num) (.str "A") (.str "B") (.str _) (.str _)
  have hh : ∀ k v, occ? s k = some v → v.hashable = true := by
    intro k v hv
    obtain ⟨p, hp, -⟩ := occ?_eq.1 hv
    obtain ⟨i, hi, rfl⟩ := (h3.2.2.1 k).1 (mem_of_siteState hp)
    obtain ⟨c, -, hc⟩ := h2.isTorus.site i hi
    rw [h4 i c hc] at hv
    injection hv with hv
    rw [← hv]
    dsimp only
    split_ifs <;> rfl
  obtain ⟨A, f, h5, h6, -⟩ := C85_state (fun _ => "x") s (analyzable_of_start h2.isTorus.reachable h3 hh).1 id (fun l => List.Perm.refl _)
  have : Nonempty Val := ⟨.pyNone⟩
  have hval : ∀ i ∈ S.siteIds, ∃ v, occ? s (.int i) = some v := fun i hi => h3.2.2.2.1 _ ((h3.2.2.1 _).2 ⟨i, hi, rfl⟩)
  choose! vs hvs using hval
  exact ⟨S, s, A, fun i => f (vs i), h2, size_of_start (n := 3) h2 h3, h5, fun i hi => (h6 _ _ (hvs i hi)).1⟩

end Pyl
