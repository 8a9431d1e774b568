import Verif.Lemmas.AsyncBy
import Verif.Props.Growth
/-
C96, C97: Game of Life and growth with the asynchronous runner.
-/
set_option autoImplicit false
set_option linter.unusedSectionVars false

namespace Pyl
open SimState Spec
open Pyl.Lattice Pyl.Structure
variable {K : Type} [Field K] [LinearOrder K] [FloorRing K] [IsStrictOrderedRing K] {d : ℕ}

/-- The sites of a structure are numbered; so are those of a state on it. -/
theorem idsTo_of_sameSites {S : Structure K d} (hS : S.Reachable) {s : SimState} (hs : s.WF) (h : SameSites S s) : IdsTo S.siteIds.length s := by
  have hnd : ((List.range S.siteIds.length).map fun (i : ℕ) => Key.int (i : ℤ)).Nodup :=
    (List.nodup_map_iff_inj_on List.nodup_range).2 fun a _ b _ e => by injection e with e; exact_mod_cast e
  refine (List.perm_ext_iff_of_nodup hs.sites hnd).2 fun k => ?_
  have e := siteIds_eq hS
  rw [show k ∈ Dict.keys s.sites ↔ k ∈ s.siteIds from Iff.rfl, h k, List.mem_map]
  constructor
  · rintro ⟨i, hi, rfl⟩
    refine ⟨i, ?_, rfl⟩
    rw [e] at hi ⊢
    simpa using hi
  · rintro ⟨i, hi, rfl⟩
    refine ⟨i, ?_, rfl⟩
    rw [e] at hi ⊢
    simpa using hi

/-- The steps of an asynchronous run of Life. -/
theorem life_async {S : Structure K 2} {N : Fin 2 → ℤ} (hS : SquareGrid 2 N S) (b sv : List (Fin 10)) (s0 : SimState) (hs : s0.WF)
    (hg : s0.getGeneralState ≠ none) (hsites : SameSites S s0) (L : Set (Fin 2 → ℤ)) (hL : ShowsLife S s0 L) (n : ℕ) (draw : ℕ → ℕ)
    (cells : ℕ → Fin 2 → ℤ) (hcells : ∀ k, SiteHas S (draw k % S.siteIds.length) (cells k)) :
    ∃ c a, Life.init none S (variantText b sv) = .ok c ∧ runAsync (Life.controller.inherit draw) (c, 0) s0 n = .ok a ∧ a.res.len = n + 1 ∧
      ∀ k : ℕ, k ≤ n → ∃ s, a.res.getStep k = .ok s ∧ s.WF ∧ (∀ i p, s.getSiteState i = some p → ∃ p0, s0.getSiteState i = some p0 ∧ ∀ key, key ≠ DISCRETE_OCCUPANCY →
          Dict.get? p key = Dict.get? p0 key) ∧ SameSites S s ∧
        ShowsLife S s (oneByOne N (digitValues b) (digitValues sv) cells L k) := by
  set born : List ℤ := digitValues b with hborn
  set survive : List ℤ := digitValues sv with hsurv
  have h := hS.isTorus
  obtain ⟨g, hget, hgn⟩ := C53_moore hS 1
  have hgl : ∀ i j, j ∈ g.neighborsOf i → j ∈ S.siteIds := fun i j hj => ((C55_known_and_other h.reachable _ none g hget i).1 j hj).1
  have hpos : 0 < S.siteIds.length := List.length_pos_of_ne_nil h.ids_ne
  let R : Key → SimState → Props → Prop := fun k s q => ∀ L, ShowsLife S s L → ∀ (i : ℕ) c, k = .int i → SiteHas S i c →
    q = [(DISCRETE_OCCUPANCY, .str (lifeWord (generation N born survive L) c))]
  let Inv : Life.Ctl K → SimState → Prop := fun st s => st = ⟨born, survive, S, some g⟩ ∧ SameSites S s ∧ ∃ L, ShowsLife S s L
  have hword : ∀ (s s' : SimState) (L : Set (Fin 2 → ℤ)) (m : ℕ) (x : Fin 2 → ℤ), ShowsLife S s L → SiteHas S m x → OneSite R (.int m) s s' →
      ShowsLife S s' {y | y ≠ x ∧ y ∈ L ∨ y = x ∧ y ∈ generation N born survive L} := by
    intro s s' L m x hL hx hst i c hc
    by_cases him : i = m
    · subst him
      have hcx : c = x := IsTorus.has_unique_coord hc hx
      subst hcx
      obtain ⟨p, q, new, -, hq, hnew, hm⟩ := hst.2.2.2
      have hq := hq L hL i c rfl hc
      refine ⟨new, hnew, fun h1 => ?_, fun h1 => ?_⟩
      · have h2 : c ∈ generation N born survive L := by
          rcases h1 with ⟨h1, -⟩ | ⟨-, h1⟩
          · exact absurd rfl h1
          · exact h1
        exact hm.1 DISCRETE_OCCUPANCY (.str "alive") (by rw [hq]; simp [Dict.get?, lifeWord, h2])
      · have h2 : c ∉ generation N born survive L := fun h2 => h1 (.inr ⟨rfl, h2⟩)
        exact hm.1 DISCRETE_OCCUPANCY (.str "dead") (by rw [hq]; simp [Dict.get?, lifeWord, h2])
    · have hcx : c ≠ x := by rintro rfl; exact him (h.site_unique hc hx)
      obtain ⟨p, hp, h1, h2⟩ := hL i c hc
      refine ⟨p, ?_, fun h3 => h1 ?_, fun h3 => h2 fun h4 => h3 (.inl ⟨hcx, h4⟩)⟩
      · rw [hst.2.2.1 (.int i) (fun e => him (by injection e with e; exact_mod_cast e))]; exact hp
      · rcases h3 with ⟨-, h3⟩ | ⟨h3, -⟩
        · exact h3
        · exact absurd h3 hcx
  have hA : AnswersBy (Life.controller : Controller (Life.Ctl K)) Inv R := by
    rintro st s - ⟨rfl, hss, L, hL⟩ k hk
    obtain ⟨i, hi, rfl⟩ := (hss k).1 hk
    obtain ⟨c, -, hc⟩ := h.site i hi
    refine ⟨_, _, _, life_update (T := S) h hgn hgl born survive hL hc, .patch _ (isPatch_occ _), wf_occ _, ?_, rfl, hss, L, hL⟩
    intro L' hL' i' c' e hc'
    injection e with e
    have e : i = i' := by exact_mod_cast e
    subst e
    have h1 := life_update (T := S) h hgn hgl born survive hL hc
    have h2 := life_update (T := S) h hgn hgl born survive hL' hc'
    rw [h1] at h2
    injection h2 with h2
    injection h2 with _ h2
    injection h2
  have hI' : ∀ st i s s', s.WF → Inv st s → OneSite R i s s' → Inv st s' := by
    rintro st k s s' - ⟨rfl, hss, L, hL⟩ hst
    obtain ⟨p, q, new, hp, -⟩ := hst.2.2.2
    obtain ⟨i, hi, rfl⟩ := (hss k).1 (Dict.mem_keys_of_get? hp)
    obtain ⟨c, -, hc⟩ := h.site i hi
    exact ⟨rfl, fun k => by rw [hst.1]; exact hss k, _, hword s s' L i c hL hc hst⟩
  have hinit : Life.init none S (variantText b sv) = .ok ⟨born, survive, S, none⟩ := by
    unfold Life.init
    rw [Option.getD_none, C61_variant]; rfl
  have hpre : (Life.controller : Controller (Life.Ctl K)).preRun ⟨born, survive, S, none⟩ s0 = .ok (⟨born, survive, S, some g⟩, s0) := by
    show Life.preRun _ _ = _
    unfold Life.preRun
    simp only [hget, ok_bind]; rfl
  obtain ⟨a, h1, h2, h3, -, h4⟩ := runAsync_by hA draw hI' hpos n hs hg (idsTo_of_sameSites h.reachable hs hsites) _ _ hpre ⟨rfl, hsites, L, hL⟩
  refine ⟨_, a, hinit, h1, h2, ?_⟩
  intro k
  induction k with
  | zero => exact fun _ => ⟨s0, h3, hs, fun i p hp => ⟨p, hp, fun _ _ => rfl⟩, hsites, hL⟩
  | succ k ih =>
    intro hk
    obtain ⟨s, hs1, -, hs0, hs2, hs3⟩ := ih (by omega)
    obtain ⟨x, y, hx, hy, ⟨-, hy'⟩, -, hst⟩ := h4 k (by omega)
    rw [hs1] at hx
    injection hx with hx; subst hx
    refine ⟨y, by exact_mod_cast hy, hy', fun i p hp => ?_, ?_⟩
    · by_cases e : i = .int ((draw k % S.siteIds.length : ℕ) : ℤ)
      · subst e
        obtain ⟨old, q, new, ho, hq, hnew, hm⟩ := hst.2.2.2
        rw [hp] at hnew; cases hnew
        obtain ⟨p0, hp0, hkeep⟩ := hs0 _ _ ho
        have hq := hq _ hs3 _ _ rfl (hcells k)
        refine ⟨p0, hp0, fun key hkey => ?_⟩
        rw [← hkeep key hkey]
        exact hm.2 key (by rw [hq]; simpa [Dict.keys] using hkey)
      · rw [hst.2.2.1 i e] at hp
        exact hs0 i p hp
    exact ⟨fun k => by rw [hst.1]; exact hs2 k, hword _ _ _ _ _ hs3 (hcells k) hst⟩

/-- C96: Game of Life with the asynchronous runner and the inherited `get_random_site`, on a square grid of any size, from any pattern, for any outcome of
the random draws: a run of any length succeeds and records every step; `cells k` being the cell that the `k`-th draw names, step `k` shows the pattern after `k` single-cell updates. -/
theorem C96_life {S : Structure K 2} {N : Fin 2 → ℤ} (hS : SquareGrid 2 N S) (b sv : List (Fin 10)) (s0 : SimState) (hs : s0.WF)
    (hg : s0.getGeneralState ≠ none) (hsites : SameSites S s0) (L : Set (Fin 2 → ℤ)) (hL : ShowsLife S s0 L) (n : ℕ) (draw : ℕ → ℕ)
    (cells : ℕ → Fin 2 → ℤ) (hcells : ∀ k, SiteHas S (draw k % S.siteIds.length) (cells k)) :
    ∃ c a, Life.init none S (variantText b sv) = .ok c ∧ runAsync (Life.controller.inherit draw) (c, 0) s0 n = .ok a ∧ a.res.len = n + 1 ∧
      ∀ k : ℕ, k ≤ n → ∃ s, a.res.getStep k = .ok s ∧ SameSites S s ∧
        ShowsLife S s (oneByOne N (digitValues b) (digitValues sv) cells L k) := by
  obtain ⟨c, a, h1, h2, h3, h4⟩ := life_async hS b sv s0 hs hg hsites L hL n draw cells hcells
  refine ⟨c, a, h1, h2, h3, fun k hk => ?_⟩
  obtain ⟨s, e1, -, -, e2⟩ := h4 k hk
  exact ⟨s, e1, e2⟩

/-- C96: every sequence of cells can be visited, and every sequence of draws visits some sequence of cells. -/
theorem C96_cells {S : Structure K d} {N : Fin d → ℤ} (hS : SquareGrid d N S) :
    (∀ cells : ℕ → Fin d → ℤ, (∀ k, InBox N (cells k)) → ∃ draw : ℕ → ℕ, ∀ k, SiteHas S (draw k % S.siteIds.length) (cells k)) ∧
    ∀ draw : ℕ → ℕ, ∃ cells : ℕ → Fin d → ℤ, ∀ k, InBox N (cells k) ∧ SiteHas S (draw k % S.siteIds.length) (cells k) := by
  have h := hS.isTorus
  have e := siteIds_eq h.reachable
  have hpos : 0 < S.siteIds.length := List.length_pos_of_ne_nil h.ids_ne
  have hmem : ∀ i, i ∈ S.siteIds ↔ i < S.siteIds.length := by
    intro i; rw [e]; simp
  constructor
  · intro cells hc
    choose f hf using fun k => h.ex (cells k) (hc k)
    refine ⟨f, fun k => ?_⟩
    rw [Nat.mod_eq_of_lt ((hmem _).1 (hf k).1)]
    exact (hf k).2
  · intro draw
    choose f hf using fun k => h.site (draw k % S.siteIds.length) ((hmem _).2 (Nat.mod_lt _ hpos))
    exact ⟨f, hf⟩

open Growth in
/-- C97: growth with the asynchronous runner and the inherited `get_random_site`, from any state with sites 0, ..., m - 1 that all have an
occupancy, with any neighbourhood (any answers of `neighbors_of`, also random ones) that lists sites of the state: a run of any length succeeds and records every step; from
step `k` to the next only the site drawn changes, and it makes a growth step with respect to what `neighbors_of` answered for it. -/
theorem C97_growth (c : Ctl) (s0 : SimState) (hs : s0.WF) (hg : s0.getGeneralState ≠ none) (m : ℕ) (hm : 0 < m)
    (hids : s0.siteIds.Perm ((List.range m).map fun i : ℕ => Key.int i)) (hocc : AllOccupied s0)
    (hnb : ∀ t, ∀ i ∈ s0.siteIds, ∃ l, c.nbs t i = .ok l ∧ ∀ j ∈ l, Key.int j ∈ s0.siteIds) (n : ℕ) (draw : ℕ → ℕ) :
    ∃ a, runAsync (controller.inherit draw) (c, 0) s0 n = .ok a ∧ a.res.len = n + 1 ∧ a.res.getStep 0 = .ok s0 ∧
      ∀ k : ℕ, k < n → ∃ x y, a.res.getStep k = .ok x ∧ a.res.getStep (k + 1) = .ok y ∧ x.siteIds = s0.siteIds ∧ y.siteIds = s0.siteIds ∧
        (∀ j, j ≠ .int (draw k % m : ℕ) → y.getSiteState j = x.getSiteState j) ∧
        ∃ t l v v', c.nbs t (.int (draw k % m : ℕ)) = .ok l ∧ occ? x (.int (draw k % m : ℕ)) = some v ∧ occ? y (.int (draw k % m : ℕ)) = some v' ∧
          GrowthStep c.background x l v v' ∧
          ∀ p q key, x.getSiteState (.int (draw k % m : ℕ)) = some p → y.getSiteState (.int (draw k % m : ℕ)) = some q → key ≠ DISCRETE_OCCUPANCY →
            Dict.get? q key = Dict.get? p key := by
  have hA := growth_answersBy hnb
  have hstep : ∀ (i : Key) (x y : SimState), AllOccupied x → OneSite (Growth.Answer c) i x y → ∃ t l v v', c.nbs t i = .ok l ∧ occ? x i = some v ∧
      occ? y i = some v' ∧ GrowthStep c.background x l v v' ∧
      ∀ p q key, x.getSiteState i = some p → y.getSiteState i = some q → key ≠ DISCRETE_OCCUPANCY → Dict.get? q key = Dict.get? p key := by
    intro i x y hx hst
    obtain ⟨p, q, new, hp, hq, hnew, hmg⟩ := hst.2.2.2
    obtain ⟨v, hv⟩ := hx i (Dict.mem_keys_of_get? hp)
    obtain ⟨t, l, v', e1, e2, e3, e4⟩ := growth_merged hv hp hq hnew hmg
    exact ⟨t, l, v, v', e1, hv, e2, e3, e4⟩
  have hI' : ∀ st i s s', s.WF → Growth.Inv c s0 st s → OneSite (Growth.Answer c) i s s' → Growth.Inv c s0 st s' := by
    rintro st i s s' - ⟨h1, h2, h3, h4⟩ hst
    refine ⟨h1, h2, by rw [hst.1, h3], fun j hj => ?_⟩
    rw [hst.1] at hj
    by_cases e : j = i
    · subst e
      obtain ⟨t, l, v, v', -, -, h, -⟩ := hstep j s s' h4 hst
      exact ⟨v', h⟩
    · unfold occ?
      rw [hst.2.2.1 j e]
      exact h4 j hj
  obtain ⟨a, h1, h2, h3, -, h4⟩ := runAsync_by hA draw hI' hm n hs hg hids c c rfl ⟨rfl, rfl, rfl, hocc⟩
  refine ⟨a, h1, h2, h3, fun k hk => ?_⟩
  obtain ⟨x, y, hx, hy, -, ⟨st, -, -, hi1, hi2⟩, hst⟩ := h4 k hk
  exact ⟨x, y, hx, hy, hi1, by rw [hst.1, hi1], hst.2.2.1, hstep _ x y hi2 hst⟩

open Growth in
/-- C97: once occupied, a site keeps its phase for the rest of an asynchronous run, and at every step every site is background or has a phase of the start. -/
theorem C97_never_overwritten (c : Ctl) (s0 : SimState) (hs : s0.WF) (hg : s0.getGeneralState ≠ none) (m : ℕ) (hm : 0 < m)
    (hids : s0.siteIds.Perm ((List.range m).map fun i : ℕ => Key.int i)) (hocc : AllOccupied s0)
    (hnb : ∀ t, ∀ i ∈ s0.siteIds, ∃ l, c.nbs t i = .ok l ∧ ∀ j ∈ l, Key.int j ∈ s0.siteIds) (n : ℕ) (draw : ℕ → ℕ) :
    ∃ a, runAsync (controller.inherit draw) (c, 0) s0 n = .ok a ∧ ∀ k k' : ℕ, k ≤ k' → k' ≤ n → ∃ x y, a.res.getStep k = .ok x ∧ a.res.getStep k' = .ok y ∧
      (∀ i ∈ s0.siteIds, ∀ v, occ? x i = some v → v ≠ c.background → occ? y i = some v) ∧
      ∀ i ∈ s0.siteIds, ∃ v, occ? x i = some v ∧ (v = c.background ∨ ∃ j ∈ s0.siteIds, occ? s0 j = some v) := by
  obtain ⟨a, h1, h2, h3, h4⟩ := C97_growth c s0 hs hg m hm hids hocc hnb n draw
  have hph : ∀ k : ℕ, k ≤ n → ∃ x, a.res.getStep k = .ok x ∧ ∀ i ∈ s0.siteIds, ∃ v, occ? x i = some v ∧ (v = c.background ∨ ∃ j ∈ s0.siteIds, occ? s0 j = some v) := by
    intro k
    induction k with
    | zero =>
      intro _
      refine ⟨s0, h3, fun i hi => ?_⟩
      obtain ⟨v, hv⟩ := hocc i hi
      exact ⟨v, hv, .inr ⟨i, hi, hv⟩⟩
    | succ k ih =>
      intro hk
      obtain ⟨x, hx, ih⟩ := ih (by omega)
      obtain ⟨x', y, hx', hy, -, -, hoff, t, l, v, v', hl, hv, hv', hG, -⟩ := h4 k (by omega)
      rw [hx] at hx'; injection hx' with hx'; subst hx'
      refine ⟨y, by exact_mod_cast hy, fun i hi => ?_⟩
      by_cases e : i = .int (draw k % m : ℕ)
      · rw [e]
        refine ⟨v', hv', ?_⟩
        rw [e] at hi
        obtain ⟨u, hu, hu'⟩ := ih _ hi
        rw [hv] at hu; injection hu with hu; subst hu
        by_cases hb : v = c.background
        · obtain ⟨l', hl', hlj⟩ := hnb t _ hi
          rw [hl] at hl'; injection hl' with hl'; subst hl'
          by_cases hall : ∀ j ∈ l, occ? x (.int j) = some c.background
          · exact .inl (hG.2.1 hb hall)
          · push Not at hall
            obtain ⟨-, ⟨j, hj, hjv⟩, -⟩ := hG.2.2 hb hall
            obtain ⟨w, hw, hw'⟩ := ih _ (hlj j hj)
            rw [hjv] at hw; injection hw with hw; subst hw
            exact hw'
        · rw [hG.1 hb]; exact hu'
      · unfold occ?
        rw [hoff i e]
        exact ih i hi
  refine ⟨a, h1, fun k k' hkk => ?_⟩
  induction k', hkk using Nat.le_induction with
  | base =>
    intro hk
    obtain ⟨x, hx, hx'⟩ := hph k hk
    exact ⟨x, x, hx, hx, fun _ _ _ h _ => h, hx'⟩
  | succ k' hkk ih =>
    intro hk
    obtain ⟨x, y, hx, hy, ih, hx'⟩ := ih (by omega)
    obtain ⟨y', z, hy', hz, -, -, hoff, t, l, v, v', hl, hv, hv', hG, -⟩ := h4 k' (by omega)
    rw [hy] at hy'; injection hy' with hy'; subst hy'
    refine ⟨x, z, hx, by exact_mod_cast hz, fun i hi u hu hne => ?_, hx'⟩
    have := ih i hi u hu hne
    by_cases e : i = .int (draw k' % m : ℕ)
    · rw [e] at this ⊢
      rw [hv] at this; injection this with this; subst this
      rw [hv', hG.1 hne]
    · unfold occ?
      rw [hoff i e]
      exact this

/-- An asynchronous run of Life on the blinker that visits cell (2, 2) first and (1, 1) next: after one step (2, 2) has been born and (1, 1) is still alive. -/
example : ∃ (S : Structure ℚ 2) (s0 : SimState) (c : Life.Ctl ℚ) (draw : ℕ → ℕ) (a : AsyncSt (Life.Ctl ℚ × ℕ)), SquareGrid 2 ![5, 4] S ∧
    ShowsLife S s0 blinker ∧ Life.init none S Life.life = .ok c ∧ runAsync (Life.controller.inherit draw) (c, 0) s0 4 = .ok a ∧
    ∃ s1 L1, a.res.getStep 1 = .ok s1 ∧ ShowsLife S s1 L1 ∧ ![2, 2] ∈ L1 ∧ ![1, 1] ∈ L1 := by
  obtain ⟨-, S, hS, -⟩ := C52_square2 (K := ℚ) 1 (by norm_num) 4 5 (by norm_num) (by norm_num)
  have hg : SquareGrid 2 ![5, 4] S := .two _ S 5 4 (by norm_num) (by norm_num) (.inl rfl) hS
  obtain ⟨s0, h1, h2, h3, h4⟩ := life_state_exists hg.isTorus blinker
  obtain ⟨draw, hd⟩ := (C96_cells hg).1 (fun k => if k = 0 then ![2, 2] else ![1, 1]) (fun k j => by
    by_cases h : k = 0 <;> fin_cases j <;> simp [h])
  obtain ⟨c, a, h5, h6, -, h7⟩ := C96_life hg [3] [2, 3] s0 h1 h2 h3 blinker h4 4 draw _ hd
  obtain ⟨s1, h8, -, h9⟩ := h7 1 (by norm_num)
  have hN : ∀ j : Fin 2, 3 ≤ (![5, 4] : Fin 2 → ℤ) j := by decide
  refine ⟨S, s0, c, draw, a, hg, h4, h5, h6, s1, _, h8, h9, ?_, ?_⟩
  · refine .inr ⟨by simp, .inr ?_⟩
    show _ ∧ ((liveAround ![5, 4] blinker ![2, 2] : ℕ) : ℤ) ∈ digitValues [3]
    rw [C60_eight hN _ _ (by intro j; fin_cases j <;> simp), show liveOfEight ![5, 4] blinker ![2, 2] = 3 by decide]
    exact ⟨by show ![2, 2] ∉ blinker; decide, by decide⟩
  · exact .inl ⟨by decide, by show ![1, 1] ∈ blinker; decide⟩

open Growth in
/-- An asynchronous growth run on three sites in a ring, one of them occupied. -/
example : ∃ (c : Ctl) (s0 : SimState), s0.WF ∧ s0.getGeneralState ≠ none ∧ s0.siteIds.Perm ((List.range 3).map fun i : ℕ => Key.int i) ∧ AllOccupied s0 ∧
    (∀ t, ∀ i ∈ s0.siteIds, ∃ l, c.nbs t i = .ok l ∧ ∀ j ∈ l, Key.int j ∈ s0.siteIds) ∧
    ∃ a s1, runAsync (controller.inherit fun k => k + 1) (c, 0) s0 2 = .ok a ∧ a.res.getStep 1 = .ok s1 ∧ occ? s1 (.int 1) = some (.str "A") ∧
      occ? s1 (.int 2) = some (.str "bg") := by
  refine ⟨⟨.str "bg", fun _ i => .ok (if i = .int 0 then [1, 2] else if i = .int 1 then [0, 2] else [0, 1]), 0⟩,
    ⟨[(.int 0, [(DISCRETE_OCCUPANCY, .str "A")]), (.int 1, [(DISCRETE_OCCUPANCY, .str "bg")]), (.int 2, [(DISCRETE_OCCUPANCY, .str "bg")])], some []⟩, ?_, by decide,
    by decide, ?_, ?_, _, _, rfl, rfl, by decide, by decide⟩
  · refine ⟨by unfold Dict.WF; decide, ?_, fun g hg => by injection hg with hg; subst hg; exact .dict Dict.WF.nil (by simp)⟩
    intro kv hkv
    simp only [List.mem_cons, List.not_mem_nil, or_false] at hkv
    rcases hkv with rfl | rfl | rfl <;> exact wf_occ _
  · intro i hi
    have hi : i ∈ [Key.int 0, .int 1, .int 2] := hi
    simp only [List.mem_cons, List.not_mem_nil, or_false] at hi
    rcases hi with rfl | rfl | rfl <;> exact ⟨_, rfl⟩
  · intro t i hi
    refine ⟨_, rfl, ?_⟩
    have hi : i ∈ [Key.int 0, .int 1, .int 2] := hi
    simp only [List.mem_cons, List.not_mem_nil, or_false] at hi
    rcases hi with rfl | rfl | rfl <;> decide

end Pyl
