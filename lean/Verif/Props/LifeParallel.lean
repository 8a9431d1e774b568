import Verif.Props.Life
import Verif.Props.GrowthParallel
/-
C95: Game of Life with the parallel runner.
-/
set_option autoImplicit false
set_option linter.unusedSectionVars false

namespace Pyl
open SimState Spec
open Pyl.Lattice Pyl.Structure
variable {K : Type} [Field K] [LinearOrder K] [FloorRing K] [IsStrictOrderedRing K]

/-- What a worker may answer for site `i` on the state `s` it sees. -/
def LifeAnswer (S : Structure K 2) (N : Fin 2 → ℤ) (born survive : List ℤ) (i : Key) (s : SimState) (p : Option Props) : Prop :=
  (∃ w, (w = "alive" ∨ w = "dead") ∧ p = some [(DISCRETE_OCCUPANCY, .str w)]) ∧
    ∀ L, ShowsLife S s L → ∀ (m : ℕ) c, i = .int m → SiteHas S m c →
      p = some [(DISCRETE_OCCUPANCY, .str (lifeWord (generation N born survive L) c))]

/-- An update that gives every cell of the grid the state of the pattern `L`. -/
def WritesLife (S : Structure K 2) (p : Props) (L : Set (Fin 2 → ℤ)) : Prop :=
  ∀ (i : ℕ) c, SiteHas S i c → Dict.get? p (.int i) = some (.dict [(DISCRETE_OCCUPANCY, .str (lifeWord L c))])

theorem lifeWord_cases (L : Set (Fin 2 → ℤ)) (c : Fin 2 → ℤ) : lifeWord L c = "alive" ∨ lifeWord L c = "dead" := by
  unfold lifeWord
  by_cases h : c ∈ L <;> simp [h]

theorem showsLife_iff {S : Structure K 2} {s : SimState} {L : Set (Fin 2 → ℤ)} :
    ShowsLife S s L ↔ ∀ (i : ℕ) c, SiteHas S i c → occ? s (.int i) = some (.str (lifeWord L c)) := by
  constructor
  · intro h i c hc
    obtain ⟨p, hp, h1, h2⟩ := h i c hc
    rw [occ?_eq]
    refine ⟨p, hp, ?_⟩
    unfold lifeWord
    by_cases hL : c ∈ L
    · simp [h1 hL, hL]
    · simp [h2 hL, hL]
  · intro h i c hc
    obtain ⟨p, hp, h1⟩ := occ?_eq.1 (h i c hc)
    refine ⟨p, hp, fun hL => ?_, fun hL => ?_⟩
    · simpa [lifeWord, hL] using h1
    · simpa [lifeWord, hL] using h1

/-- A state all of whose cells are alive or dead shows a pattern. -/
theorem showsLife_of_words {S : Structure K 2} {s : SimState}
    (h : ∀ (i : ℕ) c, SiteHas S i c → occ? s (.int i) = some (.str "alive") ∨ occ? s (.int i) = some (.str "dead"))
    (hu : ∀ i j c, SiteHas S i c → SiteHas S j c → i = j) : ∃ L, ShowsLife S s L := by
  refine ⟨{c | ∃ i : ℕ, SiteHas S i c ∧ occ? s (.int i) = some (.str "alive")}, showsLife_iff.2 fun i c hc => ?_⟩
  unfold lifeWord
  rcases h i c hc with h1 | h1
  · rw [if_pos (show c ∈ {c | ∃ i : ℕ, SiteHas S i c ∧ occ? s (.int i) = some (.str "alive")} from ⟨i, hc, h1⟩), h1]
  · rw [if_neg, h1]
    rintro ⟨j, hj, h2⟩
    rw [hu _ _ _ hj hc, h1] at h2
    simp at h2

/-- After an update that writes the whole pattern, the state shows it, whatever it showed before. -/
theorem writesLife_shows {S : Structure K 2} {N : Fin 2 → ℤ} (h : IsTorus S N) {ids : List Key} (hids : ∀ k, k ∈ ids ↔ ∃ i ∈ S.siteIds, k = .int i)
    {s : SimState} (hs : ViewOf ids s) {p : Props} (hp : PatchOf ids p) {L : Set (Fin 2 → ℤ)} (hw : WritesLife S p L) : ShowsLife S (setSitesP s p) L := by
  refine showsLife_iff.2 fun i c hc => ?_
  have hi : Key.int i ∈ ids := (hids _).2 ⟨i, h.mem_ids h.reachable hc, rfl⟩
  rcases occ?_setSitesP hs hp hi with ⟨h1, -⟩ | ⟨q, h1, h2⟩
  · rw [hw i c hc] at h1; cases h1
  · rw [hw i c hc] at h1
    injection h1 with h1; injection h1 with h1; subst h1
    rw [h2]; simp [Dict.get?]

/-- An update that writes cells' occupancies leaves the other keys alone. -/
theorem kept_setSitesP {ids : List Key} {s : SimState} (hs : ViewOf ids s) {p : Props} {Good : SimState → Prop} {S : Structure K 2} {N : Fin 2 → ℤ} {born survive : List ℤ}
    (hp : PatchBy ids Good (LifeAnswer S N born survive) p) (i : Key) (old : Props) (hold : s.getSiteState i = some old) :
    ∃ new, (setSitesP s p).getSiteState i = some new ∧ ∀ key, key ≠ DISCRETE_OCCUPANCY → Dict.get? new key = Dict.get? old key := by
  have hg := get?_setSitesP hp.1.wf.keys s i
  unfold getSiteState at hold ⊢
  cases h : Dict.get? p i with
  | none =>
    rw [h, hold] at hg
    exact ⟨old, hg, fun _ _ => rfl⟩
  | some v =>
    obtain ⟨q, hq⟩ := hp.1.dicts _ (Dict.mem_of_get? h)
    simp only at hq
    subst hq
    rw [h] at hg
    obtain ⟨t, -, -, ⟨⟨w, -, e⟩, -⟩, hw⟩ := hp.2 i q h
    injection e with e; subst e
    simp only [oldOf, hold, dictOf] at hg
    refine ⟨_, hg, fun key hkey => ?_⟩
    rw [Dict.get?_update hw.keys, show Dict.get? [(DISCRETE_OCCUPANCY, Val.str w)] key = none by simp [Dict.get?, Ne.symm hkey]]
    rfl

theorem kept_after {ids : List Key} {s0 : SimState} (hv0 : ViewOf ids s0) {Good : SimState → Prop} {S : Structure K 2} {N : Fin 2 → ℤ} {born survive : List ℤ}
    (l : List Props) (hl : ∀ p ∈ l, PatchBy ids Good (LifeAnswer S N born survive) p) (i : Key) (old : Props) (hold : s0.getSiteState i = some old) :
    ∃ new, (after s0 l).getSiteState i = some new ∧ ∀ key, key ≠ DISCRETE_OCCUPANCY → Dict.get? new key = Dict.get? old key := by
  induction l using List.reverseRecOn with
  | nil => exact ⟨old, hold, fun _ _ => rfl⟩
  | append_singleton l p ih =>
    obtain ⟨mid, h1, h2⟩ := ih fun p hp => hl p (by simp [hp])
    rw [after_snoc]
    obtain ⟨new, h3, h4⟩ := kept_setSitesP (hv0.after fun p hp => (hl p (by simp [hp])).1) (hl p (by simp)) i mid h1
    exact ⟨new, h3, fun key hkey => (h4 key hkey).trans (h2 key hkey)⟩

/-- C95 with more: nothing but the occupancies changes. -/
theorem life_parallel_kept {S : Structure K 2} {N : Fin 2 → ℤ} (hS : SquareGrid 2 N S) (b sv : List (Fin 10)) (s0 : SimState) (hs : s0.WF)
    (hg : s0.getGeneralState ≠ none) (hsites : SameSites S s0) (L : Set (Fin 2 → ℤ)) (hL : ShowsLife S s0 L) (w : ℕ) (hw0 : 0 < w) (n : ℕ)
    (sched : ℕ → StepSched) (hv : ∀ k, k < n → (sched k).Valid w (chunks s0.siteIds (chunkSize s0.siteIds.length w)).length) :
    ∃ c res, Life.init none S (variantText b sv) = .ok c ∧ runParallel Life.controller (fun _ c => c) c s0 w n sched = .ok res ∧ res.len = n + 1 ∧
      ∀ k : ℕ, k ≤ n → ∃ s, res.getStep k = .ok s ∧ s.WF ∧ SameSites S s ∧ ShowsLife S s ((generation N (digitValues b) (digitValues sv))^[k] L) ∧
        ∀ i old, s0.getSiteState i = some old → ∃ new, s.getSiteState i = some new ∧ ∀ key, key ≠ DISCRETE_OCCUPANCY → Dict.get? new key = Dict.get? old key := by
  set born : List ℤ := digitValues b with hborn
  set survive : List ℤ := digitValues sv with hsurv
  have h := hS.isTorus
  obtain ⟨g, hget, hgn⟩ := C53_moore hS 1
  have hgl : ∀ i j, j ∈ g.neighborsOf i → j ∈ S.siteIds := fun i j hj => ((C55_known_and_other h.reachable _ none g hget i).1 j hj).1
  have hne : s0.siteIds ≠ [] := sameSites_ne hsites h.ids_ne
  have hinit : Life.init none S (variantText b sv) = .ok ⟨born, survive, S, none⟩ := by
    unfold Life.init
    rw [Option.getD_none, C61_variant]; rfl
  have hpre : (Life.controller : Controller (Life.Ctl K)).preRun ⟨born, survive, S, none⟩ s0 = .ok (⟨born, survive, S, some g⟩, s0) := by
    show Life.preRun _ _ = _
    unfold Life.preRun
    simp only [hget, ok_bind]; rfl
  have hA : AnswersOpt (Life.controller : Controller (Life.Ctl K)) s0.siteIds (fun st => st = ⟨born, survive, S, some g⟩)
      (fun s => ∃ L, ShowsLife S s L) (LifeAnswer S N born survive) := by
    rintro st s - rfl ⟨L, hL⟩ k hk
    obtain ⟨i, hi, rfl⟩ := (hsites k).1 hk
    obtain ⟨c, -, hc⟩ := h.site i hi
    refine ⟨_, _, _, life_update (T := S) h hgn hgl born survive hL hc, .patch _ (isPatch_occ _), wf_occ _, ⟨⟨_, lifeWord_cases _ _, rfl⟩, ?_⟩, rfl⟩
    intro L' hL' m c' e hc'
    injection e with e
    have e : i = m := by exact_mod_cast e
    subst e
    have h1 := life_update (T := S) h hgn hgl born survive hL hc
    have h2 := life_update (T := S) h hgn hgl born survive hL' hc'
    rw [h1] at h2
    injection h2 with h2
    injection h2 with _ h2
    injection h2 with h2
    rw [h2]
  have hG : ∀ s p, ViewOf s0.siteIds s → (∃ L, ShowsLife S s L) → PatchBy s0.siteIds (fun s => ∃ L, ShowsLife S s L) (LifeAnswer S N born survive) p →
      ∃ L, ShowsLife S (setSitesP s p) L := by
    rintro s p hs' ⟨L, hL⟩ hp
    refine showsLife_of_words (fun i c hc => ?_) fun i j c hi hj => h.site_unique hi hj
    have hi : Key.int i ∈ s0.siteIds := (hsites _).2 ⟨i, h.mem_ids h.reachable hc, rfl⟩
    rcases occ?_setSitesP hs' hp.1 hi with ⟨-, h1⟩ | ⟨q, h1, h2⟩
    · rw [h1, showsLife_iff.1 hL i c hc]
      rcases lifeWord_cases L c with e | e <;> simp [e]
    · obtain ⟨t, -, -, ⟨⟨x, hx, e⟩, -⟩, -⟩ := hp.2 _ q h1
      injection e with e; subst e
      rw [h2]
      rcases hx with rfl | rfl <;> simp [Dict.get?]
  have hR : ∀ i s p, LifeAnswer S N born survive i s p → p ≠ none := by
    rintro i s p ⟨⟨x, -, rfl⟩, -⟩ h; cases h
  obtain ⟨ds, h1, h2, h3, -, h5⟩ := runParallel_by hA hG hs hg hne ⟨L, hL⟩ w hw0 (fun _ c => c) _ _ hpre (fun _ => rfl) n sched hv (.inl hR)
  have hv0 : ViewOf s0.siteIds s0 := ⟨hs, rfl, hg⟩
  have hview : ∀ l : List Props, (∀ p ∈ l, p ∈ ds) → ViewOf s0.siteIds (after s0 l) := fun l hl => hv0.after fun p hp => (h3 p (hl p hp)).1
  -- every worker that executes a batch sees the right generation, and writes the next
  have hW : ∀ k, k < n → WritesLife S (ds.getD k []) ((generation N born survive)^[k + 1] L) := by
    intro k
    induction k with
    | zero =>
      intro hk i c hc
      have hi : Key.int i ∈ s0.siteIds := (hsites _).2 ⟨i, h.mem_ids h.reachable hc, rfl⟩
      obtain ⟨b, v, hbv, hib⟩ := sched_cover hne hw0 (hv 0 hk) hi
      obtain ⟨p, e1, -, e2⟩ := h5 0 hk b v _ hbv hib
      rw [e1, e2 L (by simpa [after, seenL_nil] using hL) i c rfl hc]; rfl
    | succ k ih =>
      intro hk i c hc
      have hi : Key.int i ∈ s0.siteIds := (hsites _).2 ⟨i, h.mem_ids h.reachable hc, rfl⟩
      obtain ⟨b, v, hbv, hib⟩ := sched_cover hne hw0 (hv (k + 1) hk) hi
      obtain ⟨p, e1, -, e2⟩ := h5 (k + 1) hk b v _ hbv hib
      have hkl : k < ds.length := by omega
      have hvw : v ∈ (sched (k + 1)).workers := List.mem_map.2 ⟨_, hbv, rfl⟩
      have hsee : ShowsLife S (after s0 (seenL sched v (ds.take (k + 1)))) ((generation N born survive)^[k + 1] L) := by
        rw [List.take_succ_eq_append_getElem hkl, seenL_snoc, List.length_take, Nat.min_eq_left hkl.le, if_pos hvw, after_snoc]
        have := ih (by omega)
        rw [List.getD_eq_getElem?_getD, List.getElem?_eq_getElem hkl] at this
        exact writesLife_shows h hsites
          (hview _ fun q hq => List.mem_of_mem_take ((seenL_sublist sched v _).subset hq)) (h3 _ (List.getElem_mem hkl)).1 this
      rw [e1, e2 _ hsee i c rfl hc, Function.iterate_succ_apply' _ (k + 1)]; rfl
  refine ⟨_, _, hinit, h1, by simp [SimResult.len, h2], fun k hk => ?_⟩
  have hrep : SimResult.replayTo s0 (ds.map fun p => (updOf p).map Upd.toProps) k = .ok (after s0 (ds.take k)) := by
    refine replayTo_after hv0 ds (fun p hp => (h3 p hp).1) k (by omega) fun j hj e => ?_
    obtain ⟨i, hi⟩ := List.exists_mem_of_ne_nil _ h.ids_ne
    obtain ⟨c, -, hc⟩ := h.site i hi
    have := hW j (by omega) i c hc
    rw [e] at this
    simp [Dict.get?] at this
  refine ⟨after s0 (ds.take k), by simpa [SimResult.getStep, Dict.get?, copy] using hrep, (hview (ds.take k) fun p hp => List.mem_of_mem_take hp).wf, ?_, ?_,
    kept_after hv0 (ds.take k) fun p hp => h3 p (List.mem_of_mem_take hp)⟩
  · intro x
    rw [(hview (ds.take k) fun p hp => List.mem_of_mem_take hp).ids]
    exact hsites x
  · cases k with
    | zero => simpa [after] using hL
    | succ k =>
      have hkl : k < ds.length := by omega
      have := hW k (by omega)
      rw [List.getD_eq_getElem?_getD, List.getElem?_eq_getElem hkl] at this
      rw [List.take_succ_eq_append_getElem hkl, after_snoc]
      exact writesLife_shows h hsites (hview _ fun q hq => List.mem_of_mem_take hq) (h3 _ (List.getElem_mem hkl)).1 this

/-- C95: on a square grid of any size, from any pattern, a parallel run of any length with any number of workers and any assignment of batches to
workers succeeds, and step `k` shows the `k`-th generation of the rule that the variant text spells.  The workers get copies of the controller. -/
theorem C95_life {S : Structure K 2} {N : Fin 2 → ℤ} (hS : SquareGrid 2 N S) (b sv : List (Fin 10)) (s0 : SimState) (hs : s0.WF)
    (hg : s0.getGeneralState ≠ none) (hsites : SameSites S s0) (L : Set (Fin 2 → ℤ)) (hL : ShowsLife S s0 L) (w : ℕ) (hw0 : 0 < w) (n : ℕ)
    (sched : ℕ → StepSched) (hv : ∀ k, k < n → (sched k).Valid w (chunks s0.siteIds (chunkSize s0.siteIds.length w)).length) :
    ∃ c res, Life.init none S (variantText b sv) = .ok c ∧ runParallel Life.controller (fun _ c => c) c s0 w n sched = .ok res ∧ res.len = n + 1 ∧
      ∀ k : ℕ, k ≤ n → ∃ s, res.getStep k = .ok s ∧ SameSites S s ∧
        ShowsLife S s ((generation N (digitValues b) (digitValues sv))^[k] L) := by
  obtain ⟨c, res, h1, h2, h3, h4⟩ := life_parallel_kept hS b sv s0 hs hg hsites L hL w hw0 n sched hv
  refine ⟨c, res, h1, h2, h3, fun k hk => ?_⟩
  obtain ⟨s, h5, -, h6, h7, -⟩ := h4 k hk
  exact ⟨s, h5, h6, h7⟩

/-- A parallel run of Life on the blinker with three workers that take turns, so that each misses two updates of three: after one step
cell (2, 2) has been born and (1, 1) has died. -/
example : ∃ (S : Structure ℚ 2) (s0 : SimState) (c : Life.Ctl ℚ) (res : SimResult) (sched : ℕ → StepSched), SquareGrid 2 ![5, 4] S ∧
    ShowsLife S s0 blinker ∧ Life.init none S Life.life = .ok c ∧ (∀ k, ∀ p ∈ sched k, p.2 = k % 3) ∧
    runParallel Life.controller (fun _ c => c) c s0 3 4 sched = .ok res ∧
    ∃ s1 L1, res.getStep 1 = .ok s1 ∧ ShowsLife S s1 L1 ∧ ![2, 2] ∈ L1 ∧ ![1, 1] ∉ L1 := by
  obtain ⟨-, S, hS, -⟩ := C52_square2 (K := ℚ) 1 (by norm_num) 4 5 (by norm_num) (by norm_num)
  have hg : SquareGrid 2 ![5, 4] S := .two _ S 5 4 (by norm_num) (by norm_num) (.inl rfl) hS
  obtain ⟨s0, h1, h2, h3, h4⟩ := life_state_exists hg.isTorus blinker
  obtain ⟨c, res, h5, h6, -, h7⟩ := C95_life hg [3] [2, 3] s0 h1 h2 h3 blinker h4 3 (by norm_num) 4
    (fun k => (List.range (chunks s0.siteIds (chunkSize s0.siteIds.length 3)).length).map fun b => (b, k % 3)) (fun k _ => by
      refine ⟨by simp [Function.comp_def], fun p hp => ?_⟩
      obtain ⟨b, -, rfl⟩ := List.mem_map.1 hp
      exact Nat.mod_lt _ (by norm_num))
  obtain ⟨s1, h8, -, h9⟩ := h7 1 (by norm_num)
  have hN : ∀ j : Fin 2, 3 ≤ (![5, 4] : Fin 2 → ℤ) j := by decide
  refine ⟨S, s0, c, res, _, hg, h4, h5, fun k p hp => ?_, h6, s1, _, h8, h9, ?_, ?_⟩
  · obtain ⟨b, -, rfl⟩ := List.mem_map.1 hp
    rfl
  · right
    rw [C60_eight hN _ _ (by intro j; fin_cases j <;> simp), show liveOfEight ![5, 4] blinker ![2, 2] = 3 by decide]
    exact ⟨by decide, by decide⟩
  · rintro (⟨-, h⟩ | ⟨h, -⟩)
    · rw [C60_eight hN _ _ (by intro j; fin_cases j <;> simp), show liveOfEight ![5, 4] blinker ![1, 1] = 1 by decide] at h
      revert h; decide
    · exact h (by decide)

end Pyl
