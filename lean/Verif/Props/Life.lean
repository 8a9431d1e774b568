import Verif.Spec.Life
import Verif.Lemmas.Rule
import Verif.Props.SquareGrid
/-
C60, C61: Game of Life.
-/
set_option autoImplicit false
set_option linter.unusedSectionVars false

namespace Pyl
open Pyl.Lattice Structure SimState Spec
variable {K : Type} [Field K] [LinearOrder K] [IsStrictOrderedRing K] [FloorRing K] {d : ℕ}

/-! ### C61 -/

namespace Life

theorem digit_ok (x : Fin 10) : intOfChar (Nat.digitChar x) = .ok (x : ℤ) := by
  fin_cases x <;> rfl

theorem digit_ne_slash (x : Fin 10) : Nat.digitChar x ≠ '/' := by
  fin_cases x <;> decide

theorem mapM_digits (l : List (Fin 10)) : (l.map fun x : Fin 10 => Nat.digitChar x).mapM intOfChar = .ok (digitValues l) := by
  induction l with
  | nil => rfl
  | cons x l ih =>
    rw [List.map_cons, List.mapM_cons, digit_ok, ok_bind, ih]; rfl

theorem split_none {l : List Char} (h : '/' ∉ l) : splitSlash l = [l] := by
  induction l with
  | nil => rfl
  | cons c l ih =>
    simp only [List.mem_cons, not_or] at h
    rw [splitSlash, if_neg (Ne.symm h.1), ih h.2]

theorem split_one {l m : List Char} (h : '/' ∉ l) : splitSlash (l ++ '/' :: m) = l :: splitSlash m := by
  induction l with
  | nil => simp [splitSlash]
  | cons c l ih =>
    simp only [List.mem_cons, not_or] at h
    rw [List.cons_append, splitSlash, if_neg (Ne.symm h.1), ih h.2]

end Life

open Life in
/-- C61: for all digit strings. -/
theorem C61_variant (b s : List (Fin 10)) :
    processVariant (variantText b s) = .ok (digitValues b, digitValues s) := by
  have hb : '/' ∉ 'B' :: b.map (fun x : Fin 10 => Nat.digitChar x) := by
    rw [List.mem_cons, List.mem_map]
    rintro (h | ⟨x, -, h⟩)
    · revert h; decide
    · exact digit_ne_slash x h
  have hs : '/' ∉ 'S' :: s.map (fun x : Fin 10 => Nat.digitChar x) := by
    rw [List.mem_cons, List.mem_map]
    rintro (h | ⟨x, -, h⟩)
    · revert h; decide
    · exact digit_ne_slash x h
  unfold processVariant variantText
  rw [String.toList_ofList, split_one hb, split_none hs]
  simp only [List.drop_one, List.tail_cons, mapM_digits, ok_bind]
  rfl

open Life in
/-- C61: the five named rules are read as intended. -/
theorem C61_named :
    processVariant life = .ok ([3], [2, 3]) ∧ processVariant seeds = .ok ([2], []) ∧
    processVariant maze = .ok ([3], [1, 2, 3, 4, 5]) ∧ processVariant anneal = .ok ([4, 6, 7, 8], [3, 5, 6, 7, 8]) ∧
    processVariant diamoeba = .ok ([3, 5, 6, 7, 8], [5, 6, 7, 8]) :=
  ⟨C61_variant [3] [2, 3], C61_variant [2] [], C61_variant [3] [1, 2, 3, 4, 5], C61_variant [4, 6, 7, 8] [3, 5, 6, 7, 8],
    C61_variant [3, 5, 6, 7, 8] [5, 6, 7, 8]⟩

open Life in
/-- C61: a text without '/' raises, whatever else it contains. -/
theorem C61_no_slash (v : String) (h : '/' ∉ v.toList) : ∃ e, processVariant v = .error e := by
  unfold processVariant
  rw [split_none h]
  simp only
  cases (v.toList.drop 1).mapM intOfChar with
  | error e => exact ⟨e, rfl⟩
  | ok a => exact ⟨_, rfl⟩

/-! ### C60 -/

/-- A state whose sites are those of a square grid has a site. -/
theorem IsTorus.ids_ne {S : Structure K d} {N : Fin d → ℤ} (h : IsTorus S N) : S.siteIds ≠ [] := by
  obtain ⟨i, hi, -⟩ := h.ex 0 fun j => ⟨le_refl _, h.pos j⟩
  exact List.ne_nil_of_mem hi

theorem sameSites_ne {S : Structure K d} {s : SimState} (h : SameSites S s) (hne : S.siteIds ≠ []) : s.siteIds ≠ [] := by
  obtain ⟨i, hi⟩ := List.exists_mem_of_ne_nil _ hne
  exact List.ne_nil_of_mem ((h (.int i)).2 ⟨i, hi, rfl⟩)

/-- The occupancy that a pattern gives a cell. -/
noncomputable def lifeWord (L : Set (Fin 2 → ℤ)) (c : Fin 2 → ℤ) : String := by classical exact if c ∈ L then "alive" else "dead"

theorem Spec.ShowsLife.occ {S : Structure K 2} {s : SimState} {L : Set (Fin 2 → ℤ)} (h : ShowsLife S s L) {i : ℕ} {c : Fin 2 → ℤ}
    (hc : SiteHas S i c) : occupancy s (.int i) = .ok (.str (lifeWord L c)) := by
  obtain ⟨p, hp, h1, h2⟩ := h i c hc
  unfold occupancy lifeWord
  rw [hp]
  by_cases hL : c ∈ L
  · simp [h1 hL, hL]
  · simp [h2 hL, hL]

/-- Counting neighbours with a property. -/
theorem foldlM_count {α : Type} (l : List α) (o : α → Py Val) (v : α → Val) (h : ∀ a ∈ l, o a = .ok (v a)) (w : Val) (n : ℤ) :
    l.foldlM (fun (n : ℤ) a => do
      let x ← o a
      pure (if x = w then n + 1 else n)) n = (.ok (n + ((l.filter fun a => v a = w).length : ℤ)) : Py ℤ) := by
  induction l generalizing n with
  | nil => simp [pure, Except.pure]
  | cons a l ih =>
    rw [List.foldlM_cons, h a (by simp)]
    simp only [ok_bind, pure, Except.pure]
    have := ih (fun b hb => h b (by simp [hb])) (if v a = w then n + 1 else n)
    simp only [pure, Except.pure] at this
    rw [this]
    by_cases hv : v a = w
    · simp [hv]; ring
    · simp [hv]

/-- Neighbours of a site on a torus with a property of their cells are as many as such cells. -/
theorem length_filter_cells {S : Structure K d} {N : Fin d → ℤ} (h : IsTorus S N) (l : List ℕ) (hnd : l.Nodup)
    (P : ℕ → Bool) (Q : Set (Fin d → ℤ)) (hl : ∀ j, j ∈ l → j ∈ S.siteIds)
    (hQ : ∀ j c, SiteHas S j c → (j ∈ l ∧ P j = true ↔ c ∈ Q)) (hbox : ∀ c ∈ Q, InBox N c) : (l.filter P).length = Q.ncard := by
  classical
  choose! f hf using fun j (hj : j ∈ S.siteIds) => h.site j hj
  have hinj : ∀ a ∈ l.filter P, ∀ b ∈ l.filter P, f a = f b → a = b := by
    intro a ha b hb e
    have h1 := (hf a (hl a (List.mem_of_mem_filter ha))).2
    have h2 := (hf b (hl b (List.mem_of_mem_filter hb))).2
    rw [e] at h1
    exact h.site_unique h1 h2
  have e : Q = (((l.filter P).map f).toFinset : Set (Fin d → ℤ)) := by
    ext c
    simp only [List.coe_toFinset, List.mem_map, Set.mem_ofPred_eq]
    constructor
    · intro hc
      obtain ⟨j, hj, hjc⟩ := h.ex c (hbox c hc)
      obtain ⟨h1, h2⟩ := (hQ j c hjc).2 hc
      exact ⟨j, List.mem_filter.2 ⟨h1, h2⟩, IsTorus.has_unique_coord (hf j hj).2 hjc⟩
    · rintro ⟨j, hj, rfl⟩
      obtain ⟨h1, h2⟩ := List.mem_filter.1 hj
      exact (hQ j _ (hf j (hl j h1)).2).1 ⟨h1, h2⟩
  rw [e, Set.ncard_coe_finset, List.toFinset_card_of_nodup, List.length_map]
  exact (List.nodup_map_iff_inj_on (hnd.filter _)).2 hinj

/-- What the rule answers on a state that shows a pattern. -/
theorem life_update {S T : Structure K 2} {N : Fin 2 → ℤ} (h : IsTorus S N) {g : Graph K}
    (hg : ∀ i j a b, SiteHas S i a → SiteHas S j b → (j ∈ g.neighborsOf i ↔ j ≠ i ∧ ChebyshevLE N a b 1))
    (hgl : ∀ i j, j ∈ g.neighborsOf i → j ∈ S.siteIds) (born survive : List ℤ)
    {s : SimState} {L : Set (Fin 2 → ℤ)} (hL : ShowsLife S s L) {i : ℕ} {c : Fin 2 → ℤ} (hc : SiteHas S i c) :
    Life.update ⟨born, survive, T, some g⟩ (.int i) s =
      .ok (⟨born, survive, T, some g⟩, .dict [(DISCRETE_OCCUPANCY, .str (lifeWord (generation N born survive L) c))]) := by
  classical
  choose! f hf using fun j (hj : j ∈ S.siteIds) => h.site j hj
  have hcount := foldlM_count (g.neighborsOf i) (fun nb : ℕ => occupancy s (.int nb)) (fun nb => .str (lifeWord L (f nb)))
    (fun a ha => hL.occ (hf a (hgl i a ha)).2) (.str "alive") 0
  have hlen := length_filter_cells h (g.neighborsOf i) (g.nodup_neighbors i) (fun nb => decide (Val.str (lifeWord L (f nb)) = .str "alive"))
    {x | InBox N x ∧ x ≠ c ∧ ChebyshevLE N c x 1 ∧ x ∈ L} (fun j => hgl i j) (by
      intro j b hb
      have hfb : j ∈ S.siteIds → f j = b := fun hj => IsTorus.has_unique_coord (hf j hj).2 hb
      have hjs := h.mem_ids h.reachable hb
      rw [hg i j c b hc hb, hfb hjs]
      have hne : j ≠ i ↔ b ≠ c := by
        constructor
        · rintro h1 rfl; exact h1 (h.site_unique hb hc)
        · rintro h1 rfl; exact h1 (IsTorus.has_unique_coord hb hc)
      have hw : decide (Val.str (lifeWord L b) = .str "alive") = true ↔ b ∈ L := by
        unfold lifeWord
        by_cases hb : b ∈ L <;> simp [hb]
      rw [hw, hne]
      exact ⟨fun ⟨⟨h1, h2⟩, h3⟩ => ⟨h.inBox_of_has hb, h1, h2, h3⟩, fun ⟨_, h1, h2, h3⟩ => ⟨⟨h1, h2⟩, h3⟩⟩)
    (fun x hx => hx.1)
  rw [zero_add, hlen] at hcount
  change _ = Except.ok ((liveAround N L c : ℕ) : ℤ) at hcount
  unfold Life.update
  simp only [ok_bind, neighborsOfKey, Int.natCast_nonneg, if_true, Int.toNat_natCast]
  rw [hcount]
  simp only [ok_bind, hL.occ hc, pure, Except.pure]
  congr 6
  unfold lifeWord
  by_cases hcL : c ∈ L
  · by_cases h1 : (liveAround N L c : ℤ) ∈ survive
    · simp [hcL, h1, generation]
    · simp [hcL, h1, generation]
  · by_cases h1 : (liveAround N L c : ℤ) ∈ born
    · simp [hcL, h1, generation]
    · simp [hcL, h1, generation]

theorem isPatch_occ (v : Val) : IsPatch [(DISCRETE_OCCUPANCY, v)] :=
  ⟨by simp [SITES, DISCRETE_OCCUPANCY], by simp [GENERAL, DISCRETE_OCCUPANCY], Or.inr ⟨"DISCRETE_OCCUPANCY", by simp [DISCRETE_OCCUPANCY]⟩⟩

theorem wf_occ (w : String) : (Val.dict [(DISCRETE_OCCUPANCY, .str w)]).WF :=
  .dict (by simp [Dict.WF]) (by simp; exact .str _)

/-- A run of any controller that updates as `GameOfLifeController` does and whose `pre_run` finds the Moore neighbourhoods `g`: the steps show the
generations, and nothing but the occupancies changes. -/
theorem life_run_kept {S T : Structure K 2} {N : Fin 2 → ℤ} (h : IsTorus S N) {ctl : Controller (Life.Ctl K)} (hupd : ctl.update = Life.update)
    {g : Graph K} (hgn : ∀ i j a b, SiteHas S i a → SiteHas S j b → (j ∈ g.neighborsOf i ↔ j ≠ i ∧ ChebyshevLE N a b 1))
    (hgl : ∀ i j, j ∈ g.neighborsOf i → j ∈ S.siteIds) (born survive : List ℤ) (s0 : SimState) (hs : s0.WF)
    (hpre : ctl.preRun ⟨born, survive, T, none⟩ s0 = .ok (⟨born, survive, T, some g⟩, s0))
    (hg : s0.getGeneralState ≠ none) (hsites : SameSites S s0) (L : Set (Fin 2 → ℤ)) (hL : ShowsLife S s0 L) (n : ℕ) :
    ∃ c' res, runSync ctl ⟨born, survive, T, none⟩ s0 n = .ok (c', res) ∧ res.len = n + 1 ∧
      ∀ k : ℕ, k ≤ n → ∃ s, res.getStep k = .ok s ∧ s.WF ∧ SameSites S s ∧ ShowsLife S s ((generation N born survive)^[k] L) ∧
        ∀ i old, s0.getSiteState i = some old → ∃ new, s.getSiteState i = some new ∧ ∀ key, key ≠ DISCRETE_OCCUPANCY → Dict.get? new key = Dict.get? old key := by
  let R : Key → SimState → Props → Prop := fun k s q => ∀ L, ShowsLife S s L → ∀ (i : ℕ) c, k = .int i → SiteHas S i c →
    q = [(DISCRETE_OCCUPANCY, .str (lifeWord (generation N born survive L) c))]
  let Inv : Life.Ctl K → SimState → Prop := fun st s => st = ⟨born, survive, T, some g⟩ ∧ SameSites S s ∧ ∃ L, ShowsLife S s L
  have hword : ∀ (s s' : SimState) (L : Set (Fin 2 → ℤ)), ShowsLife S s L → StepBy R s s' → ShowsLife S s' (generation N born survive L) := by
    intro s s' L hL hst i c hc
    obtain ⟨p, hp, -⟩ := hL i c hc
    obtain ⟨q, new, hq, hnew, hm⟩ := hst.2.2 (.int i) p hp
    have hq := hq L hL i c rfl hc
    refine ⟨new, hnew, fun h1 => ?_, fun h1 => ?_⟩
    · have := hm.1 DISCRETE_OCCUPANCY (.str "alive") (by rw [hq]; simp [Dict.get?, lifeWord, h1])
      exact this
    · have := hm.1 DISCRETE_OCCUPANCY (.str "dead") (by rw [hq]; simp [Dict.get?, lifeWord, h1])
      exact this
  have hA : AnswersBy ctl Inv R := by
    rintro st s - ⟨rfl, hss, L, hL⟩ k hk
    obtain ⟨i, hi, rfl⟩ := (hss k).1 hk
    obtain ⟨c, -, hc⟩ := h.site i hi
    refine ⟨_, _, _, by rw [hupd]; exact life_update h hgn hgl born survive hL hc, .patch _ (isPatch_occ _), wf_occ _, ?_, rfl, hss, L, hL⟩
    intro L' hL' i' c' e hc'
    injection e with e
    have e : i = i' := by exact_mod_cast e
    subst e
    have h1 := life_update (T := T) h hgn hgl born survive hL hc
    have h2 := life_update (T := T) h hgn hgl born survive hL' hc'
    rw [h1] at h2
    injection h2 with h2
    injection h2 with _ h2
    injection h2
  have hI' : ∀ st s s', s.WF → Inv st s → StepBy R s s' → Inv st s' := by
    rintro st s s' - ⟨rfl, hss, L, hL⟩ hst
    exact ⟨rfl, fun k => by rw [hst.1]; exact hss k, _, hword s s' L hL hst⟩
  obtain ⟨c', res, h1, h2, h3, h4⟩ := runSync_by hA hI' n hs hg (sameSites_ne hsites h.ids_ne) _ _ hpre ⟨rfl, hsites, L, hL⟩
  refine ⟨c', res, h1, h2, ?_⟩
  intro k
  induction k with
  | zero => exact fun _ => ⟨s0, h3, hs, hsites, hL, fun i old ho => ⟨old, ho, fun _ _ => rfl⟩⟩
  | succ k ih =>
    intro hk
    obtain ⟨s, hs1, -, hs2, hs3, hs4⟩ := ih (by omega)
    obtain ⟨a, b', ha, hb, -, hwf, -, hst⟩ := h4 k (by omega)
    rw [hs1] at ha
    injection ha with ha; subst ha
    refine ⟨b', by exact_mod_cast hb, hwf, fun k => by rw [hst.1]; exact hs2 k, ?_, fun i old ho => ?_⟩
    · rw [Function.iterate_succ_apply']
      exact hword _ _ _ hs3 hst
    · obtain ⟨mid, hm1, hm2⟩ := hs4 i old ho
      obtain ⟨q, new, hq, hnew, hm⟩ := hst.2.2 i mid hm1
      refine ⟨new, hnew, fun key hkey => ?_⟩
      obtain ⟨j, hj, rfl⟩ := (hs2 i).1 (Dict.get?_isSome_iff.1 (by rw [show Dict.get? s.sites i = some mid from hm1]; rfl))
      obtain ⟨c, -, hc⟩ := h.site j hj
      have hq := hq _ hs3 j c rfl hc
      rw [← hm2 key hkey]
      exact hm.2 key (by rw [hq]; simpa using hkey)

/-- A run of any controller that updates as `GameOfLifeController` does and whose `pre_run` finds the Moore neighbourhoods `g`. -/
theorem life_run {S T : Structure K 2} {N : Fin 2 → ℤ} (h : IsTorus S N) {ctl : Controller (Life.Ctl K)} (hupd : ctl.update = Life.update)
    {g : Graph K} (hgn : ∀ i j a b, SiteHas S i a → SiteHas S j b → (j ∈ g.neighborsOf i ↔ j ≠ i ∧ ChebyshevLE N a b 1))
    (hgl : ∀ i j, j ∈ g.neighborsOf i → j ∈ S.siteIds) (born survive : List ℤ) (s0 : SimState) (hs : s0.WF)
    (hpre : ctl.preRun ⟨born, survive, T, none⟩ s0 = .ok (⟨born, survive, T, some g⟩, s0))
    (hg : s0.getGeneralState ≠ none) (hsites : SameSites S s0) (L : Set (Fin 2 → ℤ)) (hL : ShowsLife S s0 L) (n : ℕ) :
    ∃ c' res, runSync ctl ⟨born, survive, T, none⟩ s0 n = .ok (c', res) ∧ res.len = n + 1 ∧
      ∀ k : ℕ, k ≤ n → ∃ s, res.getStep k = .ok s ∧ SameSites S s ∧ ShowsLife S s ((generation N born survive)^[k] L) := by
  obtain ⟨c', res, h1, h2, h3⟩ := life_run_kept h hupd hgn hgl born survive s0 hs hpre hg hsites L hL n
  refine ⟨c', res, h1, h2, fun k hk => ?_⟩
  obtain ⟨s, h4, -, h5, h6, -⟩ := h3 k hk
  exact ⟨s, h4, h5, h6⟩

/-- C60: on a square grid of any size, from any pattern, a serial run of any length succeeds and step `k` shows the `k`-th generation of the rule
that the variant text spells. -/
theorem C60_life {S : Structure K 2} {N : Fin 2 → ℤ} (hS : SquareGrid 2 N S) (b sv : List (Fin 10)) (s0 : SimState) (hs : s0.WF)
    (hg : s0.getGeneralState ≠ none) (hsites : SameSites S s0) (L : Set (Fin 2 → ℤ)) (hL : ShowsLife S s0 L) (n : ℕ) :
    ∃ c c' res, Life.init none S (variantText b sv) = .ok c ∧ runSync Life.controller c s0 n = .ok (c', res) ∧ res.len = n + 1 ∧
      ∀ k : ℕ, k ≤ n → ∃ s, res.getStep k = .ok s ∧ SameSites S s ∧
        ShowsLife S s ((generation N (digitValues b) (digitValues sv))^[k] L) := by
  have h := hS.isTorus
  obtain ⟨g, hget, hgn⟩ := C53_moore hS 1
  have hgl : ∀ i j, j ∈ g.neighborsOf i → j ∈ S.siteIds := fun i j hj => ((C55_known_and_other h.reachable _ none g hget i).1 j hj).1
  have hinit : Life.init none S (variantText b sv) = .ok ⟨digitValues b, digitValues sv, S, none⟩ := by
    unfold Life.init
    rw [Option.getD_none, C61_variant]; rfl
  obtain ⟨c', res, h1, h2, h3⟩ := life_run (ctl := Life.controller) (T := S) h rfl hgn hgl (digitValues b) (digitValues sv) s0 hs (by
    show Life.preRun _ _ = _
    unfold Life.preRun
    simp only [hget, ok_bind]; rfl) hg hsites L hL n
  exact ⟨_, c', res, hinit, h1, h2, h3⟩

/-- A class-level `variant` wins over the constructor's argument. -/
theorem C60_class_variant (S : Structure K 2) (b sv : List (Fin 10)) (v : String) :
    Life.init (some (variantText b sv)) S v = .ok ⟨digitValues b, digitValues sv, S, none⟩ := by
  unfold Life.init
  rw [Option.getD_some, C61_variant]; rfl

/-- C60: on a torus at least 3 wide the number of live neighbours is the number of the eight offsets that lead to a live cell. -/
theorem C60_eight {N : Fin 2 → ℤ} (hN : ∀ j, 3 ≤ N j) (L : Set (Fin 2 → ℤ)) [DecidablePred (· ∈ L)] (c : Fin 2 → ℤ) (hc : InBox N c) :
    liveAround N L c = liveOfEight N L c := by
  have hpos : ∀ j, 0 < N j := fun j => by have := hN j; omega
  set E : List (Fin 2 → ℤ) := [![-1, -1], ![-1, 0], ![-1, 1], ![0, -1], ![0, 1], ![1, -1], ![1, 0], ![1, 1]] with hE
  have hEnd : E.Nodup := by rw [hE]; decide
  have hmem : ∀ v : Fin 2 → ℤ, v ∈ E ↔ (∀ j, |v j| ≤ 1) ∧ v ≠ 0 := by
    intro v
    constructor
    · intro hv
      have : ∀ w ∈ E, (∀ j, |w j| ≤ 1) ∧ w ≠ 0 := by rw [hE]; decide
      exact this v hv
    · rintro ⟨h1, h2⟩
      have a0 := abs_le.1 (h1 0)
      have a1 := abs_le.1 (h1 1)
      have hv : v = ![v 0, v 1] := by funext j; fin_cases j <;> rfl
      have b0 : v 0 = -1 ∨ v 0 = 0 ∨ v 0 = 1 := by omega
      have b1 : v 1 = -1 ∨ v 1 = 0 ∨ v 1 = 1 := by omega
      rw [hv] at h2 ⊢
      rcases b0 with e0 | e0 | e0 <;> rcases b1 with e1 | e1 | e1 <;> rw [e0, e1] at h2 ⊢ <;> rw [hE] <;>
        first | (exact absurd (by decide) h2) | decide
  let f : (Fin 2 → ℤ) → Fin 2 → ℤ := fun v j => (c j + v j) % N j
  have hinj : ∀ v w : Fin 2 → ℤ, (∀ j, |v j| ≤ 1) → (∀ j, |w j| ≤ 1) → f v = f w → v = w := by
    intro v w hv hw e
    funext k
    obtain ⟨q, hq⟩ := Int.dvd_of_emod_eq_zero (Int.emod_eq_emod_iff_emod_sub_eq_zero.1 (congrFun e k))
    have b1 := abs_le.1 (hv k)
    have b2 := abs_le.1 (hw k)
    have b3 := hN k
    have hq0 : q = 0 := by
      by_contra hne
      rcases lt_or_gt_of_ne hne with hlt | hgt
      · have : q ≤ -1 := by omega
        nlinarith
      · have : 1 ≤ q := by omega
        nlinarith
    rw [hq0] at hq
    linarith
  have hf0 : f 0 = c := by
    funext j
    show (c j + 0) % N j = c j
    rw [add_zero]; exact Int.emod_eq_of_lt (hc j).1 (hc j).2
  unfold liveAround liveOfEight
  rw [List.countP_eq_length_filter]
  have e : {x | InBox N x ∧ x ≠ c ∧ ChebyshevLE N c x 1 ∧ x ∈ L} = (((E.filter fun v => decide (f v ∈ L)).map f).toFinset : Set (Fin 2 → ℤ)) := by
    ext x
    simp only [List.coe_toFinset, List.mem_map, List.mem_filter, Set.mem_ofPred_eq, decide_eq_true_eq]
    constructor
    · rintro ⟨h1, h2, h3, h4⟩
      choose q hq using fun k => (circ_le_iff (hpos k) _ _).1 (h3 k)
      have hfx : f (fun k => -(c k - x k + q k * N k)) = x := by
        funext k
        show (c k + -(c k - x k + q k * N k)) % N k = x k
        rw [show c k + -(c k - x k + q k * N k) = x k + (-q k) * N k by ring, Int.add_mul_emod_self_right]
        exact Int.emod_eq_of_lt (h1 k).1 (h1 k).2
      refine ⟨fun k => -(c k - x k + q k * N k), ⟨(hmem _).2 ⟨fun k => by rw [abs_neg]; exact hq k, fun e => h2 ?_⟩, by rw [hfx]; exact h4⟩, hfx⟩
      rw [← hfx, e, hf0]
    · rintro ⟨v, ⟨hv, hL⟩, rfl⟩
      obtain ⟨hv1, hv0⟩ := (hmem v).1 hv
      refine ⟨fun k => ⟨Int.emod_nonneg _ (hpos k).ne', Int.emod_lt_of_pos _ (hpos k)⟩, fun e => hv0 ?_, fun k => ?_, hL⟩
      · exact hinj v 0 hv1 (by simp) (by rw [e, hf0])
      · refine (circ_le_iff (hpos k) _ _).2 ⟨-((c k + v k) / N k), ?_⟩
        have := Int.emod_add_mul_ediv (c k + v k) (N k)
        have e : c k - (c k + v k) % N k + -((c k + v k) / N k) * N k = - v k := by linarith
        show |c k - (c k + v k) % N k + -((c k + v k) / N k) * N k| ≤ 1
        rw [e, abs_neg]; exact hv1 k
  rw [e, Set.ncard_coe_finset, List.toFinset_card_of_nodup, List.length_map]
  refine (List.nodup_map_iff_inj_on (hEnd.filter _)).2 fun v hv w hw => ?_
  exact hinj v w ((hmem v).1 (List.mem_of_mem_filter hv)).1 ((hmem w).1 (List.mem_of_mem_filter hw)).1

/-! ### the hypotheses can be met -/

/-- Every pattern on every grid can be shown by a state. -/
theorem life_state_exists {S : Structure K 2} {N : Fin 2 → ℤ} (h : IsTorus S N) (L : Set (Fin 2 → ℤ)) :
    ∃ s : SimState, s.WF ∧ s.getGeneralState ≠ none ∧ SameSites S s ∧ ShowsLife S s L := by
  classical
  choose! f hf using fun j (hj : j ∈ S.siteIds) => h.site j hj
  have hnd : S.siteIds.Nodup := by rw [siteIds_eq h.reachable]; exact List.nodup_range
  have hk : Dict.keys (S.siteIds.map fun i : ℕ => (Key.int i, [(DISCRETE_OCCUPANCY, Val.str (lifeWord L (f i)))])) = S.siteIds.map fun i : ℕ => Key.int i := by
    simp [Dict.keys, Function.comp_def]
  have hw : Dict.WF (S.siteIds.map fun i : ℕ => (Key.int i, [(DISCRETE_OCCUPANCY, Val.str (lifeWord L (f i)))])) := by
    unfold Dict.WF
    rw [hk]
    exact (List.nodup_map_iff_inj_on hnd).2 fun a _ b _ e => by injection e with e; exact_mod_cast e
  refine ⟨⟨S.siteIds.map fun i : ℕ => (.int i, [(DISCRETE_OCCUPANCY, .str (lifeWord L (f i)))]), some []⟩, ⟨hw, ?_, ?_⟩, by simp [getGeneralState], ?_, ?_⟩
  · intro kv hkv
    obtain ⟨i, -, rfl⟩ := List.mem_map.1 hkv
    exact wf_occ _
  · rintro g ⟨⟩
    exact .dict Dict.WF.nil (by simp)
  · intro k
    show k ∈ Dict.keys _ ↔ _
    rw [hk, List.mem_map]
    exact ⟨fun ⟨i, hi, e⟩ => ⟨i, hi, e.symm⟩, fun ⟨i, hi, e⟩ => ⟨i, hi, e.symm⟩⟩
  · intro i c hc
    have hi := h.mem_ids h.reachable hc
    refine ⟨_, Dict.get?_of_mem hw (List.mem_map.2 ⟨i, hi, rfl⟩), ?_, ?_⟩
    all_goals
      intro h1
      rw [IsTorus.has_unique_coord (hf i hi).2 hc]
      simp [Dict.get?, lifeWord, h1]

/-- A blinker on a 5 x 4 torus. -/
def blinker : Set (Fin 2 → ℤ) := {c | c = ![1, 1] ∨ c = ![2, 1] ∨ c = ![3, 1]}

instance : DecidablePred (· ∈ blinker) := fun c => inferInstanceAs (Decidable (c = ![1, 1] ∨ c = ![2, 1] ∨ c = ![3, 1]))

/-- A run of Life on the blinker: two steps later it is back, and one step later cell (2, 2) has been born. -/
example : ∃ (S : Structure ℚ 2) (s0 : SimState) (c c' : Life.Ctl ℚ) (res : SimResult), SquareGrid 2 ![5, 4] S ∧ ShowsLife S s0 blinker ∧
    Life.init none S Life.life = .ok c ∧ runSync Life.controller c s0 2 = .ok (c', res) ∧
    ∃ s1 L1, res.getStep 1 = .ok s1 ∧ ShowsLife S s1 L1 ∧ ![2, 2] ∈ L1 ∧ ![1, 1] ∉ L1 := by
  obtain ⟨-, S, hS, -⟩ := C52_square2 (K := ℚ) 1 (by norm_num) 4 5 (by norm_num) (by norm_num)
  have hg : SquareGrid 2 ![5, 4] S := .two _ S 5 4 (by norm_num) (by norm_num) (.inl rfl) hS
  obtain ⟨s0, h1, h2, h3, h4⟩ := life_state_exists hg.isTorus blinker
  obtain ⟨c, c', res, h5, h6, -, h7⟩ := C60_life hg [3] [2, 3] s0 h1 h2 h3 blinker h4 2
  obtain ⟨s1, h8, -, h9⟩ := h7 1 (by norm_num)
  have hN : ∀ j : Fin 2, 3 ≤ (![5, 4] : Fin 2 → ℤ) j := by decide
  refine ⟨S, s0, c, c', res, hg, h4, h5, h6, s1, _, h8, h9, ?_, ?_⟩
  · right
    rw [C60_eight hN _ _ (by intro j; fin_cases j <;> simp), show liveOfEight ![5, 4] blinker ![2, 2] = 3 by decide]
    exact ⟨by decide, by decide⟩
  · rintro (⟨-, h⟩ | ⟨h, -⟩)
    · rw [C60_eight hN _ _ (by intro j; fin_cases j <;> simp), show liveOfEight ![5, 4] blinker ![1, 1] = 1 by decide] at h
      revert h; decide
    · exact h (by decide)

end Pyl
