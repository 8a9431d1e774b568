import Verif.Spec.LifeNoise
import Verif.Props.LifeVariants
import Verif.Props.LifeConfined
import Verif.Props.RandomSetup
import Verif.Props.EdenLaw
import Mathlib.Algebra.BigOperators.Ring.Finset
import Mathlib.Tactic.NormNum
/-
C159: Life from noise.
-/
set_option autoImplicit false
set_option linter.unusedSectionVars false

namespace Pyl
open SimState Spec GridSetup
open Pyl.Lattice Pyl.Structure
variable {K : Type} [Field K] [LinearOrder K] [FloorRing K] [IsStrictOrderedRing K]

/-! ### Chances -/

theorem chance_sum_slices {m k : ℕ} {ι : Type} [DecidableEq ι] (T : Finset ι) (g : (Fin k → Fin m) → ι) (P : (Fin k → Fin m) → Prop) (hg : ∀ f, P f → g f ∈ T) :
    chance m k P = ∑ u ∈ T, chance m k fun f => P f ∧ g f = u := by
  classical
  unfold chance
  rw [← Finset.sum_div, ← Nat.cast_sum]
  congr 2
  rw [Finset.card_eq_sum_card_fiberwise (f := g) (t := T) fun f hf => hg f (by simpa using hf)]
  refine Finset.sum_congr rfl fun u _ => ?_
  rw [Finset.filter_filter]
  refine congrArg Finset.card ?_
  ext f
  simp

/-- How many of the draws in `B` are in `A`, together with one more draw. -/
theorem chance_count {m k : ℕ} (hk : 0 < k) (A : Fin k → Prop) [DecidablePred A] (B : Finset (Fin m)) (i : Fin m) (hi : i ∉ B) (Sv Bn : ℕ → Prop) [DecidablePred Sv] [DecidablePred Bn]
    (q : ℝ) (hq : q = ((Finset.univ.filter A).card : ℝ) / k) :
    chance k m (fun f => (A (f i) ∧ Sv (B.filter fun j => A (f j)).card) ∨ (¬ A (f i) ∧ Bn (B.filter fun j => A (f j)).card)) =
      ∑ j ∈ Finset.range (B.card + 1), (B.card.choose j : ℝ) * q ^ j * (1 - q) ^ (B.card - j) * (q * (if Sv j then 1 else 0) + (1 - q) * (if Bn j then 1 else 0)) := by
  classical
  have hkR : (k : ℝ) ≠ 0 := by positivity
  have hA : chance k 1 (fun f => A (f 0)) = q := by rw [chance_one, hq]
  have hA' : chance k 1 (fun f => ¬ A (f 0)) = 1 - q := by rw [chance_not hk fun f => A (f 0), hA]
  have hT : chance k 1 (fun _ => True) = 1 := chance_true hk
  -- one exact pattern
  have hpat : ∀ U ∈ B.powerset, ∀ a : Prop, chance k m (fun f => (A (f i) ↔ a) ∧ (B.filter fun j => A (f j)) = U) =
      (if a then q else 1 - q) * (q ^ U.card * (1 - q) ^ (B.card - U.card)) := by
    intro U hU a
    have hU := Finset.mem_powerset.1 hU
    have h1 := chance_prod (m := k) (k := m) fun j y => (j = i → (A y ↔ a)) ∧ (j ∈ B → (A y ↔ j ∈ U))
    rw [chance_congr (Q := fun f : Fin m → Fin k => (A (f i) ↔ a) ∧ (B.filter fun j => A (f j)) = U)] at h1
    · rw [h1]
      have h2 : ∀ j : Fin m, chance k 1 (fun f => (j = i → (A (f 0) ↔ a)) ∧ (j ∈ B → (A (f 0) ↔ j ∈ U))) =
          (if j = i then (if a then q else 1 - q) else 1) * ((if j ∈ U then q else 1) * (if j ∈ B \ U then 1 - q else 1)) := by
        intro j
        by_cases e : j = i
        · subst e
          have h3 : j ∉ U := fun h => hi (hU h)
          have h4 : j ∉ B \ U := fun h => hi (Finset.mem_sdiff.1 h).1
          rw [if_pos rfl, if_neg h3, if_neg h4, mul_one, mul_one]
          by_cases ha : a
          · rw [if_pos ha, ← hA]
            exact chance_congr fun f => by simp [hi, ha]
          · rw [if_neg ha, ← hA']
            exact chance_congr fun f => by simp [hi, ha]
        · rw [if_neg e, one_mul]
          by_cases hB : j ∈ B
          · by_cases hjU : j ∈ U
            · rw [if_pos hjU, if_neg (by simp [hjU]), mul_one, ← hA]
              exact chance_congr fun f => by simp [e, hB, hjU]
            · rw [if_neg hjU, if_pos (by simp [hB, hjU]), one_mul, ← hA']
              exact chance_congr fun f => by simp [e, hB, hjU]
          · rw [if_neg fun h => hB (hU h), if_neg (by simp [hB]), mul_one, ← hT]
            exact chance_congr fun f => by simp [e, hB]
      rw [Finset.prod_congr rfl fun j _ => h2 j, Finset.prod_mul_distrib, Finset.prod_mul_distrib, Finset.prod_ite_eq' Finset.univ i, if_pos (Finset.mem_univ i)]
      congr 2
      · rw [Finset.prod_ite_mem, Finset.univ_inter, Finset.prod_const]
      · rw [Finset.prod_ite_mem, Finset.univ_inter, Finset.prod_const, Finset.card_sdiff_of_subset hU]
    · intro f
      constructor
      · intro h
        refine ⟨(h i).1 rfl, ?_⟩
        ext j
        rw [Finset.mem_filter]
        exact ⟨fun hj => ((h j).2 hj.1).1 hj.2, fun hj => ⟨hU hj, ((h j).2 (hU hj)).2 hj⟩⟩
      · rintro ⟨h2, h3⟩ j
        refine ⟨fun e => e ▸ h2, fun hj => ?_⟩
        rw [← h3, Finset.mem_filter]
        exact ⟨fun h => ⟨hj, h⟩, fun h => h.2⟩
  rw [chance_or fun f h1 h2 => h2.1 h1.1]
  have hpart : ∀ (a : Prop) (D : ℕ → Prop) [DecidablePred D], chance k m (fun f => (A (f i) ↔ a) ∧ D (B.filter fun j => A (f j)).card) =
      ∑ j ∈ Finset.range (B.card + 1), (B.card.choose j : ℝ) * q ^ j * (1 - q) ^ (B.card - j) * ((if a then q else 1 - q) * (if D j then 1 else 0)) := by
    intro a D _
    rw [chance_sum_slices B.powerset (fun f => B.filter fun j => A (f j)) _ fun f _ => Finset.mem_powerset.2 (Finset.filter_subset _ _)]
    have h1 : ∀ U ∈ B.powerset, chance k m (fun f => ((A (f i) ↔ a) ∧ D (B.filter fun j => A (f j)).card) ∧ (B.filter fun j => A (f j)) = U) =
        (fun j => q ^ j * (1 - q) ^ (B.card - j) * ((if a then q else 1 - q) * (if D j then 1 else 0))) U.card := by
      intro U hU
      show _ = q ^ U.card * (1 - q) ^ (B.card - U.card) * ((if a then q else 1 - q) * (if D U.card then 1 else 0))
      by_cases hD : D U.card
      · rw [if_pos hD, mul_one, mul_comm, ← hpat U hU a]
        refine chance_congr fun f => ?_
        constructor
        · rintro ⟨⟨h1, -⟩, h2⟩; exact ⟨h1, h2⟩
        · rintro ⟨h1, h2⟩; exact ⟨⟨h1, by rw [h2]; exact hD⟩, h2⟩
      · rw [if_neg hD, mul_zero, mul_zero, ← chance_false (m := k) (k := m)]
        refine chance_congr fun f => ?_
        rw [iff_false]
        rintro ⟨⟨-, h1⟩, h2⟩
        rw [h2] at h1
        exact hD h1
    refine (Finset.sum_congr rfl h1).trans ((Finset.sum_powerset_apply_card (fun j => q ^ j * (1 - q) ^ (B.card - j) * ((if a then q else 1 - q) * (if D j then 1 else 0)))).trans ?_)
    refine Finset.sum_congr rfl fun j _ => ?_
    rw [nsmul_eq_mul]; ring
  have e1 := hpart True Sv
  have e2 := hpart False Bn
  simp only [iff_true, iff_false, if_true, if_false] at e1 e2
  rw [e1, e2, ← Finset.sum_add_distrib]
  exact Finset.sum_congr rfl fun j _ => by ring

/-! ### The cells around a cell, as sites -/

section
variable {S : Structure K 2} {N : Fin 2 → ℤ}

open Classical in
/-- The sites next to the cell `c`. -/
noncomputable def sitesAround (S : Structure K 2) (N : Fin 2 → ℤ) (c : Fin 2 → ℤ) : Finset (Fin S.siteIds.length) :=
  Finset.univ.filter fun j => ∃ x, SiteHas S j x ∧ x ≠ c ∧ ChebyshevLE N c x 1

theorem liveAround_sites (ht : IsTorus S N) (c : Fin 2 → ℤ) (Q : Fin S.siteIds.length → Prop) [DecidablePred Q] (L : Set (Fin 2 → ℤ))
    (hL : ∀ (j : Fin S.siteIds.length) x, SiteHas S j x → (x ∈ L ↔ Q j)) : liveAround N L c = ((sitesAround S N c).filter Q).card := by
  classical
  have hlt : ∀ i, i ∈ S.siteIds ↔ i < S.siteIds.length := fun i => mem_siteIds_lt ht.reachable
  choose co hbox hco using fun j : Fin S.siteIds.length => ht.site j ((hlt j).2 j.2)
  unfold liveAround
  rw [show {x | InBox N x ∧ x ≠ c ∧ ChebyshevLE N c x 1 ∧ x ∈ L} = ((((sitesAround S N c).filter Q).image co : Finset (Fin 2 → ℤ)) : Set (Fin 2 → ℤ)) from ?_,
    Set.ncard_coe_finset, Finset.card_image_of_injOn]
  · intro a _ b _ e
    have h1 := hco a
    rw [e] at h1
    exact Fin.ext (ht.site_unique h1 (hco b))
  · ext x
    simp only [sitesAround, Finset.coe_image, Finset.coe_filter, Finset.mem_filter, Finset.mem_univ, true_and, Set.mem_image]
    constructor
    · rintro ⟨h1, h2, h3, h4⟩
      obtain ⟨j, hj, hx⟩ := ht.ex x h1
      have hj' := (hlt j).1 hj
      refine ⟨⟨j, hj'⟩, ⟨⟨x, hx, h2, h3⟩, (hL ⟨j, hj'⟩ x hx).1 h4⟩, IsTorus.has_unique_coord (hco ⟨j, hj'⟩) hx⟩
    · rintro ⟨j, ⟨⟨x', hx, h2, h3⟩, h4⟩, rfl⟩
      obtain rfl := IsTorus.has_unique_coord (hco j) hx
      exact ⟨hbox j, h2, h3, (hL j _ hx).2 h4⟩

theorem card_sitesAround (ht : IsTorus S N) (hN : ∀ j, 3 ≤ N j) (c : Fin 2 → ℤ) (hc : InBox N c) : (sitesAround S N c).card = 8 := by
  classical
  have h := liveAround_sites ht c (fun _ => True) Set.univ fun _ _ _ => by simp
  rw [C60_eight hN Set.univ c hc, Finset.filter_true_of_mem fun _ _ => trivial] at h
  rw [← h]
  simp [liveOfEight]

end

/-! ### Noise, then Life -/

theorem noise_life {G : GridSetup K 2} {n : ℤ} {S : Structure K 2} (hb : G.builder (.int n) = .ok S) (hsq : SquareGrid 2 (fun _ => n) S) (phases : List Val)
    (hne : phases ≠ []) (hp : ∀ p ∈ phases, p = .str "alive" ∨ p = .str "dead") (b sv : List (Fin 10)) (k : ℕ) (f : Fin S.siteIds.length → Fin phases.length) :
    (∃ s, NoiseThenLife G (.int n) phases (variantText b sv) S (outcome f) k s) ∧
    ∃ L : Set (Fin 2 → ℤ), (∀ (j : Fin S.siteIds.length) x, SiteHas S j x → (x ∈ L ↔ phases[(f j : ℕ)] = .str "alive")) ∧
      ∀ s, NoiseThenLife G (.int n) phases (variantText b sv) S (outcome f) k s → ShowsLife S s ((generation (fun _ => n) (digitValues b) (digitValues sv))^[k] L) := by
  have ht := hsq.isTorus
  have hlt : ∀ i, i ∈ S.siteIds ↔ i < S.siteIds.length := fun i => mem_siteIds_lt ht.reachable
  obtain ⟨s0, h1, h2, h3⟩ := noise_result hb ht.reachable phases (fun p h => by rcases hp p h with rfl | rfl <;> exact .str _) hne (outcome f)
  have hocc : ∀ j : Fin S.siteIds.length, occ? s0 (.int (j : ℕ)) = some phases[(f j : ℕ)] := by
    intro j
    rw [h3 j ((hlt j).2 j.2), outcome_of_lt f j.2, Nat.mod_eq_of_lt (f j).2, List.getElem?_eq_getElem (f j).2]
  have hlife : IsLifeState S s0 := by
    refine ⟨h2.1, by rw [h2.2.1]; simp, h2.2.2.1, fun i c hc => ?_⟩
    have hi := (hlt i).1 (ht.mem_ids ht.reachable hc)
    obtain ⟨p, hp1, hp2⟩ := occ?_eq.1 (hocc ⟨i, hi⟩)
    have hcell : ∀ v, phases[(f ⟨i, hi⟩ : ℕ)] = .str v → CellIs S s0 c v := by
      intro v hv i' hi'
      obtain rfl := ht.site_unique hc hi'
      exact ⟨p, hp1, by rw [hp2, hv]⟩
    rcases hp _ (List.getElem_mem (f ⟨i, hi⟩).2) with h | h
    · exact .inl (hcell _ h)
    · exact .inr (hcell _ h)
  refine ⟨?_, liveCells S s0, ?_, ?_⟩
  · obtain ⟨res, hr⟩ := lifeRun_exists hsq b sv hlife k
    obtain ⟨s, hs, -⟩ := lifeRun_steps hsq hlife hr k le_rfl
    exact ⟨s, s0, res, h1, hr, hs⟩
  · intro j x hx
    rw [← (cellIs_iff (showsLife_liveCells hlife) hx).1]
    obtain ⟨p, hp1, hp2⟩ := occ?_eq.1 (hocc j)
    constructor
    · intro h
      obtain ⟨p', hp', h4⟩ := h j hx
      rw [hp1] at hp'; cases hp'
      rw [hp2] at h4
      exact Option.some.inj h4
    · intro h i' hi'
      obtain rfl := ht.site_unique hx hi'
      exact ⟨p, hp1, by rw [hp2, h]⟩
  · rintro s ⟨s0', res, h4, h5, h6⟩
    rw [h1] at h4
    cases h4
    obtain ⟨s', h7, h8⟩ := lifeRun_steps hsq hlife h5 k le_rfl
    rw [h6] at h7; cases h7
    exact h8

theorem mem_digitValues {l : List (Fin 10)} {j : ℕ} : (j : ℤ) ∈ digitValues l ↔ ∃ x ∈ l, (x : ℕ) = j := by
  unfold digitValues
  rw [List.mem_map]
  exact ⟨fun ⟨x, h1, h2⟩ => ⟨x, h1, by exact_mod_cast h2⟩, fun ⟨x, h1, h2⟩ => ⟨x, h1, by exact_mod_cast h2⟩⟩

/-- C159: if `setup_noise` makes cells alive or dead by independent draws, then after one step of any variant, serially or in parallel, a given cell is alive with
the probability the digits give for nine independent cells: `q` is the fraction of "alive" in the list of phases. -/
theorem C159_cell {G : GridSetup K 2} (hG : StdSetup 2 G) (n : ℤ) (hn : 3 ≤ n) (phases : List Val) (hne : phases ≠ [])
    (hp : ∀ p ∈ phases, p = .str "alive" ∨ p = .str "dead") (b sv : List (Fin 10)) :
    ∃ S, G.builder (.int n) = .ok S ∧ SquareGrid 2 (fun _ => n) S ∧ ∀ c, InBox (fun _ => n) c →
      chance phases.length S.siteIds.length (fun f => ∃ s, NoiseThenLife G (.int n) phases (variantText b sv) S (outcome f) 1 s ∧ CellIs S s c "alive") =
        aliveNext b sv ((phases.count (.str "alive") : ℝ) / phases.length) := by
  classical
  obtain ⟨S, hb, hsq, -⟩ := setup_builds hG (by omega : 0 < n)
  refine ⟨S, hb, hsq, fun c hc => ?_⟩
  have ht := hsq.isTorus
  obtain ⟨i, hi, hic⟩ := ht.ex c hc
  have hi' := (mem_siteIds_lt ht.reachable).1 hi
  have hi0 : (⟨i, hi'⟩ : Fin S.siteIds.length) ∉ sitesAround S (fun _ => n) c := by
    intro h
    obtain ⟨x, hx, hne, -⟩ := (Finset.mem_filter.1 h).2
    exact hne (IsTorus.has_unique_coord hx hic)
  have h1 : ∀ f : Fin S.siteIds.length → Fin phases.length,
      (∃ s, NoiseThenLife G (.int n) phases (variantText b sv) S (outcome f) 1 s ∧ CellIs S s c "alive") ↔
      (phases[(f ⟨i, hi'⟩ : ℕ)] = .str "alive" ∧ ∃ x ∈ sv, (x : ℕ) = ((sitesAround S (fun _ => n) c).filter fun j => phases[(f j : ℕ)] = .str "alive").card) ∨
      (¬ phases[(f ⟨i, hi'⟩ : ℕ)] = .str "alive" ∧ ∃ x ∈ b, (x : ℕ) = ((sitesAround S (fun _ => n) c).filter fun j => phases[(f j : ℕ)] = .str "alive").card) := by
    intro f
    obtain ⟨⟨s, hs⟩, L, hL, hshow⟩ := noise_life hb hsq phases hne hp b sv 1 f
    have h2 : c ∈ generation (fun _ => n) (digitValues b) (digitValues sv) L ↔
        (c ∈ L ∧ (liveAround (fun _ => n) L c : ℤ) ∈ digitValues sv) ∨ (c ∉ L ∧ (liveAround (fun _ => n) L c : ℤ) ∈ digitValues b) := Iff.rfl
    rw [liveAround_sites ht c (fun j => phases[(f j : ℕ)] = .str "alive") L hL, mem_digitValues, mem_digitValues, hL ⟨i, hi'⟩ c hic] at h2
    refine Iff.trans ?_ h2
    constructor
    · rintro ⟨s', hs', h4⟩
      exact (cellIs_iff (hshow s' hs') hic).1.1 h4
    · intro h
      exact ⟨s, hs, (cellIs_iff (hshow s hs) hic).1.2 h⟩
  rw [chance_congr h1]
  have h2 := chance_count (m := S.siteIds.length) (List.length_pos_of_ne_nil hne) (fun a : Fin phases.length => phases[(a : ℕ)] = .str "alive") (sitesAround S (fun _ => n) c)
    ⟨i, hi'⟩ hi0 (fun j => ∃ x ∈ sv, (x : ℕ) = j) (fun j => ∃ x ∈ b, (x : ℕ) = j) ((phases.count (.str "alive") : ℝ) / phases.length) (by
      have e : phases.count (.str "alive") = phases.countP fun p => decide (p = .str "alive") := by
        rw [List.count]
        refine congrFun (congrArg List.countP (funext fun x => ?_)) phases
        by_cases hx : x = .str "alive" <;> simp [hx]
      rw [e, ← card_countP phases fun p => p = .str "alive"]
      rfl)
  rw [card_sitesAround ht (fun _ => hn) c hc] at h2
  exact h2

theorem mean_count {ι : Type} {m k : ℕ} (T : Finset ι) (P : (Fin k → Fin m) → ι → Prop) [∀ f, DecidablePred (P f)] :
    mean m k (fun f => ((T.filter (P f)).card : ℝ)) = ∑ c ∈ T, chance m k fun f => P f c := by
  classical
  unfold mean chance
  rw [← Finset.sum_div]
  congr 1
  have h1 : ∀ f : Fin k → Fin m, ((T.filter (P f)).card : ℝ) = ∑ c ∈ T, if P f c then 1 else 0 := fun f => by
    rw [Finset.card_filter]; push_cast; rfl
  have h2 : ∀ c, ((Finset.univ.filter fun f : Fin k → Fin m => P f c).card : ℝ) = ∑ f : Fin k → Fin m, if P f c then 1 else 0 := fun c => by
    rw [Finset.card_filter]; push_cast; rfl
  rw [Finset.sum_congr rfl fun f _ => h1 f, Finset.sum_comm]
  refine Finset.sum_congr rfl fun c _ => (h2 c).symm.trans ?_
  congr 2
  ext f; simp

/-- C159: the mean number of live cells after one step is the number of cells times that probability. -/
theorem C159_population {G : GridSetup K 2} (hG : StdSetup 2 G) (n : ℤ) (hn : 3 ≤ n) (phases : List Val) (hne : phases ≠ [])
    (hp : ∀ p ∈ phases, p = .str "alive" ∨ p = .str "dead") (b sv : List (Fin 10)) :
    ∃ S, G.builder (.int n) = .ok S ∧ SquareGrid 2 (fun _ => n) S ∧ ∀ X : (Fin S.siteIds.length → Fin phases.length) → ℕ,
      (∀ f s, NoiseThenLife G (.int n) phases (variantText b sv) S (outcome f) 1 s → X f = cellCount (fun _ => n) fun c => CellIs S s c "alive") →
      mean phases.length S.siteIds.length (fun f => (X f : ℝ)) = (n : ℝ) ^ 2 * aliveNext b sv ((phases.count (.str "alive") : ℝ) / phases.length) := by
  classical
  obtain ⟨S, hb, hsq, hcell⟩ := C159_cell hG n hn phases hne hp b sv
  refine ⟨S, hb, hsq, fun X hX => ?_⟩
  have hX' : ∀ f, X f = ((boxCells fun _ => n).filter fun c => ∃ s, NoiseThenLife G (.int n) phases (variantText b sv) S (outcome f) 1 s ∧ CellIs S s c "alive").card := by
    intro f
    obtain ⟨⟨s, hs⟩, L, hL, hshow⟩ := noise_life hb hsq phases hne hp b sv 1 f
    rw [hX f s hs]
    unfold Spec.cellCount
    rw [← Set.ncard_coe_finset]
    congr 1
    ext c
    simp only [Finset.coe_filter, mem_boxCells]
    refine and_congr_right fun hc => ?_
    obtain ⟨i, -, hi⟩ := hsq.isTorus.ex c hc
    refine ⟨fun h => ⟨s, hs, h⟩, ?_⟩
    rintro ⟨s', hs', h⟩
    exact (cellIs_iff (hshow s hs) hi).1.2 ((cellIs_iff (hshow s' hs') hi).1.1 h)
  rw [show (fun f => (X f : ℝ)) = fun f => (((boxCells fun _ => n).filter fun c => ∃ s, NoiseThenLife G (.int n) phases (variantText b sv) S (outcome f) 1 s ∧
    CellIs S s c "alive").card : ℝ) from funext fun f => by rw [hX' f], mean_count, Finset.sum_congr rfl fun c hc => hcell c (mem_boxCells.1 hc),
    Finset.sum_const, card_boxCells fun _ => by omega, nsmul_eq_mul]
  congr 1
  have h1 : ((n * n).toNat : ℤ) = n ^ 2 := by rw [Int.toNat_of_nonneg (by positivity)]; ring
  exact_mod_cast congrArg (fun z : ℤ => (z : ℝ)) h1

/-- C159: the Game of Life from `setup_noise` with the phases "alive" and "dead": after one step a given cell is alive with probability 35/128. -/
theorem C159_life {G : GridSetup K 2} (hG : StdSetup 2 G) (n : ℤ) (hn : 3 ≤ n) :
    ∃ S, G.builder (.int n) = .ok S ∧ SquareGrid 2 (fun _ => n) S ∧ ∀ c, InBox (fun _ => n) c →
      chance 2 S.siteIds.length (fun f => ∃ s, NoiseThenLife G (.int n) [.str "alive", .str "dead"] Life.life S (outcome f) 1 s ∧ CellIs S s c "alive") = 35 / 128 := by
  obtain ⟨S, hb, hsq, h⟩ := C159_cell hG n hn [.str "alive", .str "dead"] (by simp) (by simp) [3] [2, 3]
  refine ⟨S, hb, hsq, fun c hc => ?_⟩
  have e : Life.life = variantText [3] [2, 3] := by decide +kernel
  rw [e]
  refine (h c hc).trans ?_
  have hcount : List.count (Val.str "alive") [Val.str "alive", Val.str "dead"] = 1 := by decide +kernel
  rw [hcount]
  unfold aliveNext
  simp [Finset.sum_range_succ]
  norm_num [Nat.choose]

end Pyl
