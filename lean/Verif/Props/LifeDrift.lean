import Verif.Spec.LifeDrift
import Verif.Props.LifeAsyncAnalyzer
import Verif.Props.LifeAsync
import Verif.Props.FillTime
/-
C170: asynchronous runs of Life and its variants, on average over the draws.
-/
set_option autoImplicit false
set_option linter.unusedSectionVars false

namespace Pyl
open SimState Spec
open Pyl.Lattice Pyl.Structure
variable {K : Type} [Field K] [LinearOrder K] [FloorRing K] [IsStrictOrderedRing K]

/-! ### Patterns -/

theorem oneByOne_congr {N : Fin 2 → ℤ} {born survive : List ℤ} {cells cells' : ℕ → Fin 2 → ℤ} {L : Set (Fin 2 → ℤ)} : ∀ {k : ℕ}, (∀ t, t < k → cells t = cells' t) →
    oneByOne N born survive cells L k = oneByOne N born survive cells' L k := by
  intro k
  induction k with
  | zero => intro _; rfl
  | succ k ih =>
    intro h
    have e := ih fun t ht => h t (by omega)
    show {x | x ≠ cells k ∧ x ∈ oneByOne _ _ _ _ _ k ∨ x = cells k ∧ x ∈ generation _ _ _ (oneByOne _ _ _ _ _ k)} = {x | _}
    rw [e, h k (by omega)]
    rfl

theorem oneByOne_inBox {N : Fin 2 → ℤ} {born survive : List ℤ} {cells : ℕ → Fin 2 → ℤ} {L : Set (Fin 2 → ℤ)} (hL : ∀ c ∈ L, InBox N c) (hc : ∀ k, InBox N (cells k)) :
    ∀ k, ∀ c ∈ oneByOne N born survive cells L k, InBox N c := by
  intro k
  induction k with
  | zero => exact hL
  | succ k ih =>
    intro c h
    have h : c ≠ cells k ∧ c ∈ oneByOne N born survive cells L k ∨ c = cells k ∧ c ∈ generation N born survive (oneByOne N born survive cells L k) := h
    rcases h with ⟨-, h⟩ | ⟨rfl, -⟩
    · exact ih c h
    · exact hc k

theorem cellCount_congr {N : Fin 2 → ℤ} {p q : (Fin 2 → ℤ) → Prop} (h : ∀ c, InBox N c → (p c ↔ q c)) : Spec.cellCount N p = Spec.cellCount N q := by
  unfold Spec.cellCount
  congr 1
  ext c
  exact and_congr_right (h c)

section
variable {S : Structure K 2} {N : Fin 2 → ℤ} (hS : SquareGrid 2 N S)
include hS

/-- The sites and the cells of the box correspond to each other. -/
theorem cell_of_site : ∃ pos : ℕ → Fin 2 → ℤ, (∀ i, i < S.siteIds.length → SiteHas S i (pos i)) ∧
    ∀ (p : (Fin 2 → ℤ) → Prop) [DecidablePred p], ∑ i : Fin S.siteIds.length, (if p (pos i) then (1 : ℝ) else 0) = Spec.cellCount N p := by
  have ht := hS.isTorus
  have hSmem : ∀ i, i ∈ S.siteIds ↔ i < S.siteIds.length := fun i => by rw [siteIds_eq ht.reachable]; simp
  choose! pos hpos using fun i (hi : i < S.siteIds.length) => ht.site i ((hSmem i).2 hi)
  refine ⟨pos, fun i hi => (hpos i hi).2, fun p _ => ?_⟩
  rw [cellCount_filter, Finset.card_filter]
  push_cast
  refine Finset.sum_bij (fun i _ => pos i) (fun i _ => mem_boxCells.2 (hpos i i.2).1) ?_ ?_ fun _ _ => rfl
  · intro i _ j _ e
    have h1 := (hpos i i.2).2
    have h2 := (hpos j j.2).2
    rw [e] at h1
    exact Fin.ext (ht.site_unique h1 h2)
  · intro c hc
    obtain ⟨i, hi, hc'⟩ := ht.ex c (mem_boxCells.1 hc)
    exact ⟨⟨i, (hSmem i).1 hi⟩, Finset.mem_univ _, IsTorus.has_unique_coord (hpos i ((hSmem i).1 hi)).2 hc'⟩

variable (b sv : List (Fin 10)) (s0 : SimState) (h0 : IsLifeState S s0) (m : ℕ) (hm : m = S.siteIds.length)
include h0 hm

/-- The pattern after `n` draws as a pattern visited one cell at a time. -/
theorem patternAfter_eq (pos : ℕ → Fin 2 → ℤ) (hp : ∀ i, i < S.siteIds.length → SiteHas S i (pos i)) (n k : ℕ) (f : Fin k → Fin m) :
    patternAfter S N (variantText b sv) s0 n (outcome f) =
      oneByOne N (digitValues b) (digitValues sv) (fun t => pos (outcome f t)) {c | InBox N c ∧ CellIs S s0 c "alive"} n := by
  subst hm
  have ht := hS.isTorus
  have hpos : 0 < S.siteIds.length := List.length_pos_of_ne_nil ht.ids_ne
  have hL : ShowsLife S s0 {c | InBox N c ∧ CellIs S s0 c "alive"} := by
    intro i c hc
    obtain ⟨p, e1, e2, e3⟩ := showsLife_liveCells h0 i c hc
    exact ⟨p, e1, fun h => e2 h.2, fun h => e3 fun h' => h ⟨ht.inBox_of_has hc, h'⟩⟩
  have hcells : ∀ t, SiteHas S (outcome f t % S.siteIds.length) (pos (outcome f t)) := fun t => by
    rw [Nat.mod_eq_of_lt (outcome_lt hpos f t)]
    exact hp _ (outcome_lt hpos f t)
  obtain ⟨c, a, h1, h2, -, h4⟩ := C96_life hS b sv s0 h0.1 h0.2.1 h0.2.2.1 _ hL n (outcome f) (fun t => pos (outcome f t)) hcells
  obtain ⟨s, e1, -, e2⟩ := h4 n le_rfl
  have hbox := oneByOne_inBox (N := N) (born := digitValues b) (survive := digitValues sv) (L := {c | InBox N c ∧ CellIs S s0 c "alive"}) (fun c h => h.1)
    (fun t => ht.inBox_of_has (hcells t)) n
  ext x
  constructor
  · rintro ⟨hx, a', s', ⟨c', g1, g2⟩, g3, g4⟩
    rw [h1] at g1; cases g1
    rw [h2] at g2; cases g2
    rw [e1] at g3; cases g3
    obtain ⟨i, -, hi⟩ := ht.ex x hx
    exact (cellIs_iff e2 hi).1.1 g4
  · intro hx
    obtain ⟨i, -, hi⟩ := ht.ex x (hbox x hx)
    exact ⟨hbox x hx, a, s, ⟨c, h1, h2⟩, e1, (cellIs_iff e2 hi).1.2 hx⟩

/-- What one more draw does to the number of live cells. -/
theorem count_snoc (pos : ℕ → Fin 2 → ℤ) (hp : ∀ i, i < S.siteIds.length → SiteHas S i (pos i)) (n : ℕ) (f : Fin n → Fin m) (x : Fin m)
    [DecidablePred (· ∈ patternAfter S N (variantText b sv) s0 n (outcome f))]
    [DecidablePred (· ∈ generation N (digitValues b) (digitValues sv) (patternAfter S N (variantText b sv) s0 n (outcome f)))] :
    (Spec.cellCount N (· ∈ patternAfter S N (variantText b sv) s0 (n + 1) (outcome (Fin.snoc f x : Fin (n + 1) → Fin m))) : ℝ) =
      Spec.cellCount N (· ∈ patternAfter S N (variantText b sv) s0 n (outcome f)) +
        ((if pos x ∈ generation N (digitValues b) (digitValues sv) (patternAfter S N (variantText b sv) s0 n (outcome f)) then 1 else 0) -
          if pos x ∈ patternAfter S N (variantText b sv) s0 n (outcome f) then 1 else 0) := by
  have ht := hS.isTorus
  have hx : InBox N (pos x) := ht.inBox_of_has (hp x (hm ▸ x.2))
  have e1 : patternAfter S N (variantText b sv) s0 n (outcome f) = oneByOne N (digitValues b) (digitValues sv)
      (fun t => pos (outcome (Fin.snoc f x : Fin (n + 1) → Fin m) t)) {c | InBox N c ∧ CellIs S s0 c "alive"} n := by
    rw [patternAfter_eq hS b sv s0 h0 m hm pos hp n n f]
    exact oneByOne_congr fun t ht' => by simp only [outcome_snoc_lt f x ht']
  have hl : (fun t => pos (outcome (Fin.snoc f x : Fin (n + 1) → Fin m) t)) n = pos x := by simp only [outcome_snoc_last]
  have hcount := oneByOne_count (N := N) (digitValues b) (digitValues sv) (fun t => pos (outcome (Fin.snoc f x : Fin (n + 1) → Fin m) t))
    {c | InBox N c ∧ CellIs S s0 c "alive"} n (by simp only [outcome_snoc_last]; exact hx)
  rw [patternAfter_eq hS b sv s0 h0 m hm pos hp (n + 1) (n + 1) (Fin.snoc f x)]
  simp only [outcome_snoc_last, ← e1] at hcount
  obtain ⟨c1, c2, c3⟩ := hcount
  by_cases g1 : pos x ∈ patternAfter S N (variantText b sv) s0 n (outcome f) <;>
    by_cases g2 : pos x ∈ generation N (digitValues b) (digitValues sv) (patternAfter S N (variantText b sv) s0 n (outcome f))
  · rw [if_pos g1, if_pos g2, c1 (iff_of_true g1 g2)]; ring
  · rw [if_pos g1, if_neg g2, ← c3 g1 g2]; push_cast; ring
  · rw [if_neg g1, if_pos g2, c2 g1 g2]; push_cast; ring
  · rw [if_neg g1, if_neg g2, c1 (iff_of_false g1 g2)]; ring

/-- C170: with one more visit the average number of live cells moves by the `m`-th part of the way to the average number of live cells of the next
generation. -/
theorem C170_drift (n : ℕ) :
    mean m (n + 1) (fun f => (Spec.cellCount N (· ∈ patternAfter S N (variantText b sv) s0 (n + 1) (outcome f)) : ℝ)) =
      mean m n (fun f => (Spec.cellCount N (· ∈ patternAfter S N (variantText b sv) s0 n (outcome f)) : ℝ)) +
        (mean m n (fun f => (Spec.cellCount N (· ∈ generation N (digitValues b) (digitValues sv) (patternAfter S N (variantText b sv) s0 n (outcome f))) : ℝ)) -
          mean m n (fun f => (Spec.cellCount N (· ∈ patternAfter S N (variantText b sv) s0 n (outcome f)) : ℝ))) / m := by
  classical
  have hpos : 0 < m := hm ▸ List.length_pos_of_ne_nil hS.isTorus.ids_ne
  have hmR : (m : ℝ) ≠ 0 := by positivity
  obtain ⟨pos, hp, hsum⟩ := cell_of_site hS
  have hsum' : ∀ (p : (Fin 2 → ℤ) → Prop) [DecidablePred p], ∑ i : Fin m, (if p (pos i) then (1 : ℝ) else 0) = Spec.cellCount N p := by
    subst hm; exact hsum
  rw [mean_snoc]
  simp only [count_snoc hS b sv s0 h0 m hm pos hp n]
  rw [← mean_sum Finset.univ fun (x : Fin m) (f : Fin n → Fin m) => ((Spec.cellCount N (· ∈ patternAfter S N (variantText b sv) s0 n (outcome f)) : ℝ) +
        ((if pos x ∈ generation N (digitValues b) (digitValues sv) (patternAfter S N (variantText b sv) s0 n (outcome f)) then (1 : ℝ) else 0) -
          if pos x ∈ patternAfter S N (variantText b sv) s0 n (outcome f) then 1 else 0))]
  have e : ∀ f : Fin n → Fin m, ∑ x : Fin m, ((Spec.cellCount N (· ∈ patternAfter S N (variantText b sv) s0 n (outcome f)) : ℝ) +
        ((if pos x ∈ generation N (digitValues b) (digitValues sv) (patternAfter S N (variantText b sv) s0 n (outcome f)) then (1 : ℝ) else 0) -
          if pos x ∈ patternAfter S N (variantText b sv) s0 n (outcome f) then 1 else 0)) =
      ((m : ℝ) - 1) * Spec.cellCount N (· ∈ patternAfter S N (variantText b sv) s0 n (outcome f)) +
        Spec.cellCount N (· ∈ generation N (digitValues b) (digitValues sv) (patternAfter S N (variantText b sv) s0 n (outcome f))) := by
    intro f
    rw [Finset.sum_add_distrib, Finset.sum_sub_distrib, hsum' (· ∈ generation N _ _ _), hsum' (· ∈ patternAfter _ _ _ _ _ _), Finset.sum_const, Finset.card_univ, Fintype.card_fin,
      nsmul_eq_mul]
    ring
  simp only [e]
  rw [mean_add, mean_mul]
  field_simp
  ring

/-- The average before the first visit. -/
theorem mean_zero_visits :
    mean m 0 (fun f => (Spec.cellCount N (· ∈ patternAfter S N (variantText b sv) s0 0 (outcome f)) : ℝ)) = Spec.cellCount N fun c => CellIs S s0 c "alive" := by
  have hpos : 0 < m := hm ▸ List.length_pos_of_ne_nil hS.isTorus.ids_ne
  obtain ⟨pos, hp, -⟩ := cell_of_site hS
  simp only [patternAfter_eq hS b sv s0 h0 m hm pos hp 0 0]
  refine (mean_const (m := m) (k := 0) hpos (Spec.cellCount N (· ∈ {c | InBox N c ∧ CellIs S s0 c "alive"}) : ℝ)).trans ?_
  congr 1
  exact cellCount_congr fun c hc => ⟨fun h => h.2, fun h => ⟨hc, h⟩⟩

/-- C170: whatever the rule, the average numbers of live and of dead cells fall at most by the factor `1 - 1 / m` a visit. -/
theorem C170_bounds (n : ℕ) :
    (Spec.cellCount N fun c => CellIs S s0 c "alive") * (1 - 1 / (m : ℝ)) ^ n ≤
      mean m n (fun f => (Spec.cellCount N (· ∈ patternAfter S N (variantText b sv) s0 n (outcome f)) : ℝ)) ∧
    ((m : ℝ) - Spec.cellCount N fun c => CellIs S s0 c "alive") * (1 - 1 / (m : ℝ)) ^ n ≤
      m - mean m n (fun f => (Spec.cellCount N (· ∈ patternAfter S N (variantText b sv) s0 n (outcome f)) : ℝ)) := by
  classical
  have hpos : 0 < m := hm ▸ List.length_pos_of_ne_nil hS.isTorus.ids_ne
  have hmR : (0 : ℝ) < m := by positivity
  have h1m : 0 ≤ 1 - 1 / (m : ℝ) := by
    rw [sub_nonneg, div_le_one hmR]
    exact_mod_cast hpos
  have hcard : ∀ p : (Fin 2 → ℤ) → Prop, (Spec.cellCount N p : ℝ) ≤ m := by
    intro p
    obtain ⟨pos, -, hsum⟩ := cell_of_site hS
    rw [← hsum p, ← hm]
    calc _ ≤ ∑ _i : Fin m, (1 : ℝ) := by
          subst hm
          exact Finset.sum_le_sum fun i _ => by split <;> norm_num
      _ = m := by simp
  induction n with
  | zero =>
    rw [mean_zero_visits hS b sv s0 h0 m hm]
    simp
  | succ n ih =>
    rw [C170_drift hS b sv s0 h0 m hm n]
    set A := mean m n (fun f => (Spec.cellCount N (· ∈ patternAfter S N (variantText b sv) s0 n (outcome f)) : ℝ))
    set G := mean m n (fun f => (Spec.cellCount N (· ∈ generation N (digitValues b) (digitValues sv) (patternAfter S N (variantText b sv) s0 n (outcome f))) : ℝ))
    have hG0 : 0 ≤ G := by
      rw [← mean_const (m := m) (k := n) hpos 0]
      exact mean_mono fun f => by positivity
    have hGm : G ≤ m := by
      rw [← mean_const (m := m) (k := n) hpos (m : ℝ)]
      exact mean_mono fun f => hcard _
    have e1 : A + (G - A) / m = A * (1 - 1 / m) + G / m := by field_simp; ring
    have e2 : (m : ℝ) - (A * (1 - 1 / m) + G / m) = (m - A) * (1 - 1 / m) + (m - G) / m := by field_simp; ring
    rw [e1, e2, pow_succ, ← mul_assoc, ← mul_assoc]
    constructor
    · have := mul_le_mul_of_nonneg_right ih.1 h1m
      have : 0 ≤ G / m := by positivity
      linarith
    · have := mul_le_mul_of_nonneg_right ih.2 h1m
      have : 0 ≤ (m - G) / m := div_nonneg (by linarith) hmR.le
      linarith

/-- C170: the chance that a visit changes the pattern is the average part of the cells whose state is another one in the next generation. -/
theorem C170_change (n : ℕ) :
    chance m (n + 1) (fun f => patternAfter S N (variantText b sv) s0 (n + 1) (outcome f) ≠ patternAfter S N (variantText b sv) s0 n (outcome f)) =
      mean m n (fun f => (Spec.cellCount N (fun c => ¬ (c ∈ generation N (digitValues b) (digitValues sv) (patternAfter S N (variantText b sv) s0 n (outcome f)) ↔
        c ∈ patternAfter S N (variantText b sv) s0 n (outcome f))) : ℝ)) / m := by
  classical
  obtain ⟨pos, hp, hsum⟩ := cell_of_site hS
  have hsum' : ∀ (p : (Fin 2 → ℤ) → Prop) [DecidablePred p], ∑ i : Fin m, (if p (pos i) then (1 : ℝ) else 0) = Spec.cellCount N p := by
    subst hm; exact hsum
  rw [← mean_indicator, mean_snoc, ← mean_sum]
  congr 2
  funext f
  rw [← hsum']
  refine Finset.sum_congr rfl fun x _ => ?_
  have e1 : patternAfter S N (variantText b sv) s0 n (outcome (Fin.snoc f x : Fin (n + 1) → Fin m)) = patternAfter S N (variantText b sv) s0 n (outcome f) := by
    rw [patternAfter_eq hS b sv s0 h0 m hm pos hp n n f, patternAfter_eq hS b sv s0 h0 m hm pos hp n (n + 1) (Fin.snoc f x)]
    exact oneByOne_congr fun t ht' => by simp only [outcome_snoc_lt f x ht']
  have e2 : ∀ c, c ∈ patternAfter S N (variantText b sv) s0 (n + 1) (outcome (Fin.snoc f x : Fin (n + 1) → Fin m)) ↔
      c ≠ pos x ∧ c ∈ patternAfter S N (variantText b sv) s0 n (outcome f) ∨
        c = pos x ∧ c ∈ generation N (digitValues b) (digitValues sv) (patternAfter S N (variantText b sv) s0 n (outcome f)) := by
    intro c
    rw [← e1, patternAfter_eq hS b sv s0 h0 m hm pos hp (n + 1) (n + 1) (Fin.snoc f x), patternAfter_eq hS b sv s0 h0 m hm pos hp n (n + 1) (Fin.snoc f x)]
    have hl : pos (outcome (Fin.snoc f x : Fin (n + 1) → Fin m) n) = pos x := by rw [outcome_snoc_last]
    rw [← hl]
    exact Iff.rfl
  have e3 : patternAfter S N (variantText b sv) s0 (n + 1) (outcome (Fin.snoc f x : Fin (n + 1) → Fin m)) ≠
      patternAfter S N (variantText b sv) s0 n (outcome (Fin.snoc f x : Fin (n + 1) → Fin m)) ↔
      ¬ (pos x ∈ generation N (digitValues b) (digitValues sv) (patternAfter S N (variantText b sv) s0 n (outcome f)) ↔
        pos x ∈ patternAfter S N (variantText b sv) s0 n (outcome f)) := by
    rw [e1]
    refine not_congr ⟨fun h => ?_, fun h => ?_⟩
    · have := e2 (pos x)
      rw [h] at this
      rw [this]
      simp
    · ext c
      rw [e2 c]
      by_cases hc : c = pos x
      · subst hc; simp [h]
      · simp [hc]
  by_cases g : patternAfter S N (variantText b sv) s0 (n + 1) (outcome (Fin.snoc f x : Fin (n + 1) → Fin m)) ≠
      patternAfter S N (variantText b sv) s0 n (outcome (Fin.snoc f x : Fin (n + 1) → Fin m))
  · rw [if_pos g, if_pos (e3.1 g)]
  · rw [if_neg g, if_neg fun h => g (e3.2 h)]

/-- C170: the bounds cannot be improved: under "B/S", where every visited cell dies, the average number of live cells is the number at the start times
`(1 - 1 / m) ^ n`. -/
theorem C170_fade (n : ℕ) :
    mean m n (fun f => (Spec.cellCount N (· ∈ patternAfter S N (variantText [] []) s0 n (outcome f)) : ℝ)) =
      (Spec.cellCount N fun c => CellIs S s0 c "alive") * (1 - 1 / (m : ℝ)) ^ n := by
  have hpos : 0 < m := hm ▸ List.length_pos_of_ne_nil hS.isTorus.ids_ne
  have hmR : (m : ℝ) ≠ 0 := by positivity
  induction n with
  | zero => rw [mean_zero_visits hS [] [] s0 h0 m hm, pow_zero, mul_one]
  | succ n ih =>
    have e : ∀ P : Set (Fin 2 → ℤ), Spec.cellCount N (· ∈ generation N (digitValues []) (digitValues []) P) = 0 := by
      intro P
      unfold Spec.cellCount
      rw [Set.ncard_eq_zero (Set.Finite.subset (boxCells N).finite_toSet fun c hc => mem_boxCells.2 hc.1)]
      ext c
      simp [generation, digitValues]
    rw [C170_drift hS [] [] s0 h0 m hm n, ih]
    simp only [e]
    rw [Nat.cast_zero, mean_const hpos, pow_succ]
    field_simp
    ring

end

/-- A 5 by 4 grid with three live cells in a row meets the hypotheses, with `m = 20`. -/
example : ∃ (S : Structure ℚ 2) (s0 : SimState), SquareGrid 2 ![5, 4] S ∧ IsLifeState S s0 ∧ ShowsLife S s0 blinker ∧ S.siteIds.length = 20 := by
  obtain ⟨-, S, hS, -⟩ := C52_square2 (K := ℚ) 1 (by norm_num) 4 5 (by norm_num) (by norm_num)
  have hg : SquareGrid 2 ![5, 4] S := .two _ S 5 4 (by norm_num) (by norm_num) (.inl rfl) hS
  obtain ⟨s0, h1, h2, h3, h4⟩ := life_state_exists hg.isTorus blinker
  refine ⟨S, s0, hg, ⟨h1, h2, h3, fun i c hc => ?_⟩, h4, ?_⟩
  · by_cases h : c ∈ blinker
    · exact .inl ((cellIs_iff h4 hc).1.2 h)
    · exact .inr ((cellIs_iff h4 hc).2.2 h)
  · rw [hg.isTorus.count]
    simp [Fin.prod_univ_two]

end Pyl
