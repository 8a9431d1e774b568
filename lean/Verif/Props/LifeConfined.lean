import Verif.Spec.LifeConfined
import Verif.Props.LifeEden
import Mathlib.Combinatorics.Enumerative.DoubleCounting
/-
C155: Life-like rules: patterns that stay in a rectangle, and how fast a population can grow.
-/
set_option autoImplicit false
set_option linter.unusedSectionVars false

namespace Pyl
open Pyl.Lattice Structure SimState Spec
variable {K : Type} [Field K] [LinearOrder K] [IsStrictOrderedRing K] [FloorRing K]

/-! ### rectangles -/

theorem liveAround_outside {N a w : Fin 2 → ℤ} (hN : ∀ j, 0 < N j) (hw : LeavesRoom N w) {L : Set (Fin 2 → ℤ)} (hL : ∀ x, InBox N x → x ∈ L → InRect N a w x)
    {c : Fin 2 → ℤ} (hc : ¬ InRect N a w c) : liveAround N L c ≤ 3 := by
  classical
  unfold InRect at hc
  push Not at hc
  obtain ⟨j, hj⟩ := hc
  have hu := Int.emod_lt_of_pos (c j - a j) (hN j)
  have hroom : w j + 2 ≤ N j := by rcases hw j with h | h <;> omega
  -- along axis `j` all live neighbours have the same coordinate
  have hfix : ∃ y : ℤ, ∀ x, InBox N x → ChebyshevLE N c x 1 → x ∈ L → x j = y := by
    have key : ∀ x, InBox N x → ChebyshevLE N c x 1 → x ∈ L → (x j - a j) % N j = (if (c j - a j) % N j = w j then w j - 1 else 0) := by
      intro x hx h1 h2
      have h3 := hL x hx h2 j
      have h4 := Int.emod_nonneg (x j - a j) (hN j).ne'
      obtain ⟨q, hq⟩ := (circ_le_iff (hN j) _ _).1 (h1 j)
      have hq := abs_le.1 hq
      have e1 := Int.emod_add_mul_ediv (c j - a j) (N j)
      have e2 := Int.emod_add_mul_ediv (x j - a j) (N j)
      set u := (c j - a j) % N j
      set v := (x j - a j) % N j
      obtain ⟨r, hr⟩ : ∃ r : ℤ, c j - x j + q * N j = u - v + r * N j := ⟨(c j - a j) / N j - (x j - a j) / N j + q, by linear_combination - e1 + e2⟩
      rw [hr] at hq
      have hr0 : r = 0 ∨ r = -1 := by
        have h5 : r < 1 := by
          by_contra h
          have : N j ≤ r * N j := le_mul_of_one_le_left (hN j).le (by omega)
          omega
        have h6 : -2 < r := by
          by_contra h
          have : r * N j ≤ -2 * N j := mul_le_mul_of_nonneg_right (by omega) (hN j).le
          omega
        omega
      rcases hr0 with rfl | rfl
      · rw [zero_mul] at hq
        rw [if_pos (by omega)]; omega
      · rw [neg_one_mul] at hq
        rw [if_neg (by omega)]; omega
    refine ⟨((if (c j - a j) % N j = w j then w j - 1 else 0) + a j) % N j, fun x hx h1 h2 => ?_⟩
    rw [← key x hx h1 h2, Int.emod_add_emod, sub_add_cancel, Int.emod_eq_of_lt (hx j).1 (hx j).2]
  obtain ⟨y, hy⟩ := hfix
  -- and along the other axis there are three possibilities
  obtain ⟨k, hk⟩ : ∃ k : Fin 2, ∀ i, i = j ∨ i = k := by
    fin_cases j
    · exact ⟨1, by decide⟩
    · exact ⟨0, by decide⟩
  let f : ℤ → ℤ := fun v => (c k + v) % N k
  have hsub : (fun x : Fin 2 → ℤ => x k) '' {x | InBox N x ∧ x ≠ c ∧ ChebyshevLE N c x 1 ∧ x ∈ L} ⊆ ((({-1, 0, 1} : Finset ℤ).image f : Finset ℤ) : Set ℤ) := by
    rintro _ ⟨x, ⟨h1, -, h3, -⟩, rfl⟩
    obtain ⟨q, hq⟩ := (circ_le_iff (hN k) _ _).1 (h3 k)
    rw [Finset.coe_image]
    refine ⟨-(c k - x k + q * N k), ?_, ?_⟩
    · have := abs_le.1 hq
      simp only [Finset.coe_insert, Finset.coe_singleton, Set.mem_insert_iff, Set.mem_singleton_iff]
      omega
    · show (c k + -(c k - x k + q * N k)) % N k = x k
      rw [show c k + -(c k - x k + q * N k) = x k + (-q) * N k by ring, Int.add_mul_emod_self_right]
      exact Int.emod_eq_of_lt (h1 k).1 (h1 k).2
  have hinj : Set.InjOn (fun x : Fin 2 → ℤ => x k) {x | InBox N x ∧ x ≠ c ∧ ChebyshevLE N c x 1 ∧ x ∈ L} := by
    rintro x ⟨h1, -, h3, h4⟩ x' ⟨h1', -, h3', h4'⟩ e
    funext i
    rcases hk i with rfl | rfl
    · rw [hy x h1 h3 h4, hy x' h1' h3' h4']
    · exact e
  calc liveAround N L c = Set.ncard ((fun x : Fin 2 → ℤ => x k) '' {x | InBox N x ∧ x ≠ c ∧ ChebyshevLE N c x 1 ∧ x ∈ L}) := hinj.ncard_image.symm
    _ ≤ ((({-1, 0, 1} : Finset ℤ).image f : Finset ℤ) : Set ℤ).ncard := Set.ncard_le_ncard hsub (Finset.finite_toSet _)
    _ = (({-1, 0, 1} : Finset ℤ).image f).card := Set.ncard_coe_finset _
    _ ≤ 3 := Finset.card_image_le

theorem generation_confined {N a w : Fin 2 → ℤ} (hN : ∀ j, 0 < N j) (hw : LeavesRoom N w) {b sv : List ℤ} (hb : ∀ k : ℤ, k ∈ b → 3 < k) {L : Set (Fin 2 → ℤ)}
    (hL : ∀ x, InBox N x → x ∈ L → InRect N a w x) : ∀ x, InBox N x → x ∈ generation N b sv L → InRect N a w x := by
  rintro x hx (⟨h1, -⟩ | ⟨-, h1⟩)
  · exact hL x hx h1
  · by_contra hc
    have := liveAround_outside hN hw hL hc
    have := hb _ h1
    omega

/-- C155: with birth digits above 3 only, serial and parallel runs never leave a rectangle that has at least two free cells along each axis (or covers it). -/
theorem C155_confined {S : Structure K 2} {N : Fin 2 → ℤ} (hS : SquareGrid 2 N S) (b sv : List (Fin 10)) (hb : ∀ k ∈ b, (3 : Fin 10) < k) (a w : Fin 2 → ℤ)
    (hw : LeavesRoom N w) (s0 : SimState) (h0 : IsLifeState S s0) (hin : LiveInRect S N a w s0) (n : ℕ) (res : SimResult)
    (hres : LifeRun S (variantText b sv) s0 n res) (k : ℕ) (hk : k ≤ n) : ∃ s, res.getStep k = .ok s ∧ LiveInRect S N a w s := by
  have ht := hS.isTorus
  obtain ⟨s, hs, hl⟩ := lifeRun_steps hS h0 hres k hk
  refine ⟨s, hs, fun c hc => ?_⟩
  obtain ⟨i, -, hi⟩ := ht.ex c hc
  rw [(cellIs_iff hl hi).1]
  have hb' : ∀ k : ℤ, k ∈ digitValues b → 3 < k := by
    intro k hk
    obtain ⟨x, hx, rfl⟩ := List.mem_map.1 hk
    have : (3 : ℕ) < (x : ℕ) := hb x hx
    exact_mod_cast this
  have : ∀ k x, InBox N x → x ∈ (generation N (digitValues b) (digitValues sv))^[k] (liveCells S s0) → InRect N a w x := by
    intro k
    induction k with
    | zero => exact hin
    | succ k ih => rw [Function.iterate_succ_apply']; exact generation_confined ht.pos hw hb' ih
  exact this k c hc

/-- C155: the same for asynchronous runs. -/
theorem C155_confined_async {S : Structure K 2} {N : Fin 2 → ℤ} (hS : SquareGrid 2 N S) (b sv : List (Fin 10)) (hb : ∀ k ∈ b, (3 : Fin 10) < k)
    (a w : Fin 2 → ℤ) (hw : LeavesRoom N w) (s0 : SimState) (h0 : IsLifeState S s0) (hin : LiveInRect S N a w s0) (n : ℕ) (draw : ℕ → ℕ)
    (r : AsyncSt (Life.Ctl K × ℕ)) (hr : AsyncLifeRun S (variantText b sv) s0 n draw r) (k : ℕ) (hk : k ≤ n) :
    ∃ s, r.res.getStep k = .ok s ∧ LiveInRect S N a w s := by
  have ht := hS.isTorus
  obtain ⟨P, hP0, hP, hs⟩ := asyncLifeRun_steps hS h0 hr
  obtain ⟨s, h1, -, hl⟩ := hs k hk
  refine ⟨s, h1, fun c hc => ?_⟩
  obtain ⟨i, -, hi⟩ := ht.ex c hc
  rw [(cellIs_iff hl hi).1]
  have hb' : ∀ k : ℤ, k ∈ digitValues b → 3 < k := by
    intro k hk
    obtain ⟨x, hx, rfl⟩ := List.mem_map.1 hk
    have : (3 : ℕ) < (x : ℕ) := hb x hx
    exact_mod_cast this
  have : ∀ k x, InBox N x → x ∈ P k → InRect N a w x := by
    intro k
    induction k with
    | zero => rw [hP0]; exact hin
    | succ k ih =>
      intro x hx h
      obtain ⟨y, -, -, e⟩ := hP k
      rw [e] at h
      rcases h with ⟨-, h⟩ | ⟨-, h⟩
      · exact ih x hx h
      · exact generation_confined ht.pos hw hb' ih x hx h
  exact this k c hc

/-- C155: the variant `Anneal` of the code is one of these. -/
theorem C155_anneal {S : Structure K 2} {N : Fin 2 → ℤ} (hS : SquareGrid 2 N S) (a w : Fin 2 → ℤ) (hw : LeavesRoom N w) (s0 : SimState)
    (h0 : IsLifeState S s0) (hin : LiveInRect S N a w s0) (n : ℕ) (res : SimResult) (hres : LifeRun S Life.anneal s0 n res) (k : ℕ) (hk : k ≤ n) :
    ∃ s, res.getStep k = .ok s ∧ LiveInRect S N a w s := by
  have e : Life.anneal = variantText [4, 6, 7, 8] [3, 5, 6, 7, 8] := by decide +kernel
  rw [e] at hres
  exact C155_confined hS _ _ (by decide) a w hw s0 h0 hin n res hres k hk

/-- C155: for other digits it fails, on every torus that is at least 5 wide: if some birth digit is at most 3, a pattern in a square of 3 by 3 cells leaves it in
the first step. -/
theorem C155_exact {S : Structure K 2} {N : Fin 2 → ℤ} (hS : SquareGrid 2 N S) (hN : ∀ j, 5 ≤ N j) (b sv : List (Fin 10)) (q : Fin 10) (hq : q ∈ b)
    (hq3 : q ≤ 3) : ∃ s0 res s, IsLifeState S s0 ∧ LiveInRect S N (fun _ => 0) (fun _ => 3) s0 ∧ LifeRun S (variantText b sv) s0 1 res ∧
      res.getStep 1 = .ok s ∧ ¬ LiveInRect S N (fun _ => 0) (fun _ => 3) s := by
  classical
  have ht := hS.isTorus
  let L : Set (Fin 2 → ℤ) := {x | x 0 = 2 ∧ 0 ≤ x 1 ∧ x 1 < (q : ℕ)}
  have hq3' : (q : ℕ) ≤ 3 := hq3
  obtain ⟨s0, h0, hl⟩ := lifeState_of_pattern hS L
  obtain ⟨res, hres⟩ := lifeRun_exists hS b sv h0 1
  obtain ⟨s, hs, hsl⟩ := lifeRun_steps hS h0 hres 1 le_rfl
  have n0 := hN 0
  have n1 := hN 1
  refine ⟨s0, res, s, h0, fun c hc h => ?_, hres, hs, fun h => ?_⟩
  · obtain ⟨i, -, hi⟩ := ht.ex c hc
    obtain ⟨e0, e1, e2⟩ := (cellIs_iff hl hi).1.1 h
    intro j
    show (c j - 0) % N j < 3
    rw [sub_zero, Int.emod_eq_of_lt (hc j).1 (hc j).2]
    have : (((q : Fin 10) : ℕ) : ℤ) ≤ 3 := by exact_mod_cast hq3'
    fin_cases j
    · show c 0 < 3; omega
    · show c 1 < 3; omega
  · have hc : InBox N ![3, 1] := by
      intro j
      fin_cases j
      · show (0 : ℤ) ≤ 3 ∧ (3 : ℤ) < N 0; omega
      · show (0 : ℤ) ≤ 1 ∧ (1 : ℤ) < N 1; omega
    obtain ⟨i, -, hi⟩ := ht.ex _ hc
    have hcount : liveAround N L ![3, 1] = (q : ℕ) := by
      rw [C60_eight (fun j => by have := hN j; omega) L _ hc]
      have hm : ∀ x y : ℤ, 0 ≤ x → x < 5 → 0 ≤ y → y < 5 → ((fun j => (![x, y] j) % N j) ∈ L ↔ x = 2 ∧ y < (q : ℕ)) := by
        intro x y h1 h2 h3 h4
        show (x % N 0 = 2 ∧ 0 ≤ y % N 1 ∧ y % N 1 < (q : ℕ)) ↔ _
        rw [Int.emod_eq_of_lt h1 (by omega), Int.emod_eq_of_lt h3 (by omega)]
        simp [h3]
      have hm' : ∀ v : Fin 2 → ℤ, -1 ≤ v 0 → v 0 ≤ 1 → -1 ≤ v 1 → v 1 ≤ 1 →
          ((fun j => ((![3, 1] : Fin 2 → ℤ) j + v j) % N j) ∈ L ↔ v 0 = -1 ∧ 1 + v 1 < (q : ℕ)) := by
        intro v h1 h2 h3 h4
        have e : (fun j => ((![3, 1] : Fin 2 → ℤ) j + v j) % N j) = fun j => (![3 + v 0, 1 + v 1] j) % N j := by
          funext j; fin_cases j <;> rfl
        rw [e, hm _ _ (by omega) (by omega) (by omega) (by omega)]
        constructor
        · rintro ⟨h5, h6⟩; exact ⟨by omega, h6⟩
        · rintro ⟨h5, h6⟩; exact ⟨by omega, h6⟩
      unfold liveOfEight
      have hE : ∀ v ∈ ([![-1, -1], ![-1, 0], ![-1, 1], ![0, -1], ![0, 1], ![1, -1], ![1, 0], ![1, 1]] : List (Fin 2 → ℤ)),
          -1 ≤ v 0 ∧ v 0 ≤ 1 ∧ -1 ≤ v 1 ∧ v 1 ≤ 1 := by decide
      rw [List.countP_congr (q := fun v : Fin 2 → ℤ => decide (v 0 = -1 ∧ 1 + v 1 < ((q : ℕ) : ℤ))) fun v hv => by
        obtain ⟨h1, h2, h3, h4⟩ := hE v hv
        rw [decide_eq_true_eq, decide_eq_true_eq]
        exact hm' v h1 h2 h3 h4]
      clear hm hm' hl
      revert hq3'
      generalize (q : ℕ) = m
      intro hm
      have : m = 0 ∨ m = 1 ∨ m = 2 ∨ m = 3 := by omega
      rcases this with rfl | rfl | rfl | rfl <;> decide
    have hbirth : ![3, 1] ∈ generation N (digitValues b) (digitValues sv) L := by
      refine .inr ⟨fun h => ?_, ?_⟩
      · have : (3 : ℤ) = 2 := h.1
        omega
      · rw [hcount]
        exact List.mem_map.2 ⟨q, hq, rfl⟩
    have hag : ![3, 1] ∈ generation N (digitValues b) (digitValues sv) (liveCells S s0) :=
      (generation_agree _ _ (onTorus_eq.1 (onTorus_live hS hl)) _ hc).2 hbirth
    have := h ![3, 1] hc ((cellIs_iff hsl hi).1.2 hag) 0
    have : ((3 : ℤ) - 0) % N 0 < 3 := this
    rw [sub_zero, Int.emod_eq_of_lt (by omega) (by omega)] at this
    omega

/-! ### populations -/

theorem circ_neg' {n : ℤ} (hn : 0 < n) (a : ℤ) : circ n (-a) ≤ 1 ↔ circ n a ≤ 1 := by
  rw [circ_le_iff hn, circ_le_iff hn]
  constructor
  · rintro ⟨k, hk⟩; exact ⟨-k, by rw [show a + -k * n = -(-a + k * n) by ring, abs_neg]; exact hk⟩
  · rintro ⟨k, hk⟩; exact ⟨-k, by rw [show -a + -k * n = -(a + k * n) by ring, abs_neg]; exact hk⟩

theorem sum_liveAround {N : Fin 2 → ℤ} (hN : ∀ j, 0 < N j) (L : Set (Fin 2 → ℤ)) [DecidablePred (· ∈ L)] :
    ∑ c ∈ boxCells N, liveAround N L c ≤ 8 * ((boxCells N).filter (· ∈ L)).card := by
  classical
  have e1 : ∀ c ∈ boxCells N, liveAround N L c = (Finset.bipartiteAbove (fun c x => x ≠ c ∧ ChebyshevLE N c x 1) ((boxCells N).filter (· ∈ L)) c).card := by
    intro c _
    unfold liveAround Finset.bipartiteAbove
    rw [← Set.ncard_coe_finset]
    congr 1
    ext x
    simp only [Finset.coe_filter, Finset.mem_filter, mem_boxCells]
    constructor
    · rintro ⟨h1, h2, h3, h4⟩; exact ⟨⟨h1, h4⟩, h2, h3⟩
    · rintro ⟨⟨h1, h4⟩, h2, h3⟩; exact ⟨h1, h2, h3, h4⟩
  rw [Finset.sum_congr rfl e1, Finset.sum_card_bipartiteAbove_eq_sum_card_bipartiteBelow, mul_comm, ← smul_eq_mul]
  refine Finset.sum_le_card_nsmul _ _ _ fun x hx => ?_
  have hx' : InBox N x := mem_boxCells.1 (Finset.mem_filter.1 hx).1
  refine le_trans (le_of_eq ?_) (liveAround_le hN Set.univ x hx')
  unfold liveAround Finset.bipartiteBelow
  rw [← Set.ncard_coe_finset]
  congr 1
  ext c
  simp only [Finset.coe_filter, mem_boxCells]
  constructor
  · rintro ⟨h1, h2, h3⟩
    exact ⟨h1, h2.symm, fun j => by rw [← neg_sub]; exact (circ_neg' (hN j) _).2 (h3 j), trivial⟩
  · rintro ⟨h1, h2, h3, -⟩
    exact ⟨h1, h2.symm, fun j => by rw [← neg_sub]; exact (circ_neg' (hN j) _).2 (h3 j)⟩

theorem generation_population {N : Fin 2 → ℤ} (hN : ∀ j, 0 < N j) {b sv : List ℤ} {β σ : ℕ} (hb : ∀ k ∈ b, (β : ℤ) ≤ k) (hs : ∀ k ∈ sv, (σ : ℤ) ≤ k)
    (L : Set (Fin 2 → ℤ)) : β * cellCount N (fun c => c ∉ L ∧ c ∈ generation N b sv L) + σ * cellCount N (fun c => c ∈ L ∧ c ∈ generation N b sv L) ≤
      8 * cellCount N (· ∈ L) := by
  classical
  have hcc : ∀ (p : (Fin 2 → ℤ) → Prop) [DecidablePred p], cellCount N p = ((boxCells N).filter p).card := by
    intro p _
    unfold cellCount
    rw [← Set.ncard_coe_finset]
    congr 1
    ext c
    simp [mem_boxCells]
  rw [hcc (fun c => c ∉ L ∧ c ∈ generation N b sv L), hcc (fun c => c ∈ L ∧ c ∈ generation N b sv L), hcc (· ∈ L)]
  refine le_trans ?_ (sum_liveAround hN L)
  rw [mul_comm β, mul_comm σ, ← smul_eq_mul, ← smul_eq_mul]
  have hdisj : Disjoint ((boxCells N).filter fun c => c ∉ L ∧ c ∈ generation N b sv L) ((boxCells N).filter fun c => c ∈ L ∧ c ∈ generation N b sv L) := by
    rw [Finset.disjoint_filter]
    exact fun c _ h1 h2 => h1.1 h2.1
  calc ((boxCells N).filter fun c => c ∉ L ∧ c ∈ generation N b sv L).card • β + ((boxCells N).filter fun c => c ∈ L ∧ c ∈ generation N b sv L).card • σ
      ≤ ∑ c ∈ (boxCells N).filter (fun c => c ∉ L ∧ c ∈ generation N b sv L), liveAround N L c +
        ∑ c ∈ (boxCells N).filter (fun c => c ∈ L ∧ c ∈ generation N b sv L), liveAround N L c := by
        refine add_le_add (Finset.card_nsmul_le_sum _ _ _ fun c hc => ?_) (Finset.card_nsmul_le_sum _ _ _ fun c hc => ?_)
        · obtain ⟨-, h1, h2 | h2⟩ := Finset.mem_filter.1 hc
          · exact absurd h2.1 h1
          · exact_mod_cast hb _ h2.2
        · obtain ⟨-, h1, h2 | h2⟩ := Finset.mem_filter.1 hc
          · exact_mod_cast hs _ h2.2
          · exact absurd h1 h2.1
    _ = ∑ c ∈ _, liveAround N L c := (Finset.sum_union hdisj).symm
    _ ≤ ∑ c ∈ boxCells N, liveAround N L c := Finset.sum_le_sum_of_subset (Finset.union_subset (Finset.filter_subset _ _) (Finset.filter_subset _ _))

/-- C155: how fast a population can change: if all birth digits are at least `β` and all survival digits at least `σ`, then `β` times the number of cells born
in a step plus `σ` times the number of cells that survive it is at most 8 times the number of cells that lived before. -/
theorem C155_population {S : Structure K 2} {N : Fin 2 → ℤ} (hS : SquareGrid 2 N S) (b sv : List (Fin 10)) (β σ : ℕ) (hb : ∀ k ∈ b, β ≤ (k : ℕ))
    (hsv : ∀ k ∈ sv, σ ≤ (k : ℕ)) (s0 : SimState) (h0 : IsLifeState S s0) (n : ℕ) (res : SimResult) (hres : LifeRun S (variantText b sv) s0 n res) (k : ℕ)
    (hk : k < n) : ∃ s s', res.getStep k = .ok s ∧ res.getStep (k + 1 : ℕ) = .ok s' ∧
      β * cellCount N (fun c => CellIs S s c "dead" ∧ CellIs S s' c "alive") + σ * cellCount N (fun c => CellIs S s c "alive" ∧ CellIs S s' c "alive") ≤
        8 * cellCount N (fun c => CellIs S s c "alive") := by
  have ht := hS.isTorus
  obtain ⟨s, hs, hl⟩ := lifeRun_steps hS h0 hres k hk.le
  obtain ⟨s', hs', hl'⟩ := lifeRun_steps hS h0 hres (k + 1) hk
  rw [Function.iterate_succ_apply'] at hl'
  refine ⟨s, s', hs, hs', ?_⟩
  have key := generation_population ht.pos (b := digitValues b) (sv := digitValues sv) (β := β) (σ := σ)
    (fun k hk => by obtain ⟨x, hx, rfl⟩ := List.mem_map.1 hk; exact_mod_cast hb x hx)
    (fun k hk => by obtain ⟨x, hx, rfl⟩ := List.mem_map.1 hk; exact_mod_cast hsv x hx) ((generation N (digitValues b) (digitValues sv))^[k] (liveCells S s0))
  have hcong : ∀ p q : (Fin 2 → ℤ) → Prop, (∀ c, InBox N c → (p c ↔ q c)) → cellCount N p = cellCount N q := by
    intro p q h
    unfold cellCount
    congr 1
    ext c
    exact and_congr_right fun hc => h c hc
  have e1 : cellCount N (fun c => CellIs S s c "dead" ∧ CellIs S s' c "alive") = cellCount N _ := hcong _ _ fun c hc => by
    obtain ⟨i, -, hi⟩ := ht.ex c hc
    rw [(cellIs_iff hl hi).2, (cellIs_iff hl' hi).1]
  have e2 : cellCount N (fun c => CellIs S s c "alive" ∧ CellIs S s' c "alive") = cellCount N _ := hcong _ _ fun c hc => by
    obtain ⟨i, -, hi⟩ := ht.ex c hc
    rw [(cellIs_iff hl hi).1, (cellIs_iff hl' hi).1]
  have e3 : cellCount N (fun c => CellIs S s c "alive") = cellCount N _ := hcong _ _ fun c hc => by
    obtain ⟨i, -, hi⟩ := ht.ex c hc
    rw [(cellIs_iff hl hi).1]
  rw [e1, e2, e3]
  exact key

/-- A 3 by 3 square leaves room on a torus of 5 by 5, and one can find a state and a run of `Anneal` in it. -/
example {S : Structure K 2} (hS : SquareGrid 2 (fun _ => 5) S) (n : ℕ) : LeavesRoom (fun _ => 5) (fun _ => 3) ∧
    ∃ s0 res, IsLifeState S s0 ∧ LiveInRect S (fun _ => 5) (fun _ => 0) (fun _ => 3) s0 ∧ CellIs S s0 ![1, 1] "alive" ∧ LifeRun S Life.anneal s0 n res := by
  refine ⟨fun j => .inl (by norm_num), ?_⟩
  obtain ⟨s0, h0, hl⟩ := lifeState_of_pattern hS ({![1, 1]} : Set (Fin 2 → ℤ))
  obtain ⟨res, hres⟩ := lifeRun_exists hS [4, 6, 7, 8] [3, 5, 6, 7, 8] h0 n
  have e : Life.anneal = variantText [4, 6, 7, 8] [3, 5, 6, 7, 8] := by decide +kernel
  refine ⟨s0, res, h0, fun c hc h => ?_, fun i hi => ?_, by rw [e]; exact hres⟩
  · obtain ⟨i, -, hi⟩ := hS.isTorus.ex c hc
    have := (cellIs_iff hl hi).1.1 h
    rw [Set.mem_singleton_iff] at this
    subst this
    intro j
    fin_cases j <;> decide
  · exact (cellIs_iff hl hi).1.2 rfl i hi

end Pyl
