import Verif.Props.LifeSym
import Verif.Props.LifeParallel
import Verif.Spec.LifeVariants
import Mathlib.Data.Fintype.BigOperators
import Mathlib.Order.Interval.Finset.Nat
/-
C150: Life-like rules: opposite rules, rules without births or deaths, rules without survival.
-/
set_option autoImplicit false
set_option linter.unusedSectionVars false

namespace Pyl
open Pyl.Lattice Structure SimState Spec
variable {K : Type} [Field K] [LinearOrder K] [IsStrictOrderedRing K] [FloorRing K]

/-! ### runs -/

theorem lifeRun_steps {S : Structure K 2} {N : Fin 2 → ℤ} (hS : SquareGrid 2 N S) {b sv : List (Fin 10)} {s0 : SimState} (h0 : IsLifeState S s0) {n : ℕ}
    {res : SimResult} (h : LifeRun S (variantText b sv) s0 n res) (k : ℕ) (hk : k ≤ n) :
    ∃ s, res.getStep k = .ok s ∧ ShowsLife S s ((generation N (digitValues b) (digitValues sv))^[k] (liveCells S s0)) := by
  obtain ⟨c, hc, ⟨c', hr⟩ | ⟨w, sched, hw, hv, hr⟩⟩ := h
  · obtain ⟨c1, c1', res', h1, h2, -, h3⟩ := C60_life hS b sv s0 h0.1 h0.2.1 h0.2.2.1 _ (showsLife_liveCells h0) n
    rw [hc] at h1; cases h1
    rw [hr] at h2; cases h2
    obtain ⟨s, hs, -, hl⟩ := h3 k hk
    exact ⟨s, hs, hl⟩
  · obtain ⟨c1, res', h1, h2, -, h3⟩ := C95_life hS b sv s0 h0.1 h0.2.1 h0.2.2.1 _ (showsLife_liveCells h0) w hw n sched hv
    rw [hc] at h1; cases h1
    rw [hr] at h2; cases h2
    obtain ⟨s, hs, -, hl⟩ := h3 k hk
    exact ⟨s, hs, hl⟩

/-! ### counting neighbours -/

theorem liveAround_le {N : Fin 2 → ℤ} (hN : ∀ j, 0 < N j) (L : Set (Fin 2 → ℤ)) (c : Fin 2 → ℤ) (hc : InBox N c) : liveAround N L c ≤ 8 := by
  classical
  let E : Finset (Fin 2 → ℤ) := {![-1, -1], ![-1, 0], ![-1, 1], ![0, -1], ![0, 1], ![1, -1], ![1, 0], ![1, 1]}
  let f : (Fin 2 → ℤ) → Fin 2 → ℤ := fun v j => (c j + v j) % N j
  have hsub : {x | InBox N x ∧ x ≠ c ∧ ChebyshevLE N c x 1 ∧ x ∈ L} ⊆ ((E.image f : Finset (Fin 2 → ℤ)) : Set (Fin 2 → ℤ)) := by
    rintro x ⟨h1, h2, h3, -⟩
    choose q hq using fun k => (circ_le_iff (hN k) _ _).1 (h3 k)
    have hfx : f (fun k => -(c k - x k + q k * N k)) = x := by
      funext k
      show (c k + -(c k - x k + q k * N k)) % N k = x k
      rw [show c k + -(c k - x k + q k * N k) = x k + (-q k) * N k by ring, Int.add_mul_emod_self_right]
      exact Int.emod_eq_of_lt (h1 k).1 (h1 k).2
    rw [Finset.coe_image]
    refine ⟨_, ?_, hfx⟩
    have hne : (fun k => -(c k - x k + q k * N k)) ≠ 0 := by
      intro e
      refine h2 ?_
      rw [← hfx, e]
      funext j
      show (c j + 0) % N j = c j
      rw [add_zero]; exact Int.emod_eq_of_lt (hc j).1 (hc j).2
    have hb : ∀ k, |(fun k => -(c k - x k + q k * N k)) k| ≤ 1 := fun k => by rw [abs_neg]; exact hq k
    generalize (fun k => -(c k - x k + q k * N k)) = v at hne hb
    have a0 := abs_le.1 (hb 0)
    have a1 := abs_le.1 (hb 1)
    have hv : v = ![v 0, v 1] := by funext j; fin_cases j <;> rfl
    have b0 : v 0 = -1 ∨ v 0 = 0 ∨ v 0 = 1 := by omega
    have b1 : v 1 = -1 ∨ v 1 = 0 ∨ v 1 = 1 := by omega
    rw [hv] at hne ⊢
    rcases b0 with e0 | e0 | e0 <;> rcases b1 with e1 | e1 | e1 <;> rw [e0, e1] at hne ⊢ <;>
      first | (exact absurd (by decide) hne) | simp [E]
  calc liveAround N L c ≤ ((E.image f : Finset (Fin 2 → ℤ)) : Set (Fin 2 → ℤ)).ncard := Set.ncard_le_ncard hsub (Finset.finite_toSet _)
    _ = (E.image f).card := Set.ncard_coe_finset _
    _ ≤ E.card := Finset.card_image_le
    _ ≤ 8 := (List.toFinset_card_le [![-1, -1], ![-1, 0], ![-1, 1], ![0, -1], ![0, 1], ![1, -1], ![1, 0], (![1, 1] : Fin 2 → ℤ)]).trans' (by
        refine Finset.card_le_card fun x hx => ?_
        simpa [E] using hx)

theorem liveAround_opposite {N : Fin 2 → ℤ} (hN : ∀ j, 3 ≤ N j) {L L' : Set (Fin 2 → ℤ)} (h : ∀ x, InBox N x → (x ∈ L' ↔ x ∉ L)) (c : Fin 2 → ℤ)
    (hc : InBox N c) : (liveAround N L' c : ℤ) = 8 - liveAround N L c := by
  classical
  rw [C60_eight hN L' c hc, C60_eight hN L c hc]
  unfold liveOfEight
  set E : List (Fin 2 → ℤ) := [![-1, -1], ![-1, 0], ![-1, 1], ![0, -1], ![0, 1], ![1, -1], ![1, 0], ![1, 1]] with hE
  have e : E.countP (fun v => decide ((fun j => (c j + v j) % N j) ∈ L')) = E.countP (fun v => !decide ((fun j => (c j + v j) % N j) ∈ L)) := by
    refine List.countP_congr fun v _ => ?_
    have hb : InBox N (fun j => (c j + v j) % N j) := fun j => by
      have := hN j
      exact ⟨Int.emod_nonneg _ (by omega), Int.emod_lt_of_pos _ (by omega)⟩
    simp [h _ hb]
  have hlen := List.length_eq_countP_add_countP (fun v => decide ((fun j => (c j + v j) % N j) ∈ L)) (l := E)
  have h8 : E.length = 8 := by rw [hE]; rfl
  have e2 : E.countP (fun v => !decide ((fun j => (c j + v j) % N j) ∈ L)) = E.countP (fun a => decide ¬ decide ((fun j => (c j + a j) % N j) ∈ L) = true) := by
    refine List.countP_congr fun v _ => ?_
    simp
  rw [e, e2]
  omega

/-! ### opposite rules -/

theorem generation_opposite {N : Fin 2 → ℤ} (hN : ∀ j, 3 ≤ N j) {b sv b' sv' : List ℤ} (hr : OppositeRules b sv b' sv') {L L' : Set (Fin 2 → ℤ)}
    (h : ∀ x, InBox N x → (x ∈ L' ↔ x ∉ L)) (c : Fin 2 → ℤ) (hc : InBox N c) : c ∈ generation N b' sv' L' ↔ c ∉ generation N b sv L := by
  have h8 := liveAround_le (fun j => by have := hN j; omega) L c hc
  have e := liveAround_opposite hN h c hc
  obtain ⟨hb, hs⟩ := hr (8 - liveAround N L c) (by omega) (by omega)
  rw [sub_sub_cancel] at hb hs
  unfold generation
  show (_ ∧ _ ∨ _ ∧ _) ↔ ¬ (_ ∧ _ ∨ _ ∧ _)
  rw [e, h c hc, hb, hs]
  by_cases h1 : c ∈ L <;> by_cases h2 : (liveAround N L c : ℤ) ∈ sv <;> by_cases h3 : (liveAround N L c : ℤ) ∈ b <;> simp [h1, h2, h3]

theorem iterate_opposite {N : Fin 2 → ℤ} (hN : ∀ j, 3 ≤ N j) {b sv b' sv' : List ℤ} (hr : OppositeRules b sv b' sv') {L L' : Set (Fin 2 → ℤ)}
    (h : ∀ x, InBox N x → (x ∈ L' ↔ x ∉ L)) (k : ℕ) : ∀ c, InBox N c → (c ∈ (generation N b' sv')^[k] L' ↔ c ∉ (generation N b sv)^[k] L) := by
  induction k with
  | zero => exact h
  | succ k ih =>
    intro c hc
    rw [Function.iterate_succ_apply', Function.iterate_succ_apply']
    exact generation_opposite hN hr ih c hc

/-- C150: on tori at least 3 wide, runs of opposite rules from opposite states are opposite at every step. -/
theorem C150_opposite {S : Structure K 2} {N : Fin 2 → ℤ} (hS : SquareGrid 2 N S) (hN : ∀ j, 3 ≤ N j) (b sv b' sv' : List (Fin 10))
    (hr : OppositeRules (digitValues b) (digitValues sv) (digitValues b') (digitValues sv')) (s0 s0' : SimState) (h0 : IsLifeState S s0)
    (h0' : IsLifeState S s0') (hopp : OppositeStates S N s0 s0') (n : ℕ) (res res' : SimResult) (hres : LifeRun S (variantText b sv) s0 n res)
    (hres' : LifeRun S (variantText b' sv') s0' n res') (k : ℕ) (hk : k ≤ n) :
    ∃ s s', res.getStep k = .ok s ∧ res'.getStep k = .ok s' ∧ OppositeStates S N s s' := by
  have ht := hS.isTorus
  obtain ⟨s, hs, hl⟩ := lifeRun_steps hS h0 hres k hk
  obtain ⟨s', hs', hl'⟩ := lifeRun_steps hS h0' hres' k hk
  have hstart : ∀ x, InBox N x → (x ∈ liveCells S s0' ↔ x ∉ liveCells S s0) := by
    intro x hx
    obtain ⟨i, -, hi⟩ := ht.ex x hx
    have h1 := cellIs_iff (showsLife_liveCells h0) hi
    exact ((hopp x hx).2).symm.trans h1.2
  refine ⟨s, s', hs, hs', fun c hc => ?_⟩
  obtain ⟨i, -, hi⟩ := ht.ex c hc
  have := iterate_opposite hN hr hstart k c hc
  rw [(cellIs_iff hl hi).1, (cellIs_iff hl hi).2, (cellIs_iff hl' hi).1, (cellIs_iff hl' hi).2, this]
  exact ⟨not_not.symm, Iff.rfl⟩

/-- C150: the variant `Anneal` of the code is its own opposite. -/
theorem C150_anneal {S : Structure K 2} {N : Fin 2 → ℤ} (hS : SquareGrid 2 N S) (hN : ∀ j, 3 ≤ N j) (s0 s0' : SimState) (h0 : IsLifeState S s0)
    (h0' : IsLifeState S s0') (hopp : OppositeStates S N s0 s0') (n : ℕ) (res res' : SimResult) (hres : LifeRun S Life.anneal s0 n res)
    (hres' : LifeRun S Life.anneal s0' n res') (k : ℕ) (hk : k ≤ n) :
    ∃ s s', res.getStep k = .ok s ∧ res'.getStep k = .ok s' ∧ OppositeStates S N s s' := by
  have e : Life.anneal = variantText [4, 6, 7, 8] [3, 5, 6, 7, 8] := by decide +kernel
  rw [e] at hres hres'
  refine C150_opposite hS hN _ _ _ _ ?_ s0 s0' h0 h0' hopp n res res' hres hres' k hk
  intro k h1 h2
  have : ∀ m : Fin 9, (((m : ℕ) : ℤ) ∈ digitValues [4, 6, 7, 8] ↔ 8 - ((m : ℕ) : ℤ) ∉ digitValues [3, 5, 6, 7, 8]) ∧
      (((m : ℕ) : ℤ) ∈ digitValues [3, 5, 6, 7, 8] ↔ 8 - ((m : ℕ) : ℤ) ∉ digitValues [4, 6, 7, 8]) := by decide +kernel
  have h3 := this ⟨k.toNat, by omega⟩
  rwa [show (((⟨k.toNat, by omega⟩ : Fin 9) : ℕ) : ℤ) = k from Int.toNat_of_nonneg h1] at h3

/-! ### rules without deaths, rules without births -/

theorem settles {α : Type} [DecidableEq α] (B : Finset α) (A : ℕ → Finset α) (hB : ∀ k, A k ⊆ B) (hmono : ∀ k, A k ⊆ A (k + 1))
    (hdet : ∀ k, A k = A (k + 1) → A (k + 1) = A (k + 2)) (k : ℕ) (hk : B.card ≤ k) : A k = A B.card := by
  have hst : ∀ j, A j = A (j + 1) → ∀ i, A (j + i) = A j := by
    intro j h i
    have : ∀ i, A (j + i) = A j ∧ A (j + i) = A (j + i + 1) := by
      intro i
      induction i with
      | zero => exact ⟨rfl, h⟩
      | succ i ih => exact ⟨ih.2.symm.trans ih.1, hdet _ ih.2⟩
    exact (this i).1
  obtain ⟨j, hj, hjj⟩ : ∃ j ≤ B.card, A j = A (j + 1) := by
    by_contra hne
    push Not at hne
    have : ∀ i, i ≤ B.card + 1 → i ≤ (A i).card := by
      intro i
      induction i with
      | zero => simp
      | succ i ih =>
        intro hi
        have h1 := ih (by omega)
        have h2 := Finset.card_lt_card ((hmono i).ssubset_of_ne (hne i (by omega)))
        omega
    have h1 := this (B.card + 1) le_rfl
    have h2 := Finset.card_le_card (hB (B.card + 1))
    omega
  have h1 := hst j hjj (k - j)
  have h2 := hst j hjj (B.card - j)
  rw [show j + (k - j) = k by omega] at h1
  rw [show j + (B.card - j) = B.card by omega] at h2
  rw [h1, h2]

/-- The cells of the torus. -/
noncomputable def boxCells (N : Fin 2 → ℤ) : Finset (Fin 2 → ℤ) := Fintype.piFinset fun j => Finset.Ico 0 (N j)

theorem mem_boxCells {N c : Fin 2 → ℤ} : c ∈ boxCells N ↔ InBox N c := by
  unfold boxCells InBox
  simp [Fintype.mem_piFinset]

theorem card_boxCells {N : Fin 2 → ℤ} (hN : ∀ j, 0 < N j) : (boxCells N).card = (N 0 * N 1).toNat := by
  unfold boxCells
  rw [Fintype.card_piFinset, Fin.prod_univ_two, Int.card_Ico, Int.card_Ico, sub_zero, sub_zero, Int.toNat_mul (hN 0).le (hN 1).le]

/-- Patterns that agree on the torus have the same next generation there. -/
theorem generation_agree {N : Fin 2 → ℤ} (b sv : List ℤ) {L L' : Set (Fin 2 → ℤ)} (h : ∀ x, InBox N x → (x ∈ L ↔ x ∈ L')) (c : Fin 2 → ℤ) (hc : InBox N c) :
    c ∈ generation N b sv L ↔ c ∈ generation N b sv L' := by
  have e : liveAround N L c = liveAround N L' c := by
    unfold liveAround
    congr 1
    ext x
    constructor
    · rintro ⟨h1, h2, h3, h4⟩; exact ⟨h1, h2, h3, (h x h1).1 h4⟩
    · rintro ⟨h1, h2, h3, h4⟩; exact ⟨h1, h2, h3, (h x h1).2 h4⟩
  unfold generation
  show (_ ∧ _ ∨ _ ∧ _) ↔ (_ ∧ _ ∨ _ ∧ _)
  rw [e, h c hc]

/-- A rule that only adds, or only removes, live cells comes to rest within as many steps as there are cells. -/
theorem iterate_settles {N : Fin 2 → ℤ} (hN : ∀ j, 0 < N j) (b sv : List ℤ) (L : Set (Fin 2 → ℤ))
    (hmono : (∀ k c, InBox N c → c ∈ (generation N b sv)^[k] L → c ∈ (generation N b sv)^[k + 1] L) ∨
      ∀ k c, InBox N c → c ∉ (generation N b sv)^[k] L → c ∉ (generation N b sv)^[k + 1] L)
    (k : ℕ) (hk : (N 0 * N 1).toNat ≤ k) (c : Fin 2 → ℤ) (hc : InBox N c) :
    c ∈ (generation N b sv)^[k] L ↔ c ∈ (generation N b sv)^[(N 0 * N 1).toNat] L := by
  classical
  rw [← card_boxCells hN] at hk ⊢
  have hdet : ∀ k, (∀ x, InBox N x → (x ∈ (generation N b sv)^[k] L ↔ x ∈ (generation N b sv)^[k + 1] L)) →
      ∀ x, InBox N x → (x ∈ (generation N b sv)^[k + 1] L ↔ x ∈ (generation N b sv)^[k + 2] L) := by
    intro k h x hx
    have h1 : (generation N b sv)^[k + 1] L = generation N b sv ((generation N b sv)^[k] L) := Function.iterate_succ_apply' _ _ _
    have h2 : (generation N b sv)^[k + 2] L = generation N b sv ((generation N b sv)^[k + 1] L) := Function.iterate_succ_apply' _ _ _
    rw [h2]
    nth_rw 1 [h1]
    exact generation_agree b sv h x hx
  rcases hmono with hm | hm
  · have := settles (boxCells N) (fun k => (boxCells N).filter fun x => x ∈ (generation N b sv)^[k] L) (fun k => Finset.filter_subset _ _)
      (fun k x hx => by
        rw [Finset.mem_filter] at hx ⊢
        exact ⟨hx.1, hm k x (mem_boxCells.1 hx.1) hx.2⟩)
      (fun k e => by
        have := hdet k fun x hx => by
          have := Finset.ext_iff.1 e x
          simpa only [Finset.mem_filter, mem_boxCells, hx, true_and] using this
        ext x
        simp only [Finset.mem_filter, mem_boxCells]
        exact and_congr_right fun hx => this x hx) k hk
    have := Finset.ext_iff.1 this c
    simpa only [Finset.mem_filter, mem_boxCells, hc, true_and] using this
  · have := settles (boxCells N) (fun k => (boxCells N).filter fun x => x ∉ (generation N b sv)^[k] L) (fun k => Finset.filter_subset _ _)
      (fun k x hx => by
        rw [Finset.mem_filter] at hx ⊢
        exact ⟨hx.1, hm k x (mem_boxCells.1 hx.1) hx.2⟩)
      (fun k e => by
        have := hdet k fun x hx => by
          have := Finset.ext_iff.1 e x
          simpa only [Finset.mem_filter, mem_boxCells, hx, true_and, not_iff_not] using this
        ext x
        simp only [Finset.mem_filter, mem_boxCells]
        exact and_congr_right fun hx => not_congr (this x hx)) k hk
    have := Finset.ext_iff.1 this c
    simpa only [Finset.mem_filter, mem_boxCells, hc, true_and, not_iff_not] using this

theorem generation_grows {N : Fin 2 → ℤ} (hN : ∀ j, 0 < N j) {b sv : List ℤ} (hsv : ∀ k : ℤ, 0 ≤ k → k ≤ 8 → k ∈ sv) {L : Set (Fin 2 → ℤ)} {c : Fin 2 → ℤ}
    (hc : InBox N c) (h : c ∈ L) : c ∈ generation N b sv L :=
  .inl ⟨h, hsv _ (by omega) (by have := liveAround_le hN L c hc; omega)⟩

theorem generation_shrinks {N : Fin 2 → ℤ} (hN : ∀ j, 0 < N j) {b sv : List ℤ} (hb : ∀ k : ℤ, 0 ≤ k → k ≤ 8 → k ∉ b) {L : Set (Fin 2 → ℤ)} {c : Fin 2 → ℤ}
    (hc : InBox N c) (h : c ∉ L) : c ∉ generation N b sv L := by
  rintro (⟨h1, -⟩ | ⟨-, h1⟩)
  · exact h h1
  · exact hb _ (by omega) (by have := liveAround_le hN L c hc; omega) h1

/-- C150: if the survival digits contain 0 to 8, a live cell stays alive. -/
theorem C150_no_deaths {S : Structure K 2} {N : Fin 2 → ℤ} (hS : SquareGrid 2 N S) (b sv : List (Fin 10))
    (hsv : ∀ k : ℤ, 0 ≤ k → k ≤ 8 → k ∈ digitValues sv) (s0 : SimState) (h0 : IsLifeState S s0) (n : ℕ) (res : SimResult)
    (hres : LifeRun S (variantText b sv) s0 n res) (k : ℕ) (hk : k < n) :
    ∃ s s', res.getStep k = .ok s ∧ res.getStep (k + 1 : ℕ) = .ok s' ∧ ∀ c, InBox N c → CellIs S s c "alive" → CellIs S s' c "alive" := by
  have ht := hS.isTorus
  obtain ⟨s, hs, hl⟩ := lifeRun_steps hS h0 hres k hk.le
  obtain ⟨s', hs', hl'⟩ := lifeRun_steps hS h0 hres (k + 1) hk
  refine ⟨s, s', hs, hs', fun c hc => ?_⟩
  obtain ⟨i, -, hi⟩ := ht.ex c hc
  rw [(cellIs_iff hl hi).1, (cellIs_iff hl' hi).1, Function.iterate_succ_apply']
  exact generation_grows ht.pos hsv hc

/-- C150: if the birth digits contain none of 0 to 8, a dead cell stays dead. -/
theorem C150_no_births {S : Structure K 2} {N : Fin 2 → ℤ} (hS : SquareGrid 2 N S) (b sv : List (Fin 10))
    (hb : ∀ k : ℤ, 0 ≤ k → k ≤ 8 → k ∉ digitValues b) (s0 : SimState) (h0 : IsLifeState S s0) (n : ℕ) (res : SimResult)
    (hres : LifeRun S (variantText b sv) s0 n res) (k : ℕ) (hk : k < n) :
    ∃ s s', res.getStep k = .ok s ∧ res.getStep (k + 1 : ℕ) = .ok s' ∧ ∀ c, InBox N c → CellIs S s c "dead" → CellIs S s' c "dead" := by
  have ht := hS.isTorus
  obtain ⟨s, hs, hl⟩ := lifeRun_steps hS h0 hres k hk.le
  obtain ⟨s', hs', hl'⟩ := lifeRun_steps hS h0 hres (k + 1) hk
  refine ⟨s, s', hs, hs', fun c hc => ?_⟩
  obtain ⟨i, -, hi⟩ := ht.ex c hc
  rw [(cellIs_iff hl hi).2, (cellIs_iff hl' hi).2, Function.iterate_succ_apply']
  exact generation_shrinks ht.pos hb hc

/-- C150: in both cases nothing changes any more after as many steps as there are cells. -/
theorem C150_rest {S : Structure K 2} {N : Fin 2 → ℤ} (hS : SquareGrid 2 N S) (b sv : List (Fin 10))
    (h : (∀ k : ℤ, 0 ≤ k → k ≤ 8 → k ∈ digitValues sv) ∨ ∀ k : ℤ, 0 ≤ k → k ≤ 8 → k ∉ digitValues b) (s0 : SimState) (h0 : IsLifeState S s0) (n : ℕ)
    (res : SimResult) (hres : LifeRun S (variantText b sv) s0 n res) (k : ℕ) (hk : k ≤ n) (hlate : (N 0 * N 1).toNat ≤ k) :
    ∃ s s', res.getStep k = .ok s ∧ res.getStep ((N 0 * N 1).toNat : ℕ) = .ok s' ∧
      ∀ c, InBox N c → (CellIs S s c "alive" ↔ CellIs S s' c "alive") ∧ (CellIs S s c "dead" ↔ CellIs S s' c "dead") := by
  have ht := hS.isTorus
  obtain ⟨s, hs, hl⟩ := lifeRun_steps hS h0 hres k hk
  obtain ⟨s', hs', hl'⟩ := lifeRun_steps hS h0 hres (N 0 * N 1).toNat (hlate.trans hk)
  refine ⟨s, s', hs, hs', fun c hc => ?_⟩
  obtain ⟨i, -, hi⟩ := ht.ex c hc
  have := iterate_settles ht.pos (digitValues b) (digitValues sv) (liveCells S s0) (by
    rcases h with h | h
    · refine .inl fun k c hc h' => ?_
      rw [Function.iterate_succ_apply']
      exact generation_grows ht.pos h hc h'
    · refine .inr fun k c hc h' => ?_
      rw [Function.iterate_succ_apply']
      exact generation_shrinks ht.pos h hc h') k hlate c hc
  rw [(cellIs_iff hl hi).1, (cellIs_iff hl hi).2, (cellIs_iff hl' hi).1, (cellIs_iff hl' hi).2, this]
  exact ⟨Iff.rfl, Iff.rfl⟩

/-! ### rules without survival, and births from nothing -/

/-- C150: without survival digits (as in the variant `Seeds` of the code) no cell is alive at two steps in a row. -/
theorem C150_no_survival {S : Structure K 2} {N : Fin 2 → ℤ} (hS : SquareGrid 2 N S) (b sv : List (Fin 10))
    (hsv : ∀ k : ℤ, 0 ≤ k → k ≤ 8 → k ∉ digitValues sv) (s0 : SimState) (h0 : IsLifeState S s0) (n : ℕ) (res : SimResult)
    (hres : LifeRun S (variantText b sv) s0 n res) (k : ℕ) (hk : k < n) :
    ∃ s s', res.getStep k = .ok s ∧ res.getStep (k + 1 : ℕ) = .ok s' ∧ ∀ c, InBox N c → CellIs S s c "alive" → CellIs S s' c "dead" := by
  have ht := hS.isTorus
  obtain ⟨s, hs, hl⟩ := lifeRun_steps hS h0 hres k hk.le
  obtain ⟨s', hs', hl'⟩ := lifeRun_steps hS h0 hres (k + 1) hk
  refine ⟨s, s', hs, hs', fun c hc => ?_⟩
  obtain ⟨i, -, hi⟩ := ht.ex c hc
  rw [(cellIs_iff hl hi).1, (cellIs_iff hl' hi).2, Function.iterate_succ_apply']
  rintro h1 (⟨-, h2⟩ | ⟨h2, -⟩)
  · exact hsv _ (by omega) (by have := liveAround_le ht.pos ((generation N (digitValues b) (digitValues sv))^[k] (liveCells S s0)) c hc; omega) h2
  · exact h2 h1

/-- C150: the variant `Seeds` of the code. -/
theorem C150_seeds {S : Structure K 2} {N : Fin 2 → ℤ} (hS : SquareGrid 2 N S) (s0 : SimState) (h0 : IsLifeState S s0) (n : ℕ) (res : SimResult)
    (hres : LifeRun S Life.seeds s0 n res) (k : ℕ) (hk : k < n) :
    ∃ s s', res.getStep k = .ok s ∧ res.getStep (k + 1 : ℕ) = .ok s' ∧ ∀ c, InBox N c → CellIs S s c "alive" → CellIs S s' c "dead" := by
  have e : Life.seeds = variantText [2] [] := by decide +kernel
  rw [e] at hres
  exact C150_no_survival hS _ _ (by intro k _ _; simp [digitValues]) s0 h0 n res hres k hk

/-- C150: a world without live cells stays empty exactly if 0 is not a birth digit. -/
theorem C150_empty {S : Structure K 2} {N : Fin 2 → ℤ} (hS : SquareGrid 2 N S) (b sv : List (Fin 10)) (s0 : SimState) (h0 : IsLifeState S s0)
    (hdead : ∀ c, InBox N c → CellIs S s0 c "dead") (n : ℕ) (res : SimResult) (hres : LifeRun S (variantText b sv) s0 n res) :
    ((0 : ℤ) ∉ digitValues b → ∀ k : ℕ, k ≤ n → ∃ s, res.getStep k = .ok s ∧ ∀ c, InBox N c → CellIs S s c "dead") ∧
    ((0 : ℤ) ∈ digitValues b → 0 < n → ∃ s, res.getStep 1 = .ok s ∧ ∀ c, InBox N c → CellIs S s c "alive") := by
  have ht := hS.isTorus
  have hz : ∀ L : Set (Fin 2 → ℤ), (∀ x, InBox N x → x ∉ L) → ∀ c, liveAround N L c = 0 := by
    intro L hL c
    unfold liveAround
    have : {x | InBox N x ∧ x ≠ c ∧ ChebyshevLE N c x 1 ∧ x ∈ L} = ∅ := by
      ext x
      simp only [Set.mem_ofPred_eq, Set.mem_empty_iff_false, iff_false]
      rintro ⟨h1, -, -, h2⟩
      exact hL x h1 h2
    rw [this, Set.ncard_empty]
  have hstart : ∀ x, InBox N x → x ∉ liveCells S s0 := by
    intro x hx
    obtain ⟨i, -, hi⟩ := ht.ex x hx
    exact (cellIs_iff (showsLife_liveCells h0) hi).2.1 (hdead x hx)
  constructor
  · intro hb k hk
    obtain ⟨s, hs, hl⟩ := lifeRun_steps hS h0 hres k hk
    refine ⟨s, hs, fun c hc => ?_⟩
    obtain ⟨i, -, hi⟩ := ht.ex c hc
    rw [(cellIs_iff hl hi).2]
    have : ∀ k : ℕ, ∀ x, InBox N x → x ∉ (generation N (digitValues b) (digitValues sv))^[k] (liveCells S s0) := by
      intro k
      induction k with
      | zero => exact hstart
      | succ k ih =>
        intro x hx
        rw [Function.iterate_succ_apply']
        rintro (⟨h1, -⟩ | ⟨-, h1⟩)
        · exact ih x hx h1
        · rw [hz _ ih] at h1
          exact hb h1
    exact this k c hc
  · intro hb hn
    obtain ⟨s, hs, hl⟩ := lifeRun_steps hS h0 hres 1 hn
    refine ⟨s, hs, fun c hc => ?_⟩
    obtain ⟨i, -, hi⟩ := ht.ex c hc
    rw [(cellIs_iff hl hi).1]
    refine .inr ⟨hstart c hc, ?_⟩
    rw [hz _ hstart]
    exact hb

/-! ### the hypotheses can be met -/

/-- Runs exist for every variant and number of steps, with either runner; here serially. -/
theorem lifeRun_exists {S : Structure K 2} {N : Fin 2 → ℤ} (hS : SquareGrid 2 N S) (b sv : List (Fin 10)) {s0 : SimState} (h0 : IsLifeState S s0) (n : ℕ) :
    ∃ res, LifeRun S (variantText b sv) s0 n res := by
  obtain ⟨c, c', res, h1, h2, -⟩ := C60_life hS b sv s0 h0.1 h0.2.1 h0.2.2.1 _ (showsLife_liveCells h0) n
  exact ⟨res, c, h1, .inl ⟨c', h2⟩⟩

/-- Two opposite states and their runs, on every torus. -/
theorem opposite_runs_exist {S : Structure K 2} {N : Fin 2 → ℤ} (hS : SquareGrid 2 N S) (L : Set (Fin 2 → ℤ)) (n : ℕ) :
    ∃ s0 s0' res res', IsLifeState S s0 ∧ IsLifeState S s0' ∧ OppositeStates S N s0 s0' ∧ (∀ c, InBox N c → (CellIs S s0 c "alive" ↔ c ∈ L)) ∧
      LifeRun S Life.anneal s0 n res ∧ LifeRun S Life.anneal s0' n res' := by
  have ht := hS.isTorus
  obtain ⟨s0, h1, h2, h3, h4⟩ := life_state_exists ht L
  obtain ⟨s0', h1', h2', h3', h4'⟩ := life_state_exists ht Lᶜ
  have key : ∀ {s : SimState} {L : Set (Fin 2 → ℤ)}, s.WF → s.getGeneralState ≠ none → SameSites S s → ShowsLife S s L → IsLifeState S s := by
    intro s L h1 h2 h3 h4
    refine ⟨h1, h2, h3, fun i c hi => ?_⟩
    by_cases hc : c ∈ L
    · exact .inl ((cellIs_iff h4 hi).1.2 hc)
    · exact .inr ((cellIs_iff h4 hi).2.2 hc)
  have k0 := key h1 h2 h3 h4
  have k0' := key h1' h2' h3' h4'
  obtain ⟨res, hr⟩ := lifeRun_exists hS [4, 6, 7, 8] [3, 5, 6, 7, 8] k0 n
  obtain ⟨res', hr'⟩ := lifeRun_exists hS [4, 6, 7, 8] [3, 5, 6, 7, 8] k0' n
  have e : Life.anneal = variantText [4, 6, 7, 8] [3, 5, 6, 7, 8] := by decide +kernel
  rw [← e] at hr hr'
  refine ⟨s0, s0', res, res', k0, k0', fun c hc => ?_, fun c hc => ?_, hr, hr'⟩
  · obtain ⟨i, -, hi⟩ := ht.ex c hc
    rw [(cellIs_iff h4 hi).1, (cellIs_iff h4 hi).2, (cellIs_iff h4' hi).1, (cellIs_iff h4' hi).2]
    simp
  · obtain ⟨i, -, hi⟩ := ht.ex c hc
    exact (cellIs_iff h4 hi).1

/-- The opposite of Conway's rule is B0123478/S01234678. -/
example : OppositeRules (digitValues [3]) (digitValues [2, 3]) (digitValues [0, 1, 2, 3, 4, 7, 8]) (digitValues [0, 1, 2, 3, 4, 6, 7, 8]) := by
  intro k h1 h2
  have : ∀ m : Fin 9, (((m : ℕ) : ℤ) ∈ digitValues [0, 1, 2, 3, 4, 7, 8] ↔ 8 - ((m : ℕ) : ℤ) ∉ digitValues [2, 3]) ∧
      (((m : ℕ) : ℤ) ∈ digitValues [0, 1, 2, 3, 4, 6, 7, 8] ↔ 8 - ((m : ℕ) : ℤ) ∉ digitValues [3]) := by decide +kernel
  have h3 := this ⟨k.toNat, by omega⟩
  rwa [show (((⟨k.toNat, by omega⟩ : Fin 9) : ℕ) : ℤ) = k from Int.toNat_of_nonneg h1] at h3

end Pyl
