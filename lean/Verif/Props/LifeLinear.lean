import Verif.Spec.LifeLinear
import Verif.Props.LifeAsync
import Mathlib.Data.ZMod.Basic
import Mathlib.Algebra.CharP.Two
/-
C153: Life-like rules that only ask whether the number of live cells is odd: overlays, copies after 2^k steps, and what happens on tori whose sides are powers of 2.
-/
set_option autoImplicit false
set_option linter.unusedSectionVars false

namespace Pyl
open Pyl.Lattice Structure SimState Spec
variable {K : Type} [Field K] [LinearOrder K] [IsStrictOrderedRing K] [FloorRing K]

/-! ### sums modulo 2 -/

theorem double_sum {α : Type} (a : α → α → ZMod 2) (hs : ∀ v w, a v w = a w v) : ∀ l : List α,
    (l.map fun v => (l.map fun w => a v w).sum).sum = (l.map fun v => a v v).sum := by
  intro l
  induction l with
  | nil => rfl
  | cons u l ih =>
    simp only [List.map_cons, List.sum_cons, List.sum_map_add]
    rw [ih, show (l.map fun v => a v u) = l.map fun w => a u w from List.map_congr_left fun v _ => hs v u, add_assoc, ← add_assoc (List.sum _),
      CharTwo.add_self_eq_zero, zero_add]

theorem sum_countP {α : Type} (p : α → Bool) (l : List α) : ((l.countP p : ℕ) : ZMod 2) = (l.map fun v => if p v = true then (1 : ZMod 2) else 0).sum := by
  induction l with
  | nil => rfl
  | cons u l ih =>
    rw [List.countP_cons, List.map_cons, List.sum_cons, Nat.cast_add, ih, add_comm]
    split <;> simp

/-- The eight directions. -/
def eightDirs : List (Fin 2 → ℤ) := [![-1, -1], ![-1, 0], ![-1, 1], ![0, -1], ![0, 1], ![1, -1], ![1, 0], ![1, 1]]

/-- The sum over the eight cells at `m` moves, plus `o` times the cell itself. -/
def spreadBy (o : ZMod 2) (m : ℤ) (f : (Fin 2 → ℤ) → ZMod 2) (x : Fin 2 → ℤ) : ZMod 2 := o * f x + (eightDirs.map fun v => f (fun j => x j + m * v j)).sum

theorem spreadBy_twice (o : ZMod 2) (m : ℤ) (f : (Fin 2 → ℤ) → ZMod 2) : spreadBy o m (spreadBy o m f) = spreadBy o (2 * m) f := by
  funext x
  unfold spreadBy
  simp only [List.sum_map_add, List.sum_map_mul_left]
  have h1 := double_sum (fun v w : Fin 2 → ℤ => f (fun j => x j + m * v j + m * w j)) (fun v w => by congr 1; funext j; ring) eightDirs
  rw [h1]
  have ho : o * o = o := by revert o; decide
  have h2 : (fun v : Fin 2 → ℤ => f (fun j => x j + m * v j + m * v j)) = fun v => f (fun j => x j + 2 * m * v j) := by
    funext v; congr 1; funext j; ring
  rw [h2, mul_add, ← mul_assoc, ho, add_assoc, ← add_assoc (o * List.sum _), CharTwo.add_self_eq_zero, zero_add]

theorem spreadBy_pow (o : ZMod 2) (f : (Fin 2 → ℤ) → ZMod 2) (k : ℕ) : (spreadBy o 1)^[2 ^ k] f = spreadBy o (2 ^ k) f := by
  induction k generalizing f with
  | zero => simp
  | succ k ih => rw [pow_succ, Nat.mul_two, Function.iterate_add_apply, ih, ih, spreadBy_twice, pow_succ, mul_comm]

theorem spreadBy_add (o : ZMod 2) (m : ℤ) (f g : (Fin 2 → ℤ) → ZMod 2) : spreadBy o m (fun x => f x + g x) = fun x => spreadBy o m f x + spreadBy o m g x := by
  funext x
  unfold spreadBy
  simp only [List.sum_map_add]
  ring

/-! ### patterns -/

open Classical in
/-- 1 for live cells, 0 for dead ones, repeated in all directions. -/
noncomputable def bitAt (N : Fin 2 → ℤ) (L : Set (Fin 2 → ℤ)) (x : Fin 2 → ℤ) : ZMod 2 := if (fun j => x j % N j) ∈ L then 1 else 0

theorem bitAt_eq_one {N : Fin 2 → ℤ} {L : Set (Fin 2 → ℤ)} {x : Fin 2 → ℤ} : bitAt N L x = 1 ↔ (fun j => x j % N j) ∈ L := by
  unfold bitAt
  split <;> simp_all

theorem inBox_mod {N : Fin 2 → ℤ} (hN : ∀ j, 0 < N j) (x : Fin 2 → ℤ) : InBox N (fun j => x j % N j) :=
  fun j => ⟨Int.emod_nonneg _ (hN j).ne', Int.emod_lt_of_pos _ (hN j)⟩

theorem mod_of_inBox {N c : Fin 2 → ℤ} (h : InBox N c) : (fun j => c j % N j) = c := funext fun j => Int.emod_eq_of_lt (h j).1 (h j).2

/-- The digits ask for the parity, with (`o = 1`) or without (`o = 0`) the cell itself. -/
def ParityRule (o : ZMod 2) (b sv : List ℤ) : Prop := ∀ k : ℤ, 0 ≤ k → k ≤ 8 → (k ∈ b ↔ (k : ZMod 2) = 1) ∧ (k ∈ sv ↔ o + (k : ZMod 2) = 1)

theorem parity_eight {b sv : List ℤ} (h : OddOfEight b sv) : ParityRule 0 b sv := fun k h1 h2 => by
  rw [zero_add, ZMod.intCast_eq_one_iff_odd]; exact h k h1 h2

theorem parity_nine {b sv : List ℤ} (h : OddOfNine b sv) : ParityRule 1 b sv := fun k h1 h2 => by
  rw [add_comm, ZMod.intCast_eq_one_iff_odd, show ((k : ZMod 2) + 1) = ((k + 1 : ℤ) : ZMod 2) by push_cast; rfl, ZMod.intCast_eq_one_iff_odd]
  exact h k h1 h2

theorem bit_generation {N : Fin 2 → ℤ} (hN : ∀ j, 3 ≤ N j) {o : ZMod 2} {b sv : List ℤ} (h : ParityRule o b sv) (L : Set (Fin 2 → ℤ)) :
    bitAt N (generation N b sv L) = spreadBy o 1 (bitAt N L) := by
  classical
  have hpos : ∀ j, 0 < N j := fun j => by have := hN j; omega
  have two : ∀ a b : ZMod 2, (a = 1 ↔ b = 1) → a = b := by decide
  funext x
  refine two _ _ ?_
  rw [bitAt_eq_one]
  have hc := inBox_mod hpos x
  have h8 := liveAround_le hpos L _ hc
  have hsum : (eightDirs.map fun v => bitAt N L (fun j => x j + 1 * v j)).sum = ((liveAround N L (fun j => x j % N j) : ℕ) : ZMod 2) := by
    rw [C60_eight hN L _ hc]
    unfold liveOfEight
    rw [sum_countP]
    refine congrArg List.sum (List.map_congr_left fun v _ => ?_)
    unfold bitAt
    have e : (fun j => (x j % N j + v j) % N j) = fun j => (x j + 1 * v j) % N j := by funext j; rw [one_mul, Int.emod_add_emod]
    simp only [decide_eq_true_eq, e]
  unfold spreadBy
  rw [hsum]
  obtain ⟨hb, hsv⟩ := h (liveAround N L (fun j => x j % N j) : ℕ) (by omega) (by omega)
  rw [Int.cast_natCast] at hb hsv
  unfold generation
  show (_ ∧ _ ∨ _ ∧ _) ↔ _
  by_cases hx : (fun j => x j % N j) ∈ L
  · rw [bitAt_eq_one.2 hx, mul_one, ← hsv]
    simp [hx]
  · have : bitAt N L x = 0 := if_neg hx
    rw [this, mul_zero, zero_add, ← hb]
    simp [hx]

theorem bit_iterate {N : Fin 2 → ℤ} (hN : ∀ j, 3 ≤ N j) {o : ZMod 2} {b sv : List ℤ} (h : ParityRule o b sv) (L : Set (Fin 2 → ℤ)) (k : ℕ) :
    bitAt N ((generation N b sv)^[k] L) = (spreadBy o 1)^[k] (bitAt N L) := by
  induction k with
  | zero => rfl
  | succ k ih => rw [Function.iterate_succ_apply', Function.iterate_succ_apply', bit_generation hN h, ih]

theorem mem_iff_bit {N : Fin 2 → ℤ} {L : Set (Fin 2 → ℤ)} {c : Fin 2 → ℤ} (hc : InBox N c) : c ∈ L ↔ bitAt N L c = 1 := by
  rw [bitAt_eq_one, mod_of_inBox hc]

theorem aliveAt_sum {S : Structure K 2} {N : Fin 2 → ℤ} (hS : SquareGrid 2 N S) {s : SimState} {L : Set (Fin 2 → ℤ)} (hL : ShowsLife S s L) (m : ℤ)
    (c : Fin 2 → ℤ) : ((aliveAt S N s m c : ℕ) : ZMod 2) = (eightDirs.map fun v => bitAt N L (fun j => c j + m * v j)).sum := by
  classical
  have ht := hS.isTorus
  unfold aliveAt
  rw [sum_countP]
  refine congrArg List.sum (List.map_congr_left fun v _ => ?_)
  obtain ⟨i, -, hi⟩ := ht.ex _ (inBox_mod ht.pos fun j => c j + m * v j)
  have := (cellIs_iff hL hi).1
  unfold bitAt
  by_cases h : CellIs S s (fun j => (c j + m * v j) % N j) "alive"
  · rw [if_pos (decide_eq_true h), if_pos (this.1 h)]
  · rw [if_neg (fun h' => h (of_decide_eq_true h')), if_neg fun h' => h (this.2 h')]

theorem parity_copies {S : Structure K 2} {N : Fin 2 → ℤ} (hS : SquareGrid 2 N S) (hN : ∀ j, 3 ≤ N j) {o : ZMod 2} {b sv : List (Fin 10)}
    (hr : ParityRule o (digitValues b) (digitValues sv)) {s0 : SimState} (h0 : IsLifeState S s0) {n : ℕ} {res : SimResult}
    (hres : LifeRun S (variantText b sv) s0 n res) {t k : ℕ} (hk : t + 2 ^ k ≤ n) :
    ∃ s s' L L', res.getStep t = .ok s ∧ res.getStep (t + 2 ^ k : ℕ) = .ok s' ∧ ShowsLife S s L ∧ ShowsLife S s' L' ∧
      ∀ c, InBox N c → (c ∈ L' ↔ o * bitAt N L c + ((aliveAt S N s (2 ^ k) c : ℕ) : ZMod 2) = 1) := by
  obtain ⟨s, hs, hl⟩ := lifeRun_steps hS h0 hres t ((Nat.le_add_right _ _).trans hk)
  obtain ⟨s', hs', hl'⟩ := lifeRun_steps hS h0 hres (t + 2 ^ k) hk
  refine ⟨s, s', _, _, hs, hs', hl, hl', fun c hc => ?_⟩
  rw [mem_iff_bit hc, add_comm t, Function.iterate_add_apply, bit_iterate hN hr, spreadBy_pow, aliveAt_sum hS hl]
  rfl

/-- C153: with digits that ask for an odd number of live cells among the eight neighbours (B1357/S1357): a cell is alive at step `t + 2^k` exactly if an odd
number of the eight cells at `2^k` moves in one of the eight directions were alive at step `t`.  So after `2^k` steps the pattern appears in eight copies. -/
theorem C153_copies {S : Structure K 2} {N : Fin 2 → ℤ} (hS : SquareGrid 2 N S) (hN : ∀ j, 3 ≤ N j) (b sv : List (Fin 10))
    (hr : OddOfEight (digitValues b) (digitValues sv)) (s0 : SimState) (h0 : IsLifeState S s0) (n : ℕ) (res : SimResult)
    (hres : LifeRun S (variantText b sv) s0 n res) (t k : ℕ) (hk : t + 2 ^ k ≤ n) :
    ∃ s s', res.getStep t = .ok s ∧ res.getStep (t + 2 ^ k : ℕ) = .ok s' ∧
      ∀ c, InBox N c → (CellIs S s' c "alive" ↔ Odd (aliveAt S N s (2 ^ k) c)) ∧ (CellIs S s' c "dead" ↔ ¬ Odd (aliveAt S N s (2 ^ k) c)) := by
  have ht := hS.isTorus
  obtain ⟨s, s', L, L', h1, h2, h3, h4, h5⟩ := parity_copies hS hN (parity_eight hr) h0 hres hk
  refine ⟨s, s', h1, h2, fun c hc => ?_⟩
  obtain ⟨i, -, hi⟩ := ht.ex c hc
  rw [(cellIs_iff h4 hi).1, (cellIs_iff h4 hi).2, h5 c hc, zero_mul, zero_add, ZMod.natCast_eq_one_iff_odd]
  exact ⟨Iff.rfl, Iff.rfl⟩

/-- C153: with digits that count the cell itself too (B1357/S02468) the cell itself is a ninth copy. -/
theorem C153_nine_copies {S : Structure K 2} {N : Fin 2 → ℤ} (hS : SquareGrid 2 N S) (hN : ∀ j, 3 ≤ N j) (b sv : List (Fin 10))
    (hr : OddOfNine (digitValues b) (digitValues sv)) (s0 : SimState) (h0 : IsLifeState S s0) (n : ℕ) (res : SimResult)
    (hres : LifeRun S (variantText b sv) s0 n res) (t k : ℕ) (hk : t + 2 ^ k ≤ n) :
    ∃ s s', res.getStep t = .ok s ∧ res.getStep (t + 2 ^ k : ℕ) = .ok s' ∧
      ∀ c, InBox N c → (CellIs S s' c "alive" ↔ Xor (CellIs S s c "alive") (Odd (aliveAt S N s (2 ^ k) c))) ∧
        (CellIs S s' c "dead" ↔ ¬ Xor (CellIs S s c "alive") (Odd (aliveAt S N s (2 ^ k) c))) := by
  have ht := hS.isTorus
  obtain ⟨s, s', L, L', h1, h2, h3, h4, h5⟩ := parity_copies hS hN (parity_nine hr) h0 hres hk
  refine ⟨s, s', h1, h2, fun c hc => ?_⟩
  obtain ⟨i, -, hi⟩ := ht.ex c hc
  have key : ∀ a b : ZMod 2, 1 * a + b = 1 ↔ Xor (a = 1) (b = 1) := by unfold Xor; decide
  rw [(cellIs_iff h4 hi).1, (cellIs_iff h4 hi).2, (cellIs_iff h3 hi).1, h5 c hc, key, ← mem_iff_bit hc, ZMod.natCast_eq_one_iff_odd]
  exact ⟨Iff.rfl, Iff.rfl⟩

/-- C153: overlays.  With either kind of digits, the run from the overlay of two states is at every step the overlay of the two runs. -/
theorem C153_overlay {S : Structure K 2} {N : Fin 2 → ℤ} (hS : SquareGrid 2 N S) (hN : ∀ j, 3 ≤ N j) (b sv : List (Fin 10))
    (hr : OddOfEight (digitValues b) (digitValues sv) ∨ OddOfNine (digitValues b) (digitValues sv)) (s1 s2 s3 : SimState) (h1 : IsLifeState S s1)
    (h2 : IsLifeState S s2) (h3 : IsLifeState S s3) (hov : Overlay S N s1 s2 s3) (n : ℕ) (r1 r2 r3 : SimResult)
    (hr1 : LifeRun S (variantText b sv) s1 n r1) (hr2 : LifeRun S (variantText b sv) s2 n r2) (hr3 : LifeRun S (variantText b sv) s3 n r3) (k : ℕ)
    (hk : k ≤ n) :
    ∃ x1 x2 x3, r1.getStep k = .ok x1 ∧ r2.getStep k = .ok x2 ∧ r3.getStep k = .ok x3 ∧ Overlay S N x1 x2 x3 := by
  have ht := hS.isTorus
  obtain ⟨o, hr⟩ : ∃ o, ParityRule o (digitValues b) (digitValues sv) := hr.elim (fun h => ⟨0, parity_eight h⟩) fun h => ⟨1, parity_nine h⟩
  obtain ⟨x1, e1, l1⟩ := lifeRun_steps hS h1 hr1 k hk
  obtain ⟨x2, e2, l2⟩ := lifeRun_steps hS h2 hr2 k hk
  obtain ⟨x3, e3, l3⟩ := lifeRun_steps hS h3 hr3 k hk
  refine ⟨x1, x2, x3, e1, e2, e3, fun c hc => ?_⟩
  obtain ⟨i, -, hi⟩ := ht.ex c hc
  have key : ∀ a b : ZMod 2, a + b = 1 ↔ Xor (a = 1) (b = 1) := by unfold Xor; decide
  have two : ∀ a b : ZMod 2, (a = 1 ↔ b = 1) → a = b := by decide
  have hstart : bitAt N (liveCells S s3) = fun x => bitAt N (liveCells S s1) x + bitAt N (liveCells S s2) x := by
    funext x
    refine two _ _ ?_
    rw [key, bitAt_eq_one, bitAt_eq_one, bitAt_eq_one]
    exact (hov _ (inBox_mod ht.pos x)).1
  have hsum : ∀ k, (spreadBy o 1)^[k] (bitAt N (liveCells S s3)) =
      fun x => (spreadBy o 1)^[k] (bitAt N (liveCells S s1)) x + (spreadBy o 1)^[k] (bitAt N (liveCells S s2)) x := by
    intro k
    induction k with
    | zero => exact hstart
    | succ k ih =>
      simp only [Function.iterate_succ_apply']
      rw [ih, spreadBy_add]
  have : c ∈ (generation N (digitValues b) (digitValues sv))^[k] (liveCells S s3) ↔
      Xor (c ∈ (generation N (digitValues b) (digitValues sv))^[k] (liveCells S s1)) (c ∈ (generation N (digitValues b) (digitValues sv))^[k] (liveCells S s2)) := by
    rw [mem_iff_bit hc, mem_iff_bit hc, mem_iff_bit hc, bit_iterate hN hr, bit_iterate hN hr, bit_iterate hN hr, hsum, key]
  rw [(cellIs_iff l3 hi).1, (cellIs_iff l3 hi).2, (cellIs_iff l1 hi).1, (cellIs_iff l2 hi).1, this]
  exact ⟨Iff.rfl, Iff.rfl⟩

theorem aliveAt_even {S : Structure K 2} {N : Fin 2 → ℤ} {s : SimState} {m : ℤ} (hm : ∀ j, N j ∣ m) (c : Fin 2 → ℤ) : ¬ Odd (aliveAt S N s m c) := by
  have e : ∀ v : Fin 2 → ℤ, (fun j => (c j + m * v j) % N j) = fun j => c j % N j := fun v => funext fun j => by
    obtain ⟨q, hq⟩ := hm j
    rw [hq, mul_assoc, Int.add_mul_emod_self_left]
  have all : ∀ (p : (Fin 2 → ℤ) → Bool) (q : Bool), (∀ v, p v = q) → ¬ Odd (eightDirs.countP p) := by
    intro p q h
    rw [show p = fun _ => q from funext h]
    cases q <;> decide
  classical
  exact all _ (decide (CellIs S s (fun j => c j % N j) "alive")) fun v => by
    by_cases h : CellIs S s (fun j => c j % N j) "alive"
    · rw [decide_eq_true h]; exact decide_eq_true (by rw [e]; exact h)
    · rw [decide_eq_false h]; exact decide_eq_false (by rw [e]; exact h)

/-- C153: on a torus whose sides divide `2^k` (at least 3): with B1357/S1357 everything is dead from step `2^k` on, whatever the start. -/
theorem C153_dies_out {S : Structure K 2} {N : Fin 2 → ℤ} (hS : SquareGrid 2 N S) (hN : ∀ j, 3 ≤ N j) (b sv : List (Fin 10))
    (hr : OddOfEight (digitValues b) (digitValues sv)) (s0 : SimState) (h0 : IsLifeState S s0) (n : ℕ) (res : SimResult)
    (hres : LifeRun S (variantText b sv) s0 n res) (k : ℕ) (hdvd : ∀ j, N j ∣ 2 ^ k) (t : ℕ) (h1 : 2 ^ k ≤ t) (h2 : t ≤ n) :
    ∃ s, res.getStep t = .ok s ∧ ∀ c, InBox N c → CellIs S s c "dead" := by
  obtain ⟨s, s', -, e2, h3⟩ := C153_copies hS hN b sv hr s0 h0 n res hres (t - 2 ^ k) k (by omega)
  rw [Nat.sub_add_cancel h1] at e2
  exact ⟨s', e2, fun c hc => (h3 c hc).2.2 (aliveAt_even hdvd c)⟩

/-- C153: on such a torus every run with B1357/S02468 repeats itself after `2^k` steps, from the first step on. -/
theorem C153_returns {S : Structure K 2} {N : Fin 2 → ℤ} (hS : SquareGrid 2 N S) (hN : ∀ j, 3 ≤ N j) (b sv : List (Fin 10))
    (hr : OddOfNine (digitValues b) (digitValues sv)) (s0 : SimState) (h0 : IsLifeState S s0) (n : ℕ) (res : SimResult)
    (hres : LifeRun S (variantText b sv) s0 n res) (k : ℕ) (hdvd : ∀ j, N j ∣ 2 ^ k) (t : ℕ) (hk : t + 2 ^ k ≤ n) :
    ∃ s s', res.getStep t = .ok s ∧ res.getStep (t + 2 ^ k : ℕ) = .ok s' ∧ SamePattern S N s s' := by
  obtain ⟨s, hs, hl⟩ := lifeRun_steps hS h0 hres t ((Nat.le_add_right _ _).trans hk)
  obtain ⟨s', hs', hl'⟩ := lifeRun_steps hS h0 hres (t + 2 ^ k) hk
  obtain ⟨x, x', e1, e2, h3⟩ := C153_nine_copies hS hN b sv hr s0 h0 n res hres t k hk
  rw [hs] at e1; cases e1
  rw [hs'] at e2; cases e2
  refine ⟨s, s', hs, hs', (samePattern_iff hS hl hl').2 fun c hc => ?_⟩
  obtain ⟨i, -, hi⟩ := hS.isTorus.ex c hc
  have := (h3 c hc).1
  rw [(cellIs_iff hl' hi).1, (cellIs_iff hl hi).1] at this
  rw [this]
  have ho := aliveAt_even (S := S) (s := s) hdvd c
  unfold Xor
  simp [ho]

/-- The digits of Replicator and of Fredkin's rule meet the hypotheses. -/
example : OddOfEight (digitValues [1, 3, 5, 7]) (digitValues [1, 3, 5, 7]) ∧ OddOfNine (digitValues [1, 3, 5, 7]) (digitValues [0, 2, 4, 6, 8]) ∧
    variantText [1, 3, 5, 7] [1, 3, 5, 7] = "B1357/S1357" ∧ variantText [1, 3, 5, 7] [0, 2, 4, 6, 8] = "B1357/S02468" := by
  have h : ∀ m : Fin 9, ((((m : ℕ) : ℤ) ∈ digitValues [1, 3, 5, 7] ↔ Odd ((m : ℕ) : ℤ)) ∧ (((m : ℕ) : ℤ) ∈ digitValues [0, 2, 4, 6, 8] ↔ Odd (((m : ℕ) : ℤ) + 1))) := by
    decide +kernel
  refine ⟨fun k h1 h2 => ?_, fun k h1 h2 => ?_, by decide +kernel, by decide +kernel⟩
  · have h3 := h ⟨k.toNat, by omega⟩
    rw [show (((⟨k.toNat, by omega⟩ : Fin 9) : ℕ) : ℤ) = k from Int.toNat_of_nonneg h1] at h3
    exact ⟨h3.1, h3.1⟩
  · have h3 := h ⟨k.toNat, by omega⟩
    rwa [show (((⟨k.toNat, by omega⟩ : Fin 9) : ℕ) : ℤ) = k from Int.toNat_of_nonneg h1] at h3

/-- On every torus there are states and runs as in the theorems. -/
example {S : Structure K 2} {N : Fin 2 → ℤ} (hS : SquareGrid 2 N S) (L : Set (Fin 2 → ℤ)) (n : ℕ) :
    ∃ s0 res, IsLifeState S s0 ∧ (∀ c, InBox N c → (CellIs S s0 c "alive" ↔ c ∈ L)) ∧ LifeRun S (variantText [1, 3, 5, 7] [1, 3, 5, 7]) s0 n res := by
  obtain ⟨s0, -, -, -, h0, -, -, h1, -⟩ := opposite_runs_exist hS L n
  obtain ⟨res, hr⟩ := lifeRun_exists hS [1, 3, 5, 7] [1, 3, 5, 7] h0 n
  exact ⟨s0, res, h0, h1, hr⟩

end Pyl
