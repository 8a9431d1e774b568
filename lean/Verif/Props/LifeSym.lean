import Verif.Spec.LifePlane
import Verif.Props.Life
import Verif.Props.Growth
import Verif.Props.DoubleDist
/-
C121: symmetries of Life-like automata and the speed of light.
-/
set_option autoImplicit false
set_option linter.unusedSectionVars false

namespace Pyl
open Pyl.Lattice Structure SimState Spec
variable {K : Type} [Field K] [LinearOrder K] [IsStrictOrderedRing K] [FloorRing K]

/-! ### symmetries -/

namespace Spec.TorusMove
variable {N : Fin 2 → ℤ}

theorem inBox (hN : ∀ j, 0 < N j) (m : TorusMove N) (c : Fin 2 → ℤ) : InBox N (m.apply c) :=
  fun j => ⟨Int.emod_nonneg _ (hN j).ne', Int.emod_lt_of_pos _ (hN j)⟩

theorem circ_apply (hN : ∀ j, 0 < N j) (m : TorusMove N) (c x : Fin 2 → ℤ) (j : Fin 2) :
    circ (N j) (m.apply c j - m.apply x j) = circ (N (m.axes j)) (c (m.axes j) - x (m.axes j)) := by
  unfold apply
  rw [(circ_emod (n := N j) _ _).1, (circ_emod (n := N j) _ _).2, m.sides]
  rcases m.sign_eq j with e | e <;> rw [e]
  · congr 1; ring
  · rw [← circ_neg_of_pos _ _ (hN j)]; congr 1; ring

theorem cheb (hN : ∀ j, 0 < N j) (m : TorusMove N) (c x : Fin 2 → ℤ) (r : ℤ) : ChebyshevLE N (m.apply c) (m.apply x) r ↔ ChebyshevLE N c x r := by
  unfold ChebyshevLE
  simp only [m.circ_apply hN]
  exact m.axes.forall_congr_right (q := fun j => circ (N j) (c j - x j) ≤ r)

theorem inj (hN : ∀ j, 0 < N j) (m : TorusMove N) {c x : Fin 2 → ℤ} (hc : InBox N c) (hx : InBox N x) (h : m.apply c = m.apply x) : c = x := by
  funext j
  refine circ_zero (hN j) (hc j) (hx j) ?_
  have := (m.cheb hN c x 0).1 (fun k => by rw [h]; exact circ_self _ (hN k) _)
  exact this j

theorem surj (hN : ∀ j, 0 < N j) (m : TorusMove N) {y : Fin 2 → ℤ} (hy : InBox N y) : ∃ x, InBox N x ∧ m.apply x = y := by
  refine ⟨fun i => (m.sign (m.axes.symm i) * (y (m.axes.symm i) - m.shift (m.axes.symm i))) % N i,
    fun j => ⟨Int.emod_nonneg _ (hN j).ne', Int.emod_lt_of_pos _ (hN j)⟩, ?_⟩
  funext j
  unfold apply
  simp only [Equiv.symm_apply_apply, m.sides]
  have h1 : m.sign j * m.sign j = 1 := by rcases m.sign_eq j with e | e <;> rw [e] <;> norm_num
  rw [Int.add_emod, Int.mul_emod, Int.emod_emod, ← Int.mul_emod, ← mul_assoc, h1, one_mul, ← Int.add_emod, sub_add_cancel]
  exact Int.emod_eq_of_lt (hy j).1 (hy j).2

end Spec.TorusMove

theorem generation_move {N : Fin 2 → ℤ} (hN : ∀ j, 0 < N j) (m : TorusMove N) (born survive : List ℤ) {L L' : Set (Fin 2 → ℤ)}
    (h : ∀ x, InBox N x → (m.apply x ∈ L' ↔ x ∈ L)) (c : Fin 2 → ℤ) (hc : InBox N c) :
    m.apply c ∈ generation N born survive L' ↔ c ∈ generation N born survive L := by
  have e : liveAround N L' (m.apply c) = liveAround N L c := by
    unfold liveAround
    have : {x | InBox N x ∧ x ≠ m.apply c ∧ ChebyshevLE N (m.apply c) x 1 ∧ x ∈ L'} =
        m.apply '' {x | InBox N x ∧ x ≠ c ∧ ChebyshevLE N c x 1 ∧ x ∈ L} := by
      ext y
      constructor
      · rintro ⟨h1, h2, h3, h4⟩
        obtain ⟨x, hx, rfl⟩ := m.surj hN h1
        exact ⟨x, ⟨hx, fun e => h2 (by rw [e]), (m.cheb hN _ _ _).1 h3, (h x hx).1 h4⟩, rfl⟩
      · rintro ⟨x, ⟨h1, h2, h3, h4⟩, rfl⟩
        exact ⟨m.inBox hN x, fun e => h2 (m.inj hN h1 hc e), (m.cheb hN _ _ _).2 h3, (h x h1).2 h4⟩
    rw [this]
    exact Set.InjOn.ncard_image fun x hx y hy e => m.inj hN hx.1 hy.1 e
  unfold generation
  show (_ ∧ _ ∨ _ ∧ _) ↔ (_ ∧ _ ∨ _ ∧ _)
  rw [e, h c hc]

theorem iterate_move {N : Fin 2 → ℤ} (hN : ∀ j, 0 < N j) (m : TorusMove N) (born survive : List ℤ) {L L' : Set (Fin 2 → ℤ)}
    (h : ∀ x, InBox N x → (m.apply x ∈ L' ↔ x ∈ L)) (k : ℕ) : ∀ c, InBox N c →
    (m.apply c ∈ (generation N born survive)^[k] L' ↔ c ∈ (generation N born survive)^[k] L) := by
  induction k with
  | zero => exact h
  | succ k ih =>
    intro c hc
    rw [Function.iterate_succ_apply', Function.iterate_succ_apply']
    exact generation_move hN m born survive ih c hc

/-! ### the speed of light -/

theorem cheb_one_succ {N : Fin 2 → ℤ} (hN : ∀ j, 0 < N j) {a b c : Fin 2 → ℤ} {r : ℤ} (h1 : ChebyshevLE N a b 1) (h2 : ChebyshevLE N b c r) :
    ChebyshevLE N a c (r + 1) := fun j => by
  have := circ_triangle (hN j) (a j) (b j) (c j) 1 r (h1 j) (h2 j)
  omega

theorem generation_local {N : Fin 2 → ℤ} (born survive : List ℤ) {L L' : Set (Fin 2 → ℤ)} {c : Fin 2 → ℤ} (hN : ∀ j, 0 < N j) (hc : InBox N c)
    (h : ∀ x, InBox N x → ChebyshevLE N c x 1 → (x ∈ L' ↔ x ∈ L)) : c ∈ generation N born survive L' ↔ c ∈ generation N born survive L := by
  have e : liveAround N L' c = liveAround N L c := by
    unfold liveAround
    congr 1
    ext x
    constructor
    · rintro ⟨h1, h2, h3, h4⟩; exact ⟨h1, h2, h3, (h x h1 h3).1 h4⟩
    · rintro ⟨h1, h2, h3, h4⟩; exact ⟨h1, h2, h3, (h x h1 h3).2 h4⟩
  have hcc : c ∈ L' ↔ c ∈ L := h c hc fun j => le_trans (circ_self _ (hN j) _) (by norm_num)
  unfold generation
  show (_ ∧ _ ∨ _ ∧ _) ↔ (_ ∧ _ ∨ _ ∧ _)
  rw [e, hcc]

theorem iterate_local {N : Fin 2 → ℤ} (born survive : List ℤ) {L L' : Set (Fin 2 → ℤ)} (hN : ∀ j, 0 < N j) (k : ℕ) : ∀ c, InBox N c →
    (∀ x, InBox N x → ChebyshevLE N c x k → (x ∈ L' ↔ x ∈ L)) →
    (c ∈ (generation N born survive)^[k] L' ↔ c ∈ (generation N born survive)^[k] L) := by
  induction k with
  | zero => exact fun c hc h => h c hc fun j => circ_self _ (hN j) _
  | succ k ih =>
    intro c hc h
    rw [Function.iterate_succ_apply', Function.iterate_succ_apply']
    refine generation_local born survive hN hc fun x hx hcx => ih x hx fun y hy hxy => h y hy ?_
    push_cast
    exact cheb_one_succ hN hcx hxy

/-! ### states -/

/-- The live cells of a state. -/
def liveCells (S : Structure K 2) (s : SimState) : Set (Fin 2 → ℤ) := {c | CellIs S s c "alive"}

theorem showsLife_liveCells {S : Structure K 2} {s : SimState} (h : IsLifeState S s) : ShowsLife S s (liveCells S s) := by
  intro i c hc
  rcases h.2.2.2 i c hc with h1 | h1
  · obtain ⟨p, hp, h2⟩ := h1 i hc
    exact ⟨p, hp, fun _ => h2, fun hn => absurd h1 hn⟩
  · obtain ⟨p, hp, h2⟩ := h1 i hc
    refine ⟨p, hp, fun ha => ?_, fun _ => h2⟩
    obtain ⟨p', hp', h3⟩ := ha i hc
    rw [hp] at hp'; cases hp'
    exact h3

theorem cellIs_iff {S : Structure K 2} {s : SimState} {L : Set (Fin 2 → ℤ)} (h : ShowsLife S s L) {i : ℕ} {c : Fin 2 → ℤ} (hi : SiteHas S i c) :
    (CellIs S s c "alive" ↔ c ∈ L) ∧ (CellIs S s c "dead" ↔ c ∉ L) := by
  obtain ⟨p, hp, h1, h2⟩ := h i c hi
  by_cases hc : c ∈ L
  · have h1 := h1 hc
    refine ⟨⟨fun _ => hc, fun _ j hj => ?_⟩, ⟨fun h' => ?_, fun h' => absurd hc h'⟩⟩
    · obtain ⟨q, hq, hq1, -⟩ := h j c hj
      exact ⟨q, hq, hq1 hc⟩
    · obtain ⟨q, hq, hq1⟩ := h' i hi
      rw [hp] at hq; cases hq
      rw [h1] at hq1; simp at hq1
  · have h2 := h2 hc
    refine ⟨⟨fun h' => ?_, fun h' => absurd h' hc⟩, ⟨fun _ => hc, fun _ j hj => ?_⟩⟩
    · obtain ⟨q, hq, hq1⟩ := h' i hi
      rw [hp] at hq; cases hq
      rw [h2] at hq1; simp at hq1
    · obtain ⟨q, hq, -, hq1⟩ := h j c hj
      exact ⟨q, hq, hq1 hc⟩

/-- C121: if the start pattern is moved by a symmetry of the torus, so is every step of the run. -/
theorem C121_symmetry {S : Structure K 2} {N : Fin 2 → ℤ} (hS : SquareGrid 2 N S) (b sv : List (Fin 10)) (m : TorusMove N) (s0 s0' : SimState)
    (h0 : IsLifeState S s0) (h0' : IsLifeState S s0') (hm : ∀ c, InBox N c → (CellIs S s0' (m.apply c) "alive" ↔ CellIs S s0 c "alive")) (n : ℕ) :
    ∃ ctl c1 c2 res res', Life.init none S (variantText b sv) = .ok ctl ∧ runSync Life.controller ctl s0 n = .ok (c1, res) ∧
      runSync Life.controller ctl s0' n = .ok (c2, res') ∧ ∀ k : ℕ, k ≤ n → ∃ s s', res.getStep k = .ok s ∧ res'.getStep k = .ok s' ∧
        ∀ c, InBox N c → (CellIs S s' (m.apply c) "alive" ↔ CellIs S s c "alive") ∧ (CellIs S s' (m.apply c) "dead" ↔ CellIs S s c "dead") := by
  have h := hS.isTorus
  obtain ⟨ctl, c1, res, hi, hr, -, hk⟩ := C60_life hS b sv s0 h0.1 h0.2.1 h0.2.2.1 _ (showsLife_liveCells h0) n
  obtain ⟨ctl', c2, res', hi', hr', -, hk'⟩ := C60_life hS b sv s0' h0'.1 h0'.2.1 h0'.2.2.1 _ (showsLife_liveCells h0') n
  rw [hi] at hi'; cases hi'
  refine ⟨ctl, c1, c2, res, res', hi, hr, hr', fun k hkn => ?_⟩
  obtain ⟨s, hs, -, hsl⟩ := hk k hkn
  obtain ⟨s', hs', -, hsl'⟩ := hk' k hkn
  refine ⟨s, s', hs, hs', fun c hc => ?_⟩
  obtain ⟨i, -, hi⟩ := h.ex c hc
  obtain ⟨i', -, hi'⟩ := h.ex _ (m.inBox h.pos c)
  rw [(cellIs_iff hsl hi).1, (cellIs_iff hsl' hi').1, (cellIs_iff hsl hi).2, (cellIs_iff hsl' hi').2,
    iterate_move h.pos m (digitValues b) (digitValues sv) (L := liveCells S s0) (L' := liveCells S s0') hm k c hc]
  exact ⟨Iff.rfl, Iff.rfl⟩

/-- C121: after `k` steps a cell depends only on the cells at most `k` steps away, in rows, columns and diagonals. -/
theorem C121_local {S : Structure K 2} {N : Fin 2 → ℤ} (hS : SquareGrid 2 N S) (b sv : List (Fin 10)) (s0 s0' : SimState)
    (h0 : IsLifeState S s0) (h0' : IsLifeState S s0') (n : ℕ) :
    ∃ ctl c1 c2 res res', Life.init none S (variantText b sv) = .ok ctl ∧ runSync Life.controller ctl s0 n = .ok (c1, res) ∧
      runSync Life.controller ctl s0' n = .ok (c2, res') ∧ ∀ k : ℕ, k ≤ n → ∃ s s', res.getStep k = .ok s ∧ res'.getStep k = .ok s' ∧
        ∀ c, InBox N c → (∀ x, InBox N x → ChebyshevLE N c x k → (CellIs S s0' x "alive" ↔ CellIs S s0 x "alive")) →
          (CellIs S s' c "alive" ↔ CellIs S s c "alive") ∧ (CellIs S s' c "dead" ↔ CellIs S s c "dead") := by
  have h := hS.isTorus
  obtain ⟨ctl, c1, res, hi, hr, -, hk⟩ := C60_life hS b sv s0 h0.1 h0.2.1 h0.2.2.1 _ (showsLife_liveCells h0) n
  obtain ⟨ctl', c2, res', hi', hr', -, hk'⟩ := C60_life hS b sv s0' h0'.1 h0'.2.1 h0'.2.2.1 _ (showsLife_liveCells h0') n
  rw [hi] at hi'; cases hi'
  refine ⟨ctl, c1, c2, res, res', hi, hr, hr', fun k hkn => ?_⟩
  obtain ⟨s, hs, -, hsl⟩ := hk k hkn
  obtain ⟨s', hs', -, hsl'⟩ := hk' k hkn
  refine ⟨s, s', hs, hs', fun c hc hx => ?_⟩
  obtain ⟨i, -, hi⟩ := h.ex c hc
  rw [(cellIs_iff hsl hi).1, (cellIs_iff hsl' hi).1, (cellIs_iff hsl hi).2, (cellIs_iff hsl' hi).2,
    iterate_local (digitValues b) (digitValues sv) (L := liveCells S s0) (L' := liveCells S s0') h.pos k c hc hx]
  exact ⟨Iff.rfl, Iff.rfl⟩

/-- States as in the theorems exist: any pattern and the pattern moved by any symmetry. -/
theorem life_states_exist {S : Structure K 2} {N : Fin 2 → ℤ} (h : IsTorus S N) (m : TorusMove N) (L : Set (Fin 2 → ℤ)) :
    ∃ s0 s0', IsLifeState S s0 ∧ IsLifeState S s0' ∧ (∀ c, InBox N c → (CellIs S s0 c "alive" ↔ c ∈ L)) ∧
      ∀ c, InBox N c → (CellIs S s0' (m.apply c) "alive" ↔ CellIs S s0 c "alive") := by
  have key : ∀ {s : SimState} {L : Set (Fin 2 → ℤ)}, s.WF → s.getGeneralState ≠ none → SameSites S s → ShowsLife S s L → IsLifeState S s := by
    intro s L h1 h2 h3 h4
    refine ⟨h1, h2, h3, fun i c hi => ?_⟩
    by_cases hc : c ∈ L
    · exact .inl ((cellIs_iff h4 hi).1.2 hc)
    · exact .inr ((cellIs_iff h4 hi).2.2 hc)
  obtain ⟨s0, h1, h2, h3, h4⟩ := life_state_exists h L
  obtain ⟨s0', h1', h2', h3', h4'⟩ := life_state_exists h (m.apply '' {x | InBox N x ∧ x ∈ L})
  refine ⟨s0, s0', key h1 h2 h3 h4, key h1' h2' h3' h4', fun c hc => ?_, fun c hc => ?_⟩
  · obtain ⟨i, -, hi⟩ := h.ex c hc
    exact (cellIs_iff h4 hi).1
  · obtain ⟨i, -, hi⟩ := h.ex c hc
    obtain ⟨i', -, hi'⟩ := h.ex _ (m.inBox h.pos c)
    rw [(cellIs_iff h4 hi).1, (cellIs_iff h4' hi').1]
    constructor
    · rintro ⟨x, ⟨hx, hxL⟩, e⟩
      rw [← m.inj h.pos hx hc e]; exact hxL
    · exact fun hL => ⟨c, ⟨hc, hL⟩, rfl⟩

/-- A quarter turn of a 5 x 5 torus, with a shift. -/
def quarterTurn : TorusMove ![5, 5] where
  axes := Equiv.swap 0 1
  sign := ![1, -1]
  shift := ![2, 0]
  sign_eq := by decide
  sides := by decide

example : quarterTurn.apply ![1, 4] = ![1, 4] ∧ quarterTurn.apply ![3, 1] = ![3, 2] := by decide

end Pyl
