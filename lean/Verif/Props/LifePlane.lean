import Verif.Props.LifeSym
/-
C122: Life-like automata on a torus and on the plane; known patterns.
-/
set_option autoImplicit false
set_option linter.unusedSectionVars false

namespace Pyl
open Pyl.Lattice Structure SimState Spec
variable {K : Type} [Field K] [LinearOrder K] [IsStrictOrderedRing K] [FloorRing K]

/-- The eight offsets. -/
def eightOffsets : List (Fin 2 → ℤ) := [![-1, -1], ![-1, 0], ![-1, 1], ![0, -1], ![0, 1], ![1, -1], ![1, 0], ![1, 1]]

theorem eight_abs {v : Fin 2 → ℤ} (hv : v ∈ eightOffsets) (j : Fin 2) : -1 ≤ v j ∧ v j ≤ 1 := by
  have : ∀ w ∈ eightOffsets, ∀ j, -1 ≤ w j ∧ w j ≤ 1 := by decide
  exact this v hv j

/-! ### the plane -/

open Classical in
theorem planeAround_eq (M : Set (Fin 2 → ℤ)) (inst : DecidablePred (· ∈ M)) (c : Fin 2 → ℤ) :
    @planeAround M inst c = eightOffsets.countP fun v => decide (c + v ∈ M) := by
  unfold planeAround eightOffsets
  congr 1

open Classical in
/-- Cells that are alive in the next generation are next to live ones, if nothing is born of nothing. -/
theorem planeGeneration_near {born survive : List ℤ} (hb : (0 : ℤ) ∉ born) {M : Set (Fin 2 → ℤ)} {c : Fin 2 → ℤ}
    (hc : c ∈ planeGeneration born survive M) : c ∈ M ∨ ∃ v ∈ eightOffsets, c + v ∈ M := by
  rcases hc with ⟨h, -⟩ | ⟨-, h⟩
  · exact .inl h
  · right
    by_contra hne
    push Not at hne
    refine hb ?_
    have : planeAround M c = 0 := by
      rw [planeAround_eq, List.countP_eq_zero]
      intro v hv
      simpa using hne v hv
    rwa [this] at h

open Classical in
theorem planeGeneration_shift (born survive : List ℤ) (M : Set (Fin 2 → ℤ)) (a : Fin 2 → ℤ) :
    planeGeneration born survive {x | x - a ∈ M} = {x | x - a ∈ planeGeneration born survive M} := by
  ext c
  have : planeAround {x | x - a ∈ M} c = planeAround M (c - a) := by
    rw [planeAround_eq, planeAround_eq]
    congr 1
    funext v
    congr 1
    show (c + v - a ∈ M) = (c - a + v ∈ M)
    rw [sub_add_eq_add_sub]
  unfold planeGeneration
  show (_ ∧ _ ∨ _ ∧ _) ↔ (_ ∧ _ ∨ _ ∧ _)
  rw [this]
  rfl

/-! ### wrapping -/

/-- Around a cell of a window in which no two cells meet on the torus, the wrapped pattern looks like the pattern. -/
theorem mem_wrapped {N m : Fin 2 → ℤ} {w : ℤ} (hN : ∀ j, w + 2 ≤ N j) {M : Set (Fin 2 → ℤ)} (hM : ∀ x ∈ M, ∀ j, m j ≤ x j ∧ x j < m j + w)
    {y : Fin 2 → ℤ} (hy : ∀ j, m j - 2 ≤ y j ∧ y j ≤ m j - 1 + N j) : (fun j => y j % N j) ∈ wrapped N M ↔ y ∈ M := by
  constructor
  · rintro ⟨x, hx, e⟩
    have : x = y := by
      funext j
      have h1 := hM x hx j
      have h2 := hy j
      have h3 := hN j
      have hd : N j ∣ x j - y j := Int.emod_eq_emod_iff_emod_sub_eq_zero.1 (e j) |> Int.dvd_of_emod_eq_zero
      obtain ⟨q, hq⟩ := hd
      have hw : 0 < w := by omega
      have : q = 0 := by
        by_contra hne
        rcases lt_or_gt_of_ne hne with hlt | hgt
        · have : q ≤ -1 := by omega
          nlinarith
        · have : 1 ≤ q := by omega
          nlinarith
      rw [this] at hq
      linarith
    rw [← this]; exact hx
  · exact fun h => ⟨y, h, fun j => rfl⟩

open Classical in
/-- One generation of a pattern that does not reach around the torus. -/
theorem generation_wrapped {N m : Fin 2 → ℤ} {w : ℤ} (hw : 0 < w) (hN : ∀ j, w + 2 ≤ N j) {born survive : List ℤ} (hb : (0 : ℤ) ∉ born)
    {M : Set (Fin 2 → ℤ)} (hM : ∀ x ∈ M, ∀ j, m j ≤ x j ∧ x j < m j + w) (c : Fin 2 → ℤ) (hc : InBox N c) :
    c ∈ generation N born survive (wrapped N M) ↔ c ∈ wrapped N (planeGeneration born survive M) := by
  have hN3 : ∀ j, 3 ≤ N j := fun j => by have := hN j; omega
  set y : Fin 2 → ℤ := fun j => m j - 1 + (c j - (m j - 1)) % N j with hy
  have hyb : ∀ j, m j - 1 ≤ y j ∧ y j < m j - 1 + N j := fun j => by
    have h1 := Int.emod_nonneg (c j - (m j - 1)) (by have := hN3 j; omega : N j ≠ 0)
    have h2 := Int.emod_lt_of_pos (c j - (m j - 1)) (by have := hN3 j; omega : 0 < N j)
    simp only [hy]; omega
  have hyd : ∀ j, ∃ q, c j = y j + q * N j := fun j => ⟨(c j - (m j - 1)) / N j, by
    have := Int.emod_add_mul_ediv (c j - (m j - 1)) (N j)
    simp only [hy]; linarith⟩
  clear_value y
  choose q hq using hyd
  have hyv : ∀ v : Fin 2 → ℤ, (fun j => (c j + v j) % N j) = fun j => (y + v) j % N j := by
    intro v; funext j
    rw [hq j, Pi.add_apply, add_right_comm, Int.add_mul_emod_self_right]
  have hyc : c = fun j => y j % N j := by
    funext j
    rw [← Int.emod_eq_of_lt (hc j).1 (hc j).2, hq j, Int.add_mul_emod_self_right]
  have hcM : c ∈ wrapped N M ↔ y ∈ M := by
    rw [hyc]
    exact mem_wrapped hN hM fun j => by have := hyb j; omega
  have hcount : liveAround N (wrapped N M) c = planeAround M y := by
    rw [C60_eight hN3 _ c hc, planeAround_eq]
    unfold liveOfEight
    refine List.countP_congr fun v hv => ?_
    rw [hyv v, decide_eq_true_iff, decide_eq_true_iff]
    refine mem_wrapped hN hM fun j => ?_
    have h1 := eight_abs hv j
    have h2 := hyb j
    rw [Pi.add_apply]
    omega
  have hgen : c ∈ generation N born survive (wrapped N M) ↔ y ∈ planeGeneration born survive M := by
    unfold generation planeGeneration
    show (_ ∧ _ ∨ _ ∧ _) ↔ (_ ∧ _ ∨ _ ∧ _)
    rw [hcount, hcM]
  rw [hgen, hyc]
  constructor
  · exact fun h => ⟨y, h, fun j => rfl⟩
  · rintro ⟨x, hx, e⟩
    have hxb : ∀ j, m j - 1 ≤ x j ∧ x j ≤ m j + w := fun j => by
      rcases planeGeneration_near hb hx with h | ⟨v, hv, h⟩
      · have := hM x h j; omega
      · have h1 := hM _ h j
        have h2 := eight_abs hv j
        rw [Pi.add_apply] at h1
        omega
    have : x = y := by
      funext j
      have h1 := hxb j
      have h2 := hyb j
      have h3 := hN j
      obtain ⟨r, hr⟩ := Int.dvd_of_emod_eq_zero (Int.emod_eq_emod_iff_emod_sub_eq_zero.1 (e j))
      have : r = 0 := by
        by_contra hne
        rcases lt_or_gt_of_ne hne with hlt | hgt
        · have : r ≤ -1 := by omega
          nlinarith
        · have : 1 ≤ r := by omega
          nlinarith
      rw [this] at hr
      linarith
    rw [← this]; exact hx

theorem generation_congr {N : Fin 2 → ℤ} (hN : ∀ j, 0 < N j) (born survive : List ℤ) {L L' : Set (Fin 2 → ℤ)} (h : ∀ x, InBox N x → (x ∈ L' ↔ x ∈ L))
    (c : Fin 2 → ℤ) (hc : InBox N c) : c ∈ generation N born survive L' ↔ c ∈ generation N born survive L :=
  generation_local born survive hN hc fun x hx _ => h x hx

theorem iterate_wrapped {N : Fin 2 → ℤ} {w : ℤ} (hw : 0 < w) (hN : ∀ j, w + 2 ≤ N j) {born survive : List ℤ} (hb : (0 : ℤ) ∉ born)
    (M : Set (Fin 2 → ℤ)) (k : ℕ) (hM : ∀ i < k, FitsIn w ((planeGeneration born survive)^[i] M)) : ∀ c, InBox N c →
    (c ∈ (generation N born survive)^[k] (wrapped N M) ↔ c ∈ wrapped N ((planeGeneration born survive)^[k] M)) := by
  induction k with
  | zero => exact fun c _ => Iff.rfl
  | succ k ih =>
    intro c hc
    rw [Function.iterate_succ_apply', Function.iterate_succ_apply']
    obtain ⟨m, hm⟩ := hM k (by omega)
    rw [← generation_wrapped hw hN hb hm c hc]
    exact generation_congr (fun j => by have := hN j; omega) _ _ (ih fun i hi => hM i (by omega)) c hc

theorem showsLife_congr {S : Structure K 2} {N : Fin 2 → ℤ} (h : IsTorus S N) {s : SimState} {L L' : Set (Fin 2 → ℤ)} (hs : ShowsLife S s L)
    (hL : ∀ x, InBox N x → (x ∈ L ↔ x ∈ L')) : ShowsLife S s L' := by
  intro i c hc
  obtain ⟨p, hp, h1, h2⟩ := hs i c hc
  have := hL c (h.inBox_of_has hc)
  exact ⟨p, hp, fun h => h1 (this.2 h), fun h => h2 fun h' => h (this.1 h')⟩

/-- C122: as long as the pattern on the plane fits into a square that is two cells smaller than the torus, the run on the torus shows the plane's pattern wrapped around it,
for every rule that does not give birth to cells without live neighbours. -/
theorem C122_plane {S : Structure K 2} {N : Fin 2 → ℤ} (hS : SquareGrid 2 N S) (b sv : List (Fin 10)) (hb : 0 ∉ b) (M : Set (Fin 2 → ℤ)) (w : ℤ)
    (hw : 0 < w) (hN : ∀ j, w + 2 ≤ N j) (s0 : SimState) (hs : s0.WF) (hg : s0.getGeneralState ≠ none) (hsites : SameSites S s0)
    (hL : ShowsLife S s0 (wrapped N M)) (n : ℕ) (hM : ∀ k < n, FitsIn w ((planeGeneration (digitValues b) (digitValues sv))^[k] M)) :
    ∃ c c' res, Life.init none S (variantText b sv) = .ok c ∧ runSync Life.controller c s0 n = .ok (c', res) ∧ res.len = n + 1 ∧
      ∀ k : ℕ, k ≤ n → ∃ s, res.getStep k = .ok s ∧ ShowsLife S s (wrapped N ((planeGeneration (digitValues b) (digitValues sv))^[k] M)) := by
  obtain ⟨c, c', res, h1, h2, h3, h4⟩ := C60_life hS b sv s0 hs hg hsites _ hL n
  refine ⟨c, c', res, h1, h2, h3, fun k hk => ?_⟩
  obtain ⟨s, h5, -, h6⟩ := h4 k hk
  have hb' : (0 : ℤ) ∉ digitValues b := by
    unfold digitValues
    rw [List.mem_map]
    rintro ⟨x, hx, e⟩
    have : x = 0 := Fin.ext (by have : ((x : ℕ) : ℤ) = 0 := e
                                omega)
    exact hb (this ▸ hx)
  exact ⟨s, h5, showsLife_congr hS.isTorus h6 (iterate_wrapped hw hN hb' M k fun i hi => hM i (by omega))⟩

/-- A pattern grows by at most one cell on each side per step. -/
theorem fitsIn_succ {w : ℤ} {born survive : List ℤ} (hb : (0 : ℤ) ∉ born) {M : Set (Fin 2 → ℤ)} (h : FitsIn w M) :
    FitsIn (w + 2) (planeGeneration born survive M) := by
  obtain ⟨m, hm⟩ := h
  refine ⟨fun j => m j - 1, fun x hx j => ?_⟩
  show m j - 1 ≤ x j ∧ x j < m j - 1 + (w + 2)
  rcases planeGeneration_near hb hx with h | ⟨v, hv, h⟩
  · have := hm x h j; constructor <;> omega
  · have h1 := hm _ h j
    have h2 := eight_abs hv j
    rw [Pi.add_apply] at h1
    constructor <;> omega

theorem fitsIn_mono {w w' : ℤ} {M : Set (Fin 2 → ℤ)} (h : FitsIn w M) (hw : w ≤ w') : FitsIn w' M := by
  obtain ⟨m, hm⟩ := h
  exact ⟨m, fun x hx j => by have := hm x hx j; constructor <;> omega⟩

theorem fitsIn_iterate {w : ℤ} {born survive : List ℤ} (hb : (0 : ℤ) ∉ born) {M : Set (Fin 2 → ℤ)} (h : FitsIn w M) (k : ℕ) :
    FitsIn (w + 2 * k) ((planeGeneration born survive)^[k] M) := by
  induction k with
  | zero => simpa using h
  | succ k ih =>
    rw [Function.iterate_succ_apply']
    have := fitsIn_succ hb ih (survive := survive)
    rwa [show w + 2 * (k : ℤ) + 2 = w + 2 * ((k + 1 : ℕ) : ℤ) by push_cast; ring] at this

/-- C122: a pattern in a square of `w` by `w` cells behaves as on the plane for `n` steps if the torus is at least `w + 2 * n` wide. -/
theorem C122_margin {S : Structure K 2} {N : Fin 2 → ℤ} (hS : SquareGrid 2 N S) (b sv : List (Fin 10)) (hb : 0 ∉ b) (M : Set (Fin 2 → ℤ)) (w : ℤ)
    (hw : 0 < w) (hM : FitsIn w M) (n : ℕ) (hN : ∀ j, w + 2 * n ≤ N j) (s0 : SimState) (hs : s0.WF) (hg : s0.getGeneralState ≠ none)
    (hsites : SameSites S s0) (hL : ShowsLife S s0 (wrapped N M)) :
    ∃ c c' res, Life.init none S (variantText b sv) = .ok c ∧ runSync Life.controller c s0 n = .ok (c', res) ∧ res.len = n + 1 ∧
      ∀ k : ℕ, k ≤ n → ∃ s, res.getStep k = .ok s ∧ ShowsLife S s (wrapped N ((planeGeneration (digitValues b) (digitValues sv))^[k] M)) := by
  have hb' : (0 : ℤ) ∉ digitValues b := by
    unfold digitValues
    rw [List.mem_map]
    rintro ⟨x, hx, e⟩
    have : x = 0 := Fin.ext (by have : ((x : ℕ) : ℤ) = 0 := e
                                omega)
    exact hb (this ▸ hx)
  rcases n with - | n
  · obtain ⟨c, c', res, h1, h2, h3, h4⟩ := C60_life hS b sv s0 hs hg hsites _ hL 0
    refine ⟨c, c', res, h1, h2, h3, fun k hk => ?_⟩
    obtain ⟨s, h5, -, h6⟩ := h4 k hk
    obtain rfl : k = 0 := by omega
    exact ⟨s, h5, h6⟩
  · refine C122_plane hS b sv hb M (w + 2 * n) (by omega) (fun j => by have := hN j; push_cast at this; omega) s0 hs hg hsites hL (n + 1) fun k hk => ?_
    exact fitsIn_mono (fitsIn_iterate hb' hM k) (by omega)

/-! ### known patterns -/

/-- The next generation of a list of cells, cell by cell. -/
def nextCell (born survive : List ℤ) (P : List (Fin 2 → ℤ)) (c : Fin 2 → ℤ) : Bool :=
  let n : ℤ := (eightOffsets.countP fun v => decide (c + v ∈ P) : ℕ)
  if c ∈ P then decide (n ∈ survive) else decide (n ∈ born)

/-- The cells that can be alive in the next generation. -/
def candidates (P : List (Fin 2 → ℤ)) : List (Fin 2 → ℤ) := P ++ P.flatMap fun p => eightOffsets.map fun v => p + v

theorem planeGeneration_list {born survive : List ℤ} (hb : (0 : ℤ) ∉ born) {P P' : List (Fin 2 → ℤ)}
    (h : ∀ c ∈ candidates P, nextCell born survive P c = decide (c ∈ P')) (h' : ∀ c ∈ P', c ∈ candidates P) :
    planeGeneration born survive {x | x ∈ P} = {x | x ∈ P'} := by
  classical
  have hmem : ∀ c, c ∈ planeGeneration born survive {x | x ∈ P} ↔ nextCell born survive P c = true := by
    intro c
    unfold planeGeneration nextCell
    show (_ ∧ _ ∨ _ ∧ _) ↔ _
    have e : ∀ inst, @planeAround {x | x ∈ P} inst c = eightOffsets.countP fun v => decide (c + v ∈ P) := by
      intro inst
      rw [planeAround_eq]
      refine List.countP_congr fun v _ => ?_
      rw [decide_eq_true_iff, decide_eq_true_iff]; rfl
    rw [e]
    by_cases hc : c ∈ P
    · have hc' : c ∈ {x | x ∈ P} := hc
      simp [hc]
    · have hc' : c ∉ {x | x ∈ P} := hc
      simp [hc]
  have hneg : ∀ v ∈ eightOffsets, -v ∈ eightOffsets := by decide
  ext c
  rw [hmem]
  by_cases hc : c ∈ candidates P
  · rw [h c hc, decide_eq_true_iff]; rfl
  · constructor
    · intro h1
      refine absurd ?_ hc
      rcases planeGeneration_near hb ((hmem c).2 h1) with h2 | ⟨v, hv, h2⟩
      · exact List.mem_append_left _ h2
      · exact List.mem_append_right _ (List.mem_flatMap.2 ⟨c + v, h2, List.mem_map.2 ⟨-v, hneg v hv, by simp⟩⟩)
    · exact fun h1 => absurd (h' c h1) hc

theorem cellsAt_eq (P : List (Fin 2 → ℤ)) (a : Fin 2 → ℤ) : cellsAt P a = {x | x - a ∈ {y | y ∈ P}} := by
  ext x
  constructor
  · rintro ⟨p, hp, rfl⟩
    show p + a - a ∈ P
    rwa [add_sub_cancel_right]
  · exact fun h => ⟨x - a, h, by simp⟩

theorem planeGeneration_cellsAt {born survive : List ℤ} (hb : (0 : ℤ) ∉ born) {P P' : List (Fin 2 → ℤ)}
    (h : ∀ c ∈ candidates P, nextCell born survive P c = decide (c ∈ P')) (h' : ∀ c ∈ P', c ∈ candidates P) (a : Fin 2 → ℤ) :
    planeGeneration born survive (cellsAt P a) = cellsAt P' a := by
  rw [cellsAt_eq, planeGeneration_shift, planeGeneration_list hb h h', cellsAt_eq]

theorem fitsIn_cellsAt {P : List (Fin 2 → ℤ)} {w : ℤ} (m : Fin 2 → ℤ) (h : ∀ p ∈ P, ∀ j, m j ≤ p j ∧ p j < m j + w) (a : Fin 2 → ℤ) : FitsIn w (cellsAt P a) := by
  refine ⟨m + a, ?_⟩
  rintro x ⟨p, hp, rfl⟩ j
  have := h p hp j
  simp only [Pi.add_apply]
  constructor <;> omega

theorem block_plane (a : Fin 2 → ℤ) (k : ℕ) : (planeGeneration [3] [2, 3])^[k] (cellsAt block a) = cellsAt block a := by
  induction k with
  | zero => rfl
  | succ k ih => rw [Function.iterate_succ_apply', ih]; exact planeGeneration_cellsAt (by decide) (by decide) (by decide) a

theorem blinker_plane (a : Fin 2 → ℤ) (k : ℕ) : (planeGeneration [3] [2, 3])^[k] (cellsAt (blinkerAt 0) a) = cellsAt (blinkerAt k) a := by
  induction k with
  | zero => rfl
  | succ k ih =>
    rw [Function.iterate_succ_apply', ih]
    unfold blinkerAt
    rcases Nat.mod_two_eq_zero_or_one k with e | e
    · rw [if_pos e, if_neg (by omega)]
      exact planeGeneration_cellsAt (by decide) (by decide) (by decide) a
    · rw [if_neg (by omega), if_pos (by omega)]
      exact planeGeneration_cellsAt (by decide) (by decide) (by decide) a

/-- Where a glider that starts at `a` is after `k` steps: one cell further along both axes every four steps. -/
def gliderCorner (a : Fin 2 → ℤ) (k : ℕ) : Fin 2 → ℤ := fun j => a j + (k / 4 : ℕ)

theorem glider_plane (a : Fin 2 → ℤ) (k : ℕ) : (planeGeneration [3] [2, 3])^[k] (cellsAt (gliderAt 0) a) = cellsAt (gliderAt k) (gliderCorner a k) := by
  induction k with
  | zero =>
    have : gliderCorner a 0 = a := by funext j; simp [gliderCorner]
    rw [this]; rfl
  | succ k ih =>
    rw [Function.iterate_succ_apply', ih]
    have hk : k % 4 = 0 ∨ k % 4 = 1 ∨ k % 4 = 2 ∨ k % 4 = 3 := by omega
    have hs : ∀ r, k % 4 = r → r < 3 → (k + 1) % 4 = r + 1 ∧ gliderCorner a (k + 1) = gliderCorner a k := fun r h1 h2 =>
      ⟨by omega, by funext j; unfold gliderCorner; rw [show (k + 1) / 4 = k / 4 by omega]⟩
    rcases hk with e | e | e | e
    · obtain ⟨e1, e2⟩ := hs _ e (by omega)
      rw [e2]; unfold gliderAt; rw [e, e1]
      exact planeGeneration_cellsAt (by decide) (by decide) (by decide) _
    · obtain ⟨e1, e2⟩ := hs _ e (by omega)
      rw [e2]; unfold gliderAt; rw [e, e1]
      exact planeGeneration_cellsAt (by decide) (by decide) (by decide) _
    · obtain ⟨e1, e2⟩ := hs _ e (by omega)
      rw [e2]; unfold gliderAt; rw [e, e1]
      exact planeGeneration_cellsAt (by decide) (by decide) (by decide) _
    · have e1 : (k + 1) % 4 = 0 := by omega
      have e2 : gliderCorner a (k + 1) = fun j => gliderCorner a k j + 1 := by
        funext j; unfold gliderCorner; rw [show (k + 1) / 4 = k / 4 + 1 by omega]; push_cast; ring
      have e3 : planeGeneration [3] [2, 3] (cellsAt (gliderAt k) (gliderCorner a k)) =
          cellsAt [![1, 2], ![2, 3], ![3, 1], ![3, 2], ![3, 3]] (gliderCorner a k) := by
        unfold gliderAt; rw [e]
        exact planeGeneration_cellsAt (by decide) (by decide) (by decide) _
      rw [e3, e2]
      have e4 : ([![1, 2], ![2, 3], ![3, 1], ![3, 2], ![3, 3]] : List (Fin 2 → ℤ)) = (gliderAt (k + 1)).map fun p => p + 1 := by
        unfold gliderAt; rw [e1]; decide
      rw [e4]
      ext x
      constructor
      · rintro ⟨p, hp, rfl⟩
        obtain ⟨q, hq, rfl⟩ := List.mem_map.1 hp
        exact ⟨q, hq, by funext j; simp only [Pi.add_apply, Pi.one_apply]; ring⟩
      · rintro ⟨q, hq, rfl⟩
        exact ⟨q + 1, List.mem_map.2 ⟨q, hq, rfl⟩, by funext j; simp only [Pi.add_apply, Pi.one_apply]; ring⟩

theorem glider_fits (a : Fin 2 → ℤ) (k : ℕ) : FitsIn 3 (cellsAt (gliderAt k) a) := by
  have hk : k % 4 = 0 ∨ k % 4 = 1 ∨ k % 4 = 2 ∨ k % 4 = 3 := by omega
  unfold gliderAt
  rcases hk with e | e | e | e <;> rw [e]
  · exact fitsIn_cellsAt ![0, 0] (by decide) a
  · exact fitsIn_cellsAt ![1, 0] (by decide) a
  · exact fitsIn_cellsAt ![1, 0] (by decide) a
  · exact fitsIn_cellsAt ![1, 1] (by decide) a

theorem blinker_fits (a : Fin 2 → ℤ) (k : ℕ) : FitsIn 3 (cellsAt (blinkerAt k) a) := by
  unfold blinkerAt
  split_ifs
  · exact fitsIn_cellsAt ![-1, -1] (by decide) a
  · exact fitsIn_cellsAt ![-1, -1] (by decide) a

/-- C122: in Conway's Life a block never changes. -/
theorem C122_block {S : Structure K 2} {N : Fin 2 → ℤ} (hS : SquareGrid 2 N S) (hN : ∀ j, 4 ≤ N j) (a : Fin 2 → ℤ) (s0 : SimState) (hs : s0.WF)
    (hg : s0.getGeneralState ≠ none) (hsites : SameSites S s0) (hL : ShowsLife S s0 (wrapped N (cellsAt block a))) (n : ℕ) :
    ∃ c c' res, Life.init none S Life.life = .ok c ∧ runSync Life.controller c s0 n = .ok (c', res) ∧ res.len = n + 1 ∧
      ∀ k : ℕ, k ≤ n → ∃ s, res.getStep k = .ok s ∧ ShowsLife S s (wrapped N (cellsAt block a)) := by
  obtain ⟨c, c', res, h1, h2, h3, h4⟩ := C122_plane hS [3] [2, 3] (by decide) _ 2 (by norm_num) (fun j => by have := hN j; omega) s0 hs hg hsites hL n
    (fun k _ => by
      rw [show (planeGeneration (digitValues [3]) (digitValues [2, 3])) = planeGeneration [3] [2, 3] from rfl, block_plane]
      exact fitsIn_cellsAt ![0, 0] (by decide) a)
  refine ⟨c, c', res, h1, h2, h3, fun k hk => ?_⟩
  obtain ⟨s, h5, h6⟩ := h4 k hk
  rw [show (planeGeneration (digitValues [3]) (digitValues [2, 3])) = planeGeneration [3] [2, 3] from rfl, block_plane] at h6
  exact ⟨s, h5, h6⟩

/-- C122: in Conway's Life a blinker turns in every step. -/
theorem C122_blinker {S : Structure K 2} {N : Fin 2 → ℤ} (hS : SquareGrid 2 N S) (hN : ∀ j, 5 ≤ N j) (a : Fin 2 → ℤ) (s0 : SimState) (hs : s0.WF)
    (hg : s0.getGeneralState ≠ none) (hsites : SameSites S s0) (hL : ShowsLife S s0 (wrapped N (cellsAt (blinkerAt 0) a))) (n : ℕ) :
    ∃ c c' res, Life.init none S Life.life = .ok c ∧ runSync Life.controller c s0 n = .ok (c', res) ∧ res.len = n + 1 ∧
      ∀ k : ℕ, k ≤ n → ∃ s, res.getStep k = .ok s ∧ ShowsLife S s (wrapped N (cellsAt (blinkerAt k) a)) := by
  obtain ⟨c, c', res, h1, h2, h3, h4⟩ := C122_plane hS [3] [2, 3] (by decide) _ 3 (by norm_num) (fun j => by have := hN j; omega) s0 hs hg hsites hL n
    (fun k _ => by
      rw [show (planeGeneration (digitValues [3]) (digitValues [2, 3])) = planeGeneration [3] [2, 3] from rfl, blinker_plane]
      exact blinker_fits a k)
  refine ⟨c, c', res, h1, h2, h3, fun k hk => ?_⟩
  obtain ⟨s, h5, h6⟩ := h4 k hk
  rw [show (planeGeneration (digitValues [3]) (digitValues [2, 3])) = planeGeneration [3] [2, 3] from rfl, blinker_plane] at h6
  exact ⟨s, h5, h6⟩

/-- C122: in Conway's Life a glider flies on forever, around the edges, by one cell along both axes every four steps. -/
theorem C122_glider {S : Structure K 2} {N : Fin 2 → ℤ} (hS : SquareGrid 2 N S) (hN : ∀ j, 5 ≤ N j) (a : Fin 2 → ℤ) (s0 : SimState) (hs : s0.WF)
    (hg : s0.getGeneralState ≠ none) (hsites : SameSites S s0) (hL : ShowsLife S s0 (wrapped N (cellsAt (gliderAt 0) a))) (n : ℕ) :
    ∃ c c' res, Life.init none S Life.life = .ok c ∧ runSync Life.controller c s0 n = .ok (c', res) ∧ res.len = n + 1 ∧
      ∀ k : ℕ, k ≤ n → ∃ s, res.getStep k = .ok s ∧ ShowsLife S s (wrapped N (cellsAt (gliderAt k) fun j => a j + (k / 4 : ℕ))) := by
  obtain ⟨c, c', res, h1, h2, h3, h4⟩ := C122_plane hS [3] [2, 3] (by decide) _ 3 (by norm_num) (fun j => by have := hN j; omega) s0 hs hg hsites hL n
    (fun k _ => by
      rw [show (planeGeneration (digitValues [3]) (digitValues [2, 3])) = planeGeneration [3] [2, 3] from rfl, glider_plane]
      exact glider_fits _ k)
  refine ⟨c, c', res, h1, h2, h3, fun k hk => ?_⟩
  obtain ⟨s, h5, h6⟩ := h4 k hk
  rw [show (planeGeneration (digitValues [3]) (digitValues [2, 3])) = planeGeneration [3] [2, 3] from rfl, glider_plane] at h6
  exact ⟨s, h5, h6⟩

/-- C122: on an `n` x `n` torus a glider is back after `4 * n` steps. -/
theorem C122_glider_returns {S : Structure K 2} {n : ℕ} (hS : SquareGrid 2 (fun _ => (n : ℤ)) S) (hn : 5 ≤ n) (a : Fin 2 → ℤ) (s0 : SimState) (hs : s0.WF)
    (hg : s0.getGeneralState ≠ none) (hsites : SameSites S s0) (hL : ShowsLife S s0 (wrapped (fun _ => (n : ℤ)) (cellsAt (gliderAt 0) a))) :
    ∃ c c' res s, Life.init none S Life.life = .ok c ∧ runSync Life.controller c s0 (4 * n) = .ok (c', res) ∧ res.getStep (4 * n : ℕ) = .ok s ∧
      ShowsLife S s (wrapped (fun _ => (n : ℤ)) (cellsAt (gliderAt 0) a)) := by
  obtain ⟨c, c', res, h1, h2, -, h4⟩ := C122_glider hS (fun _ => by exact_mod_cast hn) a s0 hs hg hsites hL (4 * n)
  obtain ⟨s, h5, h6⟩ := h4 (4 * n) le_rfl
  refine ⟨c, c', res, s, h1, h2, h5, ?_⟩
  have e : wrapped (fun _ => (n : ℤ)) (cellsAt (gliderAt (4 * n)) fun j => a j + ((4 * n / 4 : ℕ) : ℤ)) = wrapped (fun _ => (n : ℤ)) (cellsAt (gliderAt 0) a) := by
    rw [Nat.mul_div_cancel_left n (by norm_num)]
    have eg : gliderAt (4 * n) = gliderAt 0 := by unfold gliderAt; rw [Nat.mul_mod_right]
    rw [eg]
    ext x
    constructor
    · rintro ⟨y, ⟨p, hp, rfl⟩, hy⟩
      refine ⟨p + a, ⟨p, hp, rfl⟩, fun j => ?_⟩
      rw [← hy j]
      simp only [Pi.add_apply]
      rw [← add_assoc, Int.add_emod_right]
    · rintro ⟨y, ⟨p, hp, rfl⟩, hy⟩
      refine ⟨_, ⟨p, hp, rfl⟩, fun j => ?_⟩
      rw [← hy j]
      simp only [Pi.add_apply]
      rw [← add_assoc, Int.add_emod_right]
  rwa [e] at h6

/-- A glider that starts across the corner of a 5 x 7 torus: the theorems apply to a grid that the code builds, and after ten steps cell (1, 1) is alive. -/
example : ∃ (S : Structure ℚ 2) (s0 : SimState) (c c' : Life.Ctl ℚ) (res : SimResult) (s : SimState), SquareGrid 2 ![5, 7] S ∧
    ShowsLife S s0 (wrapped ![5, 7] (cellsAt (gliderAt 0) ![3, 4])) ∧ Life.init none S Life.life = .ok c ∧
    runSync Life.controller c s0 10 = .ok (c', res) ∧ res.getStep 10 = .ok s ∧ CellIs S s ![1, 1] "alive" := by
  obtain ⟨-, S, hS, -⟩ := C52_square2 (K := ℚ) 1 (by norm_num) 7 5 (by norm_num) (by norm_num)
  have hg : SquareGrid 2 ![5, 7] S := .two _ S 5 7 (by norm_num) (by norm_num) (.inl rfl) hS
  obtain ⟨s0, h1, h2, h3, h4⟩ := life_state_exists hg.isTorus (wrapped ![5, 7] (cellsAt (gliderAt 0) ![3, 4]))
  obtain ⟨c, c', res, h5, h6, -, h7⟩ := C122_glider hg (by decide) ![3, 4] s0 h1 h2 h3 h4 10
  obtain ⟨s, h8, h9⟩ := h7 10 le_rfl
  obtain ⟨i, -, hi⟩ := hg.isTorus.ex ![1, 1] (by intro j; fin_cases j <;> simp)
  refine ⟨S, s0, c, c', res, s, hg, h4, h5, h6, h8, (cellIs_iff h9 hi).1.2 ?_⟩
  exact ⟨![6, 8], ⟨![1, 2], by decide, by decide⟩, by decide⟩

end Pyl
