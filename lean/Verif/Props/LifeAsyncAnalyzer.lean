import Verif.Spec.LifeAsyncAnalyzer
import Verif.Props.GrowthAnalyzer
/-
C165: what the result analyzer reports about asynchronous runs of Life.
-/
set_option autoImplicit false
set_option linter.unusedSectionVars false

namespace Pyl
open SimState Spec Analyzer SimResult ResultAnalyzer GridSetup
open Pyl.Lattice Pyl.Structure
variable {K : Type} [Field K] [LinearOrder K] [FloorRing K] [IsStrictOrderedRing K]

/-- Every step of an asynchronous run of Life can be analyzed. -/
theorem asyncLife_analyzable {S : Structure K 2} {N : Fin 2 → ℤ} (hS : SquareGrid 2 N S) {b sv : List (Fin 10)} {s0 : SimState} (h0 : IsLifeState S s0) (hid : KnowsIds s0)
    {cells : ℕ → Fin 2 → ℤ} {n : ℕ} {res : SimResult} (h : VisitingLifeRun S (variantText b sv) s0 cells n res) :
    res.len = n + 1 ∧ (∃ ops, res = resultAfter s0 ops) ∧ ∀ k : ℕ, k ≤ n → ∃ s, res.getStep k = .ok s ∧ Analyzable s ∧ s.size ≠ 0 ∧ SameSites S s ∧
      ShowsLife S s (oneByOne N (digitValues b) (digitValues sv) cells (liveCells S s0) k) := by
  have ht := hS.isTorus
  obtain ⟨draw, c, a, hd, hc, hr, rfl⟩ := h
  obtain ⟨c1, a1, h1, h2, h3, h4⟩ := life_async hS b sv s0 h0.1 h0.2.1 h0.2.2.1 _ (showsLife_liveCells h0) n draw cells hd
  rw [hc] at h1; cases h1
  rw [hr] at h2; cases h2
  refine ⟨h3, runAsync_after hr, fun k hk => ?_⟩
  obtain ⟨s, e1, e2, e3, e4, e5⟩ := h4 k hk
  have hz : (s.size : ℤ) ≠ 0 := by
    rw [(shows_counts ht e2 e4 e5).2.2.1]
    exact (mul_pos (ht.pos 0) (ht.pos 1)).ne'
  refine ⟨s, e1, ⟨e2, fun key p hp => ?_, (shows_occ ht e4 e5).2.1⟩, by exact_mod_cast hz, e4, e5⟩
  obtain ⟨p0, hp0, hkeep⟩ := e3 key p hp
  rw [hkeep SITE_ID (by decide)]
  exact hid _ _ hp0

/-- C165: in an asynchronous run of any variant, `phase_fraction_at(k, "alive")` is the part of the cells alive after the first `k` visits, each of which gives the
visited cell its state in the next generation, and `phase_fraction_at(k, "dead")` is the rest. -/
theorem C165_fraction_at {S : Structure K 2} {N : Fin 2 → ℤ} (hS : SquareGrid 2 N S) (b sv : List (Fin 10)) (s0 : SimState) (h0 : IsLifeState S s0) (hid : KnowsIds s0)
    (cells : ℕ → Fin 2 → ℤ) (n : ℕ) (res : SimResult) (h : VisitingLifeRun S (variantText b sv) s0 cells n res) (k : ℕ) (hk : k ≤ n) :
    phaseFractionAt res k (.str "alive") =
      .ok ((Spec.cellCount N (· ∈ oneByOne N (digitValues b) (digitValues sv) cells (liveCells S s0) k) : ℚ) / (N 0 * N 1)) ∧
    phaseFractionAt res k (.str "dead") =
      .ok (1 - (Spec.cellCount N (· ∈ oneByOne N (digitValues b) (digitValues sv) cells (liveCells S s0) k) : ℚ) / (N 0 * N 1)) := by
  have ht := hS.isTorus
  obtain ⟨s, h1, h2, h3, h4, h5⟩ := (asyncLife_analyzable hS h0 hid h).2.2 k hk
  obtain ⟨e1, e2, e3, e4⟩ := shows_counts ht h2.1 h4 h5
  have hz : (s.size : ℚ) ≠ 0 := by exact_mod_cast h3
  have e3' : ((N 0 : ℚ) * N 1) = s.size := by exact_mod_cast e3.symm
  have e4' := congrArg (Nat.cast : ℕ → ℚ) e4
  push_cast at e4'
  unfold phaseFractionAt
  rw [h1, ok_bind, ok_bind, cellFraction_none h2 h3 rfl, cellFraction_none h2 h3 rfl, e1, e2, e3']
  refine ⟨rfl, congrArg _ ?_⟩
  rw [eq_sub_iff_add_eq, ← add_div, add_comm, e4', div_self hz]

/-- The number of live cells changes with a visit as the visited cell does. -/
theorem oneByOne_count {N : Fin 2 → ℤ} (born survive : List ℤ) (cells : ℕ → Fin 2 → ℤ) (L : Set (Fin 2 → ℤ)) (k : ℕ) (hc : InBox N (cells k)) :
    let P := oneByOne N born survive cells L k
    let A := Spec.cellCount N (· ∈ P)
    let B := Spec.cellCount N (· ∈ oneByOne N born survive cells L (k + 1))
    ((cells k ∈ P ↔ cells k ∈ generation N born survive P) → B = A) ∧
    (cells k ∉ P → cells k ∈ generation N born survive P → B = A + 1) ∧ (cells k ∈ P → cells k ∉ generation N born survive P → B + 1 = A) := by
  classical
  intro P A B
  have hstep : ∀ x, x ∈ oneByOne N born survive cells L (k + 1) ↔ x ≠ cells k ∧ x ∈ P ∨ x = cells k ∧ x ∈ generation N born survive P := fun x => Iff.rfl
  have hA : A = ((boxCells N).filter (· ∈ P)).card := cellCount_filter _
  have hB : B = ((boxCells N).filter (· ∈ oneByOne N born survive cells L (k + 1))).card := cellCount_filter _
  have hbox : cells k ∈ boxCells N := mem_boxCells.2 hc
  refine ⟨fun h => ?_, fun h1 h2 => ?_, fun h1 h2 => ?_⟩
  · rw [hA, hB]
    congr 1
    refine Finset.filter_congr fun x _ => ?_
    rw [hstep]
    by_cases e : x = cells k
    · subst e; simp [h]
    · simp [e]
  · rw [hA, hB, ← Finset.card_insert_of_notMem (a := cells k) (by simp [h1])]
    congr 1
    ext x
    simp only [Finset.mem_filter, Finset.mem_insert, hstep]
    by_cases e : x = cells k
    · subst e; simp [h2, hbox]
    · simp [e]
  · rw [hA, hB, ← Finset.card_insert_of_notMem (a := cells k) (by simp only [Finset.mem_filter, hstep]; simp [h2])]
    congr 1
    ext x
    simp only [Finset.mem_filter, Finset.mem_insert, hstep]
    by_cases e : x = cells k
    · subst e; simp [h1, hbox]
    · simp [e]

/-- C165: with each step of an asynchronous run the reported fraction of live cells grows by one cell's share, falls by one cell's share, or stays, as the visited cell is born, dies,
or keeps its state. -/
theorem C165_one_by_one {S : Structure K 2} {N : Fin 2 → ℤ} (hS : SquareGrid 2 N S) (b sv : List (Fin 10)) (s0 : SimState) (h0 : IsLifeState S s0) (hid : KnowsIds s0)
    (cells : ℕ → Fin 2 → ℤ) (n : ℕ) (res : SimResult) (h : VisitingLifeRun S (variantText b sv) s0 cells n res) (k : ℕ) (hk : k < n) :
    ∃ s q q', res.getStep k = .ok s ∧ phaseFractionAt res k (.str "alive") = .ok q ∧ phaseFractionAt res (k + 1 : ℕ) (.str "alive") = .ok q' ∧
      (CellIs S s (cells k) "dead" → cells k ∈ generation N (digitValues b) (digitValues sv) (liveCells S s) → q' = q + 1 / (N 0 * N 1)) ∧
      (CellIs S s (cells k) "alive" → cells k ∉ generation N (digitValues b) (digitValues sv) (liveCells S s) → q' = q - 1 / (N 0 * N 1)) ∧
      ((CellIs S s (cells k) "alive" ↔ cells k ∈ generation N (digitValues b) (digitValues sv) (liveCells S s)) → q' = q) := by
  have ht := hS.isTorus
  obtain ⟨s, h1, -, -, h4, h5⟩ := (asyncLife_analyzable hS h0 hid h).2.2 k hk.le
  have hcell : ∃ i, SiteHas S i (cells k) := by
    obtain ⟨draw, -, -, hd, -⟩ := h
    exact ⟨_, hd k⟩
  obtain ⟨i, hi⟩ := hcell
  set P := oneByOne N (digitValues b) (digitValues sv) cells (liveCells S s0) k with hP
  have hbox := ht.inBox_of_has hi
  -- generations only look at cells of the box
  have hgen : cells k ∈ generation N (digitValues b) (digitValues sv) (liveCells S s) ↔ cells k ∈ generation N (digitValues b) (digitValues sv) P := by
    have hin : ∀ c, InBox N c → (c ∈ liveCells S s ↔ c ∈ P) := by
      intro c hc
      obtain ⟨j, -, hj⟩ := ht.ex c hc
      exact (cellIs_iff h5 hj).1
    have e : liveAround N (liveCells S s) (cells k) = liveAround N P (cells k) := by
      unfold liveAround
      congr 1
      ext c
      simp only [Set.mem_ofPred_eq]
      constructor
      · rintro ⟨g1, g2, g3, g4⟩
        exact ⟨g1, g2, g3, (hin c g1).1 g4⟩
      · rintro ⟨g1, g2, g3, g4⟩
        exact ⟨g1, g2, g3, (hin c g1).2 g4⟩
    show (_ ∧ _ ∨ _ ∧ _) ↔ (_ ∧ _ ∨ _ ∧ _)
    rw [e, hin _ hbox]
  obtain ⟨c1, c2, c3⟩ := oneByOne_count (digitValues b) (digitValues sv) cells (liveCells S s0) k hbox
  refine ⟨s, _, _, h1, (C165_fraction_at hS b sv s0 h0 hid cells n res h k hk.le).1, (C165_fraction_at hS b sv s0 h0 hid cells n res h (k + 1) hk).1, fun g1 g2 => ?_, fun g1 g2 => ?_,
    fun g => ?_⟩
  · rw [c2 ((cellIs_iff h5 hi).2.1 g1) (hgen.1 g2)]
    push_cast; ring
  · rw [← c3 ((cellIs_iff h5 hi).1.1 g1) fun e => g2 (hgen.2 e)]
    push_cast; ring
  · rw [c1 ⟨fun e => hgen.1 (g.1 ((cellIs_iff h5 hi).1.2 e)), fun e => (cellIs_iff h5 hi).1.1 (g.2 (hgen.2 e))⟩]

/-- C165: every sequence of cells of the grid can be visited: an asynchronous run that visits it exists from every start state. -/
theorem C165_exists {S : Structure K 2} {N : Fin 2 → ℤ} (hS : SquareGrid 2 N S) (b sv : List (Fin 10)) (s0 : SimState) (h0 : IsLifeState S s0)
    (cells : ℕ → Fin 2 → ℤ) (hcells : ∀ k, InBox N (cells k)) (n : ℕ) : ∃ res, VisitingLifeRun S (variantText b sv) s0 cells n res := by
  obtain ⟨draw, hd⟩ := (C96_cells hS).1 cells hcells
  obtain ⟨c, a, h1, h2, -⟩ := C96_life hS b sv s0 h0.1 h0.2.1 h0.2.2.1 _ (showsLife_liveCells h0) n draw cells hd
  exact ⟨a.res, draw, c, a, hd, h1, h2, rfl⟩

/-- C165: visits only matter when they change something: if the start pattern is at rest under the rule, the reported fraction is the same at every step. -/
theorem C165_at_rest {S : Structure K 2} {N : Fin 2 → ℤ} (hS : SquareGrid 2 N S) (b sv : List (Fin 10)) (s0 : SimState) (h0 : IsLifeState S s0) (hid : KnowsIds s0)
    (hrest : ∀ c, InBox N c → (c ∈ generation N (digitValues b) (digitValues sv) (liveCells S s0) ↔ c ∈ liveCells S s0))
    (cells : ℕ → Fin 2 → ℤ) (n : ℕ) (res : SimResult) (h : VisitingLifeRun S (variantText b sv) s0 cells n res) (k : ℕ) (hk : k ≤ n) :
    phaseFractionAt res k (.str "alive") = .ok ((Spec.cellCount N (· ∈ liveCells S s0) : ℚ) / (N 0 * N 1)) := by
  have ht := hS.isTorus
  have hbox : ∀ k, InBox N (cells k) := by
    obtain ⟨draw, -, -, hd, -⟩ := h
    exact fun k => ht.inBox_of_has (hd k)
  rw [(C165_fraction_at hS b sv s0 h0 hid cells n res h k hk).1]
  have : oneByOne N (digitValues b) (digitValues sv) cells (liveCells S s0) k = liveCells S s0 := by
    clear hk
    induction k with
    | zero => rfl
    | succ k ih =>
      show {x | x ≠ cells k ∧ x ∈ oneByOne _ _ _ _ _ k ∨ x = cells k ∧ x ∈ generation _ _ _ (oneByOne _ _ _ _ _ k)} = _
      rw [ih]
      ext x
      by_cases e : x = cells k
      · subst e; simp [hrest _ (hbox k)]
      · simp [e]
  rw [this]

/-- A case of the theorems: noise of "alive" alone under the variant "B/S", in which every visited cell dies: after the first visit the reported fraction is `1 - 1 / n²`. -/
example {G : GridSetup K 2} (hG : StdSetup 2 G) (n : ℤ) (hn : 0 < n) (draw : ℕ → ℕ) :
    ∃ S s0 res, G.noise (.int n) [.str "alive"] draw = .ok ⟨s0, S⟩ ∧ SquareGrid 2 (fun _ => n) S ∧ IsLifeState S s0 ∧ KnowsIds s0 ∧
      VisitingLifeRun S (variantText [] []) s0 (fun _ => 0) 5 res ∧ phaseFractionAt res (0 : ℕ) (.str "alive") = .ok 1 ∧
      phaseFractionAt res (1 : ℕ) (.str "alive") = .ok (1 - 1 / (n * n)) := by
  obtain ⟨S, hb, hsq, -⟩ := setup_builds hG hn
  have ht := hsq.isTorus
  obtain ⟨s0, h1, h2, h3⟩ := noise_lifeState hb hsq [.str "alive"] (by simp) (by simp) draw
  obtain ⟨s0', h1', h4, h5⟩ := noise_result hb ht.reachable [.str "alive"] (by simp; exact .str _) (by simp) draw
  rw [h1] at h1'; cases h1'
  have hall : ∀ c, InBox (fun _ => n) c → CellIs S s0 c "alive" := fun c hc i hi => by
    have := h5 i (ht.mem_ids ht.reachable hi)
    simp only [List.length_singleton, Nat.mod_one, List.getElem?_cons_zero] at this
    exact occ?_eq.1 this
  have h00 : InBox (fun _ : Fin 2 => n) 0 := fun j => ⟨le_rfl, hn⟩
  obtain ⟨res, hr⟩ := C165_exists hsq [] [] s0 h2 (fun _ => 0) (fun _ => h00) 5
  have hf := (C165_fraction_at hsq [] [] s0 h2 h3 _ 5 res hr 0 (by omega)).1
  have hone : phaseFractionAt res (0 : ℕ) (.str "alive") = .ok 1 := by
    rw [hf]
    have e : Spec.cellCount (fun _ : Fin 2 => n) (· ∈ oneByOne (fun _ => n) (digitValues []) (digitValues []) (fun _ => 0) (liveCells S s0) 0) = (boxCells fun _ : Fin 2 => n).card := by
      classical
      rw [cellCount_filter, Finset.filter_true_of_mem]
      exact fun c hc => hall c (mem_boxCells.1 hc)
    rw [e, card_boxCells ht.pos]
    have hnz : (n : ℚ) ≠ 0 := by exact_mod_cast hn.ne'
    have : (((n * n).toNat : ℕ) : ℚ) = n * n := by
      have := Int.toNat_of_nonneg (mul_nonneg hn.le hn.le)
      exact_mod_cast this
    rw [this, div_self (mul_ne_zero hnz hnz)]
  refine ⟨S, s0, res, h1, hsq, h2, h3, hr, hone, ?_⟩
  obtain ⟨s, q, q', g1, g2, g3, -, g5, -⟩ := C165_one_by_one hsq [] [] s0 h2 h3 _ 5 res hr 0 (by omega)
  rw [hone] at g2; cases g2
  obtain ⟨s', e1, -, -, -, e5⟩ := (asyncLife_analyzable hsq h2 h3 hr).2.2 0 (by omega)
  rw [g1] at e1; cases e1
  obtain ⟨i, -, hi⟩ := ht.ex 0 h00
  rw [g3, g5 ((cellIs_iff e5 hi).1.2 (hall 0 h00)) (by simp [generation, digitValues])]

end Pyl
