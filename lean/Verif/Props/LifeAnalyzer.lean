import Verif.Props.LifeSoup
import Verif.Props.ResultAnalyzer
import Verif.Props.GrowthCount
/-
C162: what the result analyzer reports about runs of Life.
-/
set_option autoImplicit false
set_option linter.unusedSectionVars false

namespace Pyl
open SimState Spec Analyzer SimResult ResultAnalyzer GridSetup
open Pyl.Lattice Pyl.Structure
variable {K : Type} [Field K] [LinearOrder K] [FloorRing K] [IsStrictOrderedRing K]

/-! ### Results of runs -/

theorem syncLoop_adds {σ : Type} (c : Controller σ) (n : ℕ) : ∀ (st : σ) (live : SimState) (res : SimResult) (out : σ × SimState × SimResult),
    syncLoop c n st live res = .ok out → ∃ ds : List (Option Props), out.2.2 = ds.foldl SimResult.addStep res := by
  induction n with
  | zero =>
    intro st live res out h
    unfold syncLoop at h; cases h
    exact ⟨[], rfl⟩
  | succ n ih =>
    intro st live res out h
    unfold syncLoop at h
    obtain ⟨⟨st', u⟩, -, h⟩ := bind_ok h
    obtain ⟨live', -, h⟩ := bind_ok h
    obtain ⟨ds, e⟩ := ih _ _ _ _ h
    exact ⟨_ :: ds, e⟩

theorem parallelLoop_adds {σ : Type} (c : Controller σ) (ids : List Key) (chunk : ℕ) (sched : ℕ → StepSched) (n : ℕ) :
    ∀ (k : ℕ) (last : Option Props) (ws : ℕ → Worker σ) (res out : SimResult),
    parallelLoop c ids chunk sched k n last ws res = .ok out → ∃ ds : List (Option Props), out = ds.foldl SimResult.addStep res := by
  induction n with
  | zero =>
    intro k last ws res out h
    unfold parallelLoop at h; cases h
    exact ⟨[], rfl⟩
  | succ n ih =>
    intro k last ws res out h
    unfold parallelLoop at h
    obtain ⟨⟨ws', u⟩, -, h⟩ := bind_ok h
    obtain ⟨ds, e⟩ := ih _ _ _ _ _ h
    exact ⟨_ :: ds, e⟩

theorem resultAfter_adds (s0 live : SimState) (ds : List (Option Props)) :
    (ds.foldl SimResult.addStep (SimResult.new s0)).setOutput live = resultAfter s0 (ds.map .add ++ [.output live]) := by
  unfold resultAfter
  rw [List.foldl_append, List.foldl_map]; rfl

/-- What a run returns is a result to which steps were added, then the output. -/
theorem lifeRun_after {S : Structure K 2} {variant : String} {s0 : SimState} {n : ℕ} {res : SimResult} (h : LifeRun S variant s0 n res) :
    ∃ ops, res = resultAfter s0 ops := by
  obtain ⟨c, -, ⟨c', hr⟩ | ⟨w, sched, hw, -, hr⟩⟩ := h
  · unfold runSync at hr
    obtain ⟨⟨st, s1⟩, -, hr⟩ := bind_ok hr
    obtain ⟨⟨st', live, res'⟩, h1, hr⟩ := bind_ok hr
    obtain ⟨ds, e⟩ := syncLoop_adds _ _ _ _ _ _ h1
    cases hr
    exact ⟨_, by simp only at e; rw [e]; exact resultAfter_adds _ _ _⟩
  · unfold runParallel at hr
    obtain ⟨⟨st, s1⟩, -, hr⟩ := bind_ok hr
    simp only [if_neg hw.ne'] at hr
    obtain ⟨res', h1, hr⟩ := bind_ok hr
    obtain ⟨ds, e⟩ := parallelLoop_adds _ _ _ _ _ _ _ _ _ _ h1
    cases hr
    exact ⟨_, by rw [e]; exact resultAfter_adds _ _ _⟩

/-! ### Steps of Life runs -/

theorem lifeRun_kept {S : Structure K 2} {N : Fin 2 → ℤ} (hS : SquareGrid 2 N S) {b sv : List (Fin 10)} {s0 : SimState} (h0 : IsLifeState S s0) {n : ℕ}
    {res : SimResult} (h : LifeRun S (variantText b sv) s0 n res) : res.len = n + 1 ∧
    ∀ k : ℕ, k ≤ n → ∃ s, res.getStep k = .ok s ∧ s.WF ∧ SameSites S s ∧ ShowsLife S s ((generation N (digitValues b) (digitValues sv))^[k] (liveCells S s0)) ∧
      ∀ i old, s0.getSiteState i = some old → ∃ new, s.getSiteState i = some new ∧ ∀ key, key ≠ DISCRETE_OCCUPANCY → Dict.get? new key = Dict.get? old key := by
  obtain ⟨c, hc, ⟨c', hr⟩ | ⟨w, sched, hw, hv, hr⟩⟩ := h
  · have ht := hS.isTorus
    obtain ⟨g, hget, hgn⟩ := C53_moore hS 1
    have hgl : ∀ i j, j ∈ g.neighborsOf i → j ∈ S.siteIds := fun i j hj => ((C55_known_and_other ht.reachable _ none g hget i).1 j hj).1
    have hinit : Life.init none S (variantText b sv) = .ok ⟨digitValues b, digitValues sv, S, none⟩ := by
      unfold Life.init
      rw [Option.getD_none, C61_variant]; rfl
    obtain ⟨c1, res', h1, h2, h3⟩ := life_run_kept (ctl := Life.controller) (T := S) ht rfl hgn hgl (digitValues b) (digitValues sv) s0 h0.1 (by
      show Life.preRun _ _ = _
      unfold Life.preRun
      simp only [hget, ok_bind]; rfl) h0.2.1 h0.2.2.1 _ (showsLife_liveCells h0) n
    rw [hc] at hinit; cases hinit
    rw [hr] at h1; cases h1
    exact ⟨h2, h3⟩
  · obtain ⟨c1, res', h1, h2, h3, h4⟩ := life_parallel_kept hS b sv s0 h0.1 h0.2.1 h0.2.2.1 _ (showsLife_liveCells h0) w hw n sched hv
    rw [hc] at h1; cases h1
    rw [hr] at h2; cases h2
    exact ⟨h3, h4⟩

/-- A state that shows a set of cells can be analyzed. -/
theorem shows_occ {S : Structure K 2} {N : Fin 2 → ℤ} (ht : IsTorus S N) {s : SimState} (hsame : SameSites S s) {L : Set (Fin 2 → ℤ)} (hL : ShowsLife S s L) :
    (∀ i c, SiteHas S i c → ((occ? s (.int i) = some (.str "alive") ↔ c ∈ L) ∧ (occ? s (.int i) = some (.str "dead") ↔ c ∉ L))) ∧ Occupied s ∧
      ∀ key v, occ? s key = some v → (v = .str "alive" ∧ ∃ c, InBox N c ∧ c ∈ L) ∨ (v = .str "dead" ∧ ∃ c, InBox N c ∧ c ∉ L) := by
  have hone : ∀ i c, SiteHas S i c → (c ∈ L ∧ occ? s (.int i) = some (.str "alive")) ∨ (c ∉ L ∧ occ? s (.int i) = some (.str "dead")) := by
    intro i c hc
    obtain ⟨p, hp, h1, h2⟩ := hL i c hc
    by_cases h : c ∈ L
    · exact .inl ⟨h, occ?_eq.2 ⟨p, hp, h1 h⟩⟩
    · exact .inr ⟨h, occ?_eq.2 ⟨p, hp, h2 h⟩⟩
  refine ⟨fun i c hc => ?_, fun k hk => ?_, fun key v hv => ?_⟩
  · rcases hone i c hc with ⟨h1, h2⟩ | ⟨h1, h2⟩ <;> simp [h1, h2]
  · obtain ⟨i, hi, rfl⟩ := (hsame k).1 hk
    obtain ⟨c, -, hc⟩ := ht.site i hi
    rcases hone i c hc with ⟨-, h⟩ | ⟨-, h⟩ <;> exact ⟨_, h, rfl⟩
  · obtain ⟨p, hp, -⟩ := occ?_eq.1 hv
    obtain ⟨i, hi, rfl⟩ := (hsame key).1 (mem_of_siteState hp)
    obtain ⟨c, hb, hc⟩ := ht.site i hi
    rcases hone i c hc with ⟨h1, h⟩ | ⟨h1, h⟩ <;> rw [hv] at h <;> injection h with h
    · exact .inl ⟨h, c, hb, h1⟩
    · exact .inr ⟨h, c, hb, h1⟩

theorem cellCount_filter {N : Fin 2 → ℤ} (p : (Fin 2 → ℤ) → Prop) [DecidablePred p] : Spec.cellCount N p = ((boxCells N).filter p).card := by
  unfold Spec.cellCount
  rw [← Set.ncard_coe_finset]
  congr 1
  ext c
  simp [mem_boxCells]

theorem shows_counts {S : Structure K 2} {N : Fin 2 → ℤ} (ht : IsTorus S N) {s : SimState} (hs : s.WF) (hsame : SameSites S s) {L : Set (Fin 2 → ℤ)}
    (hL : ShowsLife S s L) : sitesWith s (.str "alive") = Spec.cellCount N (· ∈ L) ∧ sitesWith s (.str "dead") = Spec.cellCount N (· ∉ L) ∧
      (s.size : ℤ) = N 0 * N 1 ∧ Spec.cellCount N (· ∈ L) + Spec.cellCount N (· ∉ L) = s.size := by
  classical
  have hocc := (shows_occ ht hsame hL).1
  have hsize : s.size = (N 0 * N 1).toNat := by
    rw [SimState.size]
    have h1 := (idsTo_of_sameSites ht.reachable hs hsame).length_eq
    rw [List.length_map, List.length_range, ht.count] at h1
    rw [h1, ← card_boxCells ht.pos]
    unfold boxCells
    simp [Fintype.card_piFinset]
  rw [cellCount_filter (fun c => c ∈ L), cellCount_filter (fun c => c ∉ L)]
  refine ⟨?_, ?_, ?_, ?_⟩
  · exact sitesWith_cells ht hs hsame (fun c hc => mem_boxCells.1 (Finset.mem_filter.1 hc).1) fun i c hc => by
      rw [(hocc i c hc).1, Finset.mem_filter, mem_boxCells, and_iff_right (ht.inBox_of_has hc)]
  · exact sitesWith_cells ht hs hsame (fun c hc => mem_boxCells.1 (Finset.mem_filter.1 hc).1) fun i c hc => by
      rw [(hocc i c hc).2, Finset.mem_filter, mem_boxCells, and_iff_right (ht.inBox_of_has hc)]
  · rw [hsize, Int.toNat_of_nonneg (mul_nonneg (ht.pos 0).le (ht.pos 1).le)]
  · rw [hsize, ← card_boxCells ht.pos]
    exact Finset.card_filter_add_card_filter_not _

/-- Every step of a run can be analyzed. -/
theorem lifeRun_analyzable {S : Structure K 2} {N : Fin 2 → ℤ} (hS : SquareGrid 2 N S) {b sv : List (Fin 10)} {s0 : SimState} (h0 : IsLifeState S s0)
    (hid : KnowsIds s0) {n : ℕ} {res : SimResult} (h : LifeRun S (variantText b sv) s0 n res) : res.len = n + 1 ∧ ∀ k : ℕ, k ≤ n → ∃ s, res.getStep k = .ok s ∧
      Analyzable s ∧ s.size ≠ 0 ∧ SameSites S s ∧ ShowsLife S s ((generation N (digitValues b) (digitValues sv))^[k] (liveCells S s0)) := by
  have ht := hS.isTorus
  obtain ⟨hlen, hk⟩ := lifeRun_kept hS h0 h
  refine ⟨hlen, fun k hkn => ?_⟩
  obtain ⟨s, h1, h2, h3, h4, h5⟩ := hk k hkn
  have hz : (s.size : ℤ) ≠ 0 := by
    rw [(shows_counts ht h2 h3 h4).2.2.1]
    exact (mul_pos (ht.pos 0) (ht.pos 1)).ne'
  refine ⟨s, h1, ⟨h2, fun key p hp => ?_, (shows_occ ht h3 h4).2.1⟩, by exact_mod_cast hz, h3, h4⟩
  obtain ⟨i, hi, rfl⟩ := (h3 key).1 (mem_of_siteState hp)
  obtain ⟨old, hold⟩ := siteState_of_mem _ ((h0.2.2.1 (.int i)).2 ⟨i, hi, rfl⟩)
  obtain ⟨new, hn, hkeep⟩ := h5 _ _ hold
  rw [hp] at hn; cases hn
  rw [hkeep SITE_ID (by decide)]
  exact hid _ _ hold

/-! ### What the analyzer reports -/

/-- C162: on any run of any variant, serial or parallel, `phase_fraction_at(k, "alive")` is the part of the cells that the `k`-th generation of the rule has
alive, and `phase_fraction_at(k, "dead")` is the rest. -/
theorem C162_fraction_at {S : Structure K 2} {N : Fin 2 → ℤ} (hS : SquareGrid 2 N S) (b sv : List (Fin 10)) (s0 : SimState) (h0 : IsLifeState S s0)
    (hid : KnowsIds s0) (n : ℕ) (res : SimResult) (h : LifeRun S (variantText b sv) s0 n res) (k : ℕ) (hk : k ≤ n) :
    phaseFractionAt res k (.str "alive") =
      .ok ((Spec.cellCount N (· ∈ (generation N (digitValues b) (digitValues sv))^[k] (liveCells S s0)) : ℚ) / (N 0 * N 1)) ∧
    phaseFractionAt res k (.str "dead") =
      .ok (1 - (Spec.cellCount N (· ∈ (generation N (digitValues b) (digitValues sv))^[k] (liveCells S s0)) : ℚ) / (N 0 * N 1)) := by
  have ht := hS.isTorus
  obtain ⟨s, h1, h2, h3, h4, h5⟩ := (lifeRun_analyzable hS h0 hid h).2 k hk
  obtain ⟨e1, e2, e3, e4⟩ := shows_counts ht h2.1 h4 h5
  have hz : (s.size : ℚ) ≠ 0 := by exact_mod_cast h3
  have e3' : ((N 0 : ℚ) * N 1) = s.size := by exact_mod_cast e3.symm
  have e4' := congrArg (Nat.cast : ℕ → ℚ) e4
  push_cast at e4'
  unfold phaseFractionAt
  rw [h1, ok_bind, ok_bind, cellFraction_none h2 h3 rfl, cellFraction_none h2 h3 rfl, e1, e2, e3']
  refine ⟨rfl, congrArg _ ?_⟩
  rw [eq_sub_iff_add_eq, ← add_div, add_comm, e4', div_self hz]

/-- At step `k` of such a run exactly these phases are present. -/
theorem lifeRun_phaseAt {S : Structure K 2} {N : Fin 2 → ℤ} (hS : SquareGrid 2 N S) {b sv : List (Fin 10)} {s0 : SimState} (h0 : IsLifeState S s0)
    {n : ℕ} {res : SimResult} (h : LifeRun S (variantText b sv) s0 n res) {k : ℕ} (hk : k ≤ n) (v : Val) :
    PhaseAt res k v ↔ (v = .str "alive" ∧ ∃ c, InBox N c ∧ c ∈ (generation N (digitValues b) (digitValues sv))^[k] (liveCells S s0)) ∨
      (v = .str "dead" ∧ ∃ c, InBox N c ∧ c ∉ (generation N (digitValues b) (digitValues sv))^[k] (liveCells S s0)) := by
  have ht := hS.isTorus
  obtain ⟨s, h1, -, h3, h4, -⟩ := (lifeRun_kept hS h0 h).2 k hk
  obtain ⟨o1, -, o3⟩ := shows_occ ht h3 h4
  constructor
  · rintro ⟨s', key, hs', hv⟩
    rw [h1] at hs'; cases hs'
    exact o3 key v hv
  · rintro (⟨rfl, c, hc, hL⟩ | ⟨rfl, c, hc, hL⟩) <;> obtain ⟨i, -, hi⟩ := ht.ex c hc
    · exact ⟨s, _, h1, (o1 i c hi).1.2 hL⟩
    · exact ⟨s, _, h1, (o1 i c hi).2.2 hL⟩

/-- C162: after a run of `n` steps `all_phases` lists "alive" if some cell is alive in one of the generations `0, ..., n - 1`, "dead" if some cell is dead in one
of them, and nothing else; `final_phase_fractions` gives for these the fractions of generation `n`. -/
theorem C162_phases {S : Structure K 2} {N : Fin 2 → ℤ} (hS : SquareGrid 2 N S) (b sv : List (Fin 10)) (s0 : SimState) (h0 : IsLifeState S s0)
    (hid : KnowsIds s0) (n : ℕ) (res : SimResult) (h : LifeRun S (variantText b sv) s0 n res) (order : ℕ → List Val → List Val) (hord : ∀ t l, (order t l).Perm l) :
    ∃ l A fr, ResultAnalyzer.new.allPhases res order = .ok (l, A) ∧ l.Nodup ∧
      (∀ v, v ∈ l ↔ (v = .str "alive" ∧ ∃ k < n, ∃ c, InBox N c ∧ c ∈ (generation N (digitValues b) (digitValues sv))^[k] (liveCells S s0)) ∨
        (v = .str "dead" ∧ ∃ k < n, ∃ c, InBox N c ∧ c ∉ (generation N (digitValues b) (digitValues sv))^[k] (liveCells S s0))) ∧
      finalPhaseFractions ResultAnalyzer.new res order = .ok fr ∧ (Dict.keys fr).Nodup ∧ (∀ v, v ∈ Dict.keys fr ↔ v ∈ l) ∧
      (∀ f, (Val.str "alive", f) ∈ fr → f = (Spec.cellCount N (· ∈ (generation N (digitValues b) (digitValues sv))^[n] (liveCells S s0)) : ℚ) / (N 0 * N 1)) ∧
      (∀ f, (Val.str "dead", f) ∈ fr → f = (Spec.cellCount N (· ∉ (generation N (digitValues b) (digitValues sv))^[n] (liveCells S s0)) : ℚ) / (N 0 * N 1)) := by
  have ht := hS.isTorus
  obtain ⟨hlen, hst⟩ := lifeRun_analyzable hS h0 hid h
  obtain ⟨ops, hops⟩ := lifeRun_after h
  have hall : StepsAnalyzable (resultAfter s0 ops) := by
    rw [← hops]
    intro k hk
    obtain ⟨s, h1, h2, h3, -⟩ := hst k (by omega)
    exact ⟨s, h1, h2, h3⟩
  obtain ⟨l, A, h1, h2, h3⟩ := C72_all_phases_partial s0 ops hall order hord
  obtain ⟨fr, last, h4, h5, h6, h7, h8, -⟩ := C72_final_partial s0 ops hall order hord
  rw [lastStep_eq] at h5
  rw [← hops] at h1 h3 h4 h5 h7
  rw [hlen, Nat.add_sub_cancel] at h5
  obtain ⟨s, g1, g2, -, g4, g5⟩ := hst n le_rfl
  rw [h5] at g1; cases g1
  obtain ⟨e1, e2, e3, -⟩ := shows_counts ht g2.1 g4 g5
  have e3' : ((N 0 : ℚ) * N 1) = last.size := by exact_mod_cast e3.symm
  refine ⟨l, A, fr, h1, h2, fun v => ?_, h4, h6, fun v => by rw [h7, h3], fun f hf => ?_, fun f hf => ?_⟩
  · rw [h3, hlen]
    constructor
    · rintro ⟨k, hk, hp⟩
      rcases (lifeRun_phaseAt hS h0 h (by omega) v).1 hp with ⟨e, hc⟩ | ⟨e, hc⟩
      · exact .inl ⟨e, k, by omega, hc⟩
      · exact .inr ⟨e, k, by omega, hc⟩
    · rintro (⟨e, k, hk, hc⟩ | ⟨e, k, hk, hc⟩)
      · exact ⟨k, by omega, (lifeRun_phaseAt hS h0 h (by omega) v).2 (.inl ⟨e, hc⟩)⟩
      · exact ⟨k, by omega, (lifeRun_phaseAt hS h0 h (by omega) v).2 (.inr ⟨e, hc⟩)⟩
  · rw [h8 _ _ hf, e1, e3']
  · rw [h8 _ _ hf, e2, e3']

/-- C162: the fractions `final_phase_fractions` gives for a run of Life need not be those of the last generation's phases: if all cells are alive and die at once
(no survival), the only phase it reports after one step is "alive", with fraction 0. -/
theorem C162_misses {S : Structure K 2} {N : Fin 2 → ℤ} (hS : SquareGrid 2 N S) (b : List (Fin 10)) (s0 : SimState) (h0 : IsLifeState S s0) (hid : KnowsIds s0)
    (hall : ∀ c, InBox N c → CellIs S s0 c "alive") (res : SimResult) (h : LifeRun S (variantText b []) s0 1 res) (order : ℕ → List Val → List Val)
    (hord : ∀ t l, (order t l).Perm l) :
    finalPhaseFractions ResultAnalyzer.new res order = .ok [(.str "alive", 0)] ∧ phaseFractionAt res 1 (.str "dead") = .ok 1 := by
  have ht := hS.isTorus
  have hL0 : ∀ c, InBox N c → c ∈ liveCells S s0 := fun c hc => hall c hc
  have hL1 : ∀ c, InBox N c → c ∉ (generation N (digitValues b) (digitValues []))^[1] (liveCells S s0) := by
    intro c hc
    rw [Function.iterate_one]
    simp [generation, digitValues, hL0 c hc]
  have hzero : Spec.cellCount N (· ∈ (generation N (digitValues b) (digitValues []))^[1] (liveCells S s0)) = 0 := by
    classical
    rw [cellCount_filter, Finset.card_eq_zero, Finset.filter_eq_empty_iff]
    exact fun c hc => hL1 c (mem_boxCells.1 hc)
  obtain ⟨l, A, fr, -, h2, h3, h4, h5, h6, h7, -⟩ := C162_phases hS b [] s0 h0 hid 1 res h order hord
  have hd := (C162_fraction_at hS b [] s0 h0 hid 1 res h 1 le_rfl).2
  rw [hzero] at hd h7
  simp only [Nat.cast_zero, zero_div, sub_zero] at hd h7
  refine ⟨?_, hd⟩
  have hl : ∀ v, v ∈ Dict.keys fr ↔ v = .str "alive" := by
    intro v
    rw [h6, h3]
    constructor
    · rintro (⟨e, -⟩ | ⟨-, k, hk, c, hc, hn⟩)
      · exact e
      · obtain rfl : k = 0 := by omega
        exact absurd (hL0 c hc) hn
    · intro e
      have h00 : InBox N 0 := fun j => ⟨le_rfl, ht.pos j⟩
      exact .inl ⟨e, 0, by omega, 0, h00, hL0 0 h00⟩
  have hk : Dict.keys fr = [.str "alive"] := List.Perm.eq_singleton ((List.perm_ext_iff_of_nodup h5 (by simp)).2 fun v => by rw [hl]; simp)
  rw [h4]
  match fr, hk with
  | [(v, f)], hk =>
    simp only [Dict.keys, List.map_cons, List.map_nil, List.cons.injEq, and_true] at hk
    subst hk
    rw [h7 f (by simp)]

/-! ### From noise -/

/-- What `setup_noise` makes of the phases "alive" and "dead" is a state the two can run on and analyze. -/
theorem noise_lifeState {G : GridSetup K 2} {n : ℤ} {S : Structure K 2} (hb : G.builder (.int n) = .ok S) (hsq : SquareGrid 2 (fun _ => n) S) (phases : List Val)
    (hne : phases ≠ []) (hp : ∀ p ∈ phases, p = .str "alive" ∨ p = .str "dead") (draw : ℕ → ℕ) :
    ∃ s0, G.noise (.int n) phases draw = .ok ⟨s0, S⟩ ∧ IsLifeState S s0 ∧ KnowsIds s0 := by
  have ht := hsq.isTorus
  obtain ⟨s0, h1, h2, h3⟩ := noise_result hb ht.reachable phases (fun p h => by rcases hp p h with rfl | rfl <;> exact .str _) hne draw
  refine ⟨s0, h1, ⟨h2.1, by rw [h2.2.1]; simp, h2.2.2.1, fun i c hc => ?_⟩, startState_knows h2⟩
  have hi := ht.mem_ids ht.reachable hc
  have hlt : draw i % phases.length < phases.length := Nat.mod_lt _ (List.length_pos_iff.2 hne)
  have h3 := h3 i hi
  rw [List.getElem?_eq_getElem hlt] at h3
  obtain ⟨p, hp1, hp2⟩ := occ?_eq.1 h3
  have hcell : ∀ v, phases[draw i % phases.length] = .str v → CellIs S s0 c v := by
    intro v hv i' hi'
    obtain rfl := ht.site_unique hc hi'
    exact ⟨p, hp1, by rw [hp2, hv]⟩
  rcases hp _ (List.getElem_mem hlt) with h | h
  · exact .inl (hcell _ h)
  · exact .inr (hcell _ h)

/-- C162: the Game of Life from `setup_noise` with the phases "alive" and "dead", as the analyzer reports it: the value of `phase_fraction_at(1, "alive")` is
within `ε` of 35/128 except with probability at most `(5 / (ε n))²`; a run exists for every outcome of the draws. -/
theorem C162_noise {G : GridSetup K 2} (hG : StdSetup 2 G) (n : ℤ) (hn : 3 ≤ n) (ε : ℝ) (hε : 0 < ε) :
    ∃ S, G.builder (.int n) = .ok S ∧ (∀ draw, ∃ s0 res q, G.noise (.int n) [.str "alive", .str "dead"] draw = .ok ⟨s0, S⟩ ∧ LifeRun S Life.life s0 1 res ∧
        phaseFractionAt res 1 (.str "alive") = .ok q) ∧
      chance 2 S.siteIds.length (fun f => ∃ s0 res q, G.noise (.int n) [.str "alive", .str "dead"] (outcome f) = .ok ⟨s0, S⟩ ∧ LifeRun S Life.life s0 1 res ∧
        phaseFractionAt res 1 (.str "alive") = .ok q ∧ ε ≤ |(q : ℝ) - 35 / 128|) ≤ (5 / (ε * n)) ^ 2 := by
  obtain ⟨S, hb, hsq, hX⟩ := C160_life hG n hn ε hε
  have ht := hsq.isTorus
  have e : Life.life = variantText [3] [2, 3] := by decide +kernel
  have hp : ∀ p ∈ [Val.str "alive", Val.str "dead"], p = .str "alive" ∨ p = .str "dead" := by simp
  rw [e] at hX ⊢
  refine ⟨S, hb, fun draw => ?_, ?_⟩
  · obtain ⟨s0, h1, h2, h3⟩ := noise_lifeState hb hsq _ (by simp) hp draw
    obtain ⟨res, hr⟩ := lifeRun_exists hsq [3] [2, 3] h2 1
    exact ⟨s0, res, _, h1, hr, (C162_fraction_at hsq _ _ s0 h2 h3 1 res hr 1 le_rfl).1⟩
  · have hcell : ∀ (f : Fin S.siteIds.length → Fin 2) s, NoiseThenLife G (.int n) [.str "alive", .str "dead"] (variantText [3] [2, 3]) S (outcome f) 1 s →
        ∀ c, InBox (fun _ => n) c → (CellIs S s c "alive" ↔ SoupAlive G n [.str "alive", .str "dead"] (variantText [3] [2, 3]) S 1 f c) := by
      intro f s hs c hc
      obtain ⟨-, L, -, hshow⟩ := noise_life hb hsq [.str "alive", .str "dead"] (by simp) hp [3] [2, 3] 1 f
      obtain ⟨i, -, hi⟩ := ht.ex c hc
      exact ⟨fun h => ⟨s, hs, h⟩, fun ⟨s', hs', h⟩ => (cellIs_iff (hshow s hs) hi).1.2 ((cellIs_iff (hshow s' hs') hi).1.1 h)⟩
    refine le_trans (chance_mono fun f => ?_) (hX (fun f => Spec.cellCount (fun _ => n) (SoupAlive G n [.str "alive", .str "dead"] (variantText [3] [2, 3]) S 1 f)) ?_)
    · rintro ⟨s0, res, q, h1, h2, h3, h4⟩
      obtain ⟨s0', h1', h5, h6⟩ := noise_lifeState hb hsq _ (by simp) hp (outcome f)
      rw [h1] at h1'; cases h1'
      have h7 := (C162_fraction_at hsq _ _ s0 h5 h6 1 res h2 1 le_rfl).1
      rw [Nat.cast_one, h3] at h7
      injection h7 with h7
      obtain ⟨s, hs, hsh⟩ := lifeRun_steps hsq h5 h2 1 le_rfl
      have hc : Spec.cellCount (fun _ => n) (SoupAlive G n [.str "alive", .str "dead"] (variantText [3] [2, 3]) S 1 f) =
          Spec.cellCount (fun _ => n) (· ∈ (generation (fun _ => n) (digitValues [3]) (digitValues [2, 3]))^[1] (liveCells S s0)) := by
        unfold Spec.cellCount
        congr 1
        ext c
        refine and_congr_right fun hc => ?_
        obtain ⟨i, -, hi⟩ := ht.ex c hc
        rw [← hcell f s ⟨s0, res, h1, h2, hs⟩ c hc]
        exact (cellIs_iff hsh hi).1
      rw [hc]
      rw [h7] at h4
      push_cast at h4
      rw [sq]; exact h4
    · intro f s hs
      unfold Spec.cellCount
      congr 1
      ext c
      exact and_congr_right fun hc => (hcell f s hs c hc).symm

/-- A case of `C162_misses`: the variant "B/S" from `setup_noise` with the single phase "alive". -/
theorem C162_misses_example {G : GridSetup K 2} (hG : StdSetup 2 G) (n : ℤ) (hn : 0 < n) (draw : ℕ → ℕ) (order : ℕ → List Val → List Val)
    (hord : ∀ t l, (order t l).Perm l) :
    ∃ S s0 res, G.noise (.int n) [.str "alive"] draw = .ok ⟨s0, S⟩ ∧ LifeRun S (variantText [] []) s0 1 res ∧
      finalPhaseFractions ResultAnalyzer.new res order = .ok [(.str "alive", 0)] ∧ phaseFractionAt res 1 (.str "dead") = .ok 1 := by
  obtain ⟨S, hb, hsq, -⟩ := setup_builds hG hn
  have ht := hsq.isTorus
  obtain ⟨s0, h1, h2, h3⟩ := noise_lifeState hb hsq [.str "alive"] (by simp) (by simp) draw
  obtain ⟨s0', h1', h4, h5⟩ := noise_result hb ht.reachable [.str "alive"] (by simp; exact .str _) (by simp) draw
  rw [h1] at h1'; cases h1'
  obtain ⟨res, hr⟩ := lifeRun_exists hsq [] [] h2 1
  obtain ⟨h6, h7⟩ := C162_misses hsq [] s0 h2 h3 (fun c hc i hi => by
    have := h5 i (ht.mem_ids ht.reachable hi)
    simp only [List.length_singleton, Nat.mod_one, List.getElem?_cons_zero] at this
    exact occ?_eq.1 this) res hr order hord
  exact ⟨S, s0, res, h1, hr, h6, h7⟩

end Pyl
