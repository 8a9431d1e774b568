import Verif.Props.GrowthParallelGrid
import Verif.Props.GrowthAnalyzer
import Verif.Props.Grains
/-
C136 and C164 on a structure that is really built: what can go wrong in a parallel growth run on a 6 by 6 grid.
-/
set_option autoImplicit false

namespace Pyl
open SimState Spec Growth Analyzer SimResult ResultAnalyzer GridSetup
open Pyl.Lattice Pyl.Structure

/-- Sites with phase `v` at step `k` of the run of `C91_false_grid`. -/
def countR (k : ℤ) (v : Val) : ℕ :=
  ((List.range 36).filter fun i : ℕ => decide (occAt (runParallel controller (fun _ c => c) ctlR init6 2 3 sched6) k (.int i) = some v)).length

theorem countR_B : countR 2 (.str "B") = 9 ∧ countR 3 (.str "B") = 7 := by decide +kernel

/-- C164: in parallel runs the fraction of a phase other than the background can fall: on a 6 by 6 grid with the default neighbourhood, from three nuclei and with two workers,
`phase_fraction_at` of "B" can be 1/4 at step 2 and 7/36 at step 3. -/
theorem C164_parallel_falls_grid : ∃ (S : Structure ℚ 2) (s0 : SimState) (c : Ctl) (sched : ℕ → StepSched) (res : SimResult), SquareGrid 2 ![6, 6] S ∧ StartState S s0 ∧
    Growth.init (fun _ l => l) S (.str "bg") = .ok c ∧ ValidFor s0.siteIds 2 3 sched ∧ runParallel controller (fun _ c => c) c s0 2 3 sched = .ok res ∧
    phaseFractionAt res 2 (.str "B") = .ok (1 / 4) ∧ phaseFractionAt res 3 (.str "B") = .ok (7 / 36) := by
  obtain ⟨S, g, hS, -, -, -, hsites, hc⟩ := gridR
  have q9 : ((9 : ℕ) : ℚ) / 36 = 1 / 4 := by norm_num
  have q7 : ((7 : ℕ) : ℚ) / 36 = 7 / 36 := by norm_num
  have hhash : ∀ k v, occ? init6 k = some v → v.hashable = true := by
    intro k v hv
    obtain ⟨p, hp, -⟩ := occ?_eq.1 hv
    obtain ⟨i, hi, rfl⟩ := mem6.1 (mem_of_siteState hp)
    have : ∀ i < 36, ((occ? init6 (.int (i : ℕ))).all fun v => v.hashable) = true := by decide +kernel
    have := this i hi
    rw [hv] at this
    exact this
  have hid : KnowsIds init6 := by
    intro k p hp
    obtain ⟨i, hi, rfl⟩ := mem6.1 (mem_of_siteState hp)
    have : ∀ i < 36, ((init6.getSiteState (.int (i : ℕ))).all fun p => decide (Dict.get? p SITE_ID = some (Key.int (i : ℕ)).toVal)) = true := by decide +kernel
    have := this i hi
    rw [hp] at this
    simpa using this
  obtain ⟨res, h1, h2, h3⟩ := C90_growth (.str "bg") ctlR init6 wf6 (by decide) (by decide) occR (fun _ c => c) (fun _ => rfl) (fun _ => nbR) 2 (by omega) 3 sched6 validR
  obtain ⟨ds, res', e1, e2, e3, e4, e5, -⟩ := growth_runs (.str "bg") (fun _ _ => True) ctlR init6 wf6 (by decide) (by decide) occR (fun _ c => c)
    (fun _ => ⟨rfl, fun t i hi => by obtain ⟨l, hl, hl'⟩ := nbR t i hi; exact ⟨l, hl, trivial, hl'⟩⟩) 2 (by omega) 3 sched6 validR
  rw [h1] at e1; cases e1
  have hv0 : ViewOf init6.siteIds init6 := ⟨wf6, rfl, by decide⟩
  have hkn : ∀ l : List Props, (∀ p ∈ l, PatchBy init6.siteIds (GrowthView (.str "bg") init6) (GrowthAnswer (.str "bg") init6.siteIds fun _ _ => True) p) →
      KnowsIds (after init6 l) := by
    intro l
    induction l using List.reverseRecOn with
    | nil => exact fun _ => hid
    | append_singleton l p ih =>
      intro hl
      rw [after_snoc]
      exact knows_setSitesP (hv0.after fun p hp => (hl p (by simp [hp])).1) (ih fun p hp => hl p (by simp [hp])) (hl p (by simp))
  have hfrac : ∀ k : ℕ, k ≤ 3 → ∀ n : ℕ, countR k (.str "B") = n → phaseFractionAt res k (.str "B") = .ok ((n : ℚ) / 36) := by
    intro k hk n hn
    have hsub := fun p (hp : p ∈ ds.take k) => e4 p (List.mem_of_mem_take hp)
    have hview := hv0.after fun p hp => (hsub p hp).1
    obtain ⟨a, q1, q2, q3, -⟩ := h3 k hk
    have q0 := e5 k hk
    rw [q1] at q0; cases q0
    have han : Analyzable (after init6 (ds.take k)) := ⟨hview.wf, hkn _ hsub, fun i hi => by
      rw [q2] at hi
      obtain ⟨v, hv, rfl | ⟨j, -, hj⟩⟩ := q3 i hi
      · exact ⟨_, hv, rfl⟩
      · exact ⟨v, hv, hhash j v hj⟩⟩
    have hsz : (after init6 (ds.take k)).size = 36 := by
      unfold SimState.size
      rw [q2]; rfl
    unfold phaseFractionAt
    rw [q1, ok_bind, cellFraction_none han (by rw [hsz]; decide) rfl, hsz]
    have : sitesWith (after init6 (ds.take k)) (.str "B") = countR k (.str "B") := by
      unfold sitesWith countR
      rw [q2, h1]
      simp only [occAt, q1]
      rw [show init6.siteIds = (List.range 36).map fun i : ℕ => Key.int i from rfl, List.filter_map, List.length_map]
      rfl
    rw [this, hn, Nat.cast_ofNat]
  obtain ⟨c2, c3⟩ := countR_B
  refine ⟨S, init6, ctlR, sched6, res, hS, ⟨wf6, rfl, hsites, occR, fun i hi => ?_⟩, hc, validR, h1, ?_, ?_⟩
  · obtain ⟨v, hv⟩ := occR (.int i) ((hsites _).2 ⟨i, hi, rfl⟩)
    obtain ⟨p, hp, -⟩ := occ?_eq.1 hv
    exact ⟨p, hp, hid _ p hp⟩
  · exact (hfrac 2 (by omega) 9 c2).trans (congrArg _ q9)
  · exact (hfrac 3 (by omega) 7 c3).trans (congrArg _ q7)

/-- C136 does not hold for every parallel run: in that run the cell (4, 1), whose only nearest nucleus, one move away, is the `B` in cell (5, 0), is `A` at the end. -/
theorem C136_parallel_false_grid : ∃ (S : Structure ℚ 2) (g : Graph ℚ) (s0 : SimState) (c : Ctl) (sched : ℕ → StepSched) (res : SimResult) (s : SimState) (i : ℕ) (p q : Val),
    SquareGrid 2 ![6, 6] S ∧ (moore 1).get S none = .ok g ∧ s0.WF ∧ s0.getGeneralState ≠ none ∧ SameSites S s0 ∧ AllOccupied s0 ∧
    Growth.init (fun _ l => l) S (.str "bg") = .ok c ∧ ValidFor s0.siteIds 2 3 sched ∧ runParallel controller (fun _ c => c) c s0 2 3 sched = .ok res ∧ res.lastStep = .ok s ∧
    i ∈ S.siteIds ∧ occ? s (.int i) = some q ∧ q ≠ p ∧
    ∀ h j : ℕ, occ? s0 (.int j) ≠ some (.str "bg") → Hops g.neighborsOf h i j →
      (∀ h' j' : ℕ, j' ∈ S.siteIds → occ? s0 (.int j') ≠ some (.str "bg") → Hops g.neighborsOf h' i j' → h ≤ h') → occ? s0 (.int j) = some p := by
  obtain ⟨S, g, hS, hg, hids, hnbs, hsites, hc⟩ := gridR
  obtain ⟨res, h1, h2, h3⟩ := C90_growth (.str "bg") ctlR init6 wf6 (by decide) (by decide) occR (fun _ c => c) (fun _ => rfl) (fun _ => nbR) 2 (by omega) 3 sched6 validR
  have h := runR
  rw [h1] at h
  obtain ⟨b, hb, -⟩ := h3 3 (by omega)
  have hb' : res.getStep 3 = .ok b := hb
  simp only [occAt, hb'] at h
  have hlast : res.lastStep = .ok b := by
    unfold SimResult.lastStep
    rw [h2]; exact hb
  refine ⟨S, g, init6, ctlR, sched6, res, b, 10, .str "B", .str "A", hS, hg, wf6, by decide, hsites, occR, hc, validR, h1, hlast,
    by rw [hids]; decide, h.2, by decide, fun h j hj hh hmin => ?_⟩
  have h5 := hmin 1 5 (by rw [hids]; decide) (by decide +kernel) (.inr ⟨5, by rw [hnbs 10 (by omega)]; decide +kernel, rfl⟩)
  have h10 : occ? init6 (.int (10 : ℕ)) = some (.str "bg") := by decide +kernel
  have hall : ∀ x ∈ ring6 10, occ? init6 (.int x) ≠ some (.str "bg") → occ? init6 (.int x) = some (.str "B") := by decide +kernel
  rcases Nat.le_one_iff_eq_zero_or_eq_one.1 h5 with rfl | rfl
  · obtain rfl : 10 = j := hh
    exact absurd h10 hj
  · rcases hh with hh | ⟨x, hx, hh⟩
    · obtain rfl : 10 = j := hh
      exact absurd h10 hj
    · obtain rfl : x = j := hh
      exact hall x (by rwa [hnbs 10 (by omega)] at hx) hj

end Pyl
