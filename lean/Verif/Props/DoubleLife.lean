import Verif.Props.Double
import Verif.Props.Life
/-
C101: Game of Life on grids with double precision coordinates; C100 for arbitrary motifs.
-/
set_option autoImplicit false
set_option linter.unusedSectionVars false

namespace Pyl
open Pyl.Lattice Structure SimState Spec
variable {d : ℕ}

/-- C100: any motif of integer offsets not longer than the grid (in particular the pseudohexagonal and pseudopentagonal ones): each site gets exactly
the other sites that an offset leads to around the torus, if the reciprocals of the sizes are exact; if a size is not and an offset points upwards along that axis,
TypeError. -/
theorem C100_motif_partial {N : Fin d → ℤ} {s : Structure ℚ d} (hs : DoubleGrid d N s) (offs : List (Fin d → ℤ))
    (ho : ∀ v ∈ offs, ∀ j, |v j| ≤ N j) :
    ((∀ j, ReciprocalExact (N j)) → ∃ g, Dbl.motifGet (offs.map intPoint) s = .ok g ∧ ∀ i j a b, SiteHas s i a → SiteHas s j b →
      (j ∈ g.neighborsOf i ↔ j ≠ i ∧ ∃ v ∈ offs, ∀ k, N k ∣ b k - (a k + v k))) ∧
    ((∃ j, ¬ ReciprocalExact (N j) ∧ ∃ v ∈ offs, 0 < v j) → Dbl.motifGet (offs.map intPoint) s = .error .typeError) := by
  obtain ⟨s0, h⟩ := hs.behind
  have hm := h.motif offs ho
  refine ⟨fun hex => ?_, hm.2⟩
  obtain ⟨g, hg, hgm⟩ := torus_motif h.torus offs
  exact ⟨g, by rw [hm.1 hex]; exact hg, fun i j a b ha hb => hgm i j a b (h.siteHas.1 ha) (h.siteHas.1 hb)⟩

/-- C101: Game of Life with the coordinates in double precision.  If `N j * (1 / N j)` is 1 in double arithmetic for both sizes, step `k` shows the
`k`-th generation on the torus; otherwise every run, also one of 0 steps, raises TypeError. -/
theorem C101_life_partial {S : Structure ℚ 2} {N : Fin 2 → ℤ} (hS : DoubleGrid 2 N S) (b sv : List (Fin 10)) (s0 : SimState) (hs : s0.WF)
    (hg : s0.getGeneralState ≠ none) (hsites : SameSites S s0) (L : Set (Fin 2 → ℤ)) (hL : ShowsLife S s0 L) (n : ℕ) :
    ∃ c, Life.init none S (variantText b sv) = .ok c ∧
      ((∀ j, ReciprocalExact (N j)) → ∃ c' res, runSync Dbl.lifeController c s0 n = .ok (c', res) ∧ res.len = n + 1 ∧
        ∀ k : ℕ, k ≤ n → ∃ s, res.getStep k = .ok s ∧ SameSites S s ∧
          ShowsLife S s ((generation N (digitValues b) (digitValues sv))^[k] L)) ∧
      ((∃ j, ¬ ReciprocalExact (N j)) → runSync Dbl.lifeController c s0 n = .error .typeError) := by
  obtain ⟨T, h⟩ := hS.behind
  have h1N : ∀ j, 1 ≤ N j := fun j => (h.size j).1
  have hinit : Life.init none S (variantText b sv) = .ok ⟨digitValues b, digitValues sv, S, none⟩ := by
    unfold Life.init
    rw [Option.getD_none, C61_variant]; rfl
  refine ⟨_, hinit, fun hex => ?_, fun hex => ?_⟩
  · have e0 : getPointsInCube (-1) (1 + 1) 2 = (getPointsInCube (-1) (1 + 1) 2).filter fun _ => true := by simp
    have hm := (h.motif ((getPointsInCube (-1) (1 + 1) 2).map (cellVec 2)) (by rw [e0]; exact cube_le h1N)).1 hex
    obtain ⟨g, hget, hgn⟩ := torus_moore h.torus 1
    have hgl : ∀ i j, j ∈ g.neighborsOf i → j ∈ T.siteIds := fun i j hj => ((C55_known_and_other h.torus.reachable _ none g hget i).1 j hj).1
    have hD : Dbl.mooreGet 1 S = .ok g := by
      rw [Dbl.mooreGet, ← hget, moore_eq, ← hm, List.map_map]; rfl
    have e1 : SameSites S = SameSites T := by rw [h.eq]; rfl
    have e2 : ShowsLife S = ShowsLife T := by rw [h.eq]; rfl
    rw [e1] at hsites
    rw [e2] at hL
    obtain ⟨c', res, h1, h2, h3⟩ := life_run (ctl := Dbl.lifeController) (T := S) h.torus rfl hgn hgl (digitValues b) (digitValues sv) s0 hs (by
      show Dbl.lifePreRun _ _ = _
      unfold Dbl.lifePreRun
      simp only [hD, ok_bind]; rfl) hg hsites L hL n
    rw [e1, e2]
    exact ⟨c', res, h1, h2, h3⟩
  · have hD := (C100_moore_partial hS 1 le_rfl h1N).2 hex
    unfold runSync
    show (Dbl.lifePreRun _ _ >>= _) = _
    unfold Dbl.lifePreRun
    simp only [hD]
    rfl

theorem double_life_state {S : Structure ℚ 2} {N : Fin 2 → ℤ} (hS : DoubleGrid 2 N S) (L : Set (Fin 2 → ℤ)) :
    ∃ s0 : SimState, s0.WF ∧ s0.getGeneralState ≠ none ∧ SameSites S s0 ∧ ShowsLife S s0 L := by
  obtain ⟨T, h⟩ := hS.behind
  obtain ⟨s0, h1, h2, h3, h4⟩ := life_state_exists h.torus L
  have e1 : SameSites S = SameSites T := by rw [h.eq]; rfl
  have e2 : ShowsLife S = ShowsLife T := by rw [h.eq]; rfl
  exact ⟨s0, h1, h2, by rw [e1]; exact h3, by rw [e2]; exact h4⟩

/-- C101: the unrestricted claim is false on the 49 x 49 grid: no pattern and rule can be run. -/
theorem C101_false (b sv : List (Fin 10)) (L : Set (Fin 2 → ℤ)) (n : ℕ) : ∃ S s0 c, Dbl.buildSquare2 (.int 49) = .ok S ∧ s0.WF ∧
    SameSites S s0 ∧ ShowsLife S s0 L ∧ Life.init none S (variantText b sv) = .ok c ∧
    runSync Dbl.lifeController c s0 n = .error .typeError := by
  obtain ⟨S, hS, hg, -⟩ := (C99_square2 49 1 1 (by norm_num) (by norm_num) (by norm_num)).1
  obtain ⟨s0, h1, h2, h3, h4⟩ := double_life_state hg L
  obtain ⟨c, h5, -, h6⟩ := C101_life_partial hg b sv s0 h1 h2 h3 L h4 n
  exact ⟨S, s0, c, hS, h1, h3, h4, h5, h6 ⟨0, C100_sizes.2.1⟩⟩

/-- Non-vacuity: a blinker on a 5 x 4 grid. -/
example : ∃ S s0 c c' res, DoubleGrid 2 ![5, 4] S ∧ ShowsLife S s0 blinker ∧ Life.init none S Life.life = .ok c ∧
    runSync Dbl.lifeController c s0 2 = .ok (c', res) ∧ res.len = 3 := by
  obtain ⟨S, -, hg, -⟩ := (C99_square2 1 4 5 (by norm_num) (by norm_num) (by norm_num)).2
  obtain ⟨s0, h1, h2, h3, h4⟩ := double_life_state hg blinker
  obtain ⟨c, h5, h6, -⟩ := C101_life_partial hg [3] [2, 3] s0 h1 h2 h3 blinker h4 2
  obtain ⟨c', res, h7, h8, -⟩ := h6 fun j => by
    fin_cases j
    · exact C100_sizes.1 5 (by norm_num) (by norm_num)
    · exact C100_sizes.1 4 (by norm_num) (by norm_num)
  exact ⟨S, s0, c, c', res, hg, h4, h5, h7, h8⟩

/-- Non-vacuity of `C100_motif_partial`: the first pseudohexagonal motif on 7 x 6 and on 49 x 49. -/
example : (∃ s g, DoubleGrid 2 ![7, 6] s ∧ Dbl.motifGet ([![1, 0], ![0, 1], ![-1, 0], ![0, -1], ![1, 1], ![-1, -1]].map intPoint) s = .ok g) ∧
    ∃ s, DoubleGrid 2 ![49, 49] s ∧ Dbl.motifGet ([![1, 0], ![0, 1], ![-1, 0], ![0, -1], ![1, 1], ![-1, -1]].map intPoint) s = .error .typeError := by
  constructor
  · obtain ⟨s, -, hg, -⟩ := (C99_square2 1 6 7 (by norm_num) (by norm_num) (by norm_num)).2
    obtain ⟨g, h, -⟩ := (C100_motif_partial hg [![1, 0], ![0, 1], ![-1, 0], ![0, -1], ![1, 1], ![-1, -1]] (by decide)).1 fun j => by
      fin_cases j
      · exact C100_sizes.1 7 (by norm_num) (by norm_num)
      · exact C100_sizes.1 6 (by norm_num) (by norm_num)
    exact ⟨s, g, hg, h⟩
  · obtain ⟨s, -, hg, -⟩ := (C99_square2 49 1 1 (by norm_num) (by norm_num) (by norm_num)).1
    exact ⟨s, hg, (C100_motif_partial hg [![1, 0], ![0, 1], ![-1, 0], ![0, -1], ![1, 1], ![-1, -1]] (by decide)).2
      ⟨0, C100_sizes.2.1, ![1, 0], by simp, by decide⟩⟩

end Pyl
