import Verif.Props.DoubleSites
import Verif.Props.GrowthSetup
/-
C106-C109: interfaces, particles, listed coordinates, noise and growth in double precision.
-/
set_option autoImplicit false
set_option linter.unusedSectionVars false

namespace Pyl
open Pyl.Lattice Structure SimState Spec GridSetup Growth
variable {d : ℕ}

/-- The structure a setup builds in double precision, together with the one that the exact setup builds. -/
theorem doubleSetup_exact {G : GridSetup ℚ d} (hG : DoubleSetup d G) {n : ℤ} (hn : 0 < n ∧ n ≤ 2 ^ 30) :
    ∃ (G0 : GridSetup ℚ d) (S s0 : Structure ℚ d), StdSetup d G0 ∧ G0.builder (.int n) = .ok s0 ∧ G.builder (.int n) = .ok S ∧ DoubleGrid d (fun _ => n) S ∧ Behind (fun _ => n) S s0 := by
  cases hG with
  | two =>
    obtain ⟨s0, h0, ht, hc⟩ := completeTorus (isGrid2 (K := ℚ)) (fun _ => n) fun _ => hn.1
    obtain ⟨h1, h2, h3⟩ := Dbl.buildFrom_grid isGrid2 (fun _ => hn) h0
    have hg : DoubleGrid 2 ![n, n] _ := .two (.int n) _ n n hn hn (.inr ⟨rfl, rfl⟩) h1
    rw [show ![n, n] = fun _ : Fin 2 => n by funext j; fin_cases j <;> rfl] at hg
    exact ⟨gridSetup2, _, s0, .two, h0, h1, hg, ⟨_, _, _, isGrid2, fun _ => hn, rfl, h2⟩, h3, rfl, ht, fun i hi => (hc.1 i hi).1⟩
  | three =>
    obtain ⟨s0, h0, ht, hc⟩ := completeTorus (isGrid3 (K := ℚ)) (fun _ => n) fun _ => hn.1
    obtain ⟨h1, h2, h3⟩ := Dbl.buildFrom_grid isGrid3 (fun _ => hn) h0
    have hg : DoubleGrid 3 ![n, n, n] _ := .three (.int n) _ n n n hn hn hn (.inr ⟨rfl, rfl, rfl⟩) h1
    rw [show ![n, n, n] = fun _ : Fin 3 => n by funext j; fin_cases j <;> rfl] at hg
    exact ⟨gridSetup3, _, s0, .three, h0, h1, hg, ⟨_, _, _, isGrid3, fun _ => hn, rfl, h2⟩, h3, rfl, ht, fun i hi => (hc.1 i hi).1⟩

namespace Behind
variable {N : Fin d → ℤ} {S s0 : Structure ℚ d} (h : Behind N S s0)
include h

theorem sitesOf : S.sitesOf none = s0.sitesOf none := by rw [h.eq]; rfl
theorem siteIds : S.siteIds = s0.siteIds := by rw [h.eq]; rfl
theorem blank : GridSetup.blank S = GridSetup.blank s0 := by funext v; unfold GridSetup.blank; rw [h.sitesOf]
theorem startState : StartState S = StartState s0 := by rw [h.eq]; rfl
theorem shows {s : SimState} {f : (Fin d → ℤ) → Val} (hs : Shows s0 s f) : Shows S s f := fun i c hc => hs i c (h.siteHas.1 hc)
theorem lattice : S.lattice = s0.lattice := by rw [h.eq]; rfl

end Behind

/-- The length of the first lattice vector is computed exactly. -/
theorem dblVecLength {n : ℤ} {S s0 : Structure ℚ d} (h : Behind (fun _ => n) S s0) (hd : 0 < d) (hn : n ≤ 2 ^ 25) {nrm : (Fin d → ℚ) → ℚ}
    (hs : SquaresOf nrm) : Dbl.vecLength0 nrm S.lattice = .ok (n : ℚ) := by
  obtain ⟨L, σ, m, hg, hm, hN, hL⟩ := h.ex
  have hn0 : 0 < n := (h.size ⟨0, hd⟩).1
  have em : m ⟨0, hd⟩ = n := by
    have := congrFun hN (σ ⟨0, hd⟩)
    simp only [hg.inv] at this
    exact this.symm
  unfold Dbl.vecLength0
  rw [dif_pos hd, h.lattice, hL]
  have e : (L.scaled m).mat ⟨0, hd⟩ = fun j => ((if j = σ ⟨0, hd⟩ then n else 0 : ℤ) : ℚ) := by
    funext j
    simp only [scaled, hg.mat, em]
    split_ifs <;> simp
  have es : ∑ j, (if j = σ ⟨0, hd⟩ then n else 0 : ℤ) ^ 2 = n ^ 2 := by
    rw [Finset.sum_eq_single (σ ⟨0, hd⟩)]
    · rw [if_pos rfl]
    · intro b _ hb; rw [if_neg hb]; rfl
    · intro h; exact absurd (Finset.mem_univ _) h
  rw [e, hs.ints _ (by rw [es]; nlinarith), es]
  push_cast
  rw [flSqrt_sq (by exact_mod_cast hn0.le) ⟨n, 0, by rw [abs_le]; constructor <;> linarith, by simp⟩]

theorem fl_halfInt {n : ℤ} (hn : |n| ≤ 2 ^ 53) : fl ((n : ℚ) / 2) = n / 2 := by
  apply fl_of_isDouble
  exact ⟨n, -1, hn, by rw [zpow_neg, zpow_one]; ring⟩

/-! ### C106: interface and particle -/

/-- C106: in double precision too, `setup_interface(n, p1, p2)` gives `p1` to the sites whose first coordinate is below `n // 2` and `p2` to all others. -/
theorem C106_interface {G : GridSetup ℚ d} (hG : DoubleSetup d G) (nrm : (Fin d → ℚ) → ℚ) (hs : SquaresOf nrm) (n : ℤ) (hn : 0 < n ∧ n ≤ 2 ^ 25) (p1 p2 : Val)
    (h1 : p1.WF) (h2 : p2.WF) :
    ∃ S s, Dbl.interface G nrm (.int n) p1 p2 = .ok ⟨s, S⟩ ∧ DoubleGrid d (fun _ => n) S ∧ StartState S s ∧
      Shows S s fun c => if c ⟨0, hG.dim⟩ < n / 2 then p1 else p2 := by
  have hn' : 0 < n ∧ n ≤ 2 ^ 30 := ⟨hn.1, by linarith [hn.2]⟩
  obtain ⟨G0, S, s0, hG0, hb0, hb, hg, hB⟩ := doubleSetup_exact hG hn'
  obtain ⟨S', s, h3, -, h5, h6⟩ := C64_interface hG0 n hn.1 p1 p2 h1 h2
  obtain ⟨S'', hb', -, hlen, -⟩ := setup_builds hG0 hn.1
  rw [hb0] at hb'
  injection hb' with hb'
  subst hb'
  unfold GridSetup.interface at h3
  rw [hb0, ok_bind, hlen, ok_bind] at h3
  injection h3 with h3
  injection h3 with h3 h3'
  subst h3'
  refine ⟨S, s, ?_, hg, by rw [hB.startState]; exact h5, hB.shows h6⟩
  unfold Dbl.interface
  rw [hb, ok_bind, dblVecLength hB hG.dim hn.2 hs, ok_bind, hB.sitesOf, hB.blank, fl_halfInt (by rw [abs_le]; constructor <;> linarith), ← h3]
  rfl

/-- The distance between a site and the centre is decided by exact integers: twice the differences. -/
theorem dblDistance {sq : (Fin d → ℚ) → ℚ} (hs : SquaresOf sq) {a : Fin d → ℤ} {b : Fin d → ℚ} (b2 : Fin d → ℤ) (hb : ∀ j, b j = (b2 j : ℚ) / 2)
    (hQ : ∑ j, (2 * a j - b2 j) ^ 2 ≤ 2 ^ 46) :
    Dbl.distance sq (intPoint a) b = flSqrt (((∑ j, (2 * a j - b2 j) ^ 2 : ℤ) : ℚ) / 4) := by
  have hle : ∀ j, |2 * a j - b2 j| ≤ 2 ^ 53 := fun j => by
    have h1 : (2 * a j - b2 j) ^ 2 ≤ 2 ^ 46 := le_trans (Finset.single_le_sum (f := fun j => (2 * a j - b2 j) ^ 2) (fun i _ => sq_nonneg _) (Finset.mem_univ j)) hQ
    rw [abs_le]
    constructor <;> nlinarith
  unfold Dbl.distance
  have e : (fun j => fl ((intPoint a : Fin d → ℚ) j - b j)) = fun j => ((2 * a j - b2 j : ℤ) : ℚ) / 2 := by
    funext j
    rw [hb, ← fl_halfInt (hle j)]
    congr 1
    simp only [intPoint]
    push_cast; ring
  rw [e, hs.halves _ (by linarith)]

/-- For the radius `k / 2` the comparison of the rounded root is exact. -/
theorem dblCloser {sq : (Fin d → ℚ) → ℚ} (hs : SquaresOf sq) {a : Fin d → ℤ} {b : Fin d → ℚ} (b2 : Fin d → ℤ) (hb : ∀ j, b j = (b2 j : ℚ) / 2)
    (hQ : ∑ j, (2 * a j - b2 j) ^ 2 ≤ 2 ^ 46) (k : ℤ) (hk : |k| ≤ 2 ^ 53) :
    Dbl.distance sq (intPoint a) b < (k : ℚ) / 2 ↔ closerThan (intPoint a) b ((k : ℚ) / 2) := by
  rw [dblDistance hs b2 hb hQ, flSqrt_lt_half (Finset.sum_nonneg fun i _ => sq_nonneg _) hQ k hk]
  unfold closerThan
  have e : ∑ j, ((intPoint a : Fin d → ℚ) j - b j) ^ 2 = ((∑ j, (2 * a j - b2 j) ^ 2 : ℤ) : ℚ) / 4 := by
    push_cast
    rw [Finset.sum_div]
    refine Finset.sum_congr rfl fun j _ => ?_
    rw [hb]; simp only [intPoint]; ring
  rw [e]
  constructor
  · rintro ⟨h1, h2⟩
    have h1' : (0 : ℚ) < k := by exact_mod_cast h1
    have h2' : ((∑ j, (2 * a j - b2 j) ^ 2 : ℤ) : ℚ) < k ^ 2 := by exact_mod_cast h2
    exact ⟨by linarith, by nlinarith⟩
  · rintro ⟨h1, h2⟩
    have h1' : (0 : ℚ) < k := by linarith
    have h2' : ((∑ j, (2 * a j - b2 j) ^ 2 : ℤ) : ℚ) < k ^ 2 := by nlinarith
    exact ⟨by exact_mod_cast h1', by exact_mod_cast h2'⟩

theorem sum_sq_le {n : ℤ} (hd : d ≤ 3) (f : Fin d → ℤ) (hf : ∀ j, |f j| ≤ n) : ∑ j, f j ^ 2 ≤ 3 * n ^ 2 := by
  calc ∑ j, f j ^ 2 ≤ ∑ _j : Fin d, n ^ 2 := Finset.sum_le_sum fun j _ => sq_le_sq' (abs_le.1 (hf j)).1 (abs_le.1 (hf j)).2
    _ = d * n ^ 2 := by simp
    _ ≤ 3 * n ^ 2 := by
      have : (d : ℤ) ≤ 3 := by exact_mod_cast hd
      exact mul_le_mul_of_nonneg_right this (sq_nonneg n)

theorem DoubleSetup.dim3 {G : GridSetup ℚ d} (hG : DoubleSetup d G) : d ≤ 3 := by cases hG <;> norm_num

/-- Adding a particle with an integer or half-integer radius does the same in double precision. -/
theorem dblAddParticle {n : ℤ} (hd : d ≤ 3) (hn : 0 < n ∧ n ≤ 2 ^ 20) {S s0 : Structure ℚ d} (h : Behind (fun _ => n) S s0) {sq : (Fin d → ℚ) → ℚ} (hs : SquaresOf sq)
    (s : SimState) {b : Fin d → ℚ} (b2 : Fin d → ℤ) (hb : ∀ j, b j = (b2 j : ℚ) / 2) (hb2 : ∀ j, 0 ≤ b2 j ∧ b2 j ≤ 2 * n) (k : ℤ) (hk : |k| ≤ 2 ^ 53) (v : Val) :
    Dbl.addParticle sq S s b ((k : ℚ) / 2) v = GridSetup.addParticle s0 s b ((k : ℚ) / 2) v := by
  unfold Dbl.addParticle GridSetup.addParticle
  rw [h.sitesOf]
  have hsite : ∀ t ∈ s0.sitesOf none, Dbl.distance sq t.loc b < (k : ℚ) / 2 ↔ closerThan t.loc b ((k : ℚ) / 2) := by
    intro t ht
    obtain ⟨c, hc, hsc⟩ := h.torus.site t.id ((mem_siteIds_iff h.torus.reachable).2 ⟨t, ht, rfl⟩)
    obtain ⟨t', ht', e, hl⟩ := site_of_has h.torus.reachable hsc
    have e1 := (mem_sitesOf h.torus.reachable).1 ht
    have e2 := (mem_sitesOf h.torus.reachable).1 ht'
    rw [e, e1] at e2
    injection e2 with e2
    subst e2
    rw [hl]
    refine dblCloser hs b2 hb ?_ k hk
    refine le_trans (sum_sq_le (n := 2 * n) hd _ fun j => ?_) ?_
    · have := hc j; have := hb2 j
      rw [abs_le]; constructor <;> linarith
    · nlinarith [hn.1, hn.2]
  generalize s0.sitesOf none = l at hsite
  induction l generalizing s with
  | nil => rfl
  | cons t l ih =>
    rw [List.foldl_cons, List.foldl_cons]
    have e := hsite t (by simp)
    by_cases hc : closerThan t.loc b ((k : ℚ) / 2)
    · rw [if_pos hc, if_pos (e.2 hc)]
      exact ih _ fun u hu => hsite u (by simp [hu])
    · rw [if_neg hc, if_neg fun h' => hc (e.1 h')]
      exact ih _ fun u hu => hsite u (by simp [hu])

/-- C106: for integer and half-integer radii, `setup_particle` in double precision gives the particle phase exactly to the sites closer than the radius to the point
with all coordinates `n / 2` (distances compared by their squares), and the bulk phase to all others. -/
theorem C106_particle_partial {G : GridSetup ℚ d} (hG : DoubleSetup d G) (nrm sq : (Fin d → ℚ) → ℚ) (hnrm : SquaresOf nrm) (hsq : SquaresOf sq)
    (n : ℤ) (hn : 0 < n ∧ n ≤ 2 ^ 20) (k : ℤ) (hk : |k| ≤ 2 ^ 53) (bulk phase : Val) (h1 : bulk.WF) (h2 : phase.WF) :
    ∃ S s, Dbl.particle G nrm sq (.int n) (k / 2) bulk phase = .ok ⟨s, S⟩ ∧ DoubleGrid d (fun _ => n) S ∧ StartState S s ∧
      Shows S s fun c => if (0 : ℚ) < k / 2 ∧ ∑ j, ((c j : ℚ) - n / 2) ^ 2 < (k / 2 : ℚ) ^ 2 then phase else bulk := by
  obtain ⟨G0, S, s0, hG0, hb0, hb, hg, hB⟩ := doubleSetup_exact hG (n := n) ⟨hn.1, by linarith [hn.2]⟩
  obtain ⟨S', s, h3, -, h5, h6⟩ := C65_particle hG0 n hn.1 ((k : ℚ) / 2) bulk phase h1 h2
  obtain ⟨S'', hb', -, hlen, -⟩ := setup_builds hG0 hn.1
  rw [hb0] at hb'
  injection hb' with hb'
  subst hb'
  unfold GridSetup.particle at h3
  rw [hb0, ok_bind, hlen, ok_bind] at h3
  injection h3 with h3
  injection h3 with h3 h3'
  subst h3'
  refine ⟨S, s, ?_, hg, by rw [hB.startState]; exact h5, hB.shows h6⟩
  unfold Dbl.particle
  rw [hb, ok_bind, dblVecLength hB hG.dim (by linarith [hn.2]) hnrm, ok_bind, hB.blank,
    dblAddParticle hG.dim3 hn hB hsq _ (fun _ => n) (fun _ => fl_halfInt (by rw [abs_le]; constructor <;> linarith)) (fun _ => ⟨hn.1.le, by linarith⟩) k hk,
    fl_halfInt (by rw [abs_le]; constructor <;> linarith), ← h3]
  rfl

/-- Painting with any condition on the sites. -/
theorem Painted.dblAddParticle {S : Structure ℚ d} (hS : S.Reachable) {s : SimState} {f : Site ℚ d → Val} (h : Painted S s f) (sq : (Fin d → ℚ) → ℚ)
    (center : Fin d → ℚ) (r : ℚ) {v : Val} (hv : v.WF) :
    Painted S (Dbl.addParticle sq S s center r v) (fun t => if Dbl.distance sq t.loc center < r then v else f t) := by
  have hp := h.paint hS (fun t => if Dbl.distance sq t.loc center < r then some v else none) (by
    intro t _ w e
    split_ifs at e
    injection e with e; rwa [← e])
  have e : Dbl.addParticle sq S s center r v = (S.sitesOf none).foldl (fun s t =>
      match (if Dbl.distance sq t.loc center < r then some v else none) with | some v => setOcc s t.id v | none => s) s := by
    unfold Dbl.addParticle
    congr 1
    funext s t
    split_ifs <;> rfl
  rw [e]
  refine hp.congr fun t _ => ?_
  split_ifs <;> rfl

/-- C106: for any double as radius, every site holds the particle phase or the bulk phase; a site that is not closer than the radius holds the bulk phase; and a site
whose distance is at most some double below the radius holds the particle phase.  (Between the radius and the double before it both can happen.) -/
theorem C106_any_radius_partial {G : GridSetup ℚ d} (hG : DoubleSetup d G) (nrm sq : (Fin d → ℚ) → ℚ) (hnrm : SquaresOf nrm) (hsq : SquaresOf sq)
    (n : ℤ) (hn : 0 < n ∧ n ≤ 2 ^ 20) (r : ℚ) (hr : IsDouble r) (bulk phase : Val) (h1 : bulk.WF) (h2 : phase.WF) :
    ∃ S s, Dbl.particle G nrm sq (.int n) r bulk phase = .ok ⟨s, S⟩ ∧ DoubleGrid d (fun _ => n) S ∧ StartState S s ∧ ∀ i c, SiteHas S i c →
      (occ? s (.int i) = some phase ∨ occ? s (.int i) = some bulk) ∧
      (¬ Real.sqrt (∑ j, ((c j : ℝ) - n / 2) ^ 2) < r → occ? s (.int i) = some bulk) ∧
      ∀ r', IsDouble r' → r' < r → Real.sqrt (∑ j, ((c j : ℝ) - n / 2) ^ 2) ≤ r' → occ? s (.int i) = some phase := by
  obtain ⟨G0, S, s0, hG0, hb0, hb, hg, hB⟩ := doubleSetup_exact hG (n := n) ⟨hn.1, by linarith [hn.2]⟩
  have hp := (painted_blank hB.torus.reachable h1).dblAddParticle hB.torus.reachable sq (fun _ => fl ((n : ℚ) / 2)) r h2
  refine ⟨S, _, ?_, hg, by rw [hB.startState]; exact hp.startState hB.torus.reachable, fun i c hc => ?_⟩
  · unfold Dbl.particle
    rw [hb, ok_bind, dblVecLength hB hG.dim (by linarith [hn.2]) hnrm, ok_bind, hB.blank]
    unfold Dbl.addParticle
    rw [hB.sitesOf]
    rfl
  rw [hB.siteHas] at hc
  obtain ⟨t, ht, rfl, hl⟩ := site_of_has hB.torus.reachable hc
  rw [hp.occ t ht, hl]
  have hbox := hB.torus.inBox_of_has hc
  have hQ : ∑ j, (2 * c j - n) ^ 2 ≤ 2 ^ 46 := by
    refine le_trans (sum_sq_le (n := n) hG.dim3 _ fun j => ?_) (by nlinarith [hn.1, hn.2])
    have := hbox j
    rw [abs_le]; constructor <;> linarith
  have hd := dblDistance hsq (a := c) (b := fun _ => fl ((n : ℚ) / 2)) (fun _ => n) (fun _ => fl_halfInt (by rw [abs_le]; constructor <;> linarith)) hQ
  have hq0 : (0 : ℚ) ≤ ((∑ j, (2 * c j - n) ^ 2 : ℤ) : ℚ) / 4 :=
    div_nonneg (by exact_mod_cast Finset.sum_nonneg fun i _ => sq_nonneg (2 * c i - n)) (by norm_num)
  have e : ∑ j, ((c j : ℝ) - n / 2) ^ 2 = ((((∑ j, (2 * c j - n) ^ 2 : ℤ) : ℚ) / 4 : ℚ) : ℝ) := by
    push_cast
    rw [Finset.sum_div]
    exact Finset.sum_congr rfl fun j _ => by ring
  rw [hd, e]
  refine ⟨?_, fun h => ?_, fun r' hr' hlt h => ?_⟩
  · split_ifs
    · exact .inl rfl
    · exact .inr rfl
  · rw [if_neg]
    exact not_lt.2 (flSqrt_ge hq0 hr (not_lt.1 h))
  · rw [if_pos]
    exact lt_of_le_of_lt (flSqrt_le hq0 hr' h) hlt

/-- C106 is false for arbitrary radii: for the double nearest to the square root of 2, which is larger than it, the site (1, 1) of a 4 x 4 grid is closer to the centre
than the radius, but its computed distance equals the radius, and it holds the bulk phase. -/
theorem C106_false (nrm sq : (Fin 2 → ℚ) → ℚ) (hnrm : SquaresOf nrm) (hsq : SquaresOf sq) (bulk phase : Val) (h1 : bulk.WF) (h2 : phase.WF) :
    ∃ r, IsDouble r ∧ Real.sqrt (((1 : ℝ) - 4 / 2) ^ 2 + ((1 : ℝ) - 4 / 2) ^ 2) < r ∧
      ∃ S s, Dbl.particle Dbl.gridSetup2 nrm sq (.int 4) r bulk phase = .ok ⟨s, S⟩ ∧ ∀ i, SiteHas S i ![1, 1] → occ? s (.int i) = some bulk := by
  have hr : IsDouble (flSqrt 2) := isDouble_flSqrt 2
  have hlt : Real.sqrt (((1 : ℝ) - 4 / 2) ^ 2 + ((1 : ℝ) - 4 / 2) ^ 2) < (flSqrt 2 : ℚ) := by
    have h3 : (0 : ℚ) < flSqrt 2 ∧ (2 : ℚ) < flSqrt 2 ^ 2 := by decide +kernel
    have h4 : (0 : ℝ) < (flSqrt 2 : ℚ) := by exact_mod_cast h3.1
    rw [Real.sqrt_lt' h4]
    have : (2 : ℝ) < ((flSqrt 2 : ℚ) : ℝ) ^ 2 := by exact_mod_cast h3.2
    linarith
  refine ⟨flSqrt 2, hr, hlt, ?_⟩
  obtain ⟨G0, S, s0, hG0, hb0, hb, hg, hB⟩ := doubleSetup_exact .two (n := 4) (by norm_num)
  have hp := (painted_blank hB.torus.reachable h1).dblAddParticle hB.torus.reachable sq (fun _ => fl (((4 : ℤ) : ℚ) / 2)) (flSqrt 2) h2
  refine ⟨S, Dbl.addParticle sq s0 (GridSetup.blank s0 bulk) (fun _ => fl (((4 : ℤ) : ℚ) / 2)) (flSqrt 2) phase, ?_, fun i hc => ?_⟩
  · unfold Dbl.particle
    rw [hb, ok_bind, dblVecLength hB (by norm_num) (by norm_num) hnrm, ok_bind, hB.blank]
    unfold Dbl.addParticle
    rw [hB.sitesOf]
    rfl
  rw [hB.siteHas] at hc
  obtain ⟨t, ht, rfl, hl⟩ := site_of_has hB.torus.reachable hc
  rw [hp.occ t ht, hl, dblDistance hsq (fun _ => 4) (fun _ => fl_halfInt (by norm_num)) (by simp), if_neg]
  apply not_lt.2
  apply le_of_eq
  congr 1
  norm_num [Fin.sum_univ_two]

/-! ### C107: random particles and noise -/

/-- C107: random particles with an integer or half-integer radius in double precision: the particles cover the balls around grid points, the last one wins, everything
else is bulk (for whatever `random.choice` picks from, see C83). -/
theorem C107_particles_partial {G : GridSetup ℚ d} (hG : DoubleSetup d G) (nrm sq : (Fin d → ℚ) → ℚ) (hnrm : SquaresOf nrm) (hsq : SquaresOf sq)
    (n : ℤ) (hn : 0 < n ∧ n ≤ 2 ^ 20) (k : ℤ) (hk : |k| ≤ 2 ^ 53) (num : ℕ) (bulk : Val) (hbulk : bulk.WF)
    (phases : GridSetup.PhasesArg) (hne : phases.seq ≠ []) (hp : ∀ p ∈ phases.seq, p.WF) (coord : ℕ → Fin d → ℕ) (draw : ℕ → ℕ) :
    ∃ S s centre phase, Dbl.randomParticles G nrm sq (.int n) (k / 2) num bulk phases coord draw = .ok ⟨s, S⟩ ∧ DoubleGrid d (fun _ => n) S ∧ StartState S s ∧
      (∀ p, InBox (fun _ => n) (centre p) ∧ phase p ∈ phases.seq) ∧
      (∀ p j, centre p j = coord p j % n) ∧ (∀ p, phases.seq[draw p % phases.seq.length]? = some (phase p)) ∧
      ∀ i c, SiteHas S i c → ∃ v, occ? s (.int i) = some v ∧ LastDropped ((k : ℚ) / 2) centre phase num bulk c v := by
  obtain ⟨G0, S, s0, hG0, hb0, hb, hg, hB⟩ := doubleSetup_exact hG (n := n) ⟨hn.1, by linarith [hn.2]⟩
  obtain ⟨S', s, centre, phase, h3, -, h5, h6, h7, h8, h9⟩ := C83_particles_partial hG0 n hn.1 ((k : ℚ) / 2) num bulk hbulk phases hne hp coord draw
  obtain ⟨S'', hb', -, hlen, -⟩ := setup_builds hG0 hn.1
  rw [hb0] at hb'
  injection hb' with hb'
  subst hb'
  unfold GridSetup.randomParticles at h3
  rw [hb0, ok_bind, hlen, ok_bind] at h3
  have e : (fun (s : SimState) (p : ℕ) => (do
      if pyInt (n : ℚ) ≤ 0 then .error .valueError
      else do
        let phase ← choice phases.seq (draw p)
        pure (Dbl.addParticle sq S s (fun j => (((coord p j : ℤ) % pyInt (n : ℚ) : ℤ) : ℚ)) ((k : ℚ) / 2) phase) : Py SimState)) =
      fun (s : SimState) (p : ℕ) => (do
      if pyInt (n : ℚ) ≤ 0 then .error .valueError
      else do
        let phase ← choice phases.seq (draw p)
        pure (GridSetup.addParticle s0 s (fun j => (((coord p j : ℤ) % pyInt (n : ℚ) : ℤ) : ℚ)) ((k : ℚ) / 2) phase) : Py SimState) := by
    funext s p
    rw [pyInt_cast hn.1]
    congr 2
    funext v
    rw [dblAddParticle hG.dim3 hn hB hsq s (fun j => 2 * ((coord p j : ℤ) % n)) (fun j => by push_cast; ring) (fun j => ?_) k hk v]
    have h1 := Int.emod_nonneg (coord p j : ℤ) hn.1.ne'
    have h2 := Int.emod_lt_of_pos (coord p j : ℤ) hn.1
    constructor <;> linarith
  cases hf : (List.range num).foldlM (fun (s : SimState) (p : ℕ) => (do
      if pyInt (n : ℚ) ≤ 0 then .error .valueError
      else do
        let phase ← choice phases.seq (draw p)
        pure (GridSetup.addParticle s0 s (fun j => (((coord p j : ℤ) % pyInt (n : ℚ) : ℤ) : ℚ)) ((k : ℚ) / 2) phase) : Py SimState)) (GridSetup.blank s0 bulk) with
  | error e => rw [hf] at h3; cases h3
  | ok st =>
    rw [hf, ok_bind] at h3
    injection h3 with h3
    injection h3 with h3 h3'
    subst h3 h3'
    refine ⟨S, st, centre, phase, ?_, hg, by rw [hB.startState]; exact h5, h6, h7, h8, fun i c hc => h9 i c (hB.siteHas.1 hc)⟩
    unfold Dbl.randomParticles
    rw [hb, ok_bind, dblVecLength hB hG.dim (by linarith [hn.2]) hnrm, ok_bind, hB.blank, e, hf]
    rfl

/-- `setup_noise` on the structure with the rounded keys. -/
theorem noise_behind {G G0 : GridSetup ℚ d} {size : SizeArg} {N : Fin d → ℤ} {S s0 : Structure ℚ d} (h : Behind N S s0) (hb : G.builder size = .ok S)
    (hb0 : G0.builder size = .ok s0) (phases : List Val) (draw : ℕ → ℕ) :
    G.noise size phases draw = (G0.noise size phases draw).map fun sim => ⟨sim.state, S⟩ := by
  unfold GridSetup.noise
  rw [hb, hb0, ok_bind, ok_bind, h.sitesOf, h.blank]
  cases (s0.sitesOf none).foldlM (fun (sk : SimState × ℕ) t => (do
    let phase ← choice phases (draw sk.2)
    pure (setOcc sk.1 t.id phase, sk.2 + 1) : Py (SimState × ℕ))) (GridSetup.blank s0 .pyNone, 0) <;> rfl

/-- C107: `setup_noise` on grids in double precision: every site holds one of the phases, every way of filling the grid can come out, and without phases it raises
IndexError. -/
theorem C107_noise {G : GridSetup ℚ d} (hG : DoubleSetup d G) (n : ℤ) (hn : 0 < n ∧ n ≤ 2 ^ 30) (phases : List Val) (hp : ∀ p ∈ phases, p.WF) :
    (∀ draw, phases ≠ [] → ∃ S s, G.noise (.int n) phases draw = .ok ⟨s, S⟩ ∧ DoubleGrid d (fun _ => n) S ∧ StartState S s ∧
      ∀ i ∈ S.siteIds, ∃ p ∈ phases, occ? s (.int i) = some p) ∧
    (∀ f : (Fin d → ℤ) → Val, (∀ c, f c ∈ phases) → ∃ draw S s, G.noise (.int n) phases draw = .ok ⟨s, S⟩ ∧ Shows S s f) ∧
    (∀ draw, phases = [] → G.noise (.int n) phases draw = .error .indexError) := by
  obtain ⟨G0, S, s0, hG0, hb0, hb, hg, hB⟩ := doubleSetup_exact hG hn
  have hs0 : ∀ {draw} {S' : Structure ℚ d} {s : SimState}, G0.noise (.int n) phases draw = .ok ⟨s, S'⟩ → S' = s0 := by
    intro draw S' s h
    unfold GridSetup.noise at h
    rw [hb0, ok_bind] at h
    cases hf : (s0.sitesOf none).foldlM (fun (sk : SimState × ℕ) t => (do
      let phase ← choice phases (draw sk.2)
      pure (setOcc sk.1 t.id phase, sk.2 + 1) : Py (SimState × ℕ))) (GridSetup.blank s0 .pyNone, 0) with
    | error e => rw [hf] at h; cases h
    | ok r =>
      rw [hf] at h
      injection h with h; injection h with _ h; exact h.symm
  refine ⟨fun draw hne => ?_, fun f hf => ?_, fun draw he => ?_⟩
  · obtain ⟨S', s, h1, -, h3, h4⟩ := (C69_noise hG0 n hn.1 phases hp draw).1 hne
    obtain rfl := hs0 h1
    exact ⟨S, s, by rw [noise_behind hB hb hb0, h1]; rfl, hg, by rw [hB.startState]; exact h3, by rw [hB.siteIds]; exact h4⟩
  · obtain ⟨draw, S', s, h1, h2⟩ := C69_every_filling hG0 n hn.1 phases hp f hf
    obtain rfl := hs0 h1
    exact ⟨draw, S, s, by rw [noise_behind hB hb hb0, h1]; rfl, hB.shows h2⟩
  · rw [noise_behind hB hb hb0, (C69_noise hG0 n hn.1 phases hp draw).2 he]; rfl

/-! ### C108: listed coordinates -/

/-- One pair after the other, in double precision. -/
def dblPutAll (S : Structure ℚ d) (l : List (Val × (Fin d → ℚ))) (s : SimState) : Py SimState :=
  l.foldlM (fun s pc => match Dbl.siteAt S pc.2 with
    | none => .error .typeError
    | some t => .ok (setOcc s t.id pc.1)) s

theorem dblCoords_eq (S : Structure ℚ d) (m : Dict Val (List (Fin d → ℚ))) (s : SimState) :
    m.foldlM (fun s pl => pl.2.foldlM (fun s c => match Dbl.siteAt S c with
      | none => .error .typeError
      | some t => .ok (setOcc s t.id pl.1)) s) s =
    dblPutAll S (listed m) s := by
  unfold dblPutAll listed
  induction m generalizing s with
  | nil => rfl
  | cons a m ih =>
    rw [List.foldlM_cons, List.flatMap_cons, List.foldlM_append, List.foldlM_map]
    congr 1
    funext s'
    exact ih s'

theorem listed_intPoint (m : Dict Val (List (Fin d → ℤ))) :
    listed (m.map fun pl => (pl.1, pl.2.map (intPoint : (Fin d → ℤ) → Fin d → ℚ))) = (listed m).map fun q => (q.1, intPoint q.2) := by
  unfold listed
  rw [List.flatMap_map, List.map_flatMap]
  simp [List.map_map, Function.comp_def]

/-- C108: `setup_coords` in double precision, with integer coordinates up to one period outside of the grid.  If no listed coordinate equals the size, or the size has
an exact reciprocal, the coordinates wrap, the last listed phase wins and everything else is background; otherwise TypeError is raised. -/
theorem C108_coords_partial {G : GridSetup ℚ d} (hG : DoubleSetup d G) (n : ℤ) (hn : 0 < n ∧ n ≤ 2 ^ 30) (bg : Val) (hbg : bg.WF) (m : Dict Val (List (Fin d → ℤ)))
    (hm : ∀ pl ∈ m, pl.1.WF) (hx : ∀ pl ∈ m, ∀ x ∈ pl.2, ∀ j, -n ≤ x j ∧ x j < 2 * n) :
    ((∀ pl ∈ m, ∀ x ∈ pl.2, ∀ j, x j = n → ReciprocalExact n) →
      ∃ S s, Dbl.coords G (.int n) bg (m.map fun pl => (pl.1, pl.2.map intPoint)) = .ok ⟨s, S⟩ ∧ DoubleGrid d (fun _ => n) S ∧ StartState S s ∧
        ∀ i c, SiteHas S i c → ∃ v, occ? s (.int i) = some v ∧ LastListed n (listed m) bg c v) ∧
    ((∃ pl ∈ m, ∃ x ∈ pl.2, ∃ j, x j = n ∧ ¬ ReciprocalExact n) →
      Dbl.coords G (.int n) bg (m.map fun pl => (pl.1, pl.2.map intPoint)) = .error .typeError) := by
  obtain ⟨G0, S, s0, hG0, hb0, hb, hg, hB⟩ := doubleSetup_exact hG hn
  have e : Dbl.coords G (.int n) bg (m.map fun pl => (pl.1, pl.2.map intPoint)) = (do
      let st ← dblPutAll S ((listed m).map fun q => (q.1, (intPoint q.2 : Fin d → ℚ))) (GridSetup.blank s0 bg)
      pure ⟨st, S⟩) := by
    unfold Dbl.coords
    have e := dblCoords_eq S (m.map fun pl => (pl.1, pl.2.map intPoint)) (GridSetup.blank s0 bg)
    rw [listed_intPoint] at e
    rw [hb, ok_bind, hB.blank]
    exact congrArg (fun r : Py SimState => (do let st ← r; pure ⟨st, S⟩ : Py (Simulation ℚ d))) e
  have hx' : ∀ q ∈ listed m, ∃ pl ∈ m, q.2 ∈ pl.2 := by
    intro q hq
    obtain ⟨pl, hpl, hq⟩ := List.mem_flatMap.1 hq
    obtain ⟨c, hc, rfl⟩ := List.mem_map.1 hq
    exact ⟨pl, hpl, hc⟩
  have hbd : ∀ pl ∈ m, ∀ x ∈ pl.2, ∀ j, |x j| ≤ 2 ^ 32 := fun pl hpl x hxm j => by
    have h1 := hx pl hpl x hxm j
    rw [abs_le]; constructor <;> linarith
  constructor
  · intro hr
    obtain ⟨s, f, h1, h2, h3⟩ := putAll_spec hB.torus bg hbg (listed m) (by
      intro q hq
      obtain ⟨pl, hpl, hq⟩ := List.mem_flatMap.1 hq
      obtain ⟨c, -, rfl⟩ := List.mem_map.1 hq
      exact hm pl hpl)
    have hat : ∀ q ∈ listed m, Dbl.siteAt S (intPoint q.2) = s0.siteAt (intPoint q.2) := by
      intro q hq
      obtain ⟨pl, hpl, hq⟩ := hx' q hq
      exact (hB.siteAt (hbd pl hpl _ hq)).1 fun j => (wraps_iff hn (hx pl hpl _ hq j).1 (hx pl hpl _ hq j).2).2 (hr pl hpl _ hq j)
    have key : ∀ (l : List (Val × (Fin d → ℤ))), (∀ q ∈ l, Dbl.siteAt S (intPoint q.2) = s0.siteAt (intPoint q.2)) → ∀ s,
        dblPutAll S (l.map fun q => (q.1, (intPoint q.2 : Fin d → ℚ))) s = putAll s0 (l.map fun q => (q.1, intPoint q.2)) s := by
      intro l
      induction l with
      | nil => intro _ s; rfl
      | cons a l ih =>
        intro h s
        unfold dblPutAll putAll at ih ⊢
        rw [List.map_cons, List.foldlM_cons, List.foldlM_cons, h a (by simp)]
        congr 1
        · show (match s0.siteAt (intPoint a.2) with | none => _ | some t => _) = _
          cases s0.siteAt (intPoint a.2 : Fin d → ℚ) <;> rfl
        · funext s'
          exact ih (fun q hq => h q (by simp [hq])) s'
    refine ⟨S, s, ?_, hg, by rw [hB.startState]; exact h2.startState hB.torus.reachable, fun i c hc => ?_⟩
    · rw [e, key _ hat, h1]; rfl
    · rw [hB.siteHas] at hc
      obtain ⟨t, ht, rfl, -⟩ := site_of_has hB.torus.reachable hc
      exact ⟨f t, h2.occ t ht, h3 t ht c hc⟩
  · rintro ⟨pl, hpl, x, hxm, j, hxj, hre⟩
    have hnone : Dbl.siteAt S (intPoint x) = none :=
      (hB.siteAt (hbd pl hpl x hxm)).2 ⟨j, fun hw => hre ((wraps_iff hn (hx pl hpl _ hxm j).1 (hx pl hpl _ hxm j).2).1 hw hxj)⟩
    have key : ∀ (l : List (Val × (Fin d → ℚ))) (s : SimState), (∃ q ∈ l, Dbl.siteAt S q.2 = none) → dblPutAll S l s = .error .typeError := by
      intro l
      induction l with
      | nil => rintro s ⟨q, hq, -⟩; cases hq
      | cons a l ih =>
        rintro s ⟨q, hq, ho⟩
        unfold dblPutAll at ih ⊢
        rw [List.foldlM_cons]
        cases ha : Dbl.siteAt S a.2 with
        | none => rfl
        | some t =>
          simp only [ok_bind]
          rcases List.mem_cons.1 hq with rfl | hq
          · rw [ha] at ho; cases ho
          · exact ih _ ⟨q, hq, ho⟩
    have hk := key ((listed m).map fun q => (q.1, intPoint q.2)) (GridSetup.blank s0 bg) ⟨(pl.1, intPoint x), List.mem_map.2 ⟨(pl.1, x), List.mem_flatMap.2 ⟨pl, hpl, List.mem_map.2 ⟨x, hxm, rfl⟩⟩, rfl⟩, hnone⟩
    rw [e, hk]
    rfl

/-- C108: so the unrestricted claim is false: on a 49 x 49 grid the coordinate (49, 0) raises TypeError instead of filling (0, 0). -/
theorem C108_false (bg p : Val) (hbg : bg.WF) (hp : p.WF) : Dbl.coords Dbl.gridSetup2 (.int 49) bg [(p, [![49, 0]])] = .error .typeError := by
  have h := (C108_coords_partial .two 49 (by norm_num) bg hbg [(p, [![49, 0]])] (by simpa using hp) (by
    intro pl hpl x hx j
    simp at hpl; subst hpl
    simp at hx; subst hx
    fin_cases j <;> simp)).2 ⟨_, List.mem_singleton.2 rfl, ![49, 0], List.mem_singleton.2 rfl, 0, rfl, C100_sizes.2.1⟩
  rw [← h]
  congr 3
  simp only [List.map_cons, List.map_nil]
  congr 2
  funext j
  fin_cases j <;> simp [intPoint]

/-! ### C109: growth -/

/-- C109: in double precision, on grids whose size has an exact reciprocal, `grow` with the default neighbourhood returns for every schedule once the nuclei are placed;
nuclei keep their phase, and if there is at least one, every site has a phase of `nuc_amts` at the end. -/
theorem C109_grow_partial {G : GridSetup ℚ d} (hG : DoubleSetup d G) (n : ℤ) (hn : 0 < n ∧ n ≤ 2 ^ 30) (hex : ReciprocalExact n) (sum : List ℚ → ℚ)
    (hsum : ∀ l, SumOf l (sum l)) (num : ℚ) (m : ℤ) (hm : NearestEven num m) (hm1 : 1 ≤ m) (bg : Val)
    (hbgw : bg.WF) (nucAmts : Dict Val ℚ) (hw : Dict.WF nucAmts) (hph : ∀ p ∈ Dict.keys nucAmts, p.WF) (hbg : bg ∉ Dict.keys nucAmts)
    (hpos : ∀ pa ∈ nucAmts, 0 < pa.2) (hdbl : ∀ pa ∈ nucAmts, IsDouble pa.2) (hsize : m * (nucAmts.length + 2) ≤ 2 ^ 52) (buffer : Option ℤ)
    (hbuf : ∀ r, buffer = some r → 1 ≤ r ∧ r ≤ n)
    (order : ℕ → List ℕ → List ℕ) (hord : ∀ t l, (order t l).Perm l) (draw : ℕ → ℕ) (fuel : ℕ) (sim : Simulation ℚ d)
    (h : Dbl.randomSites G sum (.int n) num bg nucAmts buffer order draw fuel = some (.ok sim))
    (ord : ℕ → List ℕ → List ℕ) (hord' : ∀ t l, (ord t l).Perm l)
    (fork : ℕ → Growth.Ctl → Growth.Ctl) (hfork : ∀ v c, Reorders c (fork v c)) (w : ℕ) (hw0 : 0 < w) (sched : ℕ → StepSched)
    (hv : ∀ k, k < n.toNat → (sched k).Valid w (chunks sim.state.siteIds (chunkSize sim.state.siteIds.length w)).length) :
    ∃ sim', Dbl.grow G sum n num bg nucAmts buffer order draw fuel ord fork w sched = some (.ok sim') ∧ sim'.struct = sim.struct ∧
      SameSites sim.struct sim'.state ∧
      (∀ j ∈ nuclei sim.struct sim.state bg, occ? sim'.state (.int j) = occ? sim.state (.int j)) ∧
      ∀ i ∈ sim.struct.siteIds, ∃ v ∈ Dict.keys nucAmts, occ? sim'.state (.int i) = some v := by
  obtain ⟨hg, hst, hcount, -⟩ := C104_random_sites_partial hG n hn sum num m hm bg hbgw nucAmts hw hph hbg buffer hbuf order hord draw fuel sim h
  obtain ⟨-, -, hphase⟩ := C105_quotas_partial hG n hn sum hsum num m hm bg hbgw nucAmts hw hph hbg hpos hdbl hsize buffer hbuf order hord draw fuel sim h
  obtain ⟨s0, hB⟩ := hg.behind
  have e2 : nuclei sim.struct = nuclei s0 := by rw [hB.eq]; rfl
  have e3 : SameSites sim.struct = SameSites s0 := by rw [hB.eq]; rfl
  rw [hB.startState] at hst
  rw [e2] at hcount hphase
  rw [e2, e3, hB.siteIds]
  have e0 : getPointsInCube (-1) (1 + 1) d = (getPointsInCube (-1) (1 + 1) d).filter fun _ => true := by simp
  have hmt := (hB.motif ((getPointsInCube (-1) (1 + 1) d).map (cellVec d)) (by rw [e0]; exact cube_le fun _ => hn.1)).1 fun _ => hex
  obtain ⟨g, hg', hgn⟩ := torus_moore hB.torus 1
  have hD : Dbl.mooreGet 1 sim.struct = .ok g := by
    rw [Dbl.mooreGet, ← hg', moore_eq, ← hmt, List.map_map]; rfl
  obtain ⟨c, res, s', hc, h1, h2, h3⟩ := growthRun hB.torus hst hphase hg' hord' fork hfork w hw0 n.toNat sched hv
  have hc' : Dbl.growthInit ord sim.struct bg = .ok c := by
    unfold Growth.init at hc
    rw [Option.getD_some, hg', ok_bind] at hc
    unfold Dbl.growthInit
    rw [hD, ok_bind]
    exact hc
  refine ⟨⟨s', sim.struct⟩, ?_, rfl, h3.same, h3.kept, h3.fills hB.torus hgn (by omega)⟩
  unfold Dbl.grow
  rw [h]
  simp only [hc', ok_bind, h1, h2]
  rfl

/-- C109: on every other size `grow` raises TypeError, with or without a buffer, whenever the placement of the nuclei comes to an end with a simulation. -/
theorem C109_type_error {G : GridSetup ℚ d} (hG : DoubleSetup d G) (n : ℤ) (hn : 0 < n ∧ n ≤ 2 ^ 30) (hex : ¬ ReciprocalExact n) (sum : List ℚ → ℚ)
    (num : ℚ) (bg : Val) (nucAmts : Dict Val ℚ) (buffer : Option ℤ) (hbuf : ∀ r, buffer = some r → 1 ≤ r ∧ r ≤ n)
    (order : ℕ → List ℕ → List ℕ) (hord : ∀ t l, (order t l).Perm l) (draw : ℕ → ℕ) (fuel : ℕ) (ord : ℕ → List ℕ → List ℕ)
    (fork : ℕ → Growth.Ctl → Growth.Ctl) (w : ℕ) (sched : ℕ → StepSched) :
    (∀ r, buffer = some r → Dbl.grow G sum n num bg nucAmts buffer order draw fuel ord fork w sched = some (.error .typeError)) ∧
    ∀ sim, Dbl.randomSites G sum (.int n) num bg nucAmts buffer order draw fuel = some (.ok sim) →
      Dbl.grow G sum n num bg nucAmts buffer order draw fuel ord fork w sched = some (.error .typeError) := by
  constructor
  · rintro r rfl
    obtain ⟨h1, h2⟩ := hbuf r rfl
    unfold Dbl.grow
    rw [C104_type_error hG n hn hex sum num bg nucAmts r h1 h2 order hord draw fuel]
  · intro sim h
    have hg : DoubleGrid d (fun _ => n) sim.struct := by
      obtain ⟨S, s0, hg, hB, h1, h2⟩ := dblSites_parts hG hn sum num bg nucAmts buffer hbuf order hord
      by_cases hc : buffer = none ∨ ReciprocalExact n
      · obtain ⟨nbs, -, heq⟩ := h1 hc
        rw [heq] at h
        obtain ⟨sim0, -, rfl⟩ := dblSites_ok h
        exact hg
      · rw [h2 hc] at h; injection h with h; cases h
    have hD := (C100_moore_partial hg 1 le_rfl fun j => hn.1).2 ⟨⟨0, hG.dim⟩, hex⟩
    unfold Dbl.grow
    rw [h]
    simp only [Dbl.growthInit, hD]
    rfl

/-- C109: so the unrestricted claim is false: on a grid of size 49 no call of `grow` with the default neighbourhood ever returns a simulation. -/
theorem C109_false {G : GridSetup ℚ d} (hG : DoubleSetup d G) (sum : List ℚ → ℚ) (num : ℚ) (bg : Val) (nucAmts : Dict Val ℚ) (buffer : Option ℤ)
    (hbuf : ∀ r, buffer = some r → 1 ≤ r ∧ r ≤ 49) (order : ℕ → List ℕ → List ℕ) (hord : ∀ t l, (order t l).Perm l) (draw : ℕ → ℕ) (fuel : ℕ)
    (ord : ℕ → List ℕ → List ℕ) (fork : ℕ → Growth.Ctl → Growth.Ctl) (w : ℕ) (sched : ℕ → StepSched) (sim : Simulation ℚ d) :
    Dbl.grow G sum 49 num bg nucAmts buffer order draw fuel ord fork w sched ≠ some (.ok sim) := by
  intro h
  obtain ⟨-, h2⟩ := C109_type_error hG 49 (by norm_num) C100_sizes.2.1 sum num bg nucAmts buffer hbuf order hord draw fuel ord fork w sched
  cases hr : Dbl.randomSites G sum (.int 49) num bg nucAmts buffer order draw fuel with
  | none => unfold Dbl.grow at h; rw [hr] at h; cases h
  | some r =>
    cases r with
    | error e => unfold Dbl.grow at h; rw [hr] at h; injection h with h; cases h
    | ok sim0 => rw [h2 sim0 hr] at h; injection h with h; cases h

/-! ### the ways to sum squares -/

/-- C102: every way to compute a sum of two or three squares in double arithmetic, in whatever order, with or without fused multiply-add, is accurate enough for the
theorems on distances. -/
theorem C102_any_order {sq : (Fin d → ℚ) → ℚ} (h : SquaresOf sq) (hd : d ≤ 3) : SumOfSquares sq := h.accurate hd

/-- Summing from left to right is one of them. -/
theorem squaresOf_dot : SquaresOf fun v : Fin d → ℚ => Dbl.dot v v := by
  intro v
  have key : ∀ (l' : List (Fin d)) (l : List (ℚ × ℚ)) (a : ℚ), DotOf l a →
      DotOf (l ++ l'.map fun i => (v i, v i)) (l'.foldl (fun acc i => fl (acc + fl (v i * v i))) a) := by
    intro l'
    induction l' with
    | nil => intro l a h; simpa using h
    | cons i l' ih =>
      intro l a h
      have := ih _ _ (.add h (.mul (v i) (v i)))
      simpa using this
  have := key (List.finRange d) [] 0 .nil
  rw [List.nil_append, ← List.ofFn_eq_map] at this
  exact this

/-- Non-vacuity: a particle of radius 3/2 on a 5 x 5 grid in double precision: (2, 3) is in it (distance about 0.7), (0, 0) is not. -/
example : ∃ S s, Dbl.particle Dbl.gridSetup2 (fun v => Dbl.dot v v) (fun v => Dbl.dot v v) (.int 5) (3 / 2) (.str "A") (.str "B") = .ok ⟨s, S⟩ ∧
    (∀ i, SiteHas S i ![2, 3] → occ? s (.int i) = some (.str "B")) ∧ (∀ i, SiteHas S i ![0, 0] → occ? s (.int i) = some (.str "A")) := by
  obtain ⟨S, s, h1, -, -, h2⟩ := C106_particle_partial .two _ _ squaresOf_dot squaresOf_dot 5 (by norm_num) 3 (by norm_num) (.str "A") (.str "B") (.str _) (.str _)
  refine ⟨S, s, by simpa using h1, fun i hi => ?_, fun i hi => ?_⟩
  · refine (h2 i _ hi).trans (congrArg some (if_pos ?_))
    norm_num [Fin.sum_univ_two]
  · refine (h2 i _ hi).trans (congrArg some (if_neg ?_))
    norm_num [Fin.sum_univ_two]

/-- Non-vacuity: listed coordinates on a 49 x 49 grid: (48, -1) fills (48, 48) although (49, 0) raises. -/
example : ∃ S s, Dbl.coords Dbl.gridSetup2 (.int 49) (.str "A") [(.str "B", [intPoint ![48, -1]])] = .ok ⟨s, S⟩ ∧
    ∀ i, SiteHas S i ![48, 48] → occ? s (.int i) = some (.str "B") := by
  obtain ⟨S, s, h1, -, -, h2⟩ := (C108_coords_partial .two 49 (by norm_num) (.str "A") (.str _) [(.str "B", [![48, -1]])] (by simp; exact .str _) (by
    intro pl hpl x hx j
    simp at hpl; subst hpl
    simp at hx; subst hx
    fin_cases j <;> simp)).1 (by
    intro pl hpl x hx j
    simp at hpl; subst hpl
    simp at hx; subst hx
    fin_cases j <;> simp)
  refine ⟨S, s, h1, fun i hi => ?_⟩
  obtain ⟨v, hv, h3⟩ := h2 i _ hi
  rw [hv]
  rcases h3 with ⟨l1, p, x, l2, e, -, -, rfl⟩ | ⟨h3, -⟩
  · simp [listed] at e
    cases l1 with
    | nil => simp at e; rw [← e.1.1]
    | cons a l1 => simp at e
  · exact absurd (fun j => by fin_cases j <;> simp) (h3 (.str "B", ![48, -1]) (by simp [listed]))

/-- Non-vacuity: `grow` in double precision on a 7 x 7 grid with one nucleus and four workers of which every step uses others: the grid is filled. -/
example : ∃ draw fuel sched sim, (∃ b, ∀ k, sched k = (List.range b).map fun i => (i, (k * i + k) % 4)) ∧
    Dbl.grow Dbl.gridSetup2 (fun l => l.foldl (fun acc x => fl (acc + x)) 0) 7 1 (.str "bg") sevenOfHundred (some 2) (fun _ l => l) draw fuel
      (fun _ l => l.reverse) (fun _ c => c) 4 sched = some (.ok sim) ∧ ∀ i ∈ sim.struct.siteIds, occ? sim.state (.int i) ≠ some (.str "bg") := by
  have hm : NearestEven (1 : ℚ) 1 := by left; norm_num
  obtain ⟨hw, hph, hbg, hpos, hdbl⟩ := sevenOfHundred_ok
  have hex : ReciprocalExact 7 := C100_sizes.1 7 (by norm_num) (by norm_num)
  obtain ⟨draw, fuel, sim, h, -⟩ := C104_reachable (d := 2) .two 7 (by norm_num) _ C105_left_to_right 1 1 hm (by norm_num) (.str "bg") (.str _) sevenOfHundred hw hph
    hbg (by simp [sevenOfHundred]) hpos hdbl (by simp [sevenOfHundred]) (some 2) (by rintro r ⟨⟩; norm_num) (.inr hex) (fun _ l => l) (fun _ _ => .refl _)
    [![3, 3]] (by simp) (by simp) (by intro c hc j; simp at hc; subst hc; fin_cases j <;> simp)
    (by intro r _ a ha b hb hab; simp at ha hb; exact absurd (ha.trans hb.symm) hab)
  let B := (chunks sim.state.siteIds (chunkSize sim.state.siteIds.length 4)).length
  let sched : ℕ → StepSched := fun k => (List.range B).map fun i => (i, (k * i + k) % 4)
  obtain ⟨sim', h1, h2, -, -, h3⟩ := C109_grow_partial .two 7 (by norm_num) hex _ C105_left_to_right 1 1 hm le_rfl (.str "bg") (.str _) sevenOfHundred hw hph hbg
    hpos hdbl (by simp [sevenOfHundred]) (some 2) (by rintro r ⟨⟩; norm_num)
    (fun _ l => l) (fun _ _ => .refl _) draw fuel sim h (fun _ l => l.reverse) (fun _ l => l.reverse_perm)
    (fun _ c => c) (fun _ _ => ⟨rfl, fun _ _ l hl => ⟨l, hl, .refl _⟩⟩) 4 (by norm_num) sched (by
      intro k _
      refine ⟨?_, ?_⟩
      · simp only [sched, List.map_map, Function.comp_def, List.map_id']
        exact .refl _
      · intro p hp
        obtain ⟨i, -, rfl⟩ := List.mem_map.1 hp
        exact Nat.mod_lt _ (by norm_num))
  refine ⟨draw, fuel, sched, sim', ⟨B, fun k => rfl⟩, h1, fun i hi => ?_⟩
  obtain ⟨v, hv, h4⟩ := h3 i (by rw [← h2]; exact hi)
  rw [h4]
  rintro e
  injection e with e
  exact hbg (e ▸ hv)

end Pyl
