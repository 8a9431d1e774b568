import Verif.Spec.GrowthCount
import Verif.Props.GrowthSetup
import Verif.Props.Phases
import Mathlib.Order.Interval.Finset.Basic
import Mathlib.Data.Int.Interval
import Mathlib.Data.Fintype.Pi
import Mathlib.Algebra.BigOperators.Intervals
/-
C131: how many sites a single nucleus has grown to.
-/
set_option autoImplicit false
set_option linter.unusedSectionVars false

namespace Pyl
open SimState Spec Growth Analyzer
open Pyl.Lattice Pyl.Structure
variable {K : Type} [Field K] [LinearOrder K] [FloorRing K] [IsStrictOrderedRing K] {d : ℕ}

/-! ### Counting on the torus -/

/-- Sums over a circle of a function of the distance from a point, when the function vanishes from half-way on. -/
theorem circ_sum {n : ℤ} {k : ℕ} (hk : 2 * (k : ℤ) + 1 ≤ n) (x : ℤ) (G : ℤ → ℕ) (hG : ∀ t, (k : ℤ) < t → G t = 0) :
    ∑ a ∈ Finset.Ico 0 n, G (circ n (a - x)) = ∑ t ∈ Finset.range (k + 1), G t + ∑ t ∈ Finset.range k, G (t + 1 : ℕ) := by
  have hn : 0 < n := by omega
  -- shift
  have h1 : ∑ a ∈ Finset.Ico 0 n, G (circ n (a - x)) = ∑ a ∈ Finset.Ico 0 n, G (min a (n - a)) := by
    refine Finset.sum_bij (fun a _ => (a - x) % n) (fun a _ => ?_) (fun a ha b hb h => ?_) (fun b hb => ?_) (fun a _ => rfl)
    · exact Finset.mem_Ico.2 ⟨Int.emod_nonneg _ hn.ne', Int.emod_lt_of_pos _ hn⟩
    · rw [Finset.mem_Ico] at ha hb
      have h2 := Int.emod_emod_of_dvd (a - x) (dvd_refl n)
      have h3 : n ∣ (a - x) - (b - x) := Int.dvd_of_emod_eq_zero (Int.emod_eq_emod_iff_emod_sub_eq_zero.1 h)
      have h4 : n ∣ a - b := by simpa using h3
      obtain ⟨q, hq⟩ := h4
      have : q = 0 := by
        by_contra h0
        rcases lt_or_gt_of_ne h0 with h0 | h0
        · have : q ≤ -1 := by omega
          nlinarith
        · have : 1 ≤ q := by omega
          nlinarith
      rw [this] at hq; omega
    · rw [Finset.mem_Ico] at hb
      refine ⟨(b + x) % n, Finset.mem_Ico.2 ⟨Int.emod_nonneg _ hn.ne', Int.emod_lt_of_pos _ hn⟩, ?_⟩
      show ((b + x) % n - x) % n = b
      rw [Int.sub_emod, Int.emod_emod, ← Int.sub_emod, add_sub_cancel_right]
      exact Int.emod_eq_of_lt hb.1 hb.2
  rw [h1]
  -- the two arcs
  have h2 : Finset.Ico 0 n = Finset.Ico (0 : ℤ) (k + 1) ∪ (Finset.Ico (k + 1 : ℤ) (n - k) ∪ Finset.Ico (n - k : ℤ) n) := by
    ext a
    simp only [Finset.mem_union, Finset.mem_Ico]
    omega
  rw [h2, Finset.sum_union, Finset.sum_union]
  · have h3 : ∑ a ∈ Finset.Ico (k + 1 : ℤ) (n - k), G (min a (n - a)) = 0 := by
      refine Finset.sum_eq_zero fun a ha => hG _ ?_
      rw [Finset.mem_Ico] at ha
      omega
    rw [h3, zero_add]
    congr 1
    · refine (Finset.sum_bij (fun (t : ℕ) _ => (t : ℤ)) (fun t ht => ?_) (fun a _ b _ h => by exact_mod_cast h) (fun b hb => ?_) (fun t ht => ?_)).symm
      · rw [Finset.mem_range] at ht; rw [Finset.mem_Ico]; omega
      · rw [Finset.mem_Ico] at hb
        exact ⟨b.toNat, by rw [Finset.mem_range]; omega, by omega⟩
      · rw [Finset.mem_range] at ht
        congr 1; omega
    · refine (Finset.sum_bij (fun (t : ℕ) _ => n - (t : ℤ) - 1) (fun t ht => ?_) (fun a _ b _ h => by omega) (fun b hb => ?_) (fun t ht => ?_)).symm
      · rw [Finset.mem_range] at ht; rw [Finset.mem_Ico]; omega
      · rw [Finset.mem_Ico] at hb
        exact ⟨(n - b - 1).toNat, by rw [Finset.mem_range]; omega, by omega⟩
      · rw [Finset.mem_range] at ht
        congr 1; push_cast; omega
  · rw [Finset.disjoint_left]
    intro a; simp only [Finset.mem_Ico]; omega
  · rw [Finset.disjoint_left]
    intro a; simp only [Finset.mem_union, Finset.mem_Ico]; omega

/-- On a circle of `n` points there are `2k + 1` points within distance `k` of a point, or all `n`. -/
theorem circ_card {n : ℤ} (hn : 0 < n) (x : ℤ) (k : ℕ) :
    ((Finset.Ico 0 n).filter fun a => circ n (a - x) ≤ k).card = (min n (2 * k + 1)).toNat := by
  by_cases hk : 2 * (k : ℤ) + 1 ≤ n
  · rw [Finset.card_filter]
    have := circ_sum hk x (fun t => if t ≤ k then 1 else 0) (fun t ht => if_neg (by omega))
    rw [this, Finset.sum_congr rfl (g := fun _ => 1) (fun t ht => by rw [Finset.mem_range] at ht; exact if_pos (by omega)),
      Finset.sum_congr (s₁ := Finset.range k) rfl (g := fun _ => 1) (fun t ht => by rw [Finset.mem_range] at ht; exact if_pos (by omega))]
    simp only [Finset.sum_const, Finset.card_range, smul_eq_mul, mul_one]
    omega
  · rw [Finset.filter_true_of_mem fun a _ => circ_le_half hn _ (by omega), Int.card_Ico]
    omega

/-- The cells within Chebyshev distance `k`. -/
noncomputable def cubeBall (d : ℕ) (n : ℤ) (x : Fin d → ℤ) (k : ℕ) : Finset (Fin d → ℤ) := Fintype.piFinset fun j => (Finset.Ico 0 n).filter fun a => circ n (a - x j) ≤ k

theorem mem_cubeBall {n : ℤ} {x c : Fin d → ℤ} {k : ℕ} : c ∈ cubeBall d n x k ↔ InBox (fun _ => n) c ∧ ChebyshevLE (fun _ => n) c x k := by
  simp only [cubeBall, Fintype.mem_piFinset, Finset.mem_filter, Finset.mem_Ico]
  exact forall_and

theorem card_cubeBall {n : ℤ} (hn : 0 < n) (x : Fin d → ℤ) (k : ℕ) : (cubeBall d n x k).card = (min n (2 * k + 1)).toNat ^ d := by
  rw [cubeBall, Fintype.card_piFinset]
  simp only [circ_card hn]
  rw [Finset.prod_const, Finset.card_univ, Fintype.card_fin]

/-- The cells within Manhattan distance `k`. -/
noncomputable def diamond (d : ℕ) (n : ℤ) (x : Fin d → ℤ) (k : ℤ) : Finset (Fin d → ℤ) :=
  (Fintype.piFinset fun _ => Finset.Ico 0 n).filter fun c => torusManhattan (fun _ => n) c x ≤ k

theorem mem_diamond {n : ℤ} {x c : Fin d → ℤ} {k : ℤ} : c ∈ diamond d n x k ↔ InBox (fun _ => n) c ∧ torusManhattan (fun _ => n) c x ≤ k := by
  simp only [diamond, Fintype.mem_piFinset, Finset.mem_filter, Finset.mem_Ico]
  rfl

theorem card_diamond_succ (n : ℤ) (x : Fin (d + 1) → ℤ) (k : ℤ) :
    (diamond (d + 1) n x k).card = ∑ a ∈ Finset.Ico 0 n, (diamond d n (Fin.tail x) (k - circ n (a - x 0))).card := by
  rw [Finset.card_eq_sum_card_fiberwise (f := fun c : Fin (d + 1) → ℤ => c 0) (t := Finset.Ico 0 n)
    (fun c hc => by rw [Finset.mem_coe, mem_diamond] at hc; rw [Finset.mem_coe, Finset.mem_Ico]; exact hc.1 0)]
  refine Finset.sum_congr rfl fun a ha => ?_
  rw [Finset.mem_Ico] at ha
  refine Finset.card_bij (fun c _ => Fin.tail c) (fun c hc => ?_) (fun c hc c' hc' h => ?_) (fun b hb => ?_)
  · rw [Finset.mem_filter, mem_diamond] at hc
    rw [mem_diamond]
    refine ⟨fun j => hc.1.1 j.succ, ?_⟩
    have := hc.1.2
    rw [torusManhattan, Fin.sum_univ_succ, hc.2] at this
    rw [torusManhattan]
    simp only [Fin.tail]
    linarith
  · rw [Finset.mem_filter] at hc hc'
    rw [← Fin.cons_self_tail c, ← Fin.cons_self_tail c', h, hc.2, hc'.2]
  · rw [mem_diamond] at hb
    refine ⟨Fin.cons a b, ?_, Fin.tail_cons _ _⟩
    rw [Finset.mem_filter, mem_diamond]
    refine ⟨⟨fun j => ?_, ?_⟩, rfl⟩
    · refine Fin.cases ?_ (fun j => ?_) j
      · exact ha
      · exact hb.1 j
    · rw [torusManhattan, Fin.sum_univ_succ]
      have := hb.2
      rw [torusManhattan] at this
      simp only [Fin.cons_zero, Fin.cons_succ]
      simp only [Fin.tail] at this
      linarith

theorem circ_nonneg {n : ℤ} (hn : 0 < n) (a : ℤ) : 0 ≤ circ n a := by
  have h1 := Int.emod_nonneg a hn.ne'
  have h2 := Int.emod_lt_of_pos a hn
  unfold circ
  omega

theorem diamond_neg {n : ℤ} (hn : 0 < n) (x : Fin d → ℤ) {k : ℤ} (hk : k < 0) : (diamond d n x k).card = 0 := by
  rw [Finset.card_eq_zero, Finset.eq_empty_iff_forall_notMem]
  intro c hc
  rw [mem_diamond] at hc
  have : 0 ≤ torusManhattan (fun _ => n) c x := Finset.sum_nonneg fun j _ => circ_nonneg hn _
  linarith [hc.2]

theorem card_diamond_one {n : ℤ} (hn : 0 < n) (x : Fin 1 → ℤ) (k : ℕ) (hk : 2 * (k : ℤ) + 1 ≤ n) : (diamond 1 n x k).card = 2 * k + 1 := by
  have : diamond 1 n x k = cubeBall 1 n x k := by
    ext c
    rw [mem_diamond, mem_cubeBall]
    simp [torusManhattan, ChebyshevLE]
  rw [this, card_cubeBall hn]
  simp only [pow_one]
  omega

theorem card_diamond_sum {n : ℤ} (hn : 0 < n) (x : Fin (d + 1) → ℤ) (k : ℕ) (hk : 2 * (k : ℤ) + 1 ≤ n) (f : ℕ → ℕ)
    (hf : ∀ m : ℕ, m ≤ k → (diamond d n (Fin.tail x) m).card = f m) :
    (diamond (d + 1) n x k).card = ∑ t ∈ Finset.range (k + 1), f t + ∑ t ∈ Finset.range k, f t := by
  rw [card_diamond_succ, circ_sum hk (x 0) (fun t => (diamond d n (Fin.tail x) (k - t)).card) (fun t ht => diamond_neg hn _ (by omega)),
    ← Finset.sum_range_reflect f (k + 1), ← Finset.sum_range_reflect f k]
  congr 1
  · refine Finset.sum_congr rfl fun t ht => ?_
    rw [Finset.mem_range] at ht
    rw [← hf _ (by omega), show ((k + 1 - 1 - t : ℕ) : ℤ) = k - t by omega]
  · refine Finset.sum_congr rfl fun t ht => ?_
    rw [Finset.mem_range] at ht
    rw [← hf _ (by omega), show ((k - 1 - t : ℕ) : ℤ) = k - (t + 1 : ℕ) by omega]

theorem card_diamond_two {n : ℤ} (hn : 0 < n) (x : Fin 2 → ℤ) (k : ℕ) (hk : 2 * (k : ℤ) + 1 ≤ n) : (diamond 2 n x k).card = 2 * k ^ 2 + 2 * k + 1 := by
  rw [card_diamond_sum hn x k hk (fun m => 2 * m + 1) (fun m hm => card_diamond_one hn _ m (by omega))]
  have h : ∀ k : ℕ, ∑ t ∈ Finset.range k, (2 * t + 1) = k ^ 2 := by
    intro k
    induction k with
    | zero => rfl
    | succ k ih => rw [Finset.sum_range_succ, ih]; ring
  rw [h, h]; ring

theorem card_diamond_three {n : ℤ} (hn : 0 < n) (x : Fin 3 → ℤ) (k : ℕ) (hk : 2 * (k : ℤ) + 1 ≤ n) :
    3 * (diamond 3 n x k).card = (2 * k + 1) * (2 * k ^ 2 + 2 * k + 3) := by
  rw [card_diamond_sum hn x k hk (fun m => 2 * m ^ 2 + 2 * m + 1) (fun m hm => card_diamond_two hn _ m (by omega))]
  have h : ∀ k : ℕ, 3 * ∑ t ∈ Finset.range k, (2 * t ^ 2 + 2 * t + 1) = 2 * k ^ 3 + k := by
    intro k
    induction k with
    | zero => rfl
    | succ k ih => rw [Finset.sum_range_succ, mul_add, ih]; ring
  rw [mul_add, h, h]; ring

/-- On a torus the sites with a phase are as many as the cells that have it. -/
theorem sitesWith_cells {S : Structure K d} {N : Fin d → ℤ} (ht : IsTorus S N) {s : SimState} (hs : s.WF) (hsame : SameSites S s) {p : Val}
    {F : Finset (Fin d → ℤ)} (hF : ∀ c ∈ F, InBox N c) (h : ∀ i c, SiteHas S i c → (occ? s (.int i) = some p ↔ c ∈ F)) : sitesWith s p = F.card := by
  have hnd : (s.siteIds.filter fun k => decide (occ? s k = some p)).Nodup := hs.sites.filter _
  rw [sitesWith, ← List.toFinset_card_of_nodup hnd]
  choose f hf using fun c : {c // c ∈ F} => ht.ex c.1 (hF c.1 c.2)
  refine (Finset.card_bij (fun c hc => Key.int (f ⟨c, hc⟩)) (fun c hc => ?_) (fun a ha b hb e => ?_) (fun k hk => ?_)).symm
  · rw [List.mem_toFinset, List.mem_filter]
    refine ⟨(hsame _).2 ⟨_, (hf ⟨c, hc⟩).1, rfl⟩, ?_⟩
    rw [decide_eq_true_eq]
    exact (h _ c (hf ⟨c, hc⟩).2).2 hc
  · have e' : f ⟨a, ha⟩ = f ⟨b, hb⟩ := by injection e with e; exact_mod_cast e
    have h1 := (hf ⟨a, ha⟩).2
    rw [e'] at h1
    exact IsTorus.has_unique_coord h1 (hf ⟨b, hb⟩).2
  · rw [List.mem_toFinset, List.mem_filter, decide_eq_true_eq] at hk
    obtain ⟨i, hi, rfl⟩ := (hsame _).1 hk.1
    obtain ⟨c, -, hc⟩ := ht.site i hi
    have hcF := (h i c hc).1 hk.2
    refine ⟨c, hcF, ?_⟩
    rw [ht.site_unique (hf ⟨c, hcF⟩).2 hc]

/-! ### Runs -/

/-- What `k` steps of the growth model make of the start state `s0`, with either runner. -/
structure GrownTo (S : Structure K d) (s0 : SimState) (bg : Val) (nbs : ℕ → List ℕ) (k : ℕ) (s : SimState) : Prop where
  wf : s.WF
  same : SameSites S s
  knows : KnowsIds s
  occupied : ∀ i ∈ S.siteIds, occ? s (.int i) ≠ some bg ↔ ∃ j ∈ nuclei S s0 bg, Hops nbs k i j
  phase : ∀ i ∈ S.siteIds, ∃ v, occ? s (.int i) = some v ∧ (v = bg ∨ ∃ j ∈ S.siteIds, occ? s0 (.int j) = some v)

theorem startState_knows {S : Structure K d} {s : SimState} (h : StartState S s) : KnowsIds s := by
  intro k p hp
  obtain ⟨i, hi, rfl⟩ := (h.2.2.1 k).1 (mem_of_siteState hp)
  obtain ⟨p', hp', e⟩ := h.2.2.2.2 i hi
  rw [hp] at hp'; injection hp' with hp'; subst hp'
  rw [e]; rfl

theorem hops_step {S : Structure K d} {g : Graph K} (hnb : ∀ i, ∀ j ∈ g.neighborsOf i, j ∈ S.siteIds) {s0 : SimState} {bg : Val} {k : ℕ}
    {P Q : ℕ → Prop} (hP : ∀ i ∈ S.siteIds, P i ↔ ∃ j ∈ nuclei S s0 bg, Hops g.neighborsOf k i j)
    {i : ℕ} (hi : i ∈ S.siteIds) (hQ : Q i ↔ P i ∨ ∃ j ∈ g.neighborsOf i, P j) : Q i ↔ ∃ j ∈ nuclei S s0 bg, Hops g.neighborsOf (k + 1) i j := by
  rw [hQ, hP i hi]
  constructor
  · rintro (⟨j, hj, h⟩ | ⟨x, hx, h⟩)
    · exact ⟨j, hj, .inl h⟩
    · obtain ⟨j, hj, h⟩ := (hP x (hnb i x hx)).1 h
      exact ⟨j, hj, .inr ⟨x, hx, h⟩⟩
  · rintro ⟨j, hj, h | ⟨x, hx, h⟩⟩
    · exact .inl ⟨j, hj, h⟩
    · exact .inr ⟨x, hx, (hP x (hnb i x hx)).2 ⟨j, hj, h⟩⟩

theorem grownTo_zero {S : Structure K d} {s0 : SimState} (hst : StartState S s0) (bg : Val) (nbs : ℕ → List ℕ) : GrownTo S s0 bg nbs 0 s0 := by
  refine ⟨hst.1, hst.2.2.1, startState_knows hst, fun i hi => ⟨fun h => ⟨i, List.mem_filter.2 ⟨hi, by simpa using h⟩, rfl⟩, ?_⟩, fun i hi => ?_⟩
  · rintro ⟨j, hj, rfl⟩
    simpa using (List.mem_filter.1 hj).2
  · obtain ⟨v, hv⟩ := hst.2.2.2.1 _ ((hst.2.2.1 _).2 ⟨i, hi, rfl⟩)
    exact ⟨v, hv, .inr ⟨i, hi, hv⟩⟩

/-- A serial run of a controller that answers with the neighbours in a graph, in any order. -/
theorem grown_serial_of {S : Structure K d} (hne : S.siteIds ≠ []) {s0 : SimState} (hst : StartState S s0) {bg : Val}
    {g : Graph K} (hknown : ∀ i, ∀ j ∈ g.neighborsOf i, j ∈ S.siteIds) {order : ℕ → List ℕ → List ℕ} (horder : ∀ t l, (order t l).Perm l) {c : Ctl}
    (hbgc : c.background = bg) (hnbs : ∀ (t : ℕ) (i : ℕ), c.nbs t (.int i) = .ok (order t (g.neighborsOf i))) (m : ℕ) :
    ∃ c' res, runSync controller c s0 m = .ok (c', res) ∧
      ∀ k : ℕ, k ≤ m → ∃ s, res.getStep k = .ok s ∧ GrownTo S s0 bg g.neighborsOf k s := by
  obtain ⟨s1, s2, s3, s4, s5⟩ := id hst
  have hg : s0.getGeneralState ≠ none := by rw [s2]; simp
  have hnb : ∀ t, ∀ i ∈ s0.siteIds, ∃ l, c.nbs t i = .ok l ∧ ∀ j ∈ l, Key.int j ∈ s0.siteIds := by
    intro t k hk
    obtain ⟨i, hi, rfl⟩ := (s3 k).1 hk
    refine ⟨_, hnbs t i, fun j hj => ?_⟩
    exact (s3 _).2 ⟨j, hknown i j ((horder t _).mem_iff.1 hj), rfl⟩
  obtain ⟨c', res, h1, h2, h3, h4⟩ := C62_growth c s0 s1 hg (sameSites_ne s3 hne) s4 hnb m
  replace h4 : ∀ k : ℕ, k < m → ∃ a b, res.getStep k = .ok a ∧ res.getStep (k + 1) = .ok b ∧ SameSites S b ∧
        ∀ i ∈ S.siteIds, ∃ v v', occ? a (.int i) = some v ∧ occ? b (.int i) = some v' ∧ GrowthStep bg a (g.neighborsOf i) v v' := by
    intro k hk
    obtain ⟨a, b, ha, hb', hi1, hi2, hst⟩ := h4 k hk
    refine ⟨a, b, ha, hb', fun k => by rw [hi2]; exact s3 k, fun i hi => ?_⟩
    obtain ⟨t, l, v, v', hl, hv, hv', hG, -⟩ := hst (.int i) ((s3 _).2 ⟨i, hi, rfl⟩)
    rw [hnbs t i] at hl
    injection hl with hl; subst hl
    rw [hbgc] at hG
    exact ⟨v, v', hv, hv', growthStep_perm (horder t _) hG⟩
  refine ⟨c', res, h1, ?_⟩
  obtain ⟨c2, res2, e1, e2, e3, e4⟩ := runSync_by (growth_answersBy hnb) growth_keeps m s1 hg (sameSites_ne s3 hne) c c rfl ⟨rfl, rfl, rfl, s4⟩
  rw [h1] at e1; injection e1 with e1; injection e1 with e1 e1'; subst e1 e1'
  intro k
  induction k with
  | zero => exact fun _ => ⟨s0, h3, grownTo_zero hst bg _⟩
  | succ k ih =>
    intro hk
    obtain ⟨s, hs1, hs⟩ := ih (by omega)
    obtain ⟨a, b, ha, hb', hbs, hstep⟩ := h4 k (by omega)
    obtain ⟨a2, b2, ha2, hb2, -, hbw, ⟨st, -, -, hi1, hi2⟩, hby⟩ := e4 k (by omega)
    rw [hs1] at ha ha2; injection ha with ha; injection ha2 with ha2; subst ha ha2
    rw [hb'] at hb2; injection hb2 with hb2; subst hb2
    refine ⟨b, by exact_mod_cast hb', hbw, hbs, ?_, fun i hi => ?_, fun i hi => ?_⟩
    · intro q p hp
      have hq : q ∈ s.siteIds := by rw [← hby.1]; exact mem_of_siteState hp
      obtain ⟨v, hv⟩ := hi2 q hq
      obtain ⟨old, hold, -⟩ := occ?_eq.1 hv
      obtain ⟨-, -, -, -, -, -, hkeep⟩ := growth_stepBy hby q v hv
      rw [hkeep old p SITE_ID hold hp (by decide)]
      exact hs.knows q old hold
    · obtain ⟨v, v', hv, hv', hG⟩ := hstep i hi
      refine hops_step (P := fun i => occ? s (.int i) ≠ some bg) (Q := fun i => occ? b (.int i) ≠ some bg) hknown hs.occupied hi ?_
      have := growthStep_occ hG
      show occ? b (.int i) ≠ some bg ↔ occ? s (.int i) ≠ some bg ∨ _
      rw [hv, hv']
      simpa using this
    · obtain ⟨v, v', hv, hv', hG⟩ := hstep i hi
      refine ⟨v', hv', ?_⟩
      obtain ⟨u, hu, hu'⟩ := hs.phase i hi
      rw [hv] at hu; injection hu with hu; subst hu
      by_cases hvb : v = bg
      · by_cases hall : ∀ j ∈ g.neighborsOf i, occ? s (.int j) = some bg
        · exact .inl (hG.2.1 hvb hall)
        · push Not at hall
          obtain ⟨-, ⟨j, hj, hjv⟩, -⟩ := hG.2.2 hvb hall
          obtain ⟨u, hu, h9⟩ := hs.phase j (hknown i j hj)
          rw [hjv] at hu; injection hu with hu; subst hu
          exact h9
      · rw [hG.1 hvb]; exact hu'

theorem grown_serial {S : Structure K d} (hS : S.Reachable) (hne : S.siteIds ≠ []) {s0 : SimState} (hst : StartState S s0) (bg : Val)
    {bl : Builder K d} {g : Graph K} (hb : bl.get S none = .ok g) {order : ℕ → List ℕ → List ℕ} (horder : ∀ t l, (order t l).Perm l) (m : ℕ) :
    ∃ c c' res, Growth.init order S bg (some bl) = .ok c ∧ runSync controller c s0 m = .ok (c', res) ∧
      ∀ k : ℕ, k ≤ m → ∃ s, res.getStep k = .ok s ∧ GrownTo S s0 bg g.neighborsOf k s := by
  obtain ⟨c, hc⟩ : ∃ c, Growth.init order S bg (some bl) = .ok c := by
    unfold Growth.init
    rw [Option.getD_some, hb]
    exact ⟨_, rfl⟩
  obtain ⟨hbgc, hnbs⟩ := init_nbs hb hc
  obtain ⟨c', res, h⟩ := grown_serial_of hne hst (fun i j hj => ((C55_known_and_other hS bl none g hb i).1 j hj).1) horder hbgc hnbs m
  exact ⟨c, c', res, hc, h⟩

/-- Site ids survive an update that only writes occupancies. -/
theorem knows_setSitesP {s0 s : SimState} {bg : Val} {Nb : Key → List ℕ → Prop} (hs : ViewOf s0.siteIds s) (hk : KnowsIds s) {p : Props}
    (hp : PatchBy s0.siteIds (GrowthView bg s0) (GrowthAnswer bg s0.siteIds Nb) p) : KnowsIds (setSitesP s p) := by
  intro i new hnew
  have hi : i ∈ s.siteIds := by
    rw [hs.ids, ← (hs.apply hp.1).2.ids]; exact mem_of_siteState hnew
  obtain ⟨old, hold⟩ := siteState_of_mem i hi
  have hg := get?_setSitesP hp.1.wf.keys s i
  unfold getSiteState at hnew hold
  rw [hnew] at hg
  cases h : Dict.get? p i with
  | none =>
    rw [h, hold] at hg
    injection hg with hg; subst hg
    exact hk i _ hold
  | some v =>
    obtain ⟨q, hq⟩ := hp.1.dicts _ (Dict.mem_of_get? h)
    simp only at hq
    subst hq
    rw [h] at hg
    obtain ⟨t, -, -, ⟨q', u, l', e, -, -, -, hq⟩, hw⟩ := hp.2 i q h
    injection e with e; subst e
    simp only [oldOf, hold, dictOf] at hg
    injection hg with hg
    rw [hg, Dict.get?_update hw.keys]
    rcases hq with ⟨rfl, -⟩ | ⟨v', rfl, -, -⟩
    · simpa using hk i _ hold
    · rw [show Dict.get? [(DISCRETE_OCCUPANCY, v')] SITE_ID = none by simp [Dict.get?]; decide]
      simpa using hk i _ hold

/-- A parallel run of a controller that answers with the neighbours in a graph, in any order. -/
theorem grown_parallel_of {S : Structure K d} (hne : S.siteIds ≠ []) {s0 : SimState} (hst : StartState S s0) {bg : Val}
    {g : Graph K} (hknown : ∀ i, ∀ j ∈ g.neighborsOf i, j ∈ S.siteIds) {order : ℕ → List ℕ → List ℕ} (horder : ∀ t l, (order t l).Perm l) {c : Ctl}
    (hbgc : c.background = bg) (hnbs : ∀ (t : ℕ) (i : ℕ), c.nbs t (.int i) = .ok (order t (g.neighborsOf i))) (m : ℕ)
    (fork : ℕ → Ctl → Ctl) (hfork : ∀ v c, Reorders c (fork v c)) (w : ℕ) (hw0 : 0 < w) (sched : ℕ → StepSched) (hv : ValidFor s0.siteIds w m sched) :
    ∃ res, runParallel controller fork c s0 w m sched = .ok res ∧
      ∀ k : ℕ, k ≤ m → ∃ s, res.getStep k = .ok s ∧ GrownTo S s0 bg g.neighborsOf k s := by
  obtain ⟨s1, s2, s3, s4, s5⟩ := id hst
  have hg : s0.getGeneralState ≠ none := by rw [s2]; simp
  have hr' : ∀ v, GrowthCtl bg s0.siteIds (fun i l => l.Perm (match i with | .int z => g.neighborsOf z.toNat | .str _ => [])) (fork v c) := by
    intro v
    have hf := hfork v c
    refine ⟨by rw [hf.1, hbgc], fun t k hk => ?_⟩
    obtain ⟨i, hi, rfl⟩ := (s3 k).1 hk
    obtain ⟨l, hl, hp⟩ := hf.2 t _ _ (hnbs t i)
    have hp' : l.Perm (g.neighborsOf i) := hp.trans (horder t _)
    refine ⟨l, hl, by simpa using hp', fun j hj => ?_⟩
    exact (s3 _).2 ⟨j, hknown i j (hp'.mem_iff.1 hj), rfl⟩
  obtain ⟨Nb, hr⟩ : ∃ Nb, ∀ v, GrowthCtl bg s0.siteIds Nb (fork v c) := ⟨_, hr'⟩
  obtain ⟨E, res, h1, h2, h3, h4, h5⟩ := growth_front bg _ c s0 s1 hg (sameSites_ne s3 hne) s4 fork hr' w hw0 m sched hv
  obtain ⟨ds, res2, e1, e2, e3, e4, e5, -⟩ := growth_runs bg _ c s0 s1 hg (sameSites_ne s3 hne) s4 fork hr w hw0 m sched hv
  rw [h1] at e1; injection e1 with e1; subst e1
  have hv0 : ViewOf s0.siteIds s0 := ⟨s1, rfl, hg⟩
  refine ⟨res, h1, fun k hk => ⟨E k, (h4 k hk).1, ?_⟩⟩
  have hE : E k = after s0 (ds.take k) := by
    have := (h4 k hk).1
    rw [e5 k hk] at this
    injection this with this; exact this.symm
  have hsub : ∀ p ∈ ds.take k, PatchBy s0.siteIds (GrowthView bg s0) (GrowthAnswer bg s0.siteIds Nb) p := fun p hp => e4 p (List.mem_of_mem_take hp)
  have hkn : ∀ l : List Props, (∀ p ∈ l, PatchBy s0.siteIds (GrowthView bg s0) (GrowthAnswer bg s0.siteIds Nb) p) → KnowsIds (after s0 l) := by
    intro l
    induction l using List.reverseRecOn with
    | nil => exact fun _ => startState_knows hst
    | append_singleton l p ih =>
      intro hl
      rw [after_snoc]
      exact knows_setSitesP (hv0.after fun p hp => (hl p (by simp [hp])).1) (ih fun p hp => hl p (by simp [hp])) (hl p (by simp))
  have hview := hv0.after fun p hp => (hsub p hp).1
  refine ⟨by rw [hE]; exact hview.wf, fun q => by rw [(h4 k hk).2.1]; exact s3 q, by rw [hE]; exact hkn _ hsub, ?_, fun i hi => ?_⟩
  · clear hE hsub hview
    induction k with
    | zero => rw [h3]; exact (grownTo_zero hst bg g.neighborsOf).occupied
    | succ k ih =>
      intro i hi
      refine hops_step (P := fun i => occ? (E k) (.int i) ≠ some bg) (Q := fun i => occ? (E (k + 1)) (.int i) ≠ some bg) hknown (ih (by omega)) hi ?_
      have := h5 k (by omega) _ ((s3 _).2 ⟨i, hi, rfl⟩)
      show occ? (E (k + 1)) (.int i) ≠ some bg ↔ _
      rw [this]
      show _ ∨ (∃ j ∈ g.neighborsOf ((i : ℤ)).toNat, _) ↔ _
      rw [Int.toNat_natCast]
  · obtain ⟨v, hv, h9⟩ := (h4 k hk).2.2.1 _ ((s3 _).2 ⟨i, hi, rfl⟩)
    refine ⟨v, hv, h9.imp id ?_⟩
    rintro ⟨q, hq, h9⟩
    obtain ⟨j, hj, rfl⟩ := (s3 _).1 hq
    exact ⟨j, hj, h9⟩

theorem grown_parallel {S : Structure K d} (hS : S.Reachable) (hne : S.siteIds ≠ []) {s0 : SimState} (hst : StartState S s0) (bg : Val)
    {bl : Builder K d} {g : Graph K} (hb : bl.get S none = .ok g) {order : ℕ → List ℕ → List ℕ} (horder : ∀ t l, (order t l).Perm l) (m : ℕ)
    (fork : ℕ → Ctl → Ctl) (hfork : ∀ v c, Reorders c (fork v c)) (w : ℕ) (hw0 : 0 < w) (sched : ℕ → StepSched) (hv : ValidFor s0.siteIds w m sched) :
    ∃ c res, Growth.init order S bg (some bl) = .ok c ∧ runParallel controller fork c s0 w m sched = .ok res ∧
      ∀ k : ℕ, k ≤ m → ∃ s, res.getStep k = .ok s ∧ GrownTo S s0 bg g.neighborsOf k s := by
  obtain ⟨c, hc⟩ : ∃ c, Growth.init order S bg (some bl) = .ok c := by
    unfold Growth.init
    rw [Option.getD_some, hb]
    exact ⟨_, rfl⟩
  obtain ⟨hbgc, hnbs⟩ := init_nbs hb hc
  obtain ⟨res, h⟩ := grown_parallel_of hne hst (fun i j hj => ((C55_known_and_other hS bl none g hb i).1 j hj).1) horder hbgc hnbs m fork hfork w hw0 sched hv
  exact ⟨c, res, hc, h⟩

/-! ### Moves and distances -/

theorem hops_dist {S : Structure K d} {N : Fin d → ℤ} (ht : IsTorus S N) {g : Graph K} {D : (Fin d → ℤ) → (Fin d → ℤ) → ℕ → Prop}
    (hgn : ∀ i j a b, SiteHas S i a → SiteHas S j b → (j ∈ g.neighborsOf i ↔ j ≠ i ∧ D a b 1))
    (hb : ∀ i ∈ S.siteIds, ∀ j ∈ g.neighborsOf i, j ∈ S.siteIds)
    (h0 : ∀ a b, InBox N a → InBox N b → (D a b 0 ↔ a = b)) (hmono : ∀ a b k, D a b k → D a b (k + 1))
    (hs : ∀ a b k, InBox N a → InBox N b → (D a b (k + 1) ↔ ∃ z, InBox N z ∧ D a z 1 ∧ D z b k))
    {j : ℕ} {y : Fin d → ℤ} (hy : SiteHas S j y) (k : ℕ) : ∀ i x, SiteHas S i x → (Hops g.neighborsOf k i j ↔ D x y k) := by
  have hyb := ht.inBox_of_has hy
  induction k with
  | zero =>
    intro i x hx
    rw [h0 x y (ht.inBox_of_has hx) hyb]
    constructor
    · rintro rfl
      exact IsTorus.has_unique_coord hx hy
    · rintro rfl
      exact ht.site_unique hx hy
  | succ k ih =>
    intro i x hx
    have hxb := ht.inBox_of_has hx
    constructor
    · rintro (h | ⟨i', hi', h⟩)
      · exact hmono _ _ _ ((ih i x hx).1 h)
      · obtain ⟨z, -, hz⟩ := ht.site i' (hb i (ht.mem_ids ht.reachable hx) i' hi')
        exact (hs x y k hxb hyb).2 ⟨z, ht.inBox_of_has hz, ((hgn i i' x z hx hz).1 hi').2, (ih i' z hz).1 h⟩
    · intro h
      obtain ⟨z, hzb, h1, h2⟩ := (hs x y k hxb hyb).1 h
      obtain ⟨i', -, hi'⟩ := ht.ex z hzb
      have h9 := (ih i' z hi').2 h2
      by_cases e : i' = i
      · subst e; exact .inl h9
      · exact .inr ⟨i', (hgn i i' x z hx hi').2 ⟨e, h1⟩, h9⟩

theorem moore_dist {S : Structure K d} {N : Fin d → ℤ} (ht : IsTorus S N) {g : Graph K}
    (hgn : ∀ i j a b, SiteHas S i a → SiteHas S j b → (j ∈ g.neighborsOf i ↔ j ≠ i ∧ ChebyshevLE N a b 1))
    (hb : ∀ i ∈ S.siteIds, ∀ j ∈ g.neighborsOf i, j ∈ S.siteIds)
    {j : ℕ} {y : Fin d → ℤ} (hy : SiteHas S j y) (k : ℕ) : ∀ i x, SiteHas S i x → (Hops g.neighborsOf k i j ↔ ChebyshevLE N x y k) := by
  refine hops_dist (D := fun a b k => ChebyshevLE N a b k) ht (by simpa using hgn) hb (fun a b ha hb' => ?_) (fun a b k h q => ?_) (fun a b k ha hb' => ?_) hy k
  · constructor
    · intro h
      funext q
      exact circ_zero (ht.pos q) (ha q) (hb' q) (by simpa using h q)
    · rintro rfl q
      simp [circ]
  · have := h q
    push_cast
    linarith
  · constructor
    · intro h
      choose z hz1 hz2 using fun q => circ_succ (ht.pos q) (a q) (b q) k (by omega) (by exact_mod_cast h q)
      exact ⟨fun q => z q % N q, ht.inBox_mod z, fun q => by rw [(circ_emod _ _).1]; exact_mod_cast hz1 q, fun q => by rw [(circ_emod _ _).2]; exact hz2 q⟩
    · rintro ⟨z, -, h1, h2⟩ q
      have := circ_triangle (ht.pos q) _ _ _ _ _ (h1 q) (h2 q)
      push_cast at this ⊢
      linarith

theorem vonNeumann_dist {S : Structure K d} {N : Fin d → ℤ} (ht : IsTorus S N) {g : Graph K}
    (hgn : ∀ i j a b, SiteHas S i a → SiteHas S j b → (j ∈ g.neighborsOf i ↔ j ≠ i ∧ torusManhattan N a b ≤ 1))
    (hb : ∀ i ∈ S.siteIds, ∀ j ∈ g.neighborsOf i, j ∈ S.siteIds)
    {j : ℕ} {y : Fin d → ℤ} (hy : SiteHas S j y) (k : ℕ) : ∀ i x, SiteHas S i x → (Hops g.neighborsOf k i j ↔ torusManhattan N x y ≤ k) := by
  have hself : ∀ a : Fin d → ℤ, torusManhattan N a a = 0 := fun a => by
    refine Finset.sum_eq_zero fun q _ => ?_
    simp [circ, (ht.pos q).le]
  have hzero : ∀ a b, InBox N a → InBox N b → torusManhattan N a b ≤ 0 → a = b := by
    intro a b ha hb' h
    funext q
    refine circ_zero (ht.pos q) (ha q) (hb' q) (le_trans ?_ h)
    exact Finset.single_le_sum (f := fun q => circ (N q) (a q - b q)) (fun q _ => circ_nonneg (ht.pos q) _) (Finset.mem_univ q)
  refine hops_dist (D := fun a b k => torusManhattan N a b ≤ (k : ℤ)) ht (by simpa using hgn) hb (fun a b ha hb' => ?_) (fun a b k h => ?_)
    (fun a b k ha hb' => ?_) hy k
  · exact ⟨fun h => hzero a b ha hb' (by simpa using h), fun h => by rw [h, hself]; simp⟩
  · push_cast
    linarith
  · constructor
    · intro h
      by_cases hz : ∀ q, circ (N q) (a q - b q) ≤ 0
      · have : a = b := by
          funext q
          exact circ_zero (ht.pos q) (ha q) (hb' q) (hz q)
        subst this
        exact ⟨a, ha, by simp [hself], by simp [hself]⟩
      · push Not at hz
        obtain ⟨q, hq⟩ := hz
        obtain ⟨w, hw1, hw2⟩ := circ_succ (ht.pos q) (a q) (b q) (circ (N q) (a q - b q) - 1) (by omega) (by omega)
        refine ⟨fun r => if r = q then w % N q else a r, fun r => ?_, ?_, ?_⟩
        · by_cases e : r = q
          · subst e
            simp only [if_true]
            exact ⟨Int.emod_nonneg _ (ht.pos r).ne', Int.emod_lt_of_pos _ (ht.pos r)⟩
          · simp only [if_neg e]
            exact ha r
        · rw [torusManhattan, ← Finset.add_sum_erase _ _ (Finset.mem_univ q), Finset.sum_eq_zero]
          · simp only [if_true]
            rw [(circ_emod _ _).1]
            simpa using hw1
          · intro r hr
            simp only [if_neg (Finset.ne_of_mem_erase hr)]
            simp [circ, (ht.pos r).le]
        · rw [torusManhattan, ← Finset.add_sum_erase _ _ (Finset.mem_univ q)] at h ⊢
          have e : ∑ r ∈ Finset.univ.erase q, circ (N r) ((if r = q then w % N q else a r) - b r) = ∑ r ∈ Finset.univ.erase q, circ (N r) (a r - b r) :=
            Finset.sum_congr rfl fun r hr => by rw [if_neg (Finset.ne_of_mem_erase hr)]
          rw [e]
          simp only [if_true]
          rw [(circ_emod _ _).2]
          push_cast at h
          linarith
    · rintro ⟨z, -, h1, h2⟩
      have : torusManhattan N a b ≤ torusManhattan N a z + torusManhattan N z b := by
        unfold torusManhattan
        rw [← Finset.sum_add_distrib]
        exact Finset.sum_le_sum fun q _ => circ_triangle (ht.pos q) _ _ _ _ _ le_rfl le_rfl
      push_cast at h1 ⊢
      linarith

/-! ### One nucleus -/

/-- What `setup_coords` makes of one coordinate: one site with the phase, everything else background. -/
theorem one_nucleus {G : GridSetup K d} (hG : StdSetup d G) {n : ℤ} (hn : 0 < n) {bg p : Val} (hbg : bg.WF) (hp : p.WF) (hne : p ≠ bg) (x : Fin d → ℤ) :
    ∃ S s, G.coords (.int n) bg [(p, [intPoint x])] = .ok ⟨s, S⟩ ∧ SquareGrid d (fun _ => n) S ∧ StartState S s ∧
      ∃ j0, SiteHas S j0 (fun q => x q % n) ∧ (∀ j, j ∈ nuclei S s bg ↔ j = j0) ∧ ∀ j v, j ∈ S.siteIds → occ? s (.int j) = some v → v = p ∨ v = bg := by
  obtain ⟨S, s, h1, hsq, h2, h3⟩ := C66_coords hG n hn bg hbg [(p, [x])] (by simpa using hp)
  have ht := hsq.isTorus
  refine ⟨S, s, h1, hsq, h2, ?_⟩
  obtain ⟨j0, -, hj0⟩ := ht.idAt_some x
  have hl : listed [(p, [x])] = [(p, x)] := by simp [listed]
  have hcase : ∀ i c, SiteHas S i c → (SameCell n x c → occ? s (.int i) = some p) ∧ (¬ SameCell n x c → occ? s (.int i) = some bg) := by
    intro i c hc
    obtain ⟨v, hv, h4⟩ := h3 i c hc
    rw [hl] at h4
    rcases h4 with ⟨l₁, p', x', l₂, e, h5, -, rfl⟩ | ⟨h5, rfl⟩
    · have hmem : (v, x') ∈ [(p, x)] := by rw [e]; simp
      simp at hmem
      obtain ⟨rfl, rfl⟩ := hmem
      exact ⟨fun _ => hv, fun h => absurd h5 h⟩
    · exact ⟨fun h => absurd h (h5 (p, x) (by simp)), fun _ => hv⟩
  have hsame : SameCell n x fun q => x q % n := fun q => Int.dvd_self_sub_emod
  refine ⟨j0, hj0, fun j => ?_, fun j v hj hv => ?_⟩
  · rw [nuclei, List.mem_filter, decide_eq_true_eq]
    constructor
    · rintro ⟨hj, h⟩
      obtain ⟨c, hcb, hc⟩ := ht.site j hj
      by_cases hs : SameCell n x c
      · have e : c = fun q => x q % n := by
          funext q
          have h6 := Int.emod_eq_emod_iff_emod_sub_eq_zero.2 (Int.emod_eq_zero_of_dvd (hs q))
          rw [h6, Int.emod_eq_of_lt (hcb q).1 (hcb q).2]
        subst e
        exact ht.site_unique hc hj0
      · exact absurd ((hcase j c hc).2 hs) h
    · rintro rfl
      refine ⟨ht.mem_ids ht.reachable hj0, ?_⟩
      rw [(hcase j _ hj0).1 hsame]
      simpa using hne
  · obtain ⟨c, hcb, hc⟩ := ht.site j hj
    by_cases hs : SameCell n x c
    · rw [(hcase j c hc).1 hs] at hv
      exact .inl (Option.some.inj hv).symm
    · rw [(hcase j c hc).2 hs] at hv
      exact .inr (Option.some.inj hv).symm

theorem grownTo_count {S : Structure K d} {n : ℤ} (ht : IsTorus S fun _ => n) {s0 s : SimState} {bg p : Val} (hne : p ≠ bg)
    {nbs : ℕ → List ℕ} {k : ℕ} (hg : GrownTo S s0 bg nbs k s) {j0 : ℕ} (hj0 : ∀ j, j ∈ nuclei S s0 bg ↔ j = j0)
    (hph : ∀ j v, j ∈ S.siteIds → occ? s0 (.int j) = some v → v = p ∨ v = bg) {F : Finset (Fin d → ℤ)} (hFb : ∀ c ∈ F, InBox (fun _ => n) c)
    (hF : ∀ i c, SiteHas S i c → (Hops nbs k i j0 ↔ c ∈ F)) (hp : p.hashable = true) (hb : bg.hashable = true) (A : Option (Structure K d)) (hA : A = none ∨ A = some S) :
    cellCount A s p = .ok F.card ∧ cellCount A s bg = .ok (n.toNat ^ d - F.card) := by
  have hocc : ∀ i c, SiteHas S i c → (occ? s (.int i) = some bg ↔ c ∉ F) ∧ (occ? s (.int i) = some p ↔ c ∈ F) := by
    intro i c hc
    have hi := ht.mem_ids ht.reachable hc
    have h1 : occ? s (.int i) ≠ some bg ↔ c ∈ F := by
      rw [hg.occupied i hi, ← hF i c hc]
      constructor
      · rintro ⟨j, hj, h⟩
        rwa [(hj0 j).1 hj] at h
      · exact fun h => ⟨j0, (hj0 j0).2 rfl, h⟩
    obtain ⟨v, hv, h2⟩ := hg.phase i hi
    have h3 : v = p ∨ v = bg := by
      rcases h2 with h2 | ⟨j, hj, h2⟩
      · exact .inr h2
      · exact hph j v hj h2
    rw [hv] at h1 ⊢
    rcases h3 with rfl | rfl
    · have : c ∈ F := h1.1 (by simpa using hne)
      simp [this, hne]
    · have : c ∉ F := fun h => h1.2 h rfl
      simp [this, hne.symm]
  have hAn : Analyzable s := by
    refine ⟨hg.wf, hg.knows, ?_⟩
    intro q hq
    obtain ⟨i, hi, rfl⟩ := (hg.same q).1 hq
    obtain ⟨v, hv, h2⟩ := hg.phase i hi
    refine ⟨v, hv, ?_⟩
    rcases h2 with rfl | ⟨j, hj, h2⟩
    · exact hb
    · rcases hph j v hj h2 with rfl | rfl <;> assumption
  have hfit : Fits A s := by
    intro S' e
    rcases hA with rfl | rfl
    · cases e
    · cases e
      exact ⟨ht.reachable, hg.same⟩
  rw [C71_count A s hAn hfit p hp, C71_count A s hAn hfit bg hb]
  refine ⟨congrArg _ (sitesWith_cells ht hg.wf hg.same hFb fun i c hc => (hocc i c hc).2), congrArg _ ?_⟩
  have hbox : F ⊆ Fintype.piFinset fun _ : Fin d => Finset.Ico 0 n := fun c hc => by simpa [InBox] using hFb c hc
  rw [sitesWith_cells ht hg.wf hg.same (F := (Fintype.piFinset fun _ : Fin d => Finset.Ico 0 n) \ F)
    (fun c hc => by simpa [InBox] using (Finset.mem_sdiff.1 hc).1) fun i c hc => by
      rw [(hocc i c hc).1, Finset.mem_sdiff]
      have := ht.inBox_of_has hc
      simp only [InBox] at this
      simp [this], Finset.card_sdiff_of_subset hbox]
  simp

/-- Both runners, for a graph in which `k` moves reach the cells of `F k`. -/
theorem one_nucleus_counts {S : Structure K d} {n : ℤ} (ht : IsTorus S fun _ => n) {s0 : SimState} (hst : StartState S s0) {bg p : Val} (hne : p ≠ bg)
    (hp : p.hashable = true) (hb : bg.hashable = true) {j0 : ℕ} (hj0 : ∀ j, j ∈ nuclei S s0 bg ↔ j = j0)
    (hph : ∀ j v, j ∈ S.siteIds → occ? s0 (.int j) = some v → v = p ∨ v = bg) {bl : Builder K d} {g : Graph K} (hbl : bl.get S none = .ok g)
    {F : ℕ → Finset (Fin d → ℤ)} (hFb : ∀ k, ∀ c ∈ F k, InBox (fun _ => n) c)
    (hF : ∀ k i c, SiteHas S i c → (Hops g.neighborsOf k i j0 ↔ c ∈ F k))
    {order : ℕ → List ℕ → List ℕ} (horder : ∀ t l, (order t l).Perm l) (m : ℕ) :
    ∃ c, Growth.init order S bg (some bl) = .ok c ∧
      (∃ c' res, runSync controller c s0 m = .ok (c', res) ∧ Counts S res m p (fun k => (F k).card) ∧ Counts S res m bg fun k => n.toNat ^ d - (F k).card) ∧
      ∀ (fork : ℕ → Ctl → Ctl) (w : ℕ) (sched : ℕ → StepSched), (∀ v c, Reorders c (fork v c)) → 0 < w → ValidFor s0.siteIds w m sched →
        ∃ res, runParallel controller fork c s0 w m sched = .ok res ∧ Counts S res m p (fun k => (F k).card) ∧
          Counts S res m bg fun k => n.toNat ^ d - (F k).card := by
  have hS := ht.reachable
  have hids : S.siteIds ≠ [] := ht.ids_ne
  have hcount : ∀ res : SimResult, (∀ k : ℕ, k ≤ m → ∃ s, res.getStep k = .ok s ∧ GrownTo S s0 bg g.neighborsOf k s) →
      Counts S res m p (fun k => (F k).card) ∧ Counts S res m bg fun k => n.toNat ^ d - (F k).card := by
    intro res h
    constructor <;> intro k hk <;> obtain ⟨s, h1, h2⟩ := h k hk <;>
      have h3 := fun A hA => grownTo_count ht hne h2 hj0 hph (hFb k) (hF k) hp hb A hA
    · exact ⟨s, h1, (h3 _ (.inr rfl)).1, (h3 _ (.inl rfl)).1⟩
    · exact ⟨s, h1, (h3 _ (.inr rfl)).2, (h3 _ (.inl rfl)).2⟩
  obtain ⟨c, c', res, h1, h2, h3⟩ := grown_serial hS hids hst bg hbl horder m
  refine ⟨c, h1, ⟨c', res, h2, hcount res h3⟩, fun fork w sched hfork hw hv => ?_⟩
  obtain ⟨c2, res2, e1, e2, e3⟩ := grown_parallel hS hids hst bg hbl horder m fork hfork w hw sched hv
  rw [h1] at e1; injection e1 with e1; subst e1
  exact ⟨res2, e2, hcount res2 e3⟩

/-- C131, Moore neighbourhood of size 1 (also what `None` stands for): after `k` steps a single nucleus has grown to a cube of `2k + 1` cells along every
axis, cut off at the size of the grid; the rest is background.  The serial and the parallel runner agree, whatever the workers do. -/
theorem C131_moore {G : GridSetup K d} (hG : StdSetup d G) (n : ℤ) (hn : 0 < n) (bg p : Val) (hbg : bg.WF) (hp : p.WF) (hbh : bg.hashable = true)
    (hph : p.hashable = true) (hne : p ≠ bg) (x : Fin d → ℤ) (nb : Option (Builder K d)) (hnb : nb = none ∨ nb = some (moore 1))
    (order : ℕ → List ℕ → List ℕ) (horder : ∀ t l, (order t l).Perm l) (m : ℕ) :
    ∃ sim c, G.coords (.int n) bg [(p, [intPoint x])] = .ok sim ∧ Growth.init order sim.struct bg nb = .ok c ∧
      (∃ c' res, runSync controller c sim.state m = .ok (c', res) ∧
        Counts sim.struct res m p (fun k => (min n (2 * k + 1)).toNat ^ d) ∧
        Counts sim.struct res m bg fun k => n.toNat ^ d - (min n (2 * k + 1)).toNat ^ d) ∧
      ∀ (fork : ℕ → Ctl → Ctl) (w : ℕ) (sched : ℕ → StepSched), (∀ v c, Reorders c (fork v c)) → 0 < w → ValidFor sim.state.siteIds w m sched →
        ∃ res, runParallel controller fork c sim.state w m sched = .ok res ∧
          Counts sim.struct res m p (fun k => (min n (2 * k + 1)).toNat ^ d) ∧
          Counts sim.struct res m bg fun k => n.toNat ^ d - (min n (2 * k + 1)).toNat ^ d := by
  obtain ⟨S, s, h1, hsq, hst, j0, hj, hj0, h2⟩ := one_nucleus hG hn hbg hp hne x
  obtain ⟨g, hb, hgn⟩ := C53_moore hsq 1
  have ht := hsq.isTorus
  obtain ⟨c, h3, h4⟩ := one_nucleus_counts ht hst hne hph hbh hj0 h2 hb (F := fun k => cubeBall d n x k) (fun k c hc => (mem_cubeBall.1 hc).1)
    (fun k i c hc => by
      rw [moore_dist ht hgn (fun i _ j hj => ((C55_known_and_other ht.reachable _ none g hb i).1 j hj).1) hj k i c hc, mem_cubeBall,
        and_iff_right (ht.inBox_of_has hc)]
      refine forall_congr' fun q => ?_
      rw [(circ_emod _ _).1]) horder m
  refine ⟨⟨s, S⟩, c, h1, ?_, by simpa only [card_cubeBall hn] using h4⟩
  rcases hnb with rfl | rfl
  · rw [← h3]; rfl
  · exact h3

/-- C131, von Neumann neighbourhood of size 1: after `k` steps the nucleus has grown to the cells within Manhattan distance `k`. -/
theorem C131_von_neumann {G : GridSetup K d} (hG : StdSetup d G) (n : ℤ) (hn : 0 < n) (bg p : Val) (hbg : bg.WF) (hp : p.WF) (hbh : bg.hashable = true)
    (hph : p.hashable = true) (hne : p ≠ bg) (x : Fin d → ℤ) (order : ℕ → List ℕ → List ℕ) (horder : ∀ t l, (order t l).Perm l) (m : ℕ) :
    ∃ sim c, G.coords (.int n) bg [(p, [intPoint x])] = .ok sim ∧ Growth.init order sim.struct bg (some (vonNeumann 1)) = .ok c ∧
      (∃ c' res, runSync controller c sim.state m = .ok (c', res) ∧
        Counts sim.struct res m p (fun k => Set.ncard {c | InBox (fun _ => n) c ∧ torusManhattan (fun _ => n) c x ≤ k}) ∧
        Counts sim.struct res m bg fun k => n.toNat ^ d - Set.ncard {c | InBox (fun _ => n) c ∧ torusManhattan (fun _ => n) c x ≤ k}) ∧
      ∀ (fork : ℕ → Ctl → Ctl) (w : ℕ) (sched : ℕ → StepSched), (∀ v c, Reorders c (fork v c)) → 0 < w → ValidFor sim.state.siteIds w m sched →
        ∃ res, runParallel controller fork c sim.state w m sched = .ok res ∧
          Counts sim.struct res m p (fun k => Set.ncard {c | InBox (fun _ => n) c ∧ torusManhattan (fun _ => n) c x ≤ k}) ∧
          Counts sim.struct res m bg fun k => n.toNat ^ d - Set.ncard {c | InBox (fun _ => n) c ∧ torusManhattan (fun _ => n) c x ≤ k} := by
  obtain ⟨S, s, h1, hsq, hst, j0, hj, hj0, h2⟩ := one_nucleus hG hn hbg hp hne x
  obtain ⟨g, hb, hgn⟩ := C54_von_neumann hsq 1
  have ht := hsq.isTorus
  have hcard : ∀ k : ℕ, Set.ncard {c | InBox (fun _ => n) c ∧ torusManhattan (fun _ => n) c x ≤ k} = (diamond d n x k).card := by
    intro k
    rw [← Set.ncard_coe_finset]
    congr 1
    ext c
    exact mem_diamond.symm
  obtain ⟨c, h3, h4⟩ := one_nucleus_counts ht hst hne hph hbh hj0 h2 hb (F := fun k => diamond d n x k) (fun k c hc => (mem_diamond.1 hc).1)
    (fun k i c hc => by
      rw [vonNeumann_dist ht hgn (fun i _ j hj => ((C55_known_and_other ht.reachable _ none g hb i).1 j hj).1) hj k i c hc, mem_diamond,
        and_iff_right (ht.inBox_of_has hc), torusManhattan, torusManhattan]
      simp only [(circ_emod _ _).1]) horder m
  exact ⟨⟨s, S⟩, c, h1, h3, by simpa only [hcard] using h4⟩

/-- C131: how many cells of an `n` by `n` torus lie within Manhattan distance `k`, as long as the diamond does not meet itself. -/
theorem C131_diamond_2 (n : ℤ) (hn : 0 < n) (x : Fin 2 → ℤ) (k : ℕ) (hk : 2 * (k : ℤ) + 1 ≤ n) :
    Set.ncard {c | InBox (fun _ => n) c ∧ torusManhattan (fun _ => n) c x ≤ k} = 2 * k ^ 2 + 2 * k + 1 := by
  rw [← card_diamond_two hn x k hk, ← Set.ncard_coe_finset]
  congr 1
  ext c
  exact mem_diamond.symm

/-- C131: the same in three dimensions. -/
theorem C131_diamond_3 (n : ℤ) (hn : 0 < n) (x : Fin 3 → ℤ) (k : ℕ) (hk : 2 * (k : ℤ) + 1 ≤ n) :
    3 * Set.ncard {c | InBox (fun _ => n) c ∧ torusManhattan (fun _ => n) c x ≤ k} = (2 * k + 1) * (2 * k ^ 2 + 2 * k + 3) := by
  rw [← card_diamond_three hn x k hk, ← Set.ncard_coe_finset]
  congr 2
  ext c
  exact mem_diamond.symm

/-- The two project tests of the growth model: on a 20 by 20 grid with `B` at (10, 10) in `A`, 9 sites hold `B` after one step and 25 after two, with the
serial and with the parallel runner; and 375 still hold `A` then. -/
example (order : ℕ → List ℕ → List ℕ) (horder : ∀ t l, (order t l).Perm l) :
    ∃ sim c, (gridSetup2 : GridSetup ℚ 2).coords (.int 20) (.str "A") [(.str "B", [intPoint ![10, 10]])] = .ok sim ∧
      Growth.init order sim.struct (.str "A") (some (moore 1)) = .ok c ∧
      (∃ c' res s1 s2, runSync controller c sim.state 3 = .ok (c', res) ∧ res.getStep 1 = .ok s1 ∧ res.getStep 2 = .ok s2 ∧
        getSiteCountWhereEqual (some sim.struct) s1 [(DISCRETE_OCCUPANCY, .str "B")] none = .ok 9 ∧
        getSiteCountWhereEqual (some sim.struct) s2 [(DISCRETE_OCCUPANCY, .str "B")] none = .ok 25 ∧
        getSiteCountWhereEqual (some sim.struct) s2 [(DISCRETE_OCCUPANCY, .str "A")] none = .ok 375) ∧
      ∀ w sched, 0 < w → ValidFor sim.state.siteIds w 3 sched →
        ∃ res s1 s2, runParallel controller (fun _ c => c) c sim.state w 3 sched = .ok res ∧ res.getStep 1 = .ok s1 ∧ res.getStep 2 = .ok s2 ∧
          getSiteCountWhereEqual (some sim.struct) s1 [(DISCRETE_OCCUPANCY, .str "B")] none = .ok 9 ∧
          getSiteCountWhereEqual (some sim.struct) s2 [(DISCRETE_OCCUPANCY, .str "B")] none = .ok 25 := by
  obtain ⟨sim, c, h1, h2, ⟨c', res, h3, h4, h5⟩, h6⟩ := C131_moore (K := ℚ) .two 20 (by norm_num) (.str "A") (.str "B") (.str _) (.str _) rfl rfl
    (by simp) ![10, 10] (some (moore 1)) (.inr rfl) order horder 3
  obtain ⟨s1, a1, a2, -⟩ := h4 1 (by norm_num)
  obtain ⟨s2, b1, b2, -⟩ := h4 2 (by norm_num)
  obtain ⟨s3, b3, b4, -⟩ := h5 2 (by norm_num)
  rw [b1] at b3; injection b3 with b3; subst b3
  refine ⟨sim, c, h1, h2, ⟨c', res, s1, s2, h3, by exact_mod_cast a1, by exact_mod_cast b1, by simpa using a2, by simpa using b2, by simpa using b4⟩, fun w sched hw hv => ?_⟩
  obtain ⟨res, g1, g2, -⟩ := h6 (fun _ c => c) w sched (fun v c => ⟨rfl, fun t i l h => ⟨l, h, .refl _⟩⟩) hw hv
  obtain ⟨s1, a1, a2, -⟩ := g2 1 (by norm_num)
  obtain ⟨s2, b1, b2, -⟩ := g2 2 (by norm_num)
  exact ⟨res, s1, s2, g1, by exact_mod_cast a1, by exact_mod_cast b1, by simpa using a2, by simpa using b2⟩

end Pyl
