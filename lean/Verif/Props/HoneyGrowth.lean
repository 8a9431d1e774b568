import Verif.Spec.HoneyGrowth
import Verif.Props.Honeycomb
import Verif.Props.GrowthCount
import Mathlib.Data.Int.Interval
/-
C156: growth on the honeycomb tiling.
-/
set_option autoImplicit false
set_option linter.unusedSectionVars false

namespace Pyl
open SimState Spec Growth Analyzer
open Pyl.Lattice Pyl.Structure

/-! ### Distances between hexagons -/

theorem hexLength_le {v : Fin 2 → ℤ} {k : ℤ} :
    hexLength v ≤ k ↔ (-k ≤ v 0 ∧ v 0 ≤ k) ∧ (-k ≤ v 1 ∧ v 1 ≤ k) ∧ (-k ≤ v 0 + v 1 ∧ v 0 + v 1 ≤ k) := by
  unfold hexLength
  rw [max_le_iff, max_le_iff, abs_le, abs_le, abs_le]

/-- A step to a neighbour changes the distance by at most one. -/
theorem hexLength_step {v u : Fin 2 → ℤ} {k : ℤ} (hv : v ∈ hexSteps) (hu : hexLength u ≤ k) : hexLength (fun j => v j + u j) ≤ k + 1 := by
  rw [hexLength_le] at hu ⊢
  simp only [hexSteps, List.mem_cons, List.not_mem_nil, or_false] at hv
  rcases hv with rfl | rfl | rfl | rfl | rfl | rfl <;> simp <;> omega

/-- From a hexagon that is not nearer than `k + 1` some neighbour is nearer. -/
theorem hexLength_approach {v : Fin 2 → ℤ} {k : ℕ} (h : hexLength v ≤ k + 1) (hk : ¬ hexLength v ≤ k) :
    ∃ e ∈ hexSteps, hexLength (fun j => v j - e j) ≤ k := by
  rw [hexLength_le] at h hk
  simp only [hexLength_le]
  rcases lt_trichotomy (v 0) 0 with a | a | a
  · by_cases b : 0 < v 1
    · refine ⟨![-1, 1], by simp [hexSteps], ?_⟩; simp; omega
    · refine ⟨![-1, 0], by simp [hexSteps], ?_⟩; simp; omega
  · rcases lt_trichotomy (v 1) 0 with b | b | b
    · refine ⟨![0, -1], by simp [hexSteps], ?_⟩; simp; omega
    · exact absurd (by omega) hk
    · refine ⟨![0, 1], by simp [hexSteps], ?_⟩; simp; omega
  · by_cases b : v 1 < 0
    · refine ⟨![1, -1], by simp [hexSteps], ?_⟩; simp; omega
    · refine ⟨![1, 0], by simp [hexSteps], ?_⟩; simp; omega

/-- No two hexagons are further apart than half the number of columns plus half the number of rows. -/
theorem hexWithin_half {n : Fin 2 → ℤ} (hn : ∀ k, 3 ≤ n k) (a b : Fin 2 → ℤ) {k : ℕ} (hk : n 0 / 2 + n 1 / 2 ≤ k) : HexWithin n a b k := by
  have near : ∀ N y : ℤ, 3 ≤ N → ∃ v, N ∣ y - v ∧ -(N / 2) ≤ v ∧ v ≤ N / 2 := by
    intro N y hN
    have e1 := Int.emod_nonneg y (show N ≠ 0 by omega)
    have e2 := Int.emod_lt_of_pos y (show 0 < N by omega)
    have e3 : N ∣ y - y % N := Int.dvd_self_sub_emod
    by_cases e4 : y % N ≤ N / 2
    · exact ⟨y % N, e3, by omega, e4⟩
    · refine ⟨y % N - N, ?_, by omega, by omega⟩
      have : y - (y % N - N) = (y - y % N) + N := by ring
      rw [this]
      exact dvd_add e3 (dvd_refl N)
  obtain ⟨v0, d0, l0, u0⟩ := near (n 0) (b 0 - a 0) (hn 0)
  obtain ⟨v1, d1, l1, u1⟩ := near (n 1) (b 1 - a 1) (hn 1)
  have p0 := hn 0
  have p1 := hn 1
  refine ⟨![v0, v1], fun q => by fin_cases q <;> assumption, hexLength_le.2 ?_⟩
  simp
  omega

/-! ### The hexagon numbers -/

/-- The hexagons at most `k` away. -/
noncomputable def hexBall (k : ℕ) : Finset (ℤ × ℤ) :=
  (Finset.Icc (-(k : ℤ)) k).biUnion fun a => (Finset.Icc (max (-(k : ℤ)) (-k - a)) (min k (k - a))).image fun b => (a, b)

theorem mem_hexBall {k : ℕ} {p : ℤ × ℤ} : p ∈ hexBall k ↔ hexLength ![p.1, p.2] ≤ k := by
  rw [hexLength_le]
  simp only [hexBall, Finset.mem_biUnion, Finset.mem_image, Finset.mem_Icc]
  constructor
  · rintro ⟨a, ha, b, hb, rfl⟩
    simp; omega
  · intro h
    simp at h
    refine ⟨p.1, by omega, p.2, by omega, rfl⟩

theorem sum_down (m : ℕ) (c : ℤ) : 2 * ∑ i ∈ Finset.range m, (c - i) = m * (2 * c + 1 - m) := by
  induction m with
  | zero => simp
  | succ m ih => rw [Finset.sum_range_succ, mul_add, ih]; push_cast; ring

theorem sum_symm (k : ℕ) (f : ℤ → ℤ) :
    ∑ a ∈ Finset.Icc (-(k : ℤ)) k, f a = ∑ i ∈ Finset.range (k + 1), f i + ∑ i ∈ Finset.range k, f (-(i + 1)) := by
  induction k with
  | zero => simp
  | succ k ih =>
    have e : Finset.Icc (-((k + 1 : ℕ) : ℤ)) (k + 1 : ℕ) = insert ((k : ℤ) + 1) (insert (-((k : ℤ) + 1)) (Finset.Icc (-(k : ℤ)) k)) := by
      ext a
      simp only [Finset.mem_insert, Finset.mem_Icc]
      omega
    rw [e, Finset.sum_insert (by simp only [Finset.mem_insert, Finset.mem_Icc]; omega), Finset.sum_insert (by simp only [Finset.mem_Icc]; omega), ih,
      Finset.sum_range_succ _ (k + 1), Finset.sum_range_succ (fun i : ℕ => f (-(i + 1))) k]
    push_cast
    ring

/-- The centred hexagonal numbers. -/
theorem card_hexBall (k : ℕ) : (hexBall k).card = 3 * k ^ 2 + 3 * k + 1 := by
  have h1 : (hexBall k).card = ∑ a ∈ Finset.Icc (-(k : ℤ)) k, (Finset.Icc (max (-(k : ℤ)) (-k - a)) (min k (k - a))).card := by
    rw [hexBall, Finset.card_biUnion]
    · exact Finset.sum_congr rfl fun a _ => Finset.card_image_of_injective _ fun x y h => (Prod.mk.inj h).2
    · intro a _ b _ hab
      rw [Function.onFun, Finset.disjoint_left]
      intro p hp hq
      rw [Finset.mem_image] at hp hq
      obtain ⟨x, -, rfl⟩ := hp
      obtain ⟨y, -, h⟩ := hq
      exact hab (Prod.mk.inj h).1.symm
  have h2 : ((hexBall k).card : ℤ) = ∑ a ∈ Finset.Icc (-(k : ℤ)) k, (2 * (k : ℤ) + 1 - |a|) := by
    rw [h1, Nat.cast_sum]
    refine Finset.sum_congr rfl fun a ha => ?_
    rw [Finset.mem_Icc] at ha
    rw [Int.card_Icc]
    rcases abs_cases a with ⟨e, _⟩ | ⟨e, _⟩ <;> omega
  rw [sum_symm] at h2
  have h3 : ∀ i ∈ Finset.range (k + 1), 2 * (k : ℤ) + 1 - |(i : ℤ)| = 2 * (k : ℤ) + 1 - i := fun i _ => by rw [abs_of_nonneg (by omega)]
  have h4 : ∀ i ∈ Finset.range k, 2 * (k : ℤ) + 1 - |(-((i : ℤ) + 1))| = 2 * (k : ℤ) - i := fun i _ => by
    rw [abs_neg, abs_of_nonneg (by omega)]; ring
  rw [Finset.sum_congr rfl h3, Finset.sum_congr rfl h4] at h2
  have h5 := sum_down (k + 1) (2 * (k : ℤ) + 1)
  have h6 := sum_down k (2 * (k : ℤ))
  have h7 : 2 * ((hexBall k).card : ℤ) = 2 * (3 * k ^ 2 + 3 * k + 1) := by
    rw [h2, mul_add, h5, h6]; push_cast; ring
  have h8 : ((hexBall k).card : ℤ) = ((3 * k ^ 2 + 3 * k + 1 : ℕ) : ℤ) := by push_cast; linarith
  exact_mod_cast h8

/-! ### Hops on the tiling -/

variable {K : Type} [Field K] [LinearOrder K] [FloorRing K] [IsStrictOrderedRing K]

/-- What C78 says about a tiling with the sites `ids` and neighbours `nbs`; `At c i` says that the site of hexagon `c` is `i`. -/
structure HexTorus (n : Fin 2 → ℤ) (ids : List ℕ) (nbs : ℕ → List ℕ) (At : (Fin 2 → ℤ) → ℕ → Prop) : Prop where
  pos : ∀ k, 3 ≤ n k
  ids_eq : ids = List.range ((n 0).toNat * (n 1).toNat)
  known : ∀ i, ∀ j ∈ nbs i, j ∈ ids
  ex : ∀ c, ∃ i ∈ ids, At c i
  uniq : ∀ c i j, At c i → At c j → i = j
  site : ∀ i ∈ ids, ∃ c, (∀ k, 0 ≤ c k ∧ c k < n k) ∧ At c i
  dvd : ∀ c c' i, At c i → At c' i → ∀ k, n k ∣ c' k - c k
  nb : ∀ c c' i j, At c i → At c' j → (j ∈ nbs i ↔ ∃ v ∈ hexSteps, ∀ k, n k ∣ c' k - c k - v k)

theorem hexTorus (root : K) (h1 : 173 / 100 ≤ root) (h2 : root ≤ 174 / 100) (n : Fin 2 → ℤ) (hn : ∀ k, 3 ≤ n k) :
    ∃ S g, buildHoneycomb root (.tup [n 0, n 1]) = .ok S ∧ S.Reachable ∧ honeycombNbhd.get S none = .ok g ∧
      HexTorus n S.siteIds g.neighborsOf (MiddleOf root S) := by
  obtain ⟨S, g, hS, hg, hids, ha, hb, hc, hd, -⟩ := C78_honeycomb root h1 h2 n hn
  have hreach : S.Reachable := by
    have hr : root ≠ 0 := by linarith
    have hS' := hS
    simp only [buildHoneycomb, Structure.build] at hS'
    rw [dif_pos (by rfl : [n 0, n 1].length = 2)] at hS'
    refine buildFrom_reachable (honey_regular hr) (fun i => ?_) hS'
    have h0 := hn 0
    have h1 := hn 1
    fin_cases i <;> simp <;> omega
  refine ⟨S, g, hS, hreach, hg, hn, hids, fun i j hj => ((C55_known_and_other hreach _ none g hg i).1 j hj).1, fun c => ?_, fun c i j hi hj => ?_, hb, hc, hd⟩
  · obtain ⟨i, hi, h, -⟩ := ha c
    exact ⟨i, hi, h⟩
  · exact Option.some.inj (Eq.trans (Eq.symm hi) hj)

namespace HexTorus
variable {n : Fin 2 → ℤ} {ids : List ℕ} {nbs : ℕ → List ℕ} {At : (Fin 2 → ℤ) → ℕ → Prop}

theorem mem (h : HexTorus n ids nbs At) {c : Fin 2 → ℤ} {i : ℕ} (hi : At c i) : i ∈ ids := by
  obtain ⟨j, hj, e⟩ := h.ex c
  rw [h.uniq c i j hi e]; exact hj

theorem same (h : HexTorus n ids nbs At) {c c' : Fin 2 → ℤ} {i j : ℕ} (hi : At c i) (hj : At c' j)
    (hd : ∀ k, n k ∣ c' k - c k) : i = j := by
  obtain ⟨b, hb, e⟩ := h.site i (h.mem hi)
  obtain ⟨b', hb', e'⟩ := h.site j (h.mem hj)
  have hbb : b = b' := by
    funext k
    have h1 := h.dvd _ _ _ hi e k
    have h2 := h.dvd _ _ _ hj e' k
    have h3 : n k ∣ b' k - b k := by
      have : b' k - b k = (b' k - c' k) + (c' k - c k) - (b k - c k) := by ring
      rw [this]
      exact dvd_sub (dvd_add h2 (hd k)) h1
    have := Int.eq_zero_of_abs_lt_dvd h3 (by rw [abs_lt]; have := hb k; have := hb' k; omega)
    omega
  rw [hbb] at e
  exact h.uniq _ _ _ e e'

/-- So many moves to a neighbour lead from one hexagon to another if and only if they are not further apart. -/
theorem hops (h : HexTorus n ids nbs At) {c' : Fin 2 → ℤ} {j : ℕ} (hj : At c' j) (k : ℕ) :
    ∀ (c : Fin 2 → ℤ) (i : ℕ), At c i → (Hops nbs k i j ↔ HexWithin n c c' k) := by
  induction k with
  | zero =>
    intro c i hi
    constructor
    · rintro (rfl : i = j)
      exact ⟨0, fun q => by simpa using h.dvd _ _ _ hi hj q, by simp [hexLength]⟩
    · rintro ⟨v, h1, h2⟩
      rw [hexLength_le] at h2
      have v0 : ∀ q, v q = 0 := by
        intro q
        fin_cases q
        · show v 0 = 0
          omega
        · show v 1 = 0
          omega
      refine h.same hi hj fun q => ?_
      have := h1 q
      rwa [v0 q, sub_zero] at this
  | succ k ih =>
    intro c i hi
    constructor
    · rintro (h1 | ⟨x, hx, h1⟩)
      · obtain ⟨v, h2, h3⟩ := (ih c i hi).1 h1
        exact ⟨v, h2, by push_cast; omega⟩
      · obtain ⟨b, -, hb⟩ := h.site x (h.known i x hx)
        obtain ⟨v, hv, h2⟩ := (h.nb _ _ _ _ hi hb).1 hx
        obtain ⟨u, h3, h4⟩ := (ih b x hb).1 h1
        refine ⟨fun q => v q + u q, fun q => ?_, by push_cast; exact hexLength_step hv h4⟩
        have : c' q - c q - (v q + u q) = (b q - c q - v q) + (c' q - b q - u q) := by ring
        rw [this]
        exact dvd_add (h2 q) (h3 q)
    · rintro ⟨v, h1, h2⟩
      by_cases hk : hexLength v ≤ k
      · exact .inl ((ih c i hi).2 ⟨v, h1, hk⟩)
      · obtain ⟨e, he, h3⟩ := hexLength_approach (by exact_mod_cast h2) hk
        obtain ⟨x, -, hx⟩ := h.ex fun q => c q + e q
        refine .inr ⟨x, (h.nb _ _ _ _ hi hx).2 ⟨e, he, fun q => by simp⟩, (ih _ x hx).2 ⟨_, fun q => ?_, h3⟩⟩
        have : c' q - (c q + e q) - (v q - e q) = c' q - c q - v q := by ring
        rw [this]
        exact h1 q

/-- The sites at most `k` hexagons away from a hexagon, when they do not meet around the tiling. -/
theorem sites_within (h : HexTorus n ids nbs At) {x : Fin 2 → ℤ} {j0 : ℕ} (hj0 : At x j0) {k : ℕ} (hk : ∀ j, 2 * (k : ℤ) + 1 ≤ n j)
    {s : SimState} (hs : s.WF) (hsame : ∀ k, k ∈ s.siteIds ↔ ∃ i ∈ ids, k = .int i) {p : Val} (hp : ∀ i ∈ ids, occ? s (.int i) = some p ↔ Hops nbs k i j0) :
    sitesWith s p = 3 * k ^ 2 + 3 * k + 1 := by
  have hnd : (s.siteIds.filter fun k => decide (occ? s k = some p)).Nodup := hs.sites.filter _
  rw [sitesWith, ← List.toFinset_card_of_nodup hnd, ← card_hexBall k]
  choose f hfm hf using fun v : ℤ × ℤ => h.ex fun q => x q - (![v.1, v.2] : Fin 2 → ℤ) q
  refine (Finset.card_bij (fun v _ => Key.int (f v)) (fun v hv => ?_) (fun a ha b hb e => ?_) (fun q hq => ?_)).symm
  · rw [List.mem_toFinset, List.mem_filter]
    refine ⟨(hsame _).2 ⟨_, hfm v, rfl⟩, ?_⟩
    rw [decide_eq_true_eq, hp _ (hfm v), h.hops hj0 k _ _ (hf v)]
    exact ⟨_, fun q => by simp, mem_hexBall.1 hv⟩
  · have e' : f a = f b := by injection e with e; exact_mod_cast e
    have h1 := hf a
    rw [e'] at h1
    have h2 := h.dvd _ _ _ h1 (hf b)
    have ha := hexLength_le.1 (mem_hexBall.1 ha)
    have hb := hexLength_le.1 (mem_hexBall.1 hb)
    have d0 := h2 0
    have d1 := h2 1
    have k0 := hk 0
    have k1 := hk 1
    simp at ha hb d0 d1
    have z0 := Int.eq_zero_of_abs_lt_dvd d0 (by rw [abs_lt]; omega)
    have z1 := Int.eq_zero_of_abs_lt_dvd d1 (by rw [abs_lt]; omega)
    exact Prod.ext (by omega) (by omega)
  · rw [List.mem_toFinset, List.mem_filter, decide_eq_true_eq] at hq
    obtain ⟨i, hi, rfl⟩ := (hsame _).1 hq.1
    obtain ⟨c, -, hc⟩ := h.site i hi
    obtain ⟨v, h1, h2⟩ := (h.hops hj0 k c i hc).1 ((hp i hi).1 hq.2)
    have hv : (![v 0, v 1] : Fin 2 → ℤ) = v := by funext q; fin_cases q <;> rfl
    refine ⟨(v 0, v 1), mem_hexBall.2 (by rw [hv]; exact h2), ?_⟩
    have : f (v 0, v 1) = i := by
      refine h.same (hf _) hc fun q => ?_
      simp only [hv]
      have e : c q - (x q - v q) = -(x q - c q - v q) := by ring
      rw [e]
      exact (dvd_neg).2 (h1 q)
    rw [this]

theorem nonempty (h : HexTorus n ids nbs At) : ids ≠ [] := by
  obtain ⟨i, hi, -⟩ := h.ex 0
  exact List.ne_nil_of_mem hi

theorem front {S : Structure K 2} (h : HexTorus n S.siteIds nbs At) {s0 s : SimState} {bg : Val} {k : ℕ} (hg : GrownTo S s0 bg nbs k s) (a : Fin 2 → ℤ) (i : ℕ)
    (hi : At a i) :
    occ? s (.int i) ≠ some bg ↔ ∃ b j, At b j ∧ occ? s0 (.int j) ≠ some bg ∧ HexWithin n a b k := by
  rw [hg.occupied i (h.mem hi)]
  constructor
  · rintro ⟨j, hj, h1⟩
    rw [nuclei, List.mem_filter, decide_eq_true_eq] at hj
    obtain ⟨b, -, hb⟩ := h.site j hj.1
    exact ⟨b, j, hb, hj.2, (h.hops hb k a i hi).1 h1⟩
  · rintro ⟨b, j, hb, hj, h1⟩
    refine ⟨j, ?_, (h.hops hb k a i hi).2 h1⟩
    rw [nuclei, List.mem_filter, decide_eq_true_eq]
    exact ⟨h.mem hb, hj⟩

/-- The number of occupied sites, and of the others, as the analyzer finds it. -/
theorem count {S : Structure K 2} (h : HexTorus n S.siteIds nbs At) {s0 s : SimState} {bg p : Val} (hne : p ≠ bg) (hph : p.hashable = true) (hbh : bg.hashable = true) {k : ℕ}
    (hg : GrownTo S s0 bg nbs k s) {x : Fin 2 → ℤ} {j0 : ℕ} (hj0 : At x j0) (hp : occ? s0 (.int j0) = some p)
    (hrest : ∀ j ∈ S.siteIds, j ≠ j0 → occ? s0 (.int j) = some bg) (hk : ∀ j, 2 * (k : ℤ) + 1 ≤ n j) (A : Option (Structure K 2)) (hA : A = none ∨ A = some S ∧ S.Reachable) :
    cellCount A s p = .ok (3 * k ^ 2 + 3 * k + 1) ∧ cellCount A s bg = .ok ((n 0).toNat * (n 1).toNat - (3 * k ^ 2 + 3 * k + 1)) := by
  have hval : ∀ i ∈ S.siteIds, occ? s (.int i) = some p ∨ occ? s (.int i) = some bg := by
    intro i hi
    obtain ⟨v, hv, rfl | ⟨j, hj, h2⟩⟩ := hg.phase i hi
    · exact .inr hv
    · by_cases e : j = j0
      · rw [e, hp] at h2
        rw [hv, ← h2]; exact .inl rfl
      · rw [hrest j hj e] at h2
        rw [hv, ← h2]; exact .inr rfl
  have hocc : ∀ i ∈ S.siteIds, occ? s (.int i) = some p ↔ Hops nbs k i j0 := by
    intro i hi
    have h1 : occ? s (.int i) = some p ↔ occ? s (.int i) ≠ some bg := by
      rcases hval i hi with e | e <;> rw [e] <;> simp [hne, Ne.symm hne]
    rw [h1, hg.occupied i hi]
    constructor
    · rintro ⟨j, hj, h2⟩
      rw [nuclei, List.mem_filter, decide_eq_true_eq] at hj
      by_cases e : j = j0
      · rwa [e] at h2
      · exact absurd (hrest j hj.1 e) hj.2
    · intro h2
      refine ⟨j0, ?_, h2⟩
      rw [nuclei, List.mem_filter, decide_eq_true_eq]
      exact ⟨h.mem hj0, by rw [hp]; simpa using hne⟩
  have hAn : Analyzable s := by
    refine ⟨hg.wf, hg.knows, ?_⟩
    intro q hq
    obtain ⟨i, hi, rfl⟩ := (hg.same q).1 hq
    rcases hval i hi with e | e
    · exact ⟨p, e, hph⟩
    · exact ⟨bg, e, hbh⟩
  have hfit : Fits A s := by
    intro S' e
    rcases hA with rfl | ⟨rfl, hr⟩
    · cases e
    · cases e
      exact ⟨hr, hg.same⟩
  rw [C71_count A s hAn hfit p hph, C71_count A s hAn hfit bg hbh]
  have h1 := h.sites_within hj0 hk hg.wf hg.same hocc
  refine ⟨congrArg _ h1, congrArg _ ?_⟩
  have h2 : sitesWith s p + sitesWith s bg = s.siteIds.length := by
    have e := List.length_eq_length_filter_add (l := s.siteIds) fun q => decide (occ? s q = some p)
    rw [e, sitesWith, sitesWith]
    congr 2
    refine List.filter_congr fun q hq => ?_
    obtain ⟨i, hi, rfl⟩ := (hg.same q).1 hq
    rcases hval i hi with e | e <;> simp [e, hne, Ne.symm hne]
  have h3 : s.siteIds.length = (n 0).toNat * (n 1).toNat := by
    have hperm : s.siteIds.Perm (S.siteIds.map fun i : ℕ => Key.int i) := by
      refine (List.perm_ext_iff_of_nodup hg.wf.sites ?_).2 fun q => ?_
      · rw [h.ids_eq]
        refine List.Nodup.map (fun a b e => ?_) List.nodup_range
        injection e with e; exact_mod_cast e
      · rw [List.mem_map]
        refine (hg.same q).trans ?_
        exact ⟨fun ⟨i, hi, e⟩ => ⟨i, hi, e.symm⟩, fun ⟨i, hi, e⟩ => ⟨i, hi, e.symm⟩⟩
    rw [hperm.length_eq, List.length_map, h.ids_eq, List.length_range]
  omega

end HexTorus

/-- C156: growth on a honeycomb tiling with at least three hexagons in both directions, from any start state, with the serial runner and with the parallel one:
after `k` steps the occupied sites are exactly those at most `k` hexagons away from a site that was occupied at the start. -/
theorem C156_front (root : K) (h1 : 173 / 100 ≤ root) (h2 : root ≤ 174 / 100) (n : Fin 2 → ℤ) (hn : ∀ k, 3 ≤ n k) :
    ∃ S, buildHoneycomb root (.tup [n 0, n 1]) = .ok S ∧ ∀ (s0 : SimState) (bg : Val) (order : ℕ → List ℕ → List ℕ) (m : ℕ), StartState S s0 →
      (∀ t l, (order t l).Perm l) → ∃ c, Growth.init order S bg (some honeycombNbhd) = .ok c ∧
        (∃ c' res, runSync controller c s0 m = .ok (c', res) ∧ HexFront (MiddleOf root S) n s0 bg res m) ∧
        ∀ (fork : ℕ → Ctl → Ctl) (w : ℕ) (sched : ℕ → StepSched), (∀ v c, Reorders c (fork v c)) → 0 < w → ValidFor s0.siteIds w m sched →
          ∃ res, runParallel controller fork c s0 w m sched = .ok res ∧ HexFront (MiddleOf root S) n s0 bg res m := by
  obtain ⟨S, g, hS, hr, hnb, h⟩ := hexTorus root h1 h2 n hn
  refine ⟨S, hS, fun s0 bg order m hst horder => ?_⟩
  obtain ⟨c, c', res, e1, e2, e3⟩ := grown_serial hr h.nonempty hst bg hnb horder m
  refine ⟨c, e1, ⟨c', res, e2, fun k hk => ?_⟩, fun fork w sched hfork hw hv => ?_⟩
  · obtain ⟨s, a1, a2⟩ := e3 k hk
    exact ⟨s, a1, fun a i hi => h.front a2 a i hi⟩
  · obtain ⟨c2, res2, f1, f2, f3⟩ := grown_parallel hr h.nonempty hst bg hnb horder m fork hfork w hw sched hv
    rw [e1] at f1; injection f1 with f1; subst f1
    refine ⟨res2, f2, fun k hk => ?_⟩
    obtain ⟨s, a1, a2⟩ := f3 k hk
    exact ⟨s, a1, fun a i hi => h.front a2 a i hi⟩

/-- C156: from one nucleus the number of occupied sites after `k` steps is the centred hexagonal number `3 k ^ 2 + 3 k + 1` (1, 7, 19, 37, ...), as long as
the grown hexagon does not meet itself around the tiling; the analyzer counts so many sites, and all others as background, whether it knows the structure or not. -/
theorem C156_count (root : K) (h1 : 173 / 100 ≤ root) (h2 : root ≤ 174 / 100) (n : Fin 2 → ℤ) (hn : ∀ k, 3 ≤ n k) :
    ∃ S, buildHoneycomb root (.tup [n 0, n 1]) = .ok S ∧ ∀ (s0 : SimState) (bg p : Val) (order : ℕ → List ℕ → List ℕ) (m k0 j0 : ℕ) (x : Fin 2 → ℤ),
      StartState S s0 → p ≠ bg → p.hashable = true → bg.hashable = true → (∀ t l, (order t l).Perm l) →
      MiddleOf root S x j0 → occ? s0 (.int j0) = some p → (∀ j ∈ S.siteIds, j ≠ j0 → occ? s0 (.int j) = some bg) →
      k0 ≤ m → (∀ j, 2 * (k0 : ℤ) + 1 ≤ n j) →
      ∃ c, Growth.init order S bg (some honeycombNbhd) = .ok c ∧
        (∃ c' res, runSync controller c s0 m = .ok (c', res) ∧ Counts S res k0 p (fun k => 3 * k ^ 2 + 3 * k + 1) ∧
          Counts S res k0 bg fun k => (n 0).toNat * (n 1).toNat - (3 * k ^ 2 + 3 * k + 1)) ∧
        ∀ (fork : ℕ → Ctl → Ctl) (w : ℕ) (sched : ℕ → StepSched), (∀ v c, Reorders c (fork v c)) → 0 < w → ValidFor s0.siteIds w m sched →
          ∃ res, runParallel controller fork c s0 w m sched = .ok res ∧ Counts S res k0 p (fun k => 3 * k ^ 2 + 3 * k + 1) ∧
            Counts S res k0 bg fun k => (n 0).toNat * (n 1).toNat - (3 * k ^ 2 + 3 * k + 1) := by
  obtain ⟨S, g, hS, hr, hnb, h⟩ := hexTorus root h1 h2 n hn
  refine ⟨S, hS, fun s0 bg p order m k0 j0 x hst hne hph hbh horder hj0 hp hrest hk0 hfit => ?_⟩
  have key : ∀ res : SimResult, (∀ k : ℕ, k ≤ m → ∃ s, res.getStep k = .ok s ∧ GrownTo S s0 bg g.neighborsOf k s) →
      Counts S res k0 p (fun k => 3 * k ^ 2 + 3 * k + 1) ∧ Counts S res k0 bg fun k => (n 0).toNat * (n 1).toNat - (3 * k ^ 2 + 3 * k + 1) := by
    intro res hres
    constructor <;> intro k hk <;> obtain ⟨s, a1, a2⟩ := hres k (hk.trans hk0) <;>
      have a3 := fun A hA => h.count hne hph hbh a2 hj0 hp hrest (fun j => by have := hfit j; omega) A hA
    · exact ⟨s, a1, (a3 _ (.inr ⟨rfl, hr⟩)).1, (a3 _ (.inl rfl)).1⟩
    · exact ⟨s, a1, (a3 _ (.inr ⟨rfl, hr⟩)).2, (a3 _ (.inl rfl)).2⟩
  obtain ⟨c, c', res, e1, e2, e3⟩ := grown_serial hr h.nonempty hst bg hnb horder m
  refine ⟨c, e1, ⟨c', res, e2, key res e3⟩, fun fork w sched hfork hw hv => ?_⟩
  obtain ⟨c2, res2, f1, f2, f3⟩ := grown_parallel hr h.nonempty hst bg hnb horder m fork hfork w hw sched hv
  rw [e1] at f1; injection f1 with f1; subst f1
  exact ⟨res2, f2, key res2 f3⟩

/-- C156: a tiling with at least one occupied site at the start is full after half the number of columns plus half the number of rows. -/
theorem C156_filled (root : K) (h1 : 173 / 100 ≤ root) (h2 : root ≤ 174 / 100) (n : Fin 2 → ℤ) (hn : ∀ k, 3 ≤ n k) :
    ∃ S, buildHoneycomb root (.tup [n 0, n 1]) = .ok S ∧ ∀ (s0 : SimState) (bg : Val) (order : ℕ → List ℕ → List ℕ) (m j0 : ℕ), StartState S s0 →
      (∀ t l, (order t l).Perm l) → j0 ∈ S.siteIds → occ? s0 (.int j0) ≠ some bg → n 0 / 2 + n 1 / 2 ≤ m →
      ∃ c c' res, Growth.init order S bg (some honeycombNbhd) = .ok c ∧ runSync controller c s0 m = .ok (c', res) ∧
        ∀ k : ℕ, n 0 / 2 + n 1 / 2 ≤ k → k ≤ m → ∃ s, res.getStep k = .ok s ∧ ∀ i ∈ S.siteIds, occ? s (.int i) ≠ some bg := by
  obtain ⟨S, g, hS, hr, hnb, h⟩ := hexTorus root h1 h2 n hn
  refine ⟨S, hS, fun s0 bg order m j0 hst horder hj0 hocc hm => ?_⟩
  obtain ⟨c, c', res, e1, e2, e3⟩ := grown_serial hr h.nonempty hst bg hnb horder m
  refine ⟨c, c', res, e1, e2, fun k hk hkm => ?_⟩
  obtain ⟨s, a1, a2⟩ := e3 k hkm
  refine ⟨s, a1, fun i hi => ?_⟩
  obtain ⟨a, -, ha⟩ := h.site i hi
  obtain ⟨b, -, hb⟩ := h.site j0 hj0
  refine (h.front a2 a i ha).2 ⟨b, j0, hb, hocc, ?_⟩
  exact hexWithin_half hn a b hk

/-- A start state with one nucleus: every site gets the background, then one site the phase. -/
theorem honey_seed {S : Structure K 2} (hS : S.Reachable) {bg p : Val} (hbg : bg.WF) (hp : p.WF) {j0 : ℕ} (hj0 : j0 ∈ S.siteIds) :
    StartState S (setOcc (GridSetup.blank S bg) j0 p) ∧ occ? (setOcc (GridSetup.blank S bg) j0 p) (.int j0) = some p ∧
      ∀ j ∈ S.siteIds, j ≠ j0 → occ? (setOcc (GridSetup.blank S bg) j0 p) (.int j) = some bg := by
  obtain ⟨t, ht, rfl⟩ := (mem_siteIds_iff hS).1 hj0
  have hP := (painted_blank hS hbg).set hS ht hp
  refine ⟨hP.startState hS, ?_, fun j hj hne => ?_⟩
  · rw [hP.occ t ht, if_pos rfl]
  · obtain ⟨u, hu, rfl⟩ := (mem_siteIds_iff hS).1 hj
    rw [hP.occ u hu, if_neg hne]

/-- The hypotheses hold on the 9 by 11 tiling with one site `B` in `A`: after four steps 61 sites are `B` and 38 are `A`. -/
example (order : ℕ → List ℕ → List ℕ) (horder : ∀ t l, (order t l).Perm l) :
    ∃ S s0 c c' res s, buildHoneycomb (√3 : ℝ) (.tup [9, 11]) = .ok S ∧ Growth.init order S (.str "A") (some honeycombNbhd) = .ok c ∧
      runSync controller c s0 10 = .ok (c', res) ∧ res.getStep 4 = .ok s ∧
      getSiteCountWhereEqual (some S) s [(DISCRETE_OCCUPANCY, .str "B")] none = .ok 61 ∧
      getSiteCountWhereEqual (some S) s [(DISCRETE_OCCUPANCY, .str "A")] none = .ok 38 := by
  have r1 : (173 / 100 : ℝ) ≤ √3 := Real.le_sqrt_of_sq_le (by norm_num)
  have r2 : √3 ≤ (174 / 100 : ℝ) := Real.sqrt_le_iff.2 (by norm_num)
  have hn : ∀ k, 3 ≤ (![9, 11] : Fin 2 → ℤ) k := by intro k; fin_cases k <;> simp
  obtain ⟨S, hS, h⟩ := C156_count (√3 : ℝ) r1 r2 ![9, 11] hn
  obtain ⟨S', g, hS', hr, -, ht⟩ := hexTorus (√3 : ℝ) r1 r2 ![9, 11] hn
  rw [hS] at hS'; injection hS' with hS'; subst hS'
  obtain ⟨j0, hj, hj0⟩ := ht.ex ![3, 5]
  obtain ⟨a1, a2, a3⟩ := honey_seed hr (bg := .str "A") (p := .str "B") (.str _) (.str _) hj
  obtain ⟨c, e1, ⟨c', res, e2, e3, e4⟩, -⟩ := h _ (.str "A") (.str "B") order 10 4 j0 ![3, 5] a1 (by simp) rfl rfl horder hj0 a2 a3 (by norm_num)
    (by intro k; fin_cases k <;> norm_num)
  obtain ⟨s, b1, b2, -⟩ := e3 4 le_rfl
  obtain ⟨s', b1', b2', -⟩ := e4 4 le_rfl
  rw [b1] at b1'; injection b1' with b1'; subst b1'
  exact ⟨S, _, c, c', res, s, hS, e1, e2, b1, by simpa using b2, by simpa using b2'⟩

end Pyl
