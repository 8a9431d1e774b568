import Verif.Model.DoubleHoneyGrowth
import Verif.Spec.DoubleHoneyGrowth
import Verif.Props.DoubleHoneycomb
import Verif.Props.HoneyGrowth
/-
C157: growth on the honeycomb tiling in double precision.
-/
set_option autoImplicit false
set_option linter.unusedSectionVars false

namespace Pyl
open SimState Spec Growth Analyzer
open Pyl.Lattice Pyl.Structure

section
variable (A : Dbl.Arith 2) (hA : A.Products) (n : Fin 2 → ℤ) (hn : ∀ k, 3 ≤ n k ∧ n k ≤ 2 ^ 10)
  (hinv : InverseOf (Dbl.scaled Dbl.honeyLattice n).mat (A.inv (Dbl.scaled Dbl.honeyLattice n).mat))
include hA hn hinv

theorem doubleHexTorus : ∃ S g, Dbl.buildHoneycomb A (.tup [n 0, n 1]) = .ok S ∧ Dbl.honeycombGet A S = .ok g ∧
    HexTorus n S.siteIds g.neighborsOf (StoredIn n S) := by
  obtain ⟨S, hS, -, hids, hcell, hid, hinj, hcinj⟩ := C111_sites A hA n hn hinv
  obtain ⟨g, hg, hnb, hwt, -⟩ := C111_neighbours A hA n hn hinv S hS
  have hbox : ∀ c : Fin 2 → ℤ, ∀ k, 0 ≤ c k % n k ∧ c k % n k < n k := fun c k =>
    ⟨Int.emod_nonneg _ (by have := hn k; omega), Int.emod_lt_of_pos _ (by have := hn k; omega)⟩
  refine ⟨S, g, hS, hg, fun k => (hn k).1, hids, fun i j hj => ?_, fun c => hcell _ (hbox c), fun c i j hi hj => hinj i j _ hi hj, fun i hi => ?_,
    fun c c' i h h' k => ?_, fun c c' i j hi hj => ?_⟩
  · rw [← C55_weighted, List.mem_map] at hj
    obtain ⟨⟨j', w⟩, hm, rfl⟩ := hj
    exact (hwt i _ w hm).2.1
  · obtain ⟨-, c, hc, hl⟩ := hid i hi
    refine ⟨c, hc, ?_⟩
    have : (fun k => c k % n k) = c := funext fun k => Int.emod_eq_of_lt (hc k).1 (hc k).2
    unfold StoredIn
    rw [this]; exact hl
  · have e := h.symm.trans h'
    injection e with e
    have e2 := congrFun (hcinj _ _ (hbox c) (hbox c') e) k
    exact Int.dvd_of_emod_eq_zero (Int.emod_eq_emod_iff_emod_sub_eq_zero.1 e2.symm)
  · rw [hnb i j _ _ (hbox c) (hbox c') hi hj]
    refine exists_congr fun v => and_congr_right fun _ => forall_congr' fun k => ?_
    have e : c' k % n k - c k % n k - v k = (c' k - c k - v k) + ((c k - c k % n k) - (c' k - c' k % n k)) := by ring
    rw [e]
    exact dvd_add_left (dvd_sub Int.dvd_self_sub_emod Int.dvd_self_sub_emod)

/-- C157: for sizes from 3 to 1024, in double precision: growth on the honeycomb tiling from any start state, serial and parallel: after `k` steps the
occupied sites are exactly those at most `k` hexagons away from a site that was occupied at the start, and from one half of the number of columns plus one
half of the number of rows on all are occupied if one was. -/
theorem C157_front : ∃ S, Dbl.buildHoneycomb A (.tup [n 0, n 1]) = .ok S ∧
    ∀ (s0 : SimState) (bg : Val) (order : ℕ → List ℕ → List ℕ) (m : ℕ), StartState S s0 → (∀ t l, (order t l).Perm l) →
      ∃ c, Dbl.honeyGrowthInit A order S bg = .ok c ∧
        (∃ c' res, runSync controller c s0 m = .ok (c', res) ∧ HexFront (StoredIn n S) n s0 bg res m ∧
          ∀ j0 ∈ S.siteIds, occ? s0 (.int j0) ≠ some bg → ∀ k : ℕ, n 0 / 2 + n 1 / 2 ≤ k → k ≤ m →
            ∃ s, res.getStep k = .ok s ∧ ∀ i ∈ S.siteIds, occ? s (.int i) ≠ some bg) ∧
        ∀ (fork : ℕ → Ctl → Ctl) (w : ℕ) (sched : ℕ → StepSched), (∀ v c, Reorders c (fork v c)) → 0 < w → ValidFor s0.siteIds w m sched →
          ∃ res, runParallel controller fork c s0 w m sched = .ok res ∧ HexFront (StoredIn n S) n s0 bg res m := by
  obtain ⟨S, g, hS, hg, h⟩ := doubleHexTorus A hA n hn hinv
  refine ⟨S, hS, fun s0 bg order m hst horder => ?_⟩
  have hc : Dbl.honeyGrowthInit A order S bg = .ok ⟨bg, fun t i => (neighborsOfKey g i).map (order t), 0⟩ := by
    unfold Dbl.honeyGrowthInit; rw [hg]; rfl
  have hnbs : ∀ (t i : ℕ), (neighborsOfKey g (.int i)).map (order t) = .ok (order t (g.neighborsOf i)) := fun t i => by
    simp [neighborsOfKey, Except.map]
  obtain ⟨c', res, e2, e3⟩ := grown_serial_of h.nonempty hst h.known horder
    (c := ⟨bg, fun t i => (neighborsOfKey g i).map (order t), 0⟩) rfl hnbs m
  refine ⟨_, hc, ⟨c', res, e2, fun k hk => ?_, fun j0 hj0 hocc k hk hkm => ?_⟩, fun fork w sched hfork hw hv => ?_⟩
  · obtain ⟨s, a1, a2⟩ := e3 k hk
    exact ⟨s, a1, fun a i hi => h.front a2 a i hi⟩
  · obtain ⟨s, a1, a2⟩ := e3 k hkm
    refine ⟨s, a1, fun i hi => ?_⟩
    obtain ⟨a, -, ha⟩ := h.site i hi
    obtain ⟨b, -, hb⟩ := h.site j0 hj0
    exact (h.front a2 a i ha).2 ⟨b, j0, hb, hocc, hexWithin_half h.pos a b hk⟩
  · obtain ⟨res2, f2, f3⟩ := grown_parallel_of h.nonempty hst h.known horder
      (c := ⟨bg, fun t i => (neighborsOfKey g i).map (order t), 0⟩) rfl hnbs m fork hfork w hw sched hv
    refine ⟨res2, f2, fun k hk => ?_⟩
    obtain ⟨s, a1, a2⟩ := f3 k hk
    exact ⟨s, a1, fun a i hi => h.front a2 a i hi⟩

/-- C157: from one nucleus `3 k ^ 2 + 3 k + 1` sites are occupied after `k` steps in double precision too, as long as the hexagon does not meet itself. -/
theorem C157_count : ∃ S, Dbl.buildHoneycomb A (.tup [n 0, n 1]) = .ok S ∧
    ∀ (s0 : SimState) (bg p : Val) (order : ℕ → List ℕ → List ℕ) (m k0 j0 : ℕ), StartState S s0 → p ≠ bg → p.hashable = true → bg.hashable = true →
      (∀ t l, (order t l).Perm l) → j0 ∈ S.siteIds → occ? s0 (.int j0) = some p → (∀ j ∈ S.siteIds, j ≠ j0 → occ? s0 (.int j) = some bg) →
      k0 ≤ m → (∀ j, 2 * (k0 : ℤ) + 1 ≤ n j) →
      ∃ c, Dbl.honeyGrowthInit A order S bg = .ok c ∧
        (∃ c' res, runSync controller c s0 m = .ok (c', res) ∧ CountsAlone res k0 p (fun k => 3 * k ^ 2 + 3 * k + 1) ∧
          CountsAlone res k0 bg fun k => (n 0).toNat * (n 1).toNat - (3 * k ^ 2 + 3 * k + 1)) ∧
        ∀ (fork : ℕ → Ctl → Ctl) (w : ℕ) (sched : ℕ → StepSched), (∀ v c, Reorders c (fork v c)) → 0 < w → ValidFor s0.siteIds w m sched →
          ∃ res, runParallel controller fork c s0 w m sched = .ok res ∧ CountsAlone res k0 p (fun k => 3 * k ^ 2 + 3 * k + 1) ∧
            CountsAlone res k0 bg fun k => (n 0).toNat * (n 1).toNat - (3 * k ^ 2 + 3 * k + 1) := by
  obtain ⟨S, g, hS, hg, h⟩ := doubleHexTorus A hA n hn hinv
  refine ⟨S, hS, fun s0 bg p order m k0 j0 hst hne hph hbh horder hj0 hp hrest hk0 hfit => ?_⟩
  obtain ⟨x, -, hx⟩ := h.site j0 hj0
  have hc : Dbl.honeyGrowthInit A order S bg = .ok ⟨bg, fun t i => (neighborsOfKey g i).map (order t), 0⟩ := by
    unfold Dbl.honeyGrowthInit; rw [hg]; rfl
  have hnbs : ∀ (t i : ℕ), (neighborsOfKey g (.int i)).map (order t) = .ok (order t (g.neighborsOf i)) := fun t i => by
    simp [neighborsOfKey, Except.map]
  have key : ∀ res : SimResult, (∀ k : ℕ, k ≤ m → ∃ s, res.getStep k = .ok s ∧ GrownTo S s0 bg g.neighborsOf k s) →
      CountsAlone res k0 p (fun k => 3 * k ^ 2 + 3 * k + 1) ∧ CountsAlone res k0 bg fun k => (n 0).toNat * (n 1).toNat - (3 * k ^ 2 + 3 * k + 1) := by
    intro res hres
    constructor <;> intro k hk <;> obtain ⟨s, a1, a2⟩ := hres k (hk.trans hk0) <;>
      have a3 := h.count hne hph hbh a2 hx hp hrest (fun j => by have := hfit j; omega) none (.inl rfl)
    · exact ⟨s, a1, a3.1⟩
    · exact ⟨s, a1, a3.2⟩
  obtain ⟨c', res, e2, e3⟩ := grown_serial_of h.nonempty hst h.known horder
    (c := ⟨bg, fun t i => (neighborsOfKey g i).map (order t), 0⟩) rfl hnbs m
  refine ⟨_, hc, ⟨c', res, e2, key res e3⟩, fun fork w sched hfork hw hv => ?_⟩
  obtain ⟨res2, f2, f3⟩ := grown_parallel_of h.nonempty hst h.known horder
    (c := ⟨bg, fun t i => (neighborsOfKey g i).map (order t), 0⟩) rfl hnbs m fork hfork w hw sched hv
  exact ⟨res2, f2, key res2 f3⟩

end

/-- What a start state is depends on the ids of the sites only. -/
theorem startState_of_ids {K K' : Type} [Field K] [LinearOrder K] [FloorRing K] [Field K'] [LinearOrder K'] [FloorRing K'] {d d' : ℕ} {S : Structure K d}
    {T : Structure K' d'} (h : S.siteIds = T.siteIds) {s : SimState} (hs : StartState T s) : StartState S s := by
  obtain ⟨h1, h2, h3, h4, h5⟩ := hs
  exact ⟨h1, h2, fun k => by rw [h]; exact h3 k, h4, fun i hi => h5 i (h ▸ hi)⟩

/-- The hypotheses hold with products from left to right and Gaussian elimination: on the 9 by 11 tiling with one site `B` in `A`, 61 sites are `B` after
four steps. -/
example (order : ℕ → List ℕ → List ℕ) (horder : ∀ t l, (order t l).Perm l) :
    ∃ S s0 c c' res s, Dbl.buildHoneycomb plainArith (.tup [9, 11]) = .ok S ∧ Dbl.honeyGrowthInit plainArith order S (.str "A") = .ok c ∧
      runSync controller c s0 10 = .ok (c', res) ∧ res.getStep 4 = .ok s ∧
      getSiteCountWhereEqual (K := ℚ) (d := 2) none s [(DISCRETE_OCCUPANCY, .str "B")] none = .ok 61 := by
  have hn : ∀ k, 3 ≤ (![9, 11] : Fin 2 → ℤ) k ∧ (![9, 11] : Fin 2 → ℤ) k ≤ 2 ^ 10 := by intro k; fin_cases k <;> simp
  have hinv := C111_inverse ![9, 11] hn _ (plainArith_gauss _)
  obtain ⟨S, hS, h⟩ := C157_count plainArith plainArith_products ![9, 11] hn hinv
  obtain ⟨S', hS', -, hids, -⟩ := C111_sites plainArith plainArith_products ![9, 11] hn hinv
  rw [hS] at hS'; injection hS' with hS'; subst hS'
  obtain ⟨T, gT, -, hr, -, hT⟩ := hexTorus (1735 / 1000 : ℚ) (by norm_num) (by norm_num) ![9, 11] fun k => (hn k).1
  have e : S.siteIds = T.siteIds := hids.trans hT.ids_eq.symm
  obtain ⟨j0, hj, -⟩ := hT.ex ![3, 5]
  obtain ⟨a1, a2, a3⟩ := honey_seed hr (bg := .str "A") (p := .str "B") (.str _) (.str _) hj
  obtain ⟨c, e1, ⟨c', res, e2, e3, -⟩, -⟩ := h _ (.str "A") (.str "B") order 10 4 j0 (startState_of_ids e a1) (by simp) rfl rfl horder (e ▸ hj) a2
    (fun j hj => a3 j (e ▸ hj)) (by norm_num) (by intro k; fin_cases k <;> norm_num)
  obtain ⟨s, b1, b2⟩ := e3 4 le_rfl
  exact ⟨S, _, c, c', res, s, hS, e1, e2, b1, by simpa using b2⟩

end Pyl
