import Verif.Props.RandomSites
import Verif.Lemmas.Chance
import Verif.Spec.RandomSetup
/-
The placement loop of `setup_random_sites` as a walk on lists of sites.
-/
set_option autoImplicit false
set_option linter.unusedSectionVars false

namespace Pyl
open SimState Spec GridSetup
open Pyl.Lattice Pyl.Structure
variable {K : Type} [Field K] [LinearOrder K] [FloorRing K] [IsStrictOrderedRing K] {d : ℕ}

/-- The site with index `k` in the list of sites has the id `k`. -/
theorem sitesOf_index {S : Structure K d} (hS : S.Reachable) {k : ℕ} {t : Site K d} (h : (S.sitesOf none)[k]? = some t) : t.id = k := by
  obtain ⟨acc, e, -⟩ := hS.built
  have h1 := ids_built S.lattice acc
  rw [← e] at h1
  have h2 : ((S.sitesOf none).map Site.id)[k]? = some t.id := by rw [List.getElem?_map, h]; rfl
  rw [h1] at h2
  obtain ⟨h3, h4⟩ := List.getElem?_eq_some_iff.1 h2
  rw [List.getElem_range] at h4
  exact h4.symm

theorem length_siteIds {S : Structure K d} (hS : S.Reachable) : S.siteIds.length = (S.sitesOf none).length := by rw [siteIds_eq hS, List.length_range]

theorem mem_siteIds_lt {S : Structure K d} (hS : S.Reachable) {i : ℕ} : i ∈ S.siteIds ↔ i < S.siteIds.length := by
  rw [length_siteIds hS, siteIds_eq hS, List.mem_range]

/-- What is drawn. -/
theorem choice_sites {S : Structure K d} (hS : S.Reachable) (hne : S.sitesOf none ≠ []) (x : ℕ) :
    ∃ t ∈ S.sitesOf none, choice (S.sitesOf none) x = .ok t ∧ t.id = x % S.siteIds.length := by
  have hpos : 0 < (S.sitesOf none).length := List.length_pos_of_ne_nil hne
  have hlt : x % (S.sitesOf none).length < (S.sitesOf none).length := Nat.mod_lt _ hpos
  have h := List.getElem?_eq_getElem hlt
  refine ⟨_, List.getElem_mem hlt, ?_, ?_⟩
  · unfold choice
    rw [h]
  · rw [length_siteIds hS]
    exact sitesOf_index hS h

theorem admit_prefix (near : ℕ → ℕ → Prop) (i : ℕ) (acc : List ℕ) : acc <+: admit near i acc := by
  unfold admit
  split_ifs
  · exact List.prefix_refl _
  · exact List.prefix_append _ _

theorem walk_admit_prefix (near : ℕ → ℕ → Prop) (x : ℕ → ℕ) (acc : List ℕ) {k k' : ℕ} (h : k ≤ k') :
    walk (admit near) x acc k <+: walk (admit near) x acc k' := by
  induction k', h using Nat.le_induction with
  | base => exact List.prefix_refl _
  | succ k' _ ih => exact ih.trans (admit_prefix near _ _)

theorem walk_admit_nodup (near : ℕ → ℕ → Prop) (x : ℕ → ℕ) (k : ℕ) : (walk (admit near) x [] k).Nodup := by
  induction k with
  | zero => exact List.nodup_nil
  | succ k ih =>
    show (admit near (x k) (walk (admit near) x [] k)).Nodup
    unfold admit
    split_ifs with h
    · exact ih
    · push Not at h
      exact List.nodup_append.2 ⟨ih, List.nodup_singleton _, fun a ha b hb => by
        rw [List.mem_singleton] at hb
        rintro rfl
        exact h.1 (hb ▸ ha)⟩

theorem walk_admit_mem (near : ℕ → ℕ → Prop) (x : ℕ → ℕ) (k : ℕ) {i : ℕ} (hi : i ∈ walk (admit near) x [] k) : ∃ t, t < k ∧ x t = i := by
  induction k with
  | zero => cases hi
  | succ k ih =>
    have hi : i ∈ admit near (x k) (walk (admit near) x [] k) := hi
    unfold admit at hi
    split_ifs at hi with h
    · obtain ⟨t, ht, e⟩ := ih hi
      exact ⟨t, by omega, e⟩
    · rcases List.mem_append.1 hi with hi | hi
      · obtain ⟨t, ht, e⟩ := ih hi
        exact ⟨t, by omega, e⟩
      · exact ⟨k, by omega, (List.mem_singleton.1 hi).symm⟩

/-- The placement loop has taken the sites `acc` (in this order). -/
structure Taken (S : Structure K d) (bg : Val) (ids : List Val) (near : ℕ → ℕ → Prop) (acc : List ℕ) (p : Place) : Prop where
  inv : PInv S bg ids near p
  len : acc.length = p.planted
  nodup : acc.Nodup
  sub : ∀ i ∈ acc, i ∈ S.siteIds
  phase : ∀ (k : ℕ) (i : ℕ) (v : Val), acc[k]? = some i → ids[k]? = some v → occ? p.state (.int i) = some v
  rest : ∀ i ∈ S.siteIds, i ∉ acc → occ? p.state (.int i) = some bg

theorem Taken.mem {S : Structure K d} {bg : Val} {ids : List Val} {near : ℕ → ℕ → Prop} {acc : List ℕ} {p : Place} (h : Taken S bg ids near acc p)
    (hids : ∀ v ∈ ids, v ≠ bg ∧ v.WF) (hl : p.planted ≤ ids.length) {i : ℕ} : i ∈ nuclei S p.state bg ↔ i ∈ acc := by
  unfold nuclei
  rw [List.mem_filter, decide_eq_true_eq]
  constructor
  · rintro ⟨h1, h2⟩
    by_contra h3
    exact h2 (h.rest i h1 h3)
  · intro hi
    obtain ⟨k, hk⟩ := List.mem_iff_getElem?.1 hi
    have hkl : k < ids.length := by
      have := (List.getElem?_eq_some_iff.1 hk).1
      have := h.len
      omega
    have hv := List.getElem?_eq_getElem hkl
    refine ⟨h.sub i hi, ?_⟩
    rw [h.phase k i _ hk hv]
    intro e
    injection e with e
    exact (hids _ (List.getElem_mem hkl)).1 e

/-- One round of the placement loop. -/
theorem placeRound_taken {S : Structure K d} (hS : S.Reachable) (hne : S.sitesOf none ≠ []) {nbs : Option (ℕ → ℕ → List ℕ)} {near : ℕ → ℕ → Prop}
    (hnb : NbsOK S nbs near) {bg : Val} {ids : List Val} (hids : ∀ v ∈ ids, v ≠ bg ∧ v.WF) {num : ℤ} (hlen : ids.length = num.toNat) (draw : ℕ → ℕ)
    {p : Place} {acc : List ℕ} (h : Taken S bg ids near acc p) (hlt : (p.planted : ℤ) < num) (ha : (p.attempts : ℤ) ≤ 1000 * num) :
    ∃ p', placeRound (S.sitesOf none) nbs bg ids num draw p = .ok p' ∧ p'.attempts = p.attempts + 1 ∧
      Taken S bg ids near (admit near (draw p.attempts % S.siteIds.length) acc) p' := by
  obtain ⟨t, ht, hc, hti⟩ := choice_sites hS hne (draw p.attempts)
  rw [← hti]
  have htm : t.id ∈ S.siteIds := (mem_siteIds_iff hS).2 ⟨t, ht, rfl⟩
  have hplt : p.planted < ids.length := by omega
  rcases placeRound_spec hS hne hnb hids hlen draw h.inv hlt with ⟨h', -⟩ | ⟨-, p1, hr, h1, h2, -⟩
  · omega
  refine ⟨p1, hr, h2, ?_⟩
  have hmem := fun {i} => h.mem (i := i) hids hplt.le
  have hspec := List.getElem?_eq_getElem hplt
  have hsb := hids _ (List.getElem_mem hplt)
  by_cases hin : t.id ∈ acc ∨ ∃ j ∈ acc, near t.id j
  · have hadm : admit near t.id acc = acc := by unfold admit; rw [if_pos hin]
    rw [hadm]
    -- the round changes nothing but the counter
    have hround : placeRound (S.sitesOf none) nbs bg ids num draw p = .ok { p with attempts := p.attempts + 1 } := by
      unfold placeRound
      rw [if_neg (not_lt.2 ha), hc, ok_bind]
      by_cases hin' : t.id ∈ acc
      · obtain ⟨k, hk⟩ := List.mem_iff_getElem?.1 hin'
        have hkl : k < ids.length := by
          have := (List.getElem?_eq_some_iff.1 hk).1
          have := h.len
          omega
        have hv := List.getElem?_eq_getElem hkl
        rw [occupancy_eq (h.phase k _ _ hk hv), ok_bind, if_pos (hids _ (List.getElem_mem hkl)).1]
        rfl
      · obtain ⟨j, hj, hnear⟩ := hin.resolve_left hin'
        rw [occupancy_eq (h.rest _ htm hin'), ok_bind, if_neg (by simp)]
        have hb : buffered nbs bg p t.id = .ok true := by
          cases nbs with
          | none => exact absurd hnear (hnb.2 _ _)
          | some nb =>
            obtain ⟨e1, e2⟩ := hnb.2 p.attempts t.id htm
            refine (foldlM_found _ (fun j hj => occ_of_painted hS h.inv.painted (e1 j hj).1) _).trans ?_
            congr 1
            rw [Bool.false_or, List.any_eq_true]
            exact ⟨j, e2 j (h.sub j hj) (by rintro rfl; exact hin' hj) hnear, (List.mem_filter.1 (hmem.2 hj)).2⟩
        rw [hb, ok_bind]
        rfl
    rw [hround] at hr; injection hr with hr; subst hr
    exact ⟨h1, h.len, h.nodup, h.sub, h.phase, h.rest⟩
  · have hadm : admit near t.id acc = acc ++ [t.id] := by unfold admit; rw [if_neg hin]
    rw [hadm]
    push Not at hin
    have hround := placeRound_plants (draw := draw) (num := num) hS hnb h.inv ha ht hc (h.rest _ htm hin.1) (fun j hj => hin.2 j (hmem.1 hj)) hspec
    rw [hround] at hr; injection hr with hr; subst hr
    have hocc : ∀ j : ℕ, occ? (setOcc p.state t.id ids[p.planted]) (.int j) = if j = t.id then some ids[p.planted] else occ? p.state (.int j) := by
      intro j
      rw [occ?_setOcc]
      by_cases e : j = t.id
      · simp [e]
      · have : ¬ (j : ℤ) = t.id := by exact_mod_cast e
        simp [e]
    refine ⟨h1, by simp [h.len], ?_, ?_, ?_, ?_⟩
    · exact List.nodup_append.2 ⟨h.nodup, List.nodup_singleton _, fun a ha b hb => by
        rw [List.mem_singleton] at hb
        rintro rfl
        exact hin.1 (hb ▸ ha)⟩
    · intro i hi
      rcases List.mem_append.1 hi with hi | hi
      · exact h.sub i hi
      · rw [List.mem_singleton.1 hi]; exact htm
    · intro k i v hk hv
      show occ? (setOcc p.state t.id ids[p.planted]) (.int i) = some v
      rw [hocc]
      by_cases hkl : k < acc.length
      · rw [List.getElem?_append_left hkl] at hk
        have hne' : i ≠ t.id := by rintro rfl; exact hin.1 (List.mem_of_getElem? hk)
        rw [if_neg hne']
        exact h.phase k i v hk hv
      · rw [List.getElem?_append_right (by omega)] at hk
        have hk0 : k - acc.length = 0 := by
          have := (List.getElem?_eq_some_iff.1 hk).1
          simpa using this
        rw [hk0] at hk
        injection hk with hk
        rw [if_pos hk.symm]
        have hkp : k = p.planted := by have := h.len; omega
        rw [hkp, hspec] at hv
        exact hv
    · intro i hi hnot
      show occ? (setOcc p.state t.id ids[p.planted]) (.int i) = some bg
      have hnot : i ∉ acc ∧ i ≠ t.id := by simpa using hnot
      rw [hocc, if_neg hnot.2]
      exact h.rest i hi hnot.1

/-- The placement loop: it takes the first `num` sites that the draws admit, and fails if the draws it may make do not admit so many. -/
theorem placeLoop_taken {S : Structure K d} (hS : S.Reachable) (hne : S.sitesOf none ≠ []) {nbs : Option (ℕ → ℕ → List ℕ)} {near : ℕ → ℕ → Prop}
    (hnb : NbsOK S nbs near) {bg : Val} {ids : List Val} (hids : ∀ v ∈ ids, v ≠ bg ∧ v.WF) {num : ℤ} (hlen : ids.length = num.toNat) (draw : ℕ → ℕ)
    (fuel : ℕ) {p : Place} (hp : Taken S bg ids near (walk (admit near) (fun t => draw t % S.siteIds.length) [] p.attempts) p) (hle : p.planted ≤ num.toNat)
    (ha : (p.attempts : ℤ) ≤ 1000 * num + 1 ∨ p.attempts = 0) (hf : 1000 * num + 2 ≤ fuel + p.attempts) :
    (num.toNat ≤ (walk (admit near) (fun t => draw t % S.siteIds.length) [] (1000 * num + 1).toNat).length →
      ∃ p', placeLoop (S.sitesOf none) nbs bg ids num draw fuel p = some (.ok p') ∧
        Taken S bg ids near ((walk (admit near) (fun t => draw t % S.siteIds.length) [] (1000 * num + 1).toNat).take num.toNat) p') ∧
    ((walk (admit near) (fun t => draw t % S.siteIds.length) [] (1000 * num + 1).toNat).length < num.toNat →
      placeLoop (S.sitesOf none) nbs bg ids num draw fuel p = some (.error .runtimeError)) := by
  set x : ℕ → ℕ := fun t => draw t % S.siteIds.length with hx
  induction fuel generalizing p with
  | zero =>
    by_cases hlt : (p.planted : ℤ) < num
    · omega
    · have hfull : p.planted = num.toNat := by omega
      have h0 : num.toNat = 0 ∨ 0 < num := by omega
      have hpre : walk (admit near) x [] p.attempts <+: walk (admit near) x [] (1000 * num + 1).toNat := walk_admit_prefix near x [] (by omega)
      have e := hp.len
      have htake : (walk (admit near) x [] (1000 * num + 1).toNat).take num.toNat = walk (admit near) x [] p.attempts := by
        rw [← hfull, ← hp.len]
        exact (List.prefix_iff_eq_take.1 hpre).symm
      refine ⟨fun _ => ⟨p, placeLoop_done hlt 0, by rw [htake]; exact hp⟩, fun h => ?_⟩
      have := hpre.length_le
      omega
  | succ fuel ih =>
    by_cases hlt : (p.planted : ℤ) < num
    swap
    · have hfull : p.planted = num.toNat := by omega
      have hpre : walk (admit near) x [] p.attempts <+: walk (admit near) x [] (1000 * num + 1).toNat := walk_admit_prefix near x [] (by omega)
      have e := hp.len
      have htake : (walk (admit near) x [] (1000 * num + 1).toNat).take num.toNat = walk (admit near) x [] p.attempts := by
        rw [← hfull, ← hp.len]
        exact (List.prefix_iff_eq_take.1 hpre).symm
      refine ⟨fun _ => ⟨p, placeLoop_done hlt _, by rw [htake]; exact hp⟩, fun h => ?_⟩
      have := hpre.length_le
      omega
    by_cases hat : (p.attempts : ℤ) ≤ 1000 * num
    · obtain ⟨p', h1, h2, h3⟩ := placeRound_taken hS hne hnb hids hlen draw hp hlt hat
      have h4 : Taken S bg ids near (walk (admit near) x [] p'.attempts) p' := by
        rw [h2]; exact h3
      have hpl : p'.planted ≤ num.toNat := by
        rcases placeRound_spec hS hne hnb hids hlen draw hp.inv hlt with ⟨h', -⟩ | ⟨-, p1, hr, -, -, h5⟩
        · omega
        · rw [h1] at hr; injection hr with hr; subst hr
          omega
      have := ih (p := p') (hp := h4) (hle := hpl) (ha := by omega) (hf := by omega)
      rw [placeLoop, if_pos hlt, h1]
      exact this
    · have hround : placeRound (S.sitesOf none) nbs bg ids num draw p = .error .runtimeError := by
        unfold placeRound; rw [if_pos (by omega)]
      have heq : p.attempts = (1000 * num + 1).toNat := by omega
      have e := hp.len
      rw [heq] at e
      refine ⟨fun h => by omega, fun _ => ?_⟩
      rw [placeLoop, if_pos hlt, hround]

theorem taken_start {S : Structure K d} (hS : S.Reachable) {bg : Val} (hbg : bg.WF) (ids : List Val) (near : ℕ → ℕ → Prop) :
    Taken S bg ids near [] ⟨blank S bg, 0, 0⟩ := by
  refine ⟨pInv_start hS hbg ids near, rfl, List.nodup_nil, by simp, by simp, fun i hi _ => ?_⟩
  obtain ⟨t, ht, rfl⟩ := (mem_siteIds_iff hS).1 hi
  exact (painted_blank hS hbg).occ t ht

end Pyl
