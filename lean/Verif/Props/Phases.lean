import Verif.Props.Analyzer
import Verif.Lemmas.RandomSites
import Verif.Props.GridSetup
/-
C71: phase counts.
-/
set_option autoImplicit false
set_option linter.unusedSectionVars false

namespace Pyl
open Pyl.Lattice Structure SimState Spec Analyzer SimResult
variable {K : Type} [Field K] [LinearOrder K] [IsStrictOrderedRing K] [FloorRing K] {d : ℕ}

theorem hashableAll_iff {l : List Val} : Val.hashableAll l = true ↔ ∀ v ∈ l, v.hashable = true := by
  induction l with
  | nil => simp [Val.hashableAll]
  | cons v l ih => simp [Val.hashableAll, ih]

/-- For values that can be hashed, Python's `==` is equality. -/
theorem eq_of_pyEq {a b : Val} (h : Val.PyEq a b) (hb : b.hashable = true) : a = b := by
  induction h with
  | refl => rfl
  | list => simp [Val.hashable] at hb
  | dict => simp [Val.hashable] at hb
  | @tup l m hl _ ih =>
    congr 1
    refine List.ext_getElem? fun i => ?_
    rw [Val.hashable, hashableAll_iff] at hb
    by_cases hi : i < l.length
    · have h1 := List.getElem?_eq_getElem hi
      have h2 := List.getElem?_eq_getElem (hl ▸ hi : i < m.length)
      rw [h1, h2, ih i _ _ h1 h2 (hb _ (List.getElem_mem _))]
    · rw [List.getElem?_eq_none (by omega), List.getElem?_eq_none (by omega)]

theorem foldlM_addToSet (l : List Val) (hl : ∀ v ∈ l, v.hashable = true) (acc : List Val) (ha : acc.Nodup) :
    ∃ r, l.foldlM addToSet acc = .ok r ∧ r.Nodup ∧ ∀ v, v ∈ r ↔ v ∈ acc ∨ v ∈ l := by
  induction l generalizing acc with
  | nil => exact ⟨acc, rfl, ha, by simp⟩
  | cons v l ih =>
    rw [List.foldlM_cons]
    have h1 : addToSet acc v = .ok (if v ∈ acc then acc else acc ++ [v]) := by unfold addToSet; rw [if_pos (hl v (by simp))]
    rw [h1, ok_bind]
    obtain ⟨r, h2, h3, h4⟩ := ih (fun w hw => hl w (by simp [hw])) (if v ∈ acc then acc else acc ++ [v]) (by
      split_ifs with h
      · exact ha
      · exact List.nodup_append.2 ⟨ha, by simp, by
          intro a ha' b hb
          rw [List.mem_singleton.1 hb]
          rintro rfl; exact h ha'⟩)
    refine ⟨r, h2, h3, fun w => ?_⟩
    rw [h4]
    split_ifs with h
    · constructor
      · rintro (h' | h')
        · exact .inl h'
        · exact .inr (by simp [h'])
      · rintro (h' | h')
        · exact .inl h'
        · rcases List.mem_cons.1 h' with rfl | h'
          · exact .inl h
          · exact .inr h'
    · simp only [List.mem_append, List.mem_cons, List.not_mem_nil, or_false]
      tauto

/-- What `phases_present` returns. -/
theorem phasesPresent_eq {s : SimState} (hs : s.WF) (ho : Occupied s) (order : List Val → List Val) (hord : ∀ l, (order l).Perm l) :
    ∃ phases, phasesPresent order s = .ok phases ∧ phases.Nodup ∧ ∀ v, v ∈ phases ↔ ∃ k, occ? s k = some v := by
  have hk : ∀ kv ∈ s.sites, ∃ v, Dict.get? kv.2 DISCRETE_OCCUPANCY = some v ∧ v.hashable = true ∧ occ? s kv.1 = some v := by
    intro kv hkv
    have hg : s.getSiteState kv.1 = some kv.2 := Dict.get?_of_mem hs.sites hkv
    obtain ⟨v, hv, hh⟩ := ho kv.1 (mem_of_siteState hg)
    obtain ⟨p, hp, hv'⟩ := occ?_eq.1 hv
    rw [hg] at hp; injection hp with hp; subst hp
    exact ⟨v, hv', hh, hv⟩
  have key : ∀ (l : Dict Key Props) (acc : List Val), (∀ kv ∈ l, ∃ v, Dict.get? kv.2 DISCRETE_OCCUPANCY = some v ∧ v.hashable = true) →
      (Dict.values l).foldlM addPhase acc = (l.map fun kv => (Dict.get? kv.2 DISCRETE_OCCUPANCY).getD .pyNone).foldlM addToSet acc := by
    intro l
    induction l with
    | nil => intro acc _; rfl
    | cons kv l ih =>
      intro acc hl
      obtain ⟨v, hv, hh⟩ := hl kv (by simp)
      rw [Dict.values, List.map_cons, List.foldlM_cons, List.map_cons, List.foldlM_cons]
      have ih := fun acc => ih acc fun kv hkv => hl kv (by simp [hkv])
      simp only [addPhase, hv, Option.getD_some]
      refine congrArg (addToSet acc v >>= ·) ?_
      funext acc
      exact ih acc
  obtain ⟨r, h1, h2, h3⟩ := foldlM_addToSet (s.sites.map fun kv => (Dict.get? kv.2 DISCRETE_OCCUPANCY).getD .pyNone) (by
    intro v hv
    obtain ⟨kv, hkv, rfl⟩ := List.mem_map.1 hv
    obtain ⟨v, hv, hh, -⟩ := hk kv hkv
    rw [hv]; exact hh) [] (by simp)
  refine ⟨order r, ?_, (hord r).nodup_iff.2 h2, fun v => ?_⟩
  · unfold phasesPresent allSiteStates
    rw [key s.sites [] (fun kv hkv => by obtain ⟨v, h, h', -⟩ := hk kv hkv; exact ⟨v, h, h'⟩), h1]
    rfl
  · rw [(hord r).mem_iff, h3, List.mem_map]
    constructor
    · rintro (h | ⟨kv, hkv, rfl⟩)
      · simp at h
      · obtain ⟨v, hv, -, ho⟩ := hk kv hkv
        exact ⟨kv.1, by rw [hv]; exact ho⟩
    · rintro ⟨k, hk'⟩
      right
      obtain ⟨p, hp, hv⟩ := occ?_eq.1 hk'
      exact ⟨(k, p), Dict.mem_of_get? hp, by simp only [hv, Option.getD_some]⟩

theorem accepts_phase {s : SimState} (ho : Occupied s) {v : Val} (hv : v.hashable = true) {k : Key} :
    (∃ p, s.getSiteState k = some p ∧ Accepts [equalTo [(DISCRETE_OCCUPANCY, v)]] p) ↔ occ? s k = some v := by
  constructor
  · rintro ⟨p, hp, ha⟩
    have := accepts_equalTo.1 ha DISCRETE_OCCUPANCY v (by simp)
    obtain ⟨w, hw, -⟩ := ho k (mem_of_siteState hp)
    obtain ⟨p', hp', hw'⟩ := occ?_eq.1 hw
    rw [hp] at hp'; injection hp' with hp'; subst hp'
    rw [hw', Option.getD_some] at this
    rw [hw, eq_of_pyEq this hv]
  · intro h
    obtain ⟨p, hp, hw⟩ := occ?_eq.1 h
    refine ⟨p, hp, accepts_equalTo.2 ?_⟩
    intro k v' hkv
    simp only [List.mem_singleton, Prod.mk.injEq] at hkv
    obtain ⟨rfl, rfl⟩ := hkv
    rw [hw]; exact .refl _

/-- An analyzer without a structure, or with one that has the state's sites. -/
def Fits (A : Option (Structure K d)) (s : SimState) : Prop := ∀ S, A = some S → S.Reachable ∧ SameSites S s

/-- C71: `cell_count` is the number of sites with that phase. -/
theorem C71_count (A : Option (Structure K d)) (s : SimState) (h : Analyzable s) (hA : Fits A s) (v : Val) (hv : v.hashable = true) :
    cellCount A s v = .ok (sitesWith s v) := by
  obtain ⟨hs, hid, ho⟩ := h
  have hnd : (s.siteIds.filter fun k => decide (occ? s k = some v)).Nodup := hs.sites.filter _
  have hmem : ∀ k, k ∈ s.siteIds.filter (fun k => decide (occ? s k = some v)) ↔ occ? s k = some v := by
    intro k
    rw [List.mem_filter]
    simp only [decide_eq_true_eq, and_iff_right_iff_imp]
    intro h
    obtain ⟨p, hp, -⟩ := occ?_eq.1 h
    exact mem_of_siteState hp
  unfold cellCount getSiteCountWhereEqual getSitesWhereEqual
  cases A with
  | none =>
    obtain ⟨l, h1, h2, h3, h4⟩ := C70_get_sites (K := K) (d := d) s hs hid none [equalTo [(DISCRETE_OCCUPANCY, v)]] (total_equalTo _ s)
    rw [h1, ok_bind]
    refine congrArg Except.ok ?_
    rw [List.length_map]
    refine List.Perm.length_eq ((List.perm_ext_iff_of_nodup h3 hnd).2 fun k => ?_)
    rw [h4, accepts_phase ho hv, hmem]
  | some S =>
    obtain ⟨hS, hsame⟩ := hA S rfl
    obtain ⟨l, h1, h2, h3, h4⟩ := C70_structure S hS s hid none [equalTo [(DISCRETE_OCCUPANCY, v)]] (total_equalTo _ s) (by
      intro i t ht _
      have := id_of_getSite hS ht
      subst this
      exact siteState_of_mem _ ((hsame _).2 ⟨t.id, (mem_siteIds_iff hS).2 ⟨t, (mem_sitesOf hS).2 ht, rfl⟩, rfl⟩))
    rw [h1, ok_bind]
    refine congrArg Except.ok ?_
    rw [List.length_map, ← List.length_map (f := fun i : ℕ => Key.int i) (as := l)]
    refine List.Perm.length_eq ((List.perm_ext_iff_of_nodup (h3.map (by intro a b h; simpa using h)) hnd).2 fun k => ?_)
    rw [hmem, List.mem_map]
    constructor
    · rintro ⟨i, hi, rfl⟩
      obtain ⟨t, p, -, -, hp, ha⟩ := (h4 i).1 hi
      exact (accepts_phase ho hv).1 ⟨p, hp, ha⟩
    · intro hk
      obtain ⟨p, hp, ha⟩ := (accepts_phase ho hv).2 hk
      obtain ⟨i, hi, rfl⟩ := (hsame k).1 (mem_of_siteState hp)
      obtain ⟨t, ht, rfl⟩ := (mem_siteIds_iff hS).1 hi
      exact ⟨t.id, (h4 _).2 ⟨t, p, (mem_sitesOf hS).1 ht, by simp, hp, ha⟩, rfl⟩

/-- The numbers of sites with the phases of a list without repetitions that has all phases of the state add up to the size. -/
theorem sum_sitesWith {s : SimState} (ho : Occupied s) {phases : List Val} (hn : phases.Nodup) (h : ∀ k v, occ? s k = some v → v ∈ phases) :
    (phases.map fun v => sitesWith s v).sum = s.size := by
  have h1 : ∀ v, sitesWith s v = (s.siteIds.map fun k => (occ? s k).getD .pyNone).count v := by
    intro v
    unfold sitesWith
    rw [List.count, List.countP_map, List.countP_eq_length_filter]
    congr 1
    refine List.filter_congr fun k hk => ?_
    obtain ⟨w, hw, -⟩ := ho k hk
    simp [hw]
    by_cases e : w = v <;> simp [e]
  simp only [h1]
  rw [GridSetup.sum_count hn, List.length_map]
  · rfl
  · intro v hv
    obtain ⟨k, hk, rfl⟩ := List.mem_map.1 hv
    obtain ⟨w, hw, -⟩ := ho k hk
    rw [hw]; exact h k w hw

/-- C71: on a state without sites `cell_fraction` raises ZeroDivisionError. -/
theorem C71_empty (A : Option (Structure K d)) (s : SimState) (h : Analyzable s) (hA : Fits A s) (h0 : s.size = 0) (v : Val) (hv : v.hashable = true) :
    cellFraction A s v = .error .zeroDivisionError := by
  unfold cellFraction
  rw [C71_count A s h hA v hv, ok_bind, if_pos h0]

/-- C71: `phases_present` lists the phases of the state once each; over these, `cell_count` adds up to the size and, unless the state is empty, `cell_fraction`
adds up to 1. -/
theorem C71_partition (A : Option (Structure K d)) (s : SimState) (h : Analyzable s) (hA : Fits A s) (order : List Val → List Val)
    (hord : ∀ l, (order l).Perm l) :
    ∃ phases, phasesPresent order s = .ok phases ∧ phases.Nodup ∧ (∀ v, v ∈ phases ↔ ∃ k, occ? s k = some v) ∧
      Analyzer.phaseCount order s = .ok phases.length ∧
      (∃ count : Val → ℕ, (∀ v ∈ phases, cellCount A s v = .ok (count v)) ∧ (phases.map count).sum = s.size) ∧
      (s.size ≠ 0 → ∃ frac : Val → ℚ, (∀ v ∈ phases, cellFraction A s v = .ok (frac v)) ∧ (phases.map frac).sum = 1) := by
  obtain ⟨phases, h1, h2, h3⟩ := phasesPresent_eq h.1 h.2.2 order hord
  have hh : ∀ v ∈ phases, v.hashable = true := by
    intro v hv
    obtain ⟨k, hk⟩ := (h3 v).1 hv
    obtain ⟨p, hp, -⟩ := occ?_eq.1 hk
    obtain ⟨w, hw, hh⟩ := h.2.2 k (mem_of_siteState hp)
    rw [hk] at hw; injection hw with hw; rw [hw]; exact hh
  have hsum := sum_sitesWith h.2.2 h2 fun k v hk => (h3 v).2 ⟨k, hk⟩
  refine ⟨phases, h1, h2, h3, ?_, ⟨sitesWith s, fun v hv => C71_count A s h hA v (hh v hv), hsum⟩, fun h0 =>
    ⟨fun v => (sitesWith s v : ℚ) / s.size, fun v hv => ?_, ?_⟩⟩
  · unfold Analyzer.phaseCount; rw [h1]; rfl
  · unfold cellFraction
    rw [C71_count A s h hA v (hh v hv), ok_bind, if_neg h0]; rfl
  · have : (phases.map fun v => (sitesWith s v : ℚ) / s.size).sum = ((phases.map fun v => sitesWith s v).sum : ℕ) / (s.size : ℚ) := by
      clear h1 h2 h3 hh hsum
      induction phases with
      | nil => simp
      | cons v l ih => rw [List.map_cons, List.sum_cons, ih, List.map_cons, List.sum_cons]; push_cast; ring
    rw [this, hsum, div_self (by exact_mod_cast h0)]

/-- C71: `cell_ratio` is the quotient of the counts, and raises ZeroDivisionError if the second phase does not occur. -/
theorem C71_ratio (A : Option (Structure K d)) (s : SimState) (h : Analyzable s) (hA : Fits A s) (v w : Val) (hv : v.hashable = true) (hw : w.hashable = true) :
    (sitesWith s w ≠ 0 → cellRatio A s v w = .ok ((sitesWith s v : ℚ) / sitesWith s w)) ∧
    (sitesWith s w = 0 → cellRatio A s v w = .error .zeroDivisionError) := by
  unfold cellRatio
  rw [C71_count A s h hA v hv, C71_count A s h hA w hw, ok_bind, ok_bind]
  exact ⟨fun h => by rw [if_neg h]; rfl, fun h => by rw [if_pos h]⟩

/-- Every state made by the grid setups (C64-C69) can be analyzed, with or without the structure. -/
theorem analyzable_of_start {S : Structure K d} (hS : S.Reachable) {s : SimState} (h : StartState S s) (hh : ∀ k v, occ? s k = some v → v.hashable = true) :
    Analyzable s ∧ Fits (some S) s ∧ Fits (K := K) (d := d) none s := by
  refine ⟨⟨h.1, fun k p hp => ?_, fun k hk => ?_⟩, fun S' e => ?_, fun S' e => by cases e⟩
  · obtain ⟨i, hi, rfl⟩ := (h.2.2.1 k).1 (mem_of_siteState hp)
    obtain ⟨p', hp', e⟩ := h.2.2.2.2 i hi
    rw [hp] at hp'; injection hp' with hp'
    rw [hp', e]; rfl
  · obtain ⟨v, hv⟩ := h.2.2.2.1 k hk
    exact ⟨v, hv, hh k v hv⟩
  · injection e with e; subst e
    exact ⟨hS, h.2.2.1⟩

/-- On the 4x4 interface of A and B, asking for the sites with phase A finds the site at (1, 3) and not the one at (2, 0). -/
example : ∃ (S : Structure ℚ 2) (s : SimState) (l : List ℕ), gridSetup2.interface (.int 4) (.str "A") (.str "B") = .ok ⟨s, S⟩ ∧
    getSitesWhereEqual (some S) s [(DISCRETE_OCCUPANCY, .str "A")] none = .ok (l.map fun i : ℕ => .num i) ∧
    (∀ i, SiteHas S i ![1, 3] → i ∈ l) ∧ ∀ i, SiteHas S i ![2, 0] → i ∉ l := by
  obtain ⟨S, s, h1, hsq, hst, h2⟩ := C64_interface (K := ℚ) .two 4 (by norm_num) (.str "A") (.str "B") (.str _) (.str _)
  have hS := hsq.isTorus.reachable
  have hid : KnowsIds s := by
    intro k p hp
    obtain ⟨i, hi, rfl⟩ := (hst.2.2.1 k).1 (mem_of_siteState hp)
    obtain ⟨p', hp', e⟩ := hst.2.2.2.2 i hi
    rw [hp] at hp'; injection hp' with hp'
    rw [hp', e]; rfl
  obtain ⟨l, h3, -, -, h4⟩ := C70_where_equal_structure_partial S hS s hid none [(DISCRETE_OCCUPANCY, .str "A")] (by simp) hst.2.2.1
  refine ⟨S, s, l, h1, h3, fun i hi => ?_, fun i hi hm => ?_⟩
  · obtain ⟨p, hp, e⟩ := occ?_eq.1 (h2 i _ hi)
    obtain ⟨t, ht, rfl, -⟩ := site_of_has hS hi
    refine (h4 _).2 ⟨t, p, (mem_sitesOf hS).1 ht, by simp, hp, ?_⟩
    intro k v hkv
    simp only [List.mem_singleton, Prod.mk.injEq] at hkv
    obtain ⟨rfl, rfl⟩ := hkv
    exact ⟨_, e, .refl _⟩
  · obtain ⟨t, p, -, -, hp, ha⟩ := (h4 i).1 hm
    obtain ⟨w, hw, e⟩ := ha DISCRETE_OCCUPANCY (.str "A") (by simp)
    obtain ⟨p', hp', e'⟩ := occ?_eq.1 (h2 i _ hi)
    rw [hp] at hp'; injection hp' with hp'
    subst hp'
    rw [hw] at e'; injection e' with e'
    rw [e'] at e
    have := eq_of_pyEq e rfl
    simp at this

/-- On the 4x4 interface of A and B, `phases_present` lists A and B, and `cell_fraction` of both adds up to 1. -/
example : ∃ (S : Structure ℚ 2) (s : SimState) (phases : List Val) (frac : Val → ℚ), gridSetup2.interface (.int 4) (.str "A") (.str "B") = .ok ⟨s, S⟩ ∧
    phasesPresent id s = .ok phases ∧ (∀ v, v ∈ phases ↔ v = .str "A" ∨ v = .str "B") ∧
    (∀ v ∈ phases, cellFraction (some S) s v = .ok (frac v)) ∧ (phases.map frac).sum = 1 := by
  obtain ⟨S, s, h1, hsq, hst, h2⟩ := C64_interface (K := ℚ) .two 4 (by norm_num) (.str "A") (.str "B") (.str _) (.str _)
  have hS := hsq.isTorus.reachable
  have hocc : ∀ k v, occ? s k = some v → v = .str "A" ∨ v = .str "B" := by
    intro k v hk
    obtain ⟨p, hp, -⟩ := occ?_eq.1 hk
    obtain ⟨i, hi, rfl⟩ := (hst.2.2.1 k).1 (mem_of_siteState hp)
    obtain ⟨c, -, hc⟩ := hsq.isTorus.site i hi
    rw [h2 i c hc] at hk
    injection hk with hk
    rw [← hk]; dsimp only; split_ifs <;> simp
  obtain ⟨ha, hf, -⟩ := analyzable_of_start hS hst fun k v hk => by rcases hocc k v hk with rfl | rfl <;> rfl
  obtain ⟨ph, h3, -, h4, -, -, h5⟩ := C71_partition (some S) s ha hf id fun _ => .refl _
  obtain ⟨iA, hiA, hA⟩ := hsq.isTorus.ex ![0, 0] (by intro j; fin_cases j <;> simp)
  obtain ⟨iB, hiB, hB⟩ := hsq.isTorus.ex ![3, 0] (by intro j; fin_cases j <;> simp)
  have hz : s.size ≠ 0 := by
    intro e
    have : s.siteIds = [] := List.length_eq_zero_iff.1 e
    have h6 := (hst.2.2.1 (.int iA)).2 ⟨iA, hiA, rfl⟩
    rw [this] at h6; cases h6
  obtain ⟨frac, h6, h7⟩ := h5 hz
  refine ⟨S, s, ph, frac, h1, h3, fun v => ?_, h6, h7⟩
  rw [h4]
  constructor
  · rintro ⟨k, hk⟩; exact hocc k v hk
  · rintro (rfl | rfl)
    · exact ⟨_, h2 iA _ hA⟩
    · exact ⟨_, h2 iB _ hB⟩

/-- A state without sites. -/
example (v : Val) (hv : v.hashable = true) : cellFraction (K := ℚ) (d := 2) none SimState.empty v = .error .zeroDivisionError :=
  C71_empty _ _ ⟨Filling.empty.1, by intro k p hp; simp [SimState.empty, SimState.getSiteState] at hp, by intro k hk; simp [SimState.empty, SimState.siteIds] at hk⟩
    (by intro S hS; cases hS) rfl v hv

end Pyl
