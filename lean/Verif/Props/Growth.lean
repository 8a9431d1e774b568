import Verif.Spec.Growth
import Verif.Props.Life
/-
C62, C63: the growth model.
-/
set_option autoImplicit false
set_option linter.unusedSectionVars false

namespace Pyl
open Pyl.Lattice Structure SimState Spec
variable {K : Type} [Field K] [LinearOrder K] [IsStrictOrderedRing K] [FloorRing K] {d : ℕ}

theorem occupancy_eq {s : SimState} {i : Key} {v : Val} (h : occ? s i = some v) : occupancy s i = .ok v := by
  unfold occ? at h
  unfold occupancy
  cases hp : s.getSiteState i with
  | none => rw [hp] at h; cases h
  | some p => rw [hp] at h; simp only [Option.bind_some] at h; simp [h]

/-! ### counting -/

namespace Growth

/-- The dict of counts after listing the phases. -/
def countAll (bg : Val) (l : List Val) (acc : Dict Val ℕ) : Dict Val ℕ := l.foldl (count bg) acc

theorem foldlM_countAll (bg : Val) (s : SimState) (l : List ℕ) (f : ℕ → Val) (h : ∀ j ∈ l, occ? s (.int j) = some (f j)) (acc : Dict Val ℕ) :
    l.foldlM (fun (counts : Dict Val ℕ) (nb : ℕ) => do
      let phase ← occupancy s (.int nb)
      pure (count bg counts phase)) acc = (.ok (countAll bg (l.map f) acc) : Py (Dict Val ℕ)) := by
  induction l generalizing acc with
  | nil => rfl
  | cons a l ih =>
    rw [List.foldlM_cons, occupancy_eq (h a (by simp))]
    simp only [ok_bind, pure, Except.pure]
    have := ih (fun j hj => h j (by simp [hj])) (count bg acc (f a))
    simp only [pure, Except.pure] at this
    rw [this]; rfl

theorem get?_count (bg : Val) (acc : Dict Val ℕ) (a q : Val) :
    (Dict.get? (count bg acc a) q).getD 0 = (Dict.get? acc q).getD 0 + if a = q ∧ q ≠ bg then 1 else 0 := by
  unfold count
  by_cases ha : a = bg
  · subst ha
    by_cases hq : a = q
    · subst hq; simp
    · simp [hq]
  · rw [if_pos ha]
    by_cases hq : a = q
    · subst hq
      cases h : Dict.get? acc a with
      | none => simp [ha]
      | some n => simp [ha]
    · cases h : Dict.get? acc a with
      | none => simp [Dict.get?_set, hq]
      | some n => simp [Dict.get?_set, hq]

/-- The counts are the numbers of occurrences. -/
theorem get?_countAll (bg : Val) (l : List Val) (acc : Dict Val ℕ) (q : Val) (hq : q ≠ bg) :
    (Dict.get? (countAll bg l acc) q).getD 0 = (Dict.get? acc q).getD 0 + l.count q := by
  induction l generalizing acc with
  | nil => simp [countAll]
  | cons a l ih =>
    have : countAll bg (a :: l) acc = countAll bg l (count bg acc a) := rfl
    rw [this, ih, get?_count, List.count_cons]
    by_cases h : a = q
    · subst h; simp [hq]; ring
    · simp [h]

/-- Invariant of the dict of counts: proper, without background, all counts positive. -/
def Counts (bg : Val) (d : Dict Val ℕ) : Prop := Dict.WF d ∧ ∀ pc ∈ d, pc.1 ≠ bg ∧ 0 < pc.2

theorem counts_count {bg : Val} {acc : Dict Val ℕ} (h : Counts bg acc) (a : Val) : Counts bg (count bg acc a) := by
  unfold count
  split_ifs with ha
  · cases hg : Dict.get? acc a with
    | none =>
      refine ⟨h.1.set _ _, fun pc hpc => ?_⟩
      rcases Dict.mem_set hpc with h1 | ⟨h1, h2⟩
      · exact h.2 pc h1
      · rw [h1, h2]; exact ⟨ha, by norm_num⟩
    | some n =>
      refine ⟨h.1.set _ _, fun pc hpc => ?_⟩
      rcases Dict.mem_set hpc with h1 | ⟨h1, h2⟩
      · exact h.2 pc h1
      · rw [h1, h2]; exact ⟨ha, by omega⟩
  · exact h

theorem counts_countAll {bg : Val} (l : List Val) {acc : Dict Val ℕ} (h : Counts bg acc) : Counts bg (countAll bg l acc) := by
  induction l generalizing acc with
  | nil => exact h
  | cons a l ih => exact ih (counts_count h a)

/-- `pick` gives an entry with the largest count. -/
theorem pick_max (l : Dict Val ℕ) : ∀ best : Val × ℕ,
    let r := l.foldl (fun best pc => if pc.2 > best.2 then pc else best) best
    (r = best ∨ r ∈ l) ∧ best.2 ≤ r.2 ∧ ∀ pc ∈ l, pc.2 ≤ r.2 := by
  induction l with
  | nil => intro best; simp
  | cons a l ih =>
    intro best
    simp only [List.foldl_cons]
    by_cases h : a.2 > best.2
    · rw [if_pos h]
      obtain ⟨h1, h2, h3⟩ := ih a
      refine ⟨?_, by omega, ?_⟩
      · rcases h1 with h1 | h1
        · exact Or.inr (by rw [h1]; simp)
        · exact Or.inr (List.mem_cons_of_mem _ h1)
      · intro pc hpc
        rcases List.mem_cons.1 hpc with rfl | hpc
        · exact h2
        · exact h3 pc hpc
    · rw [if_neg h]
      obtain ⟨h1, h2, h3⟩ := ih best
      refine ⟨h1.imp_right (List.mem_cons_of_mem _), h2, ?_⟩
      intro pc hpc
      rcases List.mem_cons.1 hpc with rfl | hpc
      · omega
      · exact h3 pc hpc

end Growth

open Growth

theorem tally_eq {s : SimState} {l : List ℕ} {f : ℕ → Val} (h : ∀ j ∈ l, occ? s (.int j) = some (f j)) (q : Val) :
    tally s l q = (l.map f).count q := by
  unfold tally
  induction l with
  | nil => rfl
  | cons a l ih =>
    rw [List.countP_cons, List.map_cons, List.count_cons, ih fun j hj => h j (by simp [hj]), h a (by simp)]
    simp

/-- What the rule answers for a site all of whose listed neighbours have an occupancy: the overwritten occupancy is a growth step. -/
theorem growth_update {c : Ctl} {s : SimState} {i : Key} {v : Val} (hv : occ? s i = some v) {l : List ℕ} (hl : c.nbs c.calls i = .ok l)
    (hocc : ∀ j ∈ l, ∃ w, occ? s (.int j) = some w) :
    ∃ c' q, update c i s = .ok (c', .dict q) ∧ c'.background = c.background ∧ c'.nbs = c.nbs ∧
      (q = [] ∧ GrowthStep c.background s l v v ∨ ∃ v' k, q = [(DISCRETE_OCCUPANCY, v')] ∧ occ? s k = some v' ∧ GrowthStep c.background s l v v' ∧ v' ≠ c.background) := by
  classical
  have : Nonempty Val := ⟨.pyNone⟩
  choose! f hf using hocc
  unfold update
  rw [occupancy_eq hv, ok_bind]
  by_cases hb : v = c.background
  · rw [if_pos hb, hl, ok_bind, foldlM_countAll c.background s l f hf, ok_bind]
    set D := countAll c.background (l.map f) [] with hD
    have hC : Counts c.background D := counts_countAll _ ⟨Dict.WF.nil, by simp⟩
    have hcnt : ∀ q, q ≠ c.background → (Dict.get? D q).getD 0 = tally s l q := fun q hq => by
      rw [hD, get?_countAll _ _ _ _ hq, tally_eq hf]; simp
    by_cases hlen : 0 < D.length
    · rw [if_pos hlen]
      have key : (pick D).1 ≠ c.background ∧ tally s l (pick D).1 = (pick D).2 ∧ 0 < (pick D).2 ∧ ∀ pc ∈ D, pc.2 ≤ (pick D).2 := by
        obtain ⟨h1, h2, h3⟩ := pick_max D (.pyNone, 0)
        change (pick D = _ ∨ pick D ∈ D) at h1
        change ∀ pc ∈ D, pc.2 ≤ (pick D).2 at h3
        have hin : pick D ∈ D := by
          rcases h1 with h1 | h1
          · obtain ⟨pc, hpc⟩ := List.exists_mem_of_length_pos hlen
            have := h3 pc hpc
            rw [h1] at this
            have := (hC.2 pc hpc).2
            simp at *; omega
          · exact h1
        have hp := hC.2 _ hin
        have hg : Dict.get? D (pick D).1 = some (pick D).2 := Dict.get?_of_mem hC.1 hin
        have ht := hcnt _ hp.1
        rw [hg, Option.getD_some] at ht
        exact ⟨hp.1, ht.symm, hp.2, h3⟩
      obtain ⟨hp, ht, hpos, h3⟩ := key
      have hex : ∃ j ∈ l, occ? s (.int j) = some (pick D).1 := by
        have : 0 < tally s l (pick D).1 := by omega
        unfold tally at this
        obtain ⟨j, hj, e⟩ := List.countP_pos_iff.1 this
        exact ⟨j, hj, by simpa using e⟩
      obtain ⟨j0, hj0, hj0o⟩ := hex
      refine ⟨_, _, rfl, rfl, rfl, Or.inr ⟨(pick D).1, _, rfl, hj0o, ⟨fun h => absurd hb h, ?_, ?_⟩, hp⟩⟩
      · intro _ hall
        rw [hall j0 hj0] at hj0o
        injection hj0o with e
        exact absurd e.symm hp
      · intro _ _
        refine ⟨hp, ⟨j0, hj0, hj0o⟩, fun q hq => ?_⟩
        · rw [ht, ← hcnt q hq]
          cases hq' : Dict.get? D q with
          | none => simp
          | some n => exact h3 _ (Dict.mem_of_get? hq')
    · rw [if_neg hlen]
      refine ⟨_, _, rfl, rfl, rfl, Or.inl ⟨rfl, fun _ => rfl, fun h _ => h, fun _ ⟨j, hj, hne⟩ => ?_⟩⟩
      exfalso
      have hnil : D = [] := List.length_eq_zero_iff.1 (by omega)
      have hfj : f j ≠ c.background := fun e => hne (by rw [hf j hj, e])
      have h1 := hcnt (f j) hfj
      rw [hnil] at h1
      have h2 : 0 < tally s l (f j) := by
        unfold tally
        exact List.countP_pos_iff.2 ⟨j, hj, by simp [hf j hj]⟩
      simp [Dict.get?] at h1
      omega
  · rw [if_neg hb]
    exact ⟨c, [], rfl, rfl, rfl, Or.inl ⟨rfl, fun _ => rfl, fun h => absurd h hb, fun h => absurd h hb⟩⟩

theorem occ?_eq {s : SimState} {i : Key} {v : Val} : occ? s i = some v ↔ ∃ p, s.getSiteState i = some p ∧ Dict.get? p DISCRETE_OCCUPANCY = some v := by
  unfold occ?
  rw [Option.bind_eq_some_iff]

/-- What the rule may answer for site `i` on the state `s`. -/
def Growth.Answer (c : Ctl) (i : Key) (s : SimState) (q : Props) : Prop :=
  ∀ v, occ? s i = some v → ∃ t l, c.nbs t i = .ok l ∧
    (q = [] ∧ GrowthStep c.background s l v v ∨ ∃ v', q = [(DISCRETE_OCCUPANCY, v')] ∧ (Val.dict q).WF ∧ GrowthStep c.background s l v v')

/-- What holds of the controller and the state during a run. -/
def Growth.Inv (c : Ctl) (s0 : SimState) (st : Ctl) (s : SimState) : Prop :=
  st.background = c.background ∧ st.nbs = c.nbs ∧ s.siteIds = s0.siteIds ∧ AllOccupied s

/-- The dict of a site overwritten with such an answer. -/
theorem growth_merged {c : Ctl} {a b : SimState} {i : Key} {v : Val} (hv : occ? a i = some v) {p q new : Props} (hp : a.getSiteState i = some p)
    (hq : Growth.Answer c i a q) (hnew : b.getSiteState i = some new) (hm : Merged p q new) :
    ∃ t l v', c.nbs t i = .ok l ∧ occ? b i = some v' ∧
      GrowthStep c.background a l v v' ∧ ∀ p q key, a.getSiteState i = some p → b.getSiteState i = some q → key ≠ DISCRETE_OCCUPANCY →
        Dict.get? q key = Dict.get? p key := by
  have hpv : Dict.get? p DISCRETE_OCCUPANCY = some v := by
    obtain ⟨p', hp', h⟩ := occ?_eq.1 hv
    rw [hp] at hp'; injection hp' with e; subst e; exact h
  obtain ⟨t, l, hl, h⟩ := hq v hv
  rcases h with ⟨rfl, h⟩ | ⟨v', rfl, -, h⟩
  · refine ⟨t, l, v, hl, occ?_eq.2 ⟨new, hnew, by rw [hm.2 _ (by simp)]; exact hpv⟩, h, ?_⟩
    intro p' q' key hp' hq' _
    rw [hp] at hp'; rw [hnew] at hq'
    injection hp' with e1; injection hq' with e2; subst e1 e2
    exact hm.2 _ (by simp)
  · refine ⟨t, l, v', hl, occ?_eq.2 ⟨new, hnew, hm.1 _ _ (by simp [Dict.get?])⟩, h, ?_⟩
    intro p' q' key hp' hq' hk
    rw [hp] at hp'; rw [hnew] at hq'
    injection hp' with e1; injection hq' with e2; subst e1 e2
    exact hm.2 _ (by simpa using hk)

theorem growth_answersBy {c : Ctl} {s0 : SimState}
    (hnb : ∀ t, ∀ i ∈ s0.siteIds, ∃ l, c.nbs t i = .ok l ∧ ∀ j ∈ l, Key.int j ∈ s0.siteIds) :
    AnswersBy controller (Growth.Inv c s0) (Growth.Answer c) := by
  rintro st s hsw ⟨h1, h2, h3, h4⟩ i hi
  obtain ⟨v, hv⟩ := h4 i hi
  rw [h3] at hi
  obtain ⟨l, hl, hlj⟩ := hnb st.calls i hi
  have hl' : st.nbs st.calls i = .ok l := by rw [h2]; exact hl
  obtain ⟨st', q, h5, h6, h7, h8⟩ := growth_update hv hl' fun j hj => h4 _ (by rw [h3]; exact hlj j hj)
  rw [h1] at h8
  rcases h8 with ⟨rfl, h8⟩ | ⟨v', k, rfl, hk, h8, -⟩
  · refine ⟨st', _, _, h5, .patch _ ⟨by simp, by simp, Or.inl rfl⟩, .dict Dict.WF.nil (by simp), ?_, by rw [h6, h1], by rw [h7, h2], h3, h4⟩
    intro v1 hv1
    rw [hv] at hv1; injection hv1 with e; subst e
    exact ⟨_, l, hl, Or.inl ⟨rfl, h8⟩⟩
  · have hw : (Val.dict [(DISCRETE_OCCUPANCY, v')]).WF := by
      obtain ⟨p, hp, hpv⟩ := occ?_eq.1 hk
      refine .dict (by simp [Dict.WF]) (by
        intro kv hkv
        rw [List.mem_singleton] at hkv
        subst hkv
        exact (hsw.site _ (Dict.mem_of_get? hp)).get? hpv)
    refine ⟨st', _, _, h5, .patch _ (isPatch_occ _), hw, ?_, by rw [h6, h1], by rw [h7, h2], h3, h4⟩
    intro v1 hv1
    rw [hv] at hv1; injection hv1 with e; subst e
    exact ⟨_, l, hl, Or.inr ⟨v', rfl, hw, h8⟩⟩

theorem growth_stepBy {c : Ctl} {a b : SimState} (hst : StepBy (Growth.Answer c) a b) (i : Key) (v : Val) (hv : occ? a i = some v) :
    ∃ t l v', c.nbs t i = .ok l ∧ occ? b i = some v' ∧
      GrowthStep c.background a l v v' ∧ ∀ p q key, a.getSiteState i = some p → b.getSiteState i = some q → key ≠ DISCRETE_OCCUPANCY →
        Dict.get? q key = Dict.get? p key := by
  obtain ⟨p, hp, hpv⟩ := occ?_eq.1 hv
  obtain ⟨q, new, hq, hnew, hm⟩ := hst.2.2 i p hp
  exact growth_merged hv hp hq hnew hm

theorem growth_keeps {c : Ctl} {s0 : SimState} (st : Ctl) (s s' : SimState) (_ : s.WF) (h : Growth.Inv c s0 st s) (hst : StepBy (Growth.Answer c) s s') :
    Growth.Inv c s0 st s' := by
  obtain ⟨h1, h2, h3, h4⟩ := h
  refine ⟨h1, h2, by rw [hst.1, h3], fun i hi => ?_⟩
  rw [hst.1] at hi
  obtain ⟨v, hv⟩ := h4 i hi
  obtain ⟨t, l, v', -, h, -⟩ := growth_stepBy hst i v hv
  exact ⟨v', h⟩

/-- C62: a serial run of the growth model from any state all of whose sites have an occupancy, with any neighbourhood (any answers of
`neighbors_of`, also random ones) that lists sites of the state: the run succeeds; from every step to the next every site makes a growth step with
respect to what `neighbors_of` answered for it; nothing but the occupancy changes. -/
theorem C62_growth (c : Ctl) (s0 : SimState) (hs : s0.WF) (hg : s0.getGeneralState ≠ none) (hne : s0.siteIds ≠ []) (hocc : AllOccupied s0)
    (hnb : ∀ t, ∀ i ∈ s0.siteIds, ∃ l, c.nbs t i = .ok l ∧ ∀ j ∈ l, Key.int j ∈ s0.siteIds) (n : ℕ) :
    ∃ c' res, runSync controller c s0 n = .ok (c', res) ∧ res.len = n + 1 ∧ res.getStep 0 = .ok s0 ∧
      ∀ k : ℕ, k < n → ∃ a b, res.getStep k = .ok a ∧ res.getStep (k + 1) = .ok b ∧
        a.siteIds = s0.siteIds ∧ b.siteIds = s0.siteIds ∧ ∀ i ∈ s0.siteIds, ∃ t l v v', c.nbs t i = .ok l ∧
          occ? a i = some v ∧ occ? b i = some v' ∧ GrowthStep c.background a l v v' ∧
          ∀ p q key, a.getSiteState i = some p → b.getSiteState i = some q → key ≠ DISCRETE_OCCUPANCY → Dict.get? q key = Dict.get? p key := by
  obtain ⟨c', res, h1, h2, h3, h4⟩ := runSync_by (growth_answersBy hnb) growth_keeps n hs hg hne c c rfl ⟨rfl, rfl, rfl, hocc⟩
  refine ⟨c', res, h1, h2, h3, fun k hk => ?_⟩
  obtain ⟨a, b, ha, hb, -, -, ⟨st, -, -, hi1, hi2⟩, hst⟩ := h4 k hk
  refine ⟨a, b, ha, hb, hi1, by rw [hst.1, hi1], fun i hi => ?_⟩
  obtain ⟨v, hv⟩ := hi2 i (by rw [hi1]; exact hi)
  obtain ⟨t, l, v', h5, h6, h7, h8⟩ := growth_stepBy hst i v hv
  exact ⟨t, l, v, v', h5, hv, h6, h7, h8⟩

/-- C62: once occupied, a site keeps its phase for the rest of the run. -/
theorem C62_never_overwritten (c : Ctl) (s0 : SimState) (hs : s0.WF) (hg : s0.getGeneralState ≠ none) (hne : s0.siteIds ≠ []) (hocc : AllOccupied s0)
    (hnb : ∀ t, ∀ i ∈ s0.siteIds, ∃ l, c.nbs t i = .ok l ∧ ∀ j ∈ l, Key.int j ∈ s0.siteIds) (n : ℕ) :
    ∃ c' res, runSync controller c s0 n = .ok (c', res) ∧ ∀ k m : ℕ, k ≤ m → m ≤ n → ∃ a b, res.getStep k = .ok a ∧ res.getStep m = .ok b ∧
      ∀ i ∈ s0.siteIds, ∀ v, occ? a i = some v → v ≠ c.background → occ? b i = some v := by
  obtain ⟨c', res, h1, h2, h3, h4⟩ := C62_growth c s0 hs hg hne hocc hnb n
  refine ⟨c', res, h1, fun k m hkm => ?_⟩
  induction m, hkm using Nat.le_induction with
  | base =>
    intro hk
    have : ∃ a, res.getStep k = .ok a := by
      cases k with
      | zero => exact ⟨s0, h3⟩
      | succ k =>
        obtain ⟨a, b, -, hb, -⟩ := h4 k (by omega)
        exact ⟨b, by exact_mod_cast hb⟩
    obtain ⟨a, ha⟩ := this
    exact ⟨a, a, ha, ha, fun _ _ _ h _ => h⟩
  | succ m hkm ih =>
    intro hm
    obtain ⟨a, b, ha, hb, hab⟩ := ih (by omega)
    obtain ⟨b', e, hb', he, -, -, hst⟩ := h4 m (by omega)
    rw [hb] at hb'; injection hb' with hb'; subst hb'
    refine ⟨a, e, ha, by exact_mod_cast he, fun i hi v hv hne => ?_⟩
    obtain ⟨t, l, w, w', -, hw, hw', hG, -⟩ := hst i hi
    rw [hab i hi v hv hne] at hw
    injection hw with hw; subst hw
    rw [hw', hG.1 hne]

theorem tally_perm {s : SimState} {l m : List ℕ} (h : l.Perm m) (q : Val) : tally s l q = tally s m q := h.countP_eq _

theorem growthStep_perm {bg : Val} {s : SimState} {l m : List ℕ} {v v' : Val} (h : l.Perm m) (hG : GrowthStep bg s l v v') : GrowthStep bg s m v v' := by
  refine ⟨hG.1, fun hv hall => hG.2.1 hv fun j hj => hall j (h.mem_iff.1 hj), fun hv ⟨j, hj, hne⟩ => ?_⟩
  obtain ⟨h1, ⟨j', hj', h2⟩, h3⟩ := hG.2.2 hv ⟨j, h.mem_iff.2 hj, hne⟩
  refine ⟨h1, ⟨j', h.mem_iff.1 hj', h2⟩, fun q hq => ?_⟩
  rw [← tally_perm h, ← tally_perm h]; exact h3 q hq

/-- C62 for a controller constructed with a neighbourhood builder: whatever the order in which the graph lists neighbours, every site makes a
growth step with respect to its neighbours in the graph. -/
theorem C62_builder {S : Structure K d} (hS : S.Reachable) (bl : Builder K d) (g : Graph K) (hb : bl.get S none = .ok g) (bg : Val)
    (order : ℕ → List ℕ → List ℕ) (horder : ∀ t l, (order t l).Perm l) (s0 : SimState) (hs : s0.WF) (hg : s0.getGeneralState ≠ none)
    (hne : S.siteIds ≠ []) (hsites : SameSites S s0) (hocc : AllOccupied s0) (n : ℕ) :
    ∃ c c' res, Growth.init order S bg (some bl) = .ok c ∧ runSync controller c s0 n = .ok (c', res) ∧ res.len = n + 1 ∧ res.getStep 0 = .ok s0 ∧
      ∀ k : ℕ, k < n → ∃ a b, res.getStep k = .ok a ∧ res.getStep (k + 1) = .ok b ∧ SameSites S b ∧
        ∀ i ∈ S.siteIds, ∃ v v', occ? a (.int i) = some v ∧ occ? b (.int i) = some v' ∧ GrowthStep bg a (g.neighborsOf i) v v' := by
  let c : Ctl := ⟨bg, fun t i => (neighborsOfKey g i).map (order t), 0⟩
  have hnbs : ∀ (t : ℕ) (i : ℕ), c.nbs t (.int i) = .ok (order t (g.neighborsOf i)) := by
    intro t i
    simp [c, neighborsOfKey, Except.map]
  have hc : Growth.init order S bg (some bl) = .ok c := by
    unfold Growth.init
    rw [Option.getD_some, hb]; rfl
  obtain ⟨c', res, h1, h2, h3, h4⟩ := C62_growth c s0 hs hg (sameSites_ne hsites hne) hocc (by
    intro t k hk
    obtain ⟨i, hi, rfl⟩ := (hsites k).1 hk
    refine ⟨_, hnbs t i, fun j hj => ?_⟩
    have hj' := (horder t _).mem_iff.1 hj
    exact (hsites _).2 ⟨j, ((C55_known_and_other hS bl none g hb i).1 j hj').1, rfl⟩) n
  refine ⟨c, c', res, hc, h1, h2, h3, fun k hk => ?_⟩
  obtain ⟨a, b, ha, hb', hi1, hi2, hst⟩ := h4 k hk
  refine ⟨a, b, ha, hb', fun k => by rw [hi2]; exact hsites k, fun i hi => ?_⟩
  obtain ⟨t, l, v, v', hl, hv, hv', hG, -⟩ := hst (.int i) ((hsites _).2 ⟨i, hi, rfl⟩)
  rw [hnbs t i] at hl
  injection hl with hl; subst hl
  exact ⟨v, v', hv, hv', growthStep_perm (horder t _) hG⟩

/-! ### C63 -/

/-- A walk of `k + 1` king's moves is one move followed by `k`. -/
theorem circ_succ {n : ℤ} (hn : 0 < n) (a b k : ℤ) (hk : 0 ≤ k) (h : circ n (a - b) ≤ k + 1) : ∃ m, circ n (a - m) ≤ 1 ∧ circ n (m - b) ≤ k := by
  obtain ⟨q, hq⟩ := (circ_le_iff hn _ _).1 h
  rw [abs_le] at hq
  rcases lt_trichotomy (a - b + q * n) 0 with h1 | h1 | h1
  · refine ⟨a + 1, (circ_le_iff hn _ _).2 ⟨0, by simp⟩, (circ_le_iff hn _ _).2 ⟨q, ?_⟩⟩
    rw [abs_le]; constructor <;> linarith
  · refine ⟨a, (circ_le_iff hn _ _).2 ⟨0, by simp⟩, (circ_le_iff hn _ _).2 ⟨q, ?_⟩⟩
    rw [abs_le]; constructor <;> linarith
  · refine ⟨a - 1, (circ_le_iff hn _ _).2 ⟨0, by simp⟩, (circ_le_iff hn _ _).2 ⟨q, ?_⟩⟩
    rw [abs_le]; constructor <;> linarith

theorem circ_triangle {n : ℤ} (hn : 0 < n) (a m b r t : ℤ) (h1 : circ n (a - m) ≤ r) (h2 : circ n (m - b) ≤ t) : circ n (a - b) ≤ r + t := by
  obtain ⟨p, hp⟩ := (circ_le_iff hn _ _).1 h1
  obtain ⟨q, hq⟩ := (circ_le_iff hn _ _).1 h2
  refine (circ_le_iff hn _ _).2 ⟨p + q, ?_⟩
  have e : a - b + (p + q) * n = (a - m + p * n) + (m - b + q * n) := by ring
  rw [e]
  exact le_trans (abs_add_le _ _) (add_le_add hp hq)

theorem circ_emod {n : ℤ} (a m : ℤ) : circ n (a - m % n) = circ n (a - m) ∧ circ n (m % n - a) = circ n (m - a) := by
  unfold circ
  rw [Int.sub_emod a (m % n), Int.emod_emod, ← Int.sub_emod, Int.sub_emod (m % n) a, Int.emod_emod, ← Int.sub_emod]
  exact ⟨rfl, rfl⟩

theorem circ_self (n : ℤ) (hn : 0 < n) (a : ℤ) : circ n (a - a) ≤ 0 := by
  refine (circ_le_iff hn _ _).2 ⟨0, by simp⟩

theorem circ_zero {n : ℤ} (hn : 0 < n) {a b : ℤ} (ha : 0 ≤ a ∧ a < n) (hb : 0 ≤ b ∧ b < n) (h : circ n (a - b) ≤ 0) : a = b := by
  obtain ⟨q, hq⟩ := (circ_le_iff hn _ _).1 h
  have h1 : a - b + q * n = 0 := abs_eq_zero.1 (le_antisymm hq (abs_nonneg _))
  have hq0 : q = 0 := by
    by_contra hne
    rcases lt_or_gt_of_ne hne with hlt | hgt
    · have : q ≤ -1 := by omega
      nlinarith
    · have : 1 ≤ q := by omega
      nlinarith
  rw [hq0] at h1
  linarith

/-- C63: with the default neighbourhood on a square grid of any size, 2D or 3D, after `k` steps exactly the cells within torus Chebyshev distance
`k` of a seed (a cell that was occupied at the start) are occupied. -/
theorem C63_front {S : Structure K d} {N : Fin d → ℤ} (hS : SquareGrid d N S) (bg : Val) (order : ℕ → List ℕ → List ℕ)
    (horder : ∀ t l, (order t l).Perm l) (s0 : SimState) (hs : s0.WF) (hg : s0.getGeneralState ≠ none) (hsites : SameSites S s0)
    (hocc : AllOccupied s0) (n : ℕ) :
    ∃ c c' res, Growth.init order S bg none = .ok c ∧ runSync controller c s0 n = .ok (c', res) ∧ ∀ k : ℕ, k ≤ n → ∃ s, res.getStep k = .ok s ∧
      AllOccupied s ∧ SameSites S s ∧
      ∀ i x, SiteHas S i x → (occ? s (.int i) ≠ some bg ↔ ∃ j y, SiteHas S j y ∧ occ? s0 (.int j) ≠ some bg ∧ ChebyshevLE N x y k) := by
  have h := hS.isTorus
  obtain ⟨g, hget, hgn⟩ := C53_moore hS 1
  obtain ⟨c, c', res, hc, h1, h2, h3, h4⟩ := C62_builder h.reachable (moore 1) g hget bg order horder s0 hs hg h.ids_ne hsites hocc n
  refine ⟨c, c', res, hc, h1, fun k => ?_⟩
  induction k with
  | zero =>
    refine fun _ => ⟨s0, h3, hocc, hsites, fun i x hx => ⟨fun hne => ⟨i, x, hx, hne, fun j => ?_⟩, ?_⟩⟩
    · exact circ_self _ (h.pos j) _
    · rintro ⟨j, y, hy, hne, hd⟩
      have e : x = y := by
        funext q
        exact circ_zero (h.pos q) (h.inBox_of_has hx q) (h.inBox_of_has hy q) (by simpa using hd q)
      subst e
      rw [h.site_unique hx hy]; exact hne
  | succ k ih =>
    intro hk
    obtain ⟨s, hs1, hs2, hs3, hs4⟩ := ih (by omega)
    obtain ⟨a, b, ha, hb, hbs, hst⟩ := h4 k (by omega)
    rw [hs1] at ha; injection ha with ha; subst ha
    refine ⟨b, by exact_mod_cast hb, ?_, hbs, fun i x hx => ?_⟩
    · intro q hq
      obtain ⟨i, hi, rfl⟩ := (hbs q).1 hq
      obtain ⟨v, v', -, hv', -⟩ := hst i hi
      exact ⟨v', hv'⟩
    · have hi := h.mem_ids h.reachable hx
      obtain ⟨v, v', hv, hv', hG⟩ := hst i hi
      -- occupied next iff the site or a neighbour is occupied now
      have hnext : occ? b (.int i) ≠ some bg ↔ ∃ j y, SiteHas S j y ∧ ChebyshevLE N x y 1 ∧ occ? s (.int j) ≠ some bg := by
        rw [hv']
        by_cases hvb : v = bg
        · by_cases hall : ∀ j ∈ g.neighborsOf i, occ? s (.int j) = some bg
          · rw [hG.2.1 hvb hall]
            refine ⟨fun e => absurd rfl e, ?_⟩
            rintro ⟨j, y, hy, hd, hne⟩
            exfalso
            apply hne
            by_cases hji : j = i
            · subst hji; rw [hv, hvb]
            · exact hall j ((hgn i j x y hx hy).2 ⟨hji, hd⟩)
          · push Not at hall
            obtain ⟨j, hj, hne⟩ := hall
            have hjs := ((C55_known_and_other h.reachable _ none g hget i).1 j hj).1
            obtain ⟨y, -, hy⟩ := h.site j hjs
            refine ⟨fun _ => ⟨j, y, hy, ((hgn i j x y hx hy).1 hj).2, hne⟩, fun _ => ?_⟩
            have := (hG.2.2 hvb ⟨j, hj, hne⟩).1
            simpa using this
        · rw [hG.1 hvb]
          refine ⟨fun _ => ⟨i, x, hx, fun q => le_trans (circ_self _ (h.pos q) _) (by norm_num), by rw [hv]; simpa using hvb⟩, fun _ => by simpa using hvb⟩
      rw [hnext]
      constructor
      · rintro ⟨j, y, hy, hd, hne⟩
        obtain ⟨j', y', hy', hne', hd'⟩ := (hs4 j y hy).1 hne
        refine ⟨j', y', hy', hne', fun q => ?_⟩
        have := circ_triangle (h.pos q) _ _ _ _ _ (hd q) (hd' q)
        push_cast
        linarith
      · rintro ⟨j, y, hy, hne, hd⟩
        choose m hm1 hm2 using fun q => circ_succ (h.pos q) (x q) (y q) k (by omega) (by exact_mod_cast hd q)
        obtain ⟨j', -, hj'⟩ := h.ex (fun q => m q % N q) fun q => ⟨Int.emod_nonneg _ (h.pos q).ne', Int.emod_lt_of_pos _ (h.pos q)⟩
        refine ⟨j', _, hj', fun q => ?_, (hs4 j' _ hj').2 ⟨j, y, hy, hne, fun q => ?_⟩⟩
        · rw [(circ_emod _ _).1]; exact hm1 q
        · rw [(circ_emod _ _).2]; exact hm2 q

theorem circ_le_half {n : ℤ} (hn : 0 < n) (a : ℤ) {k : ℤ} (hk : n ≤ 2 * k + 1) : circ n a ≤ k := by
  have h1 := Int.emod_nonneg a hn.ne'
  have h2 := Int.emod_lt_of_pos a hn
  unfold circ
  omega

/-- C63: if there was a seed, every cell is occupied after `k` steps as soon as `2k + 1` is at least every side length; in particular after as many
steps as the grid is wide. -/
theorem C63_completion {S : Structure K d} {N : Fin d → ℤ} (hS : SquareGrid d N S) (bg : Val) (order : ℕ → List ℕ → List ℕ)
    (horder : ∀ t l, (order t l).Perm l) (s0 : SimState) (hs : s0.WF) (hg : s0.getGeneralState ≠ none) (hsites : SameSites S s0)
    (hocc : AllOccupied s0) (hseed : ∃ i ∈ S.siteIds, occ? s0 (.int i) ≠ some bg) (n : ℕ) :
    ∃ c c' res, Growth.init order S bg none = .ok c ∧ runSync controller c s0 n = .ok (c', res) ∧
      ∀ k : ℕ, k ≤ n → (∀ j, N j ≤ 2 * k + 1) → ∃ s, res.getStep k = .ok s ∧ ∀ i ∈ S.siteIds, ∃ v, occ? s (.int i) = some v ∧ v ≠ bg := by
  have h := hS.isTorus
  obtain ⟨c, c', res, h1, h2, h3⟩ := C63_front hS bg order horder s0 hs hg hsites hocc n
  refine ⟨c, c', res, h1, h2, fun k hk hN => ?_⟩
  obtain ⟨s, hs1, hs2, hs3, hs4⟩ := h3 k hk
  refine ⟨s, hs1, fun i hi => ?_⟩
  obtain ⟨v, hv⟩ := hs2 _ ((hs3 _).2 ⟨i, hi, rfl⟩)
  refine ⟨v, hv, fun e => ?_⟩
  obtain ⟨x, -, hx⟩ := h.site i hi
  obtain ⟨j, hj, hne⟩ := hseed
  obtain ⟨y, -, hy⟩ := h.site j hj
  exact (hs4 i x hx).2 ⟨j, y, hy, hne, fun q => circ_le_half (h.pos q) _ (hN q)⟩ (by rw [hv, e])

/-- C62 for a controller constructed with a stochastic neighbourhood of at least one member: every site makes a growth step with respect to its
neighbours in one of the members' graphs. -/
theorem C62_stochastic {S : Structure K d} (hS : S.Reachable) (bs : List (Builder K d)) (hbs : bs ≠ []) (gs : List (Graph K))
    (hget : stochasticGet bs S = .ok gs) (bg : Val) (order : ℕ → List ℕ → List ℕ) (horder : ∀ t l, (order t l).Perm l) (draw : ℕ → ℕ)
    (s0 : SimState) (hs : s0.WF) (hg : s0.getGeneralState ≠ none) (hne : S.siteIds ≠ []) (hsites : SameSites S s0) (hocc : AllOccupied s0) (n : ℕ) :
    ∃ c c' res, Growth.initStochastic order draw S bg bs = .ok c ∧ runSync controller c s0 n = .ok (c', res) ∧ res.len = n + 1 ∧
      res.getStep 0 = .ok s0 ∧ ∀ k : ℕ, k < n → ∃ a b, res.getStep k = .ok a ∧ res.getStep (k + 1) = .ok b ∧
        ∀ i ∈ S.siteIds, ∃ bl ∈ bs, ∃ g v v', bl.get S none = .ok g ∧ occ? a (.int i) = some v ∧ occ? b (.int i) = some v' ∧
          GrowthStep bg a (g.neighborsOf i) v v' := by
  let c : Ctl := ⟨bg, fun t i => match i with
    | .int n => if 0 ≤ n then (multiNeighborsOf (stochasticNbhood gs (draw t)) n.toNat).map (order t) else .error .overflowError
    | .str _ => .error .typeError, 0⟩
  have hnbs : ∀ (t : ℕ) (i : ℕ), ∃ bl ∈ bs, ∃ g, bl.get S none = .ok g ∧ c.nbs t (.int i) = .ok (order t (g.neighborsOf i)) := by
    intro t i
    obtain ⟨bl, hbl, g, h1, h2, -⟩ := (C59_stochastic bs S gs hget i).1 hbs (draw t)
    refine ⟨bl, hbl, g, h1, ?_⟩
    show (if (0:ℤ) ≤ (i:ℤ) then (multiNeighborsOf (stochasticNbhood gs (draw t)) (i:ℤ).toNat).map (order t) else .error .overflowError) = _
    rw [if_pos (by positivity), Int.toNat_natCast, h2]
    rfl
  have hids : s0.siteIds ≠ [] := sameSites_ne hsites hne
  obtain ⟨c', res, h1, h2, h3, h4⟩ := C62_growth c s0 hs hg hids hocc (by
    intro t k hk
    obtain ⟨i, hi, rfl⟩ := (hsites k).1 hk
    obtain ⟨bl, -, g, hb, hb'⟩ := hnbs t i
    refine ⟨_, hb', fun j hj => ?_⟩
    have hj' := (horder t _).mem_iff.1 hj
    exact (hsites _).2 ⟨j, ((C55_known_and_other hS bl none g hb i).1 j hj').1, rfl⟩) n
  refine ⟨c, c', res, ?_, h1, h2, h3, fun k hk => ?_⟩
  · unfold Growth.initStochastic
    rw [hget]; rfl
  · obtain ⟨a, b, ha, hb, -, -, hi⟩ := h4 k hk
    refine ⟨a, b, ha, hb, fun i hi' => ?_⟩
    obtain ⟨t, l, v, v', hl, hv, hv', hG, -⟩ := hi (.int i) ((hsites _).2 ⟨i, hi', rfl⟩)
    obtain ⟨bl, hbl, g, hb1, hb2⟩ := hnbs t i
    rw [hb2] at hl
    injection hl with hl; subst hl
    exact ⟨bl, hbl, g, v, v', hb1, hv, hv', growthStep_perm (horder t _) hG⟩

/-- A state that shows a pattern of live and dead cells has an occupancy everywhere. -/
theorem showsLife_allOccupied {S : Structure K 2} {N : Fin 2 → ℤ} (h : IsTorus S N) {s : SimState} (hs : SameSites S s) {L : Set (Fin 2 → ℤ)}
    (hL : ShowsLife S s L) : AllOccupied s := by
  classical
  intro k hk
  obtain ⟨i, hi, rfl⟩ := (hs k).1 hk
  obtain ⟨c, -, hc⟩ := h.site i hi
  obtain ⟨p, hp, h1, h2⟩ := hL i c hc
  by_cases hcL : c ∈ L
  · exact ⟨_, occ?_eq.2 ⟨p, hp, h1 hcL⟩⟩
  · exact ⟨_, occ?_eq.2 ⟨p, hp, h2 hcL⟩⟩

/-- Growth on a 5 x 4 grid from the three cells of `blinker`: the hypotheses of the theorems above are met; after one step (4, 2) is occupied and
(0, 3) is not, and after two steps everything is. -/
example : ∃ (S : Structure ℚ 2) (s0 : SimState) (c c' : Ctl) (res : SimResult), SquareGrid 2 ![5, 4] S ∧ ShowsLife S s0 blinker ∧
    Growth.init (fun _ l => l) S (.str "dead") none = .ok c ∧ runSync controller c s0 2 = .ok (c', res) ∧
    (∃ s1, res.getStep 1 = .ok s1 ∧ (∀ i, SiteHas S i ![4, 2] → occ? s1 (.int i) ≠ some (.str "dead")) ∧
      ∀ i, SiteHas S i ![0, 3] → occ? s1 (.int i) = some (.str "dead")) := by
  obtain ⟨-, S, hS, -⟩ := C52_square2 (K := ℚ) 1 (by norm_num) 4 5 (by norm_num) (by norm_num)
  have hg : SquareGrid 2 ![5, 4] S := .two _ S 5 4 (by norm_num) (by norm_num) (.inl rfl) hS
  obtain ⟨s0, h1, h2, h3, h4⟩ := life_state_exists hg.isTorus blinker
  obtain ⟨c, c', res, h5, h6, h7⟩ := C63_front hg (.str "dead") (fun _ l => l) (fun _ _ => .refl _) s0 h1 h2 h3
    (showsLife_allOccupied hg.isTorus h3 h4) 2
  obtain ⟨s1, h8, -, -, h9⟩ := h7 1 (by norm_num)
  have hb : ∀ j y, SiteHas S j y → (occ? s0 (.int j) ≠ some (.str "dead") ↔ y ∈ blinker) := by
    intro j y hy
    obtain ⟨p, hp, ha, hd⟩ := h4 j y hy
    by_cases hyb : y ∈ blinker
    · rw [occ?_eq.2 ⟨p, hp, ha hyb⟩]; simp [hyb]
    · rw [occ?_eq.2 ⟨p, hp, hd hyb⟩]; simp [hyb]
  refine ⟨S, s0, c, c', res, hg, h4, h5, h6, s1, h8, fun i hi => (h9 i _ hi).2 ?_, fun i hi => ?_⟩
  · obtain ⟨j, -, hj⟩ := hg.isTorus.ex ![3, 1] (by intro q; fin_cases q <;> simp)
    exact ⟨j, _, hj, (hb j _ hj).2 (.inr (.inr rfl)), by intro q; fin_cases q <;> simp [circ]⟩
  · by_contra hne
    obtain ⟨j, y, hy, hj, hc⟩ := (h9 i _ hi).1 hne
    have h1 := hc 1
    rcases (hb j y hy).1 hj with rfl | rfl | rfl <;> · revert h1; simp [circ]

end Pyl
