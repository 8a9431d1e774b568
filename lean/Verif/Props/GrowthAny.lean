import Verif.Spec.GrowthAny
import Verif.Lemmas.Agree
import Verif.Props.Growth
import Verif.Props.Parallel
/-
C139: growth with phases of any kind.
-/
set_option autoImplicit false
set_option linter.unusedSectionVars false

namespace Pyl
open SimState Spec Growth

mutual
theorem pyEq_hashable : ∀ {a b : Val}, a.hashable = true → Val.PyEq a b → a = b
  | .pyNone, b, _, h => by cases h; rfl
  | .num _, b, _, h => by cases h; rfl
  | .str _, b, _, h => by cases h; rfl
  | .list _, b, hh, _ => by simp [Val.hashable] at hh
  | .dict _, b, hh, _ => by simp [Val.hashable] at hh
  | .tup l, b, hh, h => by
    have hl : Val.hashableAll l = true := by simpa [Val.hashable] using hh
    cases h with
    | refl => rfl
    | @tup _ m hlen hel => rw [pyEq_hashableAll hl hlen hel]
theorem pyEq_hashableAll : ∀ {l m : List Val}, Val.hashableAll l = true → l.length = m.length →
    (∀ (i : Nat) a b, l[i]? = some a → m[i]? = some b → Val.PyEq a b) → l = m
  | [], m, _, hlen, _ => by cases m with
    | nil => rfl
    | cons _ _ => cases hlen
  | a :: l, m, hh, hlen, hel => by
    cases m with
    | nil => cases hlen
    | cons b m =>
      have h2 : a.hashable = true ∧ Val.hashableAll l = true := by simpa [Val.hashableAll] using hh
      rw [pyEq_hashable h2.1 (hel 0 a b rfl rfl), pyEq_hashableAll h2.2 (by simpa using hlen) fun i x y hx hy => hel (i + 1) x y (by simpa using hx) (by simpa using hy)]
end

theorem pyEq_iff_hashable {a b : Val} (h : a.hashable = true) : Val.PyEq a b ↔ a = b := ⟨pyEq_hashable h, fun e => e ▸ .refl _⟩

theorem occupancy_either (s : SimState) (i : Key) : (∃ e, occupancy s i = .error e ∧ occ? s i = none) ∨ ∃ v, occupancy s i = .ok v ∧ occ? s i = some v := by
  unfold occupancy occ?
  cases s.getSiteState i with
  | none => exact .inl ⟨_, rfl, rfl⟩
  | some p =>
    simp only [Option.bind_some]
    cases Dict.get? p DISCRETE_OCCUPANCY with
    | none => exact .inl ⟨_, rfl, rfl⟩
    | some v => exact .inr ⟨v, rfl, rfl⟩

theorem countAny_hashable {bg v : Val} (h : v.hashable = true) (counts : Dict Val ℕ) : countAny bg counts v = .ok (count bg counts v) := by
  unfold countAny count
  simp only [pyEq_iff_hashable h, h, if_true]
  by_cases e : v = bg
  · rw [if_neg (not_not.2 e), if_neg (not_not.2 e)]
  · rw [if_pos e, if_pos e]
    cases Dict.get? counts v <;> rfl

/-- C139, one call: on a state whose phases can be hashed the rule is the one of Verif/Model/Growth.lean, whatever the background. -/
theorem updateAny_hashable {s : SimState} (hs : Hashable s) (c : Ctl) (i : Key) : updateAny c i s = update c i s := by
  unfold updateAny update
  rcases occupancy_either s i with ⟨e, h1, -⟩ | ⟨v, h1, h2⟩
  · rw [h1]; rfl
  · rw [h1, ok_bind, ok_bind]
    simp only [pyEq_iff_hashable (hs i v h2)]
    split_ifs with hb
    · have e : (fun (counts : Dict Val ℕ) (nb : ℕ) => (do
          let phase ← occupancy s (.int nb)
          countAny c.background counts phase : Py (Dict Val ℕ))) = fun (counts : Dict Val ℕ) (nb : ℕ) => (do
          let phase ← occupancy s (.int nb)
          pure (count c.background counts phase) : Py (Dict Val ℕ)) := by
        funext counts nb
        rcases occupancy_either s (.int nb) with ⟨e, h1, -⟩ | ⟨w, h1, h3⟩
        · rw [h1]; rfl
        · rw [h1, ok_bind, ok_bind, countAny_hashable (hs _ w h3)]; rfl
      simp only [e]
    · rfl

/-- What the rule answers on such a state is nothing or a phase that can be hashed. -/
theorem update_hashable {s : SimState} (hs : Hashable s) {c c' : Ctl} {i : Key} {r : Resp} (h : update c i s = .ok (c', r)) :
    r = .dict [] ∨ ∃ v, v.hashable = true ∧ r = .dict [(DISCRETE_OCCUPANCY, v)] := by
  unfold update at h
  obtain ⟨cur, -, h⟩ := bind_ok h
  split_ifs at h with hb
  · obtain ⟨nbs, -, h⟩ := bind_ok h
    obtain ⟨counts, hc, h⟩ := bind_ok h
    have key : ∀ (l : List ℕ) (acc counts : Dict Val ℕ), (∀ pc ∈ acc, pc.1.hashable = true) →
        l.foldlM (fun (counts : Dict Val ℕ) (nb : ℕ) => do
          let phase ← occupancy s (.int nb)
          pure (count c.background counts phase)) acc = (.ok counts : Py (Dict Val ℕ)) → ∀ pc ∈ counts, pc.1.hashable = true := by
      intro l
      induction l with
      | nil => intro acc counts ha hx; injection hx with hx; rw [← hx]; exact ha
      | cons j l ih =>
        intro acc counts ha hx
        rw [List.foldlM_cons] at hx
        obtain ⟨acc', h1, hx⟩ := bind_ok hx
        obtain ⟨w, h2, h1⟩ := bind_ok h1
        refine ih acc' counts ?_ hx
        injection h1 with h1
        have hw : w.hashable = true := by
          rcases occupancy_either s (.int j) with ⟨e, h3, -⟩ | ⟨w', h3, h4⟩
          · rw [h3] at h2; cases h2
          · rw [h3] at h2; injection h2 with h2; rw [← h2]; exact hs _ _ h4
        rw [← h1]
        unfold count
        split_ifs
        · cases Dict.get? acc w with
          | none =>
            intro pc hpc
            rcases Dict.mem_set hpc with h5 | ⟨-, h5⟩
            · exact ha pc h5
            · rw [h5]; exact hw
          | some n =>
            intro pc hpc
            rcases Dict.mem_set hpc with h5 | ⟨-, h5⟩
            · exact ha pc h5
            · rw [h5]; exact hw
        · exact ha
    have hk := key nbs [] counts (by simp) hc
    split_ifs at h with hl
    · injection h with h; injection h with _ h
      refine .inr ⟨(pick counts).1, ?_, h.symm⟩
      rcases (pick_max counts (.pyNone, 0)).1 with h1 | h1
      · change pick counts = _ at h1
        rw [h1]; rfl
      · exact hk _ h1
    · injection h with h; injection h with _ h
      exact .inl h.symm
  · injection h with h; injection h with _ h
    exact .inl h.symm

/-- Merged updates that store phases that can be hashed. -/
def HashableUpd : Option Upd → Prop
  | none => True
  | some u => ∀ kv ∈ u.sites, ∃ d, kv.2 = .dict d ∧ ∀ w, (DISCRETE_OCCUPANCY, w) ∈ d → w.hashable = true

theorem hashableUpd_add {cur : Option Upd} (h : HashableUpd cur) {i : Key} {d : Props} (hd : ∀ w, (DISCRETE_OCCUPANCY, w) ∈ d → w.hashable = true) :
    HashableUpd (some { cur.getD Upd.empty with sites := Dict.update (cur.getD Upd.empty).sites [(i, .dict d)] }) := by
  intro kv hkv
  rcases Dict.mem_update hkv with h1 | h1
  · cases cur with
    | none => cases h1
    | some u => exact h kv h1
  · rw [List.mem_singleton] at h1
    rw [h1]
    exact ⟨d, rfl, hd⟩

theorem hashable_setSiteState {s : SimState} (hs : Hashable s) (i : Key) {d : Props} (hd : ∀ w, (DISCRETE_OCCUPANCY, w) ∈ d → w.hashable = true) :
    Hashable (s.setSiteState i d) := by
  intro j v h
  rw [occ?_eq] at h
  obtain ⟨p, h1, h2⟩ := h
  unfold getSiteState at h1
  rw [get?_setSiteState] at h1
  split_ifs at h1 with e
  · injection h1 with h1
    rw [← h1, Dict.get?_update'] at h2
    cases h3 : Dict.get? d.reverse DISCRETE_OCCUPANCY with
    | some w =>
      rw [h3] at h2
      injection h2 with h2
      rw [← h2]
      exact hd w (List.mem_reverse.1 (Dict.mem_of_get? h3))
    | none =>
      rw [h3] at h2
      change Dict.get? (oldOf s i) DISCRETE_OCCUPANCY = some v at h2
      unfold oldOf at h2
      cases h4 : Dict.get? s.sites i with
      | none =>
        rw [h4] at h2
        simp [Dict.get?, SITE_ID, DISCRETE_OCCUPANCY] at h2
      | some o =>
        rw [h4] at h2
        exact hs i v (occ?_eq.2 ⟨o, h4, h2⟩)
  · exact hs j v (occ?_eq.2 ⟨p, h1, h2⟩)

theorem hashable_setSitesP (d : Props) : ∀ {s : SimState}, Hashable s →
    (∀ kv ∈ d, ∃ e, kv.2 = .dict e ∧ ∀ w, (DISCRETE_OCCUPANCY, w) ∈ e → w.hashable = true) → Hashable (setSitesP s d) := by
  induction d with
  | nil => intro s hs _; exact hs
  | cons kv d ih =>
    intro s hs hd
    rw [setSitesP_cons]
    obtain ⟨e, h1, h2⟩ := hd kv List.mem_cons_self
    refine ih ?_ fun kv' h' => hd kv' (List.mem_cons_of_mem _ h')
    rw [h1]
    exact hashable_setSiteState hs _ h2

theorem hashableUpd_merge {all r b : Option Upd} (ha : HashableUpd all) (hr : HashableUpd r) (h : mergeUpdates (all.map Upd.toProps) r none = .ok b) : HashableUpd b := by
  cases all with
  | none =>
    injection h with h
    rw [← h]; exact hr
  | some u =>
    have e : mergeUpdates ((some u).map Upd.toProps) r none = .ok (some ⟨Dict.update (r.getD Upd.empty).sites u.sites, Dict.update (r.getD Upd.empty).general u.general⟩) := by
      simp [mergeUpdates, Upd.toProps, Dict.has, dictPart, Dict.get?, SITES, GENERAL]
    rw [e] at h
    injection h with h
    rw [← h]
    intro kv hkv
    rcases Dict.mem_update hkv with h1 | h1
    · cases r with
      | none => cases h1
      | some r => exact hr kv h1
    · exact ha kv h1

theorem merge_answer (r : Resp) (h : r = .dict [] ∨ ∃ v, r = .dict [(DISCRETE_OCCUPANCY, v)]) (cur : Option Upd) (i : Key) :
    ∃ d, r = .dict d ∧ mergeUpdates (some d) cur (some i) = .ok (some { cur.getD Upd.empty with sites := Dict.update (cur.getD Upd.empty).sites [(i, .dict d)] }) := by
  rcases h with rfl | ⟨v, rfl⟩
  · exact ⟨_, rfl, rfl⟩
  · exact ⟨_, rfl, rfl⟩

/-- C139: on states whose phases can be hashed the two rules have the same runs. -/
theorem growth_agree : AgreeOn Hashable HashableUpd controller controllerAny where
  update st i s hs := updateAny_hashable hs st i
  randomSite _ _ _ := rfl
  preRun _ _ _ := rfl
  start st s st' s' hs h := by injection h with h; injection h with _ h; rw [← h]; exact hs
  none := trivial
  answer st i s st' r cur b hs hu hc hm := by
    have hr := update_hashable hs hu
    obtain ⟨d, rfl, hd⟩ := merge_answer r (hr.imp id fun ⟨v, _, h⟩ => ⟨v, h⟩) cur i
    change mergeUpdates (some d) cur (some i) = .ok b at hm
    rw [hd] at hm
    injection hm with hm
    rw [← hm]
    refine hashableUpd_add hc ?_
    rcases hr with h | ⟨v, hv, h⟩ <;> injection h with h <;> rw [h]
    · simp
    · intro w hw
      rw [List.mem_singleton] at hw
      injection hw with _ hw
      rw [hw]; exact hv
  single st i s st' r b hs hu hm := by
    have hr := update_hashable hs hu
    obtain ⟨d, rfl, hd⟩ := merge_answer r (hr.imp id fun ⟨v, _, h⟩ => ⟨v, h⟩) .none i
    change mergeUpdates (some d) .none (some i) = .ok b at hm
    rw [hd] at hm
    injection hm with hm
    rw [← hm]
    refine hashableUpd_add (cur := .none) trivial ?_
    rcases hr with h | ⟨v, hv, h⟩ <;> injection h with h <;> rw [h]
    · simp
    · intro w hw
      rw [List.mem_singleton] at hw
      injection hw with _ hw
      rw [hw]; exact hv
  merge all r b ha hr h := hashableUpd_merge ha hr h
  apply s u s' hs hu h := by
    cases u with
    | none => cases h
    | some u =>
      obtain ⟨g0, -, -, rfl⟩ := batchUpdate_toProps_ok h
      intro i v hv
      exact hashable_setSitesP u.sites hs hu i v hv

/-- C139: if every phase of the start state can be hashed, growth runs as described by the other properties, with every runner and whatever the background is. -/
theorem C139_hashable (c : Ctl) (s0 : SimState) (hs : Hashable s0) (n : ℕ) :
    runSync controllerAny c s0 n = runSync controller c s0 n ∧
    (∀ (fork : ℕ → Ctl → Ctl) (w : ℕ) (sched : ℕ → StepSched), runParallel controllerAny fork c s0 w n sched = runParallel controller fork c s0 w n sched) ∧
    ∀ draw : ℕ → ℕ, runAsync (controllerAny.inherit draw) (c, 0) s0 n = runAsync (controller.inherit draw) (c, 0) s0 n := by
  refine ⟨runSync_agree growth_agree c hs n, fun fork w sched => runParallel_agree growth_agree fork c hs w n sched, fun draw => ?_⟩
  have h : AgreeOn Hashable HashableUpd (controller.inherit draw) (controllerAny.inherit draw) := {
    update := fun st i s hs => by
      show (controllerAny.update st.1 i s >>= _) = (controller.update st.1 i s >>= _)
      rw [growth_agree.update st.1 i s hs]
    randomSite := fun _ _ _ => rfl
    preRun := fun _ _ _ => rfl
    start := fun st s st' s' hs h => by
      injection h with h; injection h with _ h; rw [← h]; exact hs
    none := trivial
    answer := fun st i s st' r cur b hs hu hc hm => by
      obtain ⟨x, hx, hu⟩ := bind_ok hu
      injection hu with hu; injection hu with _ hu
      exact growth_agree.answer st.1 i s x.1 r cur b hs (by rw [hx, ← hu]) hc hm
    single := fun st i s st' r b hs hu hm => by
      obtain ⟨x, hx, hu⟩ := bind_ok hu
      injection hu with hu; injection hu with _ hu
      exact growth_agree.single st.1 i s x.1 r b hs (by rw [hx, ← hu]) hm
    merge := growth_agree.merge
    apply := growth_agree.apply }
  exact runAsync_agree h (c, 0) hs n

/-! ### phases that cannot be hashed -/

theorem countAny_other {bg v : Val} (h : ¬ (¬ Val.PyEq v bg ∧ v.hashable = false)) (counts : Dict Val ℕ) : ∃ counts', countAny bg counts v = .ok counts' := by
  unfold countAny
  split_ifs with e hh
  · exact ⟨_, rfl⟩
  · cases Dict.get? counts v <;> exact ⟨_, rfl⟩
  · exact absurd ⟨e, by simpa using hh⟩ h

theorem countAny_clash {bg v : Val} (h : ¬ Val.PyEq v bg) (hv : v.hashable = false) (counts : Dict Val ℕ) : countAny bg counts v = .error .typeError := by
  unfold countAny
  rw [if_pos h, if_neg (by rw [hv]; simp)]

/-- C139, one call: the rule raises TypeError exactly when a background site lists a neighbour whose phase is neither the background nor hashable. -/
theorem C139_call {c : Ctl} {s : SimState} {i : Key} {v : Val} (hv : occ? s i = some v) {l : List ℕ} (hl : c.nbs c.calls i = .ok l)
    (hocc : ∀ j ∈ l, ∃ w, occ? s (.int j) = some w) :
    (Val.PyEq v c.background ∧ Clash c.background s l → updateAny c i s = .error .typeError) ∧
    (¬ (Val.PyEq v c.background ∧ Clash c.background s l) → ∃ c' r, updateAny c i s = .ok (c', r) ∧ c'.background = c.background ∧ c'.nbs = c.nbs ∧
      (r = .dict [] ∨ ∃ v, r = .dict [(DISCRETE_OCCUPANCY, v)])) := by
  have key : ∀ (l : List ℕ) (acc : Dict Val ℕ), (∀ j ∈ l, ∃ w, occ? s (.int j) = some w) →
      (Clash c.background s l → l.foldlM (fun (counts : Dict Val ℕ) (nb : ℕ) => do
        let phase ← occupancy s (.int nb)
        countAny c.background counts phase) acc = (.error .typeError : Py (Dict Val ℕ))) ∧
      (¬ Clash c.background s l → ∃ counts, l.foldlM (fun (counts : Dict Val ℕ) (nb : ℕ) => do
        let phase ← occupancy s (.int nb)
        countAny c.background counts phase) acc = (.ok counts : Py (Dict Val ℕ))) := by
    intro l
    induction l with
    | nil => intro acc _; exact ⟨fun ⟨j, hj, _⟩ => (by cases hj), fun _ => ⟨acc, rfl⟩⟩
    | cons j l ih =>
      intro acc ho
      obtain ⟨w, hw⟩ := ho j List.mem_cons_self
      rw [List.foldlM_cons, occupancy_eq hw, ok_bind]
      by_cases hc : ¬ Val.PyEq w c.background ∧ w.hashable = false
      · rw [countAny_clash hc.1 hc.2]
        exact ⟨fun _ => rfl, fun h => absurd ⟨j, List.mem_cons_self, w, hw, hc⟩ h⟩
      · obtain ⟨acc', h1⟩ := countAny_other hc acc
        rw [h1, ok_bind]
        have h2 := ih acc' fun j' hj' => ho j' (List.mem_cons_of_mem _ hj')
        have h3 : Clash c.background s (j :: l) ↔ Clash c.background s l := by
          constructor
          · rintro ⟨j', hj', w', hw', hc'⟩
            rcases List.mem_cons.1 hj' with rfl | hj'
            · rw [hw] at hw'; injection hw' with hw'; subst hw'; exact absurd hc' hc
            · exact ⟨j', hj', w', hw', hc'⟩
          · rintro ⟨j', hj', h⟩
            exact ⟨j', List.mem_cons_of_mem _ hj', h⟩
        rw [h3]
        exact h2
  have hk := key l [] hocc
  unfold updateAny
  rw [occupancy_eq hv, ok_bind]
  by_cases hb : Val.PyEq v c.background
  · rw [if_pos hb, hl, ok_bind]
    refine ⟨fun h => by rw [hk.1 h.2]; rfl, fun h => ?_⟩
    obtain ⟨counts, h1⟩ := hk.2 fun h' => h ⟨hb, h'⟩
    rw [h1, ok_bind]
    split_ifs
    · exact ⟨_, _, rfl, rfl, rfl, .inr ⟨_, rfl⟩⟩
    · exact ⟨_, _, rfl, rfl, rfl, .inl rfl⟩
  · rw [if_neg hb]
    exact ⟨fun h => absurd h.1 hb, fun _ => ⟨_, _, rfl, rfl, rfl, .inl rfl⟩⟩

/-- Whatever number of calls was made, a site with a background phase lists these neighbours (in some order), all of which have a phase. -/
def Lists (c : Ctl) (s : SimState) (nb : Key → List ℕ) : Prop :=
  ∀ t, ∀ i ∈ s.siteIds, ∃ l, c.nbs t i = .ok l ∧ l.Perm (nb i) ∧ ∀ j ∈ l, ∃ w, occ? s (.int j) = some w

theorem clash_perm {bg : Val} {s : SimState} {l m : List ℕ} (h : l.Perm m) : Clash bg s l ↔ Clash bg s m := by
  constructor
  · rintro ⟨j, hj, h'⟩; exact ⟨j, h.mem_iff.1 hj, h'⟩
  · rintro ⟨j, hj, h'⟩; exact ⟨j, h.mem_iff.2 hj, h'⟩

theorem stepBatch_any {c : Ctl} {s : SimState} {nb : Key → List ℕ} (hocc : AllOccupied s) (hn : Lists c s nb) (ids : List Key) (hids : ∀ i ∈ ids, i ∈ s.siteIds) :
    ∀ acc : Ctl × Option Upd, acc.1.background = c.background → acc.1.nbs = c.nbs →
    ((∃ i ∈ ids, ∃ v, occ? s i = some v ∧ Val.PyEq v c.background ∧ Clash c.background s (nb i)) →
      ids.foldlM (fun (acc : Ctl × Option Upd) sid => do
        let (st', r) ← controllerAny.update acc.1 sid s
        let b ← mergeResp r acc.2 sid
        pure (st', b)) acc = (.error .typeError : Py (Ctl × Option Upd))) ∧
    (¬ (∃ i ∈ ids, ∃ v, occ? s i = some v ∧ Val.PyEq v c.background ∧ Clash c.background s (nb i)) →
      ∃ x, ids.foldlM (fun (acc : Ctl × Option Upd) sid => do
        let (st', r) ← controllerAny.update acc.1 sid s
        let b ← mergeResp r acc.2 sid
        pure (st', b)) acc = (.ok x : Py (Ctl × Option Upd)) ∧ x.1.background = c.background ∧ x.1.nbs = c.nbs) := by
  induction ids with
  | nil => intro acc h1 h2; exact ⟨fun ⟨i, hi, _⟩ => (by cases hi), fun _ => ⟨acc, rfl, h1, h2⟩⟩
  | cons i ids ih =>
    intro acc h1 h2
    obtain ⟨v, hv⟩ := hocc i (hids i List.mem_cons_self)
    obtain ⟨l, hl, hp, ho⟩ := hn acc.1.calls i (hids i List.mem_cons_self)
    obtain ⟨h3, h4⟩ := C139_call (c := acc.1) hv (by rw [h2]; exact hl) ho
    rw [h1, clash_perm hp] at h3 h4
    rw [List.foldlM_cons]
    by_cases hc : Val.PyEq v c.background ∧ Clash c.background s (nb i)
    · have e : controllerAny.update acc.1 i s = .error .typeError := h3 hc
      rw [e]
      exact ⟨fun _ => rfl, fun h => absurd ⟨i, List.mem_cons_self, v, hv, hc⟩ h⟩
    · obtain ⟨c', r, h5, h6, h7, h8⟩ := h4 hc
      have e : controllerAny.update acc.1 i s = .ok (c', r) := h5
      obtain ⟨d, rfl, hd⟩ := merge_answer r h8 acc.2 i
      have e2 : mergeResp (.dict d) acc.2 i = .ok (some { acc.2.getD Upd.empty with sites := Dict.update (acc.2.getD Upd.empty).sites [(i, .dict d)] }) := hd
      rw [e]
      simp only [ok_bind, e2, pure, Except.pure]
      have h9 := ih (fun k hk => hids k (List.mem_cons_of_mem _ hk)) (c', some { acc.2.getD Upd.empty with sites := Dict.update (acc.2.getD Upd.empty).sites [(i, .dict d)] }) h6 (by rw [h7, h2])
      have h10 : (∃ k ∈ i :: ids, ∃ v, occ? s k = some v ∧ Val.PyEq v c.background ∧ Clash c.background s (nb k)) ↔
          ∃ k ∈ ids, ∃ v, occ? s k = some v ∧ Val.PyEq v c.background ∧ Clash c.background s (nb k) := by
        constructor
        · rintro ⟨k, hk, w, hw, h'⟩
          rcases List.mem_cons.1 hk with rfl | hk
          · rw [hv] at hw; injection hw with hw; subst hw; exact absurd h' hc
          · exact ⟨k, hk, w, hw, h'⟩
        · rintro ⟨k, hk, h'⟩
          exact ⟨k, List.mem_cons_of_mem _ hk, h'⟩
      rw [h10]
      exact h9

/-- C139, serial runs: the first step raises TypeError exactly when some background site has a neighbour whose phase is neither the background nor hashable. -/
theorem C139_unhashable (c : Ctl) (s0 : SimState) (nb : Key → List ℕ) (hocc : AllOccupied s0) (hn : Lists c s0 nb) :
    ((∃ i ∈ s0.siteIds, ∃ v, occ? s0 i = some v ∧ Val.PyEq v c.background ∧ Clash c.background s0 (nb i)) →
      takeStep controllerAny c s0 = .error .typeError ∧ ∀ n, 0 < n → runSync controllerAny c s0 n = .error .typeError) ∧
    (¬ (∃ i ∈ s0.siteIds, ∃ v, occ? s0 i = some v ∧ Val.PyEq v c.background ∧ Clash c.background s0 (nb i)) →
      ∃ x, takeStep controllerAny c s0 = .ok x) := by
  obtain ⟨h1, h2⟩ := stepBatch_any hocc hn s0.siteIds (fun _ h => h) (c, none) rfl rfl
  constructor
  · intro h
    have h3 : takeStep controllerAny c s0 = .error .typeError := h1 h
    refine ⟨h3, fun n hn0 => ?_⟩
    obtain ⟨m, rfl⟩ : ∃ m, n = m + 1 := ⟨n - 1, by omega⟩
    unfold runSync
    show (syncLoop controllerAny (m + 1) c s0 _ >>= _) = _
    unfold syncLoop
    rw [h3]
    rfl
  · intro h
    obtain ⟨x, hx, -⟩ := h2 h
    exact ⟨x, hx⟩

/-- The answer for a background site without such a neighbour: nothing, or a phase that can be hashed and is not the background. -/
theorem updateAny_answer {s : SimState} (hsw : s.WF) {c c' : Ctl} {i : Key} {r : Resp} (h : updateAny c i s = .ok (c', r)) :
    r = .dict [] ∨ ∃ v, r = .dict [(DISCRETE_OCCUPANCY, v)] ∧ v.WF ∧ v.hashable = true ∧ ¬ Val.PyEq v c.background ∧
      ∃ u, occ? s i = some u ∧ Val.PyEq u c.background := by
  unfold updateAny at h
  rcases occupancy_either s i with ⟨e, h1, -⟩ | ⟨u, h1, hu⟩
  · rw [h1] at h; cases h
  rw [h1, ok_bind] at h
  split_ifs at h with hb
  · obtain ⟨nbs, -, h⟩ := bind_ok h
    obtain ⟨counts, hc, h⟩ := bind_ok h
    have key : ∀ (l : List ℕ) (acc counts : Dict Val ℕ), (∀ pc ∈ acc, pc.1.WF ∧ pc.1.hashable = true ∧ ¬ Val.PyEq pc.1 c.background ∧ 0 < pc.2) →
        l.foldlM (fun (counts : Dict Val ℕ) (nb : ℕ) => do
          let phase ← occupancy s (.int nb)
          countAny c.background counts phase) acc = (.ok counts : Py (Dict Val ℕ)) →
        ∀ pc ∈ counts, pc.1.WF ∧ pc.1.hashable = true ∧ ¬ Val.PyEq pc.1 c.background ∧ 0 < pc.2 := by
      intro l
      induction l with
      | nil => intro acc counts ha hx; injection hx with hx; rw [← hx]; exact ha
      | cons j l ih =>
        intro acc counts ha hx
        rw [List.foldlM_cons] at hx
        obtain ⟨acc', h1, hx⟩ := bind_ok hx
        obtain ⟨w, h2, h1⟩ := bind_ok h1
        refine ih acc' counts ?_ hx
        have hw : w.WF := by
          rcases occupancy_either s (.int j) with ⟨e, h3, -⟩ | ⟨w', h3, h4⟩
          · rw [h3] at h2; cases h2
          · rw [h3] at h2; injection h2 with h2; rw [← h2]
            obtain ⟨p, hp, hpv⟩ := occ?_eq.1 h4
            exact (hsw.site _ (Dict.mem_of_get? hp)).get? hpv
        unfold countAny at h1
        split_ifs at h1 with h5 h6
        · injection h1 with h1; rw [← h1]; exact ha
        · cases h7 : Dict.get? acc w with
          | none =>
            rw [h7] at h1; injection h1 with h1; rw [← h1]
            intro pc hpc
            rcases Dict.mem_set hpc with h8 | ⟨h8, h9⟩
            · exact ha pc h8
            · rw [h9, h8]; exact ⟨hw, h6, h5, Nat.one_pos⟩
          | some n =>
            rw [h7] at h1; injection h1 with h1; rw [← h1]
            intro pc hpc
            rcases Dict.mem_set hpc with h8 | ⟨h8, h9⟩
            · exact ha pc h8
            · rw [h9, h8]; exact ⟨hw, h6, h5, Nat.succ_pos n⟩
    have hk := key nbs [] counts (by simp) hc
    split_ifs at h with hl
    · injection h with h; injection h with _ h
      obtain ⟨h2, -, h3⟩ := pick_max counts (.pyNone, 0)
      change (pick counts = _ ∨ pick counts ∈ counts) at h2
      change ∀ pc ∈ counts, pc.2 ≤ (pick counts).2 at h3
      have hin : pick counts ∈ counts := by
        rcases h2 with h2 | h2
        · obtain ⟨pc, hpc⟩ := List.exists_mem_of_length_pos hl
          have h4 := h3 pc hpc
          have h5 := (hk pc hpc).2.2.2
          rw [h2] at h4
          simp only at h4
          omega
        · exact h2
      obtain ⟨h4, h5, h6, -⟩ := hk _ hin
      exact .inr ⟨(pick counts).1, h.symm, h4, h5, h6, u, hu, hb⟩
    · injection h with h; injection h with _ h
      exact .inl h.symm
  · injection h with h; injection h with _ h
    exact .inl h.symm

/-- What the rule may answer for site `i`. -/
def AnswerAny (bg : Val) (i : Key) (s : SimState) (q : Props) : Prop :=
  q = [] ∨ ∃ v u, q = [(DISCRETE_OCCUPANCY, v)] ∧ v.hashable = true ∧ ¬ Val.PyEq v bg ∧ occ? s i = some u ∧ Val.PyEq u bg

/-- No background site of the state lists a neighbour whose phase is neither the background nor hashable. -/
def NoClash (bg : Val) (nb : Key → List ℕ) (s : SimState) : Prop :=
  ¬ ∃ i ∈ s.siteIds, ∃ v, occ? s i = some v ∧ Val.PyEq v bg ∧ Clash bg s (nb i)

theorem stepAny {bg : Val} {a b : SimState} (hst : StepBy (AnswerAny bg) a b) {i : Key} {v : Val} (hv : occ? a i = some v) :
    ∃ v', occ? b i = some v' ∧ (v' = v ∨ (v'.hashable = true ∧ ¬ Val.PyEq v' bg ∧ Val.PyEq v bg)) := by
  obtain ⟨p, hp, hpv⟩ := occ?_eq.1 hv
  obtain ⟨q, new, hq, hnew, hm⟩ := hst.2.2 i p hp
  rcases hq with rfl | ⟨v', u, rfl, h1, h2, h3, h4⟩
  · exact ⟨v, occ?_eq.2 ⟨new, hnew, by rw [hm.2 _ (by simp)]; exact hpv⟩, .inl rfl⟩
  · rw [hv] at h3; injection h3 with h3; subst h3
    exact ⟨v', occ?_eq.2 ⟨new, hnew, hm.1 _ _ (by simp [Dict.get?])⟩, .inr ⟨h1, h2, h4⟩⟩

/-- C139, serial runs: if no background site has a neighbour whose phase is neither the background nor hashable, the run succeeds, even if there are lists or dicts among the phases; from step to step a
site keeps its phase, or is a background site and gets a phase that can be hashed and is not the background.  Otherwise every run of at least one step raises TypeError (`C139_unhashable`). -/
theorem C139_walled (c : Ctl) (s0 : SimState) (nb : Key → List ℕ) (hs : s0.WF) (hg : s0.getGeneralState ≠ none) (hne : s0.siteIds ≠ []) (hocc : AllOccupied s0)
    (hnb : ∀ t, ∀ i ∈ s0.siteIds, ∃ l, c.nbs t i = .ok l ∧ l.Perm (nb i) ∧ ∀ j ∈ l, Key.int j ∈ s0.siteIds) (hno : NoClash c.background nb s0) (n : ℕ) :
    ∃ c' res, runSync controllerAny c s0 n = .ok (c', res) ∧ res.len = n + 1 ∧ res.getStep 0 = .ok s0 ∧
      ∀ k : ℕ, k < n → ∃ a b, res.getStep k = .ok a ∧ res.getStep (k + 1) = .ok b ∧ ∀ i ∈ s0.siteIds, ∃ v v', occ? a i = some v ∧ occ? b i = some v' ∧
        (v' = v ∨ (v'.hashable = true ∧ ¬ Val.PyEq v' c.background ∧ Val.PyEq v c.background)) := by
  let Inv : Ctl → SimState → Prop := fun st s => st.background = c.background ∧ st.nbs = c.nbs ∧ s.siteIds = s0.siteIds ∧ AllOccupied s ∧ NoClash c.background nb s
  have hA : AnswersBy controllerAny Inv (AnswerAny c.background) := by
    rintro st s hsw ⟨h1, h2, h3, h4, h5⟩ i hi
    obtain ⟨v, hv⟩ := h4 i hi
    have hi' := hi
    rw [h3] at hi'
    obtain ⟨l, hl, hp, hlj⟩ := hnb st.calls i hi'
    obtain ⟨-, h6⟩ := C139_call (c := st) hv (by rw [h2]; exact hl) fun j hj => h4 _ (by rw [h3]; exact hlj j hj)
    rw [h1, clash_perm hp] at h6
    obtain ⟨st', r, h7, h8, h9, -⟩ := h6 fun h => h5 ⟨i, hi, v, hv, h⟩
    rcases updateAny_answer hsw h7 with rfl | ⟨v', rfl, hw, hh, hb, u, hu, hub⟩
    · exact ⟨st', _, _, h7, .patch _ ⟨by simp, by simp, Or.inl rfl⟩, .dict Dict.WF.nil (by simp), .inl rfl, h8, by rw [h9, h2], h3, h4, h5⟩
    · rw [h1] at hb hub
      refine ⟨st', _, _, h7, .patch _ (isPatch_occ _), .dict (by simp [Dict.WF]) (by
        intro kv hkv
        rw [List.mem_singleton] at hkv
        subst hkv
        exact hw), .inr ⟨v', u, rfl, hh, hb, hu, hub⟩, h8, by rw [h9, h2], h3, h4, h5⟩
  have hI : ∀ st s s', s.WF → Inv st s → StepBy (AnswerAny c.background) s s' → Inv st s' := by
    rintro st s s' - ⟨h1, h2, h3, h4, h5⟩ hst
    refine ⟨h1, h2, by rw [hst.1, h3], fun i hi => ?_, ?_⟩
    · rw [hst.1] at hi
      obtain ⟨v, hv⟩ := h4 i hi
      obtain ⟨v', h, -⟩ := stepAny hst hv
      exact ⟨v', h⟩
    · rintro ⟨i, hi, v', hv', hb', j, hj, w', hw', hbw', hh'⟩
      rw [hst.1] at hi
      obtain ⟨v, hv⟩ := h4 i hi
      obtain ⟨x, hx, hx2⟩ := stepAny hst hv
      rw [hv'] at hx; injection hx with hx; subst hx
      have hjs : Key.int j ∈ s.siteIds := by
        have hi' := hi
        rw [h3] at hi'
        obtain ⟨l, -, hp, hlj⟩ := hnb 0 i hi'
        rw [h3]
        exact hlj j (hp.mem_iff.2 hj)
      obtain ⟨w, hw⟩ := h4 _ hjs
      obtain ⟨y, hy, hy2⟩ := stepAny hst hw
      rw [hw'] at hy; injection hy with hy; subst hy
      have e1 : v' = v := by
        rcases hx2 with h | ⟨-, h, -⟩
        · exact h
        · exact absurd hb' h
      have e2 : w' = w := by
        rcases hy2 with h | ⟨h, -, -⟩
        · exact h
        · rw [h] at hh'; cases hh'
      subst e1 e2
      exact h5 ⟨i, hi, v', hv, hb', j, hj, w', hw, hbw', hh'⟩
  obtain ⟨c', res, h1, h2, h3, h4⟩ := runSync_by hA hI n hs hg hne c c rfl ⟨rfl, rfl, rfl, hocc, hno⟩
  refine ⟨c', res, h1, h2, h3, fun k hk => ?_⟩
  obtain ⟨a, b, ha, hb, -, -, ⟨st, -, -, hi1, hi2, -⟩, hst⟩ := h4 k hk
  refine ⟨a, b, ha, hb, fun i hi => ?_⟩
  obtain ⟨v, hv⟩ := hi2 i (by rw [hi1]; exact hi)
  obtain ⟨v', h5, h6⟩ := stepAny hst hv
  exact ⟨v, v', hv, h5, h6⟩

theorem runTasks_any {c : Ctl} {s : SimState} {nb : Key → List ℕ} (hocc : AllOccupied s) (hn : Lists c s nb) (batches : List (List Key))
    (hb : ∀ b ∈ batches, ∀ i ∈ b, i ∈ s.siteIds) (sc : StepSched) : ∀ ws : ℕ → Worker Ctl,
    (∀ v, (ws v).state = s ∧ (ws v).st.background = c.background ∧ (ws v).st.nbs = c.nbs) →
    (∃ bw ∈ sc, ∃ i ∈ batches.getD bw.1 [], ∃ v, occ? s i = some v ∧ Val.PyEq v c.background ∧ Clash c.background s (nb i)) →
    runTasks controllerAny batches (some []) sc ws = .error .typeError := by
  have hget : ∀ b, ∀ i ∈ batches.getD b [], i ∈ s.siteIds := by
    intro b i hi
    rw [List.getD_eq_getElem?_getD] at hi
    cases h : batches[b]? with
    | none => rw [h] at hi; cases hi
    | some l => rw [h] at hi; exact hb l (List.mem_of_getElem? h) i hi
  induction sc with
  | nil => rintro ws - ⟨bw, hbw, -⟩; cases hbw
  | cons p sc ih =>
    intro ws hws h
    obtain ⟨b, w⟩ := p
    obtain ⟨hw1, hw2, hw3⟩ := hws w
    obtain ⟨h1, h2⟩ := stepBatch_any hocc hn (batches.getD b []) (hget b) ((ws w).st, none) hw2 hw3
    unfold runTasks workerTask
    rw [hw1, show s.batchUpdateO (some []) = .ok s from rfl]
    simp only [ok_bind]
    by_cases hc : ∃ i ∈ batches.getD b [], ∃ v, occ? s i = some v ∧ Val.PyEq v c.background ∧ Clash c.background s (nb i)
    · have e : stepBatch controllerAny (ws w).st (batches.getD b []) s = .error .typeError := h1 hc
      rw [e]
      rfl
    · obtain ⟨x, h3, h4, h5⟩ := h2 hc
      have e : stepBatch controllerAny (ws w).st (batches.getD b []) s = .ok x := h3
      rw [e]
      simp only [ok_bind, pure, Except.pure]
      have h6 := ih (fun i => if i = w then ⟨x.1, s⟩ else ws i) (fun v => by
        by_cases e : v = w
        · rw [if_pos e]; exact ⟨rfl, h4, h5⟩
        · rw [if_neg e]; exact hws v) (by
        obtain ⟨bw, hbw, h'⟩ := h
        rcases List.mem_cons.1 hbw with rfl | hbw
        · exact absurd h' hc
        · exact ⟨bw, hbw, h'⟩)
      rw [h6]
      rfl

/-- C139, parallel runs: with such a neighbour the first step raises TypeError, whichever worker gets which batch. -/
theorem C139_parallel (c : Ctl) (s0 : SimState) (nb : Key → List ℕ) (hocc : AllOccupied s0) (hn : Lists c s0 nb) (fork : ℕ → Ctl → Ctl)
    (hf : ∀ v, (fork v c).background = c.background ∧ (fork v c).nbs = c.nbs) (w n : ℕ) (hw : 0 < w) (hn0 : 0 < n) (sched : ℕ → StepSched)
    (hv : (sched 0).Valid w (chunks s0.siteIds (chunkSize s0.size w)).length)
    (h : ∃ i ∈ s0.siteIds, ∃ v, occ? s0 i = some v ∧ Val.PyEq v c.background ∧ Clash c.background s0 (nb i)) :
    runParallel controllerAny fork c s0 w n sched = .error .typeError := by
  obtain ⟨i, hi, hc⟩ := h
  have hne : s0.siteIds ≠ [] := List.ne_nil_of_mem hi
  have hflat := C17_partition s0.siteIds w hw hne
  have hck : chunkSize s0.size w ≠ 0 := by
    have hlen : 0 < s0.siteIds.length := List.length_pos_iff.2 hne
    have : 0 < chunkSize s0.siteIds.length w := by
      unfold chunkSize; exact Nat.div_pos (by omega) hw
    unfold size
    omega
  change (chunks s0.siteIds (chunkSize s0.size w)).flatten = s0.siteIds at hflat
  have hi' := hi
  rw [← hflat, List.mem_flatten] at hi'
  obtain ⟨l, hl, hil⟩ := hi'
  obtain ⟨b, hb⟩ := List.mem_iff_getElem?.1 hl
  have hblt : b < (chunks s0.siteIds (chunkSize s0.size w)).length := by
    by_contra hh
    rw [List.getElem?_eq_none (by omega)] at hb
    cases hb
  obtain ⟨bw, hbw, hbe⟩ := List.mem_map.1 (hv.1.mem_iff.2 (List.mem_range.2 hblt))
  obtain ⟨m, rfl⟩ : ∃ m, n = m + 1 := ⟨n - 1, by omega⟩
  have ht := runTasks_any hocc hn (chunks s0.siteIds (chunkSize s0.size w)) (fun b hb i hi => by
    rw [← hflat]; exact List.mem_flatten.2 ⟨b, hb, hi⟩) (sched 0) (fun v => ⟨fork v c, s0⟩) (fun v => ⟨rfl, hf v⟩)
    ⟨bw, hbw, i, by rw [hbe, List.getD_eq_getElem?_getD, hb]; exact hil, hc⟩
  unfold runParallel
  show (if w = 0 then _ else _) = _
  rw [if_neg (by omega)]
  unfold parallelLoop takeStepParallel
  rw [if_neg hck]
  simp only [ht]
  rfl

/-! ### an example: a list as phase -/

/-- Three sites in a row with phases `A`, background, `["B"]`. -/
def listRow : SimState := ⟨[(.int 0, [(SITE_ID, .num 0), (DISCRETE_OCCUPANCY, .str "A")]), (.int 1, [(SITE_ID, .num 1), (DISCRETE_OCCUPANCY, .str "bg")]),
  (.int 2, [(SITE_ID, .num 2), (DISCRETE_OCCUPANCY, .list [.str "B"])])], some []⟩

/-- The neighbours in the row. -/
def rowNb : Key → List ℕ
  | .int 0 => [1]
  | .int 1 => [0, 2]
  | .int 2 => [1]
  | _ => []

/-- A case that meets the hypotheses: growth from this state raises TypeError in the first step, serial or parallel. -/
example (n : ℕ) (hn : 0 < n) : runSync controllerAny ⟨.str "bg", fun _ i => .ok (rowNb i), 0⟩ listRow n = .error .typeError := by
  have hids : listRow.siteIds = [.int 0, .int 1, .int 2] := rfl
  have h0 : occ? listRow (.int 0) = some (.str "A") := by decide
  have h1 : occ? listRow (.int 1) = some (.str "bg") := by decide
  have h2 : occ? listRow (.int 2) = some (.list [.str "B"]) := by decide
  have hocc : AllOccupied listRow := by
    intro i hi
    rw [hids] at hi
    simp only [List.mem_cons, List.not_mem_nil, or_false] at hi
    rcases hi with rfl | rfl | rfl
    · exact ⟨_, h0⟩
    · exact ⟨_, h1⟩
    · exact ⟨_, h2⟩
  refine ((C139_unhashable ⟨.str "bg", fun _ i => .ok (rowNb i), 0⟩ listRow rowNb hocc ?_).1 ?_).2 n hn
  · intro t i hi
    refine ⟨rowNb i, rfl, .refl _, fun j hj => ?_⟩
    rw [hids] at hi
    simp only [List.mem_cons, List.not_mem_nil, or_false] at hi
    rcases hi with rfl | rfl | rfl <;> simp only [rowNb, List.mem_cons, List.not_mem_nil, or_false] at hj
    · subst hj; exact ⟨_, h1⟩
    · rcases hj with rfl | rfl
      · exact ⟨_, h0⟩
      · exact ⟨_, h2⟩
    · subst hj; exact ⟨_, h1⟩
  · refine ⟨.int 1, by rw [hids]; simp, _, h1, .refl _, 2, by simp [rowNb], _, h2, ?_, rfl⟩
    intro h
    cases h

end Pyl
