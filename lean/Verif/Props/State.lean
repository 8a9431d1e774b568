import Verif.Spec.State
import Verif.Lemmas.State
import Mathlib.Data.Finset.Card
/-
C01-C08: SimulationState.
-/
set_option linter.unusedSectionVars false

set_option autoImplicit false

namespace Pyl
open SimState Spec

/-! ### C01 -/

theorem merged_update {old u : Props} (hu : Dict.WF u) : Merged old u (Dict.update old u) := by
  constructor
  · intro k v h; rw [Dict.get?_update hu, h]; rfl
  · intro k h; rw [Dict.get?_update hu, Dict.get?_eq_none_iff.2 h]; simp

/-- C01: after `set_site_state(i, u)` site `i` holds its old dict (or `{_site_id: i}` if it had none)
overwritten with `u`; every other site and the general state are unchanged. -/
theorem C01_set_site_state (s : SimState) (i : Key) (u : Props) (hu : Dict.WF u) :
    (∃ new, (s.setSiteState i u).getSiteState i = some new ∧
      (∀ old, s.getSiteState i = some old → Merged old u new) ∧
      (s.getSiteState i = none → Merged [(SITE_ID, i.toVal)] u new)) ∧
    (∀ j, j ≠ i → (s.setSiteState i u).getSiteState j = s.getSiteState j) ∧
    (s.setSiteState i u).getGeneralState = s.getGeneralState := by
  refine ⟨⟨Dict.update (oldOf s i) u, ?_, ?_, ?_⟩, ?_, rfl⟩
  · simp [getSiteState, get?_setSiteState]
  · intro old h
    have : oldOf s i = old := by unfold getSiteState at h; simp [oldOf, h]
    rw [this]; exact merged_update hu
  · intro h
    have : oldOf s i = [(SITE_ID, i.toVal)] := by unfold getSiteState at h; simp [oldOf, h]
    rw [this]; exact merged_update hu
  · intro j hj
    simp [getSiteState, get?_setSiteState, hj.symm]

/-- A concrete update on a non-empty state. -/
example : ((⟨[(.int 3, [(.str "a", .num 1), (.str "b", .num 2)])], some []⟩ : SimState).setSiteState (.int 3)
    [(.str "b", .num 5)]).getSiteState (.int 3) = some [(.str "a", .num 1), (.str "b", .num 5)] := by decide
example : (SimState.empty.setSiteState (.int 3) [(.str "b", .num 5)]).getSiteState (.int 3)
    = some [(SITE_ID, .num 3), (.str "b", .num 5)] := by decide

/-! ### C02 -/

/-- Append the ids of `l` that are not there yet. -/
def addIds (acc l : List Key) : List Key := l.foldl (fun acc a => if a ∈ acc then acc else acc ++ [a]) acc

theorem addIds_append (acc l m : List Key) : addIds acc (l ++ m) = addIds (addIds acc l) m := by
  simp [addIds, List.foldl_append]

theorem addIds_prefix (acc l : List Key) : acc <+: addIds acc l := by
  induction l generalizing acc with
  | nil => exact List.prefix_refl _
  | cons a l ih =>
    refine List.IsPrefix.trans ?_ (ih (if a ∈ acc then acc else acc ++ [a]))
    split_ifs <;> simp

theorem addIds_nodup {acc : List Key} (h : acc.Nodup) (l : List Key) : (addIds acc l).Nodup := by
  induction l generalizing acc with
  | nil => exact h
  | cons a l ih =>
    refine ih (acc := if a ∈ acc then acc else acc ++ [a]) ?_
    split_ifs with ha
    · exact h
    · exact List.nodup_append.2 ⟨h, by simp, by rintro x hx y hy rfl; simp at hy; exact ha (hy ▸ hx)⟩

theorem mem_addIds {acc l : List Key} {k : Key} : k ∈ addIds acc l ↔ k ∈ acc ∨ k ∈ l := by
  induction l generalizing acc with
  | nil => simp [addIds]
  | cons a l ih =>
    have : addIds acc (a :: l) = addIds (if a ∈ acc then acc else acc ++ [a]) l := rfl
    rw [this, ih]
    split_ifs with ha
    · simp; constructor
      · tauto
      · rintro (h | rfl | h) <;> tauto
    · simp; tauto

theorem siteIds_setSitesP (s : SimState) (d : Props) :
    (setSitesP s d).siteIds = addIds s.siteIds (Dict.keys d) := by
  induction d generalizing s with
  | nil => rfl
  | cons p d ih =>
    rw [setSitesP_cons, ih, keys_setSiteState]; rfl

theorem siteIds_run {s s' : SimState} {o : Op} (h : o.run s = .ok s') :
    s'.siteIds = addIds s.siteIds o.ids := by
  cases o with
  | setSite i u =>
    simp [Op.run] at h; subst h
    rw [keys_setSiteState]; rfl
  | setGeneral u =>
    simp only [Op.run, setGeneralState] at h
    cases hg : s.general <;> simp [hg] at h
    subst h; rfl
  | batch b =>
    rcases batchUpdate_ok h with ⟨h1, _, rfl⟩ | ⟨g, d, g0, h1, h2, _, _, rfl⟩
    · simp [siteIds_setSitesP, Op.ids, h1]
    · have : (SimState.siteIds { setSitesP s d with general := some (Dict.update g0 g) }) =
          (setSitesP s d).siteIds := rfl
      rw [this, siteIds_setSitesP]
      rcases h2 with h2 | ⟨h2, rfl⟩ <;> simp [Op.ids, h1, h2]

theorem setSitesEff_prefix (s : SimState) (d : Props) : ∃ l,
    (setSitesEff s d).1 = setSitesP s l ∧ l <+: d ∧ ∀ kv ∈ l, ∃ u, kv.2 = .dict u := by
  induction d generalizing s with
  | nil => exact ⟨[], rfl, List.prefix_refl _, by simp⟩
  | cons p d ih =>
    obtain ⟨k, v⟩ := p
    unfold setSitesEff
    cases v with
    | dict u =>
      obtain ⟨l, h1, h2, h3⟩ := ih (setSiteState s k u)
      refine ⟨(k, .dict u) :: l, ?_, ?_, ?_⟩
      · simpa [setSiteStateV, dictOf] using h1
      · simpa using h2
      · intro kv hkv
        rcases List.mem_cons.1 hkv with h | h
        · exact ⟨u, by rw [h]⟩
        · exact h3 kv h
    | _ => exact ⟨[], by simp [setSiteStateV], by simp, by simp⟩

/-- Whatever a call does (even when it raises), it amounts to some `set_site_state` calls taken from its
argument plus a change of the general state. -/
theorem effect_eq (s : SimState) (o : Op) : ∃ (d : Props) (g : Option Props),
    o.effect s = { setSitesP s d with general := g } ∧
    (∀ kv ∈ d, ∃ u, kv.2 = .dict u) ∧ (o.keepsSiteId → ∀ k u, (k, Val.dict u) ∈ d → SITE_ID ∉ Dict.keys u) := by
  cases o with
  | setSite i u =>
    refine ⟨[(i, .dict u)], s.general, rfl, by simp, ?_⟩
    intro h k u' hm; simp at hm; obtain ⟨_, rfl⟩ := hm; exact h
  | setGeneral u =>
    simp only [Op.effect, setGeneralState]
    cases hg : s.general with
    | none => exact ⟨[], none, by cases s; simp_all [setSitesP], by simp, by simp⟩
    | some g => exact ⟨[], some (Dict.update g u), rfl, by simp, by simp⟩
  | batch b =>
    simp only [Op.effect, batchUpdateEff]
    have fin : ∀ (d : Props) (g : Val), ∃ l gg,
        (match setSitesEff s d with
        | (s', some e) => (s', some e)
        | (s', none) =>
          match setGeneralStateV s' g with
          | .ok s'' => (s'', none)
          | .error e => (s', some e)).1 = { setSitesP s l with general := gg } ∧ l <+: d ∧
          ∀ kv ∈ l, ∃ u, kv.2 = .dict u := by
      intro d g
      obtain ⟨l, h1, h2, h3⟩ := setSitesEff_prefix s d
      rcases hq : setSitesEff s d with ⟨s', _ | e⟩
      · rw [hq] at h1; simp at h1; subst h1
        cases hg : setGeneralStateV (setSitesP s l) g with
        | ok s'' =>
          cases g <;> simp [setGeneralStateV, setGeneralState] at hg
          cases hgg : s.general <;> simp [hgg] at hg
          rename_i u g0
          refine ⟨l, some (Dict.update g0 u), ?_, h2, h3⟩
          simp [setGeneralStateV, setGeneralState, hgg]
        | error e => exact ⟨l, (setSitesP s l).general, by simp only [hg], h2, h3⟩
      · rw [hq] at h1; simp at h1; subst h1
        exact ⟨l, _, rfl, h2, h3⟩
    cases hG : Dict.get? b GENERAL with
    | none =>
      obtain ⟨l, h1, h2, h3⟩ := setSitesEff_prefix s b
      refine ⟨l, _, by simp only [h1]; rfl, h3, ?_⟩
      intro h k u hm
      exact h.1 k u (h2.subset hm)
    | some g =>
      cases hS : Dict.get? b SITES with
      | none =>
        obtain ⟨l, gg, h1, h2, h3⟩ := fin [] g
        refine ⟨l, gg, h1, h3, ?_⟩
        have : l = [] := by simpa using h2
        simp [this]
      | some v =>
        cases v with
        | dict d =>
          obtain ⟨l, gg, h1, h2, h3⟩ := fin d g
          refine ⟨l, gg, h1, h3, ?_⟩
          intro h k u hm
          exact h.2 d hS k u (h2.subset hm)
        | _ => exact ⟨[], s.general, rfl, by simp, by simp⟩

theorem siteIds_history {s s' : SimState} {os : List Op} (h : history s os = .ok s') :
    s'.siteIds = addIds s.siteIds (os.flatMap Op.ids) := by
  induction os generalizing s with
  | nil => simp [history] at h; subst h; rfl
  | cons o os ih =>
    simp only [history, bind, Except.bind] at h
    cases ho : o.run s with
    | error e => simp [ho] at h
    | ok s1 =>
      simp [ho] at h
      rw [ih h, siteIds_run ho, List.flatMap_cons, addIds_append]

/-- C02: after any history of calls from the empty state, `site_ids()` is the list of ids written to, in
order of first writing, without duplicates, and `size` is the number of different ids. -/
theorem C02_site_ids (os : List Op) (s : SimState) (h : history .empty os = .ok s) :
    s.siteIds = firstOcc (os.flatMap Op.ids) ∧ s.siteIds.Nodup ∧
    s.size = (os.flatMap Op.ids).toFinset.card := by
  have h1 : s.siteIds = addIds [] (os.flatMap Op.ids) := siteIds_history h
  have h2 : s.siteIds.Nodup := by rw [h1]; exact addIds_nodup (by simp) _
  refine ⟨h1, h2, ?_⟩
  unfold size
  rw [← List.toFinset_card_of_nodup h2]
  congr 1
  ext k
  simp [h1, mem_addIds]

/-- C02: an id is never lost and never moves: the list of ids before a history is a prefix of the list
after it.  This holds from any state with distinct ids and also when calls raise and the exception is caught. -/
theorem C02_append_only (s : SimState) (hs : s.siteIds.Nodup) (os : List Op) :
    s.siteIds <+: (historyEff s os).siteIds ∧ (historyEff s os).siteIds.Nodup := by
  induction os generalizing s with
  | nil => exact ⟨List.prefix_refl _, hs⟩
  | cons o os ih =>
    obtain ⟨d, g, h1, _⟩ := effect_eq s o
    have h2 : (o.effect s).siteIds = addIds s.siteIds (Dict.keys d) := by
      rw [h1, ← siteIds_setSitesP]; rfl
    obtain ⟨h3, h4⟩ := ih (o.effect s) (by rw [h2]; exact addIds_nodup hs _)
    exact ⟨(h2 ▸ addIds_prefix s.siteIds (Dict.keys d)).trans h3, h4⟩

/-- The exception-free history is a special case of the other one. -/
theorem effect_of_run {s s' : SimState} {o : Op} (h : o.run s = .ok s') : o.effect s = s' := by
  have key : ∀ (d : Props) (s s' : SimState), setSites s d = .ok s' → setSitesEff s d = (s', none) := by
    intro d
    induction d with
    | nil => intro s s' h; injection h with h; subst h; rfl
    | cons p d ih =>
      intro s s' h
      rw [setSites_cons] at h
      unfold setSitesEff
      cases hv : setSiteStateV s p.1 p.2 with
      | error e => simp [hv, Except.bind] at h
      | ok s1 => simp only [hv, Except.bind] at h ⊢; exact ih _ _ h
  cases o with
  | setSite i u => simpa [Op.run, Op.effect] using h
  | setGeneral u => simp only [Op.run] at h; simp [Op.effect, h]
  | batch b =>
    simp only [Op.run, batchUpdate] at h
    simp only [Op.effect, batchUpdateEff]
    cases hG : Dict.get? b GENERAL with
    | none => simp only [hG] at h ⊢; rw [key _ _ _ h]
    | some g =>
      simp only [hG] at h ⊢
      have fin : ∀ d : Props, (do setGeneralStateV (← setSites s d) g) = Except.ok s' →
        (match setSitesEff s d with
        | (s', some e) => (s', some e)
        | (s', none) =>
          match setGeneralStateV s' g with
          | .ok s'' => (s'', none)
          | .error e => (s', some e)).1 = s' := by
        intro d h
        cases hs : setSites s d with
        | error e => simp [hs, bind, Except.bind] at h
        | ok s1 =>
          simp [hs, bind, Except.bind] at h
          simp [key _ _ _ hs, h]
      cases hS : Dict.get? b SITES with
      | none => simp only [hS] at h ⊢; exact fin _ h
      | some v =>
        cases v <;> simp only [hS] at h ⊢ <;> first | exact fin _ h | simp at h

theorem historyEff_of_history {s s' : SimState} {os : List Op} (h : history s os = .ok s') :
    historyEff s os = s' := by
  induction os generalizing s with
  | nil => simpa [history, historyEff] using h
  | cons o os ih =>
    simp only [history, bind, Except.bind] at h
    cases ho : o.run s with
    | error e => simp [ho] at h
    | ok s1 => simp [ho] at h; rw [historyEff, effect_of_run ho]; exact ih h

/-- A history with repeated ids and a batch. -/
example : history .empty [.setSite (.int 4) [], .batch [(.int 2, .dict []), (.int 4, .dict [])],
    .setSite (.int 2) []] = .ok ⟨[(.int 4, [(SITE_ID, .num 4)]), (.int 2, [(SITE_ID, .num 2)])], some []⟩ := by
  decide

/-! ### C03 -/

theorem knowsId_setSitesP {s : SimState} (hs : ∀ kv ∈ s.sites, Dict.get? kv.2 SITE_ID = some kv.1.toVal)
    {d : Props} (hd : ∀ k u, (k, Val.dict u) ∈ d → SITE_ID ∉ Dict.keys u) :
    ∀ kv ∈ (setSitesP s d).sites, Dict.get? kv.2 SITE_ID = some kv.1.toVal := by
  induction d generalizing s with
  | nil => exact hs
  | cons p d ih =>
    rw [setSitesP_cons]
    refine ih ?_ fun k u h => hd k u (by simp [h])
    intro kv hkv
    rw [setSiteState_sites] at hkv
    rcases Dict.mem_set hkv with h | ⟨h1, h2⟩
    · exact hs kv h
    · rw [h1, h2, Dict.get?_update']
      have h3 : Dict.get? (dictOf p.2).reverse SITE_ID = none := by
        rw [Dict.get?_eq_none_iff, Dict.keys_reverse]
        obtain ⟨k, v⟩ := p
        cases v <;> simp [dictOf]
        exact hd k _ (by simp)
      rw [h3]
      unfold oldOf
      cases ho : Dict.get? s.sites p.1 with
      | none => simp [Dict.get?]
      | some o => simpa using hs _ (Dict.mem_of_get? ho)

/-- C03: in every state reached from the empty one by calls (raising or not) whose updates do not
write `_site_id`, the dict stored for site `i` has `_site_id = i`. -/
theorem C03_site_knows_id (os : List Op) (hos : ∀ o ∈ os, o.keepsSiteId) (i : Key) (p : Props)
    (h : (historyEff .empty os).getSiteState i = some p) : Dict.get? p SITE_ID = some i.toVal := by
  have key : ∀ (os : List Op) (s : SimState), (∀ o ∈ os, o.keepsSiteId) →
      (∀ kv ∈ s.sites, Dict.get? kv.2 SITE_ID = some kv.1.toVal) →
      ∀ kv ∈ (historyEff s os).sites, Dict.get? kv.2 SITE_ID = some kv.1.toVal := by
    intro os
    induction os with
    | nil => intro s _ hs; exact hs
    | cons o os ih =>
      intro s ho hs
      refine ih _ (fun o h => ho o (by simp [h])) ?_
      obtain ⟨d, g, h1, h2, h3⟩ := effect_eq s o
      rw [h1]
      exact knowsId_setSitesP hs (h3 (ho o (by simp)))
  exact key os .empty hos (by simp [SimState.empty]) (i, p) (Dict.mem_of_get? h)

/-- C03, as a statement about `all_site_states()`: its k-th dict carries the k-th id of `site_ids()`. -/
theorem C03_all_site_states (os : List Op) (hos : ∀ o ∈ os, o.keepsSiteId) :
    (historyEff .empty os).allSiteStates.map (fun p => Dict.get? p SITE_ID) =
    (historyEff .empty os).siteIds.map (fun i => some i.toVal) := by
  have hnd : (historyEff .empty os).siteIds.Nodup := (C02_append_only .empty (by simp [siteIds, SimState.empty]) os).2
  unfold allSiteStates siteIds Dict.values Dict.keys
  rw [List.map_map, List.map_map]
  refine List.map_congr_left fun kv hkv => ?_
  exact C03_site_knows_id os hos kv.1 kv.2 (Dict.get?_of_mem hnd hkv)

example : ∀ o ∈ [Op.setSite (.int 4) [(.str "x", .num 1)], Op.batch [(.int 2, .dict [])]], o.keepsSiteId := by
  intro o ho; simp at ho; rcases ho with rfl | rfl
  · simp [Op.keepsSiteId, SITE_ID]
  · refine ⟨?_, ?_⟩
    · intro k u h; simp at h; simp [h]
    · intro d h; simp [Dict.get?, SITES] at h

/-! ### C04 -/

/-- What one site looks like after a batch that lists `v` for it. -/
def SiteAfter (s s' : SimState) (i : Key) : Option Val → Prop
  | none => s'.getSiteState i = s.getSiteState i
  | some v => ∃ u new, v = .dict u ∧ s'.getSiteState i = some new ∧
      Merged ((s.getSiteState i).getD [(SITE_ID, i.toVal)]) u new

theorem siteAfter_setSitesP {s : SimState} {d : Props} (hd : (Val.dict d).WF)
    (hdict : ∀ kv ∈ d, ∃ u, kv.2 = .dict u) (i : Key) :
    SiteAfter s (setSitesP s d) i (Dict.get? d i) := by
  cases h : Dict.get? d i with
  | none => simp [SiteAfter, getSiteState, get?_setSitesP hd.keys, h]
  | some v =>
    obtain ⟨u, hu⟩ := hdict _ (Dict.mem_of_get? h)
    simp only at hu
    refine ⟨u, Dict.update (oldOf s i) u, hu, ?_, ?_⟩
    · simp [getSiteState, get?_setSitesP hd.keys, h, hu, dictOf]
    · have : Dict.WF u := by have := hd.get? h; rw [hu] at this; exact this.keys
      exact merged_update this

/-- C04: a batch with a GENERAL part.  It succeeds iff its parts are dicts and the state has a general
section; then each site listed under SITES is merged, each other site and its presence is unchanged, and the general
state is merged. -/
theorem C04_total (s : SimState) (b g : Props) (d : Props) (hb : (Val.dict b).WF)
    (hG : Dict.get? b GENERAL = some (.dict g))
    (hS : Dict.get? b SITES = some (.dict d) ∨ Dict.get? b SITES = none ∧ d = [])
    (hd : ∀ i v, Dict.get? d i = some v → ∃ u, v = .dict u)
    (g0 : Props) (hg0 : s.getGeneralState = some g0) :
    ∃ s' g', s.batchUpdate b = .ok s' ∧ (∀ i, SiteAfter s s' i (Dict.get? d i)) ∧
      s'.getGeneralState = some g' ∧ Merged g0 g g' := by
  have hdw : (Val.dict d).WF := by
    rcases hS with h | ⟨_, rfl⟩
    · exact hb.get? h
    · exact .dict (by simp [Dict.WF]) (by simp)
  have hdict : ∀ kv ∈ d, ∃ u, kv.2 = .dict u := fun kv hkv => hd kv.1 kv.2 (Dict.get?_of_mem hdw.keys hkv)
  have hall : (d.all fun kv => isDict kv.2) = true := by
    rw [List.all_eq_true]; exact fun kv hkv => isDict_iff.2 (hdict kv hkv)
  have hgen : s.general = some g0 := hg0
  refine ⟨{ setSitesP s d with general := some (Dict.update g0 g) }, Dict.update g0 g, ?_, ?_, rfl,
    merged_update (hb.get? hG).keys⟩
  · unfold batchUpdate
    rcases hS with h | ⟨h, rfl⟩
    · simp [hG, h, setSites_eq, hall, bind, Except.bind, setGeneralStateV, setGeneralState, hgen]
    · simp [hG, h, setSites_eq, bind, Except.bind, setGeneralStateV, setGeneralState, hgen]
  · intro i
    have := siteAfter_setSitesP (s := s) hdw hdict i
    unfold SiteAfter at *; exact this

/-- C04: a batch without a GENERAL part is read as `{site id: updates}`. -/
theorem C04_flat (s : SimState) (b : Props) (hb : (Val.dict b).WF) (hG : Dict.get? b GENERAL = none)
    (hd : ∀ i v, Dict.get? b i = some v → ∃ u, v = .dict u) :
    ∃ s', s.batchUpdate b = .ok s' ∧ (∀ i, SiteAfter s s' i (Dict.get? b i)) ∧
      s'.getGeneralState = s.getGeneralState := by
  have hdict : ∀ kv ∈ b, ∃ u, kv.2 = .dict u := fun kv hkv => hd kv.1 kv.2 (Dict.get?_of_mem hb.keys hkv)
  have hall : (b.all fun kv => isDict kv.2) = true := by
    rw [List.all_eq_true]; exact fun kv hkv => isDict_iff.2 (hdict kv hkv)
  refine ⟨setSitesP s b, ?_, fun i => siteAfter_setSitesP hb hdict i, by simp [getGeneralState]⟩
  unfold batchUpdate
  simp [hG, setSites_eq, hall]

/-- C04: in every other case the batch raises. -/
theorem C04_raises (s : SimState) (b : Props) (h : ∃ s', s.batchUpdate b = .ok s') :
    (Dict.get? b GENERAL = none ∧ ∀ kv ∈ b, ∃ u, kv.2 = .dict u) ∨
    ∃ g d, Dict.get? b GENERAL = some (.dict g) ∧ s.getGeneralState ≠ none ∧
      (Dict.get? b SITES = some (.dict d) ∨ Dict.get? b SITES = none ∧ d = []) ∧
      ∀ kv ∈ d, ∃ u, kv.2 = .dict u := by
  obtain ⟨s', h⟩ := h
  rcases batchUpdate_ok h with ⟨h1, h2, _⟩ | ⟨g, d, g0, h1, h2, h3, h4, _⟩
  · exact Or.inl ⟨h1, h2⟩
  · exact Or.inr ⟨g, d, h1, by simp [getGeneralState, h4], h2, h3⟩

/-- C04, a consequence worth seeing: a batch `{SITES: {...}}` without GENERAL does not update the listed sites;
it creates a site whose id is the string `"SITES"`. -/
theorem C04_sites_without_general (s : SimState) (d : Props) :
    s.batchUpdate [(SITES, .dict d)] = .ok (s.setSiteState SITES d) := by
  simp [batchUpdate, Dict.get?, SITES, GENERAL, setSites, setSiteStateV, bind, Except.bind, pure, Except.pure]

example : SimState.batchUpdate ⟨[(.int 0, [(.str "a", .num 1)])], some [(.str "t", .num 0)]⟩
    [(GENERAL, .dict [(.str "t", .num 1)]), (SITES, .dict [(.int 0, .dict [(.str "a", .num 2)])])] =
    .ok ⟨[(.int 0, [(.str "a", .num 2)])], some [(.str "t", .num 1)]⟩ := by decide


/-! ### C08 (equality), used by C05 -/

theorem SimState.Eqv.refl (s : SimState) : s.Eqv s := by
  refine ⟨Dict.EqvBy.refl (Dict.EqvBy.refl Val.PyEq.refl) _, ?_⟩
  cases s.general
  · trivial
  · exact Dict.EqvBy.refl Val.PyEq.refl _

theorem SimState.Eqv.symm {s t : SimState} (h : s.Eqv t) : t.Eqv s := by
  refine ⟨h.1.symm fun _ _ h => h.symm fun _ _ h => h.symm, ?_⟩
  have := h.2
  cases hs : s.general <;> cases ht : t.general <;> simp [hs, ht] at this ⊢
  exact this.symm fun _ _ h => h.symm

theorem SimState.Eqv.trans {s t u : SimState} (h : s.Eqv t) (h' : t.Eqv u) : s.Eqv u := by
  refine ⟨h.1.trans (fun _ _ _ h h' => h.trans (fun _ _ _ h h' => h.trans h') h') h'.1, ?_⟩
  have h2 := h.2
  have h3 := h'.2
  cases hs : s.general <;> cases ht : t.general <;> cases hu : u.general <;>
    simp [hs, ht, hu] at h2 h3 ⊢
  exact h2.trans (fun _ _ _ h h' => h.trans h') h3

theorem eqv_oldOf {s t : SimState} (h : s.Eqv t) (i : Key) :
    Dict.EqvBy Val.PyEq (oldOf s i) (oldOf t i) := by
  unfold oldOf
  rcases h.1.get? i with ⟨h1, h2⟩ | ⟨a, b, h1, h2, hr⟩
  · rw [h1, h2]; exact Dict.EqvBy.refl Val.PyEq.refl _
  · rw [h1, h2]; exact hr

theorem eqv_setSiteState {s t : SimState} (h : s.Eqv t) (i : Key) {u v : Props} (hu : Dict.WF u)
    (hv : Dict.WF v) (huv : Dict.EqvBy Val.PyEq u v) : (s.setSiteState i u).Eqv (t.setSiteState i v) := by
  refine ⟨fun k => ?_, h.2⟩
  rw [get?_setSiteState, get?_setSiteState]
  split_ifs with hk
  · refine ⟨by simp, fun a b ha hb => ?_⟩
    simp at ha hb; subst ha hb
    exact (eqv_oldOf h i).update hu hv huv
  · exact h.1 k

theorem isDict_pyEq {a b : Val} (h : Val.PyEq a b) : isDict a = isDict b := by
  cases h <;> rfl

theorem asDict_pyEq {a b : Val} (h : Val.PyEq a b) : Dict.EqvBy Val.PyEq (dictOf a) (dictOf b) := by
  cases h with
  | refl => exact Dict.EqvBy.refl Val.PyEq.refl _
  | dict h1 h2 => exact fun k => ⟨h1 k, h2 k⟩
  | list => exact Dict.eqvBy_nil
  | tup => exact Dict.eqvBy_nil

theorem wf_asDict {a : Val} (h : a.WF) : Dict.WF (dictOf a) := by
  cases h <;> simp [dictOf] <;> first | assumption | exact Dict.WF.nil

theorem eqv_setSitesP {s t : SimState} (h : s.Eqv t) {d e : Props} (hd : (Val.dict d).WF)
    (he : (Val.dict e).WF) (hde : Dict.EqvBy Val.PyEq d e) : (setSitesP s d).Eqv (setSitesP t e) := by
  refine ⟨fun k => ?_, by simpa using h.2⟩
  rw [get?_setSitesP hd.keys, get?_setSitesP he.keys]
  rcases hde.get? k with ⟨h1, h2⟩ | ⟨a, b, h1, h2, hr⟩
  · rw [h1, h2]; exact h.1 k
  · rw [h1, h2]
    refine ⟨by simp, fun a' b' ha hb => ?_⟩
    simp at ha hb; subst ha hb
    exact (eqv_oldOf h k).update (wf_asDict (hd.get? h1)) (wf_asDict (he.get? h2)) (asDict_pyEq hr)

theorem all_isDict_pyEq {d e : Props} (hd : Dict.WF d) (he : Dict.WF e) (h : Dict.EqvBy Val.PyEq d e) :
    (d.all fun kv => isDict kv.2) = (e.all fun kv => isDict kv.2) := by
  have key : ∀ {d e : Props}, Dict.WF d → Dict.WF e → Dict.EqvBy Val.PyEq d e →
      (d.all fun kv => isDict kv.2) = true → (e.all fun kv => isDict kv.2) = true := by
    intro d e hd he h h1
    rw [List.all_eq_true] at *
    intro kv hkv
    have h2 := Dict.get?_of_mem he (k := kv.1) (v := kv.2) hkv
    rcases h.get? kv.1 with ⟨_, h3⟩ | ⟨a, b, h3, h4, hr⟩
    · rw [h2] at h3; cases h3
    · rw [h2] at h4; injection h4 with h4; subst h4
      rw [← isDict_pyEq hr]
      exact h1 _ (Dict.mem_of_get? h3)
  rw [Bool.eq_iff_iff]
  exact ⟨key hd he h, key he hd (h.symm fun _ _ h => h.symm)⟩

/-- Two runs of a call give the same outcome: both return equal states or both raise the same exception. -/
def SameOutcome (x y : Py SimState) : Prop :=
  match x, y with
  | .ok a, .ok b => a.Eqv b
  | .error e, .error f => e = f
  | _, _ => False

theorem sameOutcome_setGeneralState {s t : SimState} (h : s.Eqv t) {u v : Props} (hu : Dict.WF u)
    (hv : Dict.WF v) (huv : Dict.EqvBy Val.PyEq u v) :
    SameOutcome (s.setGeneralState u) (t.setGeneralState v) := by
  have h2 := h.2
  unfold setGeneralState
  cases hs : s.general <;> cases ht : t.general <;> simp [hs, ht, SameOutcome] at h2 ⊢
  exact ⟨h.1, h2.update hu hv huv⟩

theorem sameOutcome_finish {s t : SimState} (h : s.Eqv t) {d e : Props} (hd : (Val.dict d).WF)
    (he : (Val.dict e).WF) (hde : Dict.EqvBy Val.PyEq d e) {g g' : Val} (hg : g.WF) (hg' : g'.WF)
    (hgg : Val.PyEq g g') :
    SameOutcome (do setGeneralStateV (← setSites s d) g) (do setGeneralStateV (← setSites t e) g') := by
  rw [setSites_eq, setSites_eq, all_isDict_pyEq hd.keys he.keys hde]
  split_ifs
  · have h1 := eqv_setSitesP h hd he hde
    have h2 : isDict g = isDict g' := isDict_pyEq hgg
    have h3 := asDict_pyEq hgg
    cases g <;> cases g' <;> simp [isDict] at h2 <;>
      simp only [bind, Except.bind, setGeneralStateV] <;> try rfl
    exact sameOutcome_setGeneralState h1 hg.keys hg'.keys h3
  · rfl

/-- Equal batches applied to equal states have the same outcome. -/
theorem sameOutcome_batchUpdate {s t : SimState} (h : s.Eqv t) {b c : Props} (hb : (Val.dict b).WF)
    (hc : (Val.dict c).WF) (hbc : Val.PyEq (.dict b) (.dict c)) :
    SameOutcome (s.batchUpdate b) (t.batchUpdate c) := by
  have hbc' := Val.pyEq_dict_iff hbc
  unfold batchUpdate
  rcases hbc'.get? GENERAL with ⟨h1, h2⟩ | ⟨g, g', h1, h2, hg⟩
  · simp only [h1, h2, setSites_eq, all_isDict_pyEq hb.keys hc.keys hbc']
    split_ifs
    · exact eqv_setSitesP h hb hc hbc'
    · rfl
  · simp only [h1, h2]
    rcases hbc'.get? SITES with ⟨h3, h4⟩ | ⟨d, e, h3, h4, hde⟩
    · simp only [h3, h4]
      exact sameOutcome_finish h (.dict (by simp [Dict.WF]) (by simp)) (.dict (by simp [Dict.WF]) (by simp))
        Dict.eqvBy_nil (hb.get? h1) (hc.get? h2) hg
    · simp only [h3, h4]
      have h5 := hb.get? h3
      have h6 := hc.get? h4
      have h7 : isDict d = isDict e := isDict_pyEq hde
      have h8 := asDict_pyEq hde
      cases d <;> cases e <;> simp [isDict] at h7 <;> try rfl
      exact sameOutcome_finish h h5 h6 h8 (hb.get? h1) (hc.get? h2) hg

/-! ### C05 -/

/-- C05: batches that are equal as Python dicts (any insertion order, at every level) have the same outcome. -/
theorem C05_batch_order (s : SimState) (b c : Props) (hb : (Val.dict b).WF) (hc : (Val.dict c).WF)
    (h : Val.PyEq (.dict b) (.dict c)) : SameOutcome (s.batchUpdate b) (s.batchUpdate c) :=
  sameOutcome_batchUpdate (.refl s) hb hc h

/-- Permuted batches are equal as dicts. -/
theorem C05_permuted_batch (s : SimState) (b c : Props) (hb : (Val.dict b).WF) (h : b.Perm c) :
    SameOutcome (s.batchUpdate b) (s.batchUpdate c) :=
  C05_batch_order s b c hb
    (.dict ((h.map Prod.fst).nodup_iff.1 hb.keys) fun _ hkv => hb.entry (h.mem_iff.2 hkv))
    (Val.pyEq_dict (Dict.EqvBy.of_perm Val.PyEq.refl hb.keys h))

/-- Two differently ordered batches that meet the hypotheses. -/
example : (Val.dict [(.int 1, .dict [(.str "a", .num 1)]), (.int 2, .dict [])]).WF ∧
    List.Perm [((Key.int 1), Val.dict [(.str "a", .num 1)]), (.int 2, .dict [])]
      [(.int 2, .dict []), (.int 1, .dict [(.str "a", .num 1)])] := by
  refine ⟨.dict (by simp [Dict.WF]) ?_, List.Perm.swap _ _ _⟩
  intro kv h; simp at h; rcases h with rfl | rfl
  · exact .dict (by simp [Dict.WF]) (by simp; constructor)
  · exact .dict (by simp [Dict.WF]) (by simp)

/-! ### C06 -/

theorem update_idem {d u : Props} (hd : Dict.WF d) (hu : Dict.WF u) :
    Dict.update (Dict.update d u) u = Dict.update d u := by
  apply Dict.ext_keys ((hd.update u).update u)
  · exact Dict.update_self_keys fun k hk => Dict.mem_keys_update.2 (Or.inr hk)
  · intro k
    rw [Dict.get?_update hu, Dict.get?_update hu]
    cases Dict.get? u k <;> rfl

theorem setSitesP_idem {s : SimState} (hs : s.WF) {d : Props} (hd : (Val.dict d).WF) :
    (setSitesP (setSitesP s d) d).sites = (setSitesP s d).sites := by
  apply Dict.ext_keys
  · exact ((hs.setSitesP fun _ h => hd.entry h).setSitesP fun _ h => hd.entry h).sites
  · have h1 := siteIds_setSitesP (setSitesP s d) d
    have h2 := siteIds_setSitesP s d
    unfold siteIds at h1 h2
    rw [h1, h2]
    have key : ∀ (l acc : List Key), (∀ k ∈ l, k ∈ acc) → addIds acc l = acc := by
      intro l
      induction l with
      | nil => intros; rfl
      | cons a l ih =>
        intro acc h
        have ha : a ∈ acc := h a (by simp)
        have : addIds acc (a :: l) = addIds (if a ∈ acc then acc else acc ++ [a]) l := rfl
        rw [this, if_pos ha]
        exact ih acc fun k hk => h k (by simp [hk])
    exact key _ _ fun k hk => mem_addIds.2 (Or.inr hk)
  · intro k
    rw [get?_setSitesP hd.keys]
    cases h : Dict.get? d k with
    | none => rfl
    | some v =>
      have h1 : Dict.get? (setSitesP s d).sites k = some (Dict.update (oldOf s k) (dictOf v)) := by
        rw [get?_setSitesP hd.keys, h]
      have h2 : oldOf (setSitesP s d) k = Dict.update (oldOf s k) (dictOf v) := by
        simp [oldOf, h1]
      rw [h1, h2]
      simp only [Option.some.injEq]
      exact update_idem (wf_oldOf hs k).keys (wf_asDict (hd.get? h))

/-- C06: applying a batch a second time changes nothing at all (not even insertion order). -/
theorem C06_batch_idempotent (s s' : SimState) (hs : s.WF) (b : Props) (hb : (Val.dict b).WF)
    (h : s.batchUpdate b = .ok s') : s'.batchUpdate b = .ok s' := by
  have all {d : Props} (hd : ∀ kv ∈ d, ∃ u, kv.2 = .dict u) : (d.all fun kv => isDict kv.2) = true := by
    rw [List.all_eq_true]; exact fun kv hkv => isDict_iff.2 (hd kv hkv)
  rcases batchUpdate_ok h with ⟨h1, h2, rfl⟩ | ⟨g, d, g0, h1, h2, h3, h4, rfl⟩
  · unfold batchUpdate
    simp only [h1, setSites_eq, all h2, if_true, Except.ok.injEq]
    exact ext' (setSitesP_idem hs hb) (by simp)
  · have hdw : (Val.dict d).WF := by
      rcases h2 with h | ⟨_, rfl⟩
      · exact hb.get? h
      · exact .dict (by simp [Dict.WF]) (by simp)
    have hgw : (Val.dict g).WF := hb.get? h1
    have e1 : ∀ (t : SimState) (x : Option Props) (d : Props),
        (setSitesP { t with general := x } d).sites = (setSitesP t d).sites := by
      intro t x d
      induction d generalizing t with
      | nil => rfl
      | cons p d ih =>
        rw [setSitesP_cons, setSitesP_cons]
        have : setSiteState { t with general := x } p.1 (dictOf p.2) =
          { setSiteState t p.1 (dictOf p.2) with general := x } := rfl
        rw [this]; exact ih _
    have e2 := (e1 (setSitesP s d) (some (Dict.update g0 g)) d).trans (setSitesP_idem hs hdw)
    have e3 := update_idem (hs.general g0 h4).keys hgw.keys
    have goal : (do setGeneralStateV (← setSites
        ({ setSitesP s d with general := some (Dict.update g0 g) } : SimState) d) (.dict g)) =
        Except.ok { setSitesP s d with general := some (Dict.update g0 g) } := by
      rw [setSites_eq, if_pos (all h3)]
      simp [bind, Except.bind, setGeneralStateV, setGeneralState, e2, e3]
    unfold batchUpdate
    rcases h2 with h2 | ⟨h2, rfl⟩
    · simp only [h1, h2]; exact goal
    · simp only [h1, h2]; exact goal

example : SimState.WF ⟨[(.int 0, [(.str "a", .num 1)])], some []⟩ := by
  refine ⟨by simp [Dict.WF], ?_, ?_⟩
  · simp; exact .dict (by simp [Dict.WF]) (by simp; constructor)
  · intro g h; simp at h; subst h; exact .dict (by simp [Dict.WF]) (by simp)

/-- Well-formedness (what every Python object satisfies) is kept by every operation, so the hypotheses
`WF` of these theorems are met in every reachable state. -/
theorem WF_batchUpdate {s s' : SimState} (hs : s.WF) {b : Props} (hb : (Val.dict b).WF)
    (h : s.batchUpdate b = .ok s') : s'.WF := by
  rcases batchUpdate_ok h with ⟨h1, h2, rfl⟩ | ⟨g, d, g0, h1, h2, h3, h4, rfl⟩
  · exact hs.setSitesP fun _ h => hb.entry h
  · have hdw : (Val.dict d).WF := by
      rcases h2 with h | ⟨_, rfl⟩
      · exact hb.get? h
      · exact .dict (by simp [Dict.WF]) (by simp)
    have h5 := hs.setSitesP (d := d) fun _ h => hdw.entry h
    refine ⟨h5.sites, h5.site, ?_⟩
    intro g' h'; simp at h'; subst h'
    exact (hs.general g0 h4).update (hb.get? h1)

/-! ### C07 -/

/-- C07: `set_general_state` merges into the general state and leaves all sites alone. -/
theorem C07_general_merge (s : SimState) (g u : Props) (hu : Dict.WF u) (hg : s.getGeneralState = some g) :
    ∃ s' g', s.setGeneralState u = .ok s' ∧ s'.getGeneralState = some g' ∧ Merged g u g' ∧
      s'.siteIds = s.siteIds ∧ ∀ i, s'.getSiteState i = s.getSiteState i := by
  have hg' : s.general = some g := hg
  exact ⟨{ s with general := some (Dict.update g u) }, Dict.update g u, by simp [setGeneralState, hg'], rfl,
    merged_update hu, rfl, fun _ => rfl⟩

/-- C07: without a GENERAL section the getter returns None and the setter raises TypeError. -/
theorem C07_general_missing (sites : Dict Key Props) (u : Props) :
    (SimState.mk sites none).getGeneralState = none ∧
    (SimState.mk sites none).setGeneralState u = .error .typeError := ⟨rfl, rfl⟩

/-- C07: `set_site_state` never changes the general state. -/
theorem C07_site_keeps_general (s : SimState) (i : Key) (u : Props) :
    (s.setSiteState i u).getGeneralState = s.getGeneralState := rfl

/-! ### C08 -/

/-- C08: `==` on states is an equivalence relation. -/
theorem C08_equivalence : Equivalence SimState.Eqv :=
  ⟨SimState.Eqv.refl, SimState.Eqv.symm, SimState.Eqv.trans⟩

/-- C08: `==` ignores the order in which sites were inserted. -/
theorem C08_order_irrelevant (s t : SimState) (hs : s.WF) (h : s.sites.Perm t.sites)
    (hg : s.general = t.general) : s.Eqv t := by
  refine ⟨Dict.EqvBy.of_perm (Dict.EqvBy.refl Val.PyEq.refl) hs.sites h, ?_⟩
  rw [hg]; cases t.general
  · trivial
  · exact Dict.EqvBy.refl Val.PyEq.refl _

/-- C08: `==` is not trivial: equal states agree on which sites exist and answer `get_site_state` with equal dicts. -/
theorem C08_get_site_state (s t : SimState) (h : s.Eqv t) (i : Key) :
    (i ∈ s.siteIds ↔ i ∈ t.siteIds) ∧
    ∀ p q, s.getSiteState i = some p → t.getSiteState i = some q → Val.PyEq (.dict p) (.dict q) :=
  ⟨h.1.mem_keys i, fun p q hp hq => Val.pyEq_dict ((h.1 i).2 p q hp hq)⟩

/-- C08: equal states stay equal under the same (or equal) updates. -/
theorem C08_congruence (s t : SimState) (h : s.Eqv t) (u v : Props) (hu : (Val.dict u).WF)
    (hv : (Val.dict v).WF) (huv : Val.PyEq (.dict u) (.dict v)) (i : Key) :
    (s.setSiteState i u).Eqv (t.setSiteState i v) ∧
    SameOutcome (s.setGeneralState u) (t.setGeneralState v) ∧
    SameOutcome (s.batchUpdate u) (t.batchUpdate v) :=
  ⟨eqv_setSiteState h i hu.keys hv.keys (Val.pyEq_dict_iff huv),
    sameOutcome_setGeneralState h hu.keys hv.keys (Val.pyEq_dict_iff huv),
    sameOutcome_batchUpdate h hu hv huv⟩

/-- C08: states that differ in one value are not equal. -/
example : ¬ SimState.Eqv ⟨[(.int 0, [(.str "a", .num 1)])], some []⟩ ⟨[(.int 0, [(.str "a", .num 2)])], some []⟩ := by
  intro h
  have h1 := (h.1 (.int 0)).2 _ _ rfl rfl
  have h2 := (h1 (.str "a")).2 _ _ rfl rfl
  cases h2

/-! ### C81 -/

theorem setSiteState_fresh (s : SimState) (k : Key) (hk : k ∉ s.siteIds) :
    s.setSiteState k [] = ⟨s.sites ++ [(k, [(SITE_ID, k.toVal)])], s.general⟩ := by
  have h1 : Dict.get? s.sites k = none := by
    cases h : Dict.get? s.sites k with
    | none => rfl
    | some p => exact absurd (List.mem_map.2 ⟨(k, p), Dict.mem_of_get? h, rfl⟩) hk
  have h2 : ∀ d : Dict Key Props, k ∉ Dict.keys d → ∀ p, Dict.set d k p = d ++ [(k, p)] := by
    intro d
    induction d with
    | nil => intro _ _; rfl
    | cons e d ih =>
      intro hk p
      obtain ⟨k', q⟩ := e
      simp only [Dict.keys, List.map_cons, List.mem_cons, not_or] at hk
      simp only [Dict.set, if_neg (Ne.symm hk.1), List.cons_append]
      rw [ih hk.2]
  simp only [setSiteState, h1]
  rw [h2 _ hk]; rfl

/-- C81: the state made from a structure has the structure's site ids in order, every site holding only its own id, and an
empty general state. -/
theorem C81_from_struct (ids : List Key) (h : ids.Nodup) :
    (fromStruct ids).siteIds = ids ∧ (∀ k ∈ ids, (fromStruct ids).getSiteState k = some [(SITE_ID, k.toVal)]) ∧
      (fromStruct ids).getGeneralState = some [] := by
  have key : ∀ (l : List Key) (s : SimState), (s.siteIds ++ l).Nodup →
      l.foldl (fun s sid => setSiteState s sid []) s = ⟨s.sites ++ l.map fun k => (k, [(SITE_ID, k.toVal)]), s.general⟩ := by
    intro l
    induction l with
    | nil => intro s _; simp
    | cons k l ih =>
      intro s hs
      have hk : k ∉ s.siteIds := by
        intro hk
        have := List.nodup_append.1 hs
        exact this.2.2 k hk k (by simp) rfl
      rw [List.foldl_cons, setSiteState_fresh s k hk, ih]
      · simp
      · simp only [siteIds, Dict.keys, List.map_append, List.map_cons, List.map_nil, List.append_assoc,
          List.singleton_append]
        exact hs
  have e : fromStruct ids = ⟨ids.map fun k => (k, [(SITE_ID, k.toVal)]), some []⟩ := by
    rw [fromStruct, key ids .empty (by simpa [siteIds, empty, Dict.keys] using h)]
    simp [empty]
  rw [e]
  have hkeys : Dict.keys (ids.map fun k => (k, ([(SITE_ID, k.toVal)] : Props))) = ids := by
    simp [Dict.keys, Function.comp_def]
  refine ⟨hkeys, fun k hk => ?_, rfl⟩
  exact Dict.get?_of_mem (by rw [Dict.WF, hkeys]; exact h) (List.mem_map.2 ⟨k, hk, rfl⟩)

example : ([.int 0, .int 1, .int 2] : List Key).Nodup := by decide

end Pyl
