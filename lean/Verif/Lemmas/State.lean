import Verif.Model.State
import Verif.Lemmas.Dict

set_option linter.unusedSectionVars false

set_option autoImplicit false

namespace Pyl
namespace SimState

theorem ext' {s t : SimState} (h : s.sites = t.sites) (h' : s.general = t.general) : s = t := by
  cases s; cases t; simp_all

/-- The dict inside a value (`[]` for a non-dict). -/
def dictOf : Val → Props
  | .dict d => d
  | _ => []

/-- A value is a dict. -/
def isDict : Val → Bool
  | .dict _ => true
  | _ => false

theorem isDict_iff {v : Val} : isDict v = true ↔ ∃ u, v = .dict u := by
  cases v <;> simp [isDict]

/-- `set_site_state` for every entry, no errors. -/
def setSitesP (s : SimState) (d : Props) : SimState :=
  d.foldl (fun s ku => setSiteState s ku.1 (dictOf ku.2)) s

@[simp] theorem setSitesP_nil (s : SimState) : setSitesP s [] = s := rfl
@[simp] theorem setSitesP_cons (s : SimState) (p) (d : Props) :
    setSitesP s (p :: d) = setSitesP (setSiteState s p.1 (dictOf p.2)) d := rfl

theorem setSites_cons (s : SimState) (p) (d : Props) :
    setSites s (p :: d) = (setSiteStateV s p.1 p.2).bind (fun s' => setSites s' d) := rfl

theorem setSites_eq (s : SimState) (d : Props) :
    setSites s d = if d.all (fun kv => isDict kv.2) then .ok (setSitesP s d) else .error .typeError := by
  induction d generalizing s with
  | nil => rfl
  | cons p d ih =>
    obtain ⟨k, v⟩ := p
    rw [setSites_cons]
    cases v <;> simp only [setSiteStateV, Except.bind, List.all_cons, ih, setSitesP_cons] <;> rfl

theorem setSites_ok {s s' : SimState} {d : Props} (h : setSites s d = .ok s') :
    s' = setSitesP s d ∧ ∀ kv ∈ d, ∃ u, kv.2 = .dict u := by
  rw [setSites_eq] at h
  split_ifs at h with hd
  · injection h with h
    refine ⟨h.symm, fun kv hkv => ?_⟩
    exact isDict_iff.1 (List.all_eq_true.1 hd kv hkv)

@[simp] theorem general_setSiteState (s : SimState) (i : Key) (u : Props) :
    (setSiteState s i u).general = s.general := rfl

@[simp] theorem general_setSitesP (s : SimState) (d : Props) : (setSitesP s d).general = s.general := by
  induction d generalizing s with
  | nil => rfl
  | cons p d ih => simp [ih]

/-- The dict `set_site_state` starts from. -/
def oldOf (s : SimState) (i : Key) : Props :=
  (Dict.get? s.sites i).getD [(SITE_ID, i.toVal)]

theorem setSiteState_sites (s : SimState) (i : Key) (u : Props) :
    (setSiteState s i u).sites = Dict.set s.sites i (Dict.update (oldOf s i) u) := by
  unfold setSiteState oldOf
  cases Dict.get? s.sites i <;> rfl

theorem get?_setSiteState (s : SimState) (i : Key) (u : Props) (j : Key) :
    Dict.get? (setSiteState s i u).sites j =
      if i = j then some (Dict.update (oldOf s i) u) else Dict.get? s.sites j := by
  rw [setSiteState_sites, Dict.get?_set]

theorem oldOf_congr {s t : SimState} {i : Key} (h : Dict.get? s.sites i = Dict.get? t.sites i) :
    oldOf s i = oldOf t i := by simp [oldOf, h]

theorem get?_setSitesP {d : Props} (hd : Dict.WF d) (s : SimState) (j : Key) :
    Dict.get? (setSitesP s d).sites j =
      match Dict.get? d j with
      | none => Dict.get? s.sites j
      | some v => some (Dict.update (oldOf s j) (dictOf v)) := by
  induction d generalizing s with
  | nil => simp
  | cons p d ih =>
    obtain ⟨k, v⟩ := p
    rw [setSitesP_cons, ih hd.tail, Dict.get?_cons]
    by_cases h : k = j
    · subst h
      have := Dict.get?_eq_none_iff.2 hd.head
      simp only at this
      rw [this]; simp [get?_setSiteState]
    · have h2 : Dict.get? (s.setSiteState k (dictOf v)).sites j = Dict.get? s.sites j := by
        simp [get?_setSiteState, h]
      simp only [h, if_false, h2, oldOf_congr h2]

theorem keys_setSiteState (s : SimState) (i : Key) (u : Props) :
    (setSiteState s i u).siteIds = if i ∈ s.siteIds then s.siteIds else s.siteIds ++ [i] := by
  unfold siteIds; rw [setSiteState_sites, Dict.keys_set]

theorem wf_oldOf {s : SimState} (hs : s.WF) (i : Key) : (Val.dict (oldOf s i)).WF := by
  unfold oldOf
  cases h : Dict.get? s.sites i with
  | none =>
    refine .dict (by simp [Dict.WF]) ?_
    simp; cases i <;> constructor
  | some p => exact hs.site _ (Dict.mem_of_get? h)

theorem WF.setSiteState {s : SimState} (hs : s.WF) (i : Key) {u : Props} (hu : (Val.dict u).WF) :
    (setSiteState s i u).WF := by
  refine ⟨?_, ?_, hs.general⟩
  · rw [setSiteState_sites]; exact hs.sites.set _ _
  · intro kv hkv
    rw [setSiteState_sites] at hkv
    rcases Dict.mem_set hkv with h | ⟨h, _⟩
    · exact hs.site _ h
    · rw [h]; exact (wf_oldOf hs i).update hu

theorem WF.setSitesP {s : SimState} (hs : s.WF) {d : Props} (hd : ∀ kv ∈ d, kv.2.WF) :
    (setSitesP s d).WF := by
  induction d generalizing s with
  | nil => exact hs
  | cons p d ih =>
    refine ih (hs.setSiteState _ ?_) fun kv hkv => hd kv (by simp [hkv])
    have := hd p (by simp)
    cases hp : p.2 <;> simp_all [dictOf] <;> exact .dict (by simp [Dict.WF]) (by simp)

theorem WF.setGeneral {s s' : SimState} (hs : s.WF) {u : Props} (hu : (Val.dict u).WF)
    (h : setGeneralState s u = .ok s') : s'.WF := by
  unfold setGeneralState at h
  cases hg : s.general with
  | none => simp [hg] at h
  | some g =>
    simp [hg] at h; subst h
    refine ⟨hs.sites, hs.site, ?_⟩
    intro g' h'; simp at h'; subst h'
    exact (hs.general g hg).update hu

/-- `batch_update` case analysis. -/
theorem batchUpdate_ok {s s' : SimState} {b : Props} (h : batchUpdate s b = .ok s') :
    (Dict.get? b GENERAL = none ∧ (∀ kv ∈ b, ∃ u, kv.2 = .dict u) ∧ s' = setSitesP s b) ∨
    ∃ g d g0, Dict.get? b GENERAL = some (.dict g) ∧
      (Dict.get? b SITES = some (.dict d) ∨ Dict.get? b SITES = none ∧ d = []) ∧
      (∀ kv ∈ d, ∃ u, kv.2 = .dict u) ∧ s.general = some g0 ∧
      s' = { setSitesP s d with general := some (Dict.update g0 g) } := by
  unfold batchUpdate at h
  have key : ∀ (d : Props) (g : Val), (do setGeneralStateV (← setSites s d) g) = Except.ok s' →
      ∃ g1 g0, g = .dict g1 ∧ (∀ kv ∈ d, ∃ u, kv.2 = .dict u) ∧ s.general = some g0 ∧
      s' = { setSitesP s d with general := some (Dict.update g0 g1) } := by
    intro d g h
    cases hs : setSites s d with
    | error e => simp [hs, bind, Except.bind] at h
    | ok s1 =>
      obtain ⟨h1, h2⟩ := setSites_ok hs
      simp [hs, bind, Except.bind] at h
      cases g <;> simp [setGeneralStateV] at h
      rename_i g1
      unfold setGeneralState at h
      subst h1
      cases hg : s.general with
      | none => simp [hg] at h
      | some g0 => simp [hg] at h; exact ⟨g1, g0, rfl, h2, rfl, h.symm⟩
  cases hG : Dict.get? b GENERAL with
  | none =>
    simp [hG] at h
    obtain ⟨h1, h2⟩ := setSites_ok h
    exact Or.inl ⟨rfl, h2, h1⟩
  | some g =>
    right
    simp only [hG] at h
    cases hS : Dict.get? b SITES with
    | none =>
      simp only [hS] at h
      obtain ⟨g1, g0, rfl, h2, h3, h4⟩ := key [] g h
      exact ⟨g1, [], g0, rfl, Or.inr ⟨rfl, rfl⟩, h2, h3, h4⟩
    | some v =>
      cases v <;> simp [hS] at h
      rename_i d
      obtain ⟨g1, g0, rfl, h2, h3, h4⟩ := key d g h
      exact ⟨g1, d, g0, rfl, Or.inl rfl, h2, h3, h4⟩

end SimState
end Pyl
