import Verif.Spec.RawState
import Verif.Props.Loading
/-
C129: states of any shape.
-/
set_option autoImplicit false

namespace Pyl
open Spec
namespace Raw

theorem embed_get (ps : Dict Key Props) (k : Key) : Dict.get? (ps.map fun kp => (kp.1, Val.dict kp.2)) k = (Dict.get? ps k).map Val.dict := by
  induction ps with
  | nil => rfl
  | cons a ps ih =>
    rw [List.map_cons, Dict.get?_cons, Dict.get?_cons, ih]
    by_cases h : a.1 = k
    · rw [if_pos h, if_pos h]; rfl
    · rw [if_neg h, if_neg h]

theorem embed_set (ps : Dict Key Props) (k : Key) (p : Props) :
    Dict.set (ps.map fun kp => (kp.1, Val.dict kp.2)) k (.dict p) = (Dict.set ps k p).map fun kp => (kp.1, Val.dict kp.2) := by
  induction ps with
  | nil => rfl
  | cons a ps ih =>
    rw [List.map_cons, Dict.set, Dict.set]
    by_cases h : a.1 = k
    · rw [if_pos h, if_pos h]; rfl
    · rw [if_neg h, if_neg h, ih]; rfl

theorem embed_keys (ps : Dict Key Props) : Dict.keys (ps.map fun kp => (kp.1, Val.dict kp.2)) = Dict.keys ps := by
  simp [Dict.keys, Function.comp_def]

theorem Holds.item {v : Val} {s : SimState} (h : Holds v s) : item v SITES = .ok (.dict (s.sites.map fun kp => (kp.1, .dict kp.2))) := by
  obtain ⟨d, rfl, h1, -⟩ := h
  have h1' : Dict.get? d SITES = _ := h1
  simp only [Raw.item, h1']

/-- C129: what a raw state of the right shape shows. -/
theorem C129_reads {v : Val} {s : SimState} (h : Holds v s) :
    siteIds v = .ok s.siteIds ∧ size v = .ok s.size ∧ allSiteStates v = .ok (s.allSiteStates.map Val.dict) ∧
    (∀ k, getSiteState v k = .ok (((s.getSiteState k).map Val.dict).getD .pyNone)) ∧
    getGeneralState v = .ok ((s.getGeneralState.map Val.dict).getD .pyNone) := by
  have hi := Holds.item h
  refine ⟨?_, ?_, ?_, fun k => ?_, ?_⟩
  · simp only [siteIds, hi, ok_bind, methods, embed_keys]; rfl
  · simp only [size, siteIds, hi, ok_bind, methods, embed_keys]; rfl
  · simp only [allSiteStates, hi, ok_bind, methods]
    simp [Dict.values, SimState.allSiteStates, pure, Except.pure, Function.comp_def]
  · simp only [getSiteState, hi, ok_bind, methods, embed_get]; rfl
  · obtain ⟨d, rfl, -, h2⟩ := h
    have h2' : Dict.get? d GENERAL = _ := h2
    simp only [getGeneralState, methods, ok_bind, h2']; rfl

theorem sameExtras_refl (d : Props) : SameExtras (.dict d) (.dict d) := ⟨d, d, rfl, rfl, fun _ _ _ => rfl⟩

theorem sameExtras_trans {u v w : Val} (h : SameExtras u v) (h' : SameExtras v w) : SameExtras u w := by
  obtain ⟨d, e, rfl, rfl, h1⟩ := h
  obtain ⟨e', f, h2, rfl, h3⟩ := h'
  injection h2 with h2
  subst h2
  exact ⟨d, f, rfl, rfl, fun k hk hk' => (h1 k hk hk').trans (h3 k hk hk')⟩

theorem holds_extras {v : Val} {s : SimState} (h : Holds v s) : SameExtras v v := by
  obtain ⟨d, rfl, -⟩ := h
  exact sameExtras_refl d

/-- C129: `set_site_state` and `set_general_state` do what they do on `SimState`, and leave further entries alone. -/
theorem C129_set {v : Val} {s : SimState} (h : Holds v s) (k : Key) (u : Val) :
    (∀ s', s.setSiteStateV k u = .ok s' → ∃ v', setSiteState v k u = .ok v' ∧ Holds v' s' ∧ SameExtras v v') ∧
    (∀ e, s.setSiteStateV k u = .error e → setSiteState v k u = .error e) ∧
    (∀ s', s.setGeneralStateV u = .ok s' → ∃ v', setGeneralState v u = .ok v' ∧ Holds v' s' ∧ SameExtras v v') ∧
    (∀ e, s.setGeneralStateV u = .error e → setGeneralState v u = .error e) := by
  have hi := Holds.item h
  have hold : oldSite (s.sites.map fun kp => (kp.1, Val.dict kp.2)) k = .dict (match Dict.get? s.sites k with
      | some o => o
      | none => [(SITE_ID, k.toVal)]) := by
    unfold oldSite
    rw [embed_get]
    cases Dict.get? s.sites k <;> rfl
  obtain ⟨d, rfl, h1, h2⟩ := h
  have hg : getGeneralState (.dict d) = .ok ((s.general.map Val.dict).getD .pyNone) := (C129_reads ⟨d, rfl, h1, h2⟩).2.2.2.2
  refine ⟨fun s' hs => ?_, fun e hs => ?_, fun s' hs => ?_, fun e hs => ?_⟩
  · cases u with
    | dict u =>
      injection hs with hs
      subst hs
      refine ⟨_, by simp only [setSiteState, hi, ok_bind, methods, hold, unpack, setItem]; rfl, ⟨_, rfl, ?_, ?_⟩, ⟨d, _, rfl, rfl, fun k' hk hk' => ?_⟩⟩
      · show Dict.get? (Dict.set d SITES _) SITES = _
        rw [Dict.get?_set, if_pos rfl, embed_set]; rfl
      · show Dict.get? (Dict.set d SITES _) GENERAL = _
        rw [Dict.get?_set, if_neg (by decide)]; exact h2
      · rw [Dict.get?_set]; exact (if_neg (Ne.symm hk)).symm
    | _ => cases hs
  · cases u with
    | dict u => cases hs
    | _ => injection hs with hs; subst hs; simp only [setSiteState, hi, ok_bind, methods, hold, unpack]; rfl
  · cases u with
    | dict u =>
      simp only [SimState.setGeneralStateV, SimState.setGeneralState] at hs
      cases hgen : s.general with
      | none => rw [hgen] at hs; cases hs
      | some g =>
        rw [hgen] at hs hg
        injection hs with hs
        subst hs
        refine ⟨_, by simp only [setGeneralState, hg, ok_bind, Option.map_some, Option.getD_some, unpack, setItem]; rfl, ⟨_, rfl, ?_, ?_⟩,
          ⟨d, _, rfl, rfl, fun k' hk hk' => ?_⟩⟩
        · show Dict.get? (Dict.set d GENERAL _) SITES = _
          rw [Dict.get?_set, if_neg (by decide)]; exact h1
        · show Dict.get? (Dict.set d GENERAL _) GENERAL = _
          rw [Dict.get?_set, if_pos rfl]; rfl
        · rw [Dict.get?_set]; exact (if_neg (Ne.symm hk')).symm
    | _ => cases hs
  · simp only [setGeneralState, hg, ok_bind]
    cases hgen : s.general with
    | none =>
      have : e = .typeError := by
        cases u <;> simp only [SimState.setGeneralStateV, SimState.setGeneralState, hgen] at hs <;> (injection hs with hs; exact hs.symm)
      rw [this]; rfl
    | some g =>
      cases u with
      | dict u => simp only [SimState.setGeneralStateV, SimState.setGeneralState, hgen] at hs; cases hs
      | _ => injection hs with hs; subst hs; rfl

theorem setSites_holds {v : Val} {s : SimState} (h : Holds v s) (d : Props) : Holds (setSites v d).1 (s.setSitesEff d).1 ∧
    (setSites v d).2 = (s.setSitesEff d).2 ∧ SameExtras v (setSites v d).1 := by
  induction d generalizing v s with
  | nil => exact ⟨h, rfl, holds_extras h⟩
  | cons a d ih =>
    obtain ⟨k, u⟩ := a
    obtain ⟨h1, h2, -⟩ := C129_set h k u
    rw [setSites, SimState.setSitesEff]
    cases hs : s.setSiteStateV k u with
    | ok s' =>
      obtain ⟨v', e1, e2, e3⟩ := h1 s' hs
      rw [e1]
      obtain ⟨i1, i2, i3⟩ := ih e2
      exact ⟨i1, i2, sameExtras_trans e3 i3⟩
    | error e =>
      rw [h2 e hs]
      exact ⟨h, rfl, holds_extras h⟩

/-- C129: `batch_update` does what it does on `SimState`, also when it raises half way; a batch that is no dict raises and changes nothing. -/
theorem C129_batch {v : Val} {s : SimState} (h : Holds v s) :
    (∀ b, Holds (batchUpdate v (.dict b)).1 (s.batchUpdateEff b).1 ∧ (batchUpdate v (.dict b)).2 = (s.batchUpdateEff b).2 ∧
      SameExtras v (batchUpdate v (.dict b)).1) ∧
    (∀ q, batchUpdate v .pyNone = (v, some .typeError) ∧ batchUpdate v (.num q) = (v, some .typeError)) ∧
    ∀ l t, batchUpdate v (.list l) = (v, some .attributeError) ∧ batchUpdate v (.tup l) = (v, some .attributeError) ∧
      batchUpdate v (.str t) = (v, some .attributeError) := by
  refine ⟨?_, fun q => ⟨rfl, rfl⟩, fun l t => ⟨rfl, rfl, rfl⟩⟩
  · intro b
    have hfin : ∀ d g, Holds (match setSites v d with
          | (v', some e) => (v', some e)
          | (v', none) =>
            match setGeneralState v' g with
            | .ok v'' => (v'', none)
            | .error e => (v', some e) : Val × Option Err).1 (match s.setSitesEff d with
          | (s', some e) => (s', some e)
          | (s', none) =>
            match s'.setGeneralStateV g with
            | .ok s'' => (s'', none)
            | .error e => (s', some e) : SimState × Option Err).1 ∧ (match setSites v d with
          | (v', some e) => (v', some e)
          | (v', none) =>
            match setGeneralState v' g with
            | .ok v'' => (v'', none)
            | .error e => (v', some e) : Val × Option Err).2 = (match s.setSitesEff d with
          | (s', some e) => (s', some e)
          | (s', none) =>
            match s'.setGeneralStateV g with
            | .ok s'' => (s'', none)
            | .error e => (s', some e) : SimState × Option Err).2 ∧ SameExtras v (match setSites v d with
          | (v', some e) => (v', some e)
          | (v', none) =>
            match setGeneralState v' g with
            | .ok v'' => (v'', none)
            | .error e => (v', some e) : Val × Option Err).1 := by
      intro d g
      obtain ⟨h1, h2, h3⟩ := setSites_holds h d
      rcases hv : setSites v d with ⟨v', o⟩
      rcases hs : s.setSitesEff d with ⟨s', o'⟩
      rw [hv, hs] at h1 h2
      rw [hv] at h3
      simp only at h1 h2 h3
      subst h2
      cases o with
      | some e => exact ⟨h1, rfl, h3⟩
      | none =>
        obtain ⟨-, -, g1, g2⟩ := C129_set h1 (.int 0) g
        cases hg : s'.setGeneralStateV g with
        | ok s'' =>
          obtain ⟨v'', e1, e2, e3⟩ := g1 s'' hg
          simp only [hg, e1]
          exact ⟨e2, trivial, sameExtras_trans h3 e3⟩
        | error e =>
          simp only [hg, g2 e hg]
          exact ⟨h1, trivial, h3⟩
    unfold batchUpdate SimState.batchUpdateEff
    cases hG : Dict.get? b GENERAL with
    | none => simp only [hG]; exact setSites_holds h b
    | some g =>
      cases hS : Dict.get? b SITES with
      | none => simp only [hG, hS]; exact hfin [] g
      | some x =>
        simp only [hG, hS]
        cases x with
        | dict d => exact hfin d g
        | _ => exact ⟨h, rfl, holds_extras h⟩

/-- C129: the constructor and `copy`.  Without argument (or with None) the state is empty; every other value is taken as it is, and the dict that `as_dict` hands out
holds the state. -/
theorem C129_init : Holds (init .pyNone) SimState.empty ∧ (∀ v, v ≠ .pyNone → init v = v) ∧ (∀ v, copy (init v) = init v) ∧
    ∀ s : SimState, Holds (init (.dict s.stateDict)) s := by
  refine ⟨⟨_, rfl, rfl, rfl⟩, fun v hv => ?_, fun v => ?_, fun s => ⟨_, rfl, ?_, ?_⟩⟩
  · cases v <;> first | exact absurd rfl hv | rfl
  · cases v <;> rfl
  · rw [SimState.stateDict, Dict.get?_cons]; exact if_pos rfl
  · rw [SimState.stateDict, Dict.get?_cons, if_neg (by decide)]
    cases s.general <;> rfl

/-- C129: states of another shape are accepted by the constructor and fail when they are used. -/
theorem C129_malformed (v : Val) (k : Key) (u : Val) :
    ((∀ d, v ≠ .dict d) → siteIds v = .error .typeError ∧ size v = .error .typeError ∧ allSiteStates v = .error .typeError ∧
      getSiteState v k = .error .typeError ∧ setSiteState v k u = .error .typeError ∧ getGeneralState v = .error .attributeError ∧
      setGeneralState v u = .error .attributeError) ∧
    (∀ d, v = .dict d → Dict.get? d (.str "SITES") = none → siteIds v = .error .keyError ∧ size v = .error .keyError ∧
      allSiteStates v = .error .keyError ∧ getSiteState v k = .error .keyError ∧ setSiteState v k u = .error .keyError) ∧
    (∀ d x, v = .dict d → Dict.get? d (.str "SITES") = some x → (∀ l, x ≠ .dict l) → siteIds v = .error .attributeError ∧
      size v = .error .attributeError ∧ allSiteStates v = .error .attributeError ∧ getSiteState v k = .error .attributeError ∧
      setSiteState v k u = .error .attributeError) ∧
    (∀ d, v = .dict d → (∀ g, Dict.get? d (.str "GENERAL") ≠ some (.dict g)) → setGeneralState v u = .error .typeError) := by
  refine ⟨fun h => ?_, fun d hv h => ?_, fun d x hv h hx => ?_, fun d hv h => ?_⟩
  · cases v <;> first | exact absurd rfl (h _) | exact ⟨rfl, rfl, rfl, rfl, rfl, rfl, rfl⟩
  · subst hv
    have hi : item (.dict d) SITES = .error .keyError := by
      have h' : Dict.get? d SITES = none := h
      simp only [item, h']
    simp only [siteIds, size, allSiteStates, getSiteState, setSiteState, hi]
    exact ⟨rfl, rfl, rfl, rfl, rfl⟩
  · subst hv
    have hi : item (.dict d) SITES = .ok x := by
      have h' : Dict.get? d SITES = some x := h
      simp only [item, h']
    have hm : methods x = .error .attributeError := by cases x <;> first | exact absurd rfl (hx _) | rfl
    simp only [siteIds, size, allSiteStates, getSiteState, setSiteState, hi, ok_bind, hm]
    exact ⟨rfl, rfl, rfl, rfl, rfl⟩
  · subst hv
    have hg : getGeneralState (.dict d) = .ok ((Dict.get? d GENERAL).getD .pyNone) := rfl
    have hm : unpack ((Dict.get? d GENERAL).getD .pyNone) = .error .typeError := by
      cases hd : Dict.get? d GENERAL with
      | none => rfl
      | some x => cases x <;> first | exact absurd hd (h _) | rfl
    simp only [setGeneralState, hg, ok_bind, hm]
    rfl

/-- C129: a site whose stored state is not a dict.  None counts as no state; anything else makes `set_site_state` raise TypeError and is shown as it is by
`get_site_state`. -/
theorem C129_odd_site {d sites : Props} (hd : Dict.get? d (.str "SITES") = some (.dict sites)) (k : Key) (x : Val) (hx : Dict.get? sites k = some x) (u : Props) :
    getSiteState (.dict d) k = .ok x ∧
    (x = .pyNone → setSiteState (.dict d) k (.dict u) =
      .ok (.dict (Dict.set d (.str "SITES") (.dict (Dict.set sites k (.dict (Dict.update [(SITE_ID, k.toVal)] u))))))) ∧
    (x ≠ .pyNone → (∀ p, x ≠ .dict p) → ∀ w, setSiteState (.dict d) k w = .error .typeError) := by
  have hi : item (.dict d) SITES = .ok (.dict sites) := by
    have h' : Dict.get? d SITES = _ := hd
    simp only [item, h']
  refine ⟨?_, fun h => ?_, fun h h' w => ?_⟩
  · simp only [getSiteState, hi, ok_bind, methods, hx]; rfl
  · subst h
    simp only [setSiteState, hi, ok_bind, methods, oldSite, hx, unpack, setItem]; rfl
  · have ho : oldSite sites k = x := by
      unfold oldSite
      rw [hx]
      cases x <;> first | exact absurd rfl h | rfl
    have hu : unpack x = .error .typeError := by cases x <;> first | exact absurd rfl (h' _) | rfl
    simp only [setSiteState, hi, ok_bind, methods, ho, hu]
    rfl

/-- C129: `from_dict` for all documents: it loads iff there is a dict of sites whose keys are all int literals, whatever the values are; the ids become ints, of
several keys for the same site the last decides, and every other entry of the state is kept. -/
theorem C129_from_dict (doc : Val) :
    (∀ v, fromDict doc = .ok v → ∃ dd st sites d, doc = .dict dd ∧ StateParts dd st sites ∧ (∀ kv ∈ sites, ∃ i, Denotes kv.1 i) ∧ v = .dict d ∧
      (∃ e, Dict.get? d (.str "SITES") = some (.dict e) ∧ (Dict.keys e).Nodup ∧ (∀ k ∈ Dict.keys e, ∃ i, k = .int i) ∧
        ∀ i x, Dict.get? e (.int i) = some x ↔ LastEntry sites i x) ∧
      ∀ k, k ≠ .str "SITES" → Dict.get? d k = Dict.get? st k) ∧
    (∀ dd st sites, doc = .dict dd → StateParts dd st sites → (∀ kv ∈ sites, ∃ i, Denotes kv.1 i) → ∃ v, fromDict doc = .ok v) := by
  have hgo : ∀ dd st sites, StateParts dd st sites → (∀ kv ∈ sites, ∃ i, Denotes kv.1 i) → ∃ e, intKeys sites = .ok e ∧
      fromDict (.dict dd) = .ok (.dict (Dict.set st SITES (.dict e))) := by
    intro dd st sites hp hk
    obtain ⟨e, he, -⟩ := intKeys_ok hk
    refine ⟨e, he, ?_⟩
    have h2 : Dict.get? st SITES = _ := hp.2
    simp only [fromDict, item, hp.1, h2, ok_bind, methods, he, setItem]
    rfl
  constructor
  · intro v h
    cases doc with
    | dict dd =>
      have hv := h
      simp only [fromDict] at h
      obtain ⟨st, h1, h⟩ := bind_ok h
      obtain ⟨x, h2, h⟩ := bind_ok h
      obtain ⟨sites, h3, h⟩ := bind_ok h
      obtain ⟨e, h4, -⟩ := bind_ok h
      have hst : Dict.get? dd (.str "state") = some st := by
        simp only [item] at h1
        cases hd : Dict.get? dd (.str "state") with
        | none => rw [hd] at h1; cases h1
        | some y => rw [hd] at h1; injection h1 with h1; rw [h1]
      cases st with
      | dict st =>
        have hx : Dict.get? st SITES = some x := by
          simp only [item] at h2
          cases hd : Dict.get? st SITES with
          | none => rw [hd] at h2; cases h2
          | some y => rw [hd] at h2; injection h2 with h2; rw [h2]
        cases x with
        | dict l =>
          injection h3 with h3
          subst h3
          have hk : ∀ kv ∈ l, ∃ i, Denotes kv.1 i := by
            by_contra hne
            push Not at hne
            obtain ⟨kv, h5, h6⟩ := hne
            rw [intKeys_error ⟨kv, h5, h6⟩] at h4
            cases h4
          obtain ⟨e', he', hd'⟩ := hgo dd st l ⟨hst, hx⟩ hk
          obtain ⟨e'', g1, g2, g3, g4⟩ := intKeys_ok hk
          rw [g1] at he'
          injection he' with he'
          subst he'
          rw [hd'] at hv
          injection hv with hv
          subst hv
          refine ⟨dd, st, l, _, rfl, ⟨hst, hx⟩, hk, rfl, ⟨e'', ?_, g2, g3, g4⟩, fun k hk' => ?_⟩
          · show Dict.get? (Dict.set st SITES _) SITES = _
            rw [Dict.get?_set, if_pos rfl]
          · rw [Dict.get?_set]; exact if_neg (Ne.symm hk')
        | _ => cases h3
      | _ => cases h2
    | _ => cases h
  · intro dd st sites hdoc hp hk
    subst hdoc
    obtain ⟨e, -, h⟩ := hgo dd st sites hp hk
    exact ⟨_, h⟩

/-- C129: where the values are dicts, this is `SimState.fromDict`. -/
theorem C129_agrees (dd : Props) (s : SimState) : SimState.fromDict dd = .ok s ↔ ∃ v, fromDict (.dict dd) = .ok v ∧ Holds v s := by
  have hmap : ∀ (e : Props) (ps : Dict Key Props), (e.mapM fun kv => (do pure (kv.1, ← SimState.asProps kv.2) : Py (Key × Props))) = .ok ps ↔
      e = ps.map fun kp => (kp.1, Val.dict kp.2) := by
    intro e
    induction e with
    | nil =>
      intro ps
      constructor
      · intro h
        have : ps = [] := by simpa [pure, Except.pure] using h.symm
        rw [this]; rfl
      · intro h
        have : ps = [] := by simpa using h.symm
        rw [this]; rfl
    | cons a e ih =>
      intro ps
      obtain ⟨k, x⟩ := a
      rw [List.mapM_cons]
      constructor
      · intro h
        obtain ⟨b, hb, h⟩ := bind_ok h
        obtain ⟨bs, hbs, h⟩ := bind_ok h
        have : ps = b :: bs := by simpa [pure, Except.pure] using h.symm
        subst this
        obtain ⟨p, hp, hb⟩ := bind_ok hb
        have : b = (k, p) := by simpa [pure, Except.pure] using hb.symm
        subst this
        cases x with
        | dict x => injection hp with hp; subst hp; rw [List.map_cons, ← (ih bs).1 hbs]
        | _ => cases hp
      · intro h
        cases ps with
        | nil => cases h
        | cons b bs =>
          rw [List.map_cons] at h
          injection h with h1 h2
          injection h1 with h3 h4
          subst h3 h4
          rw [(ih bs).2 h2]
          rfl
  constructor
  · intro h
    unfold SimState.fromDict at h
    split at h
    · cases h
    · rename_i st hst
      split at h
      · cases h
      · rename_i sites hsites
        obtain ⟨e, he, h⟩ := bind_ok h
        obtain ⟨ps, hps, h⟩ := bind_ok h
        have hr : fromDict (.dict dd) = .ok (.dict (Dict.set st SITES (.dict e))) := by
          simp only [fromDict, item, hst, hsites, ok_bind, methods, he, setItem]; rfl
        have hs : ∀ g, Dict.get? (Dict.set st SITES (.dict e)) (.str "SITES") = some (.dict ((SimState.mk ps g).sites.map fun kp => (kp.1, .dict kp.2))) := by
          intro g
          show Dict.get? (Dict.set st SITES (.dict e)) SITES = _
          rw [Dict.get?_set, if_pos rfl, ← (hmap e ps).1 hps]
        have hne : Dict.get? (Dict.set st SITES (.dict e)) (.str "GENERAL") = Dict.get? st GENERAL := by
          rw [Dict.get?_set]; exact if_neg (by decide)
        refine ⟨_, hr, _, rfl, ?_⟩
        split at h
        · rename_i hg
          injection h with h
          subst h
          exact ⟨hs _, by rw [hne, hg]; rfl⟩
        · rename_i g hg
          obtain ⟨q, hq, h⟩ := bind_ok h
          injection h with h
          subst h
          refine ⟨hs _, ?_⟩
          rw [hne, hg]
          cases g with
          | dict g => injection hq with hq; subst hq; rfl
          | _ => cases hq
      · cases h
    · cases h
  · rintro ⟨v, h, hv⟩
    obtain ⟨dd', st, sites, d, e1, hp, hk, rfl, -, -⟩ := (C129_from_dict _).1 v h
    injection e1 with e1
    subst e1
    obtain ⟨e, he, -⟩ := intKeys_ok hk
    have h2 : Dict.get? st SITES = _ := hp.2
    have hr : fromDict (.dict dd) = .ok (.dict (Dict.set st SITES (.dict e))) := by
      simp only [fromDict, item, hp.1, h2, ok_bind, methods, he, setItem]; rfl
    rw [hr] at h
    injection h with h
    obtain ⟨d', e2, h3, h4⟩ := hv
    rw [e2] at h
    injection h with h
    subst h
    have h3' : Dict.get? (Dict.set st SITES (.dict e)) SITES = _ := h3
    rw [Dict.get?_set, if_pos rfl] at h3'
    injection h3' with h3'
    injection h3' with h3'
    have h4' : Dict.get? (Dict.set st SITES (.dict e)) GENERAL = _ := h4
    rw [Dict.get?_set, if_neg (by decide)] at h4'
    simp only [SimState.fromDict, hp.1, h2, he, ok_bind, (hmap e s.sites).2 h3']
    obtain ⟨ps, g⟩ := s
    cases g with
    | none => rw [h4']; rfl
    | some g => rw [h4']; rfl

/-- C129: `==` of two states without further entries is the equality of Model/State.lean. -/
theorem C129_eq {v w : Val} {s t : SimState} (hv : Holds v s) (hw : Holds w t) (ev : NoExtras v) (ew : NoExtras w) : Eqv v w ↔ s.Eqv t := by
  obtain ⟨d, rfl, h1, h2⟩ := hv
  obtain ⟨e, rfl, h3, h4⟩ := hw
  have hsites : ∀ ps qs : Dict Key Props, Val.PyEq (.dict (ps.map fun kp => (kp.1, Val.dict kp.2))) (.dict (qs.map fun kp => (kp.1, Val.dict kp.2))) ↔
      Dict.EqvBy (Dict.EqvBy Val.PyEq) ps qs := by
    intro ps qs
    constructor
    · intro h k
      have := Val.pyEq_dict_iff h k
      rw [embed_get, embed_get] at this
      refine ⟨by simpa using this.1, fun a b ha hb => ?_⟩
      exact Val.pyEq_dict_iff (this.2 (.dict a) (.dict b) (by rw [ha]; rfl) (by rw [hb]; rfl))
    · intro h
      refine Val.pyEq_dict fun k => ?_
      rw [embed_get, embed_get]
      refine ⟨by simpa using (h k).1, fun a b ha hb => ?_⟩
      obtain ⟨a', ha', rfl⟩ := Option.map_eq_some_iff.1 ha
      obtain ⟨b', hb', rfl⟩ := Option.map_eq_some_iff.1 hb
      exact Val.pyEq_dict ((h k).2 a' b' ha' hb')
  constructor
  · intro h
    have h := Val.pyEq_dict_iff h
    refine ⟨(hsites _ _).1 ((h (.str "SITES")).2 _ _ h1 h3), ?_⟩
    have hg := h (.str "GENERAL")
    rw [h2, h4] at hg
    cases hs : s.general with
    | none =>
      cases ht : t.general with
      | none => trivial
      | some q => rw [hs, ht] at hg; simp at hg
    | some p =>
      cases ht : t.general with
      | none => rw [hs, ht] at hg; simp at hg
      | some q =>
        rw [hs, ht] at hg
        exact Val.pyEq_dict_iff (hg.2 _ _ rfl rfl)
  · rintro ⟨ha, hb⟩
    refine Val.pyEq_dict fun k => ?_
    by_cases k1 : k = .str "SITES"
    · subst k1
      rw [h1, h3]
      refine ⟨by simp, fun a b ha' hb' => ?_⟩
      injection ha' with ha'; injection hb' with hb'
      subst ha' hb'
      exact (hsites _ _).2 ha
    by_cases k2 : k = .str "GENERAL"
    · subst k2
      rw [h2, h4]
      cases hs : s.general with
      | none =>
        cases ht : t.general with
        | none => simp
        | some q => rw [hs, ht] at hb; exact hb.elim
      | some p =>
        cases ht : t.general with
        | none => rw [hs, ht] at hb; exact hb.elim
        | some q =>
          rw [hs, ht] at hb
          refine ⟨by simp, fun a b ha' hb' => ?_⟩
          injection ha' with ha'; injection hb' with hb'
          subst ha' hb'
          exact Val.pyEq_dict hb
    · have hd : Dict.get? d k = none := Dict.get?_eq_none_iff.2 fun hk => (ev d rfl k hk).elim k1 k2
      have he : Dict.get? e k = none := Dict.get?_eq_none_iff.2 fun hk => (ew e rfl k hk).elim k1 k2
      rw [hd, he]
      simp

/-- A raw state with a further entry, sections in the other order. -/
example : Holds (.dict [(.str "note", .str "x"), (.str "GENERAL", .dict [(.str "t", .num 1)]), (.str "SITES", .dict [(.int 2, .dict [(.str "a", .num 3)])])])
    ⟨[(.int 2, [(.str "a", .num 3)])], some [(.str "t", .num 1)]⟩ := ⟨_, rfl, rfl, rfl⟩

/-- A document with a site state that is no dict loads. -/
example : fromDict (.dict [(.str "state", .dict [(.str "SITES", .dict [(.str "5", .num 1)])])]) = .ok (.dict [(.str "SITES", .dict [(.int 5, .num 1)])]) := by
  decide +kernel

end Raw
end Pyl
