import Verif.Props.Growth
/-
Serial growth with the number of every call of `neighbors_of`.
-/
set_option autoImplicit false

namespace Pyl
open SimState Spec Growth

/-- How many of the sites are background. -/
def bgCount (bg : Val) (s : SimState) (ids : List Key) : ℕ := ids.countP fun i => decide (occ? s i = some bg)

/-- What the rule may answer for site `i` on the state `s` if the call of `neighbors_of` is number `t`. -/
def AnswerAt (bg : Val) (nbs : ℕ → Key → Py (List ℕ)) (t : ℕ) (i : Key) (s : SimState) (q : Props) : Prop :=
  ∀ v, occ? s i = some v → ∃ l, nbs t i = .ok l ∧
    (q = [] ∧ GrowthStep bg s l v v ∨ ∃ v', q = [(DISCRETE_OCCUPANCY, v')] ∧ (Val.dict q).WF ∧ GrowthStep bg s l v v')

theorem update_calls {c c' : Ctl} {s : SimState} {i : Key} {v : Val} {r : Resp} (hv : occ? s i = some v) (h : update c i s = .ok (c', r)) :
    c' = { c with calls := if v = c.background then c.calls + 1 else c.calls } := by
  unfold update at h
  rw [occupancy_eq hv, ok_bind] at h
  by_cases hb : v = c.background
  · rw [if_pos hb] at h
    rw [if_pos hb]
    obtain ⟨l, -, h⟩ := bind_ok h
    obtain ⟨D, -, h⟩ := bind_ok h
    split at h <;> (injection h with h; injection h with h _; exact h.symm)
  · rw [if_neg hb] at h
    rw [if_neg hb]
    injection h with h; injection h with h _; exact h.symm

theorem update_congr {bg : Val} {nbs nbs' : ℕ → Key → Py (List ℕ)} {t : ℕ} {s : SimState} {i : Key} {v : Val} {c' : Ctl} {r : Resp}
    (hv : occ? s i = some v) (hn : v = bg → nbs' t i = nbs t i) (h : update ⟨bg, nbs, t⟩ i s = .ok (c', r)) :
    update ⟨bg, nbs', t⟩ i s = .ok (⟨bg, nbs', c'.calls⟩, r) := by
  unfold update at h ⊢
  rw [occupancy_eq hv, ok_bind] at h ⊢
  by_cases hb : v = bg
  · simp only [hb, if_true] at h ⊢
    rw [hn hb]
    obtain ⟨l, hl, h⟩ := bind_ok h
    obtain ⟨D, hD, h⟩ := bind_ok h
    rw [hl, ok_bind, hD, ok_bind]
    split at h
    · next hlen => rw [if_pos hlen]; injection h with h; injection h with h h'; subst h h'; rfl
    · next hlen => rw [if_neg hlen]; injection h with h; injection h with h h'; subst h h'; rfl
  · simp only [hb, if_false] at h ⊢
    injection h with h; injection h with h h'; subst h h'; rfl

theorem bgCount_cons (bg : Val) (s : SimState) (i : Key) (ids : List Key) :
    bgCount bg s (i :: ids) = bgCount bg s ids + if occ? s i = some bg then 1 else 0 := by
  unfold bgCount
  rw [List.countP_cons]
  simp

/-- The calls of a round over the sites `ids`. -/
theorem visited_at {bg : Val} {nbs : ℕ → Key → Py (List ℕ)} {s : SimState} (hsw : s.WF) (hocc : AllOccupied s)
    (hnb : ∀ t, ∀ i ∈ s.siteIds, ∃ l, nbs t i = .ok l ∧ ∀ j ∈ l, Key.int j ∈ s.siteIds) (ids : List Key) (hids : ∀ i ∈ ids, i ∈ s.siteIds) (t : ℕ) :
    ∃ rs m, Visited controller s ⟨bg, nbs, t⟩ ids rs ⟨bg, nbs, t + bgCount bg s ids⟩ ∧ AnswersAll (ids.zip rs) m ∧ m.map Prod.fst = ids ∧
      (∀ i p, (i, p) ∈ m → ∃ q, p = some q ∧ (Val.dict q).WF ∧ ∃ pre post, ids = pre ++ i :: post ∧ AnswerAt bg nbs (t + bgCount bg s pre) i s q) ∧
      ∀ nbs', (∀ u, u < bgCount bg s ids → nbs' (t + u) = nbs (t + u)) →
        Visited controller s ⟨bg, nbs', t⟩ ids rs ⟨bg, nbs', t + bgCount bg s ids⟩ := by
  induction ids generalizing t with
  | nil => exact ⟨[], [], .nil _, .nil, rfl, by simp, fun _ _ => .nil _⟩
  | cons i ids ih =>
    obtain ⟨v, hv⟩ := hocc i (hids i (by simp))
    obtain ⟨l, hl, hlj⟩ := hnb t i (hids i (by simp))
    obtain ⟨c', q, h1, -, -, h4⟩ := growth_update (c := ⟨bg, nbs, t⟩) hv hl fun j hj => hocc _ (hlj j hj)
    have h5 := update_calls hv h1
    obtain ⟨rs, m, g1, g2, g3, g4, g5⟩ := ih (fun j hj => hids j (by simp [hj])) c'.calls
    have hcc : c'.calls = t + if occ? s i = some bg then 1 else 0 := by
      rw [h5, hv]
      by_cases hb : v = bg
      · simp [hb]
      · simp [hb]
    have hc' : c' = ⟨bg, nbs, c'.calls⟩ := by rw [h5]
    have htot : c'.calls + bgCount bg s ids = t + bgCount bg s (i :: ids) := by rw [bgCount_cons, hcc]; omega
    rw [htot] at g1 g5
    have hq : (Val.dict q).WF ∧ Answers i (.dict q) (some q) ∧ AnswerAt bg nbs t i s q := by
      rcases h4 with ⟨rfl, h8⟩ | ⟨v', k, rfl, hk, h8, -⟩
      · refine ⟨.dict Dict.WF.nil (by simp), .patch _ ⟨by simp, by simp, Or.inl rfl⟩, ?_⟩
        intro v1 hv1
        rw [hv] at hv1; injection hv1 with e; subst e
        exact ⟨l, hl, Or.inl ⟨rfl, h8⟩⟩
      · have hw : (Val.dict [(DISCRETE_OCCUPANCY, v')]).WF := by
          obtain ⟨p, hp, hpv⟩ := occ?_eq.1 hk
          refine .dict (by simp [Dict.WF]) (by
            intro kv hkv
            rw [List.mem_singleton] at hkv
            subst hkv
            exact (hsw.site _ (Dict.mem_of_get? hp)).get? hpv)
        refine ⟨hw, .patch _ (isPatch_occ _), ?_⟩
        intro v1 hv1
        rw [hv] at hv1; injection hv1 with e; subst e
        exact ⟨l, hl, Or.inr ⟨v', rfl, hw, h8⟩⟩
    refine ⟨.dict q :: rs, (i, some q) :: m, .cons h1 (by rw [hc']; exact g1), .cons hq.2.1 g2, by simp [g3], ?_, ?_⟩
    · intro j p hj
      rcases List.mem_cons.1 hj with hj | hj
      · injection hj with e1 e2; subst e1 e2
        exact ⟨q, rfl, hq.1, [], ids, rfl, hq.2.2⟩
      · obtain ⟨q', e1, e2, pre, post, e3, e4⟩ := g4 j p hj
        refine ⟨q', e1, e2, i :: pre, post, by rw [e3]; rfl, ?_⟩
        rw [bgCount_cons, show t + (bgCount bg s pre + if occ? s i = some bg then 1 else 0) = c'.calls + bgCount bg s pre by rw [hcc]; omega]
        exact e4
    · intro nbs' hn
      have hup : controller.update ⟨bg, nbs', t⟩ i s = .ok (⟨bg, nbs', c'.calls⟩, .dict q) := update_congr (nbs' := nbs') hv (fun hb => by
        rw [show nbs' t = nbs t from hn 0 (by rw [bgCount_cons, hv, hb]; simp)]) h1
      refine Visited.cons hup (g5 nbs' fun u hu => ?_)
      · rw [hcc]
        by_cases hb : occ? s i = some bg
        · rw [if_pos hb, Nat.add_assoc]
          exact hn (1 + u) (by rw [bgCount_cons, if_pos hb]; omega)
        · rw [if_neg hb]
          exact hn u (by rw [bgCount_cons, if_neg hb]; omega)

/-- One serial step: which call answers for which site, and that nothing else matters. -/
theorem takeStep_at {bg : Val} {nbs : ℕ → Key → Py (List ℕ)} {s : SimState} (hs : s.WF) (hg : s.getGeneralState ≠ none) (hne : s.siteIds ≠ [])
    (hocc : AllOccupied s) (hnb : ∀ t, ∀ i ∈ s.siteIds, ∃ l, nbs t i = .ok l ∧ ∀ j ∈ l, Key.int j ∈ s.siteIds) (t : ℕ) :
    ∃ u s', s.batchUpdateO (some u.toProps) = .ok s' ∧ s'.WF ∧
      StepBy (fun i s q => ∃ pre post, s.siteIds = pre ++ i :: post ∧ AnswerAt bg nbs (t + bgCount bg s pre) i s q) s s' ∧
      ∀ nbs', (∀ v, v < bgCount bg s s.siteIds → nbs' (t + v) = nbs (t + v)) →
        takeStep controller ⟨bg, nbs', t⟩ s = .ok (⟨bg, nbs', t + bgCount bg s s.siteIds⟩, some u) := by
  obtain ⟨rs, m, h1, h2, h3, h5, h4⟩ := visited_at (bg := bg) hs hocc hnb s.siteIds (fun _ h => h) t
  obtain ⟨g0, hg⟩ := Option.ne_none_iff_exists'.1 hg
  have hlen := h1.length
  have hz : (s.siteIds.zip rs).map Prod.fst = s.siteIds := by rw [List.map_fst_zip]; omega
  have hm := mergeAll_answers h2 (by rw [hz]; exact hs.sites) none (by simp [Upd.empty])
  have hst := stepBy_of_patches (R := fun i s q => ∃ pre post, s.siteIds = pre ++ i :: post ∧ AnswerAt bg nbs (t + bgCount bg s pre) i s q) hs h3 h5 hg
  have hnd : (m.map Prod.fst).Nodup := by rw [h3]; exact hs.sites
  have hpw : (Val.dict (patches m)).WF := wf_patches hnd fun i p hm => by
    obtain ⟨q, e, h, -⟩ := h5 i _ hm
    injection e with e; subst e; exact h
  cases hp : patches m with
  | nil =>
    cases hmm : m with
    | nil => rw [hmm] at h3; exact absurd h3.symm hne
    | cons a m' =>
      have := patches_eq_nil.1 hp a.1 a.2 (by rw [hmm]; simp)
      obtain ⟨q, e, -⟩ := h5 a.1 a.2 (by rw [hmm]; simp)
      rw [this] at e; cases e
  | cons p ps =>
    rw [hp] at hm hst hpw
    have h6 : ∀ kv ∈ (⟨p :: ps, []⟩ : Upd).sites, ∃ q, kv.2 = .dict q := by
      show ∀ kv ∈ p :: ps, _
      rw [← hp]; exact patches_dicts m
    have h7 := batchUpdate_toProps_of (g0 := g0) hg h6
    refine ⟨⟨p :: ps, []⟩, _, h7, WF_upd hs hpw (.dict Dict.WF.nil (by simp)) h7, hst, fun nbs' hn => ?_⟩
    exact stepBatch_of_visited (h4 nbs' hn) (by rw [hm]; rfl)

end Pyl
