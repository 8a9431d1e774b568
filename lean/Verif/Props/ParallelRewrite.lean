import Verif.Props.Parallel
/-
C19: rules that always rewrite the same keys run the same in parallel, whatever the schedule.
-/
set_option linter.unusedSectionVars false
set_option autoImplicit false

namespace Pyl
open SimState Spec

/-- The rule answers at every site and every time, and rewrites at site `i` exactly the keys in `K i`, whatever the
state. -/
def Rewrites (f : Key → SimState → Resp) (K : Key → Key → Prop) : Prop :=
  ∀ i s p, Answers i (f i s) p → ∃ q, p = some q ∧ ∀ k, k ∈ Dict.keys q ↔ K i k

/-- Two optional values are both absent or both present and equal. -/
def OptPyEq (a b : Option Val) : Prop := (a = none ↔ b = none) ∧ ∀ x y, a = some x → b = some y → Val.PyEq x y

theorem OptPyEq.refl (a : Option Val) : OptPyEq a a :=
  ⟨Iff.rfl, fun x y h1 h2 => by rw [h1] at h2; injection h2 with h2; exact h2 ▸ .refl _⟩

theorem OptPyEq.symm {a b : Option Val} (h : OptPyEq a b) : OptPyEq b a :=
  ⟨h.1.symm, fun x y hx hy => (h.2 y x hy hx).symm⟩

theorem OptPyEq.trans {a b c : Option Val} (h : OptPyEq a b) (h' : OptPyEq b c) : OptPyEq a c := by
  refine ⟨h.1.trans h'.1, fun x z hx hz => ?_⟩
  cases hb : b with
  | none => rw [h.1.2 hb] at hx; cases hx
  | some y => exact (h.2 x y hx hb).trans (h'.2 y z hb hz)

/-- The states have the same sites and general state and agree on all keys that the rule never writes. -/
structure AgreeOff (K : Key → Key → Prop) (s t : SimState) : Prop where
  ids : s.siteIds = t.siteIds
  general : s.general = t.general
  off : ∀ i ∈ s.siteIds, ∀ k, ¬ K i k → OptPyEq (Dict.get? (oldOf s i) k) (Dict.get? (oldOf t i) k)

variable {K : Key → Key → Prop}

theorem AgreeOff.symm {s t : SimState} (h : AgreeOff K s t) : AgreeOff K t s :=
  ⟨h.ids.symm, h.general.symm, fun i hi k hk => (h.off i (h.ids ▸ hi) k hk).symm⟩

theorem AgreeOff.trans {s t u : SimState} (h : AgreeOff K s t) (h' : AgreeOff K t u) : AgreeOff K s u :=
  ⟨h.ids.trans h'.ids, h.general.trans h'.general,
    fun i hi k hk => (h.off i hi k hk).trans (h'.off i (h.ids ▸ hi) k hk)⟩

theorem AgreeOff.refl (s : SimState) : AgreeOff K s s := ⟨rfl, rfl, fun _ _ _ _ => .refl _⟩

/-- A patch list that rewrites exactly the keys `K i` at every one of the sites `ids`. -/
structure Full (K : Key → Key → Prop) (ids : List Key) (ps : Props) : Prop where
  wf : (Val.dict ps).WF
  keys : ∀ i, i ∈ Dict.keys ps ↔ i ∈ ids
  dicts : ∀ i v, Dict.get? ps i = some v → ∃ q, v = .dict q ∧ ∀ k, k ∈ Dict.keys q ↔ K i k

theorem Full.get {ids : List Key} {ps : Props} (h : Full K ids ps) {i : Key} (hi : i ∈ ids) :
    ∃ q, Dict.get? ps i = some (.dict q) ∧ (Val.dict q).WF ∧ ∀ k, k ∈ Dict.keys q ↔ K i k := by
  cases hg : Dict.get? ps i with
  | none => rw [Dict.get?_eq_none_iff, h.keys] at hg; exact absurd hi hg
  | some v =>
    obtain ⟨q, rfl, hq⟩ := h.dicts i v hg
    exact ⟨q, rfl, h.wf.get? hg, hq⟩

theorem addIds_of_subset : ∀ (l acc : List Key), (∀ k ∈ l, k ∈ acc) → addIds acc l = acc := by
  intro l
  induction l with
  | nil => intros; rfl
  | cons a l ih =>
    intro acc h
    have ha : a ∈ acc := h a (by simp)
    have : addIds acc (a :: l) = addIds (if a ∈ acc then acc else acc ++ [a]) l := rfl
    rw [this, if_pos ha]
    exact ih acc fun k hk => h k (by simp [hk])

theorem full_apply {s : SimState} (hs : s.WF) {g0 : Props} (hg : s.general = some g0) {ids : List Key}
    (hids : s.siteIds = ids) {ps : Props} (h : Full K ids ps) :
    ∃ s', s.batchUpdate (Upd.toProps ⟨ps, []⟩) = .ok s' ∧ s'.WF ∧ s'.siteIds = ids ∧ s'.general = some g0 ∧
      ∀ i, Dict.get? s'.sites i = Dict.get? (setSitesP s ps).sites i := by
  have hb := batchUpdate_toProps_of (u := ⟨ps, []⟩) hg (by
    intro kv hkv
    obtain ⟨q, hq, _⟩ := h.dicts kv.1 kv.2 (Dict.get?_of_mem h.wf.keys hkv)
    exact ⟨q, hq⟩)
  refine ⟨_, hb, WF_upd hs h.wf (.dict Dict.WF.nil (by simp)) hb, ?_, rfl, fun _ => rfl⟩
  have : (setSitesP s ps).siteIds = ids := by
    rw [siteIds_setSitesP, addIds_of_subset _ _ (by intro k hk; rw [hids]; exact (h.keys k).1 hk), hids]
  exact this

theorem oldOf_full {s s' : SimState} {ids : List Key} {ps : Props} (h : Full K ids ps)
    (hget : ∀ i, Dict.get? s'.sites i = Dict.get? (setSitesP s ps).sites i) {i : Key} {q : Props}
    (hq : Dict.get? ps i = some (.dict q)) :
    Dict.get? s'.sites i = some (Dict.update (oldOf s i) q) ∧ oldOf s' i = Dict.update (oldOf s i) q := by
  have : Dict.get? s'.sites i = some (Dict.update (oldOf s i) q) := by
    rw [hget, get?_setSitesP h.wf.keys, hq]; rfl
  exact ⟨this, by simp [oldOf, this]⟩

/-- Applying equal full rewrites to states that agree off `K` gives equal states. -/
theorem full_eqv {s t s' t' : SimState} {g0 : Props} {ids : List Key} {ps qs : Props}
    (hst : AgreeOff K s t) (hids : s.siteIds = ids) (hp : Full K ids ps) (hq : Full K ids qs)
    (hpq : Dict.EqvBy Val.PyEq ps qs)
    (hs' : ∀ i, Dict.get? s'.sites i = Dict.get? (setSitesP s ps).sites i) (hsg : s'.general = some g0)
    (hsi : s'.siteIds = ids)
    (ht' : ∀ i, Dict.get? t'.sites i = Dict.get? (setSitesP t qs).sites i) (htg : t'.general = some g0)
    (hti : t'.siteIds = ids) : s'.Eqv t' := by
  refine ⟨fun i => ?_, by rw [hsg, htg]; exact Dict.EqvBy.refl (fun _ => .refl _) g0⟩
  by_cases hi : i ∈ ids
  · obtain ⟨p, h1, hpw, hpk⟩ := hp.get hi
    obtain ⟨q, h2, hqw, hqk⟩ := hq.get hi
    have e1 := (oldOf_full hp hs' h1).1
    have e2 := (oldOf_full hq ht' h2).1
    refine ⟨by simp [e1, e2], fun a b ha hb => ?_⟩
    rw [e1] at ha; rw [e2] at hb
    injection ha with ha; injection hb with hb
    subst ha hb
    have hpq' : Dict.EqvBy Val.PyEq p q := Val.pyEq_dict_iff ((hpq i).2 _ _ h1 h2)
    intro k
    rw [Dict.get?_update hpw.keys, Dict.get?_update hqw.keys]
    by_cases hk : K i k
    · have k1 : (Dict.get? p k).isSome := Dict.get?_isSome_iff.2 ((hpk k).2 hk)
      have k2 : (Dict.get? q k).isSome := Dict.get?_isSome_iff.2 ((hqk k).2 hk)
      obtain ⟨x, hx⟩ := Option.isSome_iff_exists.1 k1
      obtain ⟨y, hy⟩ := Option.isSome_iff_exists.1 k2
      refine ⟨by simp [hx, hy], fun a b ha hb => ?_⟩
      rw [hx] at ha; rw [hy] at hb
      simp at ha hb; subst ha hb
      exact (hpq' k).2 _ _ hx hy
    · have k1 : Dict.get? p k = none := Dict.get?_eq_none_iff.2 fun h => hk ((hpk k).1 h)
      have k2 : Dict.get? q k = none := Dict.get?_eq_none_iff.2 fun h => hk ((hqk k).1 h)
      rw [k1, k2]
      have := hst.off i (hids ▸ hi) k hk
      simpa [OptPyEq] using this
  · have h1 : Dict.get? s'.sites i = none := Dict.get?_eq_none_iff.2 fun h => hi (hsi ▸ h)
    have h2 : Dict.get? t'.sites i = none := Dict.get?_eq_none_iff.2 fun h => hi (hti ▸ h)
    simp [h1, h2]

/-- A full rewrite does not touch what lies off `K`. -/
theorem full_agreeOff {s s' : SimState} {g0 : Props} {ids : List Key} {ps : Props} (hg : s.general = some g0)
    (hids : s.siteIds = ids) (hp : Full K ids ps)
    (hs' : ∀ i, Dict.get? s'.sites i = Dict.get? (setSitesP s ps).sites i) (hsg : s'.general = some g0)
    (hsi : s'.siteIds = ids) : AgreeOff K s s' := by
  refine ⟨hids.trans hsi.symm, hg.trans hsg.symm, fun i hi k hk => ?_⟩
  obtain ⟨p, h1, hpw, hpk⟩ := hp.get (hids ▸ hi : i ∈ ids)
  rw [(oldOf_full hp hs' h1).2, Dict.get?_update hpw.keys]
  have k1 : Dict.get? p k = none := Dict.get?_eq_none_iff.2 fun h => hk ((hpk k).1 h)
  rw [k1]; simpa using OptPyEq.refl _

theorem agreeOff_of_eqv {s t : SimState} (h : s.Eqv t) (hi : s.siteIds = t.siteIds) (hg : s.general = t.general) :
    AgreeOff K s t :=
  ⟨hi, hg, fun i _ k _ => eqv_oldOf h i k⟩

theorem eqv_refl' (s : SimState) : s.Eqv s := by
  refine ⟨Dict.EqvBy.refl (fun a => Dict.EqvBy.refl (fun _ => .refl _) a) _, ?_⟩
  cases s.general with
  | none => trivial
  | some g => exact Dict.EqvBy.refl (fun _ => .refl _) g

/-! ### tasks -/

/-- What is known of a worker before a task of a step whose serial predecessor state is `s`. -/
structure Ready (K : Key → Key → Prop) (ids : List Key) (last : Option Props) (s a : SimState) : Prop where
  wf : a.WF
  off : AgreeOff K a s
  app : ∃ a', a.batchUpdateO last = .ok a' ∧ a'.Eqv s ∧ a'.WF ∧ AgreeOff K a' s ∧ a'.batchUpdateO last = .ok a'

theorem runTasks_ready {f : Key → SimState → Resp} {P : Key → SimState → Option Props}
    (hP : ∀ i s, Answers i (f i s) (P i s)) (ids : List Key) (bs : List (List Key)) (hnd : ∀ b ∈ bs, b.Nodup)
    (last : Option Props) (s : SimState) (sc : StepSched)
    (ws : Nat → Worker Unit) (hws : ∀ v, Ready K ids last s (ws v).state) :
    ∃ ws' out, runTasks (ofRule f) bs last sc ws = .ok (ws', out) ∧ (∀ v, Ready K ids last s (ws' v).state) ∧
      out.map Prod.fst = sc.map Prod.fst ∧
      ∀ p ∈ out, ∃ a : SimState, a.Eqv s ∧ p.2 = updOf (patches (ansOf P a (bs.getD p.1 []))) := by
  induction sc generalizing ws with
  | nil => exact ⟨ws, [], rfl, hws, rfl, by simp⟩
  | cons p sc ih =>
    obtain ⟨b, w⟩ := p
    have hb : (bs.getD b []).Nodup := by
      rw [List.getD_eq_getElem?_getD]
      cases h : bs[b]? with
      | none => simp
      | some x => exact hnd x (List.mem_of_getElem? h)
    obtain ⟨a', h1, h2, h3, h4, h5⟩ := (hws w).app
    have task : workerTask (ofRule f) (ws w) (bs.getD b []) last =
        .ok (⟨(), a'⟩, updOf (patches (ansOf P a' (bs.getD b [])))) := by
      unfold workerTask
      rw [h1, ok_bind, stepBatch_ans hP a' _ hb, ok_bind]; rfl
    obtain ⟨ws', out, h6, h7, h8, h9⟩ := ih (fun i => if i = w then ⟨(), a'⟩ else ws i) (by
      intro v
      by_cases hvw : v = w
      · simp only [hvw, if_true]
        exact ⟨h3, h4, a', h5, h2, h3, h4, h5⟩
      · simp only [hvw, if_false]; exact hws v)
    refine ⟨ws', (b, updOf (patches (ansOf P a' (bs.getD b [])))) :: out, ?_, h7, by simp [h8], ?_⟩
    · unfold runTasks
      rw [task, ok_bind]
      simp only [h6, ok_bind, pure, Except.pure]
    · intro p hp
      rcases List.mem_cons.1 hp with rfl | hp
      · exact ⟨a', h2, rfl⟩
      · exact h9 p hp

theorem firstSays_states (P : Key → SimState → Option Props) (l : List (List Key × SimState))
    (hnd : (l.map Prod.fst).flatten.Nodup) (k : Key) :
    (k ∉ (l.map Prod.fst).flatten → firstSays (l.map fun p => patches (ansOf P p.2 p.1)) k = none) ∧
    (k ∈ (l.map Prod.fst).flatten → ∃ p ∈ l,
      firstSays (l.map fun p => patches (ansOf P p.2 p.1)) k = (P k p.2).map Val.dict) := by
  induction l with
  | nil => simp [firstSays]
  | cons p l ih =>
    rw [List.map_cons, List.flatten_cons, List.nodup_append] at hnd
    obtain ⟨i1, i2⟩ := ih hnd.2.1
    simp only [List.map_cons, List.flatten_cons, List.mem_append, firstSays, get?_patches_ans P p.2 p.1 hnd.1]
    constructor
    · intro hk
      rw [not_or] at hk
      rw [if_neg hk.1, i1 hk.2]; rfl
    · intro hk
      by_cases h : k ∈ p.1
      · have hk' : k ∉ (l.map Prod.fst).flatten := fun h' => hnd.2.2 k h k h' rfl
        refine ⟨p, by simp, ?_⟩
        rw [if_pos h, i1 hk']; simp
      · rw [if_neg h]
        obtain ⟨q, hq, h2⟩ := i2 (by tauto)
        exact ⟨q, by simp [hq], by simpa using h2⟩

theorem takeStepParallel_ready {f : Key → SimState → Resp} (hw : RuleWF f) (he : RespectsEq f) (hr : Rewrites f K)
    {P : Key → SimState → Option Props} (hP : ∀ i s, Answers i (f i s) (P i s)) (ids : List Key) (hnd : ids.Nodup)
    (hne : ids ≠ []) (w : Nat) (hw0 : 0 < w) (last : Option Props) (s : SimState) (sc : StepSched)
    (hsc : sc.Valid w (chunks ids (chunkSize ids.length w)).length) (ws : Nat → Worker Unit)
    (hws : ∀ v, Ready K ids last s (ws v).state) :
    ∃ ws' ps, takeStepParallel (ofRule f) ids (chunkSize ids.length w) sc last ws = .ok (ws', updOf ps) ∧
      (∀ v, Ready K ids last s (ws' v).state) ∧ Full K ids ps ∧
      Dict.EqvBy Val.PyEq ps (patches (ansOf P s ids)) := by
  have hlen : 0 < ids.length := List.length_pos_iff.2 hne
  have hc : chunkSize ids.length w ≠ 0 := by
    have : 0 < chunkSize ids.length w := by unfold chunkSize; exact Nat.div_pos (by omega) hw0
    omega
  have hflat := C17_partition ids w hw0 hne
  set bs := chunks ids (chunkSize ids.length w) with hbs
  have hbnd : ∀ b ∈ bs, b.Nodup := by
    intro b hb
    have : b.Sublist bs.flatten := List.sublist_flatten_of_mem hb
    exact (hflat ▸ hnd : bs.flatten.Nodup).sublist this
  obtain ⟨ws', out, h1, h2, h3, h4⟩ := runTasks_ready hP ids bs hbnd last s sc ws hws
  have hwf : Dict.WF out := by
    unfold Dict.WF Dict.keys
    rw [h3]; exact hsc.1.nodup_iff.2 List.nodup_range
  have hA : ∀ b, ∃ a : SimState, a.Eqv s ∧ (b < bs.length →
      (Dict.get? out b).getD none = updOf (patches (ansOf P a (bs.getD b [])))) := by
    intro b
    by_cases hb : b < bs.length
    · have hmem : b ∈ out.map Prod.fst := by rw [h3]; exact hsc.1.mem_iff.2 (List.mem_range.2 hb)
      obtain ⟨p, hp, rfl⟩ := List.mem_map.1 hmem
      obtain ⟨a, h5, h6⟩ := h4 p hp
      refine ⟨a, h5, fun _ => ?_⟩
      rw [Dict.get?_of_mem hwf (k := p.1) (v := p.2) hp, ← h6]; rfl
    · exact ⟨s, eqv_refl' s, fun h => absurd h hb⟩
  choose A hA1 hA2 using hA
  set l : List (List Key × SimState) := (List.range bs.length).map fun b => (bs.getD b [], A b) with hl
  have hlf : l.map Prod.fst = bs := by
    rw [hl, List.map_map]
    exact range_getD bs
  have hlA : ∀ p ∈ l, p.2.Eqv s := by
    intro p hp
    obtain ⟨b, _, rfl⟩ := List.mem_map.1 hp
    exact hA1 b
  obtain ⟨ps, h5, h6, h7⟩ := mergeBatches_updOf (l.map fun p => patches (ansOf P p.2 p.1)) (by
    intro d hd
    obtain ⟨p, hp, rfl⟩ := List.mem_map.1 hd
    have : p.1 ∈ bs := by rw [← hlf]; exact List.mem_map.2 ⟨p, hp, rfl⟩
    exact (wf_patches_ans hw hP p.2 p.1 (hbnd _ this)).keys) [] Dict.WF.nil
  have hfs := fun k => firstSays_states P l (by rw [hlf, hflat]; exact hnd) k
  simp only [hlf, hflat] at hfs
  have hget : ∀ k, Dict.get? ps k = firstSays (l.map fun p => patches (ansOf P p.2 p.1)) k := by
    intro k; rw [h7]; simp
  have hPs : ∀ i a, ∃ q, P i a = some q ∧ ∀ k, k ∈ Dict.keys q ↔ K i k := fun i a => hr i a _ (hP i a)
  have hentry : ∀ i v, Dict.get? ps i = some v → i ∈ ids ∧ ∃ a : SimState, a.Eqv s ∧ ∃ q, P i a = some q ∧ v = .dict q := by
    intro i v h
    rw [hget] at h
    by_cases hi : i ∈ ids
    · obtain ⟨p, hp, h8⟩ := (hfs i).2 hi
      obtain ⟨q, h9, _⟩ := hPs i p.2
      rw [h8, h9] at h
      simp at h
      exact ⟨hi, p.2, hlA p hp, q, h9, h.symm⟩
    · rw [(hfs i).1 hi] at h; cases h
  have hkeys : ∀ i, i ∈ Dict.keys ps ↔ i ∈ ids := by
    intro i
    constructor
    · intro h
      obtain ⟨v, hv⟩ := Option.isSome_iff_exists.1 (Dict.get?_isSome_iff.2 h)
      exact (hentry i v hv).1
    · intro h
      obtain ⟨p, hp, h8⟩ := (hfs i).2 h
      obtain ⟨q, h9, _⟩ := hPs i p.2
      rw [← Dict.get?_isSome_iff, hget, h8, h9]; rfl
  refine ⟨ws', ps, ?_, h2, ⟨?_, hkeys, ?_⟩, ?_⟩
  · unfold takeStepParallel
    rw [if_neg hc, ← hbs]
    simp only
    rw [h1, ok_bind]
    have e : (List.range bs.length).map (fun b => (Dict.get? out b).getD none) =
        (l.map fun p => patches (ansOf P p.2 p.1)).map updOf := by
      rw [hl, List.map_map, List.map_map]
      exact List.map_congr_left fun b hb => hA2 b (List.mem_range.1 hb)
    simp only [e]
    unfold mergeBatches
    have h4' : ((l.map fun p => patches (ansOf P p.2 p.1)).map updOf).foldlM (fun (all : Option Upd) (r : Option Upd) =>
        mergeUpdates (all.map Upd.toProps) r none) none = (Except.ok (updOf ps) : Py _) := by
      have : updOf [] = none := by simp [updOf]
      rw [← this]; exact h5
    rw [h4', ok_bind]; rfl
  · refine .dict h6 fun kv hkv => ?_
    obtain ⟨_, a, _, q, h8, h9⟩ := hentry kv.1 kv.2 (Dict.get?_of_mem h6 hkv)
    rw [h9]
    have := hP kv.1 a
    rw [h8] at this
    exact answers_wf this (hw _ _)
  · intro i v h
    obtain ⟨_, a, _, q, h8, h9⟩ := hentry i v h
    obtain ⟨q', h10, h11⟩ := hPs i a
    rw [h8] at h10; injection h10 with h10
    exact ⟨q, h9, h10 ▸ h11⟩
  · intro i
    rw [get?_patches_ans P s ids hnd]
    by_cases hi : i ∈ ids
    · rw [if_pos hi]
      obtain ⟨v, hv⟩ := Option.isSome_iff_exists.1 (Dict.get?_isSome_iff.2 ((hkeys i).2 hi))
      obtain ⟨_, a, h8, q, h9, rfl⟩ := hentry i v hv
      obtain ⟨q', h10, _⟩ := hPs i s
      have := he i a s _ _ h8 (hP i a) (hP i s)
      rw [h9, h10] at this
      rw [hv, h10]
      refine ⟨by simp, fun x y hx hy => ?_⟩
      simp at hx hy; subst hx hy
      exact this
    · rw [if_neg hi, Dict.get?_eq_none_iff.2 fun h => hi ((hkeys i).1 h)]
      simp

theorem parallelLoop_ready {f : Key → SimState → Resp} (hw : RuleWF f) (he : RespectsEq f) (hr : Rewrites f K)
    {P : Key → SimState → Option Props} (hP : ∀ i s, Answers i (f i s) (P i s)) (ids : List Key) (hne : ids ≠ [])
    (w : Nat) (hw0 : 0 < w) (g0 : Props) (sched : Nat → StepSched) (n : Nat) :
    ∀ (k : Nat) (st st' : Unit) (s s' : SimState) (ds : List (Option Props)), SyncChain (ofRule f) n st s ds st' s' →
      s.WF → s.siteIds = ids → s.general = some g0 → ∀ (last : Option Props) (ws : Nat → Worker Unit) (res : SimResult),
      (∀ j, k ≤ j → j < k + n → (sched j).Valid w (chunks ids (chunkSize ids.length w)).length) →
      (∀ v, Ready K ids last s (ws v).state) →
      ∀ t : SimState, t.WF → t.Eqv s → AgreeOff K t s →
      ∃ ds', parallelLoop (ofRule f) ids (chunkSize ids.length w) sched k n last ws res =
          .ok { res with diffs := res.diffs ++ ds' } ∧ ds'.length = n ∧
        ∀ j, j ≤ n → ∃ tj sj, SimResult.replayTo t ds' j = .ok tj ∧ SimResult.replayTo s ds j = .ok sj ∧ tj.Eqv sj := by
  induction n with
  | zero =>
    intro k st st' s s' ds hchain hs hids hg last ws res hv hws t ht hts hoff
    refine ⟨[], by simp [parallelLoop], rfl, fun j hj => ?_⟩
    obtain rfl : j = 0 := by omega
    exact ⟨t, s, by simp, by simp, hts⟩
  | succ n ih =>
    intro k st st' s s' ds hchain hs hids hg last ws res hv hws t ht hts hoff
    cases hchain with
    | @succ _ _ st1 _ _ s1 _ u ds h1 h2 h3 =>
      have hnd : ids.Nodup := hids ▸ hs.sites
      have hstep : takeStep (ofRule f) st s = .ok ((), updOf (patches (ansOf P s ids))) := by
        unfold takeStep; rw [hids]; exact stepBatch_ans hP s ids hnd
      rw [hstep] at h1
      simp only [Except.ok.injEq, Prod.mk.injEq] at h1
      obtain ⟨_, rfl⟩ := h1
      obtain ⟨ws', ps, h4, h5, h6, h7⟩ := takeStepParallel_ready hw he hr hP ids hnd hne w hw0 last s (sched k)
        (hv k le_rfl (by omega)) ws hws
      -- the serial update is full as well
      have hser : Full K ids (patches (ansOf P s ids)) := by
        have hPs : ∀ i a, ∃ q, P i a = some q ∧ ∀ k, k ∈ Dict.keys q ↔ K i k := fun i a => hr i a _ (hP i a)
        refine ⟨wf_patches_ans hw hP s ids hnd, fun i => ?_, fun i v h => ?_⟩
        · rw [← Dict.get?_isSome_iff, get?_patches_ans P s ids hnd]
          obtain ⟨q, h, _⟩ := hPs i s
          split_ifs with hi <;> simp [h, hi]
        · rw [get?_patches_ans P s ids hnd] at h
          obtain ⟨q, hq, hk⟩ := hPs i s
          split_ifs at h
          rw [hq] at h; simp at h
          exact ⟨q, h.symm, hk⟩
      obtain ⟨i0, hi0⟩ := List.exists_mem_of_ne_nil _ hne
      have ne : ∀ {qs : Props}, Full K ids qs → updOf qs = some ⟨qs, []⟩ := by
        intro qs hq
        have : qs ≠ [] := by rintro rfl; simpa using (hq.keys i0).2 hi0
        simp [updOf, this]
      rw [ne hser] at h2
      obtain ⟨s1', a1, a2, a3, a4, a5⟩ := full_apply hs hg hids hser
      have : s1' = s1 := by
        have h2' : s.batchUpdate (Upd.toProps ⟨patches (ansOf P s ids), []⟩) = .ok s1 := h2
        rw [h2'] at a1; injection a1 with a1; exact a1.symm
      subst this
      have hoff1 : AgreeOff K s s1' := full_agreeOff hg hids hser a5 a4 a3
      -- any state agreeing with `s` off K
      have step : ∀ a : SimState, a.WF → AgreeOff K a s →
          ∃ a', a.batchUpdate (Upd.toProps ⟨ps, []⟩) = .ok a' ∧ a'.Eqv s1' ∧ a'.WF ∧ AgreeOff K a' s1' := by
        intro a ha hoa
        obtain ⟨a', b1, b2, b3, b4, b5⟩ := full_apply ha (hoa.general.trans hg) (hoa.ids.trans hids) h6
        have hev := full_eqv hoa (hoa.ids.trans hids) h6 hser h7 b5 b4 b3 a5 a4 a3
        exact ⟨a', b1, hev, b2, agreeOff_of_eqv hev (b3.trans a3.symm) (b4.trans a4.symm)⟩
      obtain ⟨t1, c1, c2, c3, c4⟩ := step t ht hoff
      obtain ⟨ds', h9, h10, h11⟩ := ih (k + 1) st1 st' s1' s' ds h3 a2 a3 a4 (some (Upd.toProps ⟨ps, []⟩)) ws'
        (res.addStep (some (Upd.toProps ⟨ps, []⟩))) (fun j h1 h2 => hv j (by omega) (by omega)) (by
          intro v
          obtain ⟨a', d1, d2, d3, d4⟩ := step _ (h5 v).wf (h5 v).off
          exact ⟨(h5 v).wf, (h5 v).off.trans hoff1, a', d1, d2, d3, d4,
            C06_batch_idempotent _ a' (h5 v).wf _ (wf_toProps h6.wf (.dict Dict.WF.nil (by simp))) d1⟩) t1 c3 c2 c4
      refine ⟨some (Upd.toProps ⟨ps, []⟩) :: ds', ?_, by simp [h10], ?_⟩
      · unfold parallelLoop
        rw [h4, ok_bind]
        simp only [ne h6, Option.map_some]
        rw [h9]; simp [SimResult.addStep]
      · intro j hj
        cases j with
        | zero => exact ⟨t, s, by simp, by simp, hts⟩
        | succ j =>
          rw [SimResult.replayTo_cons, SimResult.replayTo_cons, ne hser]
          have e1 : t.batchUpdateO (some (Upd.toProps ⟨ps, []⟩)) = .ok t1 := c1
          have e2 : s.batchUpdateO (Option.map Upd.toProps (some ⟨patches (ansOf P s ids), []⟩)) = .ok s1' := h2
          rw [e1, e2, ok_bind, ok_bind]
          exact h11 j (by omega)

/-- C19: a site-local rule that rewrites the same keys at every site whatever the state: the parallel run goes through
and every recorded step equals the serial one, for every number of workers and every assignment of batches to workers,
including those where workers sit out steps. -/
theorem C19_parallel_eq_serial (f : Key → SimState → Resp) (hf : SiteLocal f) (hw : RuleWF f) (he : RespectsEq f)
    (K : Key → Key → Prop) (hr : Rewrites f K) (s0 : SimState) (hs : s0.WF) (hne : s0.siteIds ≠ [])
    (hg : s0.getGeneralState.isSome) (w : Nat) (hw0 : 0 < w) (n : Nat) (fork : Nat → Unit → Unit) (sched : Nat → StepSched)
    (hv : ∀ k, k < n → (sched k).Valid w (chunks s0.siteIds (chunkSize s0.siteIds.length w)).length)
    (res : SimResult) (hser : runSync (ofRule f) () s0 n = .ok ((), res)) :
    ∃ res', runParallel (ofRule f) fork () s0 w n sched = .ok res' ∧ res'.len = res.len ∧
      ∀ k : Nat, k ≤ n → ∃ a b, res'.getStep k = .ok a ∧ res.getStep k = .ok b ∧ a.Eqv b := by
  choose P hP using hf
  obtain ⟨g0, hg0⟩ := Option.isSome_iff_exists.1 hg
  obtain ⟨st1, live, ds, h1, h2, rfl⟩ := runSync_ok (c := ofRule f)
    (by intro _ _ _ _ h; injection h with h; injection h with h1 h2; exact h2.symm) hser
  obtain ⟨ds', h3, h4, h5⟩ := parallelLoop_ready (K := K) hw he hr hP s0.siteIds hne w hw0 g0 sched n 0 st1 () s0 live ds
    h2 hs rfl hg0 (some []) (fun _ => ⟨(), s0⟩) (SimResult.new s0.copy) (fun j _ hj => hv j (by omega))
    (fun _ => ⟨hs, .refl _, s0, rfl, eqv_refl' s0, hs, .refl _, rfl⟩) s0 hs (eqv_refl' s0) (.refl _)
  refine ⟨⟨s0, ds', [], some s0⟩, ?_, by simp [SimResult.len, h4, h2.length], fun k hk => ?_⟩
  · have hpre : (ofRule f).preRun () s0 = .ok ((), s0) := rfl
    simp only [runParallel, hpre, ok_bind]
    rw [if_neg (by omega)]
    have : s0.size = s0.siteIds.length := rfl
    rw [this, h3]
    simp [SimResult.setOutput, SimResult.new, pure, Except.pure, copy]
  · obtain ⟨a, b, h6, h7, h8⟩ := h5 k hk
    refine ⟨a, b, ?_, ?_, h8⟩
    · simp only [SimResult.getStep, Dict.get?, copy]; simpa using h6
    · simp only [SimResult.getStep, Dict.get?, copy]; simpa using h7

/-- C19 also needs no luck for the serial run itself: it goes through for every such rule. -/
theorem C19_serial_total (f : Key → SimState → Resp) (hf : SiteLocal f) (hw : RuleWF f)
    (K : Key → Key → Prop) (hr : Rewrites f K) (s0 : SimState) (hs : s0.WF) (hne : s0.siteIds ≠ [])
    (hg : s0.getGeneralState.isSome) (n : Nat) : ∃ res, runSync (ofRule f) () s0 n = .ok ((), res) := by
  choose P hP using hf
  have hPs : ∀ i a, ∃ q, P i a = some q ∧ ∀ k, k ∈ Dict.keys q ↔ K i k := fun i a => hr i a _ (hP i a)
  obtain ⟨g0, hg0⟩ := Option.isSome_iff_exists.1 hg
  obtain ⟨i0, hi0⟩ := List.exists_mem_of_ne_nil _ hne
  have key : ∀ n (s : SimState) (res : SimResult), s.WF → s.siteIds = s0.siteIds → s.general = some g0 →
      ∃ x, syncLoop (ofRule f) n () s res = .ok x := by
    intro n
    induction n with
    | zero => intro s res _ _ _; exact ⟨_, rfl⟩
    | succ n ih =>
      intro s res hs hids hg
      have hnd : s0.siteIds.Nodup := hids ▸ hs.sites
      have hstep : takeStep (ofRule f) () s = .ok ((), updOf (patches (ansOf P s s0.siteIds))) := by
        unfold takeStep; rw [hids]; exact stepBatch_ans hP s _ hnd
      have hser : Full K s0.siteIds (patches (ansOf P s s0.siteIds)) := by
        refine ⟨wf_patches_ans hw hP s _ hnd, fun i => ?_, fun i v h => ?_⟩
        · rw [← Dict.get?_isSome_iff, get?_patches_ans P s _ hnd]
          obtain ⟨q, h, _⟩ := hPs i s
          split_ifs with hi <;> simp [h, hi]
        · rw [get?_patches_ans P s _ hnd] at h
          obtain ⟨q, hq, hk⟩ := hPs i s
          split_ifs at h
          rw [hq] at h; simp at h
          exact ⟨q, h.symm, hk⟩
      have hne' : patches (ansOf P s s0.siteIds) ≠ [] := by
        intro h0; rw [h0] at hser; simpa using (hser.keys i0).2 hi0
      obtain ⟨s1, a1, a2, a3, a4, _⟩ := full_apply hs hg hids hser
      obtain ⟨x, hx⟩ := ih s1 (res.addStep (some (Upd.toProps ⟨patches (ansOf P s s0.siteIds), []⟩))) a2 a3 a4
      refine ⟨x, ?_⟩
      have e : updOf (patches (ansOf P s s0.siteIds)) = some ⟨patches (ansOf P s s0.siteIds), []⟩ := by simp [updOf, hne']
      unfold syncLoop
      rw [hstep, ok_bind]
      simp only [e, Option.map_some, batchUpdateO]
      rw [a1, ok_bind]
      exact hx
  obtain ⟨⟨u, s', r⟩, hx⟩ := key n s0 (SimResult.new s0.copy) hs rfl hg0
  have hpre : (ofRule f).preRun () s0 = .ok ((), s0) := rfl
  refine ⟨r.setOutput s', ?_⟩
  unfold runSync
  simp only [hpre, ok_bind, copy] at hx ⊢
  rw [hx]; rfl

/-! ### a rule meeting the hypotheses -/

/-- Every site takes over the value `a` of site 0 plus nothing else: writes key `a`, always. -/
def copyRule (_ : Key) (s : SimState) : Resp :=
  .dict [(.str "a", ((s.getSiteState (.int 0)).bind fun p => Dict.get? p (.str "b")).elim (.num 0)
    (fun _ => .num 1))]

example : SiteLocal copyRule ∧ RuleWF copyRule ∧ RespectsEq copyRule ∧ Rewrites copyRule (fun _ k => k = .str "a") := by
  have hans : ∀ i s p, Answers i (copyRule i s) p → p = some [(.str "a",
      ((s.getSiteState (.int 0)).bind fun p => Dict.get? p (.str "b")).elim (.num 0) (fun _ => .num 1))] := by
    intro i s p h
    unfold copyRule at h
    generalize hv : ((s.getSiteState (.int 0)).bind fun p => Dict.get? p (.str "b")).elim (Val.num 0)
      (fun _ => .num 1) = v at h
    cases h with
    | patch => rfl
    | total d u h hg => simp [Dict.get?, SITES] at h
    | self n hi u => cases hi
  refine ⟨fun i s => ⟨_, .patch _ ⟨by simp [SITES], by simp [GENERAL], Or.inr ⟨"a", by simp⟩⟩⟩, fun i s => ?_, ?_, ?_⟩
  · refine .dict (by simp [Dict.WF]) ?_
    intro kv hkv
    simp at hkv
    rw [hkv]
    cases ((s.getSiteState (.int 0)).bind fun p => Dict.get? p (.str "b")) <;> exact .num _
  · intro i s t p q hst hp hq
    rw [hans i s p hp, hans i t q hq]
    have key : ((s.getSiteState (.int 0)).bind fun p => Dict.get? p (.str "b")).isSome =
        ((t.getSiteState (.int 0)).bind fun p => Dict.get? p (.str "b")).isSome := by
      unfold getSiteState
      rcases hst.1.get? (.int 0) with ⟨h1, h2⟩ | ⟨a, b, h1, h2, h3⟩
      · rw [h1, h2]
      · rw [h1, h2]
        rcases h3.get? (.str "b") with ⟨h4, h5⟩ | ⟨x, y, h4, h5, _⟩ <;> simp [h4, h5]
    have : ((s.getSiteState (.int 0)).bind fun p => Dict.get? p (.str "b")).elim (Val.num 0) (fun _ => .num 1) =
        ((t.getSiteState (.int 0)).bind fun p => Dict.get? p (.str "b")).elim (Val.num 0) (fun _ => .num 1) := by
      revert key
      cases ((s.getSiteState (.int 0)).bind fun p => Dict.get? p (.str "b")) <;>
        cases ((t.getSiteState (.int 0)).bind fun p => Dict.get? p (.str "b")) <;> simp
    rw [this]
    exact .refl _
  · intro i s p h
    exact ⟨_, hans i s p h, by simp⟩

/-- The stale-worker schedule of `C18_false` is one of the schedules C19 covers. -/
example : ∀ k, k < 3 → (absentSched k).Valid 2 (chunks flagInit.siteIds (chunkSize flagInit.siteIds.length 2)).length := by
  intro k hk
  have : k = 0 ∨ k = 1 ∨ k = 2 := by omega
  unfold StepSched.Valid
  rcases this with rfl | rfl | rfl <;> decide

end Pyl
