import Verif.Lemmas.Runner
/-
C13, C14, C15 (serial part), C22, C23, C24: the serial synchronous runner.
-/
set_option linter.unusedSectionVars false

set_option autoImplicit false

namespace Pyl
open SimState Spec
variable {σ : Type}

/-! ### a step of a site-local rule -/

theorem visited_ofRule (f : Key → SimState → Resp) (s : SimState) (ids : List Key) :
    Visited (ofRule f) s () ids (ids.map fun i => f i s) () := by
  induction ids with
  | nil => exact .nil _
  | cons i ids ih => exact .cons rfl ih

theorem answersAll_of_local {f : Key → SimState → Resp} (hf : SiteLocal f) (s : SimState) (ids : List Key) :
    ∃ m, AnswersAll (ids.zip (ids.map fun i => f i s)) m := by
  induction ids with
  | nil => exact ⟨[], .nil⟩
  | cons i ids ih =>
    obtain ⟨m, hm⟩ := ih
    obtain ⟨p, hp⟩ := hf i s
    exact ⟨(i, p) :: m, .cons hp hm⟩

theorem AnswersAll.mem {l m} (h : AnswersAll l m) {i : Key} {p : Option Props} (hm : (i, p) ∈ m) :
    ∃ r, (i, r) ∈ l ∧ Answers i r p := by
  induction h with
  | nil => simp at hm
  | cons h1 _ ih =>
    rcases List.mem_cons.1 hm with h | h
    · injection h with h2 h3; subst h2 h3
      exact ⟨_, by simp, h1⟩
    · obtain ⟨r, hr, ha⟩ := ih h
      exact ⟨r, by simp [hr], ha⟩

theorem answers_wf {i : Key} {r : Resp} {p : Props} (h : Answers i r (some p)) (hw : RespWF r) :
    (Val.dict p).WF := by
  cases h with
  | patch d h => exact hw
  | self n hi u => exact Val.WF.entry (d := [(i, .dict p)]) hw (kv := (i, .dict p)) (by simp)
  | total d u h hg =>
    have h1 := Val.WF.get? (d := d) hw h
    exact h1.entry (kv := (i, .dict p)) (by simp)

theorem answers_noUpdate {i : Key} {r : Resp} {p : Option Props} (h : Answers i r p) :
    p = none ↔ r = .noUpdate := by
  cases h <;> simp

theorem mem_zip_map {f : Key → SimState → Resp} {s : SimState} {ids : List Key} {i : Key} {r : Resp}
    (h : (i, r) ∈ ids.zip (ids.map fun i => f i s)) : i ∈ ids ∧ r = f i s := by
  induction ids with
  | nil => simp at h
  | cons j ids ih =>
    simp only [List.map_cons, List.zip_cons_cons, List.mem_cons] at h
    rcases h with h | h
    · injection h with h1 h2; subst h1; exact ⟨by simp, h2⟩
    · obtain ⟨h1, h2⟩ := ih h; exact ⟨by simp [h1], h2⟩

theorem zip_map_fst (f : Key → SimState → Resp) (s : SimState) (ids : List Key) :
    (ids.zip (ids.map fun i => f i s)).map Prod.fst = ids := by
  induction ids with
  | nil => rfl
  | cons i ids ih => simp [ih]

/-- What a serial step of a site-local rule computes on a list of sites: the patches of the answers. -/
theorem stepBatch_local {f : Key → SimState → Resp} (hf : SiteLocal f) (hw : RuleWF f) (s : SimState)
    (ids : List Key) (hnd : ids.Nodup) :
    ∃ m : List (Key × Option Props), m.map Prod.fst = ids ∧
      (∀ i p, (i, p) ∈ m → Answers i (f i s) p) ∧ (Val.dict (patches m)).WF ∧
      stepBatch (ofRule f) () ids s = .ok ((), match patches m with
        | [] => none
        | p :: ps => some ⟨p :: ps, []⟩) := by
  obtain ⟨m, hm⟩ := answersAll_of_local hf s ids
  have hk : m.map Prod.fst = ids := by rw [hm.keys, zip_map_fst]
  have hans : ∀ i p, (i, p) ∈ m → Answers i (f i s) p := by
    intro i p hmem
    obtain ⟨r, h1, h2⟩ := hm.mem hmem
    obtain ⟨_, rfl⟩ := mem_zip_map h1
    exact h2
  refine ⟨m, hk, hans, wf_patches (hk ▸ hnd) fun i p h => answers_wf (hans i _ h) (hw i s), ?_⟩
  refine stepBatch_of_visited (visited_ofRule f s ids) ?_
  rw [mergeAll_answers hm (by rw [zip_map_fst]; exact hnd) none (by simp [Upd.empty])]
  cases patches m <;> simp [Upd.empty]

theorem patches_eq_nil {m : List (Key × Option Props)} : patches m = [] ↔ ∀ i p, (i, p) ∈ m → p = none := by
  unfold patches
  rw [List.filterMap_eq_nil_iff]
  constructor
  · intro h i p hm
    have := h _ hm
    cases p <;> simp at this ⊢
  · rintro h ⟨i, p⟩ hm
    simp [h i p hm]

theorem simultaneous_of_patches {f : Key → SimState → Resp} {s : SimState} {m : List (Key × Option Props)}
    (hs : s.WF) (hk : m.map Prod.fst = s.siteIds) (hans : ∀ i p, (i, p) ∈ m → Answers i (f i s) p)
    (hpw : (Val.dict (patches m)).WF) {g0 : Props} (hg : s.general = some g0) :
    SimultaneousStep f s { setSitesP s (patches m) with general := some (Dict.update g0 []) } := by
  have hnd : (m.map Prod.fst).Nodup := by rw [hk]; exact hs.sites
  refine ⟨?_, by simp [getGeneralState, hg], ?_⟩
  · have h1 := siteIds_setSitesP s (patches m)
    have key : ∀ (l acc : List Key), (∀ k ∈ l, k ∈ acc) → addIds acc l = acc := by
      intro l
      induction l with
      | nil => intros; rfl
      | cons a l ih =>
        intro acc h
        have ha : a ∈ acc := h a (by simp)
        have : addIds acc (a :: l) = addIds (if a ∈ acc then acc else acc ++ [a]) l := rfl
        rw [this, if_pos ha]
        exact ih acc fun k hk => h k (by simp [hk])
    rw [key _ _ fun k h => hk ▸ keys_patches_subset m k h] at h1
    exact h1
  · intro i old hold
    have hi : i ∈ s.siteIds := Dict.mem_keys_of_get? hold
    rw [← hk] at hi
    obtain ⟨⟨i', p⟩, hm, rfl⟩ := List.mem_map.1 hi
    have hp := get?_patches hnd hm
    have hold' : Dict.get? s.sites i' = some old := hold
    cases p with
    | none =>
      refine ⟨none, old, hans _ _ hm, ?_, fun _ => rfl, by simp⟩
      simp only [getSiteState]
      rw [get?_setSitesP hpw.keys, hp]
      exact hold
    | some q =>
      refine ⟨some q, Dict.update old q, hans _ _ hm, ?_, by simp, ?_⟩
      · simp only [getSiteState]
        rw [get?_setSitesP hpw.keys, hp]
        simp [oldOf, hold', dictOf]
      · intro q' hq; injection hq with hq; subst hq
        have : (Val.dict q).WF := by
          have := hpw.get? (k := i') (v := .dict q) (by simp [hp])
          exact this
        exact merged_update this.keys

/-- C13: one serial step of a rule that only updates the visited site is the simultaneous step. -/
theorem C13_step (f : Key → SimState → Resp) (hf : SiteLocal f) (hw : RuleWF f) (s s' : SimState)
    (hs : s.WF) (hstep : ∃ st u, takeStep (ofRule f) () s = .ok (st, u) ∧
      s.batchUpdateO (u.map Upd.toProps) = .ok s') : SimultaneousStep f s s' := by
  obtain ⟨st, u, h1, h2⟩ := hstep
  obtain ⟨m, hk, hans, hpw, h3⟩ := stepBatch_local hf hw s s.siteIds hs.sites
  unfold takeStep at h1
  rw [h3] at h1
  injection h1 with h1
  injection h1 with _ h1
  cases hp : patches m with
  | nil => rw [hp] at h1; simp at h1; subst h1; simp [batchUpdateO] at h2
  | cons p ps =>
    rw [hp] at h1; simp only at h1; subst h1
    obtain ⟨g0, hg, _, h4⟩ := batchUpdate_toProps_ok h2
    rw [h4]
    have := simultaneous_of_patches hs hk hans hpw hg
    rw [hp] at this
    exact this

/-- C24 (success direction), used by C13: if some site gets an answer and the state has a general section, the step
goes through. -/
theorem C24_some_answer (f : Key → SimState → Resp) (hf : SiteLocal f) (hw : RuleWF f) (s : SimState)
    (hs : s.WF) (hg : s.getGeneralState ≠ none) (i : Key) (hi : i ∈ s.siteIds) (hr : f i s ≠ .noUpdate) :
    ∃ u s', takeStep (ofRule f) () s = .ok ((), some u) ∧ s.batchUpdateO (some u.toProps) = .ok s' := by
  obtain ⟨m, hk, hans, hpw, h3⟩ := stepBatch_local hf hw s s.siteIds hs.sites
  obtain ⟨g0, hg⟩ := Option.ne_none_iff_exists'.1 hg
  cases hp : patches m with
  | nil =>
    rw [← hk] at hi
    obtain ⟨⟨i', p⟩, hm, rfl⟩ := List.mem_map.1 hi
    have := patches_eq_nil.1 hp _ _ hm
    subst this
    exact absurd ((answers_noUpdate (hans _ _ hm)).1 rfl) hr
  | cons p ps =>
    have h5 : ∀ kv ∈ (⟨p :: ps, []⟩ : Upd).sites, ∃ q, kv.2 = .dict q := by
      show ∀ kv ∈ p :: ps, _
      rw [← hp]; exact patches_dicts m
    refine ⟨⟨p :: ps, []⟩, _, ?_, batchUpdate_toProps_of (g0 := g0) hg h5⟩
    unfold takeStep; rw [h3, hp]

theorem WF_upd {s s' : SimState} (hs : s.WF) {u : Upd} (hu : (Val.dict u.sites).WF)
    (hg : (Val.dict u.general).WF) (h : s.batchUpdate u.toProps = .ok s') : s'.WF := by
  refine WF_batchUpdate hs ?_ h
  refine .dict (by simp [Dict.WF, Upd.toProps, SITES, GENERAL]) ?_
  intro kv hkv
  simp [Upd.toProps] at hkv
  rcases hkv with rfl | rfl <;> assumption

theorem C13_WF (f : Key → SimState → Resp) (hf : SiteLocal f) (hw : RuleWF f) (s s' : SimState)
    (hs : s.WF) (hstep : ∃ st u, takeStep (ofRule f) () s = .ok (st, u) ∧
      s.batchUpdateO (u.map Upd.toProps) = .ok s') : s'.WF := by
  obtain ⟨st, u, h1, h2⟩ := hstep
  obtain ⟨m, hk, hans, hpw, h3⟩ := stepBatch_local hf hw s s.siteIds hs.sites
  unfold takeStep at h1
  rw [h3] at h1
  injection h1 with h1
  injection h1 with _ h1
  cases hp : patches m with
  | nil => rw [hp] at h1; simp at h1; subst h1; simp [batchUpdateO] at h2
  | cons p ps =>
    rw [hp] at h1 hpw; simp only at h1; subst h1
    exact WF_upd hs hpw (.dict Dict.WF.nil (by simp)) h2

theorem chain_succ_state {f : Key → SimState → Resp} (hf : SiteLocal f) (hw : RuleWF f) {n : Nat} {st st' : Unit}
    {s s' : SimState} (hs : s.WF) {ds : List (Option Props)} (h : SyncChain (ofRule f) n st s ds st' s') :
    s'.WF ∧ ∀ k, k < n → ∃ a b, SimResult.replayTo s ds k = .ok a ∧ SimResult.replayTo s ds (k + 1) = .ok b ∧
      a.WF ∧ b.WF ∧ SimultaneousStep f a b := by
  induction h with
  | zero => exact ⟨hs, by omega⟩
  | @succ n st st1 st2 s s1 s2 u ds h1 h2 h3 ih =>
    have hw1 := C13_WF f hf hw s s1 hs ⟨_, _, h1, h2⟩
    have hs1 := C13_step f hf hw s s1 hs ⟨_, _, h1, h2⟩
    obtain ⟨h4, h5⟩ := ih hw1
    refine ⟨h4, fun k hk => ?_⟩
    cases k with
    | zero => exact ⟨s, s1, rfl, by simp [SimResult.replayTo, h2], hs, hw1, hs1⟩
    | succ k =>
      obtain ⟨a, b, h6, h7, h8⟩ := h5 k (by omega)
      refine ⟨a, b, ?_, ?_, h8⟩
      · simp [SimResult.replayTo, h2, h6]
      · simp [SimResult.replayTo, h2] at h7 ⊢; exact h7

/-- C13: in a serial run of a site-local rule, every step is the simultaneous application of the rule to
the state reported by `get_step` for the step before. -/
theorem C13_run (f : Key → SimState → Resp) (hf : SiteLocal f) (hw : RuleWF f) (s0 : SimState) (hs : s0.WF)
    (n : Nat) (res : SimResult) (h : runSync (ofRule f) () s0 n = .ok ((), res)) (k : Nat) (hk : k < n) :
    ∃ a b, res.getStep k = .ok a ∧ res.getStep (k + 1) = .ok b ∧ SimultaneousStep f a b := by
  obtain ⟨st1, live, ds, h1, h2, rfl⟩ := runSync_ok (c := ofRule f) (by intro _ _ _ _ h; injection h with h; injection h with h1 h2; exact h2.symm) h
  obtain ⟨_, h3⟩ := chain_succ_state hf hw hs h2
  obtain ⟨a, b, h4, h5, _, _, h6⟩ := h3 k hk
  exact ⟨a, b, h4, h5, h6⟩

/-- C13, totality: if at every well-formed state with a general section the rule gives some site an answer, the run of any length succeeds. -/
theorem C13_run_succeeds (f : Key → SimState → Resp) (hf : SiteLocal f) (hw : RuleWF f) (s0 : SimState)
    (hs : s0.WF) (hg : s0.getGeneralState ≠ none)
    (hans : ∀ s : SimState, s.siteIds = s0.siteIds → ∃ i ∈ s.siteIds, f i s ≠ .noUpdate) (n : Nat) :
    ∃ res, runSync (ofRule f) () s0 n = .ok ((), res) := by
  have key : ∀ n (s : SimState), s.WF → s.getGeneralState ≠ none → s.siteIds = s0.siteIds →
      ∃ ds s', SyncChain (ofRule f) n () s ds () s' := by
    intro n
    induction n with
    | zero => intro s _ _ _; exact ⟨[], s, .zero _ _⟩
    | succ n ih =>
      intro s hs hg hids
      obtain ⟨i, hi, hr⟩ := hans s hids
      obtain ⟨u, s1, h1, h2⟩ := C24_some_answer f hf hw s hs hg i hi hr
      have h3 := C13_step f hf hw s s1 hs ⟨_, _, h1, h2⟩
      obtain ⟨ds, s', h4⟩ := ih s1 (C13_WF f hf hw s s1 hs ⟨_, _, h1, h2⟩) (by rw [h3.2.1]; exact hg)
        (by rw [h3.1]; exact hids)
      exact ⟨_, s', .succ h1 h2 h4⟩
  obtain ⟨ds, s', h⟩ := key n s0 hs hg rfl
  refine ⟨⟨s0, ds, [], some s'⟩, ?_⟩
  have h2 := syncLoop_of_chain h (SimResult.new s0.copy)
  have h3 : (ofRule f).preRun () s0 = .ok ((), s0) := rfl
  simp only [runSync, h3, ok_bind, copy] at h2 ⊢
  rw [h2]
  simp [SimResult.setOutput, SimResult.new, pure, Except.pure]

/-- A site-local rule: copy the value `v` of site 0 to `w`. -/
def demoRule (i : Key) (s : SimState) : Resp :=
  match s.getSiteState (.int 0) with
  | some p => .dict [(.str "w", (Dict.get? p (.str "v")).getD .pyNone)]
  | none => .dict [(.str "w", i.toVal)]

theorem demoRule_local : SiteLocal demoRule := by
  intro i s
  unfold demoRule
  cases s.getSiteState (.int 0) with
  | none =>
    exact ⟨_, .patch _ ⟨by simp [SITES], by simp [GENERAL], Or.inr ⟨"w", by simp⟩⟩⟩
  | some p =>
    exact ⟨_, .patch _ ⟨by simp [SITES], by simp [GENERAL], Or.inr ⟨"w", by simp⟩⟩⟩

/-- A run that satisfies the hypotheses of C13. -/
example : SiteLocal demoRule ∧
    (runSync (ofRule demoRule) () ⟨[(.int 0, [(.str "v", .num 7)]), (.int 1, [])], some []⟩ 2).toOption.isSome :=
  ⟨demoRule_local, by decide⟩

/-! ### C13: what every application is shown -/

theorem visited_logged {c : Controller σ} {prev : SimState} {ids : List Key} {st st' : σ × List (Key × SimState)}
    {rs : List Resp} (h : Visited (logged c) prev st ids rs st') :
    Visited c prev st.1 ids rs st'.1 ∧ st'.2 = st.2 ++ ids.map fun i => (i, prev) := by
  induction h with
  | nil => exact ⟨.nil _, by simp⟩
  | cons h1 h2 ih =>
    simp only [logged] at h1
    obtain ⟨⟨st1, r⟩, h3, h4⟩ := bind_ok h1
    simp [pure, Except.pure] at h4
    obtain ⟨rfl, rfl⟩ := h4
    exact ⟨.cons h3 ih.1, by simp [ih.2]⟩

theorem visited_logged_of {c : Controller σ} {prev : SimState} {ids : List Key} {st st' : σ}
    {rs : List Resp} (h : Visited c prev st ids rs st') (l : List (Key × SimState)) :
    Visited (logged c) prev (st, l) ids rs (st', l ++ ids.map fun i => (i, prev)) := by
  induction h generalizing l with
  | nil => simpa using Visited.nil _
  | @cons st st1 st2 i is r rs h1 h2 ih =>
    have := ih (l ++ [(i, prev)])
    simp only [List.append_assoc, List.singleton_append] at this
    refine .cons (st1 := (st1, l ++ [(i, prev)])) ?_ this
    simp [logged, h1, pure, Except.pure]

/-- C13: in one serial step every application of the rule (any rule, also stateful ones) is shown the state before the step, once per site in order. -/
theorem C13_shown (c : Controller σ) (st st' : σ) (s : SimState) (log : List (Key × SimState)) (u : Option Upd)
    (h : takeStep (logged c) (st, []) s = .ok ((st', log), u)) : log = s.siteIds.map fun i => (i, s) := by
  obtain ⟨rs, h1, _⟩ := stepBatch_ok h
  simpa using (visited_logged h1).2

theorem takeStep_logged {c : Controller σ} {st st' : σ} {s : SimState} {u : Option Upd}
    (l : List (Key × SimState)) :
    takeStep c st s = .ok (st', u) ↔
    takeStep (logged c) (st, l) s = .ok ((st', l ++ s.siteIds.map fun i => (i, s)), u) := by
  constructor
  · intro h
    obtain ⟨rs, h1, h2⟩ := stepBatch_ok h
    exact stepBatch_of_visited (visited_logged_of h1 l) h2
  · intro h
    obtain ⟨rs, h1, h2⟩ := stepBatch_ok h
    exact stepBatch_of_visited (visited_logged h1).1 h2

/-! ### C14 -/

/-- Equal optional updates. -/
def OptEq : Option Props → Option Props → Prop
  | none, none => True
  | some p, some q => Val.PyEq (.dict p) (.dict q)
  | _, _ => False

/-- A site-local rule that cannot tell equal states apart (it looks at the state through dict lookups only). -/
def RespectsEq (f : Key → SimState → Resp) : Prop :=
  ∀ i s t p q, s.Eqv t → Answers i (f i s) p → Answers i (f i t) q → OptEq p q

theorem eqv_patches {m m' : List (Key × Option Props)} (h : (m.map Prod.fst).Nodup) (h' : (m'.map Prod.fst).Nodup)
    (hk : ∀ i, i ∈ m.map Prod.fst ↔ i ∈ m'.map Prod.fst)
    (he : ∀ i p q, (i, p) ∈ m → (i, q) ∈ m' → OptEq p q) :
    Dict.EqvBy Val.PyEq (patches m) (patches m') := by
  intro i
  by_cases hi : i ∈ m.map Prod.fst
  · obtain ⟨⟨i1, p⟩, hp, rfl⟩ := List.mem_map.1 hi
    obtain ⟨⟨i2, q⟩, hq, heq⟩ := List.mem_map.1 ((hk _).1 hi)
    simp only at heq; subst heq
    rw [get?_patches h hp, get?_patches h' hq]
    have := he _ _ _ hp hq
    cases p <;> cases q <;> simp [OptEq] at this ⊢
    exact this
  · have h1 : Dict.get? (patches m) i = none := Dict.get?_eq_none_iff.2 fun hh => hi (keys_patches_subset m i hh)
    have h2 : Dict.get? (patches m') i = none :=
      Dict.get?_eq_none_iff.2 fun hh => hi ((hk i).2 (keys_patches_subset m' i hh))
    simp [h1, h2]

theorem wf_toProps {u : Upd} (hu : (Val.dict u.sites).WF) (hg : (Val.dict u.general).WF) :
    (Val.dict u.toProps).WF := by
  refine .dict (by simp [Dict.WF, Upd.toProps, SITES, GENERAL]) ?_
  intro kv hkv
  simp [Upd.toProps] at hkv
  rcases hkv with rfl | rfl <;> assumption

theorem eqv_toProps {u v : Upd} (h : Dict.EqvBy Val.PyEq u.sites v.sites)
    (hg : Dict.EqvBy Val.PyEq u.general v.general) : Val.PyEq (.dict u.toProps) (.dict v.toProps) := by
  refine Val.pyEq_dict fun k => ?_
  simp only [Upd.toProps, Dict.get?]
  split_ifs
  · exact ⟨by simp, fun a b ha hb => by simp at ha hb; subst ha hb; exact Val.pyEq_dict h⟩
  · exact ⟨by simp, fun a b ha hb => by simp at ha hb; subst ha hb; exact Val.pyEq_dict hg⟩
  · simp

theorem EqvBy_nil_iff {d e : Props} (h : Dict.EqvBy Val.PyEq d e) : d = [] ↔ e = [] := by
  have key : ∀ {d e : Props}, Dict.EqvBy Val.PyEq d e → d = [] → e = [] := by
    rintro d e h rfl
    cases e with
    | nil => rfl
    | cons p e =>
      have := (h.mem_keys p.1).2 (by simp)
      simp at this
  exact ⟨key h, key (h.symm fun _ _ h => h.symm)⟩

theorem C14_one_step {f : Key → SimState → Resp} (hf : SiteLocal f) (hw : RuleWF f) (he : RespectsEq f)
    {s t : SimState} (hs : s.WF) (ht : t.WF) (hst : s.Eqv t) {st : Unit} {u : Option Upd} {s' : SimState}
    (h1 : takeStep (ofRule f) () s = .ok (st, u)) (h2 : s.batchUpdateO (u.map Upd.toProps) = .ok s') :
    ∃ v t', takeStep (ofRule f) () t = .ok ((), v) ∧ t.batchUpdateO (v.map Upd.toProps) = .ok t' ∧ s'.Eqv t' := by
  obtain ⟨m, hk, hans, hpw, h3⟩ := stepBatch_local hf hw s s.siteIds hs.sites
  obtain ⟨m', hk', hans', hpw', h3'⟩ := stepBatch_local hf hw t t.siteIds ht.sites
  have hpe : Dict.EqvBy Val.PyEq (patches m) (patches m') := by
    refine eqv_patches (by rw [hk]; exact hs.sites) (by rw [hk']; exact ht.sites) ?_ ?_
    · intro i; rw [hk, hk']; exact hst.1.mem_keys i
    · intro i p q hp hq; exact he i s t p q hst (hans i p hp) (hans' i q hq)
  unfold takeStep at h1
  rw [h3] at h1
  injection h1 with h1
  injection h1 with _ h1
  cases hp : patches m with
  | nil => rw [hp] at h1; simp at h1; subst h1; simp [batchUpdateO] at h2
  | cons p ps =>
    cases hp' : patches m' with
    | nil => exact absurd ((EqvBy_nil_iff hpe).2 hp') (by simp [hp])
    | cons p' ps' =>
      rw [hp] at h1 hpw hpe; rw [hp'] at hpw' hpe; simp only at h1; subst h1
      have hnil : (Val.dict []).WF := .dict Dict.WF.nil (by simp)
      have so := sameOutcome_batchUpdate hst (wf_toProps (u := ⟨p :: ps, []⟩) hpw hnil)
        (wf_toProps (u := ⟨p' :: ps', []⟩) hpw' hnil)
        (eqv_toProps (u := ⟨p :: ps, []⟩) (v := ⟨p' :: ps', []⟩) hpe Dict.eqvBy_nil)
      have h2' : s.batchUpdate (Upd.toProps ⟨p :: ps, []⟩) = .ok s' := h2
      rw [h2'] at so
      cases h4 : t.batchUpdate (Upd.toProps ⟨p' :: ps', []⟩) with
      | error e => rw [h4] at so; exact so.elim
      | ok t' =>
        rw [h4] at so
        refine ⟨some ⟨p' :: ps', []⟩, t', ?_, h4, so⟩
        unfold takeStep; rw [h3', hp']

/-- C14: two equal states (whatever the insertion order of their sites) give equal states at every step of a
serial run of a site-local rule. -/
theorem C14_order_independent (f : Key → SimState → Resp) (hf : SiteLocal f) (hw : RuleWF f) (he : RespectsEq f)
    (s0 t0 : SimState) (hs : s0.WF) (ht : t0.WF) (hst : s0.Eqv t0) (n : Nat) (res : SimResult)
    (h : runSync (ofRule f) () s0 n = .ok ((), res)) :
    ∃ res', runSync (ofRule f) () t0 n = .ok ((), res') ∧
      ∀ k, k ≤ n → ∃ a b, res.getStep k = .ok a ∧ res'.getStep k = .ok b ∧ a.Eqv b := by
  have key : ∀ n st st' s s' ds, SyncChain (ofRule f) n st s ds st' s' → ∀ t, s.WF → t.WF → s.Eqv t →
      ∃ ds' t', SyncChain (ofRule f) n () t ds' () t' ∧
        ∀ k, k ≤ n → ∃ a b, SimResult.replayTo s ds k = .ok a ∧ SimResult.replayTo t ds' k = .ok b ∧ a.Eqv b := by
    intro n st st' s s' ds h
    induction h with
    | zero st s =>
      intro t _ _ hst
      refine ⟨[], t, .zero _ _, fun k hk => ?_⟩
      obtain rfl : k = 0 := by omega
      exact ⟨s, t, rfl, rfl, hst⟩
    | @succ n st st1 st2 s s1 s2 u ds h1 h2 h3 ih =>
      intro t hs ht hst
      obtain ⟨v, t1, h4, h5, h6⟩ := C14_one_step hf hw he hs ht hst h1 h2
      obtain ⟨ds', t', h7, h8⟩ := ih t1 (C13_WF f hf hw s s1 hs ⟨_, _, h1, h2⟩)
        (C13_WF f hf hw t t1 ht ⟨_, _, h4, h5⟩) h6
      refine ⟨_, t', .succ h4 h5 h7, fun k hk => ?_⟩
      cases k with
      | zero => exact ⟨s, t, rfl, rfl, hst⟩
      | succ k =>
        obtain ⟨a, b, h9, h10, h11⟩ := h8 k (by omega)
        exact ⟨a, b, by simp [SimResult.replayTo, h2, h9], by simp [SimResult.replayTo, h5, h10], h11⟩
  obtain ⟨st1, live, ds, h1, h2, rfl⟩ := runSync_ok (c := ofRule f)
    (by intro _ _ _ _ h; injection h with h; injection h with h1 h2; exact h2.symm) h
  obtain ⟨ds', t', h3, h4⟩ := key n _ _ _ _ _ h2 t0 hs ht hst
  refine ⟨⟨t0, ds', [], some t'⟩, ?_, fun k hk => ?_⟩
  · have h5 := syncLoop_of_chain h3 (SimResult.new t0.copy)
    have h6 : (ofRule f).preRun () t0 = .ok ((), t0) := rfl
    simp only [runSync, h6, ok_bind, copy] at h5 ⊢
    rw [h5]; simp [SimResult.setOutput, SimResult.new, pure, Except.pure]
  · obtain ⟨a, b, h5, h6, h7⟩ := h4 k hk
    exact ⟨a, b, h5, h6, h7⟩

/-- A rule and two differently ordered states meeting the hypotheses of C14. -/
example : SiteLocal demoRule ∧ SimState.Eqv ⟨[(.int 0, [(.str "v", .num 7)]), (.int 1, [])], some []⟩
    ⟨[(.int 1, []), (.int 0, [(.str "v", .num 7)])], some []⟩ := by
  refine ⟨demoRule_local, ?_, Dict.eqvBy_nil⟩
  exact Dict.EqvBy.of_perm (Dict.EqvBy.refl Val.PyEq.refl) (by simp [Dict.WF]) (List.Perm.swap _ _ _)

theorem demoRule_respectsEq : RespectsEq demoRule := by
  intro i s t p q hst hp hq
  have patchOnly : ∀ (v : Val) (p : Option Props), Answers i (.dict [(.str "w", v)]) p →
      p = some [(.str "w", v)] := by
    intro v p h
    cases h with
    | patch => rfl
    | self n hi => cases hi
    | total _ _ h _ => simp [Dict.get?, SITES] at h
  unfold demoRule at hp hq
  rcases hst.1.get? (.int 0) with ⟨h1, h2⟩ | ⟨a, b, h1, h2, hr⟩
  · simp only [getSiteState, h1] at hp; simp only [getSiteState, h2] at hq
    rw [patchOnly _ _ hp, patchOnly _ _ hq]; exact .refl _
  · simp only [getSiteState, h1] at hp; simp only [getSiteState, h2] at hq
    rw [patchOnly _ _ hp, patchOnly _ _ hq]
    refine Val.pyEq_dict fun k => ?_
    simp only [Dict.get?]
    split_ifs
    · refine ⟨by simp, fun x y hx hy => ?_⟩
      simp at hx hy; subst hx hy
      rcases hr.get? (.str "v") with ⟨h3, h4⟩ | ⟨x, y, h3, h4, h5⟩
      · rw [h3, h4]; exact .refl _
      · rw [h3, h4]; exact h5
    · simp

/-! ### C15 -/

/-- All calls made during a serial run whose step-`k` state is `f k`. -/
def callsOf (states : List SimState) : List (Key × SimState) :=
  states.flatMap fun s => s.siteIds.map fun i => (i, s)

theorem syncChain_logged {c : Controller σ} {n : Nat} {st st' : σ × List (Key × SimState)} {s s' : SimState}
    {ds : List (Option Props)} (h : SyncChain (logged c) n st s ds st' s') :
    SyncChain c n st.1 s ds st'.1 s' ∧ ∃ states : List SimState, states.length = n + 1 ∧
      (∀ k (hk : k < states.length), SimResult.replayTo s ds k = .ok states[k]) ∧ states[n]? = some s' ∧
      st'.2 = st.2 ++ callsOf (states.take n) := by
  induction h with
  | zero st s =>
    refine ⟨.zero _ _, [s], rfl, ?_, rfl, by simp [callsOf]⟩
    intro k hk
    have : k = 0 := by simpa using hk
    subst this; rfl
  | @succ n st st1 st2 s s1 s2 u ds h1 h2 h3 ih =>
    obtain ⟨h4, states, h5, h6, h7, h8⟩ := ih
    obtain ⟨st, l⟩ := st
    obtain ⟨rs, h9, h10⟩ := stepBatch_ok h1
    obtain ⟨h11, h12⟩ := visited_logged h9
    refine ⟨.succ (stepBatch_of_visited h11 h10) h2 h4, s :: states, by simp [h5], ?_, by simpa using h7, ?_⟩
    · intro k hk
      cases k with
      | zero => rfl
      | succ k =>
        have := h6 k (by simpa using hk)
        simp [SimResult.replayTo, h2, this]
    · simp only at h12
      rw [h8, h12]
      simp [callsOf]

theorem syncChain_logged_of {c : Controller σ} {n : Nat} {st st' : σ} {s s' : SimState}
    {ds : List (Option Props)} (h : SyncChain c n st s ds st' s') (l : List (Key × SimState)) :
    ∃ l', SyncChain (logged c) n (st, l) s ds (st', l') s' := by
  induction h generalizing l with
  | zero => exact ⟨l, .zero _ _⟩
  | succ h1 h2 _ ih =>
    obtain ⟨l', hl⟩ := ih _
    exact ⟨l', .succ ((takeStep_logged l).1 h1) h2 hl⟩

theorem preRunPure_logged {c : Controller σ} (hp : PreRunPure c) : PreRunPure (logged c) := by
  intro st s st' s' h
  simp only [logged] at h
  obtain ⟨⟨a, b⟩, h1, h2⟩ := bind_ok h
  simp [pure, Except.pure] at h2
  rw [← h2.2]; exact hp _ _ _ _ h1

/-- Writing down the calls does not change a run: `logged c` is `c` with a notebook. -/
theorem logged_transparent (c : Controller σ) (hp : PreRunPure c) (st st' : σ) (s0 : SimState) (n : Nat)
    (res : SimResult) : runSync c st s0 n = .ok (st', res) ↔
      ∃ log, runSync (logged c) (st, []) s0 n = .ok ((st', log), res) := by
  constructor
  · intro h
    obtain ⟨st1, live, ds, h1, h2, rfl⟩ := runSync_ok hp h
    obtain ⟨l', h3⟩ := syncChain_logged_of h2 []
    refine ⟨l', ?_⟩
    have h4 : (logged c).preRun (st, []) s0 = .ok ((st1, []), s0) := by simp [logged, h1, pure, Except.pure]
    have h5 := syncLoop_of_chain h3 (SimResult.new s0.copy)
    simp only [runSync, h4, ok_bind, copy] at h5 ⊢
    rw [h5]; simp [SimResult.setOutput, SimResult.new, pure, Except.pure]
  · rintro ⟨log, h⟩
    obtain ⟨⟨st1, l1⟩, live, ds, h1, h2, rfl⟩ := runSync_ok (preRunPure_logged hp) h
    obtain ⟨h3, _⟩ := syncChain_logged h2
    have h4 : c.preRun st s0 = .ok (st1, s0) := by
      simp only [logged] at h1
      obtain ⟨⟨a, b⟩, h5, h6⟩ := bind_ok h1
      simp [pure, Except.pure] at h6
      obtain ⟨⟨rfl, _⟩, rfl⟩ := h6
      exact h5
    have h5 := syncLoop_of_chain h3 (SimResult.new s0.copy)
    simp only [runSync, h4, ok_bind, copy] at h5 ⊢
    rw [h5]; simp [SimResult.setOutput, SimResult.new, pure, Except.pure]

/-- C15 (serial): after a serial run of any controller the state reported by `get_step(k)` is the state the rule
was shown at step `k` (the log lists, step by step, all sites with that state), `last_step` is `output`, and
`len(result)` is `n + 1`. -/
theorem C15_serial (c : Controller σ) (hp : PreRunPure c) (st st' : σ) (s0 : SimState) (n : Nat)
    (res : SimResult) (log : List (Key × SimState))
    (h : runSync (logged c) (st, []) s0 n = .ok ((st', log), res)) :
    res.len = n + 1 ∧ res.lastStep.toOption = res.output ∧ res.output.isSome ∧
    ∃ states : List SimState, states.length = n + 1 ∧
      (∀ k (hk : k < states.length), res.getStep k = .ok states[k]) ∧ states[0]? = some s0 ∧
      log = callsOf (states.take n) := by
  obtain ⟨⟨st1, l1⟩, live, ds, h1, h2, rfl⟩ := runSync_ok (preRunPure_logged hp) h
  have hl1 : l1 = [] := by
    simp only [logged] at h1
    obtain ⟨⟨a, b⟩, h5, h6⟩ := bind_ok h1
    simp [pure, Except.pure] at h6
    exact h6.1.2
  subst hl1
  obtain ⟨_, states, h3, h4, h5, h6⟩ := syncChain_logged h2
  have hlen := h2.length
  refine ⟨by simp [SimResult.len, hlen], ?_, rfl, states, h3, h4, ?_, by simpa using h6⟩
  · have h7 := h4 n (by omega)
    have h8 : states[n] = live := by
      rw [List.getElem?_eq_getElem (by omega)] at h5; injection h5
    simp only [SimResult.lastStep, SimResult.getStep, SimResult.len, hlen, Dict.get?, copy]
    have : ((↑(n + 1) : Int) - 1).toNat = n := by omega
    rw [this, h7, h8]; rfl
  · have h7 := h4 0 (by omega)
    simp [SimResult.replayTo] at h7
    rw [List.getElem?_eq_getElem (by omega), ← h7]

/-- C15 needs the hypothesis on `pre_run`: a hook that changes the state is not part of the recorded history (the
result starts from the state before the hook, the run from the state after it). -/
theorem C15_pre_run_mutation :
    ∃ (c : Controller Unit) (s0 : SimState) (res : SimResult), runSync c () s0 1 = .ok ((), res) ∧
      res.lastStep.toOption ≠ res.output := by
  refine ⟨{ update := fun _ _ _ => .ok ((), .dict []),
            preRun := fun _ s => .ok ((), s.setSiteState (.int 0) [(.str "a", .num 1)]) },
    ⟨[(.int 0, [])], some []⟩, ⟨⟨[(.int 0, [])], some []⟩, [some [(SITES, .dict [(.int 0, .dict [])]),
      (GENERAL, .dict [])]], [], some ⟨[(.int 0, [(.str "a", .num 1)])], some []⟩⟩, rfl, by decide⟩

/-! ### C22 -/

theorem lastSays_append (l m : List Props) (k : Key) :
    lastSays (l ++ m) k = (lastSays m k).or (lastSays l k) := by
  induction l with
  | nil => simp [lastSays]
  | cons d l ih =>
    simp only [List.cons_append, lastSays, ih]
    cases lastSays m k <;> simp

theorem mergeResp_parts {i : Key} {r : Resp} {ss gs : Props} (h : Parts i r ss gs) (acc : Option Upd) :
    mergeResp r acc i = .ok (if r = .noUpdate then acc else
      some ⟨Dict.update (acc.getD Upd.empty).sites ss, Dict.update (acc.getD Upd.empty).general gs⟩) := by
  cases h with
  | nothing => rfl
  | patch d h =>
    obtain ⟨h3, h1⟩ := isPatch_iff.1 h
    simp [mergeResp, mergeUpdates, h3, h1]
  | perSite d h0 h =>
    have h1 : allIntKeys ss = true := allIntKeys_iff.2 ⟨h0, h⟩
    have h3 : (Dict.has ss SITES || Dict.has ss GENERAL) = false := by
      rw [Bool.or_eq_false_iff, Dict.has_false_iff, Dict.has_false_iff]
      constructor <;> intro hk <;> obtain ⟨n, hn⟩ := h _ hk <;> simp [SITES, GENERAL] at hn
    simp [mergeResp, mergeUpdates, h3, h1]
  | total d ss gs h hs hg =>
    have h1 : dictPart d SITES = .ok ss := by
      rcases hs with h | ⟨h, rfl⟩
      · simp [dictPart, h]
      · simp [dictPart, Dict.get?_eq_none_iff.2 h]
    have h2 : dictPart d GENERAL = .ok gs := by
      rcases hg with h | ⟨h, rfl⟩
      · simp [dictPart, h]
      · simp [dictPart, Dict.get?_eq_none_iff.2 h]
    have h3 : (Dict.has d SITES || Dict.has d GENERAL) = true := by
      rw [Bool.or_eq_true, Dict.has_iff, Dict.has_iff]; exact h
    simp only [mergeResp, mergeUpdates, h3, if_true, h1, h2, bind, Except.bind, pure, Except.pure]; simp

theorem parts_wf {i : Key} {r : Resp} {ss gs : Props} (h : Parts i r ss gs) (hw : RespWF r) :
    Dict.WF ss ∧ Dict.WF gs := by
  cases h with
  | nothing => exact ⟨Dict.WF.nil, Dict.WF.nil⟩
  | patch d h => exact ⟨by simp [Dict.WF], Dict.WF.nil⟩
  | perSite d h0 h => exact ⟨Val.WF.keys hw, Dict.WF.nil⟩
  | total d ss gs h hs hg =>
    constructor
    · rcases hs with h | ⟨_, rfl⟩
      · exact (Val.WF.get? (d := d) hw h).keys
      · exact Dict.WF.nil
    · rcases hg with h | ⟨_, rfl⟩
      · exact (Val.WF.get? (d := d) hw h).keys
      · exact Dict.WF.nil

/-- The parts of a list of visits. -/
inductive PartsAll : List (Key × Resp) → List Props → List Props → Prop
  | nil : PartsAll [] [] []
  | cons {i r ss gs l sl gl} : Parts i r ss gs → RespWF r → PartsAll l sl gl →
      PartsAll ((i, r) :: l) (ss :: sl) (gs :: gl)

theorem mergeAll_parts {l : List (Key × Resp)} {sl gl : List Props} (h : PartsAll l sl gl)
    (acc : Option Upd) : ∃ v, mergeAll acc l = .ok v ∧
      (∀ k, Dict.get? (v.getD Upd.empty).sites k = (lastSays sl k).or (Dict.get? (acc.getD Upd.empty).sites k)) ∧
      (∀ k, Dict.get? (v.getD Upd.empty).general k = (lastSays gl k).or (Dict.get? (acc.getD Upd.empty).general k)) ∧
      (v = none ↔ acc = none ∧ ∀ kr ∈ l, kr.2 = .noUpdate) := by
  induction h generalizing acc with
  | nil => exact ⟨acc, rfl, by simp [lastSays], by simp [lastSays], by simp⟩
  | @cons i r ss gs l sl gl h1 hw h2 ih =>
    simp only [mergeAll, List.foldlM_cons, mergeResp_parts h1, ok_bind]
    obtain ⟨w1, w2⟩ := parts_wf h1 hw
    by_cases hr : r = .noUpdate
    · subst hr
      cases h1
      obtain ⟨v, h3, h4, h5, h6⟩ := ih acc
      refine ⟨v, by simpa [mergeAll] using h3, ?_, ?_, ?_⟩
      · intro k; rw [h4]; simp only [lastSays]; cases lastSays sl k <;> simp [Dict.get?]
      · intro k; rw [h5]; simp only [lastSays]; cases lastSays gl k <;> simp [Dict.get?]
      · rw [h6]; simp
    · simp only [hr, if_false]
      obtain ⟨v, h3, h4, h5, h6⟩ := ih (some ⟨Dict.update (acc.getD Upd.empty).sites ss,
        Dict.update (acc.getD Upd.empty).general gs⟩)
      refine ⟨v, by simpa [mergeAll] using h3, ?_, ?_, ?_⟩
      · intro k
        rw [h4]; simp only [lastSays, Option.getD_some, Dict.get?_update w1]
        cases lastSays sl k <;> simp
      · intro k
        rw [h5]; simp only [lastSays, Option.getD_some, Dict.get?_update w2]
        cases lastSays gl k <;> simp
      · rw [h6]; simp [hr]

/-- C22: in a serial step of any rule (answers `rs` for the visited ids, with SITES parts `sl` and GENERAL parts `gl`)
the recorded update stores for each site exactly what the last application mentioning it says about it, and for
each general key what the last application mentioning the key says. -/
theorem C22_conflicts (c : Controller σ) (st st' : σ) (s : SimState) (rs : List Resp) (sl gl : List Props)
    (hv : Visited c s st s.siteIds rs st') (hp : PartsAll (s.siteIds.zip rs) sl gl)
    (hsome : ∃ r ∈ rs, r ≠ .noUpdate) :
    ∃ u, takeStep c st s = .ok (st', some u) ∧ (∀ i, Dict.get? u.sites i = lastSays sl i) ∧
      (∀ k, Dict.get? u.general k = lastSays gl k) := by
  obtain ⟨v, h1, h2, h3, h4⟩ := mergeAll_parts hp none
  have hstep := stepBatch_of_visited hv h1
  cases v with
  | none =>
    exfalso
    obtain ⟨r, hr, hne⟩ := hsome
    obtain ⟨j, hj, hjr⟩ := List.getElem_of_mem hr
    have hl := hv.length
    have : (s.siteIds[j]'(by omega), r) ∈ s.siteIds.zip rs := by
      rw [List.mem_iff_getElem]
      exact ⟨j, by simp; omega, by simp [hjr]⟩
    exact hne ((h4.1 rfl).2 _ this)
  | some u =>
    refine ⟨u, hstep, ?_, ?_⟩
    · intro i; have := h2 i; simpa [Upd.empty] using this
    · intro k; have := h3 k; simpa [Upd.empty] using this

/-- Two sites that both write site 5: the second visited one wins and the dicts are not combined. -/
example : takeStep (ofRule fun i _ => .dict [(.int 5, .dict [(.str (if i = .int 0 then "a" else "b"), .num 1)])]) ()
    ⟨[(.int 0, []), (.int 1, [])], some []⟩ = .ok ((), some ⟨[(.int 5, .dict [(.str "b", .num 1)])], []⟩) := by decide

/-! ### C23 -/

/-- C23: a synchronous run of a site-local rule never adds or removes a site. -/
theorem C23_sites_constant (f : Key → SimState → Resp) (hf : SiteLocal f) (hw : RuleWF f) (s0 : SimState)
    (hs : s0.WF) (n : Nat) (res : SimResult) (h : runSync (ofRule f) () s0 n = .ok ((), res)) (k : Nat) (hk : k ≤ n) :
    ∃ a, res.getStep k = .ok a ∧ a.siteIds = s0.siteIds := by
  induction k with
  | zero =>
    obtain ⟨st1, live, ds, h1, h2, rfl⟩ := runSync_ok (c := ofRule f) (by intro _ _ _ _ h; injection h with h; injection h with h1 h2; exact h2.symm) h
    exact ⟨s0, by simp [SimResult.getStep, Dict.get?, SimResult.replayTo, copy], rfl⟩
  | succ k ih =>
    obtain ⟨a, h1, h2⟩ := ih (by omega)
    obtain ⟨a', b, h3, h4, h5⟩ := C13_run f hf hw s0 hs n res h k (by omega)
    rw [h1] at h3; injection h3 with h3; subst h3
    exact ⟨b, by simpa using h4, by rw [h5.1, h2]⟩

/-! ### C24 -/

/-- C24: if every application (of any rule) answers None, or there are no sites, the serial run raises TypeError. -/
theorem C24_all_none (c : Controller σ) (st st' : σ) (s : SimState) (rs : List Resp)
    (hv : Visited c s st s.siteIds rs st') (hnone : ∀ r ∈ rs, r = .noUpdate) (n : Nat) (res : SimResult) :
    syncLoop c (n + 1) st s res = .error .typeError := by
  have h1 : mergeAll none (s.siteIds.zip rs) = .ok none := by
    have key : ∀ (l : List (Key × Resp)), (∀ kr ∈ l, kr.2 = .noUpdate) → mergeAll none l = .ok none := by
      intro l
      induction l with
      | nil => intro _; rfl
      | cons kr l ih =>
        intro h
        have h1 : kr.2 = .noUpdate := h kr (by simp)
        simp only [mergeAll, List.foldlM_cons, h1, mergeResp, mergeUpdates, ok_bind]
        exact ih fun kr h' => h kr (by simp [h'])
    refine key _ fun kr hkr => hnone _ ?_
    exact (List.of_mem_zip (a := kr.1) (b := kr.2) hkr).2
  have h2 : takeStep c st s = .ok (st', none) := stepBatch_of_visited hv h1
  simp [syncLoop, h2, batchUpdateO]

/-- C24: no sites at all. -/
theorem C24_no_sites (c : Controller σ) (st : σ) (g : Option Props) (n : Nat) (res : SimResult) :
    syncLoop c (n + 1) st ⟨[], g⟩ res = .error .typeError :=
  C24_all_none c st st ⟨[], g⟩ [] (.nil st) (by simp) n res

theorem SyncChain.concat {c : Controller σ} {n m : Nat} {st st1 : σ} {s s1 : SimState} {ds : List (Option Props)}
    (h : SyncChain c n st s ds st1 s1) (res : SimResult) :
    ∃ res1, syncLoop c (n + m) st s res = syncLoop c m st1 s1 res1 := by
  induction h generalizing res with
  | zero st s => exact ⟨res, by simp⟩
  | @succ n st st1 st2 s s1 s2 u ds h1 h2 h3 ih =>
    obtain ⟨res1, h4⟩ := ih (res.addStep (u.map Upd.toProps))
    refine ⟨res1, ?_⟩
    rw [show n + 1 + m = n + m + 1 by omega, syncLoop]
    simp only [h1, ok_bind, h2, h4]

theorem SyncChain.local {f : Key → SimState → Resp} (hf : SiteLocal f) (hw : RuleWF f) {n : Nat} {st st1 : Unit} {s s1 : SimState}
    {ds : List (Option Props)} (h : SyncChain (ofRule f) n st s ds st1 s1) (hs : s.WF) :
    s1.WF ∧ s1.getGeneralState = s.getGeneralState := by
  induction h with
  | zero => exact ⟨hs, rfl⟩
  | succ h1 h2 h3 ih =>
    have h4 := C13_step f hf hw _ _ hs ⟨_, _, h1, h2⟩
    obtain ⟨h5, h6⟩ := ih (C13_WF f hf hw _ _ hs ⟨_, _, h1, h2⟩)
    exact ⟨h5, by rw [h6, h4.2.1]⟩

/-- C24, for whole runs: a serial run of a site-local rule has reached step `k`.  If the rule answers None for every site there (in particular if there are
no sites), every longer run raises TypeError; if it answers something for some site, the run can be continued by one more step. -/
theorem C24_run (f : Key → SimState → Resp) (hf : SiteLocal f) (hw : RuleWF f) (s0 : SimState) (hs : s0.WF)
    (hg : s0.getGeneralState ≠ none) (k : Nat) (res : SimResult) (h : runSync (ofRule f) () s0 k = .ok ((), res)) :
    ∃ s, res.getStep k = .ok s ∧
      ((∀ i ∈ s.siteIds, f i s = .noUpdate) → ∀ n, k < n → runSync (ofRule f) () s0 n = .error .typeError) ∧
      ((∃ i ∈ s.siteIds, f i s ≠ .noUpdate) → ∃ res', runSync (ofRule f) () s0 (k + 1) = .ok ((), res')) := by
  obtain ⟨st1, live, ds, h1, h2, rfl⟩ := runSync_ok (c := ofRule f)
    (by intro _ _ _ _ h; injection h with h; injection h with h1 h2; exact h2.symm) h
  have hpre : ∀ (st : Unit), (ofRule f).preRun st s0 = .ok ((), s0) := fun _ => rfl
  obtain ⟨stk, sk, h3, h4, h5⟩ := h2.split k le_rfl
  rw [Nat.sub_self] at h4
  have hlive : sk = live := by
    generalize ds.drop k = ds' at h4
    cases h4; rfl
  subst hlive
  obtain ⟨hwk, hgk⟩ := h2.local hf hw hs
  refine ⟨sk, ?_, fun hnone n hn => ?_, fun ⟨i, hi, hr⟩ => ?_⟩
  · simp only [SimResult.getStep, Dict.get?, copy]; simpa using h5
  · obtain ⟨m, rfl⟩ : ∃ m, n = k + (m + 1) := ⟨n - k - 1, by omega⟩
    obtain ⟨res1, h6⟩ := h2.concat (m := m + 1) (SimResult.new s0.copy)
    rw [runSync]
    simp only [hpre, ok_bind, copy]
    simp only [copy] at h6
    rw [h6, C24_all_none (ofRule f) () () sk _ (visited_ofRule f sk _) (by
      intro r hr
      obtain ⟨i, hi, rfl⟩ := List.mem_map.1 hr
      exact hnone i hi) m res1]
    rfl
  · obtain ⟨u, s', h6, h7⟩ := C24_some_answer f hf hw sk hwk (by rw [hgk]; exact hg) i hi hr
    obtain ⟨res1, h8⟩ := h2.concat (m := 1) (SimResult.new s0.copy)
    refine ⟨(res1.addStep (some u.toProps)).setOutput s', ?_⟩
    rw [runSync]
    simp only [hpre, ok_bind, copy]
    simp only [copy] at h8
    rw [h8]
    simp only [syncLoop, h6, ok_bind, Option.map_some, h7]
    rfl

/-- A rule that stops answering: it counts to two and then answers None; the run of two steps succeeds, the run of three raises. -/
example : ∃ (f : Key → SimState → Resp) (s0 : SimState), SiteLocal f ∧ (runSync (ofRule f) () s0 2).toOption.isSome = true ∧
    (match runSync (ofRule f) () s0 3 with | .error .typeError => true | _ => false) = true := by
  refine ⟨fun i s => match s.getSiteState i with
    | some [] => .dict [(.str "a", .num 1)]
    | some [(_, .num 1)] => .dict [(.str "a", .num 2)]
    | _ => .noUpdate, ⟨[(.int 0, []), (.int 1, [])], some []⟩, ?_, by decide, by decide⟩
  intro i s
  dsimp only
  split
  · exact ⟨_, .patch _ ⟨by simp [SITES], by simp [GENERAL], Or.inr ⟨"a", by simp⟩⟩⟩
  · exact ⟨_, .patch _ ⟨by simp [SITES], by simp [GENERAL], Or.inr ⟨"a", by simp⟩⟩⟩
  · exact ⟨_, .nothing⟩

/-- One None and one non-None answer: the step succeeds. -/
example : (runSync (ofRule fun i _ => if i = .int 0 then .noUpdate else .dict [(.str "a", .num 1)]) ()
    ⟨[(.int 0, []), (.int 1, [])], some []⟩ 3).toOption.isSome = true := by decide

end Pyl
