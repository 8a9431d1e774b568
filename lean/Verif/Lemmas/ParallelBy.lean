import Verif.Props.Parallel
import Verif.Lemmas.Rule
/-
Parallel runs of rules that answer with an update of the visited site and may keep internal state: what every worker sees, for every schedule.
-/
set_option autoImplicit false
set_option linter.unusedSectionVars false

namespace Pyl
open SimState Spec
variable {σ : Type}

/-- The updates among `hist` (those of steps 0, 1, ...) that worker `v` applies to its private state: the update of step `m` reaches it when it
executes a batch of step `m + 1`. -/
def seenL (sched : ℕ → StepSched) (v : ℕ) (hist : List Props) : List Props :=
  (hist.zipIdx.filter fun pm => decide (v ∈ (sched (pm.2 + 1)).workers)).map Prod.fst

theorem seenL_nil (sched : ℕ → StepSched) (v : ℕ) : seenL sched v [] = [] := rfl

theorem seenL_snoc (sched : ℕ → StepSched) (v : ℕ) (hist : List Props) (p : Props) :
    seenL sched v (hist ++ [p]) = seenL sched v hist ++ if v ∈ (sched (hist.length + 1)).workers then [p] else [] := by
  unfold seenL
  rw [List.zipIdx_append, List.filter_append, List.map_append]
  congr 1
  by_cases h : v ∈ (sched (hist.length + 1)).workers <;> simp [h]

theorem seenL_sublist (sched : ℕ → StepSched) (v : ℕ) (hist : List Props) : (seenL sched v hist).Sublist hist := by
  unfold seenL
  have : (hist.zipIdx.map Prod.fst) = hist := by simp
  conv_rhs => rw [← this]
  exact List.filter_sublist.map _

/-- A dict of updates of the sites `ids`. -/
structure PatchOf (ids : List Key) (ps : Props) : Prop where
  wf : (Val.dict ps).WF
  dicts : ∀ kv ∈ ps, ∃ q, kv.2 = .dict q
  sub : ∀ k ∈ Dict.keys ps, k ∈ ids

/-- A state with sites `ids` that updates can be applied to. -/
structure ViewOf (ids : List Key) (s : SimState) : Prop where
  wf : s.WF
  ids : s.siteIds = ids
  gen : s.general ≠ none

theorem addIds_sub : ∀ (l acc : List Key), (∀ k ∈ l, k ∈ acc) → addIds acc l = acc := by
  intro l
  induction l with
  | nil => intros; rfl
  | cons a l ih =>
    intro acc h
    have ha : a ∈ acc := h a (by simp)
    have : addIds acc (a :: l) = addIds (if a ∈ acc then acc else acc ++ [a]) l := rfl
    rw [this, if_pos ha]
    exact ih acc fun k hk => h k (by simp [hk])

theorem ViewOf.apply {ids : List Key} {s : SimState} (hs : ViewOf ids s) {ps : Props} (hp : PatchOf ids ps) :
    s.batchUpdate (Upd.toProps ⟨ps, []⟩) = .ok (setSitesP s ps) ∧ ViewOf ids (setSitesP s ps) := by
  obtain ⟨g0, hg⟩ := Option.ne_none_iff_exists'.1 hs.gen
  have h := batchUpdate_toProps_of (u := ⟨ps, []⟩) hg hp.dicts
  have e : ({ setSitesP s ps with general := some (Dict.update g0 []) } : SimState) = setSitesP s ps := by
    have : (setSitesP s ps).general = some g0 := by rw [general_setSitesP, hg]
    cases hh : setSitesP s ps with
    | mk a b => rw [hh] at this; simp only at this; subst this; rfl
  simp only [e] at h
  refine ⟨h, hs.wf.setSitesP fun _ hkv => hp.wf.entry hkv, ?_, by rw [general_setSitesP]; exact hs.gen⟩
  rw [siteIds_setSitesP, addIds_sub _ _ (by rw [hs.ids]; exact hp.sub), hs.ids]

theorem ViewOf.idem {ids : List Key} {s : SimState} (hs : ViewOf ids s) {ps : Props} (hp : PatchOf ids ps) :
    (setSitesP s ps).batchUpdate (Upd.toProps ⟨ps, []⟩) = .ok (setSitesP s ps) :=
  C06_batch_idempotent s _ hs.wf _ (wf_toProps hp.wf (.dict Dict.WF.nil (by simp))) (hs.apply hp).1

/-- The state after the updates `l` on top of `s0`. -/
def after (s0 : SimState) (l : List Props) : SimState := l.foldl setSitesP s0

theorem after_snoc (s0 : SimState) (l : List Props) (p : Props) : after s0 (l ++ [p]) = setSitesP (after s0 l) p := by
  simp [after]

theorem ViewOf.after {ids : List Key} {s : SimState} (hs : ViewOf ids s) {l : List Props} (hl : ∀ p ∈ l, PatchOf ids p) :
    ViewOf ids (after s l) := by
  induction l generalizing s with
  | nil => exact hs
  | cons p l ih => exact ih (hs.apply (hl p (by simp))).2 fun q hq => hl q (by simp [hq])

/-- In a situation where `Inv` and `Good` hold the rule answers, with an update of the visited site (or none) that `R` allows, and `Inv` stays true. -/
def AnswersOpt (c : Controller σ) (ids : List Key) (Inv : σ → Prop) (Good : SimState → Prop) (R : Key → SimState → Option Props → Prop) : Prop :=
  ∀ st s, ViewOf ids s → Inv st → Good s → ∀ i ∈ ids, ∃ st' r p, c.update st i s = .ok (st', r) ∧ Answers i r p ∧ RespWF r ∧
    R i s p ∧ Inv st'

theorem visited_opt {c : Controller σ} {ids : List Key} {Inv : σ → Prop} {Good : SimState → Prop} {R : Key → SimState → Option Props → Prop}
    (hA : AnswersOpt c ids Inv Good R) {s : SimState} (hs : ViewOf ids s) (hG : Good s) (b : List Key) (hb : ∀ i ∈ b, i ∈ ids) (hnd : b.Nodup)
    (st : σ) (hI : Inv st) :
    ∃ st' m, stepBatch c st b s = .ok (st', updOf (patches m)) ∧ m.map Prod.fst = b ∧ Inv st' ∧
      ∀ i p, (i, p) ∈ m → R i s p ∧ ∀ q, p = some q → (Val.dict q).WF := by
  have key : ∀ (b : List Key) (_ : ∀ i ∈ b, i ∈ ids) (st : σ) (_ : Inv st), ∃ rs st' m, Visited c s st b rs st' ∧ AnswersAll (b.zip rs) m ∧
      m.map Prod.fst = b ∧ Inv st' ∧ ∀ i p, (i, p) ∈ m → R i s p ∧ ∀ q, p = some q → (Val.dict q).WF := by
    intro b
    induction b with
    | nil => intro _ st hI; exact ⟨[], st, [], .nil _, .nil, rfl, hI, by simp⟩
    | cons i b ih =>
      intro hb st hI
      obtain ⟨st1, r, p, h1, h2, h3, h4, h5⟩ := hA st s hs hI hG i (hb i (by simp))
      obtain ⟨rs, st', m, h6, h7, h8, h9, h10⟩ := ih (fun j hj => hb j (by simp [hj])) st1 h5
      refine ⟨r :: rs, st', (i, p) :: m, .cons h1 h6, .cons h2 h7, by simp [h8], h9, ?_⟩
      intro j p' hj
      rcases List.mem_cons.1 hj with hj | hj
      · injection hj with e1 e2; subst e1 e2
        exact ⟨h4, fun q hq => by subst hq; exact answers_wf h2 h3⟩
      · exact h10 j p' hj
  obtain ⟨rs, st', m, h1, h2, h3, h4, h5⟩ := key b hb st hI
  refine ⟨st', m, ?_, h3, h4, h5⟩
  have hlen := h1.length
  have hz : (b.zip rs).map Prod.fst = b := by rw [List.map_fst_zip]; omega
  refine stepBatch_of_visited h1 ?_
  rw [mergeAll_answers h2 (by rw [hz]; exact hnd) none (by simp [Upd.empty])]
  unfold updOf
  cases patches m <;> simp [Upd.empty]

/-- What a batch result looks like: the answers `m` to the sites of the batch, all given on the view `s`. -/
def BatchBy (R : Key → SimState → Option Props → Prop) (b : List Key) (s : SimState) (u : Option Upd) : Prop :=
  ∃ m : List (Key × Option Props), u = updOf (patches m) ∧ m.map Prod.fst = b ∧ ∀ i p, (i, p) ∈ m → R i s p ∧ ∀ q, p = some q → (Val.dict q).WF

/-- The tasks of one step: `S v` is what worker `v` has before, `F v` what it has after the last updates are applied. -/
theorem runTasks_by {c : Controller σ} {ids : List Key} {Inv : σ → Prop} {Good : SimState → Prop} {R : Key → SimState → Option Props → Prop}
    (hA : AnswersOpt c ids Inv Good R) (bs : List (List Key)) (hnd : ∀ b ∈ bs, b.Nodup) (hsub : ∀ b ∈ bs, ∀ i ∈ b, i ∈ ids)
    (last : Option Props) (S F : ℕ → SimState) (hF : ∀ v, ViewOf ids (F v)) (hFG : ∀ v, Good (F v))
    (hSF : ∀ v, (S v).batchUpdateO last = .ok (F v)) (hFF : ∀ v, (F v).batchUpdateO last = .ok (F v)) (sc : StepSched)
    (ws : ℕ → Worker σ) (hws : ∀ v, Inv (ws v).st ∧ ((ws v).state = S v ∨ (ws v).state = F v)) :
    ∃ ws' out, runTasks c bs last sc ws = .ok (ws', out) ∧ (∀ v, Inv (ws' v).st) ∧ (∀ v ∈ sc.workers, (ws' v).state = F v) ∧
      (∀ v, v ∉ sc.workers → (ws' v).state = (ws v).state) ∧ out.map Prod.fst = sc.map Prod.fst ∧
      ∀ b v, (b, v) ∈ sc → ∀ x, (b, x) ∈ out → (sc.map Prod.fst).Nodup → BatchBy R (bs.getD b []) (F v) x := by
  induction sc generalizing ws with
  | nil => exact ⟨ws, [], rfl, fun v => (hws v).1, by simp [StepSched.workers], fun _ _ => rfl, rfl, by simp⟩
  | cons p sc ih =>
    obtain ⟨b, w⟩ := p
    have hb : (bs.getD b []).Nodup ∧ ∀ i ∈ bs.getD b [], i ∈ ids := by
      rw [List.getD_eq_getElem?_getD]
      cases h : bs[b]? with
      | none => simp
      | some x => exact ⟨hnd x (List.mem_of_getElem? h), hsub x (List.mem_of_getElem? h)⟩
    have hw : (ws w).state.batchUpdateO last = .ok (F w) := by
      rcases (hws w).2 with h | h
      · rw [h]; exact hSF w
      · rw [h]; exact hFF w
    obtain ⟨st', m, h1, h2, h3, h4⟩ := visited_opt hA (hF w) (hFG w) _ hb.2 hb.1 (ws w).st (hws w).1
    have task : workerTask c (ws w) (bs.getD b []) last = .ok (⟨st', F w⟩, updOf (patches m)) := by
      unfold workerTask
      rw [hw, ok_bind, h1, ok_bind]; rfl
    obtain ⟨ws', out, g1, g2, g3, g4, g5, g6⟩ := ih (fun i => if i = w then ⟨st', F w⟩ else ws i) (by
      intro v
      by_cases hvw : v = w
      · subst hvw; simp [h3]
      · simp only [hvw, if_false]; exact hws v)
    refine ⟨ws', (b, updOf (patches m)) :: out, ?_, g2, ?_, ?_, by simp [g5], ?_⟩
    · unfold runTasks
      rw [task, ok_bind]
      simp only [g1, ok_bind, pure, Except.pure]
    · intro v hv
      by_cases hv' : v ∈ StepSched.workers sc
      · exact g3 v hv'
      · rw [g4 v hv']
        have : v = w := by
          simp only [StepSched.workers, List.map_cons, List.mem_cons] at hv hv'
          tauto
        simp [this]
    · intro v hv
      simp only [StepSched.workers, List.map_cons, List.mem_cons, not_or] at hv
      rw [g4 v hv.2]; simp [hv.1]
    · intro b' v hbv x hx hndp
      simp only [List.map_cons, List.nodup_cons] at hndp
      have hb' : ∀ y : ℕ × Option Upd, y ∈ out → y.1 ≠ b := by
        intro y hy e
        exact hndp.1 (by rw [← g5, ← e]; exact List.mem_map.2 ⟨y, hy, rfl⟩)
      have hb'' : ∀ y : ℕ × ℕ, y ∈ sc → y.1 ≠ b := by
        intro y hy e
        exact hndp.1 (by rw [← e]; exact List.mem_map.2 ⟨y, hy, rfl⟩)
      rcases List.mem_cons.1 hbv with e1 | e1
      · injection e1 with e1 e2; subst e1 e2
        rcases List.mem_cons.1 hx with e3 | e3
        · injection e3 with _ e3; subst e3
          exact ⟨m, rfl, h2, h4⟩
        · exact absurd rfl (hb' _ e3)
      · rcases List.mem_cons.1 hx with e3 | e3
        · injection e3 with e3 _
          exact absurd e3 (hb'' _ e1)
        · exact g6 b' v e1 x e3 hndp.2

theorem firstSays_disjoint (l : List Props) (k : Key) (d : Props) (hd : d ∈ l) (h : ∀ e ∈ l, k ∈ Dict.keys e → e = d) :
    firstSays l k = Dict.get? d k := by
  induction l with
  | nil => simp at hd
  | cons e l ih =>
    simp only [firstSays]
    by_cases hk : k ∈ Dict.keys e
    · have := h e (by simp) hk; subst this
      obtain ⟨v, hv⟩ := Option.isSome_iff_exists.1 (Dict.get?_isSome_iff.2 hk)
      simp [hv]
    · rw [Dict.get?_eq_none_iff.2 hk]
      rcases List.mem_cons.1 hd with rfl | hd
      · simp only [Option.none_or]
        rw [Dict.get?_eq_none_iff.2 hk]
        by_contra hne
        have key : ∀ l : List Props, firstSays l k ≠ none → ∃ e ∈ l, k ∈ Dict.keys e := by
          intro l
          induction l with
          | nil => intro h; simp [firstSays] at h
          | cons e l ih =>
            intro h
            by_cases hke : k ∈ Dict.keys e
            · exact ⟨e, by simp, hke⟩
            · simp only [firstSays, Dict.get?_eq_none_iff.2 hke, Option.none_or] at h
              obtain ⟨e', h1, h2⟩ := ih h
              exact ⟨e', by simp [h1], h2⟩
        obtain ⟨e', h1, h2⟩ := key l hne
        have := h e' (by simp [h1]) h2
        subst this
        exact hk h2
      · simp only [Option.none_or]
        exact ih hd fun e' he' => h e' (by simp [he'])

theorem firstSays_none (l : List Props) (k : Key) (h : ∀ e ∈ l, k ∉ Dict.keys e) : firstSays l k = none := by
  induction l with
  | nil => rfl
  | cons e l ih =>
    simp only [firstSays, Dict.get?_eq_none_iff.2 (h e (by simp)), Option.none_or]
    exact ih fun e' he' => h e' (by simp [he'])

/-- One parallel step. -/
theorem takeStepParallel_by {c : Controller σ} {ids : List Key} {Inv : σ → Prop} {Good : SimState → Prop} {R : Key → SimState → Option Props → Prop}
    (hA : AnswersOpt c ids Inv Good R) (hnd : ids.Nodup) (hne : ids ≠ []) (w : ℕ) (hw0 : 0 < w)
    (last : Option Props) (S F : ℕ → SimState) (hF : ∀ v, ViewOf ids (F v)) (hFG : ∀ v, Good (F v))
    (hSF : ∀ v, (S v).batchUpdateO last = .ok (F v)) (hFF : ∀ v, (F v).batchUpdateO last = .ok (F v)) (sc : StepSched)
    (hsc : sc.Valid w (chunks ids (chunkSize ids.length w)).length) (ws : ℕ → Worker σ) (hws : ∀ v, Inv (ws v).st ∧ (ws v).state = S v) :
    ∃ ws' ps, takeStepParallel c ids (chunkSize ids.length w) sc last ws = .ok (ws', updOf ps) ∧ (∀ v, Inv (ws' v).st) ∧
      (∀ v, (ws' v).state = if v ∈ sc.workers then F v else S v) ∧ PatchOf ids ps ∧
      ∀ b v i, (b, v) ∈ sc → i ∈ (chunks ids (chunkSize ids.length w)).getD b [] →
        ∃ p, Dict.get? ps i = p.map Val.dict ∧ R i (F v) p ∧ ∀ q, p = some q → (Val.dict q).WF := by
  have hlen : 0 < ids.length := List.length_pos_iff.2 hne
  have hc : chunkSize ids.length w ≠ 0 := by
    have : 0 < chunkSize ids.length w := by unfold chunkSize; exact Nat.div_pos (by omega) hw0
    omega
  have hflat := C17_partition ids w hw0 hne
  set bs := chunks ids (chunkSize ids.length w) with hbs
  have hbnd : ∀ b ∈ bs, b.Nodup := by
    intro b hb
    have : b.Sublist bs.flatten := List.sublist_flatten_of_mem hb
    exact (hflat ▸ hnd : bs.flatten.Nodup).sublist this
  have hbsub : ∀ b ∈ bs, ∀ i ∈ b, i ∈ ids := by
    intro b hb i hi
    rw [← hflat]; exact List.mem_flatten.2 ⟨b, hb, hi⟩
  obtain ⟨ws', out, h1, h2, h3, h4, h5, h6⟩ := runTasks_by hA bs hbnd hbsub last S F hF hFG hSF hFF sc ws fun v => ⟨(hws v).1, .inl (hws v).2⟩
  have hscnd : (sc.map Prod.fst).Nodup := hsc.1.nodup_iff.2 List.nodup_range
  have houtwf : Dict.WF out := by
    unfold Dict.WF Dict.keys
    rw [h5]; exact hscnd
  -- the answers of every batch
  have hall : ∀ j, ∃ m : List (Key × Option Props), j < bs.length → ∃ v, (j, v) ∈ sc ∧ Dict.get? out j = some (updOf (patches m)) ∧ m.map Prod.fst = bs.getD j [] ∧
      ∀ i p, (i, p) ∈ m → R i (F v) p ∧ ∀ q, p = some q → (Val.dict q).WF := by
    intro j
    by_cases hj : j < bs.length
    · have hmem : j ∈ sc.map Prod.fst := hsc.1.mem_iff.2 (List.mem_range.2 hj)
      obtain ⟨⟨j', v⟩, hp, rfl⟩ := List.mem_map.1 hmem
      have : j' ∈ out.map Prod.fst := by rw [h5]; exact hmem
      obtain ⟨⟨j'', x⟩, hx, e⟩ := List.mem_map.1 this
      simp only at e; subst e
      obtain ⟨m, e1, e2, e3⟩ := h6 j'' v hp x hx hscnd
      exact ⟨m, fun _ => ⟨v, hp, by rw [Dict.get?_of_mem houtwf hx, e1], e2, e3⟩⟩
    · exact ⟨[], fun h => absurd h hj⟩
  choose m hm using hall
  have hpw : ∀ j, j < bs.length → (Val.dict (patches (m j))).WF := by
    intro j hj
    obtain ⟨v, g1, g2, g3, g4⟩ := hm j hj
    refine wf_patches ?_ fun i p hip => (g4 i _ hip).2 p rfl
    rw [g3, List.getD_eq_getElem?_getD, List.getElem?_eq_getElem hj]
    exact hbnd _ (List.getElem_mem hj)
  obtain ⟨ps, h7, h8, h9⟩ := mergeBatches_updOf ((List.range bs.length).map fun j => patches (m j)) (by
    intro d hd
    obtain ⟨j, hj, rfl⟩ := List.mem_map.1 hd
    exact (hpw j (List.mem_range.1 hj)).keys) [] Dict.WF.nil
  have h9' : ∀ k, Dict.get? ps k = firstSays ((List.range bs.length).map fun j => patches (m j)) k := by
    intro k; rw [h9]; simp
  -- a site belongs to one batch
  have huniq : ∀ j j', j < bs.length → j' < bs.length → ∀ i, i ∈ bs.getD j [] → i ∈ bs.getD j' [] → j = j' := by
    intro j j' hj hj' i hi hi'
    rw [List.getD_eq_getElem?_getD, List.getElem?_eq_getElem hj] at hi
    rw [List.getD_eq_getElem?_getD, List.getElem?_eq_getElem hj'] at hi'
    simp only [Option.getD_some] at hi hi'
    by_contra hne
    have hpd := (List.nodup_flatten.1 (hflat ▸ hnd : bs.flatten.Nodup)).2
    rcases lt_or_gt_of_ne hne with h | h
    · exact (List.pairwise_iff_getElem.1 hpd j j' hj hj' h) hi hi'
    · exact (List.pairwise_iff_getElem.1 hpd j' j hj' hj h) hi' hi
  have hkeys : ∀ j, j < bs.length → ∀ k, k ∈ Dict.keys (patches (m j)) → k ∈ bs.getD j [] := by
    intro j hj k hk
    obtain ⟨v, g1, g2, g3, g4⟩ := hm j hj
    rw [← g3]; exact keys_patches_subset _ k hk
  have hget : ∀ j, j < bs.length → ∀ i, i ∈ bs.getD j [] → Dict.get? ps i = Dict.get? (patches (m j)) i := by
    intro j hj i hi
    rw [h9']
    refine firstSays_disjoint _ i _ (List.mem_map.2 ⟨j, List.mem_range.2 hj, rfl⟩) ?_
    intro e he hk
    obtain ⟨j', hj', rfl⟩ := List.mem_map.1 he
    rw [List.mem_range] at hj'
    rw [huniq j j' hj hj' i hi (hkeys j' hj' i hk)]
  have hin : ∀ i, i ∈ Dict.keys ps → ∃ j, j < bs.length ∧ i ∈ bs.getD j [] := by
    intro i hi
    by_contra hno
    push Not at hno
    rw [← Dict.get?_isSome_iff, h9', firstSays_none] at hi
    · simp at hi
    · intro e he hk
      obtain ⟨j, hj, rfl⟩ := List.mem_map.1 he
      rw [List.mem_range] at hj
      exact hno j hj (hkeys j hj i hk)
  refine ⟨ws', ps, ?_, h2, ?_, ⟨?_, ?_, ?_⟩, ?_⟩
  · unfold takeStepParallel
    rw [if_neg hc, ← hbs]
    simp only
    rw [h1, ok_bind]
    have e : (List.range bs.length).map (fun b => (Dict.get? out b).getD none) = ((List.range bs.length).map fun j => patches (m j)).map updOf := by
      rw [List.map_map]
      refine List.map_congr_left fun j hj => ?_
      obtain ⟨v, g1, g2, -⟩ := hm j (List.mem_range.1 hj)
      rw [g2]; rfl
    simp only [e]
    unfold mergeBatches
    have h7' : (((List.range bs.length).map fun j => patches (m j)).map updOf).foldlM (fun (all : Option Upd) (r : Option Upd) =>
        mergeUpdates (all.map Upd.toProps) r none) none = (Except.ok (updOf ps) : Py _) := by
      have : updOf [] = none := by simp [updOf]
      rw [← this]; exact h7
    rw [h7', ok_bind]; rfl
  · intro v
    split_ifs with h
    · exact h3 v h
    · rw [h4 v h, (hws v).2]
  · refine .dict h8 fun kv hkv => ?_
    have h := Dict.get?_of_mem h8 (k := kv.1) (v := kv.2) hkv
    obtain ⟨j, hj, hi⟩ := hin kv.1 (Dict.mem_keys_of_get? h)
    rw [hget j hj _ hi] at h
    exact (hpw j hj).get? h
  · intro kv hkv
    have h := Dict.get?_of_mem h8 (k := kv.1) (v := kv.2) hkv
    obtain ⟨j, hj, hi⟩ := hin kv.1 (Dict.mem_keys_of_get? h)
    rw [hget j hj _ hi] at h
    exact patches_dicts _ _ (Dict.mem_of_get? h)
  · intro i hi
    obtain ⟨j, hj, hi⟩ := hin i hi
    rw [List.getD_eq_getElem?_getD, List.getElem?_eq_getElem hj] at hi
    exact hbsub _ (List.getElem_mem hj) i hi
  · intro b v i hbv hi
    have hb : b < bs.length := List.mem_range.1 (hsc.1.mem_iff.1 (List.mem_map.2 ⟨_, hbv, rfl⟩))
    obtain ⟨v', g1, g2, g3, g4⟩ := hm b hb
    have : v' = v := by
      have hwf : Dict.WF sc := hscnd
      have a1 := Dict.get?_of_mem hwf g1
      have a2 := Dict.get?_of_mem hwf hbv
      rw [a1] at a2; injection a2
    subst this
    rw [← g3] at hi
    obtain ⟨⟨i', p⟩, hip, rfl⟩ := List.mem_map.1 hi
    have hnd' : ((m b).map Prod.fst).Nodup := by
      rw [g3, List.getD_eq_getElem?_getD, List.getElem?_eq_getElem hb]; exact hbnd _ (List.getElem_mem hb)
    refine ⟨p, ?_, g4 i' p hip⟩
    rw [hget b hb i' (by rw [← g3]; exact hi), get?_patches hnd' hip]

/-- All entries are answers that the rule may give on some good state. -/
def PatchBy (ids : List Key) (Good : SimState → Prop) (R : Key → SimState → Option Props → Prop) (ps : Props) : Prop :=
  PatchOf ids ps ∧ ∀ i q, Dict.get? ps i = some (.dict q) → ∃ s, ViewOf ids s ∧ Good s ∧ R i s (some q) ∧ (Val.dict q).WF

/-- The argument `last_updates` of a step when the updates so far are `hist`. -/
def lastO (hist : List Props) : Option Props :=
  match hist.getLast? with
  | none => some []
  | some p => some (Upd.toProps ⟨p, []⟩)

theorem lastO_snoc (hist : List Props) (p : Props) : lastO (hist ++ [p]) = some (Upd.toProps ⟨p, []⟩) := by
  simp [lastO]

theorem good_after {ids : List Key} {Good : SimState → Prop} {R : Key → SimState → Option Props → Prop}
    (hG : ∀ s p, ViewOf ids s → Good s → PatchBy ids Good R p → Good (setSitesP s p)) {s : SimState} (hs : ViewOf ids s) (hgs : Good s)
    {l : List Props} (hl : ∀ p ∈ l, PatchBy ids Good R p) : ViewOf ids (after s l) ∧ Good (after s l) := by
  induction l generalizing s with
  | nil => exact ⟨hs, hgs⟩
  | cons p l ih =>
    have hp := hl p (by simp)
    exact ih (hs.apply hp.1).2 (hG s p hs hgs hp) fun q hq => hl q (by simp [hq])

/-- The last updates bring a worker that executes a batch from `seenL ... hist.dropLast` to `seenL ... hist`. -/
theorem seen_step {ids : List Key} {s0 : SimState} (hs0 : ViewOf ids s0) (sched : ℕ → StepSched) (hist : List Props)
    (hh : ∀ p ∈ hist, PatchOf ids p) (v : ℕ) :
    ∃ F, (after s0 (seenL sched v hist.dropLast)).batchUpdateO (lastO hist) = .ok F ∧ F.batchUpdateO (lastO hist) = .ok F ∧
      (∃ l, F = after s0 l ∧ ∀ p ∈ l, p ∈ hist) ∧
      (v ∈ (sched hist.length).workers → F = after s0 (seenL sched v hist)) ∧
      (v ∉ (sched hist.length).workers → after s0 (seenL sched v hist.dropLast) = after s0 (seenL sched v hist)) := by
  rcases List.eq_nil_or_concat hist with rfl | ⟨past, p, rfl⟩
  · exact ⟨s0, rfl, rfl, ⟨[], rfl, by simp⟩, fun _ => rfl, fun _ => rfl⟩
  · rw [List.concat_eq_append] at hh ⊢
    rw [List.dropLast_concat, lastO_snoc, seenL_snoc]
    have hp : PatchOf ids p := hh p (by simp)
    have hv : ViewOf ids (after s0 (seenL sched v past)) := hs0.after fun q hq => hh q (by
      have := (seenL_sublist sched v past).subset hq
      simp [this])
    refine ⟨setSitesP (after s0 (seenL sched v past)) p, (hv.apply hp).1, hv.idem hp, ⟨seenL sched v past ++ [p], by rw [after_snoc], ?_⟩, ?_, ?_⟩
    · intro q hq
      rcases List.mem_append.1 hq with hq | hq
      · have := (seenL_sublist sched v past).subset hq
        simp [this]
      · simp at hq; simp [hq]
    · intro h
      rw [List.length_append, List.length_singleton] at h
      rw [if_pos h, after_snoc]
    · intro h
      rw [List.length_append, List.length_singleton] at h
      rw [if_neg h, List.append_nil]

/-- The parallel loop: the answer at a site is given on the state made of the initial state and the updates that reached the worker. -/
theorem parallelLoop_by {c : Controller σ} {ids : List Key} {Inv : σ → Prop} {Good : SimState → Prop} {R : Key → SimState → Option Props → Prop}
    (hA : AnswersOpt c ids Inv Good R) (hG : ∀ s p, ViewOf ids s → Good s → PatchBy ids Good R p → Good (setSitesP s p))
    (hnd : ids.Nodup) (hne : ids ≠ []) (w : ℕ) (hw0 : 0 < w) (s0 : SimState) (hs0 : ViewOf ids s0) (hg0 : Good s0) (sched : ℕ → StepSched) (n : ℕ) :
    ∀ (hist : List Props) (ws : ℕ → Worker σ) (res : SimResult), (∀ p ∈ hist, PatchBy ids Good R p) →
      (∀ v, Inv (ws v).st ∧ (ws v).state = after s0 (seenL sched v hist.dropLast)) →
      (∀ j, hist.length ≤ j → j < hist.length + n → (sched j).Valid w (chunks ids (chunkSize ids.length w)).length) →
      ((∀ i s p, R i s p → p ≠ none) ∨ ∃ r, parallelLoop c ids (chunkSize ids.length w) sched hist.length n (lastO hist) ws res = .ok r) →
      ∃ ds : List Props, parallelLoop c ids (chunkSize ids.length w) sched hist.length n (lastO hist) ws res =
          .ok { res with diffs := res.diffs ++ ds.map fun p => (updOf p).map Upd.toProps } ∧ ds.length = n ∧
        (∀ p ∈ ds, PatchBy ids Good R p) ∧ (∀ j, j + 1 < n → ds.getD j [] ≠ []) ∧
        ∀ j, j < n → ∀ b v i, (b, v) ∈ sched (hist.length + j) → i ∈ (chunks ids (chunkSize ids.length w)).getD b [] →
          ∃ p, Dict.get? (ds.getD j []) i = p.map Val.dict ∧ R i (after s0 (seenL sched v (hist ++ ds.take j))) p := by
  induction n with
  | zero =>
    intro hist ws res _ _ _ _
    exact ⟨[], by simp [parallelLoop], rfl, by simp, by simp, by simp⟩
  | succ n ih =>
    intro hist ws res hh hws hv hgo
    choose F hF1 hF2 hF3 hF4 hF5 using seen_step hs0 sched hist fun p hp => (hh p hp).1
    have hFg : ∀ v, ViewOf ids (F v) ∧ Good (F v) := by
      intro v
      obtain ⟨l, e, hl⟩ := hF3 v
      rw [e]
      exact good_after hG hs0 hg0 fun p hp => hh p (hl p hp)
    have hvk := hv hist.length le_rfl (by omega)
    obtain ⟨ws', ps, h1, h2, h3, h4, h5⟩ := takeStepParallel_by hA hnd hne w hw0 (lastO hist) _ F (fun v => (hFg v).1) (fun v => (hFg v).2) hF1 hF2
      (sched hist.length) hvk ws hws
    -- every site belongs to a batch that some worker executes
    have hcover : ∀ i ∈ ids, ∃ b v, (b, v) ∈ sched hist.length ∧ i ∈ (chunks ids (chunkSize ids.length w)).getD b [] := by
      intro i hi
      rw [← C17_partition ids w hw0 hne] at hi
      obtain ⟨bt, hbt, hib⟩ := List.mem_flatten.1 hi
      obtain ⟨b, hb, rfl⟩ := List.mem_iff_getElem.1 hbt
      have : b ∈ (sched hist.length).map Prod.fst := hvk.1.mem_iff.2 (List.mem_range.2 hb)
      obtain ⟨⟨b', v⟩, hp, rfl⟩ := List.mem_map.1 this
      refine ⟨b', v, hp, ?_⟩
      rw [List.getD_eq_getElem?_getD, List.getElem?_eq_getElem hb]
      exact hib
    have hpb : PatchBy ids Good R ps := by
      refine ⟨h4, fun i q hq => ?_⟩
      have hi : i ∈ ids := h4.sub i (Dict.mem_keys_of_get? hq)
      obtain ⟨b, v, hbv, hib⟩ := hcover i hi
      obtain ⟨p, e1, e2, e3⟩ := h5 b v i hbv hib
      rw [hq] at e1
      cases p with
      | none => cases e1
      | some q' =>
        simp only [Option.map_some, Option.some.injEq, Val.dict.injEq] at e1
        subst e1
        exact ⟨F v, (hFg v).1, (hFg v).2, e2, e3 _ rfl⟩
    have hfirst : ∀ b v i, (b, v) ∈ sched hist.length → i ∈ (chunks ids (chunkSize ids.length w)).getD b [] →
        ∃ p, Dict.get? ps i = p.map Val.dict ∧ R i (after s0 (seenL sched v hist)) p := by
      intro b v i hbv hib
      obtain ⟨p, e1, e2, -⟩ := h5 b v i hbv hib
      refine ⟨p, e1, ?_⟩
      rw [← hF4 v (List.mem_map.2 ⟨_, hbv, rfl⟩)]
      exact e2
    have hunf : parallelLoop c ids (chunkSize ids.length w) sched hist.length (n + 1) (lastO hist) ws res =
        parallelLoop c ids (chunkSize ids.length w) sched (hist.length + 1) n ((updOf ps).map Upd.toProps) ws' (res.addStep ((updOf ps).map Upd.toProps)) := by
      conv_lhs => unfold parallelLoop
      rw [h1, ok_bind]
    rw [hunf] at hgo ⊢
    cases n with
    | zero =>
      refine ⟨[ps], by simp [parallelLoop, SimResult.addStep], rfl, by simpa using hpb, by simp, ?_⟩
      intro j hj b v i hbv hib
      obtain rfl : j = 0 := by omega
      simpa using hfirst b v i hbv hib
    | succ n =>
      have hpne : ps ≠ [] := by
        rintro rfl
        rcases hgo with hsome | ⟨r, hr⟩
        · obtain ⟨i, hi⟩ := List.exists_mem_of_ne_nil _ hne
          obtain ⟨b, v, hbv, hib⟩ := hcover i hi
          obtain ⟨p, e1, e2, -⟩ := h5 b v i hbv hib
          cases p with
          | none => exact hsome _ _ _ e2 rfl
          | some q => simp [Dict.get?] at e1
        · -- a worker that gets `None` raises
          unfold parallelLoop at hr
          obtain ⟨x, hx, -⟩ := bind_ok hr
          unfold takeStepParallel at hx
          have hlen : 0 < ids.length := List.length_pos_iff.2 hne
          have hc : chunkSize ids.length w ≠ 0 := by
            have : 0 < chunkSize ids.length w := by unfold chunkSize; exact Nat.div_pos (by omega) hw0
            omega
          rw [if_neg hc] at hx
          obtain ⟨y, hy, -⟩ := bind_ok hx
          have hvk1 := hv (hist.length + 1) (by omega) (by omega)
          have hblen : 0 < (chunks ids (chunkSize ids.length w)).length := by
            rcases Nat.eq_zero_or_pos (chunks ids (chunkSize ids.length w)).length with h | h
            · have := C17_partition ids w hw0 hne
              rw [List.length_eq_zero_iff.1 h] at this
              exact absurd this.symm hne
            · exact h
          cases hsk : sched (hist.length + 1) with
          | nil =>
            have := hvk1.1.length_eq
            rw [hsk] at this
            simp at this; omega
          | cons q sk =>
            rw [hsk] at hy
            unfold runTasks at hy
            obtain ⟨z, hz, -⟩ := bind_ok hy
            unfold workerTask at hz
            obtain ⟨t, ht, -⟩ := bind_ok hz
            simp [updOf, batchUpdateO] at ht
      have e2 : (updOf ps).map Upd.toProps = lastO (hist ++ [ps]) := by rw [lastO_snoc]; simp [updOf, hpne]
      rw [e2] at hgo ⊢
      obtain ⟨ds, g1, g2, g3, g4, g5⟩ := ih (hist ++ [ps]) ws' (res.addStep (lastO (hist ++ [ps])))
        (by
          intro p hp
          rcases List.mem_append.1 hp with hp | hp
          · exact hh p hp
          · simp at hp; rw [hp]; exact hpb)
        (by
          intro v
          refine ⟨h2 v, ?_⟩
          rw [h3 v, List.dropLast_concat]
          split_ifs with hvw
          · exact hF4 v hvw
          · exact hF5 v hvw)
        (by
          intro j hj1 hj2
          simp at hj1 hj2
          exact hv j (by omega) (by omega))
        (by simpa using hgo)
      refine ⟨ps :: ds, ?_, by simp [g2], ?_, ?_, ?_⟩
      · have : hist.length + 1 = (hist ++ [ps]).length := by simp
        rw [this, g1]
        simp only [SimResult.addStep, List.map_cons, List.append_assoc, List.singleton_append, e2]
      · intro p hp
        rcases List.mem_cons.1 hp with rfl | hp
        · exact hpb
        · exact g3 p hp
      · intro j hj
        cases j with
        | zero => simpa using hpne
        | succ j => simpa using g4 j (by omega)
      · intro j hj b v i hbv hib
        cases j with
        | zero => simpa using hfirst b v i hbv hib
        | succ j =>
          have := g5 j (by omega) b v i (by
            have : (hist ++ [ps]).length + j = hist.length + (j + 1) := by simp; omega
            rw [this]; exact hbv) hib
          simpa using this

/-- A parallel run. -/
theorem runParallel_by {c : Controller σ} {Inv : σ → Prop} {Good : SimState → Prop} {R : Key → SimState → Option Props → Prop} {s0 : SimState}
    (hA : AnswersOpt c s0.siteIds Inv Good R) (hG : ∀ s p, ViewOf s0.siteIds s → Good s → PatchBy s0.siteIds Good R p → Good (setSitesP s p))
    (hs : s0.WF) (hgen : s0.general ≠ none) (hne : s0.siteIds ≠ []) (hg0 : Good s0) (w : ℕ) (hw0 : 0 < w) (fork : ℕ → σ → σ) (st0 st : σ)
    (hp : c.preRun st0 s0 = .ok (st, s0)) (hI : ∀ v, Inv (fork v st)) (n : ℕ) (sched : ℕ → StepSched)
    (hv : ∀ k, k < n → (sched k).Valid w (chunks s0.siteIds (chunkSize s0.siteIds.length w)).length)
    (hgo : (∀ i s p, R i s p → p ≠ none) ∨ ∃ r, runParallel c fork st0 s0 w n sched = .ok r) :
    ∃ ds : List Props, runParallel c fork st0 s0 w n sched = .ok ⟨s0, ds.map fun p => (updOf p).map Upd.toProps, [], some s0⟩ ∧ ds.length = n ∧
      (∀ p ∈ ds, PatchBy s0.siteIds Good R p) ∧ (∀ j, j + 1 < n → ds.getD j [] ≠ []) ∧
      ∀ j, j < n → ∀ b v i, (b, v) ∈ sched j → i ∈ (chunks s0.siteIds (chunkSize s0.siteIds.length w)).getD b [] →
        ∃ p, Dict.get? (ds.getD j []) i = p.map Val.dict ∧ R i (after s0 (seenL sched v (ds.take j))) p := by
  have hunf : runParallel c fork st0 s0 w n sched = (parallelLoop c s0.siteIds (chunkSize s0.siteIds.length w) sched 0 n (some [])
      (fun v => ⟨fork v st, s0⟩) (SimResult.new s0.copy) >>= fun res => pure (res.setOutput s0.copy)) := by
    unfold runParallel
    rw [hp, ok_bind]
    simp only
    rw [if_neg (by omega)]
    rfl
  obtain ⟨ds, h1, h2, h3, h4, h5⟩ := parallelLoop_by hA hG hs.sites hne w hw0 s0 ⟨hs, rfl, hgen⟩ hg0 sched n [] (fun v => ⟨fork v st, s0⟩)
    (SimResult.new s0.copy) (by simp) (fun v => ⟨hI v, rfl⟩) (fun j _ hj => hv j (by simpa using hj)) (by
      rcases hgo with h | ⟨r, h⟩
      · exact .inl h
      · rw [hunf] at h
        obtain ⟨r', h', -⟩ := bind_ok h
        exact .inr ⟨r', h'⟩)
  refine ⟨ds, ?_, h2, h3, h4, ?_⟩
  · rw [hunf]
    have : lastO [] = some [] := rfl
    rw [this] at h1
    have e0 : ([] : List Props).length = 0 := rfl
    rw [e0] at h1
    rw [h1, ok_bind]
    simp [SimResult.setOutput, SimResult.new, pure, Except.pure, copy]
  · intro j hj b v i hbv hib
    have := h5 j hj b v i (by simpa using hbv) hib
    simpa using this

/-- The recorded steps of such a run. -/
theorem replayTo_after {ids : List Key} {s : SimState} (hs : ViewOf ids s) (ds : List Props) (hds : ∀ p ∈ ds, PatchOf ids p) (k : ℕ) (hk : k ≤ ds.length)
    (hne : ∀ j, j < k → ds.getD j [] ≠ []) :
    SimResult.replayTo s (ds.map fun p => (updOf p).map Upd.toProps) k = .ok (after s (ds.take k)) := by
  induction ds generalizing s k with
  | nil => obtain rfl : k = 0 := by simpa using hk
           simp [after]
  | cons p ds ih =>
    cases k with
    | zero => simp [after]
    | succ k =>
      have hp : p ≠ [] := by simpa using hne 0 (by omega)
      have e : (updOf p).map Upd.toProps = some (Upd.toProps ⟨p, []⟩) := by simp [updOf, hp]
      rw [List.map_cons, SimResult.replayTo_cons, e]
      have h := hs.apply (hds p (by simp))
      have h1 : s.batchUpdateO (some (Upd.toProps ⟨p, []⟩)) = .ok (setSitesP s p) := h.1
      rw [h1, ok_bind, ih h.2 (fun q hq => hds q (by simp [hq])) k (by simpa using hk) (fun j hj => by simpa using hne (j + 1) (by omega))]
      rfl

end Pyl
