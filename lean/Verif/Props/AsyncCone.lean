import Verif.Spec.AsyncCone
import Verif.Props.Async
import Verif.Props.Dynamics
/-
C146, C147: asynchronous runs as sequences of visits.
-/
set_option autoImplicit false

namespace Pyl
open SimState Spec
variable {σ τ : Type}

/-! ### a run is the visits it makes, one after the other -/

/-- What the rule asks for at a site. -/
noncomputable def answerOf {f : Key → SimState → Resp} (hf : SiteLocal f) (i : Key) (s : SimState) : Option Props := (hf i s).choose

theorem answerOf_spec {f : Key → SimState → Resp} (hf : SiteLocal f) (i : Key) (s : SimState) : Answers i (f i s) (answerOf hf i s) := (hf i s).choose_spec

theorem answerOf_congr {f : Key → SimState → Resp} (hf : SiteLocal f) {i : Key} {s t : SimState} (h : f i s = f i t) : answerOf hf i s = answerOf hf i t :=
  answers_unique (answerOf_spec hf i s) (h ▸ answerOf_spec hf i t)

/-- A visit. -/
noncomputable def visitTo {f : Key → SimState → Resp} (hf : SiteLocal f) (s : SimState) (i : Key) : SimState :=
  match answerOf hf i s with
  | none => s
  | some q => s.setSiteState i q

theorem visitTo_step {f : Key → SimState → Resp} (hf : SiteLocal f) {c : Controller σ} (hc : FollowsRule c f) {st st' : σ} {i : Key} {s s' : SimState}
    {r : Resp} {u : Option Upd} (h1 : c.update st i s = .ok (st', r)) (h2 : mergeUpdates r.split.1 none (some i) = .ok u)
    (h3 : s.batchUpdateO (u.map Upd.toProps) = .ok s') : s' = visitTo hf s i := by
  rw [mergeUpdates_split, hc _ _ _ _ _ h1, mergeResp_answers (answerOf_spec hf i s) none] at h2
  unfold visitTo
  cases ha : answerOf hf i s with
  | none =>
    rw [ha] at h2
    simp only [addAns, Except.ok.injEq] at h2
    subst h2
    simp [batchUpdateO] at h3
  | some q =>
    rw [ha] at h2
    simp only [addAns, Except.ok.injEq] at h2
    subst h2
    obtain ⟨g0, hg, -, rfl⟩ := batchUpdate_toProps_ok h3
    simp only [Upd.empty, Option.getD_none, Dict.update_nil]
    have : (s.setSiteState i q).general = some g0 := by rw [← hg]; rfl
    have e : setSitesP s (Dict.set [] i (.dict q)) = s.setSiteState i q := rfl
    rw [e]
    cases hh : s.setSiteState i q with
    | mk x y => rw [hh] at this; simp only at this; rw [this]

theorem asyncLoop_visits {f : Key → SimState → Resp} (hf : SiteLocal f) {c : Controller σ} (hc : FollowsRule c f) (n : ℕ) :
    ∀ {a a' : AsyncSt σ}, asyncLoop c n a = .ok a' → ∃ (ds : List (Option Props)) (l : List Key),
      a'.res = { a.res with diffs := a.res.diffs ++ ds } ∧ a'.trace = a.trace ++ l ∧ ds.length = l.length ∧ a'.live = l.foldl (visitTo hf) a.live ∧
      ∀ k, k ≤ l.length → SimResult.replayTo a.live ds k = .ok ((l.take k).foldl (visitTo hf) a.live) := by
  induction n with
  | zero =>
    intro a a' h
    simp only [asyncLoop, Except.ok.injEq] at h
    subst h
    refine ⟨[], [], by simp, by simp, rfl, rfl, fun k hk => ?_⟩
    obtain rfl : k = 0 := by simpa using hk
    simp
  | succ n ih =>
    intro a a' h
    rw [asyncLoop] at h
    obtain ⟨a1, h1, h2⟩ := bind_ok h
    obtain ⟨sid, q, st1, r, u, live', e1, e2, e3, e4, e5, e6, e7, e8⟩ := asyncStep_ok h1
    have hv := visitTo_step hf hc e2 e3 e4
    subst e6
    split_ifs at h2 with he
    · simp only [pure, Except.pure, Except.ok.injEq] at h2
      subst h2
      refine ⟨[u.map Upd.toProps], [sid], by rw [e7]; rfl, e8, rfl, by simpa using hv, ?_⟩
      intro k hk
      have : k = 0 ∨ k = 1 := by simp at hk; omega
      rcases this with rfl | rfl
      · simp
      · simp [SimResult.replayTo, e4, hv]
    · obtain ⟨ds, l, g1, g2, g3, g4, g5⟩ := ih h2
      refine ⟨u.map Upd.toProps :: ds, sid :: l, ?_, ?_, by simp [g3], ?_, ?_⟩
      · rw [g1, e7]; simp [SimResult.addStep]
      · rw [g2, e8]; simp
      · rw [g4, List.foldl_cons, hv]
      · intro k hk
        cases k with
        | zero => simp
        | succ k =>
          rw [SimResult.replayTo_cons, e4, ok_bind, g5 k (by simpa using hk), List.take_succ_cons, List.foldl_cons, hv]

/-- An asynchronous run whose controller follows a site-local rule. -/
theorem runAsync_visits {f : Key → SimState → Resp} (hf : SiteLocal f) {c : Controller σ} (hc : FollowsRule c f) (hp : PreRunPure c) {st : σ}
    {s0 : SimState} {n : ℕ} {a : AsyncSt σ} (h : runAsync c st s0 n = .ok a) :
    a.res.len = a.trace.length + 1 ∧ a.res.output = some (a.trace.foldl (visitTo hf) s0) ∧
      ∀ k : ℕ, k ≤ a.trace.length → a.res.getStep k = .ok ((a.trace.take k).foldl (visitTo hf) s0) := by
  unfold runAsync at h
  obtain ⟨⟨st1, s1⟩, h1, h2⟩ := bind_ok h
  have := hp _ _ _ _ h1; subst this
  obtain ⟨a1, h5, h6⟩ := bind_ok h2
  simp only [pure, Except.pure, Except.ok.injEq] at h6
  subst h6
  unfold asyncRunFrom at h5
  obtain ⟨⟨st3, q3⟩, h7, h8⟩ := bind_ok h5
  simp only at h8
  split_ifs at h8 with he
  obtain ⟨a2, h12, h13⟩ := bind_ok h8
  simp only [pure, Except.pure, Except.ok.injEq] at h13
  subst h13
  obtain ⟨ds, l, g1, g2, g3, g4, g5⟩ := asyncLoop_visits hf hc n h12
  simp only [List.nil_append] at g2
  simp only [g2, copy] at g4 g5 ⊢
  refine ⟨by simp [SimResult.len, SimResult.setOutput, g1, SimResult.new, g3], by simp [SimResult.setOutput, g4], fun k hk => ?_⟩
  simpa [SimResult.getStep, SimResult.setOutput, g1, SimResult.new, copy, Dict.get?] using g5 k hk

/-! ### one visit -/

theorem visitTo_general {f : Key → SimState → Resp} (hf : SiteLocal f) (s : SimState) (i : Key) : (visitTo hf s i).getGeneralState = s.getGeneralState := by
  unfold visitTo
  cases answerOf hf i s <;> rfl

theorem visitTo_other {f : Key → SimState → Resp} (hf : SiteLocal f) (s : SimState) {i j : Key} (h : j ≠ i) :
    (visitTo hf s i).getSiteState j = s.getSiteState j := by
  unfold visitTo
  cases answerOf hf i s with
  | none => rfl
  | some q =>
    simp only [getSiteState]
    rw [get?_setSiteState, if_neg (Ne.symm h)]

theorem visitTo_here {f : Key → SimState → Resp} (hf : SiteLocal f) {s t : SimState} {i : Key} (h : f i s = f i t)
    (hi : s.getSiteState i = t.getSiteState i) : (visitTo hf s i).getSiteState i = (visitTo hf t i).getSiteState i := by
  unfold visitTo
  rw [answerOf_congr hf h]
  cases answerOf hf i t with
  | none => exact hi
  | some q =>
    simp only [getSiteState]
    rw [get?_setSiteState, get?_setSiteState, if_pos rfl, if_pos rfl, oldOf_congr hi]

theorem visitTo_ids {f : Key → SimState → Resp} (hf : SiteLocal f) {s : SimState} {i : Key} (hi : i ∈ s.siteIds) : (visitTo hf s i).siteIds = s.siteIds := by
  unfold visitTo
  cases answerOf hf i s with
  | none => rfl
  | some q => rw [keys_setSiteState, if_pos hi]

theorem visits_general {f : Key → SimState → Resp} (hf : SiteLocal f) (l : List Key) (s : SimState) :
    (l.foldl (visitTo hf) s).getGeneralState = s.getGeneralState := by
  induction l generalizing s with
  | nil => rfl
  | cons i l ih => rw [List.foldl_cons, ih, visitTo_general]

theorem visits_ids {f : Key → SimState → Resp} (hf : SiteLocal f) (l : List Key) {s : SimState} (h : ∀ i ∈ l, i ∈ s.siteIds) :
    (l.foldl (visitTo hf) s).siteIds = s.siteIds := by
  induction l generalizing s with
  | nil => rfl
  | cons i l ih =>
    have e := visitTo_ids hf (h i (by simp))
    rw [List.foldl_cons, ih fun j hj => by rw [e]; exact h j (by simp [hj]), e]

/-! ### C146 -/

/-- C146: in an asynchronous run the state of a site after `k` steps depends only on the initial states of the sites from which a chain of visits leads
to it.  For any two asynchronous runs whose controllers follow the same site-local rule (and may choose sites as they like) and that have visited the
same sites so far: if the initial states agree wherever site `i` can have got its information from, they agree at `i` after `k` steps. -/
theorem C146_cone {f : Key → SimState → Resp} (hf : SiteLocal f) {N : Key → Key → Prop} (hN : ReadsOnly f N) {c : Controller σ} {c' : Controller τ}
    (hc : FollowsRule c f) (hc' : FollowsRule c' f) (hp : PreRunPure c) (hp' : PreRunPure c') {st : σ} {st' : τ} {s0 t0 : SimState}
    (hg : s0.getGeneralState = t0.getGeneralState) {n m : ℕ} {a : AsyncSt σ} {b : AsyncSt τ} (h : runAsync c st s0 n = .ok a)
    (h' : runAsync c' st' t0 m = .ok b) (k : ℕ) (hk : k ≤ a.trace.length) (hk' : k ≤ b.trace.length) (htr : a.trace.take k = b.trace.take k) (i : Key)
    (hi : ∀ j, Reaches N a.trace k i j → s0.getSiteState j = t0.getSiteState j) :
    ∃ x y, a.res.getStep k = .ok x ∧ b.res.getStep k = .ok y ∧ x.getSiteState i = y.getSiteState i := by
  obtain ⟨-, -, h1⟩ := runAsync_visits hf hc hp h
  obtain ⟨-, -, h2⟩ := runAsync_visits hf hc' hp' h'
  refine ⟨_, _, h1 k hk, h2 k hk', ?_⟩
  rw [← htr]
  generalize a.trace = l at hk hi
  clear h h' h1 h2 htr hk'
  induction k generalizing i with
  | zero => simpa using hi i (.start i)
  | succ k ih =>
    have hlt : k < l.length := by omega
    rw [List.take_succ_eq_append_getElem hlt, List.foldl_append, List.foldl_append]
    simp only [List.foldl_cons, List.foldl_nil]
    by_cases hv : i = l[k]
    · rw [← hv]
      have own := ih i (by omega) fun j hj => hi j (.stay hj)
      refine visitTo_here hf (hN i _ _ (by rw [visits_general, visits_general, hg]) own fun j hj => ?_) own
      exact ih j (by omega) fun r hr => hi r (.look (by rw [List.getElem?_eq_getElem hlt, ← hv]) hj hr)
    · rw [visitTo_other hf _ hv, visitTo_other hf _ hv]
      exact ih i (by omega) fun j hj => hi j (.stay hj)

/-- C146: in particular information travels at most one hop per step. -/
theorem C146_within {N : Key → Key → Prop} {l : List Key} {k : ℕ} {i j : Key} (h : Reaches N l k i j) : Within N k i j := by
  have mono : ∀ {k : ℕ} {i j : Key}, Within N k i j → Within N (k + 1) i j := by
    intro k i j hw
    induction hw with
    | here k i => exact .here _ i
    | hop h1 _ ih => exact .hop h1 ih
  induction h with
  | start i => exact .here 0 i
  | stay _ ih => exact mono ih
  | look _ h2 _ ih => exact .hop h2 ih

/-- C146: and a site that has not been visited depends on its own initial state only, which it still has. -/
theorem C146_unvisited {f : Key → SimState → Resp} (hf : SiteLocal f) {c : Controller σ} (hc : FollowsRule c f) (hp : PreRunPure c) {st : σ}
    {s0 : SimState} {n : ℕ} {a : AsyncSt σ} (h : runAsync c st s0 n = .ok a) (k : ℕ) (hk : k ≤ a.trace.length) (i : Key) (hi : i ∉ a.trace.take k) :
    ∃ x, a.res.getStep k = .ok x ∧ x.getSiteState i = s0.getSiteState i := by
  obtain ⟨-, -, h1⟩ := runAsync_visits hf hc hp h
  refine ⟨_, h1 k hk, ?_⟩
  generalize a.trace.take k = l at hi
  clear h h1
  induction l generalizing s0 with
  | nil => rfl
  | cons j l ih =>
    rw [List.foldl_cons, ih (by simp at hi; exact hi.2), visitTo_other hf _ (by simp at hi; exact hi.1)]

/-! ### C147 -/

theorem visit_comm {f : Key → SimState → Resp} (hf : SiteLocal f) {N : Key → Key → Prop} (hN : ReadsOnly f N) {s : SimState} (hs : Dict.WF s.sites)
    {i j : Key} (hi : i ∈ s.siteIds) (hj : j ∈ s.siteIds) (hij : Independent N i j) :
    visitTo hf (visitTo hf s i) j = visitTo hf (visitTo hf s j) i := by
  obtain ⟨hne, h1, h2⟩ := hij
  have ej : f j (visitTo hf s i) = f j s := hN j _ _ (visitTo_general hf s i) (visitTo_other hf s hne.symm) fun l hl =>
    visitTo_other hf s fun e => h2 (e ▸ hl)
  have ei : f i (visitTo hf s j) = f i s := hN i _ _ (visitTo_general hf s j) (visitTo_other hf s hne) fun l hl =>
    visitTo_other hf s fun e => h1 (e ▸ hl)
  have k1 : (visitTo hf (visitTo hf s i) j).siteIds = s.siteIds := by
    rw [visitTo_ids hf (by rw [visitTo_ids hf hi]; exact hj), visitTo_ids hf hi]
  have k2 : (visitTo hf (visitTo hf s j) i).siteIds = s.siteIds := by
    rw [visitTo_ids hf (by rw [visitTo_ids hf hj]; exact hi), visitTo_ids hf hj]
  refine ext' (Dict.ext_keys (show (Dict.keys _).Nodup from ?_) (k1.trans k2.symm) fun k => ?_) ?_
  · have : Dict.keys (visitTo hf (visitTo hf s i) j).sites = s.siteIds := k1
    rw [this]; exact hs
  · by_cases e1 : k = j
    · subst e1
      have := visitTo_other hf (visitTo hf s k) (i := i) (j := k) hne.symm
      exact (visitTo_here hf ej (visitTo_other hf s hne.symm)).trans this.symm
    · by_cases e2 : k = i
      · subst e2
        have := visitTo_other hf (visitTo hf s k) (i := j) (j := k) hne
        exact this.trans (visitTo_here hf ei (visitTo_other hf s hne)).symm
      · have a1 := visitTo_other hf (visitTo hf s i) (i := j) (j := k) e1
        have a2 := visitTo_other hf s (i := i) (j := k) e2
        have a3 := visitTo_other hf (visitTo hf s j) (i := i) (j := k) e2
        have a4 := visitTo_other hf s (i := j) (j := k) e1
        exact (a1.trans a2).trans (a3.trans a4).symm
  · have := visitTo_general hf (visitTo hf s i) j
    have h3 := visitTo_general hf s i
    have h4 := visitTo_general hf (visitTo hf s j) i
    have h5 := visitTo_general hf s j
    exact (this.trans h3).trans (h4.trans h5).symm

theorem reordered_perm {N : Key → Key → Prop} {l m : List Key} (h : Reordered N l m) : l.Perm m := by
  induction h with
  | same => exact .refl _
  | swap l i j r _ => exact (List.Perm.swap _ _ _).append_left _
  | trans _ _ ih1 ih2 => exact ih1.trans ih2

theorem visits_reordered {f : Key → SimState → Resp} (hf : SiteLocal f) {N : Key → Key → Prop} (hN : ReadsOnly f N) {s : SimState}
    (hs : Dict.WF s.sites) {l m : List Key} (h : Reordered N l m) (hl : ∀ i ∈ l, i ∈ s.siteIds) : l.foldl (visitTo hf) s = m.foldl (visitTo hf) s := by
  induction h with
  | same => rfl
  | swap l i j r hij =>
    rw [List.foldl_append, List.foldl_append]
    simp only [List.foldl_cons]
    have hids := visits_ids hf l (s := s) fun x hx => hl x (by simp [hx])
    rw [visit_comm hf hN (by
        have : Dict.keys (l.foldl (visitTo hf) s).sites = s.siteIds := hids
        show (Dict.keys _).Nodup
        rw [this]; exact hs) (by rw [hids]; exact hl i (by simp)) (by rw [hids]; exact hl j (by simp)) hij]
  | trans h1 _ ih1 ih2 => exact (ih1 hl).trans (ih2 fun i hi => hl i ((reordered_perm h1).mem_iff.2 hi))

/-- C147: the order of visits to sites that do not read each other does not matter.  Two asynchronous runs of the same site-local rule from the same state,
whose visits differ only in that independent sites have overtaken each other, end in the same state. -/
theorem C147_reorder {f : Key → SimState → Resp} (hf : SiteLocal f) {N : Key → Key → Prop} (hN : ReadsOnly f N) {c : Controller σ} {c' : Controller τ}
    (hc : FollowsRule c f) (hc' : FollowsRule c' f) (hp : PreRunPure c) (hp' : PreRunPure c') {st : σ} {st' : τ} {s0 : SimState} (hs : s0.WF)
    {n m : ℕ} {a : AsyncSt σ} {b : AsyncSt τ} (h : runAsync c st s0 n = .ok a) (h' : runAsync c' st' s0 m = .ok b)
    (hk : ∀ i ∈ a.trace, i ∈ s0.siteIds) (htr : Reordered N a.trace b.trace) : a.res.output = b.res.output ∧ a.res.len = b.res.len := by
  obtain ⟨l1, o1, -⟩ := runAsync_visits hf hc hp h
  obtain ⟨l2, o2, -⟩ := runAsync_visits hf hc' hp' h'
  exact ⟨by rw [o1, o2, visits_reordered hf hN hs.sites htr hk], by rw [l1, l2, (reordered_perm htr).length_eq]⟩

/-- Pairwise independent sites may be visited in any order. -/
theorem reordered_of_perm {N : Key → Key → Prop} {l m : List Key} (h : l.Perm m) (hl : l.Pairwise (Independent N)) : Reordered N l m := by
  have cons : ∀ (i : Key) {l m : List Key}, Reordered N l m → Reordered N (i :: l) (i :: m) := by
    intro i l m h
    induction h with
    | same l => exact .same _
    | swap l x y r h => exact .swap (i :: l) x y r h
    | trans _ _ ih1 ih2 => exact ih1.trans ih2
  have symm : ∀ {x y : Key}, Independent N x y → Independent N y x := fun h => ⟨h.1.symm, h.2.2, h.2.1⟩
  induction h with
  | nil => exact .same _
  | cons i _ ih => exact cons i (ih (List.pairwise_cons.1 hl).2)
  | swap x y l => exact .swap [] y x l ((List.pairwise_cons.1 hl).1 x (by simp))
  | trans h1 _ ih1 ih2 => exact (ih1 hl).trans (ih2 ((h1.pairwise_iff symm).1 hl))

/-- C147: sites none of which reads another one can be updated one after the other or all at once: after the visits, each of them has what the rule asks for
on the state before all visits, and every other site is as it was. -/
theorem C147_at_once {f : Key → SimState → Resp} (hf : SiteLocal f) {N : Key → Key → Prop} (hN : ReadsOnly f N) {c : Controller σ}
    (hc : FollowsRule c f) (hp : PreRunPure c) {st : σ} {s0 : SimState} {n : ℕ} {a : AsyncSt σ} (h : runAsync c st s0 n = .ok a)
    (hk : ∀ i ∈ a.trace, i ∈ s0.siteIds) (htr : a.trace.Pairwise (Independent N)) :
    ∃ out, a.res.output = some out ∧ out.siteIds = s0.siteIds ∧ out.getGeneralState = s0.getGeneralState ∧
      (∀ i, i ∉ a.trace → out.getSiteState i = s0.getSiteState i) ∧
      ∀ i ∈ a.trace, ∃ p, Answers i (f i s0) p ∧ out.getSiteState i = (s0.getSiteState i).map fun old => match p with
        | none => old
        | some q => Dict.update old q := by
  obtain ⟨-, o1, -⟩ := runAsync_visits hf hc hp h
  refine ⟨_, o1, visits_ids hf _ hk, visits_general hf _ _, ?_, ?_⟩
  · intro i hi
    clear hk htr o1 h
    generalize a.trace = l at hi
    induction l generalizing s0 with
    | nil => rfl
    | cons j l ih => rw [List.foldl_cons, ih (by simp at hi; exact hi.2), visitTo_other hf _ (by simp at hi; exact hi.1)]
  · intro i hi
    refine ⟨_, answerOf_spec hf i s0, ?_⟩
    clear o1 h
    have off : ∀ (l : List Key) (s : SimState), i ∉ l → (l.foldl (visitTo hf) s).getSiteState i = s.getSiteState i := by
      intro l
      induction l with
      | nil => intro s _; rfl
      | cons j l ih => intro s hi; rw [List.foldl_cons, ih _ (by simp at hi; exact hi.2), visitTo_other hf _ (by simp at hi; exact hi.1)]
    have main : ∀ (l : List Key) (s : SimState), i ∈ l → l.Pairwise (Independent N) → f i s = f i s0 → s.getSiteState i = s0.getSiteState i →
        (l.foldl (visitTo hf) s).getSiteState i = (visitTo hf s0 i).getSiteState i := by
      intro l
      induction l with
      | nil => intro s hi; simp at hi
      | cons j l ih =>
        intro s hi hl h1 h2
        have hl' := List.pairwise_cons.1 hl
        rw [List.foldl_cons]
        by_cases e : i = j
        · subst e
          rw [off l _ fun hc => (hl'.1 i hc).1 rfl]
          exact visitTo_here hf h1 h2
        · have hi' : i ∈ l := by simpa [e] using hi
          have hind := hl'.1 i hi'
          refine ih _ hi' hl'.2 ?_ ?_
          · rw [← h1]
            exact hN i _ _ (visitTo_general hf s j) (visitTo_other hf s e) fun r hr => visitTo_other hf s fun e' => hind.2.2 (e' ▸ hr)
          · rw [visitTo_other hf s e, h2]
    rw [main a.trace s0 hi htr rfl rfl]
    have hmem := hk i hi
    obtain ⟨old, hold⟩ := Option.isSome_iff_exists.1 (Dict.get?_isSome_iff.2 hmem)
    have hold' : s0.getSiteState i = some old := hold
    unfold visitTo
    rw [hold']
    cases answerOf hf i s0 with
    | none => simpa using hold'
    | some q =>
      simp only [getSiteState, Option.map_some]
      rw [get?_setSiteState, if_pos rfl]
      simp [oldOf, hold]

/-! ### an example: a row of three cells that take over the value to their left -/

/-- The inherited `get_random_site` leaves the rule as it is. -/
theorem follows_inherit {f : Key → SimState → Resp} (hf : SiteLocal f) (draw : ℕ → ℕ) : FollowsRule ((ofRule f).inherit draw) f := by
  intro st i s st' r h
  simp only [Controller.inherit, ofRule, ok_bind, pure, Except.pure, Except.ok.injEq, Prod.mk.injEq] at h
  rw [← h.2]
  obtain ⟨p, hp⟩ := hf i s
  generalize f i s = r at hp
  cases hp <;> rfl

theorem inherit_pure {f : Key → SimState → Resp} (draw : ℕ → ℕ) : PreRunPure ((ofRule f).inherit draw) := by
  intro st s st' s' h
  simp only [Controller.inherit, ofRule, ok_bind, pure, Except.pure, Except.ok.injEq, Prod.mk.injEq] at h
  exact h.2.symm

/-- Take over the value to the left (False if there is none). -/
def rowRule (i : Key) (s : SimState) : Resp :=
  .dict [(.str "on", match i with
    | .int n => if s.getSiteState (.int (n - 1)) = some [(.str "on", .num 1)] then .num 1 else .num 0
    | _ => .num 0)]

theorem row_local : SiteLocal rowRule := fun _ _ => ⟨_, .patch _ (shift_patch _)⟩

/-- A site reads the one to its left. -/
def leftNb (i j : Key) : Prop := ∃ n, i = .int n ∧ j = .int (n - 1)

theorem row_reads : ReadsOnly rowRule leftNb := by
  intro i s t _ _ h
  cases i with
  | int n => simp only [rowRule, h _ ⟨n, rfl, rfl⟩]
  | _ => rfl

theorem row_independent : Independent leftNb (.int 0) (.int 2) :=
  ⟨by decide, by rintro ⟨n, h1, h2⟩; injection h1 with h1; injection h2 with h2; omega,
    by rintro ⟨n, h1, h2⟩; injection h1 with h1; injection h2 with h2; omega⟩

/-- The runs below return and visit sites 0, 2, 1 and sites 2, 0, 1. -/
example : (runAsync ((ofRule rowRule).inherit fun k => if k = 0 then 0 else if k = 1 then 2 else 1) ((), 0) (shiftStart 1 0 1) 3).toOption.map AsyncSt.trace =
      some [.int 0, .int 2, .int 1] ∧
    (runAsync ((ofRule rowRule).inherit fun k => if k = 0 then 2 else if k = 1 then 0 else 1) ((), 0) (shiftStart 1 0 1) 3).toOption.map AsyncSt.trace =
      some [.int 2, .int 0, .int 1] := by
  decide +kernel

/-- `C147_reorder` for them. -/
example (a b : AsyncSt (Unit × ℕ))
    (h : runAsync ((ofRule rowRule).inherit fun k => if k = 0 then 0 else if k = 1 then 2 else 1) ((), 0) (shiftStart 1 0 1) 3 = .ok a)
    (h' : runAsync ((ofRule rowRule).inherit fun k => if k = 0 then 2 else if k = 1 then 0 else 1) ((), 0) (shiftStart 1 0 1) 3 = .ok b)
    (ha : a.trace = [.int 0, .int 2, .int 1]) (hb : b.trace = [.int 2, .int 0, .int 1]) : a.res.output = b.res.output :=
  (C147_reorder row_local row_reads (follows_inherit row_local _) (follows_inherit row_local _) (inherit_pure _) (inherit_pure _)
    (shiftStart_wf 1 0 1) h h' (by rw [ha]; simp [shiftStart, siteIds, Dict.keys])
    (by rw [ha, hb]; exact .swap [] (.int 0) (.int 2) [.int 1] row_independent)).1

/-- Sites 1 and 2 are not independent, and it matters which one is visited first. -/
example : (runAsync ((ofRule rowRule).inherit fun k => if k = 0 then 1 else 2) ((), 0) (shiftStart 1 0 1) 2).toOption.map (fun a => a.res.output) ≠
    (runAsync ((ofRule rowRule).inherit fun k => if k = 0 then 2 else 1) ((), 0) (shiftStart 1 0 1) 2).toOption.map (fun a => a.res.output) := by
  decide +kernel

/-- `C146_cone`: if sites 1 and then 2 are visited, site 2 depends on site 0; if they are visited in the other order it does not. -/
example : Reaches leftNb [.int 1, .int 2] 2 (.int 2) (.int 0) ∧ ¬ Reaches leftNb [.int 2, .int 1] 2 (.int 2) (.int 0) := by
  constructor
  · refine .look (l := .int 1) (by simp) ⟨2, rfl, rfl⟩ (.look (l := .int 0) (by simp) ⟨1, rfl, rfl⟩ (.start _))
  · intro h
    cases h with
    | stay h =>
      cases h with
      | stay h => cases h
      | look h1 h2 h3 =>
        obtain ⟨n, e1, e2⟩ := h2
        injection e1 with e1
        subst e1 e2
        cases h3
    | look h1 h2 h3 => simp at h1

end Pyl
