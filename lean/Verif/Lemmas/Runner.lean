import Verif.Spec.Runner
import Verif.Props.Merge

set_option linter.unusedSectionVars false

set_option autoImplicit false

namespace Pyl
open SimState Spec
variable {σ : Type}

/-! ### Except plumbing -/

theorem bind_ok {ε α β : Type _} {x : Except ε α} {f : α → Except ε β} {b : β}
    (h : (x >>= f) = .ok b) : ∃ a, x = .ok a ∧ f a = .ok b := by
  cases x with
  | error e => simp [bind, Except.bind] at h
  | ok a => exact ⟨a, rfl, h⟩

@[simp] theorem ok_bind {ε α β : Type _} (a : α) (f : α → Except ε β) :
    ((Except.ok a : Except ε α) >>= f) = f a := rfl

@[simp] theorem error_bind {ε α β : Type _} (e : ε) (f : α → Except ε β) :
    ((Except.error e : Except ε α) >>= f) = .error e := rfl

/-! ### _step_batch as visits followed by merging -/

/-- The rule applied to the ids in turn, always shown `prev`. -/
inductive Visited (c : Controller σ) (prev : SimState) : σ → List Key → List Resp → σ → Prop
  | nil (st : σ) : Visited c prev st [] [] st
  | cons {st st1 st2 : σ} {i : Key} {is : List Key} {r : Resp} {rs : List Resp} :
      c.update st i prev = .ok (st1, r) → Visited c prev st1 is rs st2 →
      Visited c prev st (i :: is) (r :: rs) st2

/-- Merge a list of answers into an accumulated update. -/
def mergeAll (acc : Option Upd) (l : List (Key × Resp)) : Py (Option Upd) :=
  l.foldlM (fun acc kr => mergeResp kr.2 acc kr.1) acc

theorem Visited.length {c : Controller σ} {prev : SimState} {st st' : σ} {ids : List Key} {rs : List Resp}
    (h : Visited c prev st ids rs st') : rs.length = ids.length := by
  induction h with
  | nil => rfl
  | cons _ _ ih => simp [ih]

theorem stepBatch_ok_gen (c : Controller σ) (prev : SimState) (ids : List Key) (st st' : σ)
    (acc u : Option Upd)
    (h : ids.foldlM (fun (acc : σ × Option Upd) sid => do
      let (st', r) ← c.update acc.1 sid prev
      let b ← mergeResp r acc.2 sid
      pure (st', b)) (st, acc) = (Except.ok (st', u) : Py _)) :
    ∃ rs, Visited c prev st ids rs st' ∧ mergeAll acc (ids.zip rs) = .ok u := by
  induction ids generalizing st acc with
  | nil =>
    simp [pure, Except.pure] at h
    obtain ⟨rfl, rfl⟩ := h
    exact ⟨[], .nil _, rfl⟩
  | cons i ids ih =>
    rw [List.foldlM_cons] at h
    obtain ⟨⟨st1, acc1⟩, h1, h2⟩ := bind_ok h
    obtain ⟨⟨st2, r⟩, h3, h4⟩ := bind_ok h1
    obtain ⟨b, h5, h6⟩ := bind_ok h4
    simp [pure, Except.pure] at h6
    obtain ⟨rfl, rfl⟩ := h6
    obtain ⟨rs, h7, h8⟩ := ih st2 b h2
    refine ⟨r :: rs, .cons h3 h7, ?_⟩
    simp only at h5
    simp only [mergeAll, List.zip_cons_cons, List.foldlM_cons, h5, ok_bind]
    exact h8

theorem stepBatch_ok {c : Controller σ} {prev : SimState} {ids : List Key} {st st' : σ} {u : Option Upd}
    (h : stepBatch c st ids prev = .ok (st', u)) :
    ∃ rs, Visited c prev st ids rs st' ∧ mergeAll none (ids.zip rs) = .ok u :=
  stepBatch_ok_gen c prev ids st st' none u h

theorem stepBatch_of_visited {c : Controller σ} {prev : SimState} {ids : List Key} {st st' : σ}
    {rs : List Resp} {u : Option Upd} (h : Visited c prev st ids rs st')
    (hm : mergeAll none (ids.zip rs) = .ok u) : stepBatch c st ids prev = .ok (st', u) := by
  have key : ∀ (st : σ) (ids : List Key) (rs : List Resp) (st' : σ), Visited c prev st ids rs st' →
      ∀ acc u, mergeAll acc (ids.zip rs) = .ok u →
      ids.foldlM (fun (acc : σ × Option Upd) sid => do
        let (st', r) ← c.update acc.1 sid prev
        let b ← mergeResp r acc.2 sid
        pure (st', b)) (st, acc) = (Except.ok (st', u) : Py _) := by
    intro st ids rs st' h
    induction h with
    | nil st =>
      intro acc u h
      simp [mergeAll, pure, Except.pure] at h
      subst h; rfl
    | @cons st st1 st2 i is r rs h1 h2 ih =>
      intro acc u h
      simp only [mergeAll, List.zip_cons_cons, List.foldlM_cons] at h
      obtain ⟨b, h3, h4⟩ := bind_ok h
      rw [List.foldlM_cons]
      simp only [h1, ok_bind, h3, pure, Except.pure]
      exact ih b u h4
  exact key st ids rs st' h none u hm

/-! ### site-local answers -/

/-- Accumulator after a site-local answer. -/
def addAns (acc : Option Upd) (i : Key) : Option Props → Option Upd
  | none => acc
  | some q => some ⟨Dict.set (acc.getD Upd.empty).sites i (.dict q), (acc.getD Upd.empty).general⟩

theorem mergeResp_answers {i : Key} {r : Resp} {p : Option Props} (h : Answers i r p) (acc : Option Upd) :
    mergeResp r acc i = .ok (addAns acc i p) := by
  cases h with
  | nothing => rfl
  | patch d h =>
    obtain ⟨h3, h1⟩ := isPatch_iff.1 h
    simp [mergeResp, mergeUpdates, h3, h1, addAns]
  | self n hi u =>
    subst hi
    simp [mergeResp, mergeUpdates, Dict.has, Dict.get?, SITES, GENERAL, allIntKeys, addAns]
  | total d u h hg =>
    have h1 : Dict.has d SITES = true := by simp [Dict.has, h]
    have h2 : dictPart d SITES = .ok [(i, .dict u)] := by simp [dictPart, h]
    have h3 : dictPart d GENERAL = .ok [] := by rcases hg with hg | hg <;> simp [dictPart, hg]
    simp [mergeResp, mergeUpdates, h1, h2, h3, pure, Except.pure, addAns]

/-- The SITES part a step of site-local answers produces. -/
def patches (l : List (Key × Option Props)) : Props :=
  l.filterMap fun kp => kp.2.map fun p => (kp.1, Val.dict p)

theorem set_append_new {d : Props} {k : Key} {v : Val} (h : k ∉ Dict.keys d) : Dict.set d k v = d ++ [(k, v)] := by
  induction d with
  | nil => rfl
  | cons p d ih =>
    obtain ⟨k', v'⟩ := p
    simp at h
    have : ¬ k' = k := fun e => h.1 e.symm
    simp [Dict.set, this, ih h.2]

/-- Answers of a whole list of visits. -/
inductive AnswersAll : List (Key × Resp) → List (Key × Option Props) → Prop
  | nil : AnswersAll [] []
  | cons {i r p l m} : Answers i r p → AnswersAll l m → AnswersAll ((i, r) :: l) ((i, p) :: m)

theorem AnswersAll.keys {l m} (h : AnswersAll l m) : m.map Prod.fst = l.map Prod.fst := by
  induction h with
  | nil => rfl
  | cons _ _ ih => simp [ih]

theorem keys_patches_subset (l : List (Key × Option Props)) : ∀ k ∈ Dict.keys (patches l), k ∈ l.map Prod.fst := by
  intro k hk
  obtain ⟨kv, hkv, rfl⟩ := List.mem_map.1 hk
  obtain ⟨kp, hkp, h⟩ := List.mem_filterMap.1 hkv
  cases hp : kp.2 with
  | none => simp [hp] at h
  | some p => simp [hp] at h; subst h; exact List.mem_map.2 ⟨kp, hkp, rfl⟩

theorem mergeAll_answers {l : List (Key × Resp)} {m : List (Key × Option Props)} (h : AnswersAll l m)
    (hnd : (l.map Prod.fst).Nodup) (acc : Option Upd)
    (hdisj : ∀ k ∈ l.map Prod.fst, k ∉ Dict.keys (acc.getD Upd.empty).sites) :
    mergeAll acc l = .ok (match patches m with
      | [] => acc
      | p :: ps => some ⟨(acc.getD Upd.empty).sites ++ p :: ps, (acc.getD Upd.empty).general⟩) := by
  induction h generalizing acc with
  | nil => rfl
  | @cons i r p l m h1 h2 ih =>
    simp only [List.map_cons, List.nodup_cons] at hnd
    simp only [mergeAll, List.foldlM_cons, mergeResp_answers h1, ok_bind]
    cases p with
    | none =>
      have e : patches ((i, none) :: m) = patches m := rfl
      rw [e]
      exact ih hnd.2 acc fun k hk => hdisj k (by simp at hk ⊢; exact Or.inr hk)
    | some q =>
      have e : patches ((i, some q) :: m) = (i, .dict q) :: patches m := rfl
      rw [e]
      have hi : i ∉ Dict.keys (acc.getD Upd.empty).sites := hdisj i (by simp)
      have ih' := ih hnd.2 (some ⟨Dict.set (acc.getD Upd.empty).sites i (.dict q), (acc.getD Upd.empty).general⟩)
        (by
          intro k hk
          simp only [Option.getD_some, Dict.mem_keys_set]
          rintro (rfl | h)
          · exact hnd.1 hk
          · exact hdisj k (by simp at hk ⊢; exact Or.inr hk) h)
      have ih'' : mergeAll (some ⟨Dict.set (acc.getD Upd.empty).sites i (.dict q), (acc.getD Upd.empty).general⟩) l
        = _ := ih'
      simp only [mergeAll] at ih''
      simp only [addAns]
      rw [ih'', set_append_new hi]
      cases patches m <;> simp

theorem wf_patches {m : List (Key × Option Props)} (hnd : (m.map Prod.fst).Nodup)
    (hw : ∀ i p, (i, some p) ∈ m → (Val.dict p).WF) : (Val.dict (patches m)).WF := by
  refine .dict ?_ ?_
  · induction m with
    | nil => simp [patches, Dict.WF]
    | cons kp m ih =>
      obtain ⟨k, p⟩ := kp
      simp only [List.map_cons, List.nodup_cons] at hnd
      have ih' := ih hnd.2 fun i p h => hw i p (by simp [h])
      cases p with
      | none => exact ih'
      | some q =>
        have e : patches ((k, some q) :: m) = (k, .dict q) :: patches m := rfl
        rw [e]
        unfold Dict.WF at *
        simp only [Dict.keys_cons, List.nodup_cons]
        exact ⟨fun h => hnd.1 (keys_patches_subset m k h), ih'⟩
  · intro kv hkv
    obtain ⟨kp, hkp, h⟩ := List.mem_filterMap.1 hkv
    obtain ⟨k, p⟩ := kp
    cases p with
    | none => simp at h
    | some p => simp at h; subst h; exact hw k p hkp

theorem get?_patches {m : List (Key × Option Props)} (hnd : (m.map Prod.fst).Nodup) {i : Key}
    {p : Option Props} (h : (i, p) ∈ m) : Dict.get? (patches m) i = p.map Val.dict := by
  induction m with
  | nil => simp at h
  | cons kp m ih =>
    obtain ⟨k, q⟩ := kp
    simp only [List.map_cons, List.nodup_cons] at hnd
    have hm := List.mem_cons.1 h
    clear h
    rcases hm with h | h
    · injection h with h1 h2
      subst h1 h2
      have hn : Dict.get? (patches m) i = none := Dict.get?_eq_none_iff.2 fun h => hnd.1 (keys_patches_subset m _ h)
      cases p with
      | none =>
        have e : patches ((i, none) :: m) = patches m := rfl
        rw [e, hn]; rfl
      | some q =>
        have e : patches ((i, some q) :: m) = (i, .dict q) :: patches m := rfl
        rw [e, Dict.get?_cons]; simp
    · have hik : k ≠ i := fun e => hnd.1 (e ▸ List.mem_map.2 ⟨_, h, rfl⟩)
      cases q with
      | none => exact ih hnd.2 h
      | some q =>
        have e : patches ((k, some q) :: m) = (k, .dict q) :: patches m := rfl
        rw [e, Dict.get?_cons, if_neg hik]; exact ih hnd.2 h

/-- Applying a normalised update. -/
theorem batchUpdate_toProps (s : SimState) (u : Upd) :
    s.batchUpdate u.toProps = (do setGeneralState (← setSites s u.sites) u.general) := by
  simp [batchUpdate, Upd.toProps, Dict.get?, SITES, GENERAL, setGeneralStateV]

theorem batchUpdate_toProps_ok {s s' : SimState} {u : Upd} (h : s.batchUpdate u.toProps = .ok s') :
    ∃ g0, s.general = some g0 ∧ (∀ kv ∈ u.sites, ∃ p, kv.2 = .dict p) ∧
      s' = { setSitesP s u.sites with general := some (Dict.update g0 u.general) } := by
  rw [batchUpdate_toProps] at h
  obtain ⟨s1, h1, h2⟩ := bind_ok h
  obtain ⟨rfl, h3⟩ := setSites_ok h1
  unfold setGeneralState at h2
  cases hg : s.general with
  | none => simp [hg] at h2
  | some g0 => simp [hg] at h2; exact ⟨g0, rfl, h3, h2.symm⟩

theorem batchUpdate_toProps_of {s : SimState} {u : Upd} {g0 : Props} (hg : s.general = some g0)
    (h : ∀ kv ∈ u.sites, ∃ p, kv.2 = .dict p) :
    s.batchUpdate u.toProps = .ok { setSitesP s u.sites with general := some (Dict.update g0 u.general) } := by
  have hall : (u.sites.all fun kv => isDict kv.2) = true := by
    rw [List.all_eq_true]; exact fun kv hkv => isDict_iff.2 (h kv hkv)
  rw [batchUpdate_toProps, setSites_eq, if_pos hall, ok_bind]
  simp [setGeneralState, hg]

theorem patches_dicts (m : List (Key × Option Props)) : ∀ kv ∈ patches m, ∃ p, kv.2 = .dict p := by
  intro kv hkv
  obtain ⟨kp, _, h⟩ := List.mem_filterMap.1 hkv
  obtain ⟨k, p⟩ := kp
  cases p with
  | none => simp at h
  | some p => simp at h; subst h; exact ⟨p, rfl⟩

/-! ### the serial loop as a chain of steps -/

/-- `n` serial steps from `s` to `s'`, recording the diffs `ds`. -/
inductive SyncChain (c : Controller σ) : Nat → σ → SimState → List (Option Props) → σ → SimState → Prop
  | zero (st : σ) (s : SimState) : SyncChain c 0 st s [] st s
  | succ {n : Nat} {st st1 st2 : σ} {s s1 s2 : SimState} {u : Option Upd} {ds : List (Option Props)} :
      takeStep c st s = .ok (st1, u) → s.batchUpdateO (u.map Upd.toProps) = .ok s1 →
      SyncChain c n st1 s1 ds st2 s2 → SyncChain c (n + 1) st s (u.map Upd.toProps :: ds) st2 s2

theorem syncLoop_ok {c : Controller σ} {n : Nat} {st st' : σ} {s s' : SimState} {res res' : SimResult}
    (h : syncLoop c n st s res = .ok (st', s', res')) :
    ∃ ds, SyncChain c n st s ds st' s' ∧ res' = { res with diffs := res.diffs ++ ds } := by
  induction n generalizing st s res with
  | zero =>
    simp [syncLoop] at h
    obtain ⟨rfl, rfl, rfl⟩ := h
    exact ⟨[], .zero _ _, by simp⟩
  | succ n ih =>
    rw [syncLoop] at h
    obtain ⟨⟨st1, u⟩, h1, h2⟩ := bind_ok h
    obtain ⟨s1, h3, h4⟩ := bind_ok h2
    obtain ⟨ds, h5, h6⟩ := ih h4
    exact ⟨_, .succ h1 h3 h5, by simp [h6, SimResult.addStep]⟩

theorem syncLoop_of_chain {c : Controller σ} {n : Nat} {st st' : σ} {s s' : SimState}
    {ds : List (Option Props)} (h : SyncChain c n st s ds st' s') (res : SimResult) :
    syncLoop c n st s res = .ok (st', s', { res with diffs := res.diffs ++ ds }) := by
  induction h generalizing res with
  | zero => simp [syncLoop]
  | succ h1 h2 _ ih =>
    rw [syncLoop]
    simp only [h1, ok_bind, h2, ih]
    simp [SimResult.addStep]

theorem SyncChain.length {c : Controller σ} {n : Nat} {st st' : σ} {s s' : SimState}
    {ds : List (Option Props)} (h : SyncChain c n st s ds st' s') : ds.length = n := by
  induction h with
  | zero => rfl
  | succ _ _ _ ih => simp [ih]

theorem SyncChain.split {c : Controller σ} {n : Nat} {st st' : σ} {s s' : SimState}
    {ds : List (Option Props)} (h : SyncChain c n st s ds st' s') (k : Nat) (hk : k ≤ n) :
    ∃ stk sk, SyncChain c k st s (ds.take k) stk sk ∧ SyncChain c (n - k) stk sk (ds.drop k) st' s' ∧
      SimResult.replayTo s ds k = .ok sk := by
  induction h generalizing k with
  | zero st s =>
    obtain rfl : k = 0 := by omega
    exact ⟨st, s, .zero _ _, .zero _ _, rfl⟩
  | @succ n st st1 st2 s s1 s2 u ds h1 h2 h3 ih =>
    cases k with
    | zero => exact ⟨st, s, .zero _ _, .succ h1 h2 h3, rfl⟩
    | succ k =>
      obtain ⟨stk, sk, h4, h5, h6⟩ := ih k (by omega)
      refine ⟨stk, sk, .succ h1 h2 h4, ?_, ?_⟩
      · have : n + 1 - (k + 1) = n - k := by omega
        rw [this]; exact h5
      · simp [SimResult.replayTo, h2, h6]

theorem runSync_ok {c : Controller σ} (hp : PreRunPure c) {st st' : σ} {s0 : SimState} {n : Nat} {res : SimResult}
    (h : runSync c st s0 n = .ok (st', res)) :
    ∃ st1 live ds, c.preRun st s0 = .ok (st1, s0) ∧ SyncChain c n st1 s0 ds st' live ∧
      res = ⟨s0, ds, [], some live⟩ := by
  unfold runSync at h
  obtain ⟨⟨st1, s1⟩, h1, h2⟩ := bind_ok h
  obtain ⟨⟨st2, live, res2⟩, h3, h4⟩ := bind_ok h2
  have := hp _ _ _ _ h1
  subst this
  obtain ⟨ds, h5, h6⟩ := syncLoop_ok h3
  simp [pure, Except.pure] at h4
  obtain ⟨rfl, rfl⟩ := h4
  exact ⟨st1, live, ds, h1, h5, by simp [h6, SimResult.setOutput, SimResult.new, copy]⟩

end Pyl
