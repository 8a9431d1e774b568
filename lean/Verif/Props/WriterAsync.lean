import Verif.Props.Writer
/-
C130, continued: asynchronous runs of controllers that write anything.
-/
set_option linter.unusedSectionVars false
set_option autoImplicit false

namespace Pyl
open SimState Spec
variable {σ : Type}

/-- The runner carries out an answer it understands. -/
theorem carriedOut_of_batch {i : Key} {r : Resp} {ss gs : Props} (h0 : body r ≠ .noUpdate) (h1 : Parts i (body r) ss gs)
    (h2 : (Val.dict ss).WF) (h3 : (Val.dict gs).WF) {s s' : SimState} (h : s.batchUpdate (Upd.toProps ⟨ss, gs⟩) = .ok s') :
    CarriedOut i r s s' := by
  obtain ⟨g0, e1, e2, e3⟩ := batchUpdate_toProps_ok h
  simp only at e2 e3
  refine Or.inr ⟨ss, gs, setSitesP s ss, h0, h1, h2, h3, ?_, Or.inr ?_⟩
  · rw [setSites_eq, if_pos]
    rw [List.all_eq_true]; exact fun kv hkv => isDict_iff.2 (e2 kv hkv)
  · simp only [setGeneralState, general_setSitesP, e1]
    rw [e3]

/-- What the runner does with an answer it understands: it carries it out on the state the rule left behind, and the update
it records does the same to any state with a general part. -/
theorem writer_apply {i : Key} {r : Resp} {u : Option Upd} {s s' : SimState}
    (hr : body r = .noUpdate ∨ ∃ ss gs, body r ≠ .noUpdate ∧ Parts i (body r) ss gs ∧ (Val.dict ss).WF ∧ (Val.dict gs).WF)
    (h1 : mergeUpdates r.split.1 none (some i) = .ok u) (h2 : s.batchUpdateO (u.map Upd.toProps) = .ok s') :
    CarriedOut i r s s' ∧ ∀ t : SimState, t.general ≠ none →
      ∃ t', t.batchUpdateO (u.map Upd.toProps) = .ok t' ∧ CarriedOut i r t t' ∧ t'.general ≠ none := by
  rw [mergeUpdates_split] at h1
  rcases hr with hb | ⟨ss, gs, h0, hp, hs, hg⟩
  · rw [hb] at h1
    cases h1
    cases h2
  · rw [mergeResp_parts hp, if_neg h0] at h1
    simp only [Option.getD_none, Upd.empty, update_nil_wf hs.keys, update_nil_wf hg.keys, Except.ok.injEq] at h1
    subst h1
    simp only [Option.map_some, batchUpdateO] at h2 ⊢
    refine ⟨carriedOut_of_batch h0 hp hs hg h2, fun t ht => ?_⟩
    obtain ⟨g, ht⟩ := Option.ne_none_iff_exists'.1 ht
    have := batchUpdate_toProps_of (u := ⟨ss, gs⟩) ht (batchUpdate_toProps_ok h2).choose_spec.2.1
    exact ⟨_, this, carriedOut_of_batch h0 hp hs hg this, by simp⟩

theorem writer_addSites_passage {w : Writer σ} {st st1 st' : σ} {s s1 s' : SimState} {q q' : List Key} {l : List (Key × Resp)}
    (h : w.addSites st s [] = .ok (st1, s1, q)) (h' : Passage w q st1 s1 l q' st' s') : Passage w [] st s l q' st' s' := by
  unfold Writer.addSites at h
  obtain ⟨⟨st2, s2, a⟩, h1, h2⟩ := bind_ok h
  refine .ask h1 ?_
  cases a <;>
  · simp [pure, Except.pure] at h2
    obtain ⟨rfl, rfl, rfl⟩ := h2
    exact h'

theorem writer_asyncStep_passage {w : Writer σ} (hw : Understood w) {a a' : AsyncSt σ} (h : w.asyncStep a = .ok a') :
    ∃ (i : Key) (r : Resp) (u : Option Upd), a'.trace = a.trace ++ [i] ∧ a'.res = a.res.addStep (u.map Upd.toProps) ∧
      (∀ l q' st' s', Passage w a'.queue a'.st a'.live l q' st' s' → Passage w a.queue a.st a.live ((i, r) :: l) q' st' s') ∧
      ∀ t : SimState, t.general ≠ none → ∃ t', t.batchUpdateO (u.map Upd.toProps) = .ok t' ∧ CarriedOut i r t t' ∧ t'.general ≠ none := by
  unfold Writer.asyncStep at h
  split at h
  · simp at h
  · rename_i i q hq
    obtain ⟨⟨st1, s1, r⟩, h1, h2⟩ := bind_ok h
    obtain ⟨u, h3, h4⟩ := bind_ok h2
    obtain ⟨s2, h5, h6⟩ := bind_ok h4
    obtain ⟨⟨st2, s3, q2⟩, h7, h8⟩ := bind_ok h6
    simp only [pure, Except.pure, Except.ok.injEq] at h8
    subst h8
    obtain ⟨g1, g2⟩ := writer_apply (hw _ _ _ _ _ _ h1) h3 h5
    refine ⟨i, r, u, rfl, rfl, fun l q' st' s' hl => ?_, g2⟩
    rw [hq]
    refine .visit h1 g1 ?_
    rw [← split_snd]
    simp only at h7 hl
    cases he : q ++ r.split.2 with
    | nil => rw [he] at h7; exact writer_addSites_passage h7 hl
    | cons j q3 =>
      rw [he] at h7
      simp [pure, Except.pure] at h7
      obtain ⟨rfl, rfl, rfl⟩ := h7
      exact hl

theorem writer_asyncLoop_passage {w : Writer σ} (hw : Understood w) (n : Nat) : ∀ {a a' : AsyncSt σ}, w.asyncLoop n a = .ok a' →
    ∃ l ds, Passage w a.queue a.st a.live l a'.queue a'.st a'.live ∧ a'.trace = a.trace ++ l.map Prod.fst ∧
      a'.res = { a.res with diffs := a.res.diffs ++ ds } ∧ ds.length = l.length ∧ l.length ≤ n ∧ (l.length = n ∨ a'.queue = []) ∧
      ∀ t : SimState, t.general ≠ none → ∀ k ≤ l.length, ∃ t', SimResult.replayTo t ds k = .ok t' ∧ CarriedOutAll (l.take k) t t' := by
  induction n with
  | zero =>
    intro a a' h
    cases h
    exact ⟨[], [], .nil _ _ _, by simp, by simp, rfl, le_rfl, Or.inl rfl, fun t _ k hk => ⟨t, by simp at hk; subst hk; rfl, by simp; exact .nil t⟩⟩
  | succ n ih =>
    intro a a' h
    rw [Writer.asyncLoop] at h
    obtain ⟨b, h1, h2⟩ := bind_ok h
    obtain ⟨i, r, u, g1, g2, g3, g4⟩ := writer_asyncStep_passage hw h1
    suffices ∃ l ds, Passage w b.queue b.st b.live l a'.queue a'.st a'.live ∧ a'.trace = b.trace ++ l.map Prod.fst ∧
        a'.res = { b.res with diffs := b.res.diffs ++ ds } ∧ ds.length = l.length ∧ l.length ≤ n ∧ (l.length = n ∨ a'.queue = []) ∧
        ∀ t : SimState, t.general ≠ none → ∀ k ≤ l.length, ∃ t', SimResult.replayTo t ds k = .ok t' ∧ CarriedOutAll (l.take k) t t' by
      obtain ⟨l, ds, k1, k2, k3, k4, k5, k6, k7⟩ := this
      refine ⟨(i, r) :: l, u.map Upd.toProps :: ds, g3 _ _ _ _ k1, by simp [k2, g1], by simp [k3, g2, SimResult.addStep], by simp [k4],
        by simpa using k5, by simpa using k6, fun t ht k hk => ?_⟩
      cases k with
      | zero => exact ⟨t, by simp, .nil t⟩
      | succ k =>
        obtain ⟨t1, m1, m2, m3⟩ := g4 t ht
        obtain ⟨t', m4, m5⟩ := k7 t1 m3 k (by simpa using hk)
        exact ⟨t', by rw [SimResult.replayTo_cons, m1, ok_bind, m4], .cons m2 m5⟩
    cases hq : b.queue with
    | nil =>
      rw [hq] at h2
      simp [pure, Except.pure] at h2
      subst h2
      exact ⟨[], [], by rw [hq]; exact .nil _ _ _, by simp, by simp, rfl, by simp, Or.inr hq,
        fun t _ k hk => ⟨t, by simp at hk; subst hk; rfl, by simp; exact .nil t⟩⟩
    | cons j q =>
      rw [hq] at h2
      simp at h2
      rw [← hq]
      exact ih h2

/-- C130 (asynchronous): whatever the rule and `get_random_site` write, every call sees all that was written and carried out
before it, and the output is the state after all of them.  What is recorded are the answers alone: `get_step(k)` is the
initial state with the first `k` answers carried out and nothing else. -/
theorem C130_async_exact {w : Writer σ} (hw : Understood w) (hp : ∀ st s st' s', w.preRun st s = .ok (st', s') → s' = s) {st : σ}
    {s0 : SimState} (hg : s0.general ≠ none) {n : Nat} {a : AsyncSt σ} (h : w.runAsync st s0 n = .ok a) :
    ∃ st1 l out, w.preRun st s0 = .ok (st1, s0) ∧ Passage w [] st1 s0 l a.queue a.st out ∧ a.res.output = some out ∧
      a.trace = l.map Prod.fst ∧ a.res.len = l.length + 1 ∧ l.length ≤ n ∧ (l.length = n ∨ a.queue = []) ∧
      ∀ k : Nat, k ≤ l.length → ∃ s, a.res.getStep k = .ok s ∧ CarriedOutAll (l.take k) s0 s := by
  unfold Writer.runAsync at h
  obtain ⟨⟨st1, s1⟩, h1, h2⟩ := bind_ok h
  obtain ⟨⟨st2, s2, q⟩, h3, h4⟩ := bind_ok h2
  have := hp _ _ _ _ h1
  subst this
  simp only at h4
  split_ifs at h4 with hq
  obtain ⟨b, h5, h6⟩ := bind_ok h4
  simp [pure, Except.pure] at h6
  subst h6
  obtain ⟨l, ds, k1, k2, k3, k4, k5, k6, k7⟩ := writer_asyncLoop_passage hw n h5
  simp only [copy] at k1 k2 k3 h3
  refine ⟨st1, l, b.live, h1, writer_addSites_passage h3 k1, rfl, by simpa using k2, ?_, k5, k6, fun k hk => ?_⟩
  · simp [SimResult.len, SimResult.setOutput, k3, SimResult.new, k4]
  · obtain ⟨s, m1, m2⟩ := k7 s1 hg k hk
    refine ⟨s, ?_, m2⟩
    simpa [SimResult.getStep, SimResult.setOutput, SimResult.new, k3, Dict.get?, copy] using m1

/-! ### examples -/

/-- A rule that counts up in place and answers `{}`; `get_random_site` also counts, in the general state. -/
def countAll : Writer Unit where
  update _ i s := .ok ((), s.setSiteState i [(.str "x", .num (xAt s i + 1))], .dict [])
  randomSite _ s := .ok ((), { s with general := some [(.str "asked", .num (match s.general.bind (Dict.get? · (.str "asked")) with
    | some (.num q) => q + 1
    | _ => 1))] }, .one 0)

theorem countAll_understood : Understood countAll := by
  intro st i s st' s' r h
  cases h
  exact Or.inr ⟨_, [], by simp [body], .patch [] ⟨by simp, by simp, Or.inl rfl⟩,
    .dict (by simp [Dict.WF]) (by simp only [List.mem_singleton, forall_eq]; exact .dict Dict.WF.nil (by simp)),
    .dict Dict.WF.nil (by simp)⟩

/-- Three steps: site 0 has counted to 4, `get_random_site` was asked four times. -/
example : (countAll.runAsync () (twoCells 0 1 1 2) 3).toOption.bind (fun a => a.res.output) =
    some ⟨[(.int 0, [(.str "x", .num 4)]), (.int 1, [(.str "x", .num 2)])], some [(.str "asked", .num 4)]⟩ := by decide +kernel

/-- `C130_async_exact` for this run. -/
example (a : AsyncSt Unit) (h : countAll.runAsync () (twoCells 0 1 1 2) 3 = .ok a) :
    ∃ l : List (Key × Resp), a.trace = l.map Prod.fst ∧ a.res.len = l.length + 1 := by
  obtain ⟨_, l, _, _, _, _, h1, h2, _⟩ := C130_async_exact countAll_understood (fun _ _ _ _ h => by cases h; rfl)
    (by simp [twoCells]) h
  exact ⟨l, h1, h2⟩

end Pyl
