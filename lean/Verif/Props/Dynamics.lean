import Verif.Spec.Dynamics
import Verif.Props.Sync
import Mathlib.Data.Fintype.Pi
import Mathlib.Data.Fintype.BigOperators
import Mathlib.Data.Fintype.Pigeonhole
/-
C133, C134: serial runs as dynamical systems.
-/
set_option linter.unusedSectionVars false
set_option autoImplicit false

namespace Pyl
open SimState Spec

/-- Every step of a run arises from the one before by the same function. -/
theorem chain_steps {c : Controller Unit} {n : Nat} {st st' : Unit} {s s' : SimState} {ds : List (Option Props)}
    (h : SyncChain c n st s ds st' s') : ∀ k, k < n → ∃ a b u, SimResult.replayTo s ds k = .ok a ∧ SimResult.replayTo s ds (k + 1) = .ok b ∧
      takeStep c () a = .ok ((), u) ∧ a.batchUpdateO (u.map Upd.toProps) = .ok b := by
  induction h with
  | zero => intro k hk; omega
  | @succ n st st1 st2 s s1 s2 u ds h1 h2 h3 ih =>
    intro k hk
    cases k with
    | zero => exact ⟨s, s1, u, rfl, by simp [SimResult.replayTo, h2], h1, h2⟩
    | succ k =>
      obtain ⟨a, b, v, h6, h7, h8⟩ := ih k (by omega)
      refine ⟨a, b, v, ?_, ?_, h8⟩
      · simp [SimResult.replayTo, h2, h6]
      · simp [SimResult.replayTo, h2] at h7 ⊢; exact h7

theorem run_steps {f : Key → SimState → Resp} {s0 : SimState} {n : Nat} {res : SimResult}
    (h : runSync (ofRule f) () s0 n = .ok ((), res)) : res.len = n + 1 ∧ res.getStep (0 : Nat) = .ok s0 ∧
      ∀ k : Nat, k < n → ∃ a b u, res.getStep k = .ok a ∧ res.getStep (k + 1 : Nat) = .ok b ∧
        takeStep (ofRule f) () a = .ok ((), u) ∧ a.batchUpdateO (u.map Upd.toProps) = .ok b := by
  obtain ⟨st1, live, ds, h1, h2, rfl⟩ := runSync_ok (c := ofRule f) (by intro _ _ _ _ h; injection h with h; injection h with h1 h2; exact h2.symm) h
  have hl := h2.length
  refine ⟨by simp [SimResult.len, hl], by simp [SimResult.getStep, Dict.get?, copy, SimResult.replayTo], fun k hk => ?_⟩
  obtain ⟨a, b, u, h3, h4, h5⟩ := chain_steps h2 k hk
  exact ⟨a, b, u, by simpa [SimResult.getStep, Dict.get?, copy] using h3, by simpa [SimResult.getStep, Dict.get?, copy] using h4, h5⟩

theorem answers_unique {i : Key} {r : Resp} {p q : Option Props} (h : Answers i r p) (h' : Answers i r q) : p = q := by
  have h1 := mergeResp_answers h none
  rw [mergeResp_answers h' none, Except.ok.injEq] at h1
  cases p with
  | none => cases q with
    | none => rfl
    | some q => simp [addAns] at h1
  | some p => cases q with
    | none => simp [addAns] at h1
    | some q => simp [addAns, Upd.empty, Dict.set] at h1; rw [h1]

/-- A step of a site-local rule, exactly. -/
theorem step_exact {f : Key → SimState → Resp} (hf : SiteLocal f) (hw : RuleWF f) {s s' : SimState} (hs : s.WF) {u : Option Upd}
    (h1 : takeStep (ofRule f) () s = .ok ((), u)) (h2 : s.batchUpdateO (u.map Upd.toProps) = .ok s') (i : Key) :
    ∃ p, Answers i (f i s) p ∧ s'.getSiteState i = (s.getSiteState i).map fun old => match p with
      | none => old
      | some q => Dict.update old q := by
  obtain ⟨m, hk, hans, hpw, h3⟩ := stepBatch_local hf hw s s.siteIds hs.sites
  unfold takeStep at h1
  rw [h3] at h1
  injection h1 with h1
  injection h1 with _ h1
  have hst : s'.sites = (setSitesP s (patches m)).sites := by
    cases hp : patches m with
    | nil => rw [hp] at h1; simp at h1; subst h1; simp [batchUpdateO] at h2
    | cons p ps =>
      rw [hp] at h1; simp only at h1; subst h1
      obtain ⟨g0, hg, _, h4⟩ := batchUpdate_toProps_ok h2
      rw [h4]
  have hnd : (m.map Prod.fst).Nodup := by rw [hk]; exact hs.sites
  by_cases hi : i ∈ s.siteIds
  · have hi' := hi
    rw [← hk] at hi'
    obtain ⟨⟨i', p⟩, hm, rfl⟩ := List.mem_map.1 hi'
    have hp := get?_patches hnd hm
    obtain ⟨old, hold⟩ := Option.isSome_iff_exists.1 (Dict.get?_isSome_iff.2 hi)
    refine ⟨p, hans _ _ hm, ?_⟩
    simp only [getSiteState, hst]
    rw [get?_setSitesP hpw.keys, hp, hold]
    cases p with
    | none => simp
    | some q => simp [oldOf, hold, dictOf]
  · obtain ⟨p, hp⟩ := hf i s
    refine ⟨p, hp, ?_⟩
    have hno : Dict.get? (patches m) i = none := by
      rw [Dict.get?_eq_none_iff]
      exact fun hk' => hi (hk ▸ keys_patches_subset m i hk')
    simp only [getSiteState, hst]
    rw [get?_setSitesP hpw.keys, hno]
    have : Dict.get? s.sites i = none := by rw [Dict.get?_eq_none_iff]; exact hi
    simp [this]

/-- The steps of a run, with what they keep. -/
theorem run_wf {f : Key → SimState → Resp} (hf : SiteLocal f) (hw : RuleWF f) {s0 : SimState} (hs : s0.WF) {n : Nat} {res : SimResult}
    (h : runSync (ofRule f) () s0 n = .ok ((), res)) : ∀ k : Nat, k ≤ n → ∃ a, res.getStep k = .ok a ∧ a.WF ∧ a.siteIds = s0.siteIds ∧
      a.getGeneralState = s0.getGeneralState := by
  obtain ⟨_, h0, h1⟩ := run_steps h
  intro k
  induction k with
  | zero => intro _; exact ⟨s0, h0, hs, rfl, rfl⟩
  | succ k ih =>
    intro hk
    obtain ⟨a, h2, h3, h4, h5⟩ := ih (by omega)
    obtain ⟨a', b, u, g1, g2, g3, g4⟩ := h1 k (by omega)
    rw [h2] at g1; cases g1
    have hsim := C13_step f hf hw a b h3 ⟨_, _, g3, g4⟩
    exact ⟨b, g2, C13_WF f hf hw a b h3 ⟨_, _, g3, g4⟩, hsim.1.trans h4, hsim.2.1.trans h5⟩

/-- C133: information travels at most one hop per step.  If the rule at a site reads only this site, its neighbours and the
general state, the state of a site after `k` steps depends only on the initial states of the sites within `k` hops. -/
theorem C133_light_cone {f : Key → SimState → Resp} (hf : SiteLocal f) (hw : RuleWF f) {N : Key → Key → Prop} (hN : ReadsOnly f N)
    {s0 t0 : SimState} (hs : s0.WF) (ht : t0.WF) (hg : s0.getGeneralState = t0.getGeneralState) {n m : Nat} {res res' : SimResult}
    (h : runSync (ofRule f) () s0 n = .ok ((), res)) (h' : runSync (ofRule f) () t0 m = .ok ((), res')) (k : Nat) (hk : k ≤ n) (hk' : k ≤ m)
    (i : Key) (hi : ∀ j, Within N k i j → s0.getSiteState j = t0.getSiteState j) :
    ∃ a b, res.getStep k = .ok a ∧ res'.getStep k = .ok b ∧ a.getSiteState i = b.getSiteState i := by
  obtain ⟨_, h0, h1⟩ := run_steps h
  obtain ⟨_, h0', h1'⟩ := run_steps h'
  induction k generalizing i with
  | zero => exact ⟨s0, t0, h0, h0', hi i (.here 0 i)⟩
  | succ k ih =>
    obtain ⟨a, b, u, g1, g2, g3, g4⟩ := h1 k (by omega)
    obtain ⟨a', b', u', g1', g2', g3', g4'⟩ := h1' k (by omega)
    obtain ⟨a1, e1, w1, _, w2⟩ := run_wf hf hw hs h k (by omega)
    obtain ⟨a2, e2, w3, _, w4⟩ := run_wf hf hw ht h' k (by omega)
    rw [g1] at e1; cases e1
    rw [g1'] at e2; cases e2
    have mono : ∀ {k : Nat} {i j : Key}, Within N k i j → Within N (k + 1) i j := by
      intro k i j hw
      induction hw with
      | here k i => exact .here _ i
      | hop h1 _ ih => exact .hop h1 ih
    have same : ∀ j, (∀ l, Within N k j l → s0.getSiteState l = t0.getSiteState l) → a.getSiteState j = a'.getSiteState j := by
      intro j hj
      obtain ⟨x, y, k1, k2, k3⟩ := ih (by omega) (by omega) j hj
      rw [g1] at k1; cases k1
      rw [g1'] at k2; cases k2
      exact k3
    have hown := same i fun l hl => hi l (mono hl)
    have hff : f i a = f i a' := hN i a a' (by rw [w2, w4, hg]) hown fun j hj => same j fun l hl => hi l (.hop hj hl)
    obtain ⟨p, p1, p2⟩ := step_exact hf hw w1 g3 g4 i
    obtain ⟨q, q1, q2⟩ := step_exact hf hw w3 g3' g4' i
    rw [hff] at p1
    rw [answers_unique p1 q1] at p2
    exact ⟨b, b', g2, g2', by rw [p2, q2, hown]⟩

/-- C133: a set of sites that no hop leaves evolves on its own. -/
theorem C133_closed {f : Key → SimState → Resp} (hf : SiteLocal f) (hw : RuleWF f) {N : Key → Key → Prop} (hN : ReadsOnly f N)
    {A : Key → Prop} (hA : ClosedUnder N A) {s0 t0 : SimState} (hs : s0.WF) (ht : t0.WF) (hg : s0.getGeneralState = t0.getGeneralState)
    (hi : ∀ j, A j → s0.getSiteState j = t0.getSiteState j) {n m : Nat} {res res' : SimResult}
    (h : runSync (ofRule f) () s0 n = .ok ((), res)) (h' : runSync (ofRule f) () t0 m = .ok ((), res')) (k : Nat) (hk : k ≤ n) (hk' : k ≤ m) :
    ∃ a b, res.getStep k = .ok a ∧ res'.getStep k = .ok b ∧ ∀ i, A i → a.getSiteState i = b.getSiteState i := by
  obtain ⟨a, ha, -⟩ := run_wf hf hw hs h k hk
  obtain ⟨b, hb, -⟩ := run_wf hf hw ht h' k hk'
  refine ⟨a, b, ha, hb, fun i hAi => ?_⟩
  obtain ⟨a', b', e1, e2, e3⟩ := C133_light_cone hf hw hN hs ht hg h h' k hk hk' i fun j hj => by
    have : A j := by
      clear ha hb hk hk'
      induction hj with
      | here => exact hAi
      | hop h1 _ ih => exact ih (hA _ _ hAi h1)
    exact hi j this
  rw [ha] at e1; cases e1
  rw [hb] at e2; cases e2
  exact e3

/-- C134: if two steps of a serial run show the same state, the history repeats itself from there on. -/
theorem C134_repeats {f : Key → SimState → Resp} {s0 : SimState} {n : Nat} {res : SimResult} (h : runSync (ofRule f) () s0 n = .ok ((), res))
    {j p : Nat} (hj : j + p ≤ n) (he : res.getStep (j + p : Nat) = res.getStep j) : RepeatsFrom res j p := by
  obtain ⟨hl, h0, h1⟩ := run_steps h
  have key : ∀ m : Nat, j + m + p ≤ n → res.getStep (j + m + p : Nat) = res.getStep (j + m : Nat) := by
    intro m
    induction m with
    | zero => intro _; exact he
    | succ m ih =>
      intro hm
      obtain ⟨a, b, u, g1, g2, g3, g4⟩ := h1 (j + m) (by omega)
      obtain ⟨a', b', u', g1', g2', g3', g4'⟩ := h1 (j + m + p) (by omega)
      have e := ih (by omega)
      rw [g1, g1'] at e
      cases e
      rw [g3] at g3'
      cases g3'
      rw [g4] at g4'
      cases g4'
      rw [show j + (m + 1) + p = j + m + p + 1 by omega, show j + (m + 1) = j + m + 1 by omega, g2, g2']
  intro k hk hkp
  obtain ⟨m, rfl⟩ := Nat.exists_eq_add_of_le hk
  exact key m (by omega)

theorem state_ext {s t : SimState} (h : s.siteIds = t.siteIds) (hs : s.WF) (ht : t.WF) (hg : s.getGeneralState = t.getGeneralState)
    (hi : ∀ i ∈ s.siteIds, s.getSiteState i = t.getSiteState i) : s = t := by
  refine ext' (Dict.ext_keys hs.sites h fun k => ?_) hg
  by_cases hk : k ∈ s.siteIds
  · exact hi k hk
  · rw [Dict.get?_eq_none_iff.2 hk, Dict.get?_eq_none_iff.2 (show k ∉ t.siteIds by rw [← h]; exact hk)]

/-- C134: if every site only ever takes states from a list of `q`, a serial run on `m` sites repeats itself after at most
`q ^ m` steps. -/
theorem C134_eventually_periodic {f : Key → SimState → Resp} (hf : SiteLocal f) (hw : RuleWF f) {s0 : SimState} (hs : s0.WF) {n : Nat}
    {res : SimResult} (h : runSync (ofRule f) () s0 n = .ok ((), res)) (V : Finset Props)
    (hV : ∀ (k : Nat) (s : SimState) (i : Key) (p : Props), k ≤ n → res.getStep k = .ok s → s.getSiteState i = some p → p ∈ V)
    (hn : V.card ^ s0.size ≤ n) : ∃ j p, 0 < p ∧ j + p ≤ V.card ^ s0.size ∧ RepeatsFrom res j p := by
  classical
  haveI : Inhabited SimState := ⟨s0⟩
  have hwf := run_wf hf hw hs h
  choose! a h1 h2 h3 h4 using hwf
  set M := V.card ^ s0.size with hM
  have hmem : ∀ k ≤ n, ∀ i ∈ s0.siteIds, ∃ p, (a k).getSiteState i = some p ∧ p ∈ V := by
    intro k hk i hi
    rw [← h3 k hk] at hi
    obtain ⟨p, hp⟩ := Option.isSome_iff_exists.1 (Dict.get?_isSome_iff.2 hi)
    exact ⟨p, hp, hV k _ i p hk (h1 k hk) hp⟩
  let I := {i // i ∈ s0.siteIds.toFinset}
  have hI : Fintype.card I = s0.size := by
    rw [Fintype.card_coe, List.toFinset_card_of_nodup (show s0.siteIds.Nodup from hs.sites)]
    simp [siteIds, size, Dict.keys]
  let F : Fin (M + 1) → I → V := fun k i =>
    ⟨(hmem k (by omega) i.1 (List.mem_toFinset.1 i.2)).choose, (hmem k (by omega) i.1 (List.mem_toFinset.1 i.2)).choose_spec.2⟩
  have hcard : Fintype.card (I → V) < Fintype.card (Fin (M + 1)) := by
    rw [Fintype.card_fun, hI, Fintype.card_coe, Fintype.card_fin]; omega
  obtain ⟨x, y, hxy, he⟩ := Fintype.exists_ne_map_eq_of_card_lt F hcard
  wlog hlt : x < y generalizing x y
  · exact this y x hxy.symm he.symm (lt_of_le_of_ne (not_lt.1 hlt) hxy.symm)
  have hlt' : (x : Nat) < y := hlt
  refine ⟨x, y - x, by omega, by omega, C134_repeats h (by omega) ?_⟩
  rw [show (x : Nat) + (y - x) = y by omega, h1 y (by omega), h1 x (by omega)]
  congr 1
  refine state_ext (by rw [h3 _ (by omega), h3 _ (by omega)]) (h2 _ (by omega)) (h2 _ (by omega)) (by rw [h4 _ (by omega), h4 _ (by omega)]) fun i hi => ?_
  rw [h3 _ (by omega)] at hi
  have hF := congrArg Subtype.val (congrFun he ⟨i, by simpa using hi⟩)
  simp only [F] at hF
  rw [(hmem y (by omega) i hi).choose_spec.1, (hmem x (by omega) i hi).choose_spec.1, hF]

/-- C134: if the rule keeps to the states of a list of `q`, every serial run on `m` sites that is long enough repeats itself after at
most `q ^ m` steps. -/
theorem C134_finite_rule {f : Key → SimState → Resp} (hf : SiteLocal f) (hw : RuleWF f) {V : List Props} (hV : KeepsTo f V) {s0 : SimState}
    (hs : s0.WF) (h0 : ∀ i p, s0.getSiteState i = some p → p ∈ V) {n : Nat} {res : SimResult}
    (h : runSync (ofRule f) () s0 n = .ok ((), res)) (hn : V.length ^ s0.size ≤ n) :
    ∃ j p, 0 < p ∧ j + p ≤ V.length ^ s0.size ∧ RepeatsFrom res j p := by
  classical
  have hle : V.toFinset.card ^ s0.size ≤ V.length ^ s0.size := Nat.pow_le_pow_left (List.toFinset_card_le V) _
  have key : ∀ (k : Nat) (s : SimState) (i : Key) (p : Props), k ≤ n → res.getStep k = .ok s → s.getSiteState i = some p → p ∈ V.toFinset := by
    intro k s i p hk hs' hp
    rw [List.mem_toFinset]
    obtain ⟨_, g0, g1⟩ := run_steps h
    induction k generalizing s i p with
    | zero => rw [g0] at hs'; cases hs'; exact h0 i p hp
    | succ k ih =>
      obtain ⟨a, b, u, e1, e2, e3, e4⟩ := g1 k (by omega)
      rw [e2] at hs'; cases hs'
      obtain ⟨a', e5, hwf, -⟩ := run_wf hf hw hs h k (by omega)
      rw [e1] at e5; cases e5
      have hall : ∀ i p, a.getSiteState i = some p → p ∈ V := fun i p hp => ih a i p (by omega) e1 hp
      obtain ⟨q, q1, q2⟩ := step_exact hf hw hwf e3 e4 i
      rw [hp] at q2
      cases ho : a.getSiteState i with
      | none => rw [ho] at q2; cases q2
      | some old =>
        rw [ho] at q2
        simp only [Option.map_some, Option.some.injEq] at q2
        cases q with
        | none => rw [q2]; exact hall i old ho
        | some q => rw [q2]; exact hV a hall i old q ho q1
  obtain ⟨j, p, h1, h2, h3⟩ := C134_eventually_periodic hf hw hs h V.toFinset key (hle.trans hn)
  exact ⟨j, p, h1, h2.trans hle, h3⟩

/-! ### an example: a ring of cells that take over the value to their left -/

/-- The site to the left on a ring of three. -/
def leftOf : Key → Key
  | .int n => .int ((n + 2) % 3)
  | k => k

/-- Take over the value to the left (False if there is none). -/
def shiftRule (i : Key) (s : SimState) : Resp :=
  .dict [(.str "on", if (s.getSiteState (leftOf i)) = some [(.str "on", .num 1)] then .num 1 else .num 0)]

theorem shift_patch (v : Val) : IsPatch [(.str "on", v)] := ⟨by simp [SITES], by simp [GENERAL], Or.inr ⟨"on", by simp⟩⟩

theorem shift_local : SiteLocal shiftRule := fun _ _ => ⟨_, .patch _ (shift_patch _)⟩

theorem shift_wf : RuleWF shiftRule := by
  intro i s
  refine .dict (by simp [Dict.WF]) ?_
  simp only [List.mem_singleton, forall_eq]
  split_ifs <;> exact .num _

theorem shift_reads : ReadsOnly shiftRule fun i j => j = leftOf i := by
  intro i s t _ _ h
  simp only [shiftRule, h _ rfl]

def shiftStart (a b c : Rat) : SimState :=
  ⟨[(.int 0, [(.str "on", .num a)]), (.int 1, [(.str "on", .num b)]), (.int 2, [(.str "on", .num c)])], some []⟩

theorem shiftStart_wf (a b c : Rat) : (shiftStart a b c).WF := by
  refine ⟨by simp [Dict.WF, shiftStart, Dict.keys], ?_, ?_⟩
  · intro kv hkv
    simp only [shiftStart, List.mem_cons, List.not_mem_nil, or_false] at hkv
    rcases hkv with rfl | rfl | rfl <;>
      exact .dict (by simp [Dict.WF]) (by simp only [List.mem_singleton, forall_eq]; exact .num _)
  · intro g hg
    cases hg
    exact .dict Dict.WF.nil (by simp)

theorem shift_keeps : KeepsTo shiftRule [[(.str "on", .num 0)], [(.str "on", .num 1)]] := by
  intro s hs i old q ho hq
  have h1 := hs i old ho
  have h2 := answers_unique hq (.patch _ (shift_patch _))
  simp only [Option.some.injEq] at h2
  subst h2
  simp only [List.mem_cons, List.not_mem_nil, or_false] at h1 ⊢
  rcases h1 with rfl | rfl <;> split_ifs <;> simp [Dict.update, Dict.set]

/-- `C134_finite_rule` for eight steps of this rule. -/
example (res : SimResult) (h : runSync (ofRule shiftRule) () (shiftStart 1 0 0) 8 = .ok ((), res)) :
    ∃ j p, 0 < p ∧ j + p ≤ 8 ∧ RepeatsFrom res j p :=
  C134_finite_rule shift_local shift_wf shift_keeps (shiftStart_wf 1 0 0) (by
    intro i p hp
    have := Dict.mem_of_get? hp
    simp [shiftStart] at this
    rcases this with ⟨-, rfl⟩ | ⟨-, rfl⟩ | ⟨-, rfl⟩ <;> simp) h (by decide)

/-- This run returns, and step 3 is the initial state. -/
example : (runSync (ofRule shiftRule) () (shiftStart 1 0 0) 8).toOption.map (fun x => x.2.getStep 3) = some (.ok (shiftStart 1 0 0)) := by
  decide +kernel

/-- `C133_light_cone` for one step of this rule: site 1 does not depend on site 2. -/
example (res res' : SimResult) (h : runSync (ofRule shiftRule) () (shiftStart 1 0 0) 1 = .ok ((), res))
    (h' : runSync (ofRule shiftRule) () (shiftStart 1 0 1) 1 = .ok ((), res')) :
    ∃ a b, res.getStep (1 : Nat) = .ok a ∧ res'.getStep (1 : Nat) = .ok b ∧ a.getSiteState (.int 1) = b.getSiteState (.int 1) :=
  C133_light_cone shift_local shift_wf shift_reads (shiftStart_wf 1 0 0) (shiftStart_wf 1 0 1) rfl h h' 1 le_rfl le_rfl _ (by
    intro j hj
    cases hj with
    | here => rfl
    | hop h1 h2 =>
      subst h1
      cases h2
      rfl)

end Pyl
