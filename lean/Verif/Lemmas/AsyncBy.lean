import Verif.Lemmas.Rule
import Verif.Props.Async
/-
Asynchronous runs of rules that always answer with an update of the visited site, with the default `get_random_site`.
-/
set_option autoImplicit false

namespace Pyl
open SimState Spec
variable {σ : Type}

/-- Only site `i` changes: its dict is overwritten with a dict that `R` allows for it on the old state. -/
def OneSite (R : Key → SimState → Props → Prop) (i : Key) (s s' : SimState) : Prop :=
  s'.siteIds = s.siteIds ∧ s'.getGeneralState = s.getGeneralState ∧ (∀ j, j ≠ i → s'.getSiteState j = s.getSiteState j) ∧
  ∃ old q new, s.getSiteState i = some old ∧ R i s q ∧ s'.getSiteState i = some new ∧ Merged old q new

/-- The ids are 0, ..., m - 1 in some order. -/
def IdsTo (m : Nat) (s : SimState) : Prop := s.siteIds.Perm ((List.range m).map fun (i : Nat) => Key.int (i : Int))

theorem addSites_inherit (draw : Nat → Nat) (c : Controller σ) (st : σ × Nat) {s : SimState} {m : Nat} (hm : 0 < m) (hids : IdsTo m s) (q : List Key) :
    addSites (c.inherit draw) st s q = .ok ((st.1, st.2 + 1), q ++ [.int ((draw st.2 % m : Nat) : Int)]) := by
  have hlen : s.siteIds.length = m := by rw [hids.length_eq]; simp
  unfold addSites
  simp only [Controller.inherit, defaultRandomSite, hlen]
  rw [if_neg (by omega)]
  rfl

theorem asyncStep_by {c : Controller σ} {Inv : σ → SimState → Prop} {R : Key → SimState → Props → Prop} (hA : AnswersBy c Inv R) (draw : Nat → Nat)
    {m : Nat} (hm : 0 < m) {a : AsyncSt (σ × Nat)} (hs : a.live.WF) (hg : a.live.getGeneralState ≠ none) (hids : IdsTo m a.live) {i : Key}
    (hq : a.queue = [i]) (hi : i ∈ a.live.siteIds) (hI : Inv a.st.1 a.live) :
    ∃ (a' : AsyncSt (σ × Nat)) (dd : Option Props), asyncStep (c.inherit draw) a = .ok a' ∧ a.live.batchUpdateO dd = .ok a'.live ∧
      a'.res = a.res.addStep dd ∧ a'.queue = [.int ((draw a.st.2 % m : Nat) : Int)] ∧ a'.st.2 = a.st.2 + 1 ∧ a'.trace = a.trace ++ [i] ∧
      a'.live.WF ∧ IdsTo m a'.live ∧ OneSite R i a.live a'.live ∧ Inv a'.st.1 a.live := by
  obtain ⟨st', r, q, h1, h2, h3, h4, h5⟩ := hA a.st.1 a.live hs hI i hi
  have hm1 := mergeResp_answers h2 none
  obtain ⟨g0, hg0⟩ := Option.ne_none_iff_exists'.1 hg
  have hsp : r.split.2 = [] ∧ mergeUpdates r.split.1 none (some i) = mergeResp r none i := by
    cases h2 <;> exact ⟨rfl, rfl⟩
  obtain ⟨old, hold⟩ : ∃ o, Dict.get? a.live.sites i = some o := by
    cases h : Dict.get? a.live.sites i with
    | none => exact absurd hi (Dict.get?_eq_none_iff.1 h)
    | some o => exact ⟨o, rfl⟩
  have hps : (Val.dict [(i, .dict q)]).WF := .dict (by simp [Dict.WF]) (by simp; exact h3)
  have hb := batchUpdate_toProps_of (s := a.live) (u := ⟨[(i, .dict q)], []⟩) hg0 (by simp)
  set live' : SimState := { setSitesP a.live [(i, .dict q)] with general := some (Dict.update g0 []) } with hlive
  have hids' : live'.siteIds = a.live.siteIds := by
    have h := siteIds_setSitesP a.live [(i, .dict q)]
    have : addIds a.live.siteIds (Dict.keys [(i, Val.dict q)]) = a.live.siteIds := by
      simp [addIds, hi]
    rw [this] at h
    exact h
  have hwf' : live'.WF := WF_upd (u := ⟨[(i, .dict q)], []⟩) hs hps (.dict Dict.WF.nil (by simp)) hb
  have hget : ∀ j, live'.getSiteState j = if j = i then some (Dict.update old q) else a.live.getSiteState j := by
    intro j
    show Dict.get? (setSitesP a.live [(i, .dict q)]).sites j = _
    rw [get?_setSitesP hps.keys]
    by_cases hj : j = i
    · subst hj
      simp [Dict.get?, oldOf, hold, dictOf]
    · have : ¬ i = j := fun e => hj e.symm
      simp [Dict.get?, hj, this]
      rfl
  have hids2 : IdsTo m live' := by unfold IdsTo; rw [hids']; exact hids
  refine ⟨⟨(st', a.st.2 + 1), live', [.int ((draw a.st.2 % m : Nat) : Int)], a.res.addStep (some (Upd.toProps ⟨[(i, .dict q)], []⟩)), a.trace ++ [i]⟩,
    some (Upd.toProps ⟨[(i, .dict q)], []⟩), ?_, hb, rfl, rfl, rfl, rfl, hwf', hids2, ⟨hids', ?_, ?_, ?_⟩, h5⟩
  · unfold asyncStep
    rw [hq]
    simp only [Controller.inherit, h1, ok_bind, pure, Except.pure]
    rw [hsp.2, hm1, hsp.1]
    have hb' : a.live.batchUpdateO (some (Upd.toProps ⟨[(i, .dict q)], []⟩)) = .ok live' := hb
    have hadd := addSites_inherit draw c (st', a.st.2) hm hids2 []
    simp only [Controller.inherit, pure, Except.pure] at hadd
    have e : Option.map Upd.toProps (addAns none i (some q)) = some (Upd.toProps ⟨[(i, .dict q)], []⟩) := rfl
    rw [ok_bind, e, hb', ok_bind]
    simp only [List.append_nil, List.isEmpty_nil, if_true]
    rw [hadd]
    rfl
  · show some (Dict.update g0 []) = _
    rw [show a.live.getGeneralState = some g0 from hg0]; rfl
  · intro j hj
    rw [hget, if_neg hj]
  · exact ⟨old, q, Dict.update old q, hold, h4, by rw [hget, if_pos rfl], merged_update h3.keys⟩

theorem asyncLoop_by {c : Controller σ} {Inv : σ → SimState → Prop} {R : Key → SimState → Props → Prop} (hA : AnswersBy c Inv R) (draw : Nat → Nat)
    (hI' : ∀ st i s s', s.WF → Inv st s → OneSite R i s s' → Inv st s') {m : Nat} (hm : 0 < m) (n : Nat) :
    ∀ (a : AsyncSt (σ × Nat)), a.live.WF → a.live.getGeneralState ≠ none → IdsTo m a.live → ∀ t, a.st.2 = t + 1 →
      a.queue = [.int ((draw t % m : Nat) : Int)] → Inv a.st.1 a.live →
      ∃ (a' : AsyncSt (σ × Nat)) (ds : List (Option Props)), asyncLoop (c.inherit draw) n a = .ok a' ∧ ds.length = n ∧
        a'.res = { a.res with diffs := a.res.diffs ++ ds } ∧
        a'.trace = a.trace ++ (List.range n).map (fun k => Key.int ((draw (t + k) % m : Nat) : Int)) ∧
        ∀ k, k < n → ∃ x y, SimResult.replayTo a.live ds k = .ok x ∧ SimResult.replayTo a.live ds (k + 1) = .ok y ∧ (x.WF ∧ y.WF) ∧ (∃ st, Inv st x) ∧
          OneSite R (.int ((draw (t + k) % m : Nat) : Int)) x y := by
  induction n with
  | zero =>
    intro a _ _ _ t _ _ _
    exact ⟨a, [], rfl, rfl, by simp, by simp, by omega⟩
  | succ n ih =>
    intro a hs hg hids t ht hq hI
    have hi : Key.int ((draw t % m : Nat) : Int) ∈ a.live.siteIds := by
      unfold IdsTo at hids
      rw [hids.mem_iff]
      exact List.mem_map.2 ⟨draw t % m, by simpa using Nat.mod_lt _ hm, rfl⟩
    obtain ⟨a1, dd, h1, h2, h3, h4, h5, h6, h7, h8, h9, h10⟩ := asyncStep_by hA draw hm hs hg hids hq hi hI
    obtain ⟨a', ds, g1, g2, g3, g4, g5⟩ := ih a1 h7 (by rw [h9.2.1]; exact hg) h8 (t + 1) (by rw [h5, ht]) (by rw [h4, ht])
      (hI' _ _ _ _ hs h10 h9)
    refine ⟨a', dd :: ds, ?_, by simp [g2], by rw [g3, h3]; simp [SimResult.addStep], ?_, ?_⟩
    · rw [asyncLoop, h1, ok_bind, h4]
      simpa using g1
    · rw [g4, h6, List.range_succ_eq_map]
      simp [Function.comp_def, Nat.add_assoc, Nat.add_comm 1]
    · intro k hk
      cases k with
      | zero =>
        refine ⟨a.live, a1.live, by simp, ?_, ⟨hs, h7⟩, ⟨_, hI⟩, h9⟩
        simp only [SimResult.replayTo, h2, ok_bind]
      | succ k =>
        obtain ⟨x, y, e1, e2, e3⟩ := g5 k (by omega)
        refine ⟨x, y, ?_, ?_, ?_⟩
        · rw [SimResult.replayTo_cons, h2, ok_bind, e1]
        · rw [SimResult.replayTo_cons, h2, ok_bind, e2]
        · rw [show t + (k + 1) = t + 1 + k by omega]; exact e3

/-- An asynchronous run with the default `get_random_site`: it succeeds, makes `n` steps, and step `k` is about the site drawn by the `k`-th draw. -/
theorem runAsync_by {c : Controller σ} {Inv : σ → SimState → Prop} {R : Key → SimState → Props → Prop} (hA : AnswersBy c Inv R) (draw : Nat → Nat)
    (hI' : ∀ st i s s', s.WF → Inv st s → OneSite R i s s' → Inv st s') {m : Nat} (hm : 0 < m) (n : Nat) {s : SimState} (hs : s.WF)
    (hg : s.getGeneralState ≠ none) (hids : IdsTo m s) (st0 st : σ) (hp : c.preRun st0 s = .ok (st, s)) (hI : Inv st s) :
    ∃ a, runAsync (c.inherit draw) (st0, 0) s n = .ok a ∧ a.res.len = n + 1 ∧ a.res.getStep 0 = .ok s ∧
      a.trace = (List.range n).map (fun k => Key.int ((draw k % m : Nat) : Int)) ∧
      ∀ k : Nat, k < n → ∃ x y, a.res.getStep k = .ok x ∧ a.res.getStep ((k : Int) + 1) = .ok y ∧ (x.WF ∧ y.WF) ∧ (∃ st, Inv st x) ∧
        OneSite R (.int ((draw k % m : Nat) : Int)) x y := by
  obtain ⟨a', ds, g1, g2, g3, g4, g5⟩ := asyncLoop_by hA draw hI' hm n
    (⟨(st, 1), s.copy, [.int ((draw 0 % m : Nat) : Int)], SimResult.new s.copy, []⟩ : AsyncSt (σ × Nat)) hs hg hids 0 rfl rfl hI
  have hpre : (c.inherit draw).preRun (st0, 0) s = .ok ((st, 0), s) := by
    simp only [Controller.inherit, hp, ok_bind]; rfl
  have hadd := addSites_inherit draw c (st, 0) hm hids []
  refine ⟨{ a' with res := a'.res.setOutput a'.live }, ?_, ?_, ?_, ?_, ?_⟩
  · unfold runAsync
    rw [hpre, ok_bind]
    simp only [asyncRunFrom]
    have : addSites (c.inherit draw) (st, 0) s.copy [] = _ := hadd
    rw [this, ok_bind]
    simp only [List.nil_append, List.isEmpty_cons, Bool.false_eq_true, if_false]
    rw [g1, ok_bind]
    rfl
  · simp [SimResult.len, SimResult.setOutput, g3, SimResult.new, g2]
  · simp [SimResult.getStep, SimResult.setOutput, g3, SimResult.new, copy, SimResult.replayTo_zero]
  · show a'.trace = _
    rw [g4]; simp
  · intro k hk
    obtain ⟨x, y, e1, e2, e3⟩ := g5 k hk
    refine ⟨x, y, ?_, ?_, ?_⟩
    · simpa [SimResult.getStep, SimResult.setOutput, g3, SimResult.new, copy, Dict.get?] using e1
    · have : ((k : Int) + 1).toNat = k + 1 := by omega
      simpa [SimResult.getStep, SimResult.setOutput, g3, SimResult.new, copy, Dict.get?, this] using e2
    · simpa using e3

end Pyl
