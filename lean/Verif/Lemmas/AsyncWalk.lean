import Verif.Spec.RandomRun
import Verif.Lemmas.AsyncBy
import Verif.Lemmas.Chance
/-
Asynchronous runs with the default `get_random_site` as walks driven by the draws.
-/
set_option autoImplicit false

namespace Pyl
open SimState Spec
variable {σ : Type}

theorem update_empty {d : Props} (hd : Dict.WF d) : Dict.update [] d = d := by
  have key : ∀ (l acc : Props), Dict.WF (acc ++ l) → Dict.update acc l = acc ++ l := by
    intro l
    induction l with
    | nil => intro acc _; simp
    | cons p l ih =>
      intro acc hacc
      have hn : p.1 ∉ Dict.keys acc := by
        intro hm
        have := hacc
        simp only [Dict.WF, Dict.keys_append, Dict.keys_cons] at this
        exact (List.nodup_append.1 this).2.2 _ hm _ (by simp) rfl
      rw [Dict.update_cons, set_append_new hn, ih _ (by simpa using hacc)]
      simp
  simpa using key d [] (by simpa using hd)

theorem asyncStep_visit {c : Controller σ} (draw : Nat → Nat) {m : Nat} (hm : 0 < m) {a : AsyncSt (σ × Nat)} {i : Key} (hq : a.queue = [i])
    {y : σ × SimState} (hv : OneVisit c i (a.st.1, a.live) y) (hids : Numbered m y.2) :
    ∃ dd : Option Props, a.live.batchUpdateO dd = .ok y.2 ∧
      asyncStep (c.inherit draw) a = .ok ⟨(y.1, a.st.2 + 1), y.2, [.int ((draw a.st.2 % m : Nat) : Int)], a.res.addStep dd, a.trace ++ [i]⟩ := by
  obtain ⟨r, ss, gs, h1, h3, h4, h5, w1, w2, h6⟩ := hv
  have hmg : mergeUpdates r.split.1 none (some i) = .ok (some ⟨ss, gs⟩) := by
    rw [mergeUpdates_split, mergeResp_parts h5, if_neg h4]
    simp [Upd.empty, update_empty w1, update_empty w2]
  refine ⟨some (Upd.toProps ⟨ss, gs⟩), h6, ?_⟩
  unfold asyncStep
  rw [hq]
  have hadd := addSites_inherit draw c (y.1, a.st.2) hm (s := y.2) (m := m) hids []
  simp only [Controller.inherit] at hadd ⊢
  simp only at h1
  rw [h1]
  simp only [ok_bind, pure, Except.pure] at hadd ⊢
  rw [hmg, split_snd, h3]
  have h6' : a.live.batchUpdateO (Option.map Upd.toProps (some ⟨ss, gs⟩)) = .ok y.2 := h6
  simp only [ok_bind, h6', List.append_nil, List.isEmpty_nil, if_true]
  rw [hadd]
  rfl

theorem asyncLoop_visit {c : Controller σ} {m : Nat} {visit : Nat → σ × SimState → σ × SimState} {Inv : σ × SimState → Prop}
    (hc : Closed c m visit Inv) (draw : Nat → Nat) (hm : 0 < m) (n : Nat) :
    ∀ (a : AsyncSt (σ × Nat)) (t : Nat), Inv (a.st.1, a.live) → a.st.2 = t + 1 → a.queue = [.int ((draw t % m : Nat) : Int)] →
      ∃ (a' : AsyncSt (σ × Nat)) (ds : List (Option Props)), asyncLoop (c.inherit draw) n a = .ok a' ∧ ds.length = n ∧
        a'.res = { a.res with diffs := a.res.diffs ++ ds } ∧
        a'.trace = a.trace ++ (List.range n).map (fun k => Key.int ((draw (t + k) % m : Nat) : Int)) ∧
        (a'.st.1, a'.live) = walk visit (fun k => draw (t + k) % m) (a.st.1, a.live) n ∧ a'.st.2 = t + 1 + n ∧
        ∀ k, k ≤ n → SimResult.replayTo a.live ds k = .ok (walk visit (fun k => draw (t + k) % m) (a.st.1, a.live) k).2 := by
  induction n with
  | zero =>
    intro a t hI ht hq
    exact ⟨a, [], rfl, rfl, by simp, by simp, rfl, by omega, fun k hk => by obtain rfl : k = 0 := by omega
                                                                            simp [walk]⟩
  | succ n ih =>
    intro a t hI ht hq
    obtain ⟨hv, hI'⟩ := (hc _ hI).2 (draw t % m) (Nat.mod_lt _ hm)
    obtain ⟨dd, h1, h2⟩ := asyncStep_visit draw hm hq hv (hc _ hI').1
    obtain ⟨a', ds, g1, g2, g3, g4, g5, g6, g7⟩ := ih ⟨((visit (draw t % m) (a.st.1, a.live)).1, a.st.2 + 1), (visit (draw t % m) (a.st.1, a.live)).2,
      [.int ((draw a.st.2 % m : Nat) : Int)], a.res.addStep dd, a.trace ++ [.int ((draw t % m : Nat) : Int)]⟩ (t + 1) hI' (by rw [ht])
      (by show [_] = [_]; rw [ht])
    have hshift : (fun k => draw (t + 1 + k) % m) = fun k => draw (t + (k + 1)) % m := by
      funext k; rw [show t + 1 + k = t + (k + 1) by omega]
    refine ⟨a', dd :: ds, ?_, by simp [g2], by rw [g3]; simp [SimResult.addStep], ?_, ?_, by rw [g6]; omega, ?_⟩
    · rw [asyncLoop, h2, ok_bind]
      simpa using g1
    · rw [g4, List.range_succ_eq_map]
      simp [Function.comp_def, Nat.add_assoc, Nat.add_comm 1]
    · rw [walk_succ, g5, hshift]
      rfl
    · intro k hk
      cases k with
      | zero => simp [walk]
      | succ k =>
        rw [SimResult.replayTo_cons, h1, ok_bind, g7 k (by omega), walk_succ, hshift]
        rfl

/-- An asynchronous run with the default `get_random_site` as a walk. -/
theorem runAsync_visit {c : Controller σ} {m : Nat} {visit : Nat → σ × SimState → σ × SimState} {Inv : σ × SimState → Prop}
    (hc : Closed c m visit Inv) (draw : Nat → Nat) (hm : 0 < m) (n : Nat) {st0 st1 : σ} {s0 s1 : SimState}
    (hp : c.preRun st0 s0 = .ok (st1, s1)) (hI : Inv (st1, s1)) :
    ∃ a, runAsync (c.inherit draw) (st0, 0) s0 n = .ok a ∧ a.res.len = n + 1 ∧ a.res.initial = s0 ∧
      a.trace = (List.range n).map (fun k => Key.int ((draw k % m : Nat) : Int)) ∧
      a.st.1 = (walk visit (fun k => draw k % m) (st1, s1) n).1 ∧ a.res.output = some (walk visit (fun k => draw k % m) (st1, s1) n).2 ∧
      ∀ k : Nat, k ≤ n → s1 = s0 → a.res.getStep k = .ok (walk visit (fun k => draw k % m) (st1, s1) k).2 := by
  obtain ⟨a', ds, g1, g2, g3, g4, g5, g6, g7⟩ := asyncLoop_visit hc draw hm n
    (⟨(st1, 1), s1.copy, [.int ((draw 0 % m : Nat) : Int)], SimResult.new s0.copy, []⟩ : AsyncSt (σ × Nat)) 0 hI rfl rfl
  have hpre : (c.inherit draw).preRun (st0, 0) s0 = .ok ((st1, 0), s1) := by
    simp only [Controller.inherit, hp, ok_bind]; rfl
  have hadd := addSites_inherit draw c (st1, 0) hm (hc _ hI).1 []
  simp only [Nat.zero_add] at g4 g5 g7
  refine ⟨{ a' with res := a'.res.setOutput a'.live }, ?_, ?_, ?_, ?_, ?_, ?_, ?_⟩
  · unfold runAsync
    rw [hpre, ok_bind]
    simp only [asyncRunFrom]
    have : addSites (c.inherit draw) (st1, 0) s1.copy [] = _ := hadd
    rw [this, ok_bind]
    simp only [List.nil_append, List.isEmpty_cons, Bool.false_eq_true, if_false]
    rw [g1, ok_bind]
    rfl
  · simp [SimResult.len, SimResult.setOutput, g3, SimResult.new, g2]
  · simp [SimResult.setOutput, g3, SimResult.new, copy]
  · show a'.trace = _
    rw [g4]; simp
  · show (a'.st.1, a'.live).1 = _
    rw [g5]; rfl
  · show some a'.live = _
    have : a'.live = (a'.st.1, a'.live).2 := rfl
    rw [this, g5]; rfl
  · rintro k hk rfl
    have := g7 k hk
    simpa [SimResult.getStep, SimResult.setOutput, g3, SimResult.new, copy, Dict.get?] using this

theorem answers_parts {i : Key} {r : Resp} {q : Props} (h : Answers i r (some q)) :
    followUps r = [] ∧ body r ≠ .noUpdate ∧ Parts i (body r) [(i, .dict q)] [] := by
  cases h with
  | patch d h => exact ⟨rfl, by simp [body], .patch _ h⟩
  | self n hi u => exact ⟨rfl, by simp [body], .perSite _ (by simp) (by simp [Dict.keys, hi])⟩
  | total d u h hg =>
    refine ⟨rfl, by simp [body], .total _ _ _ (.inl (Dict.mem_keys_of_get? h)) (.inl h) ?_⟩
    rcases hg with h | h
    · exact .inr ⟨Dict.get?_eq_none_iff.1 h, rfl⟩
    · exact .inl h

open Classical in
/-- Rules that answer with an update of the visited site: what visits lead to. -/
theorem closed_of_answersBy {c : Controller σ} {Inv : σ → SimState → Prop} {R : Key → SimState → Props → Prop} (hA : AnswersBy c Inv R)
    (hI' : ∀ st i s s', s.WF → Inv st s → OneSite R i s s' → Inv st s') {m : Nat} (hm : 0 < m) :
    ∃ visit, Closed c m visit (fun x => x.2.WF ∧ x.2.getGeneralState ≠ none ∧ Numbered m x.2 ∧ Inv x.1 x.2) ∧
      ∀ x, x.2.WF → x.2.getGeneralState ≠ none → Numbered m x.2 → Inv x.1 x.2 → ∀ i, i < m → OneSite R (.int i) x.2 (visit i x).2 := by
  have key : ∀ (i : Nat) (x : σ × SimState), ∃ y, i < m → x.2.WF → x.2.getGeneralState ≠ none → Numbered m x.2 → Inv x.1 x.2 →
      OneVisit c (.int i) x y ∧ (y.2.WF ∧ y.2.getGeneralState ≠ none ∧ Numbered m y.2 ∧ Inv y.1 y.2) ∧ OneSite R (.int i) x.2 y.2 := by
    intro i x
    by_cases h : i < m ∧ x.2.WF ∧ x.2.getGeneralState ≠ none ∧ Numbered m x.2 ∧ Inv x.1 x.2
    · obtain ⟨hi, hs, hg, hids, hI⟩ := h
      have hi' : Key.int (i : Int) ∈ x.2.siteIds := by
        have hids := hids
        unfold Numbered at hids
        rw [hids.mem_iff]
        exact List.mem_map.2 ⟨i, by simpa using hi, rfl⟩
      obtain ⟨st', r, q, h1, h2, h3, h4, h5⟩ := hA x.1 x.2 hs hI _ hi'
      obtain ⟨a', dd, e1, e2, -, -, -, -, e7, e8, e9, e10⟩ := asyncStep_by hA (fun _ => 0) hm (a := ⟨(x.1, 0), x.2, [.int (i : Int)], SimResult.new x.2, []⟩)
        hs hg hids rfl hi' hI
      obtain ⟨p1, p2, p3⟩ := answers_parts h2
      obtain ⟨sid, q', st1, r', u, live', f1, f2, f3, f4, f5, f6, -, -⟩ := asyncStep_ok e1
      injection f1 with f1 f1'
      subst f1 f1' f6
      have hu : (c.inherit fun _ => 0).update (x.1, 0) (.int (i : Int)) x.2 = .ok ((st', 0), r) := by
        simp only [Controller.inherit, h1, ok_bind]; rfl
      simp only at f2 f4
      rw [hu] at f2
      injection f2 with f2
      injection f2 with f2 f2'
      subst f2 f2'
      rw [mergeUpdates_split, mergeResp_parts p3, if_neg p2] at f3
      injection f3 with f3
      subst f3
      have hst : a'.st.1 = st' := by
        rw [split_snd, p1] at f5
        have hadd := addSites_inherit (fun _ => 0) c (st', 0) hm (s := a'.live) (m := m) e8 []
        simp only [refill, List.append_nil, List.isEmpty_nil, if_true] at f5
        rw [hadd] at f5
        injection f5 with f5
        injection f5 with f5
        rw [← f5]
      exact ⟨(a'.st.1, a'.live), fun _ _ _ _ _ => ⟨⟨r, _, _, by rw [hst]; exact h1, p1, p2, p3, by simp [Dict.WF], Dict.WF.nil, f4⟩,
        ⟨e7, by rw [e9.2.1]; exact hg, e8, hI' _ _ _ _ hs e10 e9⟩, e9⟩⟩
    · exact ⟨x, fun a b c d e => absurd ⟨a, b, c, d, e⟩ h⟩
  choose visit hv using fun i x => key i x
  refine ⟨visit, ?_, fun x h1 h2 h3 h4 i hi => (hv i x hi h1 h2 h3 h4).2.2⟩
  rintro x ⟨h1, h2, h3, h4⟩
  exact ⟨h3, fun i hi => ⟨(hv i x hi h1 h2 h3 h4).1, (hv i x hi h1 h2 h3 h4).2.1⟩⟩

end Pyl
