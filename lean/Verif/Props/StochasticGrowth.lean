import Verif.Lemmas.GrowthCalls
import Verif.Lemmas.ChanceVar
import Verif.Props.RandomGrowth
import Verif.Props.NestedGrowth
/-
C135: serial growth with random neighbourhoods fills the structure with probability 1 in the limit.
-/
set_option autoImplicit false
set_option linter.unusedSectionVars false

namespace Pyl
open SimState Spec Growth
open Pyl.Lattice Pyl.Structure
variable {K : Type} [Field K] [LinearOrder K] [FloorRing K] [IsStrictOrderedRing K] {d : ℕ}

/-- The state after a serial step. -/
def nextState (c : Ctl) (x : SimState) : SimState :=
  match takeStep controller c x with
  | .ok (_, u) => (match x.batchUpdateO (u.map Upd.toProps) with
    | .ok y => y
    | .error _ => x)
  | .error _ => x

theorem countP_lt {α : Type} {p q : α → Bool} {l : List α} (h : ∀ a ∈ l, p a = true → q a = true) {a : α} (ha : a ∈ l) (hp : p a = false) (hq : q a = true) :
    l.countP p < l.countP q := by
  induction l with
  | nil => cases ha
  | cons b l ih =>
    rw [List.countP_cons, List.countP_cons]
    have hle : l.countP p ≤ l.countP q := List.countP_mono_left fun x hx => h x (by simp [hx])
    rcases List.mem_cons.1 ha with rfl | ha
    · simp [hp, hq]; omega
    · have h1 := ih (fun x hx => h x (by simp [hx])) ha
      have h2 := h b (by simp)
      cases hb : p b
      · simp; omega
      · simp [h2 hb]; omega

/-- Where there is background and a way to an occupied site, some background site has a possible occupied neighbour. -/
theorem frontierBy {R : ℕ → ℕ → Prop} {ids : List Key} (hR : ∀ i j : ℕ, Key.int i ∈ ids → R i j → Key.int j ∈ ids) {s : SimState} {bg : Val} :
    ∀ (k i j : ℕ), Key.int i ∈ ids → occ? s (.int i) = some bg → occ? s (.int j) ≠ some bg → HopsBy R k i j →
      ∃ i' : ℕ, Key.int i' ∈ ids ∧ occ? s (.int i') = some bg ∧ ∃ x, R i' x ∧ occ? s (.int x) ≠ some bg := by
  intro k
  induction k with
  | zero => rintro i j - h1 h2 rfl; exact absurd h1 h2
  | succ k ih =>
    rintro i j hi h1 h2 (h3 | ⟨x, hx, h3⟩)
    · exact ih i j hi h1 h2 h3
    · by_cases hxb : occ? s (.int x) = some bg
      · exact ih x j (hR i x hi hx) hxb h2 h3
      · exact ⟨i, hi, h1, x, hx, hxb⟩

theorem split_unique {α : Type} {l pre post pre' post' : List α} {a : α} (hl : l.Nodup) (h : l = pre ++ a :: post) (h' : l = pre' ++ a :: post') : pre = pre' := by
  subst h
  induction pre generalizing pre' with
  | nil =>
    cases pre' with
    | nil => rfl
    | cons b pre' =>
      rw [List.nil_append, List.cons_append] at h'
      injection h' with e1 e2
      subst e1
      rw [List.nil_append, List.nodup_cons, e2] at hl
      exact absurd (by simp) hl.1
  | cons b pre ih =>
    cases pre' with
    | nil =>
      rw [List.nil_append, List.cons_append] at h'
      injection h' with e1 e2
      subst e1
      rw [List.cons_append, List.nodup_cons] at hl
      exact absurd (by simp) hl.1
    | cons b' pre' =>
      rw [List.cons_append, List.cons_append] at h'
      injection h' with e1 e2
      subst e1
      rw [List.cons_append, List.nodup_cons] at hl
      rw [ih hl.2 e2]

/-- C135, for any random answers: `A t r i` is the answer of the `t`-th call of `neighbors_of` for site `i` if `r` is drawn, one of 0, ..., q - 1 with the same
probability.  If from every site moves to possible neighbours lead to a site that is occupied at the start, then with `b` background sites at the start the
probability that after `n` serial steps the run has succeeded and every site is occupied is at least 1 - 2^b (1 - 1/(2q))^n. -/
theorem C135_fills (bg : Val) (q : ℕ) (hq : 0 < q) (A : ℕ → ℕ → Key → Py (List ℕ)) (s0 : SimState) (hs : s0.WF) (hg : s0.getGeneralState ≠ none)
    (hne : s0.siteIds ≠ []) (hocc : AllOccupied s0)
    (hA : ∀ t r, r < q → ∀ i ∈ s0.siteIds, ∃ l, A t r i = .ok l ∧ ∀ j ∈ l, Key.int j ∈ s0.siteIds)
    (may : ℕ → ℕ → Prop) (hmay : ∀ i j : ℕ, Key.int i ∈ s0.siteIds → may i j → ∀ t, ∃ r, r < q ∧ ∃ l, A t r (.int i) = .ok l ∧ j ∈ l)
    (hreach : ∀ k ∈ s0.siteIds, ∃ i : ℕ, k = .int i ∧ ∃ h j, HopsBy may h i j ∧ occ? s0 (.int j) ≠ some bg) (n : ℕ) :
    1 - 2 ^ bgCount bg s0 s0.siteIds * (1 - 1 / (2 * (q : ℝ))) ^ n ≤
      chance q (s0.siteIds.length * n) fun f => ∃ c' res s, runSync controller ⟨bg, fun t i => A t (outcome f t) i, 0⟩ s0 n = .ok (c', res) ∧
        res.output = some s ∧ s.siteIds = s0.siteIds ∧ ∀ i ∈ s0.siteIds, ∃ v, occ? s i = some v ∧ v ≠ bg := by
  let ctl : (ℕ → ℕ) → ℕ → Ctl := fun g a => ⟨bg, fun t i => A t (g (t - a)) i, a⟩
  let cost : ℕ × SimState → ℕ := fun x => bgCount bg x.2 x.2.siteIds
  let step : (ℕ → ℕ) → ℕ × SimState → ℕ × SimState := fun g x => (x.1 + cost x, nextState (ctl g x.1) x.2)
  let Inv : ℕ × SimState → Prop := fun x => x.2.WF ∧ x.2.getGeneralState ≠ none ∧ x.2.siteIds = s0.siteIds ∧ AllOccupied x.2 ∧
    ∀ j, occ? x.2 j = some bg → occ? s0 j = some bg
  -- one step
  have hone : ∀ x, Inv x → ∀ g : ℕ → ℕ, (∀ t, g t < q) → ∃ u, (∀ nbs', (∀ v, v < cost x → nbs' (x.1 + v) = fun i => A (x.1 + v) (g v) i) →
      takeStep controller ⟨bg, nbs', x.1⟩ x.2 = .ok (⟨bg, nbs', x.1 + cost x⟩, some u)) ∧
      x.2.batchUpdateO (some u.toProps) = .ok (step g x).2 ∧ Inv (step g x) ∧ ∀ i ∈ s0.siteIds, ∀ pre post, s0.siteIds = pre ++ i :: post → ∃ l v v',
        A (x.1 + bgCount bg x.2 pre) (g (bgCount bg x.2 pre)) i = .ok l ∧ occ? x.2 i = some v ∧ occ? (step g x).2 i = some v' ∧ GrowthStep bg x.2 l v v' := by
    rintro ⟨a, x⟩ ⟨h1, h2, h3, h4, h5⟩ g hgq
    dsimp only at h1 h2 h3 h4 h5
    obtain ⟨u, y, e1, e2, e3, e4⟩ := takeStep_at (bg := bg) (nbs := (ctl g a).nbs) h1 h2 (by rw [h3]; exact hne) h4 (by
      intro t i hi
      rw [h3] at hi ⊢
      exact hA t _ (hgq _) i hi) a
    have hy : (step g (a, x)).2 = y := by
      show nextState (ctl g a) x = y
      unfold nextState
      have := e4 (ctl g a).nbs fun _ _ => rfl
      have h' : takeStep controller (ctl g a) x = .ok (_, some u) := this
      rw [h']
      show (match x.batchUpdateO (some u.toProps) with | .ok y => y | .error _ => x) = y
      rw [e1]
    have hsite : ∀ i ∈ s0.siteIds, ∀ pre post, s0.siteIds = pre ++ i :: post → ∃ l v v',
        A (a + bgCount bg x pre) (g (bgCount bg x pre)) i = .ok l ∧ occ? x i = some v ∧ occ? y i = some v' ∧ GrowthStep bg x l v v' := by
      intro i hi pre post hpre
      obtain ⟨v, hv⟩ := h4 i (by rw [h3]; exact hi)
      obtain ⟨p, hp, hpv⟩ := occ?_eq.1 hv
      obtain ⟨w, new, ⟨pre', post', hpre', hans⟩, hnew, hm⟩ := e3.2.2 i p hp
      have : pre = pre' := split_unique hs.sites hpre (by rw [← hpre', h3]; rfl)
      subst this
      obtain ⟨l, hl, h⟩ := hans v hv
      have hl' : A (a + bgCount bg x pre) (g (bgCount bg x pre)) i = .ok l := by
        have : A (a + bgCount bg x pre) (g (a + bgCount bg x pre - a)) i = .ok l := hl
        rwa [Nat.add_sub_cancel_left] at this
      rcases h with ⟨rfl, h⟩ | ⟨v', rfl, -, h⟩
      · exact ⟨l, v, v, hl', hv, occ?_eq.2 ⟨new, hnew, by rw [hm.2 _ (by simp)]; exact hpv⟩, h⟩
      · exact ⟨l, v, v', hl', hv, occ?_eq.2 ⟨new, hnew, hm.1 _ _ (by simp [Dict.get?])⟩, h⟩
    refine ⟨u, fun nbs' hn => e4 nbs' fun v hv => ?_, by rw [hy]; exact e1, ?_, by rw [hy]; exact hsite⟩
    · rw [hn v hv]
      funext i
      show _ = A (a + v) (g (a + v - a)) i
      rw [Nat.add_sub_cancel_left]
    · have hids : y.siteIds = s0.siteIds := by rw [e3.1, h3]
      have hall : ∀ i ∈ s0.siteIds, ∃ l v v', occ? x i = some v ∧ occ? y i = some v' ∧ GrowthStep bg x l v v' := by
        intro i hi
        obtain ⟨pre, post, e⟩ := List.append_of_mem hi
        obtain ⟨l, v, v', -, h⟩ := hsite i hi pre post e
        exact ⟨l, v, v', h⟩
      show (step g (a, x)).2.WF ∧ (step g (a, x)).2.getGeneralState ≠ none ∧ (step g (a, x)).2.siteIds = s0.siteIds ∧ AllOccupied (step g (a, x)).2 ∧
        ∀ j, occ? (step g (a, x)).2 j = some bg → occ? s0 j = some bg
      rw [hy]
      refine ⟨e2, by rw [e3.2.1]; exact h2, hids, fun i hi => ?_, fun j hj => ?_⟩
      · obtain ⟨_, _, v', -, h, -⟩ := hall i (by rw [← hids]; exact hi)
        exact ⟨v', h⟩
      · have hjs : j ∈ s0.siteIds := by
          obtain ⟨p, hp, -⟩ := occ?_eq.1 hj
          rw [← hids]; exact Dict.mem_keys_of_get? hp
        obtain ⟨l, v, v', f1, f2, f3⟩ := hall j hjs
        rw [hj] at f2; injection f2 with f2; subst f2
        apply h5 j
        by_cases hb : v = bg
        · rw [f1, hb]
        · exact absurd (f3.1 hb).symm hb
  have hback : ∀ x, Inv x → ∀ g : ℕ → ℕ, (∀ t, g t < q) → ∀ i ∈ s0.siteIds, occ? (step g x).2 i = some bg → occ? x.2 i = some bg := by
    intro x hx g hgq i hi h
    obtain ⟨u, -, -, -, h4⟩ := hone x hx g hgq
    obtain ⟨pre, post, e⟩ := List.append_of_mem hi
    obtain ⟨l, v, v', -, f1, f2, f3⟩ := h4 i hi pre post e
    rw [h] at f2; injection f2 with f2; subst f2
    by_cases hb : v = bg
    · rw [f1, hb]
    · exact absurd (f3.1 hb).symm hb
  have hmus : ∀ x, Inv x → cost x = bgCount bg x.2 s0.siteIds := fun x hx => by show bgCount _ _ _ = _; rw [hx.2.2.1]
  have hset := chance_settle_var (q := q) hq (cost := cost) (step := step) (Inv := Inv) (μ := cost) (m := s0.siteIds.length)
    (fun x hx => by rw [hmus x hx]; exact List.countP_le_length)
    (fun x hx g g' hg' hgg => by
      obtain ⟨u, h1, h2, -⟩ := hone x hx g' hg'
      have h3 := h1 (ctl g x.1).nbs fun v hv => by
        funext i
        show A (x.1 + v) (g (x.1 + v - x.1)) i = _
        rw [Nat.add_sub_cancel_left, hgg v hv]
      refine Prod.ext rfl ?_
      show nextState (ctl g x.1) x.2 = (step g' x).2
      unfold nextState
      have h' : takeStep controller (ctl g x.1) x.2 = .ok (_, some u) := h3
      rw [h']
      show (match x.2.batchUpdateO (some u.toProps) with | .ok y => y | .error _ => x.2) = _
      rw [h2])
    (fun x hx g hgq => by
      obtain ⟨u, -, -, h3, -⟩ := hone x hx g hgq
      refine ⟨h3, ?_⟩
      rw [hmus _ h3, hmus x hx]
      refine List.countP_mono_left fun i hi h => ?_
      simp only [decide_eq_true_eq] at h ⊢
      exact hback x hx g hgq i hi h)
    (by
      intro x hx hpos
      rw [hmus x hx] at hpos
      obtain ⟨k, hk, hkb⟩ := List.countP_pos_iff.1 hpos
      simp only [decide_eq_true_eq] at hkb
      obtain ⟨i, rfl, h, j, h1, h2⟩ := hreach k hk
      obtain ⟨i', hi', hib, z, hz, hzb⟩ := frontierBy (R := may) (ids := s0.siteIds) (fun i j hi hij => by
        obtain ⟨r, hr, l, hl, hj⟩ := hmay i j hi hij 0
        obtain ⟨l', hl', hlj⟩ := hA 0 r hr _ hi
        rw [hl] at hl'; injection hl' with e; subst e
        exact hlj j hj) h i j hk hkb (fun e => h2 (hx.2.2.2.2 _ e)) h1
      obtain ⟨pre, post, e⟩ := List.append_of_mem hi'
      obtain ⟨r, hr, l, hl, hzl⟩ := hmay i' z hi' hz (x.1 + bgCount bg x.2 pre)
      refine ⟨bgCount bg x.2 pre, ?_, r, hr, fun g hgq hgp => ?_⟩
      · rw [hmus x hx, e]
        unfold bgCount
        rw [List.countP_append, List.countP_cons]
        simp [hib]
      · obtain ⟨u, -, -, h3, h4⟩ := hone x hx g hgq
        obtain ⟨l', v, v', f0, f1, f2, f3⟩ := h4 _ hi' pre post e
        rw [hgp, hl] at f0; injection f0 with f0; subst f0
        rw [hib] at f1; injection f1 with f1
        have hv' := (f3.2.2 f1.symm ⟨z, hzl, hzb⟩).1
        rw [hmus _ h3, hmus x hx]
        refine countP_lt (fun i hi h => ?_) hi' ?_ ?_
        · simp only [decide_eq_true_eq] at h ⊢
          exact hback x hx g hgq i hi h
        · rw [f2]; simpa using hv'
        · simpa using hib)
    n (s0.siteIds.length * n) le_rfl (0, s0) ⟨hs, hg, rfl, hocc, fun _ h => h⟩
  -- the run makes these steps
  have hrun : ∀ (G : ℕ → ℕ), (∀ t, G t < q) → ∀ (n : ℕ) (x : ℕ × SimState), Inv x → ∀ res : SimResult, ∃ c' res',
      syncLoop controller n ⟨bg, fun t i => A t (G t) i, x.1⟩ x.2 res = .ok (c', (walkVar cost step n (fun t => G (x.1 + t)) x).2, res') ∧
      Inv (walkVar cost step n (fun t => G (x.1 + t)) x) := by
    intro G hG n
    induction n with
    | zero => intro x hx res; exact ⟨_, _, rfl, hx⟩
    | succ n ih =>
      intro x hx res
      obtain ⟨u, h1, h2, h3, -⟩ := hone x hx (fun t => G (x.1 + t)) fun t => hG _
      obtain ⟨c', res', h4, h5⟩ := ih (step (fun t => G (x.1 + t)) x) h3 (res.addStep (some u.toProps))
      have hw : walkVar cost step (n + 1) (fun t => G (x.1 + t)) x =
          walkVar cost step n (fun t => G ((step (fun t => G (x.1 + t)) x).1 + t)) (step (fun t => G (x.1 + t)) x) := by
        rw [walkVar]
        congr 1
        funext t
        show G (x.1 + (t + cost x)) = G (x.1 + cost x + t)
        congr 1; omega
      refine ⟨c', res', ?_, by rw [hw]; exact h5⟩
      rw [hw]
      unfold syncLoop
      rw [h1 (fun t i => A t (G t) i) fun v _ => rfl]
      show (x.2.batchUpdateO (some u.toProps) >>= fun live' => syncLoop controller n _ live' _) = _
      rw [h2, ok_bind]
      exact h4
  have hcompl : chance q (s0.siteIds.length * n) (fun f => ¬ ∃ c' res s, runSync controller ⟨bg, fun t i => A t (outcome f t) i, 0⟩ s0 n = .ok (c', res) ∧
      res.output = some s ∧ s.siteIds = s0.siteIds ∧ ∀ i ∈ s0.siteIds, ∃ v, occ? s i = some v ∧ v ≠ bg) ≤
      chance q (s0.siteIds.length * n) (fun f => 0 < cost (walkVar cost step n (outcome f) (0, s0))) := by
    refine chance_mono fun f hf => ?_
    by_contra hzero
    apply hf
    obtain ⟨c', res', h1, h2⟩ := hrun (outcome f) (outcome_lt hq f) n (0, s0) ⟨hs, hg, rfl, hocc, fun _ h => h⟩ (SimResult.new s0.copy)
    have e0 : (fun t => outcome f (((0 : ℕ), s0).1 + t)) = outcome f := by funext t; show outcome f (0 + t) = _; rw [Nat.zero_add]
    rw [e0] at h1 h2
    refine ⟨c', res'.setOutput (walkVar cost step n (outcome f) (0, s0)).2, _, ?_, rfl, h2.2.2.1, fun i hi => ?_⟩
    · unfold runSync
      show (syncLoop controller n _ s0.copy _ >>= fun r => pure _) = _
      have h1' : syncLoop controller n ⟨bg, fun t i => A t (outcome f t) i, 0⟩ s0.copy (SimResult.new s0.copy) = _ := h1
      rw [h1']
      rfl
    · obtain ⟨v, hv⟩ := h2.2.2.2.1 i (by rw [h2.2.2.1]; exact hi)
      refine ⟨v, hv, ?_⟩
      rintro rfl
      apply hzero
      rw [hmus _ h2]
      exact List.countP_pos_iff.2 ⟨i, hi, by simpa using hv⟩
  rw [chance_not hq] at hcompl
  have : cost (0, s0) = bgCount bg s0 s0.siteIds := rfl
  rw [this] at hset
  linarith

theorem bgCount_phaseCount {S : Structure K d} (hS : S.Reachable) {s0 : SimState} (hs : s0.WF) (hsites : SameSites S s0) (bg : Val) :
    bgCount bg s0 s0.siteIds = phaseCount S s0 bg := by
  have hids := idsTo_of_sameSites hS hs hsites
  have hSm : S.siteIds = List.range S.siteIds.length := by
    have h := siteIds_eq hS
    rw [h, List.length_range]
  unfold bgCount phaseCount
  rw [hids.countP_eq, ← hSm, List.countP_map, List.countP_eq_length_filter]
  rfl

/-- The graphs of a stochastic builder of single graphs, and what the constructor makes of them. -/
theorem stochastic_init {S : Structure K d} (bs : List (Builder K d)) (hb : ∀ b ∈ bs, ∃ g, b.get S none = .ok g) (order : ℕ → List ℕ → List ℕ)
    (bg : Val) : ∃ gs : List (Graph K), List.Forall₂ (fun b g => b.get S none = .ok g) bs gs ∧ ∀ draw : ℕ → ℕ → ℕ,
      ∃ c, Growth.initNested order draw S bg (.stochastic (bs.map .one)) = .ok c ∧ c.background = bg ∧ c.calls = 0 ∧
        ∀ t (i : ℕ) g, gs[draw t 0 % bs.length]? = some g → c.nbs t (.int i) = .ok (order t (g.neighborsOf i)) := by
  have hgs : ∃ gs : List (Graph K), List.Forall₂ (fun b g => b.get S none = .ok g) bs gs := by
    clear order
    induction bs with
    | nil => exact ⟨[], .nil⟩
    | cons b bs ih =>
      obtain ⟨g, hg⟩ := hb b (by simp)
      obtain ⟨gs, hgs⟩ := ih fun b' h => hb b' (by simp [h])
      exact ⟨g :: gs, .cons hg hgs⟩
  obtain ⟨gs, hgs⟩ := hgs
  refine ⟨gs, hgs, fun draw => ?_⟩
  have hget : NbBuilder.get S (.stochastic (bs.map .one)) = .ok (.stochastic (gs.map .graph)) := by
    have : NbBuilder.getAll S (bs.map .one) = .ok (gs.map .graph) := by
      rw [getAll_ok, List.forall₂_map_left_iff, List.forall₂_map_right_iff]
      exact hgs.imp fun b g h => get_one_ok.2 ⟨g, h, rfl⟩
    rw [NbBuilder.get, this]; rfl
  refine ⟨_, by unfold Growth.initNested; rw [hget]; rfl, rfl, rfl, fun t i g hg => ?_⟩
  have hsel : (Nbhood.stochastic (gs.map .graph) : Nbhood K).select S i (draw t) = .ok (some g) := by
    rw [Nbhood.select, selectAt_eq, List.length_map, ← hgs.length_eq, List.getElem?_map, hg]
    rfl
  have : (Nbhood.stochastic (gs.map .graph) : Nbhood K).neighborsOf S (draw t) i = .ok (g.neighborsOf i) := by
    unfold Nbhood.neighborsOf
    rw [hsel]; rfl
  simp [this, Except.map]

/-- C135: serial growth with a stochastic neighbourhood of `q` single neighbourhoods and uniform independent draws of `random.choice`.  If from every site moves
to sites that may be neighbours lead to a site that is occupied at the start, the grid is filled after `n` steps with probability at least
1 - 2^b (1 - 1/(2q))^n, where `b` is the number of background sites at the start. -/
theorem C135_stochastic {S : Structure K d} (hS : S.Reachable) (hSne : S.siteIds ≠ []) (bs : List (Builder K d)) (hbs : bs ≠ [])
    (hb : ∀ b ∈ bs, ∃ g, b.get S none = .ok g) (bg : Val) (order : ℕ → List ℕ → List ℕ) (hord : ∀ t l, (order t l).Perm l)
    (s0 : SimState) (hs : s0.WF) (hg : s0.getGeneralState ≠ none) (hsites : SameSites S s0) (hocc : AllOccupied s0)
    (hreach : ∀ i ∈ S.siteIds, ∃ h, ∃ j ∈ nuclei S s0 bg, HopsBy (Sometimes S (.stochastic (bs.map .one))) h i j) (n : ℕ) :
    1 - 2 ^ phaseCount S s0 bg * (1 - 1 / (2 * (bs.length : ℝ))) ^ n ≤ chance bs.length (S.siteIds.length * n) fun f =>
      ∃ c c' res s, Growth.initNested order (fun t _ => outcome f t) S bg (.stochastic (bs.map .one)) = .ok c ∧
        runSync controller c s0 n = .ok (c', res) ∧ res.output = some s ∧ SameSites S s ∧
        ∀ i ∈ S.siteIds, ∃ v, occ? s (.int i) = some v ∧ v ≠ bg := by
  have hq : 0 < bs.length := List.length_pos_of_ne_nil hbs
  obtain ⟨gs, hgs, hinit⟩ := stochastic_init bs hb order bg
  have hlen : gs.length = bs.length := hgs.length_eq.symm
  choose c0 hc0 hcb hcc hcn using hinit
  have hmem : ∀ i ∈ S.siteIds, Key.int (i : ℕ) ∈ s0.siteIds := fun i hi => (hsites _).2 ⟨i, hi, rfl⟩
  let A : ℕ → ℕ → Key → Py (List ℕ) := fun t r i => (c0 fun _ _ => r).nbs t i
  have hAr : ∀ t r, (hr : r < bs.length) → ∀ i : ℕ, ∃ b ∈ bs, ∃ g, b.get S none = .ok g ∧ gs[r]? = some g ∧ A t r (.int i) = .ok (order t (g.neighborsOf i)) := by
    intro t r hr i
    have hr' : r < gs.length := by omega
    refine ⟨bs[r], List.getElem_mem _, gs[r], hgs.get hr hr', by simp [hr'], ?_⟩
    exact hcn (fun _ _ => r) t i gs[r] (by rw [Nat.mod_eq_of_lt hr]; simp [hr'])
  have hA : ∀ t r, r < bs.length → ∀ i ∈ s0.siteIds, ∃ l, A t r i = .ok l ∧ ∀ j ∈ l, Key.int j ∈ s0.siteIds := by
    intro t r hr k hk
    obtain ⟨i, hi, rfl⟩ := (hsites k).1 hk
    obtain ⟨b, -, g, hg, -, h⟩ := hAr t r hr i
    exact ⟨_, h, fun j hj => hmem j ((C55_known_and_other hS b none g hg i).1 j ((hord t _).mem_iff.1 hj)).1⟩
  have := C135_fills bg bs.length hq A s0 hs hg (sameSites_ne hsites hSne) hocc hA (Sometimes S (.stochastic (bs.map .one))) (by
    rintro i j - ⟨l, hl, hj⟩ t
    cases hl with
    | stochastic _ b _ hbm hl =>
      obtain ⟨b', hb', rfl⟩ := List.mem_map.1 hbm
      cases hl with
      | one _ g hg =>
        obtain ⟨r, hr, rfl⟩ := List.getElem_of_mem hb'
        obtain ⟨b'', -, g', hg', hgr, h⟩ := hAr t r hr i
        have hr' : r < gs.length := by omega
        have : gs[r] = g := by
          have h1 := hgs.get hr hr'
          simp only [List.get_eq_getElem] at h1
          rw [hg] at h1; injection h1 with h1; exact h1.symm
        rw [List.getElem?_eq_getElem hr', this] at hgr
        injection hgr with hgr
        refine ⟨r, hr, _, h, (hord t _).mem_iff.2 ?_⟩
        rw [← hgr, ← C55_weighted]
        exact hj) (by
    intro k hk
    obtain ⟨i, hi, rfl⟩ := (hsites k).1 hk
    obtain ⟨h, j, hj, hh⟩ := hreach i hi
    exact ⟨i, rfl, h, j, hh, by simpa using (List.mem_filter.1 hj).2⟩) n
  rw [bgCount_phaseCount hS hs hsites] at this
  have hSl : s0.siteIds.length = S.siteIds.length := by
    have := (idsTo_of_sameSites hS hs hsites).length_eq
    simpa using this
  rw [hSl] at this
  refine this.trans (chance_mono fun f => ?_)
  rintro ⟨c', res, s, h1, h2, h3, h4⟩
  refine ⟨_, c', res, s, hc0 fun t _ => outcome f t, ?_, h2, fun k => by rw [h3]; exact hsites k, fun i hi => h4 _ (hmem i hi)⟩
  have hc : c0 (fun t _ => outcome f t) = ⟨bg, fun t i => A t (outcome f t) i, 0⟩ := by
    have hn : ∀ draw draw' : ℕ → ℕ → ℕ, ∀ t, draw t = draw' t → (c0 draw).nbs t = (c0 draw').nbs t := by
      intro draw draw' t e
      have h1 := hc0 draw
      have h2 := hc0 draw'
      unfold Growth.initNested at h1 h2
      obtain ⟨N, hN, h1⟩ := bind_ok h1
      rw [hN, ok_bind] at h2
      injection h1 with h1; injection h2 with h2
      rw [← h1, ← h2]
      funext i
      simp only [e]
    have e : c0 (fun t _ => outcome f t) = ⟨(c0 fun t _ => outcome f t).background, (c0 fun t _ => outcome f t).nbs, (c0 fun t _ => outcome f t).calls⟩ := rfl
    rw [e, hcb, hcc]
    congr 1
    funext t
    exact hn _ (fun _ _ => outcome f t) t rfl
  rw [hc]
  exact h1

/-- C135: so the probability tends to 1 with the number of steps. -/
theorem C135_limit {S : Structure K d} (hS : S.Reachable) (hSne : S.siteIds ≠ []) (bs : List (Builder K d)) (hbs : bs ≠ [])
    (hb : ∀ b ∈ bs, ∃ g, b.get S none = .ok g) (bg : Val) (order : ℕ → List ℕ → List ℕ) (hord : ∀ t l, (order t l).Perm l)
    (s0 : SimState) (hs : s0.WF) (hg : s0.getGeneralState ≠ none) (hsites : SameSites S s0) (hocc : AllOccupied s0)
    (hreach : ∀ i ∈ S.siteIds, ∃ h, ∃ j ∈ nuclei S s0 bg, HopsBy (Sometimes S (.stochastic (bs.map .one))) h i j) :
    Filter.Tendsto (fun n => chance bs.length (S.siteIds.length * n) fun f =>
      ∃ c c' res s, Growth.initNested order (fun t _ => outcome f t) S bg (.stochastic (bs.map .one)) = .ok c ∧
        runSync controller c s0 n = .ok (c', res) ∧ res.output = some s ∧ SameSites S s ∧
        ∀ i ∈ S.siteIds, ∃ v, occ? s (.int i) = some v ∧ v ≠ bg) Filter.atTop (nhds 1) := by
  have hq : 0 < bs.length := List.length_pos_of_ne_nil hbs
  have hmR : (1 : ℝ) ≤ bs.length := by exact_mod_cast hq
  have hρ : (0 : ℝ) ≤ 1 - 1 / (2 * bs.length) := by
    have : (1 : ℝ) / (2 * bs.length) ≤ 1 := by rw [div_le_one (by linarith)]; linarith
    linarith
  have hρ1 : (1 : ℝ) - 1 / (2 * bs.length) < 1 := by
    have : (0 : ℝ) < 1 / (2 * bs.length) := by positivity
    linarith
  have hlim : Filter.Tendsto (fun n : ℕ => 1 - 2 ^ phaseCount S s0 bg * (1 - 1 / (2 * (bs.length : ℝ))) ^ n) Filter.atTop (nhds 1) := by
    have := ((tendsto_pow_atTop_nhds_zero_of_lt_one hρ hρ1).const_mul ((2 : ℝ) ^ phaseCount S s0 bg)).const_sub 1
    simpa using this
  refine tendsto_of_tendsto_of_tendsto_of_le_of_le hlim tendsto_const_nhds
    (fun n => C135_stochastic hS hSne bs hbs hb bg order hord s0 hs hg hsites hocc hreach n) fun n => ?_
  show chance _ _ _ ≤ 1
  rw [← chance_true (m := bs.length) (k := S.siteIds.length * n) hq]
  exact chance_mono fun _ _ => trivial

theorem hopsBy_mono {R R' : ℕ → ℕ → Prop} {P : ℕ → Prop} (h : ∀ i j, P i → R i j → R' i j ∧ P j) : ∀ (k i j : ℕ), P i → HopsBy R k i j → HopsBy R' k i j := by
  intro k
  induction k with
  | zero => exact fun _ _ _ h => h
  | succ k ih =>
    rintro i j hi (h1 | ⟨x, hx, h1⟩)
    · exact .inl (ih i j hi h1)
    · exact .inr ⟨x, (h i x hi hx).1, ih x j (h i x hi hx).2 h1⟩

/-- If every unit step is in some motif, every site can be reached by possible moves. -/
theorem sometimes_hops {S : Structure K d} {N : Fin d → ℤ} (ht : IsTorus S N) {ms : List (List (Fin d → ℤ))}
    (hunit : ∀ q, (∃ offs ∈ ms, Pi.single q 1 ∈ offs) ∧ ∃ offs ∈ ms, Pi.single q (-1) ∈ offs) {i j : ℕ} (hi : i ∈ S.siteIds) (hj : j ∈ S.siteIds) :
    ∃ h, HopsBy (Sometimes S (motifBuilder ms : NbBuilder K d)) h i j := by
  obtain ⟨x, -, hx⟩ := ht.site i hi
  obtain ⟨y, -, hy⟩ := ht.site j hj
  refine ⟨(torusManhattan N x y).toNat, ?_⟩
  have h0 := unit_hops (K := K) ht (ms := [ms.flatten]) (by
    intro offs ho q
    rw [List.mem_singleton] at ho
    subst ho
    obtain ⟨⟨o1, h1, h2⟩, o2, h3, h4⟩ := hunit q
    exact ⟨List.mem_flatten.2 ⟨o1, h1, h2⟩, List.mem_flatten.2 ⟨o2, h3, h4⟩⟩) hx hy (m := (torusManhattan N x y).toNat) (Int.self_le_toNat _)
  refine hopsBy_mono (P := fun i => i ∈ S.siteIds) ?_ _ i j hi h0
  intro a b ha hab
  obtain ⟨p, -, hp⟩ := ht.site a ha
  obtain ⟨l, hl, hl'⟩ := (motif_answer (K := K) ht (ms := [ms.flatten]) hp).2 ms.flatten (by simp)
  have hbl := hab l hl
  obtain ⟨bw, hbw, rfl⟩ := List.mem_map.1 hbl
  have hbs := ((C116_known ht.reachable hl).1 bw hbw).1
  obtain ⟨r, -, hr⟩ := ht.site _ hbs
  obtain ⟨hne, v, hv, hdv⟩ := (hl' _ r hr).1 hbl
  obtain ⟨offs, ho, hvo⟩ := List.mem_flatten.1 hv
  obtain ⟨l2, hl2, hl2'⟩ := (motif_answer (K := K) ht (ms := ms) hp).2 offs ho
  exact ⟨⟨l2, hl2, (hl2' _ r hr).2 ⟨hne, v, hvo, hdv⟩⟩, hbs⟩

/-- C135 for random motifs on a grid: one occupied site is enough if every unit step is in some motif. -/
theorem motifs_fill {S : Structure K d} {N : Fin d → ℤ} (hS : SquareGrid d N S) (bs : List (Builder K d)) (ms : List (List (Fin d → ℤ))) (hms : ms ≠ [])
    (he : (motifBuilder ms : NbBuilder K d) = .stochastic (bs.map .one)) (hlen : bs.length = ms.length)
    (hunit : ∀ q, (∃ offs ∈ ms, Pi.single q 1 ∈ offs) ∧ ∃ offs ∈ ms, Pi.single q (-1) ∈ offs)
    (bg : Val) (order : ℕ → List ℕ → List ℕ) (hord : ∀ t l, (order t l).Perm l)
    (s0 : SimState) (hs : s0.WF) (hg : s0.getGeneralState ≠ none) (hsites : SameSites S s0) (hocc : AllOccupied s0) (hne : nuclei S s0 bg ≠ []) :
    (∀ n, 1 - 2 ^ phaseCount S s0 bg * (1 - 1 / (2 * (bs.length : ℝ))) ^ n ≤ chance bs.length (S.siteIds.length * n) fun f =>
      ∃ c c' res s, Growth.initNested order (fun t _ => outcome f t) S bg (.stochastic (bs.map .one)) = .ok c ∧
        runSync controller c s0 n = .ok (c', res) ∧ res.output = some s ∧ SameSites S s ∧
        ∀ i ∈ S.siteIds, ∃ v, occ? s (.int i) = some v ∧ v ≠ bg) ∧
    Filter.Tendsto (fun n => chance bs.length (S.siteIds.length * n) fun f =>
      ∃ c c' res s, Growth.initNested order (fun t _ => outcome f t) S bg (.stochastic (bs.map .one)) = .ok c ∧
        runSync controller c s0 n = .ok (c', res) ∧ res.output = some s ∧ SameSites S s ∧
        ∀ i ∈ S.siteIds, ∃ v, occ? s (.int i) = some v ∧ v ≠ bg) Filter.atTop (nhds 1) := by
  have ht := hS.isTorus
  obtain ⟨o1, -, -⟩ := motifBuilder_ok (K := K) ht hms
  rw [he] at o1
  have hb : ∀ b ∈ bs, ∃ g, b.get S none = .ok g := by
    intro b hb
    cases o1 with
    | stochastic _ h =>
      have := h (.one b) (List.mem_map.2 ⟨b, hb, rfl⟩)
      cases this with
      | one _ g hg => exact ⟨g, hg⟩
  have hbs : bs ≠ [] := by
    rintro rfl
    exact hms (List.length_eq_zero_iff.1 hlen.symm)
  have hreach : ∀ i ∈ S.siteIds, ∃ h, ∃ j ∈ nuclei S s0 bg, HopsBy (Sometimes S (.stochastic (bs.map .one))) h i j := by
    intro i hi
    obtain ⟨j, hj⟩ := List.exists_mem_of_ne_nil _ hne
    obtain ⟨h, hh⟩ := sometimes_hops (K := K) ht hunit hi (List.mem_filter.1 hj).1
    rw [he] at hh
    exact ⟨h, j, hj, hh⟩
  exact ⟨C135_stochastic ht.reachable ht.ids_ne bs hbs hb bg order hord s0 hs hg hsites hocc hreach,
    C135_limit ht.reachable ht.ids_ne bs hbs hb bg order hord s0 hs hg hsites hocc hreach⟩

/-- C135: with the pseudopentagonal neighbourhoods and one occupied site serial growth fills every 2D grid with probability tending to 1, although it may
stall (`C117_pentagonal_stalls`). -/
theorem C135_pentagonal {S : Structure K 2} {N : Fin 2 → ℤ} (hS : SquareGrid 2 N S) (bg : Val) (order : ℕ → List ℕ → List ℕ)
    (hord : ∀ t l, (order t l).Perm l) (s0 : SimState) (hs : s0.WF) (hg : s0.getGeneralState ≠ none) (hsites : SameSites S s0) (hocc : AllOccupied s0)
    (hne : nuclei S s0 bg ≠ []) :
    (∀ n, 1 - 2 ^ phaseCount S s0 bg * (7 / 8 : ℝ) ^ n ≤ chance 4 (S.siteIds.length * n) fun f =>
      ∃ c c' res s, Growth.initNested order (fun t _ => outcome f t) S bg (.stochastic (pseudoPent.map .one)) = .ok c ∧
        runSync controller c s0 n = .ok (c', res) ∧ res.output = some s ∧ SameSites S s ∧
        ∀ i ∈ S.siteIds, ∃ v, occ? s (.int i) = some v ∧ v ≠ bg) ∧
    Filter.Tendsto (fun n => chance 4 (S.siteIds.length * n) fun f =>
      ∃ c c' res s, Growth.initNested order (fun t _ => outcome f t) S bg (.stochastic (pseudoPent.map .one)) = .ok c ∧
        runSync controller c s0 n = .ok (c', res) ∧ res.output = some s ∧ SameSites S s ∧
        ∀ i ∈ S.siteIds, ∃ v, occ? s (.int i) = some v ∧ v ≠ bg) Filter.atTop (nhds 1) := by
  have h := motifs_fill hS pseudoPent pentOffs (by simp [pentOffs]) pentOffs_eq (by simp [pseudoPent, pentOffs]) (by decide) bg order hord s0 hs hg hsites hocc hne
  have hl : (pseudoPent : List (Builder K 2)).length = 4 := rfl
  rw [hl] at h
  refine ⟨fun n => ?_, h.2⟩
  have := h.1 n
  norm_num at this ⊢
  exact this

/-- C135: what is sure and what is possible after `k` serial steps with any builder, whatever is drawn. -/
theorem C135_between {S : Structure K d} (hS : S.Reachable) (b : NbBuilder K d) (hb : Buildable S b) (hk : KeysDiffer b) (hst : Stocked b) (bg : Val)
    (order : ℕ → List ℕ → List ℕ) (horder : ∀ t l, (order t l).Perm l) (draw : ℕ → ℕ → ℕ)
    (s0 : SimState) (hs : s0.WF) (hg : s0.getGeneralState ≠ none) (hne : S.siteIds ≠ []) (hsites : SameSites S s0) (hocc : AllOccupied s0) (n : ℕ) :
    ∃ c c' res, Growth.initNested order draw S bg b = .ok c ∧ runSync controller c s0 n = .ok (c', res) ∧
      ∀ k : ℕ, k ≤ n → ∃ s, res.getStep k = .ok s ∧ ∀ i ∈ S.siteIds,
        (occ? s (.int i) ≠ some bg → ∃ j ∈ nuclei S s0 bg, HopsBy (Sometimes S b) k i j) ∧
        ((∃ j ∈ nuclei S s0 bg, HopsBy (Always S b) k i j) → occ? s (.int i) ≠ some bg) := by
  obtain ⟨c, c', res, h1, h2, -, h3, h4⟩ := C117_serial hS b hb hk hst bg order horder draw s0 hs hg hne hsites hocc n
  refine ⟨c, c', res, h1, h2, fun k => ?_⟩
  induction k with
  | zero =>
    intro _
    refine ⟨s0, h3, fun i hi => ⟨fun h => ⟨i, List.mem_filter.2 ⟨hi, by simpa using h⟩, rfl⟩, ?_⟩⟩
    rintro ⟨j, hj, h⟩
    cases (h : i = j)
    simpa using (List.mem_filter.1 hj).2
  | succ k ih =>
    intro hkn
    obtain ⟨x, hx, hxs⟩ := ih (by omega)
    obtain ⟨x', y, hx', hy, hstep⟩ := h4 k (by omega)
    rw [hx] at hx'; injection hx' with e; subst e
    refine ⟨y, by exact_mod_cast hy, fun i hi => ?_⟩
    obtain ⟨l, v, v', hl, hv, hv', hG⟩ := hstep i hi
    have hknown : ∀ j ∈ l.map Prod.fst, j ∈ S.siteIds := fun j hj => by
      obtain ⟨jw, hjw, rfl⟩ := List.mem_map.1 hj
      exact ((C116_known hS hl).1 jw hjw).1
    constructor
    · intro h
      rw [hv'] at h
      rcases (growthStep_occ hG).1 (by simpa using h) with h' | ⟨j, hj, h'⟩
      · obtain ⟨j, hj, hh⟩ := (hxs i hi).1 (by rw [hv]; simpa using h')
        exact ⟨j, hj, .inl hh⟩
      · obtain ⟨j', hj', hh⟩ := (hxs j (hknown j hj)).1 h'
        exact ⟨j', hj', .inr ⟨j, ⟨l, hl, hj⟩, hh⟩⟩
    · rintro ⟨j, hj, hh | ⟨z, hz, hh⟩⟩
      · have h' := (hxs i hi).2 ⟨j, hj, hh⟩
        rw [hv'] 
        have := (growthStep_occ hG).2 (.inl (by rw [hv] at h'; simpa using h'))
        simpa using this
      · have hzl := hz l hl
        have h' := (hxs z (hknown z hzl)).2 ⟨j, hj, hh⟩
        rw [hv']
        have := (growthStep_occ hG).2 (.inr ⟨z, hzl, h'⟩)
        simpa using this

/-- C135: with the pseudohexagonal neighbourhoods of the 3D grid serial growth from at least one nucleus has surely filled the grid after half the sum of its three
side lengths. -/
theorem C135_hexagonal3 {S : Structure K 3} {N : Fin 3 → ℤ} (hS : SquareGrid 3 N S) (bg : Val) (order : ℕ → List ℕ → List ℕ)
    (hord : ∀ t l, (order t l).Perm l) (draw : ℕ → ℕ → ℕ) (s0 : SimState) (hs : s0.WF) (hg : s0.getGeneralState ≠ none) (hsites : SameSites S s0)
    (hocc : AllOccupied s0) (hne : nuclei S s0 bg ≠ []) (n : ℕ) :
    ∃ c c' res, Growth.initNested order draw S bg (.stochastic (pseudoHex3.map .one)) = .ok c ∧ runSync controller c s0 n = .ok (c', res) ∧
      ∀ k : ℕ, k ≤ n → N 0 / 2 + N 1 / 2 + N 2 / 2 ≤ k → ∃ s, res.getStep k = .ok s ∧ ∀ i ∈ S.siteIds, occ? s (.int i) ≠ some bg := by
  have ht := hS.isTorus
  obtain ⟨o1, o2, o3⟩ := motifBuilder_ok (K := K) ht (ms := hexOffs3) (by simp [hexOffs3])
  rw [← hexOffs3_eq]
  obtain ⟨c, c', res, h1, h2, h3⟩ := C135_between ht.reachable _ o1 o2 o3 bg order hord draw s0 hs hg ht.ids_ne hsites hocc n
  refine ⟨c, c', res, h1, h2, fun k hk hN => ?_⟩
  obtain ⟨s, hs, h⟩ := h3 k hk
  refine ⟨s, hs, fun i hi => ?_⟩
  obtain ⟨j, hj⟩ := List.exists_mem_of_ne_nil _ hne
  obtain ⟨x, -, hx⟩ := ht.site i hi
  obtain ⟨y, -, hy⟩ := ht.site j (List.mem_filter.1 hj).1
  refine (h i hi).2 ⟨j, hj, unit_hops ht (ms := hexOffs3) (by decide) hx hy ?_⟩
  simp only [torusManhattan, Fin.sum_univ_three]
  have h4 := circ_le_half (ht.pos 0) (x 0 - y 0) (k := N 0 / 2) (by omega)
  have h5 := circ_le_half (ht.pos 1) (x 1 - y 1) (k := N 1 / 2) (by omega)
  have h6 := circ_le_half (ht.pos 2) (x 2 - y 2) (k := N 2 / 2) (by omega)
  omega

/-! ### the hypotheses can be met -/

/-- A 5 × 4 grid with three occupied cells in a row and the dead cells as background. -/
example : ∃ (S : Structure ℚ 2) (s0 : SimState), SquareGrid 2 ![5, 4] S ∧ s0.WF ∧ s0.getGeneralState ≠ none ∧ SameSites S s0 ∧ AllOccupied s0 ∧
    nuclei S s0 (.str "dead") ≠ [] ∧ (∀ i ∈ S.siteIds, ∃ h, ∃ j ∈ nuclei S s0 (.str "dead"), HopsBy (Sometimes S (.stochastic (pseudoPent.map .one))) h i j) := by
  obtain ⟨-, S, hS, -⟩ := C52_square2 (K := ℚ) 1 (by norm_num) 4 5 (by norm_num) (by norm_num)
  have hg : SquareGrid 2 ![5, 4] S := .two _ S 5 4 (by norm_num) (by norm_num) (.inl rfl) hS
  obtain ⟨s0, h1, h2, h3, h4⟩ := life_state_exists hg.isTorus blinker
  have hocc : ∀ i c, SiteHas S i c → (c ∈ blinker → occ? s0 (.int i) = some (.str "alive")) ∧ (c ∉ blinker → occ? s0 (.int i) = some (.str "dead")) := by
    intro i c hi
    obtain ⟨p, e1, e2, e3⟩ := h4 i c hi
    unfold occ?
    rw [e1]
    exact ⟨e2, e3⟩
  have hne : nuclei S s0 (.str "dead") ≠ [] := by
    obtain ⟨i, hi, hc⟩ := hg.isTorus.ex ![1, 1] (by intro j; fin_cases j <;> simp)
    have := (hocc i _ hc).1 (by show ![1, 1] ∈ blinker; decide)
    intro hnil
    have hin : i ∈ nuclei S s0 (.str "dead") := List.mem_filter.2 ⟨hi, by rw [this]; decide⟩
    rw [hnil] at hin
    cases hin
  refine ⟨S, s0, hg, h1, h2, h3, ?_, hne, fun i hi => ?_⟩
  · intro k hk
    obtain ⟨i, hi, rfl⟩ := (h3 k).1 hk
    obtain ⟨c, -, hc⟩ := hg.isTorus.site i hi
    by_cases h : c ∈ blinker
    · exact ⟨_, (hocc i _ hc).1 h⟩
    · exact ⟨_, (hocc i _ hc).2 h⟩
  · obtain ⟨j, hj⟩ := List.exists_mem_of_ne_nil _ hne
    obtain ⟨h, hh⟩ := sometimes_hops (K := ℚ) hg.isTorus (ms := pentOffs) (by decide) hi (List.mem_filter.1 hj).1
    rw [pentOffs_eq] at hh
    exact ⟨h, j, hj, hh⟩

end Pyl
