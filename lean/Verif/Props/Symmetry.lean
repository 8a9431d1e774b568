import Verif.Spec.Symmetry
import Verif.Props.AsyncCone
import Verif.Props.Continue
/-
C148: runs on relabelled or folded sets of sites.
-/
set_option autoImplicit false

namespace Pyl
open SimState Spec
variable {σ τ : Type}

theorem held_set_id (d : Props) (v : Val) : held (Dict.set d SITE_ID v) = held d := by
  induction d with
  | nil => simp [Dict.set, held]
  | cons p d ih =>
    obtain ⟨k, w⟩ := p
    by_cases h : k = SITE_ID
    · subst h; simp [Dict.set, held]
    · simp only [held, ne_eq, decide_not] at ih
      simp [Dict.set, h, held, ih]

theorem held_set (d : Props) {k : Key} (hk : k ≠ SITE_ID) (v : Val) : held (Dict.set d k v) = Dict.set (held d) k v := by
  induction d with
  | nil => simp [Dict.set, held, hk]
  | cons p d ih =>
    obtain ⟨k', w⟩ := p
    simp only [held, ne_eq, decide_not] at ih
    by_cases h : k' = k
    · subst h; simp [Dict.set, held, hk]
    · by_cases h' : k' = SITE_ID
      · subst h'; simp [Dict.set, h, held, ih]
      · simp [Dict.set, h, h', held, ih]

theorem held_update (d u : Props) : held (Dict.update d u) = Dict.update (held d) (held u) := by
  induction u generalizing d with
  | nil => simp [held]
  | cons p u ih =>
    obtain ⟨k, v⟩ := p
    rw [Dict.update_cons, ih]
    by_cases h : k = SITE_ID
    · subst h
      rw [held_set_id]
      simp [held]
    · rw [held_set _ h]
      simp [held, h]

theorem held_map {a b : Option Props} (h : a.map held = b.map held) (p q : Option Props) : p.map held = q.map held →
    (a.map fun old => match p with | none => old | some u => Dict.update old u).map held =
      (b.map fun old => match q with | none => old | some u => Dict.update old u).map held := by
  intro hq
  cases a with
  | none => cases b with
    | none => rfl
    | some b => simp at h
  | some a => cases b with
    | none => simp at h
    | some b =>
      have hab : held a = held b := by simpa using h
      cases p with
      | none => cases q with
        | none => simpa using hab
        | some q => simp at hq
      | some p => cases q with
        | none => simp at hq
        | some q =>
          have : held p = held q := by simpa using hq
          simp [held_update, hab, this]

/-- C148: let the rule not distinguish site `i` from site `π i`.  If site `π i` of one initial state holds what site `i` of another one holds, this is
so at every step of two serial runs. -/
theorem C148_serial {π : Key → Key} {f : Key → SimState → Resp} (hf : SiteLocal f) (hw : RuleWF f) (hπ : Equivariant π f) {s0 t0 : SimState} (hs : s0.WF)
    (ht : t0.WF) (h0 : MovedBy π s0 t0) {n m : ℕ} {res res' : SimResult} (h : runSync (ofRule f) () s0 n = .ok ((), res))
    (h' : runSync (ofRule f) () t0 m = .ok ((), res')) (k : ℕ) (hk : k ≤ n) (hk' : k ≤ m) :
    ∃ a b, res.getStep k = .ok a ∧ res'.getStep k = .ok b ∧ MovedBy π a b := by
  obtain ⟨_, i0, h1⟩ := run_steps h
  obtain ⟨_, i0', h1'⟩ := run_steps h'
  induction k with
  | zero => exact ⟨s0, t0, i0, i0', h0⟩
  | succ k ih =>
    obtain ⟨a, b, ha, hb, hm⟩ := ih (by omega) (by omega)
    obtain ⟨x, y, u, g1, g2, g3, g4⟩ := h1 k (by omega)
    obtain ⟨x', y', u', g1', g2', g3', g4'⟩ := h1' k (by omega)
    obtain ⟨x1, e1, w1, -⟩ := run_wf hf hw hs h k (by omega)
    obtain ⟨x2, e2, w2, -⟩ := run_wf hf hw ht h' k (by omega)
    rw [g1] at ha e1; cases ha; cases e1
    rw [g1'] at hb e2; cases hb; cases e2
    obtain ⟨y1, f1, -, -, f2⟩ := run_wf hf hw hs h (k + 1) hk
    obtain ⟨y2, f3, -, -, f4⟩ := run_wf hf hw ht h' (k + 1) hk'
    rw [g2] at f1; cases f1
    rw [g2'] at f3; cases f3
    refine ⟨y, y', g2, g2', by rw [f4, f2]; exact h0.1, fun i => ?_⟩
    obtain ⟨p, p1, p2⟩ := step_exact hf hw w1 g3 g4 i
    obtain ⟨q, q1, q2⟩ := step_exact hf hw w2 g3' g4' (π i)
    obtain ⟨q', q3, q4⟩ := hπ _ _ hm i p p1
    rw [answers_unique q1 q3] at q2
    rw [p2, q2]
    exact held_map (hm.2 i) _ _ q4

/-- C148: if the first of the two runs returns, so does the second. -/
theorem C148_returns {π : Key → Key} {f : Key → SimState → Resp} (hf : SiteLocal f) (hw : RuleWF f) (hπ : Equivariant π f) {s0 t0 : SimState} (hs : s0.WF)
    (ht : t0.WF) (hg : s0.getGeneralState ≠ none) (h0 : MovedBy π s0 t0) {n : ℕ} {res : SimResult} (h : runSync (ofRule f) () s0 n = .ok ((), res)) :
    ∃ res', runSync (ofRule f) () t0 n = .ok ((), res') := by
  have hp : PreRunPure (ofRule f) := by intro _ _ _ _ h; injection h with h; injection h with h1 h2; exact h2.symm
  induction n generalizing res with
  | zero => exact ⟨_, rfl⟩
  | succ n ih =>
    obtain ⟨⟨⟩, res1, h1, -, h2⟩ := C120_prefix (ofRule f) hp () () s0 n 1 res h
    obtain ⟨res1', h1'⟩ := ih h1
    obtain ⟨a, b, ha, hb, hm⟩ := C148_serial hf hw hπ hs ht h0 h1 h1' n le_rfl le_rfl
    obtain ⟨a', e1, e2, -⟩ := C24_run f hf hw s0 hs hg n res1 h1
    rw [ha] at e1; cases e1
    obtain ⟨b', e3, -, e4⟩ := C24_run f hf hw t0 ht (by rw [h0.1]; exact hg) n res1' h1'
    rw [hb] at e3; cases e3
    apply e4
    by_contra hc
    have hall : ∀ i ∈ a.siteIds, f i a = .noUpdate := by
      intro i hi
      by_contra hne
      apply hc
      obtain ⟨p, hpa⟩ := hf i a
      obtain ⟨q, q1, q2⟩ := hπ _ _ hm i p hpa
      refine ⟨π i, ?_, fun e => ?_⟩
      · obtain ⟨old, hold⟩ := Option.isSome_iff_exists.1 (Dict.get?_isSome_iff.2 hi)
        have h5 := hm.2 i
        have hold' : a.getSiteState i = some old := hold
        rw [hold'] at h5
        cases hbi : b.getSiteState (π i) with
        | none => rw [hbi] at h5; simp at h5
        | some x => exact Dict.mem_keys_of_get? hbi
      · rw [e] at q1
        cases q1
        cases p with
        | none =>
          generalize hr : f i a = r at hpa hne
          cases hpa
          exact hne rfl
        | some p => simp at q2
    have := e2 hall (n + 1) (by omega)
    rw [h] at this
    cases this

/-- C148: symmetric patterns stay symmetric. -/
theorem C148_symmetric {π : Key → Key} {f : Key → SimState → Resp} (hf : SiteLocal f) (hw : RuleWF f) (hπ : Equivariant π f) {s0 : SimState} (hs : s0.WF)
    (h0 : MovedBy π s0 s0) {n : ℕ} {res : SimResult} (h : runSync (ofRule f) () s0 n = .ok ((), res)) (k : ℕ) (hk : k ≤ n) :
    ∃ a, res.getStep k = .ok a ∧ MovedBy π a a := by
  obtain ⟨a, b, h1, h2, h3⟩ := C148_serial hf hw hπ hs hs h0 h h k hk hk
  rw [h1] at h2; cases h2
  exact ⟨a, h1, h3⟩

/-- C148: the same for asynchronous runs if different sites stay different, when the second run visits the site `π i` whenever the first one visits `i`. -/
theorem C148_async {π : Key → Key} (hinj : Function.Injective π) {f : Key → SimState → Resp} (hf : SiteLocal f) (hπ : Equivariant π f)
    {c : Controller σ} {c' : Controller τ} (hc : FollowsRule c f) (hc' : FollowsRule c' f) (hp : PreRunPure c) (hp' : PreRunPure c') {st : σ} {st' : τ}
    {s0 t0 : SimState} (h0 : MovedBy π s0 t0) {n m : ℕ} {a : AsyncSt σ} {b : AsyncSt τ} (h : runAsync c st s0 n = .ok a)
    (h' : runAsync c' st' t0 m = .ok b) (hk : ∀ i ∈ a.trace, i ∈ s0.siteIds) (htr : b.trace = a.trace.map π) (k : ℕ) (hkl : k ≤ a.trace.length) :
    ∃ x y, a.res.getStep k = .ok x ∧ b.res.getStep k = .ok y ∧ MovedBy π x y := by
  obtain ⟨-, -, h1⟩ := runAsync_visits hf hc hp h
  obtain ⟨-, -, h2⟩ := runAsync_visits hf hc' hp' h'
  refine ⟨_, _, h1 k hkl, h2 k (by rw [htr]; simpa using hkl), ?_⟩
  rw [htr, ← List.map_take]
  have hk' : ∀ i ∈ a.trace.take k, i ∈ s0.siteIds := fun i hi => hk i (List.mem_of_mem_take hi)
  generalize a.trace.take k = l at hk'
  clear h h' h1 h2 htr hkl hk
  have here : ∀ {s : SimState} {i : Key}, i ∈ s.siteIds → (visitTo hf s i).getSiteState i = (s.getSiteState i).map fun old =>
      match answerOf hf i s with | none => old | some u => Dict.update old u := by
    intro s i hi
    obtain ⟨old, hold⟩ := Option.isSome_iff_exists.1 (Dict.get?_isSome_iff.2 hi)
    have hold' : s.getSiteState i = some old := hold
    unfold visitTo
    rw [hold']
    cases answerOf hf i s with
    | none => simpa using hold'
    | some q =>
      simp only [getSiteState, Option.map_some]
      rw [get?_setSiteState, if_pos rfl]
      simp [oldOf, hold]
  induction l generalizing s0 t0 with
  | nil => exact h0
  | cons i l ih =>
    have hi : i ∈ s0.siteIds := hk' i (by simp)
    have hi' : π i ∈ t0.siteIds := by
      obtain ⟨old, hold⟩ := Option.isSome_iff_exists.1 (Dict.get?_isSome_iff.2 hi)
      have h5 := h0.2 i
      have hold' : s0.getSiteState i = some old := hold
      rw [hold'] at h5
      cases hbi : t0.getSiteState (π i) with
      | none => rw [hbi] at h5; simp at h5
      | some x => exact Dict.mem_keys_of_get? hbi
    rw [List.map_cons, List.foldl_cons, List.foldl_cons]
    refine ih ⟨by rw [visitTo_general, visitTo_general]; exact h0.1, fun j => ?_⟩ fun j hj => by
      rw [visitTo_ids hf hi]; exact hk' j (by simp [hj])
    by_cases e : j = i
    · subst e
      obtain ⟨q, q1, q2⟩ := hπ _ _ h0 j _ (answerOf_spec hf j s0)
      rw [here hi, here hi', answers_unique (answerOf_spec hf (π j) t0) q1]
      exact held_map (h0.2 j) _ _ q2
    · rw [visitTo_other hf _ e, visitTo_other hf _ fun e' => e (hinj e')]
      exact h0.2 j

/-! ### an example: a ring of six cells folded onto a ring of three -/

/-- The site to the left: sites 0, ..., 5 form a ring, and so do sites 10, 11, 12. -/
def ringLeft : Key → Key
  | .int n => if 0 ≤ n ∧ n < 6 then .int ((n + 5) % 6) else if 10 ≤ n ∧ n < 13 then .int (10 + (n + 1) % 3) else .int n
  | k => k

/-- Take over the value to the left. -/
def ringRule (i : Key) (s : SimState) : Resp :=
  .dict [(.str "on", if (s.getSiteState (ringLeft i)).map held = some [(.str "on", .num 1)] then .num 1 else .num 0)]

theorem ring_local : SiteLocal ringRule := fun _ _ => ⟨_, .patch _ (shift_patch _)⟩

theorem ring_wf : RuleWF ringRule := by
  intro i s
  refine .dict (by simp [Dict.WF]) ?_
  simp only [List.mem_singleton, forall_eq]
  split_ifs <;> exact .num _

theorem ring_equivariant {π : Key → Key} (h : ∀ i, π (ringLeft i) = ringLeft (π i)) : Equivariant π ringRule := by
  intro s t hm i p hp
  have he : ringRule (π i) t = ringRule i s := by
    unfold ringRule
    rw [← h i, hm.2 (ringLeft i)]
  have hq : Answers (π i) (ringRule i s) p := by
    unfold ringRule at hp ⊢
    have := answers_unique hp (.patch _ (shift_patch _))
    subst this
    exact .patch _ (shift_patch _)
  exact ⟨p, by rw [he]; exact hq, rfl⟩

/-- The ring of six, wound around the ring of three twice. -/
def wind : Key → Key
  | .int n => if 0 ≤ n ∧ n < 6 then .int (10 + n % 3) else .int n
  | k => k

theorem wind_left (i : Key) : wind (ringLeft i) = ringLeft (wind i) := by
  cases i with
  | int n =>
    by_cases h : 0 ≤ n ∧ n < 6
    · have h1 : 0 ≤ (n + 5) % 6 ∧ (n + 5) % 6 < 6 := by omega
      have h2 : ¬ (0 ≤ 10 + n % 3 ∧ 10 + n % 3 < 6) := by omega
      have h3 : 10 ≤ 10 + n % 3 ∧ 10 + n % 3 < 13 := by omega
      simp only [ringLeft, wind, if_pos h, if_pos h1, if_neg h2, if_pos h3]
      congr 1
      omega
    · by_cases h' : 10 ≤ n ∧ n < 13
      · have h1 : ¬ (0 ≤ 10 + (n + 1) % 3 ∧ 10 + (n + 1) % 3 < 6) := by omega
        simp only [ringLeft, wind, if_neg h, if_pos h', if_neg h1]
      · simp only [ringLeft, wind, if_neg h, if_neg h']
  | _ => rfl

def cellsOf (l : List (Int × Rat)) : SimState := ⟨l.map fun x => (.int x.1, [(SITE_ID, .num x.1), (.str "on", .num x.2)]), some []⟩

def ringSix : SimState := cellsOf [(0, 1), (1, 0), (2, 0), (3, 1), (4, 0), (5, 0), (10, 1), (11, 0), (12, 0)]
def ringThree : SimState := cellsOf [(10, 1), (11, 0), (12, 0)]

theorem cellsOf_wf {l : List (Int × Rat)} (h : (l.map Prod.fst).Nodup) : (cellsOf l).WF := by
  refine ⟨?_, ?_, ?_⟩
  · have : Dict.keys (cellsOf l).sites = (l.map Prod.fst).map Key.int := by simp [cellsOf, Dict.keys]
    show (Dict.keys _).Nodup
    rw [this]
    exact (List.nodup_map_iff (fun a b e => by injection e)).2 h
  · intro kv hkv
    obtain ⟨x, -, rfl⟩ := List.mem_map.1 hkv
    refine .dict (by simp [Dict.WF, SITE_ID]) ?_
    intro kv hkv
    simp only [List.mem_cons, List.not_mem_nil, or_false] at hkv
    rcases hkv with rfl | rfl <;> exact .num _
  · intro g hg
    cases hg
    exact .dict Dict.WF.nil (by simp)

theorem wind_moved : MovedBy wind ringSix ringThree := by
  refine ⟨rfl, fun i => ?_⟩
  by_cases hi : i ∈ ringSix.siteIds
  · simp only [ringSix, cellsOf, siteIds, Dict.keys, List.map_cons, List.map_nil, List.mem_cons, List.not_mem_nil, or_false] at hi
    rcases hi with rfl | rfl | rfl | rfl | rfl | rfl | rfl | rfl | rfl <;> decide +kernel
  · have h1 : ringSix.getSiteState i = none := Dict.get?_eq_none_iff.2 hi
    have h2 : ringThree.getSiteState (wind i) = none := by
      refine Dict.get?_eq_none_iff.2 fun hc => hi ?_
      have hc' : wind i ∈ [Key.int 10, .int 11, .int 12] := hc
      have goal : i ∈ [Key.int 0, .int 1, .int 2, .int 3, .int 4, .int 5, .int 10, .int 11, .int 12] := by
        cases i with
        | int n =>
          simp only [wind] at hc'
          split_ifs at hc' with h
          · simp only [List.mem_cons, Key.int.injEq, List.not_mem_nil, or_false]; omega
          · simp only [List.mem_cons, Key.int.injEq, List.not_mem_nil, or_false] at hc' ⊢; omega
        | _ => simp [wind] at hc'
      exact goal
    rw [h1, h2]

/-- `C148_serial` and `C148_returns` for these rings. -/
example (n : ℕ) (res : SimResult) (h : runSync (ofRule ringRule) () ringSix n = .ok ((), res)) : ∃ res', runSync (ofRule ringRule) () ringThree n = .ok ((), res') ∧
    ∀ k : ℕ, k ≤ n → ∃ a b, res.getStep k = .ok a ∧ res'.getStep k = .ok b ∧ MovedBy wind a b := by
  have w1 : ringSix.WF := cellsOf_wf (by decide)
  have w2 : ringThree.WF := cellsOf_wf (by decide)
  have he := ring_equivariant wind_left
  obtain ⟨res', h'⟩ := C148_returns ring_local ring_wf he w1 w2 (by simp [ringSix, cellsOf, getGeneralState]) wind_moved h
  exact ⟨res', h', fun k hk => C148_serial ring_local ring_wf he w1 w2 wind_moved h h' k hk hk⟩

/-- The first of these runs returns, and the pattern moves. -/
example : (runSync (ofRule ringRule) () ringSix 4).toOption.map (fun x => x.2.getStep 4) =
    some (.ok (cellsOf [(0, 0), (1, 1), (2, 0), (3, 0), (4, 1), (5, 0), (10, 0), (11, 1), (12, 0)])) := by
  decide +kernel

end Pyl
