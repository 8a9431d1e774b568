import Verif.Spec.Result
import Verif.Lemmas.Replay
import Mathlib.Algebra.Order.Group.Int
import Mathlib.Tactic.Ring
/-
C30, C31, C32, C34: reading recorded results.
-/
set_option autoImplicit false

namespace Pyl
open SimState Spec
namespace SimResult

theorem stepState_eq (s : SimState) (ds : List (Option Props)) (k : Nat) (hk : k ≤ ds.length) :
    stepState s ds k = replayTo s ds k := by
  rw [replayTo_eq_replay_take s ds k hk]
  unfold stepState
  generalize ds.take k = l
  induction l generalizing s with
  | nil => rfl
  | cons d l ih =>
    rw [List.foldlM_cons, replay_cons]
    cases s.batchUpdateO d with
    | error e => rfl
    | ok s' => exact ih s'

/-- Stored states are correct and their numbers in range. -/
def StoredOk (r : SimResult) : Prop :=
  ∀ k s, Dict.get? r.stored k = some s → 0 ≤ k ∧ k ≤ r.diffs.length ∧ replayTo r.initial r.diffs k.toNat = .ok s

theorem replayTo_succ_of {s sk : SimState} {pre ds : List (Option Props)} {d : Option Props}
    (h : replayTo s (pre ++ d :: ds) pre.length = .ok sk) :
    replayTo s (pre ++ d :: ds) (pre.length + 1) = sk.batchUpdateO d := by
  rw [replayTo_append _ _ _ _ le_rfl, replayTo_length] at h
  have : pre ++ d :: ds = (pre ++ [d]) ++ ds := by simp
  rw [this, replayTo_append _ _ _ _ (by simp)]
  have : pre.length + 1 = (pre ++ [d]).length := by simp
  rw [this, replayTo_length, replay_snoc h]

/-- The loop of `load_steps`: old entries stay, new entries are correct. -/
theorem loadLoopEff_stored (m : Int) (s0 : SimState) (pre ds : List (Option Props)) (live : SimState)
    (hlive : replayTo s0 (pre ++ ds) pre.length = .ok live) (stored : Dict Int SimState) (k : Int) (s : SimState)
    (h : Dict.get? (loadLoopEff m pre.length live ds stored).1 k = some s) :
    Dict.get? stored k = some s ∨
      (0 ≤ k ∧ k ≤ (pre ++ ds).length ∧ replayTo s0 (pre ++ ds) k.toNat = .ok s) := by
  induction ds generalizing pre live stored with
  | nil => left; simpa [loadLoopEff] using h
  | cons d ds ih =>
    unfold loadLoopEff at h
    cases hb : live.batchUpdateO d with
    | error e => rw [hb] at h; left; exact h
    | ok live' =>
      rw [hb] at h
      simp only at h
      split_ifs at h with h0 hst
      · left; exact h
      · have h1 : replayTo s0 ((pre ++ [d]) ++ ds) (pre ++ [d]).length = .ok live' := by
          have := replayTo_succ_of hlive
          rw [hb] at this
          simpa using this
        have := ih (pre ++ [d]) live' h1 _ (by simpa using h)
        rcases this with h2 | h2
        · rw [Dict.get?_set] at h2
          split_ifs at h2 with hk
          · right
            injection h2 with h2
            subst h2 hk
            refine ⟨by omega, by simp, ?_⟩
            have e : ((pre.length : Int) + 1).toNat = pre.length + 1 := by omega
            rw [e]
            simpa [copy] using h1
          · exact Or.inl h2
        · right; simpa using h2
      · have h1 : replayTo s0 ((pre ++ [d]) ++ ds) (pre ++ [d]).length = .ok live' := by
          have := replayTo_succ_of hlive
          rw [hb] at this
          simpa using this
        have := ih (pre ++ [d]) live' h1 _ (by simpa using h)
        simpa using this

theorem StoredOk.effect {r : SimResult} (h : StoredOk r) (o : ROp) : StoredOk (o.effect r) := by
  cases o with
  | add d =>
    intro k s hk
    obtain ⟨h1, h2, h3⟩ := h k s hk
    refine ⟨h1, by simp [ROp.effect, addStep]; omega, ?_⟩
    simp only [ROp.effect, addStep]
    rw [replayTo_append _ _ _ _ (by omega)]; exact h3
  | load m =>
    intro k s hk
    have := loadLoopEff_stored m r.initial [] r.diffs r.initial (by simp)
      (Dict.set r.stored 0 r.initial) k s (by simpa [ROp.effect, loadStepsEff, copy] using hk)
    rcases this with h1 | h1
    · rw [Dict.get?_set] at h1
      split_ifs at h1 with h0
      · injection h1 with h1
        subst h1 h0
        exact ⟨le_rfl, by simp [ROp.effect, loadStepsEff], by simp [ROp.effect, loadStepsEff]⟩
      · exact h k s h1
    · simpa [ROp.effect, loadStepsEff] using h1
  | get k => exact h
  | iterate => exact h
  | output s => exact h

theorem storedOk_foldl (ops : List ROp) (r : SimResult) (h : StoredOk r) : StoredOk (ops.foldl ROp.effect r) := by
  induction ops generalizing r with
  | nil => exact h
  | cons o ops ih => exact ih _ (h.effect o)

theorem foldl_initial_diffs (ops : List ROp) (r : SimResult) :
    (ops.foldl ROp.effect r).initial = r.initial ∧ (ops.foldl ROp.effect r).diffs = r.diffs ++ added ops := by
  induction ops generalizing r with
  | nil => simp [added]
  | cons o ops ih =>
    obtain ⟨h1, h2⟩ := ih (o.effect r)
    rw [List.foldl_cons, h1, h2]
    cases o <;> simp [ROp.effect, addStep, loadStepsEff, setOutput, added]

theorem storedOk_after (s0 : SimState) (ops : List ROp) : StoredOk (resultAfter s0 ops) :=
  storedOk_foldl ops _ (by intro k s h; simp [new] at h)

theorem after_initial (s0 : SimState) (ops : List ROp) : (resultAfter s0 ops).initial = s0 :=
  (foldl_initial_diffs ops _).1

theorem after_diffs (s0 : SimState) (ops : List ROp) : (resultAfter s0 ops).diffs = added ops := by
  exact ((foldl_initial_diffs ops (new s0)).2).trans (by simp [new])

/-- C30: after any history of calls (including ones that raised), `get_step(k)` for `0 ≤ k < len` is the initial state
with the first `k` added diffs applied; in particular it does not depend on what was loaded or read before. -/
theorem C30_get_step (s0 : SimState) (ops : List ROp) (k : Nat) (hk : k < (resultAfter s0 ops).len) :
    (resultAfter s0 ops).getStep k = stepState s0 (added ops) k := by
  have hd := after_diffs s0 ops
  have hi := after_initial s0 ops
  simp only [len, hd] at hk
  rw [stepState_eq _ _ _ (by omega)]
  unfold getStep
  cases hs : Dict.get? (resultAfter s0 ops).stored (k : Int) with
  | none => simp [hd, hi, copy]
  | some s =>
    have := (storedOk_after s0 ops _ s hs).2.2
    simp only [hd, hi] at this
    simpa using this.symm

/-- C30: the length is one more than the number of added steps. -/
theorem C30_len (s0 : SimState) (ops : List ROp) : (resultAfter s0 ops).len = (added ops).length + 1 := by
  simp [len, after_diffs]

/-- C30: `first_step` is the initial state and `last_step` has all diffs applied. -/
theorem C30_first_last (s0 : SimState) (ops : List ROp) :
    (resultAfter s0 ops).firstStep = .ok s0 ∧
    (resultAfter s0 ops).lastStep = stepState s0 (added ops) (added ops).length := by
  constructor
  · have := C30_get_step s0 ops 0 (by simp [len])
    simpa [firstStep, stepState, pure, Except.pure] using this
  · have := C30_get_step s0 ops (added ops).length (by simp [C30_len])
    unfold lastStep
    rw [C30_len]
    have e : (((added ops).length + 1 : Nat) : Int) - 1 = ((added ops).length : Nat) := by push_cast; ring
    rw [e]; exact this

/-- A history with loads at different intervals, reads, and steps added afterwards: the hypotheses are met and the loads
really store something. -/
example : let r := resultAfter ⟨[(.int 0, [(.str "a", .num 0)])], some []⟩ [.add (some [(.int 0, .dict [(.str "a", .num 1)])]), .add (some [(.int 0, .dict [(.str "b", .num 2)])]),
       .load 2, .get 1, .add (some [(.int 1, .dict [])]), .load 1, .load 0, .add none]
    r.len = 5 ∧ Dict.keys r.stored = [0, 2, 1, 3] ∧ (r.getStep 3).toOption.isSome ∧ (r.getStep 4).toOption.isSome = false := by
  decide

/-! ### C31 -/

theorem replayTo_past_error (s : SimState) (ds : List (Option Props)) (k : Nat) (hk : ds.length < k) :
    ∃ e, replayTo s ds k = .error e := by
  induction ds generalizing s k with
  | nil =>
    cases k with
    | zero => simp at hk
    | succ k => exact ⟨_, rfl⟩
  | cons d ds ih =>
    cases k with
    | zero => simp at hk
    | succ k =>
      rw [replayTo_cons]
      cases s.batchUpdateO d with
      | error e => exact ⟨e, rfl⟩
      | ok s' => exact ih s' k (by simpa using hk)

/-- C31 (partial): step numbers `≥ len` are rejected after any history.  Missing: negative numbers, which are accepted
(`C31_false`, `C31_negative`). -/
theorem C31_too_large_partial (s0 : SimState) (ops : List ROp) (k : Int) (hk : (resultAfter s0 ops).len ≤ k) :
    ∃ e, (resultAfter s0 ops).getStep k = .error e := by
  have hd := after_diffs s0 ops
  have hs : Dict.get? (resultAfter s0 ops).stored k = none := by
    cases h : Dict.get? (resultAfter s0 ops).stored k with
    | none => rfl
    | some s =>
      have := (storedOk_after s0 ops _ s h).2.1
      simp only [len] at hk
      omega
  simp only [getStep, hs]
  refine replayTo_past_error _ _ _ ?_
  simp only [len] at hk
  omega

/-- C31: with an applicable history the exception is IndexError. -/
theorem C31_index_error (s0 s1 : SimState) (ops : List ROp) (h : stepState s0 (added ops) (added ops).length = .ok s1)
    (k : Int) (hk : (resultAfter s0 ops).len ≤ k) : (resultAfter s0 ops).getStep k = .error .indexError := by
  have hd := after_diffs s0 ops
  have hi := after_initial s0 ops
  have hs : Dict.get? (resultAfter s0 ops).stored k = none := by
    cases h : Dict.get? (resultAfter s0 ops).stored k with
    | none => rfl
    | some s =>
      have := (storedOk_after s0 ops _ s h).2.1
      simp only [len] at hk
      omega
  simp only [getStep, hs]
  rw [stepState_eq _ _ _ le_rfl, replayTo_length] at h
  refine replayTo_past (s1 := s1) ?_ _ ?_
  · rw [hd, hi]; exact h
  · simp only [len] at hk; omega

/-- C31: what negative numbers do: they silently give the initial state. -/
theorem C31_negative (s0 : SimState) (ops : List ROp) (k : Int) (hk : k < 0) :
    (resultAfter s0 ops).getStep k = .ok s0 := by
  have hs : Dict.get? (resultAfter s0 ops).stored k = none := by
    cases h : Dict.get? (resultAfter s0 ops).stored k with
    | none => rfl
    | some s => exact absurd (storedOk_after s0 ops _ s h).1 (by omega)
  have : k.toNat = 0 := by omega
  simp [getStep, hs, this, after_initial, copy]

/-- C31 is false as stated. -/
theorem C31_false : ¬ ∀ (s0 : SimState) (ops : List ROp) (k : Int),
    (k < 0 ∨ (resultAfter s0 ops).len ≤ k) → ∃ e, (resultAfter s0 ops).getStep k = .error e := by
  intro h
  obtain ⟨e, he⟩ := h .empty [] (-1) (Or.inl (by omega))
  rw [C31_negative _ _ _ (by omega)] at he
  cases he

/-! ### C32 -/

theorem stepsFrom_ok {s s1 : SimState} {ds : List (Option Props)} (h : replay s ds = .ok s1) :
    ∃ l, stepsFrom s ds = .ok l ∧ l.length = ds.length ∧
      ∀ k, k < ds.length → ∃ sk, l[k]? = some sk ∧ replayTo s ds k = .ok sk := by
  induction ds generalizing s with
  | nil => exact ⟨[], rfl, rfl, by simp⟩
  | cons d ds ih =>
    rw [replay_cons] at h
    obtain ⟨s2, h1, h2⟩ := bind_ok h
    obtain ⟨l, h3, h4, h5⟩ := ih h2
    refine ⟨s :: l, ?_, by simp [h4], fun k hk => ?_⟩
    · simp only [stepsFrom, h1, ok_bind, h3]; rfl
    · cases k with
      | zero => exact ⟨s, rfl, by simp⟩
      | succ k =>
        obtain ⟨sk, h6, h7⟩ := h5 k (by simpa using hk)
        exact ⟨sk, by simpa using h6, by rw [replayTo_cons, h1, ok_bind]; exact h7⟩

/-- C32 (partial): `steps()` yields the states of step 0, 1, …, len − 2, in order (the values at the time they are
yielded).  Missing: the last step, which is never yielded (`C32_false`). -/
theorem C32_steps_partial (s0 s1 : SimState) (ops : List ROp)
    (h : stepState s0 (added ops) (added ops).length = .ok s1) :
    ∃ l, (resultAfter s0 ops).steps = .ok l ∧ l.length + 1 = (resultAfter s0 ops).len ∧
      ∀ k, k < l.length → ∃ sk, l[k]? = some sk ∧ (resultAfter s0 ops).getStep k = .ok sk := by
  rw [stepState_eq _ _ _ le_rfl, replayTo_length] at h
  obtain ⟨l, h1, h2, h3⟩ := stepsFrom_ok h
  refine ⟨l, ?_, by rw [C30_len, h2], fun k hk => ?_⟩
  · simp only [steps, after_initial, after_diffs, copy]; exact h1
  · obtain ⟨sk, h4, h5⟩ := h3 k (by omega)
    refine ⟨sk, h4, ?_⟩
    rw [C30_get_step s0 ops k (by rw [C30_len]; omega), stepState_eq _ _ _ (by omega)]
    exact h5

/-- C32 is false as stated: a result with one step has two states but yields one, and a fresh result yields none. -/
theorem C32_false : ∃ (s0 s1 : SimState) (ops : List ROp) (l : List SimState),
    stepState s0 (added ops) (added ops).length = .ok s1 ∧ (resultAfter s0 ops).steps = .ok l ∧
    l.length ≠ (resultAfter s0 ops).len ∧ s1 ∉ l :=
  ⟨⟨[(.int 0, [])], some []⟩, ⟨[(.int 0, [(.str "a", .num 1)])], some []⟩,
    [.add (some [(.int 0, .dict [(.str "a", .num 1)])])], [⟨[(.int 0, [])], some []⟩], rfl, rfl, by decide, by decide⟩

/-! ### C34 -/

theorem loadLoop_eff (m : Int) (i : Nat) (live : SimState) (ds : List (Option Props)) (stored : Dict Int SimState) :
    loadLoop m i live ds stored = match loadLoopEff m i live ds stored with
      | (st, none) => .ok st
      | (_, some e) => .error e := by
  induction ds generalizing i live stored with
  | nil => rfl
  | cons d ds ih =>
    unfold loadLoop loadLoopEff
    cases hb : live.batchUpdateO d with
    | error e => rfl
    | ok live' =>
      simp only [ok_bind]
      split_ifs
      · rfl
      · exact ih _ _ _
      · exact ih _ _ _

theorem loadLoop_keys (m : Int) (hm : 1 ≤ m) (i : Nat) (live : SimState) (ds : List (Option Props))
    (stored st : Dict Int SimState) (h : loadLoop m i live ds stored = .ok st) (k : Int) :
    k ∈ Dict.keys st ↔ k ∈ Dict.keys stored ∨ (i < k ∧ k ≤ i + ds.length ∧ m ∣ k) := by
  induction ds generalizing i live stored with
  | nil =>
    simp [loadLoop] at h
    subst h
    simp only [List.length_nil]
    constructor
    · exact Or.inl
    · rintro (h | h)
      · exact h
      · omega
  | cons d ds ih =>
    unfold loadLoop at h
    obtain ⟨live', h1, h2⟩ := bind_ok h
    simp only at h2
    rw [if_neg (by omega)] at h2
    rw [ih _ _ _ h2]
    have hnat : ((i + 1 : Nat) : Int) = (i : Int) + 1 := by push_cast; ring
    have hl : ((d :: ds).length : Int) = ds.length + 1 := by simp
    rw [hnat, hl]
    by_cases hk : k = (i : Int) + 1
    · subst hk
      by_cases hd : m ∣ (i : Int) + 1
      · constructor
        · intro _; right; exact ⟨by omega, by omega, hd⟩
        · intro _
          left
          split_ifs with hc
          · exact Dict.mem_keys_set.2 (Or.inl rfl)
          · have : ¬ Dict.get? stored ((i : Int) + 1) = none := fun hn =>
              hc ⟨Int.emod_eq_zero_of_dvd hd, hn⟩
            rw [Dict.get?_eq_none_iff] at this
            exact not_not.1 this
      · have hc : ¬ (((i : Int) + 1) % m = 0 ∧ Dict.get? stored ((i : Int) + 1) = none) := fun h =>
          hd (Int.dvd_of_emod_eq_zero h.1)
        rw [if_neg hc]
        constructor
        · rintro (h | h)
          · exact Or.inl h
          · exact absurd h.1 (by omega)
        · rintro (h | h)
          · exact Or.inl h
          · exact absurd h.2.2 hd
    · have : k ∈ Dict.keys (if ((i : Int) + 1) % m = 0 ∧ Dict.get? stored ((i : Int) + 1) = none
          then Dict.set stored ((i : Int) + 1) live'.copy else stored) ↔ k ∈ Dict.keys stored := by
        split_ifs
        · rw [Dict.mem_keys_set]; tauto
        · rfl
      rw [this]
      constructor
      · rintro (h | h)
        · exact Or.inl h
        · exact Or.inr ⟨by omega, by omega, h.2.2⟩
      · rintro (h | h)
        · exact Or.inl h
        · exact Or.inr ⟨by omega, by omega, h.2.2⟩

/-- C34: after `load_steps(m)` on a result with nothing stored, the stored step numbers are exactly the multiples of `m`
in `0 .. len − 1`. -/
theorem C34_loaded (r r' : SimResult) (hr : r.stored = []) (m : Int) (hm : 1 ≤ m) (h : r.loadSteps m = .ok r') (k : Int) :
    k ∈ Dict.keys r'.stored ↔ 0 ≤ k ∧ k < r.len ∧ m ∣ k := by
  unfold loadSteps at h
  obtain ⟨st, h1, h2⟩ := bind_ok h
  simp only [pure, Except.pure, Except.ok.injEq] at h2
  subst h2
  simp only
  rw [loadLoop_keys m hm 0 _ _ _ _ h1]
  simp only [hr, Dict.set, Dict.keys_cons, Dict.keys_nil, List.mem_singleton, len]
  constructor
  · rintro (rfl | h)
    · exact ⟨le_rfl, by omega, dvd_zero m⟩
    · refine ⟨by omega, ?_, h.2.2⟩
      have := h.2.1; push_cast at *; omega
  · rintro ⟨h1, h2, h3⟩
    by_cases h0 : k = 0
    · exact Or.inl h0
    · right; push_cast at *; exact ⟨by omega, by omega, h3⟩

/-- C34: loading twice stores the union. -/
theorem C34_loaded_again (r r' : SimResult) (m : Int) (hm : 1 ≤ m) (h : r.loadSteps m = .ok r') (k : Int) :
    k ∈ Dict.keys r'.stored ↔ k ∈ Dict.keys r.stored ∨ (0 ≤ k ∧ k < r.len ∧ m ∣ k) := by
  unfold loadSteps at h
  obtain ⟨st, h1, h2⟩ := bind_ok h
  simp only [pure, Except.pure, Except.ok.injEq] at h2
  subst h2
  simp only
  rw [loadLoop_keys m hm 0 _ _ _ _ h1, Dict.mem_keys_set]
  simp only [len]
  constructor
  · rintro ((rfl | h) | h)
    · right; exact ⟨le_rfl, by omega, dvd_zero m⟩
    · exact Or.inl h
    · right
      refine ⟨by omega, ?_, h.2.2⟩
      have := h.2.1; push_cast at *; omega
  · rintro (h | ⟨h1, h2, h3⟩)
    · exact Or.inl (Or.inr h)
    · by_cases h0 : k = 0
      · exact Or.inl (Or.inl h0)
      · right; push_cast at *; exact ⟨by omega, by omega, h3⟩

/-- C34: loading succeeds whenever the diffs can be applied, and `load_steps(0)` raises on every result with a step. -/
theorem C34_succeeds (r : SimResult) (s1 : SimState) (h : replay r.initial r.diffs = .ok s1) (m : Int) (hm : m ≠ 0) :
    ∃ r', r.loadSteps m = .ok r' := by
  have key : ∀ (ds : List (Option Props)) (i : Nat) (live s1 : SimState) (stored : Dict Int SimState),
      replay live ds = .ok s1 → ∃ st, loadLoop m i live ds stored = .ok st := by
    intro ds
    induction ds with
    | nil => intro i live s1 stored _; exact ⟨_, rfl⟩
    | cons d ds ih =>
      intro i live s1 stored h
      rw [replay_cons] at h
      obtain ⟨s2, h1, h2⟩ := bind_ok h
      unfold loadLoop
      rw [h1, ok_bind]
      simp only [if_neg hm]
      exact ih _ _ _ _ h2
  obtain ⟨st, hst⟩ := key r.diffs 0 r.initial s1 (Dict.set r.stored 0 r.initial) h
  exact ⟨{ r with stored := st }, by simp only [loadSteps, copy]; rw [hst]; rfl⟩

theorem C34_zero_interval (r : SimResult) (h : r.diffs ≠ []) : ∃ e, r.loadSteps 0 = .error e := by
  unfold loadSteps
  cases hd : r.diffs with
  | nil => exact absurd hd h
  | cons d ds =>
    unfold loadLoop
    cases hb : r.initial.copy.batchUpdateO d with
    | error e => exact ⟨e, rfl⟩
    | ok live' => exact ⟨.zeroDivisionError, rfl⟩

example : ((SimResult.mk ⟨[(.int 0, [])], some []⟩ [some [], some [], some [], some []] [] none).loadSteps 2).toOption.map
    (fun r => Dict.keys r.stored) = some [0, 2, 4] := by decide

end SimResult
end Pyl
