import Verif.Lemmas.HeapRead
/-
The world on values: which states a command changes, and what `get_step` returns.
-/
set_option autoImplicit false

namespace Pyl
namespace Heap

/-- Existing states other than those in `T` and all existing values stay. -/
structure Keeps (T : Nat → Prop) (v v' : VMem) : Prop where
  states : ∀ (i : Nat) (s : SimState), ¬ T i → v.states[i]? = some s → v'.states[i]? = some s
  size : v.states.length ≤ v'.states.length
  vals : ∀ (j : Nat), j < v.vals.length → v'.vals[j]? = v.vals[j]?
  nvals : v.vals.length ≤ v'.vals.length

theorem Keeps.refl (T : Nat → Prop) (v : VMem) : Keeps T v v := ⟨fun _ _ _ h => h, le_rfl, fun _ _ => rfl, le_rfl⟩

theorem Keeps.trans {T : Nat → Prop} {a b c : VMem} (h : Keeps T a b) (h' : Keeps T b c) : Keeps T a c :=
  ⟨fun i s hi hs => h'.states i s hi (h.states i s hi hs), h.size.trans h'.size,
    fun j hj => (h'.vals j (hj.trans_le h.nvals)).trans (h.vals j hj), h.nvals.trans h'.nvals⟩

theorem Keeps.mono {T T' : Nat → Prop} {a b : VMem} (h : Keeps T a b) (hT : ∀ i, i < a.states.length → T i → T' i) :
    Keeps T' a b := by
  refine ⟨fun i s hi hs => h.states i s (fun ht => hi (hT i ?_ ht)) hs, h.size, h.vals, h.nvals⟩
  by_contra hn
  rw [List.getElem?_eq_none (by omega)] at hs; cases hs

theorem Keeps.val {T : Nat → Prop} {a b : VMem} (h : Keeps T a b) {j : Nat} (hj : j < a.vals.length) : b.val j = a.val j := by
  simp only [VMem.val, List.getD_eq_getElem?_getD, h.vals j hj]

theorem step_size (v : VMem) (p : Prim) : v.states.length ≤ (v.step p).1.states.length := by
  cases p with
  | newState => simp [VMem.step]
  | copy j => simp only [VMem.step]; cases v.states[j]? <;> simp
  | setSite j k x =>
    simp only [VMem.step]
    cases v.states[j]? with
    | none => simp
    | some t => simp only; cases t.setSiteStateV k (v.val x) <;> simp
  | setGeneral j x =>
    simp only [VMem.step]
    cases v.states[j]? with
    | none => simp
    | some t => simp only; cases t.setGeneralStateV (v.val x) <;> simp
  | batch j x => simp only [VMem.step]; cases v.states[j]? <;> simp
  | getSite j k => simp only [VMem.step]; cases v.states[j]? <;> simp
  | getGeneral j => simp only [VMem.step]; cases v.states[j]? <;> simp
  | _ => exact le_rfl

theorem step_vals (v : VMem) (p : Prim) : ∃ l, (v.step p).1.vals = v.vals ++ l := by
  cases p with
  | newState => exact ⟨[], by simp [VMem.step]⟩
  | copy j => simp only [VMem.step]; cases v.states[j]? <;> exact ⟨[], by simp⟩
  | setSite j k x =>
    simp only [VMem.step]
    cases v.states[j]? with
    | none => exact ⟨[], by simp⟩
    | some t => simp only; cases t.setSiteStateV k (v.val x) <;> exact ⟨[], by simp⟩
  | setGeneral j x =>
    simp only [VMem.step]
    cases v.states[j]? with
    | none => exact ⟨[], by simp⟩
    | some t => simp only; cases t.setGeneralStateV (v.val x) <;> exact ⟨[], by simp⟩
  | batch j x => simp only [VMem.step]; cases v.states[j]? <;> exact ⟨[], by simp⟩
  | getSite j k => simp only [VMem.step]; cases v.states[j]? <;> exact ⟨_, rfl⟩
  | getGeneral j => simp only [VMem.step]; cases v.states[j]? <;> exact ⟨_, rfl⟩
  | _ => exact ⟨_, rfl⟩

theorem keeps_step (v : VMem) (p : Prim) : Keeps (fun i => p.target = some i) v (v.step p).1 := by
  obtain ⟨l, hl⟩ := step_vals v p
  exact ⟨fun i s hi hs => v.step_states p i s hs hi, step_size v p,
    fun j hj => by rw [hl, List.getElem?_append_left hj], by rw [hl]; simp⟩

theorem keeps_run (v : VMem) (ps : List Prim) (T : Nat → Prop) (h : ∀ p ∈ ps, ∀ i, p.target = some i → T i) :
    Keeps T v (v.run ps) := by
  induction ps generalizing v with
  | nil => exact .refl _ _
  | cons p ps ih =>
    exact Keeps.trans ((keeps_step v p).mono fun i _ hi => h p (by simp) i hi)
      (ih _ fun q hq => h q (by simp [hq]))

/-! ### get_step -/

theorem setSitesEff_eq (d : Props) : ∀ (s : SimState),
    SimState.setSites s d = match SimState.setSitesEff s d with
      | (s', none) => .ok s'
      | (_, some e) => .error e := by
  induction d with
  | nil => intro s; rfl
  | cons p d ih =>
    intro s
    obtain ⟨k, x⟩ := p
    rw [SimState.setSites_cons]
    simp only [SimState.setSitesEff]
    cases h : SimState.setSiteStateV s k x with
    | error e => rfl
    | ok s' => exact ih s'

theorem batchV_eq (s : SimState) (w : Val) :
    applyVal s w = match batchV s w with
      | (s', none) => .ok s'
      | (_, some e) => .error e := by
  cases w with
  | dict b =>
    simp only [applyVal, batchV, SimState.batchUpdate, SimState.batchUpdateEff]
    cases Dict.get? b GENERAL with
    | none => exact setSitesEff_eq b s
    | some g =>
      simp only
      cases Dict.get? b SITES with
      | none =>
        simp only [setSitesEff_eq, SimState.setSitesEff]
        simp only [bind, Except.bind]
        cases SimState.setGeneralStateV s g <;> rfl
      | some w =>
        cases w with
        | dict d =>
          simp only [setSitesEff_eq]
          rcases SimState.setSitesEff s d with ⟨s', _ | e⟩
          · simp only [bind, Except.bind]
            cases SimState.setGeneralStateV s' g <;> rfl
          · rfl
        | _ => rfl
  | _ => rfl

theorem copy_val (v : VMem) (i : Nat) (s : SimState) (h : v.states[i]? = some s) :
    valOps.step v (.copy i) = (⟨v.states ++ [s], v.vals⟩, none) := by
  show v.step (.copy i) = _
  simp only [VMem.step, h]; rfl

theorem applyDiffs_val (x : Nat) (ds : List Nat) : ∀ (v : VMem) (s : SimState) (n : Nat), v.states[x]? = some s →
    (∀ d ∈ ds, d < v.vals.length) →
    Keeps (· = x) v (applyDiffs valOps x v ds n).1 ∧
    match stepOf s (ds.map v.val) n with
    | .ok s' => (applyDiffs valOps x v ds n).2 = none ∧ (applyDiffs valOps x v ds n).1.states[x]? = some s'
    | .error e => (applyDiffs valOps x v ds n).2 = some e := by
  induction ds with
  | nil =>
    intro v s n hs _
    cases n with
    | zero => exact ⟨.refl _ _, rfl, hs⟩
    | succ n => exact ⟨.refl _ _, rfl⟩
  | cons d ds ih =>
    intro v s n hs hd
    cases n with
    | zero => exact ⟨.refl _ _, rfl, hs⟩
    | succ n =>
      have h1 : valOps.step v (.batch x d) = ({ v with states := v.states.set x (batchV s (v.val d)).1 },
          (batchV s (v.val d)).2) := by
        show v.step (.batch x d) = _
        simp only [VMem.step, hs]
      have hk : Keeps (· = x) v (valOps.step v (.batch x d)).1 :=
        (keeps_step v (.batch x d)).mono fun i _ hi => by
          simp only [Prim.target, Option.some.injEq] at hi; exact hi.symm
      have hst : stepOf s ((d :: ds).map v.val) (n + 1) = (applyVal s (v.val d)).bind fun s' => stepOf s' (ds.map v.val) n := by
        simp only [stepOf, List.map_cons, List.take_succ_cons, List.foldlM_cons, List.length_cons, Nat.add_le_add_iff_right]
        simp only [bind]
        cases applyVal s (v.val d) <;> rfl
      rw [hst, batchV_eq]
      simp only [applyDiffs]
      rw [h1] at hk ⊢
      rcases hb : batchV s (v.val d) with ⟨s', _ | e⟩
      · rw [hb] at hk
        have hlt : x < v.states.length := by
          by_contra hn
          rw [List.getElem?_eq_none (by omega)] at hs; cases hs
        obtain ⟨h3, h4⟩ := ih ⟨v.states.set x s', v.vals⟩ s' n (List.getElem?_set_self hlt)
          (fun e he => hd e (by simp [he]))
        exact ⟨hk.trans h3, h4⟩
      · rw [hb] at hk
        exact ⟨hk, rfl⟩

/-- A `get_step` that is not answered from storage: a new state object. -/
theorem getStepW_val (v : VMem) (r : HResult) (k : Int) (s0 : SimState) (h0 : v.states[r.initial]? = some s0)
    (hst : Dict.get? r.stored k = none) (hd : ∀ d ∈ r.diffs, d < v.vals.length) :
    Keeps (fun _ => False) v (getStepW valOps v r k).1 ∧
    match stepOf s0 (r.diffs.map v.val) k.toNat with
    | .ok s => (getStepW valOps v r k).2 = .ok v.states.length ∧
        (getStepW valOps v r k).1.states[v.states.length]? = some s
    | .error e => (getStepW valOps v r k).2 = .error e := by
  obtain ⟨h1, h2⟩ := applyDiffs_val v.states.length r.diffs ⟨v.states ++ [s0], v.vals⟩ s0 k.toNat (by simp) hd
  have hk0 : Keeps (fun _ => False) v ⟨v.states ++ [s0], v.vals⟩ := by
    refine ⟨fun i s _ hs => ?_, by simp, fun _ _ => rfl, le_rfl⟩
    have hlt : i < v.states.length := by
      by_contra hn
      rw [List.getElem?_eq_none (by omega)] at hs; cases hs
    simpa [List.getElem?_append_left hlt] using hs
  have hkk : Keeps (fun _ => False) v (applyDiffs valOps v.states.length ⟨v.states ++ [s0], v.vals⟩ r.diffs k.toNat).1 := by
    refine ⟨fun i s _ hs => ?_, le_trans hk0.size h1.size, fun j hj => (h1.vals j hj).trans (hk0.vals j hj),
      le_trans hk0.nvals h1.nvals⟩
    have hlt : i < v.states.length := by
      by_contra hn
      rw [List.getElem?_eq_none (by omega)] at hs; cases hs
    exact h1.states i s (by omega) (hk0.states i s id hs)
  have hval : (r.diffs.map v.val) = r.diffs.map (VMem.val ⟨v.states ++ [s0], v.vals⟩) := rfl
  rw [hval]
  simp only [getStepW, hst, copy_val v r.initial s0 h0]
  generalize hA : applyDiffs valOps v.states.length ⟨v.states ++ [s0], v.vals⟩ r.diffs k.toNat = A at h2 hkk ⊢
  have hA' : applyDiffs valOps (valOps.size v) ⟨v.states ++ [s0], v.vals⟩ r.diffs k.toNat = A := hA
  rw [hA']
  obtain ⟨m2, o⟩ := A
  cases hso : stepOf s0 (r.diffs.map (VMem.val ⟨v.states ++ [s0], v.vals⟩)) k.toNat with
  | error e =>
    rw [hso] at h2
    simp only at h2; subst h2
    exact ⟨hkk, rfl⟩
  | ok s =>
    rw [hso] at h2
    obtain ⟨h3, h4⟩ := h2
    simp only at h3 h4; subst h3
    exact ⟨hkk, rfl, h4⟩

/-! ### worlds -/

theorem Keeps.lt {v : VMem} {i : Nat} {s : SimState} (h : v.states[i]? = some s) : i < v.states.length := by
  by_contra hn
  rw [List.getElem?_eq_none (by omega)] at h; cases h

theorem some_of_lt {v : VMem} {i : Nat} (h : i < v.states.length) : ∃ s, v.states[i]? = some s := ⟨v.states[i], by simp [h]⟩

theorem keeps_copy (v : VMem) (i : Nat) : Keeps (fun _ => False) v (valOps.step v (.copy i)).1 :=
  (keeps_step v (.copy i)).mono fun _ _ h => by simp [Prim.target] at h

theorem keeps_batch (v : VMem) (x d : Nat) : Keeps (· = x) v (valOps.step v (.batch x d)).1 :=
  (keeps_step v (.batch x d)).mono fun i _ h => by
    simp only [Prim.target, Option.some.injEq] at h; exact h.symm

theorem copy_size (v : VMem) (i : Nat) (h : i < v.states.length) :
    (valOps.step v (.copy i)).1.states.length = v.states.length + 1 ∧ (valOps.step v (.copy i)).2 = none := by
  obtain ⟨s, hs⟩ := some_of_lt h
  rw [copy_val v i s hs]; simp

theorem applyDiffs_keeps (x : Nat) (ds : List Nat) : ∀ (v : VMem) (n : Nat),
    Keeps (· = x) v (applyDiffs valOps x v ds n).1 := by
  induction ds with
  | nil => intro v n; cases n <;> exact .refl _ _
  | cons d ds ih =>
    intro v n
    cases n with
    | zero => exact .refl _ _
    | succ n =>
      have hk := keeps_batch v x d
      simp only [applyDiffs]
      generalize valOps.step v (.batch x d) = b at hk
      obtain ⟨b1, _ | e⟩ := b
      · exact hk.trans (ih b1 n)
      · exact hk

theorem getStepW_keeps (v : VMem) (r : HResult) (k : Int) : Keeps (fun _ => False) v (getStepW valOps v r k).1 := by
  unfold getStepW
  cases Dict.get? r.stored k with
  | some i => exact .refl _ _
  | none =>
    have hk := keeps_copy v r.initial
    simp only
    generalize valOps.step v (.copy r.initial) = b at hk
    obtain ⟨b1, _ | e⟩ := b
    · simp only
      have hk2 := applyDiffs_keeps (valOps.size v) r.diffs b1 k.toNat
      have hk3 : Keeps (· = valOps.size v) v (applyDiffs valOps (valOps.size v) b1 r.diffs k.toNat).1 :=
        Keeps.trans (hk.mono fun _ _ h => h.elim) hk2
      have hk4 := hk3.mono (T' := fun _ => False) fun i hi he => by
        have : valOps.size v = v.states.length := rfl
        omega
      generalize applyDiffs valOps (valOps.size v) b1 r.diffs k.toNat = c at hk4
      obtain ⟨c1, _ | e⟩ := c <;> exact hk4
    · exact hk

theorem loadLoopW_keeps (iv : Int) (x : Nat) (ds : List Nat) : ∀ (i : Nat) (v : VMem) (st : Dict Int Nat),
    x < v.states.length →
    Keeps (· = x) v (loadLoopW valOps iv x i v ds st).1 ∧
    ∀ p ∈ (loadLoopW valOps iv x i v ds st).2.1, p ∈ st ∨
      (v.states.length ≤ p.2 ∧ p.2 < (loadLoopW valOps iv x i v ds st).1.states.length) := by
  induction ds with
  | nil => intro i v st _; exact ⟨.refl _ _, fun p hp => Or.inl hp⟩
  | cons d ds ih =>
    intro i v st hx
    have hk := keeps_batch v x d
    simp only [loadLoopW]
    generalize valOps.step v (.batch x d) = b at hk
    obtain ⟨b1, _ | e⟩ := b
    · simp only at hk ⊢
      by_cases h0 : iv = 0
      · simp only [h0, if_true]; exact ⟨hk, fun p hp => Or.inl hp⟩
      · simp only [h0, if_false]
        have hx1 : x < b1.states.length := lt_of_lt_of_le hx hk.size
        split_ifs with hc
        · obtain ⟨hs1, hs2⟩ := copy_size b1 x hx1
          have hk2 := keeps_copy b1 x
          generalize valOps.step b1 (.copy x) = c at hk2 hs1 hs2
          obtain ⟨c1, c2⟩ := c
          simp only at hs1 hs2 hk2; subst hs2
          simp only
          obtain ⟨h3, h4⟩ := ih (i + 1) c1 (Dict.set st ((i : Int) + 1) (valOps.size b1)) (by omega)
          refine ⟨(hk.trans (hk2.mono fun _ _ h => h.elim)).trans h3, fun p hp => ?_⟩
          have hsz := hk.size
          rcases h4 p hp with h5 | h5
          · rcases Dict.mem_set h5 with h6 | h6
            · exact Or.inl h6
            · right
              rw [h6.1]
              have : valOps.size b1 = b1.states.length := rfl
              have := h3.size
              omega
          · right; omega
        · obtain ⟨h3, h4⟩ := ih (i + 1) b1 st hx1
          refine ⟨hk.trans h3, fun p hp => ?_⟩
          have hsz := hk.size
          rcases h4 p hp with h5 | h5
          · exact Or.inl h5
          · right; omega
    · exact ⟨hk, fun p hp => Or.inl hp⟩

theorem loadStepsW_keeps (v : VMem) (r : HResult) (iv : Int) (hr : r.initial < v.states.length) :
    Keeps (fun _ => False) v (loadStepsW valOps v r iv).1 ∧
    (loadStepsW valOps v r iv).2.1.initial = r.initial ∧ (loadStepsW valOps v r iv).2.1.diffs = r.diffs ∧
    ∀ p ∈ (loadStepsW valOps v r iv).2.1.stored, p ∈ r.stored ∨
      (v.states.length ≤ p.2 ∧ p.2 < (loadStepsW valOps v r iv).1.states.length) := by
  have h1 := copy_size v r.initial hr
  have k1 := keeps_copy v r.initial
  have h2 := copy_size (valOps.step v (.copy r.initial)).1 r.initial (by omega)
  have k2 := keeps_copy (valOps.step v (.copy r.initial)).1 r.initial
  obtain ⟨h3, h4⟩ := loadLoopW_keeps iv (valOps.size v) r.diffs 0
    (valOps.step (valOps.step v (.copy r.initial)).1 (.copy r.initial)).1
    (Dict.set r.stored 0 (valOps.size (valOps.step v (.copy r.initial)).1))
    (by show v.states.length < _; omega)
  refine ⟨?_, rfl, rfl, fun p hp => ?_⟩
  · have := Keeps.trans ((k1.trans k2).mono (T' := (· = valOps.size v)) fun _ _ h => h.elim) h3
    exact this.mono fun i hi he => by
      have : valOps.size v = v.states.length := rfl
      omega
  · rcases h4 p hp with h5 | h5
    · rcases Dict.mem_set h5 with h6 | h6
      · exact Or.inl h6
      · right
        rw [h6.1]
        have e1 : valOps.size (valOps.step v (.copy r.initial)).1 = (valOps.step v (.copy r.initial)).1.states.length := rfl
        have e2 := h3.size
        have e3 : (loadStepsW valOps v r iv).1 = (loadLoopW valOps iv (valOps.size v) 0
          (valOps.step (valOps.step v (.copy r.initial)).1 (.copy r.initial)).1 r.diffs
          (Dict.set r.stored 0 (valOps.size (valOps.step v (.copy r.initial)).1))).1 := rfl
        rw [e3]
        omega
    · right
      have e3 : (loadStepsW valOps v r iv).1 = (loadLoopW valOps iv (valOps.size v) 0
          (valOps.step (valOps.step v (.copy r.initial)).1 (.copy r.initial)).1 r.diffs
          (Dict.set r.stored 0 (valOps.size (valOps.step v (.copy r.initial)).1))).1 := rfl
      rw [e3]
      omega

theorem nextW_keeps (v : VMem) (r : HResult) (g : Gen) (hr : r.initial < v.states.length) :
    Keeps (fun i => g.live = some i) v (nextW valOps v r g).1 ∧
    (nextW valOps v r g).2.1.res = g.res ∧
    ((nextW valOps v r g).2.1.live = g.live ∨
      ((nextW valOps v r g).2.1.live = some v.states.length ∧ v.states.length < (nextW valOps v r g).1.states.length)) := by
  unfold nextW
  by_cases hd : g.done = true
  · simp only [hd, if_true]; exact ⟨.refl _ _, trivial, Or.inl trivial⟩
  · simp only [hd]
    cases hl : g.live with
    | none =>
      obtain ⟨h1, h2⟩ := copy_size v r.initial hr
      have hk := (keeps_copy v r.initial).mono (T' := fun i => (Option.none : Option Nat) = some i) fun _ _ h => h.elim
      by_cases he : r.diffs.isEmpty = true
      · simp only [he, if_true]
        exact ⟨hk, rfl, Or.inr ⟨rfl, by show _ < (valOps.step v (.copy r.initial)).1.states.length; omega⟩⟩
      · simp only [he]
        exact ⟨hk, rfl, Or.inr ⟨rfl, by show _ < (valOps.step v (.copy r.initial)).1.states.length; omega⟩⟩
    | some x =>
      have hk := (keeps_batch v x (r.diffs.getD (g.pos - 1) 0)).mono (T' := fun i => some x = some i)
        fun i _ h => by rw [h]
      simp only
      generalize valOps.step v (.batch x (r.diffs.getD (g.pos - 1) 0)) = b at hk
      obtain ⟨b1, _ | e⟩ := b
      · by_cases hp : g.pos < r.diffs.length
        · simp only [hp, if_true]; exact ⟨hk, rfl, Or.inl rfl⟩
        · simp only [hp, if_false]; exact ⟨hk, rfl, Or.inl rfl⟩
      · exact ⟨hk, rfl, Or.inl rfl⟩

/-- Names used by results and generators exist; no stored state is the live state of a generator. -/
structure WWF (w : World VMem) : Prop where
  gens : ∀ g ∈ w.gens, ∀ x, g.live = some x → x < w.mem.states.length
  initial : ∀ r ∈ w.results, r.initial < w.mem.states.length
  diffs : ∀ r ∈ w.results, ∀ d ∈ r.diffs, d < w.mem.vals.length
  stored : ∀ r ∈ w.results, ∀ p ∈ r.stored, p.2 < w.mem.states.length ∧ ∀ g ∈ w.gens, g.live ≠ some p.2

theorem WWF.grow {w : World VMem} (h : WWF w) {v : VMem} {T : Nat → Prop} (hk : Keeps T w.mem v) : WWF { w with mem := v } :=
  ⟨fun g hg x hx => (h.gens g hg x hx).trans_le hk.size, fun r hr => (h.initial r hr).trans_le hk.size,
    fun r hr d hd => (h.diffs r hr d hd).trans_le hk.nvals,
    fun r hr p hp => ⟨(h.stored r hr p hp).1.trans_le hk.size, (h.stored r hr p hp).2⟩⟩

/-- States changed by a command: the target of a primitive, or (for `next`) a live state of a generator. -/
def Cmd.touches (w : World VMem) (c : Cmd) (i : Nat) : Prop :=
  (∃ p, c = .prim p ∧ p.target = some i) ∨ ((∃ j, c = .next j) ∧ ∃ g ∈ w.gens, g.live = some i)

/-- Every command keeps the world well formed, touches only the states it may touch, and generators started later have new
live states. -/
theorem WWF.step {w : World VMem} (h : WWF w) (c : Cmd) :
    WWF (w.step valOps c).1 ∧ Keeps (Cmd.touches w c) w.mem (w.step valOps c).1.mem ∧
      ∀ g ∈ (w.step valOps c).1.gens, ∀ x, g.live = some x → w.mem.states.length ≤ x ∨ ∃ g' ∈ w.gens, g'.live = some x := by
  have same : ∀ g ∈ w.gens, ∀ x, g.live = some x → w.mem.states.length ≤ x ∨ ∃ g' ∈ w.gens, g'.live = some x :=
    fun g hg x hx => Or.inr ⟨g, hg, hx⟩
  have stay : WWF w ∧ Keeps (Cmd.touches w c) w.mem w.mem ∧
      ∀ g ∈ w.gens, ∀ x, g.live = some x → w.mem.states.length ≤ x ∨ ∃ g' ∈ w.gens, g'.live = some x :=
    ⟨h, .refl _ _, same⟩
  cases c with
  | prim p =>
    have hk := keeps_step w.mem p
    exact ⟨h.grow hk, hk.mono fun i _ hi => Or.inl ⟨p, rfl, hi⟩, same⟩
  | newResult i =>
    simp only [World.step]
    by_cases hi : i < valOps.size w.mem
    · simp only [hi, if_true]
      refine ⟨⟨h.gens, ?_, ?_, ?_⟩, .refl _ _, same⟩
      · intro r hr
        rcases List.mem_append.1 hr with hr | hr
        · exact h.initial r hr
        · simp at hr; subst hr; exact hi
      · intro r hr d hd
        rcases List.mem_append.1 hr with hr | hr
        · exact h.diffs r hr d hd
        · simp at hr; subst hr; cases hd
      · intro r hr p hp
        rcases List.mem_append.1 hr with hr | hr
        · exact h.stored r hr p hp
        · simp at hr; subst hr; cases hp
    · simp only [hi, if_false]; exact stay
  | addStep r j =>
    simp only [World.step]
    cases hr : w.results[r]? with
    | none => exact stay
    | some x =>
      have hx := List.mem_of_getElem? hr
      simp only
      by_cases hj : j < valOps.nvals w.mem
      · simp only [hj, if_true]
        refine ⟨⟨h.gens, ?_, ?_, ?_⟩, .refl _ _, same⟩
        · intro r' hr'
          rcases List.mem_or_eq_of_mem_set hr' with hr' | rfl
          · exact h.initial r' hr'
          · exact h.initial x hx
        · intro r' hr' d hd
          rcases List.mem_or_eq_of_mem_set hr' with hr' | rfl
          · exact h.diffs r' hr' d hd
          · rcases List.mem_append.1 hd with hd | hd
            · exact h.diffs x hx d hd
            · simp at hd; subst hd; exact hj
        · intro r' hr' p hp
          rcases List.mem_or_eq_of_mem_set hr' with hr' | rfl
          · exact h.stored r' hr' p hp
          · exact h.stored x hx p hp
      · simp only [hj, if_false]; exact stay
  | setOutput r j =>
    simp only [World.step]
    cases hr : w.results[r]? with
    | none => exact stay
    | some x =>
      have hx := List.mem_of_getElem? hr
      simp only
      by_cases hj : j < valOps.size w.mem
      · simp only [hj, if_true]
        refine ⟨⟨h.gens, ?_, ?_, ?_⟩, .refl _ _, same⟩
        · intro r' hr'
          rcases List.mem_or_eq_of_mem_set hr' with hr' | rfl
          · exact h.initial r' hr'
          · exact h.initial x hx
        · intro r' hr' d hd
          rcases List.mem_or_eq_of_mem_set hr' with hr' | rfl
          · exact h.diffs r' hr' d hd
          · exact h.diffs x hx d hd
        · intro r' hr' p hp
          rcases List.mem_or_eq_of_mem_set hr' with hr' | rfl
          · exact h.stored r' hr' p hp
          · exact h.stored x hx p hp
      · simp only [hj, if_false]; exact stay
  | getStep r k =>
    simp only [World.step]
    cases hr : w.results[r]? with
    | none => exact stay
    | some x =>
      have hk := getStepW_keeps w.mem x k
      exact ⟨h.grow hk, hk.mono fun _ _ hf => hf.elim, same⟩
  | loadSteps r k =>
    simp only [World.step]
    cases hr : w.results[r]? with
    | none => exact stay
    | some x =>
      have hx := List.mem_of_getElem? hr
      obtain ⟨hk, h1, h2, h3⟩ := loadStepsW_keeps w.mem x k (h.initial x hx)
      have hg := h.grow hk
      refine ⟨⟨hg.gens, ?_, ?_, ?_⟩, hk.mono fun _ _ hf => hf.elim, same⟩
      · intro r' hr'
        rcases List.mem_or_eq_of_mem_set hr' with hr' | rfl
        · exact hg.initial r' hr'
        · rw [h1]; exact hg.initial x hx
      · intro r' hr' d hd
        rcases List.mem_or_eq_of_mem_set hr' with hr' | rfl
        · exact hg.diffs r' hr' d hd
        · rw [h2] at hd; exact hg.diffs x hx d hd
      · intro r' hr' p hp
        rcases List.mem_or_eq_of_mem_set hr' with hr' | rfl
        · exact hg.stored r' hr' p hp
        · rcases h3 p hp with h4 | h4
          · exact hg.stored x hx p h4
          · refine ⟨h4.2, fun g hg' he => ?_⟩
            have := h.gens g hg' _ he
            omega
  | steps r =>
    refine ⟨⟨?_, h.initial, h.diffs, ?_⟩, .refl _ _, ?_⟩
    · intro g hg x hx
      rcases List.mem_append.1 hg with hg | hg
      · exact h.gens g hg x hx
      · simp at hg; subst hg; cases hx
    · intro r' hr' p hp
      refine ⟨(h.stored r' hr' p hp).1, fun g hg => ?_⟩
      rcases List.mem_append.1 hg with hg | hg
      · exact (h.stored r' hr' p hp).2 g hg
      · simp at hg; subst hg; simp
    · intro g hg x hx
      rcases List.mem_append.1 hg with hg | hg
      · exact same g hg x hx
      · simp at hg; subst hg; cases hx
  | next g =>
    simp only [World.step]
    cases hg : w.gens[g]? with
    | none => exact stay
    | some x =>
      have hx := List.mem_of_getElem? hg
      simp only
      cases hr : w.results[x.res]? with
      | none => exact stay
      | some r =>
        have hrm := List.mem_of_getElem? hr
        obtain ⟨hk, _, h2⟩ := nextW_keeps w.mem r x (h.initial r hrm)
        have hgr := h.grow hk
        refine ⟨⟨?_, hgr.initial, hgr.diffs, ?_⟩, hk.mono fun i _ hi => Or.inr ⟨⟨g, rfl⟩, x, hx, hi⟩, ?_⟩
        · intro g' hg' y hy
          rcases List.mem_or_eq_of_mem_set hg' with hg' | rfl
          · exact hgr.gens g' hg' y hy
          · rcases h2 with h2 | ⟨h2, h3⟩
            · rw [h2] at hy; exact hgr.gens x hx y hy
            · rw [h2] at hy; injection hy with hy; subst hy; exact h3
        · intro r' hr' p hp
          refine ⟨(hgr.stored r' hr' p hp).1, fun g' hg' => ?_⟩
          rcases List.mem_or_eq_of_mem_set hg' with hg' | rfl
          · exact (h.stored r' hr' p hp).2 g' hg'
          · rcases h2 with h2 | ⟨h2, h3⟩
            · rw [h2]; exact (h.stored r' hr' p hp).2 x hx
            · rw [h2]
              have := (h.stored r' hr' p hp).1
              intro he
              injection he with he
              omega
        · intro g' hg' y hy
          rcases List.mem_or_eq_of_mem_set hg' with hg' | rfl
          · exact same g' hg' y hy
          · rcases h2 with h2 | ⟨h2, h3⟩
            · rw [h2] at hy; exact same x hx y hy
            · rw [h2] at hy; injection hy with hy; left; omega

theorem WWF.run {w : World VMem} (h : WWF w) (cs : List Cmd) : WWF (w.run valOps cs).1 := by
  induction cs generalizing w with
  | nil => exact h
  | cons c cs ih => exact ih (h.step c).1

theorem wwf_init : WWF ⟨.init, [], []⟩ :=
  ⟨by simp, by simp, by simp, by simp⟩

/-- A state that is not the live state of a generator and is not the target of a primitive stays as it is. -/
theorem WWF.run_keeps {w : World VMem} (h : WWF w) (cs : List Cmd) (i : Nat) (s : SimState)
    (hs : w.mem.states[i]? = some s) (hg : ∀ g ∈ w.gens, g.live ≠ some i) (hl : Leaves cs i) :
    (w.run valOps cs).1.mem.states[i]? = some s := by
  induction cs generalizing w with
  | nil => exact hs
  | cons c cs ih =>
    obtain ⟨h1, h2, h3⟩ := h.step c
    have hlt := Keeps.lt hs
    refine ih h1 (h2.states i s ?_ hs) ?_ (fun p hp => hl p (by simp [hp]))
    · rintro (⟨p, rfl, hp⟩ | ⟨_, g, hgm, hge⟩)
      · exact hl p (by simp) hp
      · exact hg g hgm hge
    · intro g hgm he
      rcases h3 g hgm i he with h4 | ⟨g', h4, h5⟩
      · omega
      · exact hg g' h4 h5

/-- The same for programs without `next`, whatever generators there are. -/
theorem WWF.run_keeps' {w : World VMem} (h : WWF w) (cs : List Cmd) (i : Nat) (s : SimState)
    (hs : w.mem.states[i]? = some s) (hn : ∀ j, Cmd.next j ∉ cs) (hl : Leaves cs i) :
    (w.run valOps cs).1.mem.states[i]? = some s := by
  induction cs generalizing w with
  | nil => exact hs
  | cons c cs ih =>
    obtain ⟨h1, h2, h3⟩ := h.step c
    refine ih h1 (h2.states i s ?_ hs) (fun j hj => hn j (by simp [hj])) (fun p hp => hl p (by simp [hp]))
    rintro (⟨p, rfl, hp⟩ | ⟨⟨j, rfl⟩, _⟩)
    · exact hl p (by simp) hp
    · exact hn j (by simp)

theorem World.run_append {M : Type} (ops : MemOps M) (w : World M) (as bs : List Cmd) :
    (w.run ops (as ++ bs)).1 = ((w.run ops as).1.run ops bs).1 := by
  induction as generalizing w with
  | nil => rfl
  | cons a as ih => exact ih _

/-- Values never change. -/
theorem WWF.run_val {w : World VMem} (h : WWF w) (cs : List Cmd) (j : Nat) (hj : j < w.mem.vals.length) :
    j < (w.run valOps cs).1.mem.vals.length ∧ (w.run valOps cs).1.mem.val j = w.mem.val j := by
  induction cs generalizing w with
  | nil => exact ⟨hj, rfl⟩
  | cons c cs ih =>
    obtain ⟨h1, h2, _⟩ := h.step c
    obtain ⟨h3, h4⟩ := ih h1 (hj.trans_le h2.nvals)
    exact ⟨h3, h4.trans (h2.val hj)⟩

theorem run_prims_results (w : World VMem) (ps : List Prim) :
    (w.run valOps (ps.map Cmd.prim)).1.results = w.results ∧ (w.run valOps (ps.map Cmd.prim)).1.gens = w.gens := by
  induction ps generalizing w with
  | nil => exact ⟨rfl, rfl⟩
  | cons p ps ih => exact ih _

end Heap
end Pyl
