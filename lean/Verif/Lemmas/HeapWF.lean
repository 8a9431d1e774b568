import Verif.Lemmas.HeapJson
import Verif.Props.State
/-
What a client can build is well formed (no dict has a key twice), with states and results rebuilt from their dicts.
-/
set_option autoImplicit false

namespace Pyl
namespace Heap

/-- Every state and value in a memory is well formed. -/
structure VOk (v : VMem) : Prop where
  states : ∀ s ∈ v.states, s.WF
  vals : ∀ x ∈ v.vals, x.WF

theorem VOk.val {v : VMem} (h : VOk v) (j : Nat) : (v.val j).WF := by
  unfold VMem.val
  rw [List.getD_eq_getElem?_getD]
  cases hj : v.vals[j]? with
  | none => exact .pyNone
  | some x => exact h.vals x (List.mem_of_getElem? hj)

theorem VOk.push {v : VMem} (h : VOk v) {x : Val} (hx : x.WF) : VOk { v with vals := v.vals ++ [x] } :=
  ⟨h.states, fun y hy => by
    rcases List.mem_append.1 hy with hy | hy
    · exact h.vals y hy
    · rw [List.mem_singleton.1 hy]; exact hx⟩

theorem VOk.add {v : VMem} (h : VOk v) {s : SimState} (hs : s.WF) : VOk { v with states := v.states ++ [s] } :=
  ⟨fun y hy => by
    rcases List.mem_append.1 hy with hy | hy
    · exact h.states y hy
    · rw [List.mem_singleton.1 hy]; exact hs, h.vals⟩

theorem VOk.put {v : VMem} (h : VOk v) {s : SimState} (hs : s.WF) (i : Nat) : VOk { v with states := v.states.set i s } :=
  ⟨fun y hy => by
    rcases List.mem_or_eq_of_mem_set hy with hy | hy
    · exact h.states y hy
    · rw [hy]; exact hs, h.vals⟩

theorem wf_ofPairs {l : List (Key × Val)} (h : ∀ kv ∈ l, kv.2.WF) : (Val.dict (Dict.ofPairs l)).WF := by
  refine .dict (Dict.WF.ofPairs l) fun kv hkv => ?_
  rcases Dict.mem_update hkv with hkv | hkv
  · cases hkv
  · exact h kv hkv

theorem setSiteStateV_wf {s s' : SimState} (hs : s.WF) {k : Key} {x : Val} (hx : x.WF) (h : s.setSiteStateV k x = .ok s') : s'.WF := by
  cases x with
  | dict u => cases h; exact hs.setSiteState k hx
  | _ => cases h

theorem setGeneralStateV_wf {s s' : SimState} (hs : s.WF) {x : Val} (hx : x.WF) (h : s.setGeneralStateV x = .ok s') : s'.WF := by
  cases x with
  | dict u => exact hs.setGeneral hx h
  | _ => cases h

theorem setSitesEff_wf {d : Props} (hd : ∀ kv ∈ d, kv.2.WF) : ∀ {s : SimState}, s.WF → (SimState.setSitesEff s d).1.WF := by
  induction d with
  | nil => intro s hs; exact hs
  | cons p d ih =>
    intro s hs
    obtain ⟨k, x⟩ := p
    simp only [SimState.setSitesEff]
    cases h : s.setSiteStateV k x with
    | error e => exact hs
    | ok s' => exact ih (fun kv hkv => hd kv (by simp [hkv])) (setSiteStateV_wf hs (hd (k, x) (by simp)) h)

theorem batchV_wf {s : SimState} (hs : s.WF) {x : Val} (hx : x.WF) : (batchV s x).1.WF := by
  cases x with
  | dict b =>
    simp only [batchV, SimState.batchUpdateEff]
    have fin : ∀ {d : Props} {g : Val}, (∀ kv ∈ d, kv.2.WF) → g.WF → (match SimState.setSitesEff s d with
        | (s', some e) => (s', some e)
        | (s', none) => match s'.setGeneralStateV g with
          | .ok s'' => (s'', none)
          | .error e => (s', some e)).1.WF := by
      intro d g hd hg
      have h1 := setSitesEff_wf hd hs
      generalize SimState.setSitesEff s d = q at h1
      obtain ⟨s', _ | e⟩ := q
      · simp only at h1 ⊢
        cases h2 : s'.setGeneralStateV g with
        | error e => exact h1
        | ok s'' => exact setGeneralStateV_wf h1 hg h2
      · exact h1
    cases hg : Dict.get? b GENERAL with
    | none => exact setSitesEff_wf (fun kv hkv => hx.entry hkv) hs
    | some g =>
      simp only
      cases hsi : Dict.get? b SITES with
      | none => exact fin (d := []) (by simp) (hx.get? hg)
      | some w =>
        have hw : w.WF := hx.get? hsi
        cases w with
        | dict d => exact fin (fun kv hkv => hw.entry hkv) (hx.get? hg)
        | _ => exact hs
  | _ => exact hs

theorem empty_wf : SimState.empty.WF :=
  ⟨by simp [SimState.empty, Dict.WF], by simp [SimState.empty], fun g h => by
    simp only [SimState.empty, Option.some.injEq] at h
    subst h
    exact .dict (by simp [Dict.WF]) (by simp)⟩

theorem VOk.step {v : VMem} (h : VOk v) (p : Prim) : VOk (v.step p).1 := by
  have st : ∀ {i : Nat} {s : SimState}, v.states[i]? = some s → s.WF := fun hs => h.states _ (List.mem_of_getElem? hs)
  cases p with
  | newState => exact h.add empty_wf
  | copy i =>
    simp only [VMem.step]
    cases hs : v.states[i]? with
    | none => exact h
    | some s => exact h.add (st hs)
  | none => exact h.push .pyNone
  | num q => exact h.push (.num q)
  | str s => exact h.push (.str s)
  | mkDict es =>
    refine h.push (wf_ofPairs fun kv hkv => ?_)
    obtain ⟨e, _, rfl⟩ := List.mem_map.1 hkv
    exact h.val _
  | mkList es =>
    refine h.push (.list fun a ha => ?_)
    obtain ⟨e, _, rfl⟩ := List.mem_map.1 ha
    exact h.val _
  | mkTup es =>
    refine h.push (.tup fun a ha => ?_)
    obtain ⟨e, _, rfl⟩ := List.mem_map.1 ha
    exact h.val _
  | setSite i k j =>
    simp only [VMem.step]
    cases hs : v.states[i]? with
    | none => exact h
    | some s =>
      simp only
      cases hs' : s.setSiteStateV k (v.val j) with
      | error e => exact h
      | ok s' => exact h.put (setSiteStateV_wf (st hs) (h.val j) hs') i
  | setGeneral i j =>
    simp only [VMem.step]
    cases hs : v.states[i]? with
    | none => exact h
    | some s =>
      simp only
      cases hs' : s.setGeneralStateV (v.val j) with
      | error e => exact h
      | ok s' => exact h.put (setGeneralStateV_wf (st hs) (h.val j) hs') i
  | batch i j =>
    simp only [VMem.step]
    cases hs : v.states[i]? with
    | none => exact h
    | some s => exact h.put (batchV_wf (st hs) (h.val j)) i
  | getSite i k =>
    simp only [VMem.step]
    cases hs : v.states[i]? with
    | none => exact h.push .pyNone
    | some s =>
      refine h.push ?_
      simp only [SimState.getSiteState]
      cases hk : Dict.get? s.sites k with
      | none => exact .pyNone
      | some p => exact (st hs).site _ (Dict.mem_of_get? hk)
  | getGeneral i =>
    simp only [VMem.step]
    cases hs : v.states[i]? with
    | none => exact h.push .pyNone
    | some s =>
      refine h.push ?_
      simp only [SimState.getGeneralState]
      cases hg : s.general with
      | none => exact .pyNone
      | some g => exact (st hs).general g hg

theorem intIds_wf {s s' : SimState} (hs : s.WF) (h : intIds s = .ok s') : s'.WF := by
  rw [intIds_eq] at h
  cases hl : toIntPairs s.sites with
  | error e => rw [hl] at h; cases h
  | ok l =>
    rw [hl] at h; cases h
    refine ⟨Dict.WF.ofPairs l, fun kv hkv => ?_, hs.general⟩
    have hkv' : kv ∈ l := by
      rcases Dict.mem_update hkv with h | h
      · cases h
      · exact h
    obtain ⟨p, hp, he⟩ := mapM_mem hl kv hkv'
    cases hk : p.1.toInt with
    | error e => rw [hk] at he; cases he
    | ok n =>
      rw [hk] at he; cases he
      exact hs.site p hp

theorem VOk.reload {v : VMem} (h : VOk v) (i : Nat) : VOk (v.reload i).1 := by
  unfold VMem.reload
  cases hs : v.states[i]? with
  | none => exact h
  | some s =>
    simp only
    cases hi : intIds s with
    | error e => exact h
    | ok s' =>
      have hw := intIds_wf (h.states s (List.mem_of_getElem? hs)) hi
      exact (h.put hw i).add hw

theorem VOk.reformat {v : VMem} (h : VOk v) (j : Nat) : VOk (v.reformat j).1 := by
  unfold VMem.reformat
  have hv := h.val j
  cases hx : v.val j with
  | dict d =>
    rw [hx] at hv
    simp only [SimResult.reformat, vIntKeys_eq]
    cases hl : toIntPairs (d.filter fun kv => decide (kv.1 ≠ GENERAL)) with
    | error e => exact h
    | ok l =>
      refine h.push (wf_ofPairs fun kv hkv => ?_)
      obtain ⟨p, hp, he⟩ := mapM_mem hl kv hkv
      cases hk : p.1.toInt with
      | error e => rw [hk] at he; cases he
      | ok n =>
        rw [hk] at he; cases he
        exact hv.entry (kv := p) (List.mem_of_mem_filter hp)
  | _ => exact h

/-! ### worlds -/

theorem VOk.applyDiffs (x : Nat) (ds : List Nat) : ∀ {v : VMem} (n : Nat), VOk v → VOk (applyDiffs valOps x v ds n).1 := by
  induction ds with
  | nil => intro v n h; cases n <;> exact h
  | cons d ds ih =>
    intro v n h
    cases n with
    | zero => exact h
    | succ n =>
      have h1 : VOk (valOps.step v (.batch x d)).1 := h.step _
      simp only [Heap.applyDiffs]
      rcases hA : valOps.step v (.batch x d) with ⟨v', _ | e⟩
      · rw [hA] at h1; exact ih n h1
      · rw [hA] at h1; exact h1

theorem VOk.getStepW {v : VMem} (h : VOk v) (r : HResult) (k : Int) : VOk (getStepW valOps v r k).1 := by
  unfold Heap.getStepW
  cases Dict.get? r.stored k with
  | some i => exact h
  | none =>
    have h1 : VOk (valOps.step v (.copy r.initial)).1 := h.step _
    simp only
    rcases hA : valOps.step v (.copy r.initial) with ⟨v', _ | e⟩
    · rw [hA] at h1
      have h2 := VOk.applyDiffs (valOps.size v) r.diffs k.toNat h1
      simp only
      rcases hB : Heap.applyDiffs valOps (valOps.size v) v' r.diffs k.toNat with ⟨v2, _ | e⟩
      · rw [hB] at h2; exact h2
      · rw [hB] at h2; exact h2
    · rw [hA] at h1; exact h1

theorem VOk.loadLoopW (iv : Int) (x : Nat) (ds : List Nat) : ∀ (i : Nat) {v : VMem} (st : Dict Int Nat), VOk v →
    VOk (loadLoopW valOps iv x i v ds st).1 := by
  induction ds with
  | nil => intro i v st h; exact h
  | cons d ds ih =>
    intro i v st h
    have h1 : VOk (valOps.step v (.batch x d)).1 := h.step _
    simp only [Heap.loadLoopW]
    rcases hA : valOps.step v (.batch x d) with ⟨v', _ | e⟩
    · rw [hA] at h1
      simp only
      split_ifs with h0 hc
      · exact h1
      · have h2 : VOk (valOps.step v' (.copy x)).1 := h1.step _
        rcases hB : valOps.step v' (.copy x) with ⟨v2, _ | e⟩
        · rw [hB] at h2; exact ih _ _ h2
        · rw [hB] at h2; exact h2
      · exact ih _ _ h1
    · rw [hA] at h1; exact h1

theorem VOk.nextW {v : VMem} (h : VOk v) (r : HResult) (g : Gen) : VOk (nextW valOps v r g).1 := by
  unfold Heap.nextW
  by_cases hd : g.done = true
  · rw [if_pos hd]; exact h
  · rw [if_neg hd]
    cases g.live with
    | none =>
      have h1 : VOk (valOps.step v (.copy r.initial)).1 := h.step _
      simp only
      split_ifs <;> exact h1
    | some x =>
      have h1 : VOk (valOps.step v (.batch x (r.diffs.getD (g.pos - 1) 0))).1 := h.step _
      simp only
      rcases hA : valOps.step v (.batch x (r.diffs.getD (g.pos - 1) 0)) with ⟨v', _ | e⟩
      · rw [hA] at h1
        simp only
        split_ifs <;> exact h1
      · rw [hA] at h1; exact h1

theorem VOk.wstep {w : World VMem} (h : VOk w.mem) (c : Cmd) : VOk (w.step valOps c).1.mem := by
  cases c with
  | prim p => exact h.step p
  | newResult i => simp only [World.step]; split_ifs <;> exact h
  | addStep r j =>
    simp only [World.step]
    cases w.results[r]? with
    | none => exact h
    | some x => simp only; split_ifs <;> exact h
  | setOutput r j =>
    simp only [World.step]
    cases w.results[r]? with
    | none => exact h
    | some x => simp only; split_ifs <;> exact h
  | getStep r k =>
    simp only [World.step]
    cases w.results[r]? with
    | none => exact h
    | some x => exact h.getStepW x k
  | loadSteps r k =>
    simp only [World.step]
    cases w.results[r]? with
    | none => exact h
    | some x =>
      refine VOk.loadLoopW k _ x.diffs 0 _ ?_
      exact (VOk.step (VOk.step h _) _ : VOk ((((w.mem.step (.copy x.initial)).1).step (.copy x.initial)).1))
  | steps r => exact h
  | next g =>
    simp only [World.step]
    cases w.gens[g]? with
    | none => exact h
    | some x =>
      simp only
      cases w.results[x.res]? with
      | none => exact h
      | some r => exact h.nextW r x

theorem VOk.reformatAll (js : List Nat) : ∀ {v : VMem}, VOk v → VOk (reformatAll valJson v js).1 := by
  induction js with
  | nil => intro v h; exact h
  | cons j js ih =>
    intro v h
    have h1 : VOk (valJson.reformat v j).1 := h.reformat j
    simp only [Heap.reformatAll]
    rcases hA : valJson.reformat v j with ⟨v', _ | e⟩
    · rw [hA] at h1; exact ih h1
    · rw [hA] at h1; exact h1

theorem VOk.jstep {w : World VMem} (h : VOk w.mem) (c : JCmd) : VOk (w.jstep valJson c).1.mem := by
  cases c with
  | cmd c => exact VOk.wstep h c
  | reload i => exact h.reload i
  | reloadResult r =>
    simp only [World.jstep, World.reloadResult]
    cases w.results[r]? with
    | none => exact h
    | some q =>
      simp only
      have h1 : VOk (valJson.reload w.mem q.initial).1 := h.reload _
      rcases hA : valJson.reload w.mem q.initial with ⟨v', _ | e⟩
      · rw [hA] at h1
        have h2 := VOk.reformatAll q.diffs h1
        simp only
        rcases hB : Heap.reformatAll valJson v' q.diffs with ⟨v2, e | js⟩
        · rw [hB] at h2; exact h2
        · rw [hB] at h2; exact h2
      · rw [hA] at h1; exact h1

theorem VOk.jrun {w : World VMem} (h : VOk w.mem) (cs : List JCmd) : VOk (w.jrun valJson cs).1.mem := by
  induction cs generalizing w with
  | nil => exact h
  | cons c cs ih => exact ih (VOk.jstep h c)

/-! ### names exist -/

theorem reformatAll_names (js : List Nat) : ∀ {v v' : VMem} {ks : List Nat}, Heap.reformatAll valJson v js = (v', .ok ks) →
    ∀ d ∈ ks, d < v'.vals.length := by
  induction js with
  | nil => intro v v' ks h; cases h; simp
  | cons j js ih =>
    intro v v' ks h
    simp only [Heap.reformatAll] at h
    have hone : ∀ {v1 : VMem}, valJson.reformat v j = (v1, none) → v1.vals.length = v.vals.length + 1 := by
      intro v1 h1
      change v.reformat j = (v1, none) at h1
      unfold VMem.reformat at h1
      cases hx : SimResult.reformat (v.val j) with
      | error e => rw [hx] at h1; cases h1
      | ok d => rw [hx] at h1; cases h1; simp
    rcases hA : valJson.reformat v j with ⟨v1, _ | e⟩
    · rw [hA] at h
      have h1 := hone hA
      simp only at h
      rcases hB : Heap.reformatAll valJson v1 js with ⟨v2, e | ks'⟩
      · rw [hB] at h; cases h
      · rw [hB] at h
        simp only [Except.map, Prod.mk.injEq, Except.ok.injEq] at h
        obtain ⟨rfl, rfl⟩ := h
        have hk := (reformatAll_keeps js v1).nvals
        rw [hB] at hk
        simp only at hk
        intro d hd
        rcases List.mem_cons.1 hd with rfl | hd
        · have : valJson.nvals v = v.vals.length := rfl
          omega
        · exact ih hB d hd
    · rw [hA] at h; cases h

theorem WWF.jstep {w : World VMem} (h : WWF w) (c : JCmd) : WWF (w.jstep valJson c).1 := by
  cases c with
  | cmd c => exact (h.step c).1
  | reload i => exact h.grow (keeps_reload w.mem i)
  | reloadResult r =>
    simp only [World.jstep, World.reloadResult]
    cases hq : w.results[r]? with
    | none => exact h
    | some q =>
      simp only
      have hk : Keeps (· = q.initial) w.mem (valJson.reload w.mem q.initial).1 := keeps_reload w.mem q.initial
      have hsz : (valJson.reload w.mem q.initial).2 = none →
          w.mem.states.length < (valJson.reload w.mem q.initial).1.states.length := by
        have hlt := h.initial q (List.mem_of_getElem? hq)
        obtain ⟨s, hs⟩ := some_of_lt hlt
        show (w.mem.reload q.initial).2 = none → _ < (w.mem.reload q.initial).1.states.length
        unfold VMem.reload
        rw [hs]
        simp only
        cases intIds s with
        | error e => intro hh; cases hh
        | ok s' => intro _; simp
      rcases hA : valJson.reload w.mem q.initial with ⟨v', _ | e⟩
      · rw [hA] at hk hsz
        simp only at hk hsz ⊢
        have hk2 := reformatAll_keeps q.diffs v'
        rcases hB : Heap.reformatAll valJson v' q.diffs with ⟨v2, e | js⟩
        · rw [hB] at hk2
          exact h.grow (hk.trans (hk2.mono fun _ _ hf => hf.elim))
        · rw [hB] at hk2
          have hw := h.grow (hk.trans (hk2.mono fun _ _ hf => hf.elim))
          have hn := reformatAll_names q.diffs hB
          refine ⟨hw.gens, fun r' hr' => ?_, fun r' hr' => ?_, fun r' hr' => ?_⟩
          · rcases List.mem_append.1 hr' with hr' | hr'
            · exact hw.initial r' hr'
            · rw [List.mem_singleton.1 hr']
              have := hk2.size
              have := hsz trivial
              show w.mem.states.length < v2.states.length
              simp only at *
              omega
          · rcases List.mem_append.1 hr' with hr' | hr'
            · exact hw.diffs r' hr'
            · rw [List.mem_singleton.1 hr']; exact hn
          · rcases List.mem_append.1 hr' with hr' | hr'
            · exact hw.stored r' hr'
            · rw [List.mem_singleton.1 hr']; intro p hp; cases hp
      · rw [hA] at hk
        exact h.grow hk

theorem WWF.jrun {w : World VMem} (h : WWF w) (cs : List JCmd) : WWF (w.jrun valJson cs).1 := by
  induction cs generalizing w with
  | nil => exact h
  | cons c cs ih => exact ih (h.jstep c)

/-- What holds of every situation that a client can bring about. -/
theorem JReachable.sim {w : World HMem} (h : JReachable w) : ∃ v, WSim w v ∧ WWF v ∧ VOk v.mem := by
  obtain ⟨cs, rfl⟩ := h
  refine ⟨_, (wsim_init.jrun cs).2, wwf_init.jrun cs, VOk.jrun ⟨?_, ?_⟩ cs⟩
  · intro s hs; cases hs
  · intro s hs; cases hs

end Heap
end Pyl
