import Verif.Lemmas.HeapWF
import Verif.Props.Heap
/-
C118: states and results rebuilt in memory from their own dicts.
-/
set_option autoImplicit false

namespace Pyl
namespace Heap

/-! ### states -/

/-- C118: whatever a client does with states, results and values, also when it rebuilds states and results from their
dicts, every command gives the answer and every state object shows the content that they would if states were plain
values, where rebuilding a state gives the original the same int ids as the new state. -/
theorem C118_as_values (cs : List JCmd) :
    (World.jrun heapJson ⟨.init, [], []⟩ cs).2 = (World.jrun valJson ⟨.init, [], []⟩ cs).2 ∧
    ∀ (i : Nat) (s : SimState), Shows (World.jrun heapJson ⟨.init, [], []⟩ cs).1.mem i s ↔
      (World.jrun valJson ⟨.init, [], []⟩ cs).1.mem.states[i]? = some s := by
  obtain ⟨h1, h2⟩ := wsim_init.jrun cs
  exact ⟨h1, fun i s => h2.mem.shows i s⟩

theorem readable_iff (s : SimState) : Readable s ↔ ∀ kv ∈ s.sites, ∃ n, kv.1.toInt = .ok n := by
  constructor
  · intro h kv hkv
    exact h kv.1 (List.mem_map.2 ⟨kv, hkv, rfl⟩)
  · intro h k hk
    obtain ⟨kv, hkv, rfl⟩ := List.mem_map.1 hk
    exact h kv hkv

theorem intIds_ok {s : SimState} (h : Readable s) : ∃ s', intIds s = .ok s' ∧ ReadAsInts s s' := by
  obtain ⟨l, hl⟩ := toIntPairs_ok ((readable_iff s).1 h)
  refine ⟨⟨Dict.ofPairs l, s.general⟩, by rw [intIds_eq, hl]; rfl, rfl, fun k hk => ?_, fun n => ?_⟩
  · obtain ⟨kv, hkv, rfl⟩ := List.mem_map.1 hk
    rcases Dict.mem_update hkv with hkv | hkv
    · cases hkv
    · exact toIntPairs_ints hl kv hkv
  · show Dict.get? (Dict.update [] l) (.int n) = _
    rw [Dict.get?_update', toIntPairs_find hl]
    simp

theorem intIds_error {s : SimState} (h : ¬ Readable s) : intIds s = .error .valueError := by
  rw [intIds_eq, toIntPairs_error fun hh => h ((readable_iff s).2 hh)]; rfl

theorem intIds_self {s : SimState} (hw : s.WF) (h : HasIntIds s) : intIds s = .ok s := by
  rw [intIds_eq, toIntPairs_of_ints fun kv hkv => h kv.1 (List.mem_map.2 ⟨kv, hkv, rfl⟩)]
  simp only [Except.map, ofPairs_of_nodup _ hw.sites]

/-- The value model of `from_dict` agrees: without object identity `from_dict(s.as_dict())` is the state with its ids read
as ints. -/
theorem fromDict_values (s : SimState) : SimState.fromDict s.asDict = intIds s := by
  have h0 : Dict.get? s.asDict (.str "state") = some (.dict s.stateDict) := rfl
  have h1 : Dict.get? s.stateDict SITES = some (.dict (s.sites.map fun kp => (kp.1, .dict kp.2))) := rfl
  have h2 : Dict.get? s.stateDict GENERAL = s.general.map Val.dict := by
    unfold SimState.stateDict
    rw [Dict.get?_cons, if_neg (by decide)]
    cases s.general <;> rfl
  have hrel : KRel (fun (p : Props) (x : Val) => x = .dict p) s.sites (s.sites.map fun kp => (kp.1, Val.dict kp.2)) := by
    induction s.sites with
    | nil => exact .nil
    | cons kp l ih => exact .cons ⟨rfl, rfl⟩ ih
  have hcomm : ∀ (d : Dict Key Props) (e : Props), KRel (fun (p : Props) (x : Val) => x = .dict p) d e →
      e.mapM (fun kv => do pure (kv.1, ← SimState.asProps kv.2)) = (.ok d : Py _) := by
    intro d e hr
    induction hr with
    | nil => rfl
    | @cons p q d e hp _ ih =>
      obtain ⟨k, p⟩ := p
      obtain ⟨k', x⟩ := q
      obtain ⟨hk, hx⟩ := hp
      simp only at hk hx
      subst hk hx
      rw [List.mapM_cons, ih]; rfl
  rw [SimState.fromDict, h0]
  simp only [h1, vIntKeys_eq, intIds_eq, h2]
  have hr2 := toIntPairs_rel hrel
  cases he : toIntPairs (s.sites.map fun kp => (kp.1, Val.dict kp.2)) with
  | error e =>
    rw [he] at hr2
    simp only at hr2
    rw [hr2]; rfl
  | ok e' =>
    rw [he] at hr2
    obtain ⟨d', h3, h4⟩ := hr2
    rw [h3]
    have h5 := hcomm _ _ (KRel.ofPairs h4)
    simp only [Except.map, ok_bind, h5]
    cases s.general <;> rfl

theorem shows_new {w : World HMem} {v : World VMem} (h : WSim w v) {i : Nat} {s s' : SimState}
    (hs : v.mem.states[i]? = some s) (hi : intIds s = .ok s') :
    (w.jstep heapJson (.reload i)).2 = .ok none ∧
    Shows (w.jstep heapJson (.reload i)).1.mem w.mem.roots.length s' ∧
    Shows (w.jstep heapJson (.reload i)).1.mem i s' ∧
    ∀ (j : Nat) (t : SimState), j ≠ i → Shows w.mem j t → Shows (w.jstep heapJson (.reload i)).1.mem j t := by
  obtain ⟨h1, h2⟩ := h.jstep (.reload i)
  have e : v.mem.reload i = ({ v.mem with states := v.mem.states.set i s' ++ [s'] }, none) := by
    simp only [VMem.reload, hs, hi]
  have e2 : (v.jstep valJson (.reload i)).1.mem = { v.mem with states := v.mem.states.set i s' ++ [s'] } := by
    show (v.mem.reload i).1 = _
    rw [e]
  have e3 : (v.jstep valJson (.reload i)).2 = .ok none := by
    show (match (v.mem.reload i).2 with | none => Except.ok none | some e => .error e) = _
    rw [e]
  have hlen : w.mem.roots.length = v.mem.states.length := h.mem.size
  refine ⟨h1.trans e3, ?_, ?_, fun j t hj ht => ?_⟩
  · rw [h2.mem.shows, e2, hlen]
    simp
  · rw [h2.mem.shows, e2]
    simp only
    rw [List.getElem?_append_left (by simpa using Keeps.lt hs), List.getElem?_set_self (Keeps.lt hs)]
  · rw [h2.mem.shows, e2]
    have ht' := (h.mem.shows j t).1 ht
    simp only
    rw [List.getElem?_append_left (by simpa using Keeps.lt ht'), List.getElem?_set_ne (Ne.symm hj)]
    exact ht'

/-- C118: `SimulationState.from_dict(s.as_dict())` for a state whose ids can all be read as ints: the new state has the
sites under their int ids, and so has the original afterwards; no other state changes. -/
theorem C118_reload {w : World HMem} (hw : JReachable w) {i : Nat} {s : SimState} (hs : Shows w.mem i s) (hr : Readable s) :
    ∃ s', ReadAsInts s s' ∧ (w.jstep heapJson (.reload i)).2 = .ok none ∧
      Shows (w.jstep heapJson (.reload i)).1.mem w.mem.roots.length s' ∧
      Shows (w.jstep heapJson (.reload i)).1.mem i s' ∧
      ∀ (j : Nat) (t : SimState), j ≠ i → Shows w.mem j t → Shows (w.jstep heapJson (.reload i)).1.mem j t := by
  obtain ⟨v, h1, h2, h3⟩ := hw.sim
  obtain ⟨s', h4, h5⟩ := intIds_ok hr
  exact ⟨s', h5, shows_new h1 ((h1.mem.shows i s).1 hs) h4⟩

/-- C118: with an id that cannot be read as an int: ValueError, no new state, and every state shows what it did. -/
theorem C118_unreadable {w : World HMem} (hw : JReachable w) {i : Nat} {s : SimState} (hs : Shows w.mem i s)
    (hr : ¬ Readable s) : (w.jstep heapJson (.reload i)).2 = .error .valueError ∧
      ∀ (j : Nat) (t : SimState), Shows (w.jstep heapJson (.reload i)).1.mem j t ↔ Shows w.mem j t := by
  obtain ⟨v, h1, h2, h3⟩ := hw.sim
  obtain ⟨h4, h5⟩ := h1.jstep (.reload i)
  have hsv := (h1.mem.shows i s).1 hs
  have e : v.mem.reload i = (v.mem, some .valueError) := by
    simp only [VMem.reload, hsv, intIds_error hr]
  refine ⟨h4.trans ?_, fun j t => ?_⟩
  · show (match (v.mem.reload i).2 with | none => Except.ok none | some e => .error e) = _
    rw [e]
  · rw [h5.mem.shows, h1.mem.shows]
    show (v.mem.reload i).1.states[j]? = _ ↔ _
    rw [e]

/-- C118: for a state with int ids the new state shows what the original shows, and nothing else changes. -/
theorem C118_int_ids {w : World HMem} (hw : JReachable w) {i : Nat} {s : SimState} (hs : Shows w.mem i s)
    (hi : HasIntIds s) : (w.jstep heapJson (.reload i)).2 = .ok none ∧
      Shows (w.jstep heapJson (.reload i)).1.mem w.mem.roots.length s ∧
      ∀ (j : Nat) (t : SimState), Shows w.mem j t → Shows (w.jstep heapJson (.reload i)).1.mem j t := by
  obtain ⟨v, h1, h2, h3⟩ := hw.sim
  have hsv := (h1.mem.shows i s).1 hs
  obtain ⟨h4, h5, h6, h7⟩ := shows_new h1 hsv (intIds_self (h3.states s (List.mem_of_getElem? hsv)) hi)
  refine ⟨h4, h5, fun j t ht => ?_⟩
  by_cases hj : j = i
  · subst hj
    have : t = s := by
      have := (h1.mem.shows j t).1 ht
      rw [hsv] at this
      exact (Option.some.inj this).symm
    rw [this]; exact h6
  · exact h7 j t hj ht

/-- C118: after that the two states are independent: calls of update methods that do not name one of them leave what it
shows. -/
theorem C118_independent {w : World HMem} (hw : JReachable w) (i j : Nat) {t : SimState}
    (ht : Shows (w.jstep heapJson (.reload i)).1.mem j t) (ps : List Prim) (hp : ∀ p ∈ ps, p.target ≠ some j) :
    Shows ((w.jstep heapJson (.reload i)).1.mem.run ps) j t := by
  obtain ⟨v, h1, h2, h3⟩ := hw.sim
  have h4 := (h1.jstep (.reload i)).2
  rw [(h4.mem.run ps).shows]
  exact VMem.run_states _ ps j t ((h4.mem.shows j t).1 ht) hp

/-- C118, for arbitrary code that mutates what it can reach and any dict handed to `from_dict`: one piece of code holds
values made before (among them the dict), another one holds only the new state.  Whatever they do in turn, no action of
one changes an object that the other can reach. -/
theorem C118_isolated (h : Heap) (hd : NoDangling h) (vs : List HVal) (hv : ∀ l, HVal.ref l ∈ vs → l < h.length)
    (v : HVal) (h' : Heap) (r : Nat) (hf : fromDict h v = (h', .ok r)) (acts : List (Bool × Act)) (a : Act) :
    let d := acts.foldl Duo.step ⟨h', vs, [.ref r]⟩
    (∀ l, Reach d.heap d.left l → (d.step (true, a)).heap[l]? = d.heap[l]?) ∧
    (∀ l, Reach d.heap d.right l → (d.step (false, a)).heap[l]? = d.heap[l]?) := by
  unfold fromDict at hf
  cases hd1 : dictAt h v with
  | error e => rw [hd1] at hf; cases hf
  | ok d =>
    rw [hd1] at hf
    simp only at hf
    cases hg : Dict.get? d (.str "state") with
    | none => rw [hg] at hf; cases hf
    | some x =>
      rw [hg] at hf
      cases x with
      | ref l =>
        simp only at hf
        cases hl : h[l]? with
        | none => rw [hl] at hf; cases hf
        | some o =>
          rw [hl] at hf
          cases o with
          | dict st =>
            simp only at hf
            cases hsi : Dict.get? st SITES with
            | none => rw [hsi] at hf; cases hf
            | some sv =>
              rw [hsi] at hf
              simp only at hf
              cases hsd : dictAt h sv with
              | error e => rw [hsd] at hf; cases hf
              | ok sd =>
                rw [hsd] at hf
                simp only at hf
                cases hk : intKeys sd with
                | error e => rw [hk] at hf; cases hf
                | ok nd =>
                  rw [hk] at hf
                  simp only [Prod.mk.injEq, Except.ok.injEq] at hf
                  obtain ⟨rfl, rfl⟩ := hf
                  have hll := getElem?_lt hl
                  set h1 := (h ++ [Obj.dict nd]).set l (.dict (Dict.set st SITES (.ref h.length))) with hh1
                  have hlen : h1.length = h.length + 1 := by simp [hh1]
                  have hndv : ∀ l', HVal.ref l' ∈ (Obj.dict nd).contents → l' < h.length := by
                    intro l' hl'
                    -- the values of the new dict are those of the old one
                    have hsub : ∀ x, x ∈ nd.map Prod.snd → x ∈ sd.map Prod.snd := by
                      intro x hx
                      rw [intKeys_eq] at hk
                      cases hp : toIntPairs sd with
                      | error e => rw [hp] at hk; cases hk
                      | ok l2 =>
                        rw [hp] at hk; cases hk
                        obtain ⟨kv, hkv, rfl⟩ := List.mem_map.1 hx
                        have hkv2 : kv ∈ l2 := by
                          rcases Dict.mem_update hkv with h | h
                          · cases h
                          · exact h
                        obtain ⟨p, hp2, he⟩ := mapM_mem hp kv hkv2
                        cases hk2 : p.1.toInt with
                        | error e => rw [hk2] at he; cases he
                        | ok n => rw [hk2] at he; cases he; exact List.mem_map.2 ⟨p, hp2, rfl⟩
                    cases sv with
                    | ref a2 =>
                      simp only [dictAt] at hsd
                      cases ha2 : h[a2]? with
                      | none => rw [ha2] at hsd; cases hsd
                      | some o2 =>
                        rw [ha2] at hsd
                        cases o2 with
                        | dict d2 => cases hsd; exact hd a2 _ ha2 l' (hsub _ hl')
                        | list _ => cases hsd
                        | tup _ => cases hsd
                    | pyNone => cases hsd
                    | num _ => cases hsd
                    | str _ => cases hsd
                  have hd' : NoDangling h1 := by
                    intro l2 o2 hl2 l' hl'
                    rw [hlen]
                    by_cases e1 : l2 = l
                    · subst e1
                      rw [hh1, List.getElem?_set_self (by simp; omega)] at hl2
                      cases hl2
                      simp only [Obj.contents, List.mem_map] at hl'
                      obtain ⟨kv, hkv, he⟩ := hl'
                      rcases Dict.mem_set hkv with hkv | ⟨hkv, _⟩
                      · have := hd l2 _ hl l' (by simp only [Obj.contents, List.mem_map]; exact ⟨kv, hkv, he⟩)
                        omega
                      · rw [hkv] at he; cases he; omega
                    · rw [hh1, List.getElem?_set_ne (Ne.symm e1)] at hl2
                      by_cases e2 : l2 < h.length
                      · rw [List.getElem?_append_left e2] at hl2
                        have := hd l2 o2 hl2 l' hl'
                        omega
                      · rw [List.getElem?_append_right (by omega)] at hl2
                        have e3 : l2 - h.length = 0 := by
                          by_contra hc
                          rw [List.getElem?_eq_none (by simp; omega)] at hl2; cases hl2
                        rw [e3] at hl2
                        cases hl2
                        have := hndv l' hl'
                        omega
                  have := C09_isolated h1 hd' vs (fun l2 h2 => by have := hv l2 h2; omega) (.ref l)
                    (fun l2 h2 => by cases h2; omega) acts a
                  exact this
          | list _ => cases hf
          | tup _ => cases hf
      | pyNone => cases hf
      | num _ => cases hf
      | str _ => cases hf

theorem run_frame {m : HMem} {v : VMem} {as : List Nat} (h : MemSim m v as) (ps : List Prim) :
    ∃ as', MemSim (m.run ps) (v.run ps) as' ∧ Frame m (m.run ps) as as' := by
  induction ps generalizing m v as with
  | nil => exact ⟨as, h, .same as rfl rfl⟩
  | cons p ps ih =>
    obtain ⟨_, as1, h1, h2⟩ := step_frame h p
    obtain ⟨as2, h3, h4⟩ := ih h1
    exact ⟨as2, h3, h2.trans h4⟩

/-- C118: the dict returned by `as_dict()` is live: after any calls on states it shows, under `"state"`, what the state
shows at that time. -/
theorem C118_live {w : World HMem} (hw : JReachable w) {i r : Nat} (hr : w.mem.roots[i]? = some r) (ps : List Prim)
    (s : SimState) :
    let m := HMem.run { w.mem with heap := (asDict w.mem.heap r).1 } ps
    DictShows m.heap (asDict w.mem.heap r).2 s ↔ Shows m i s := by
  intro m
  obtain ⟨v, h1, h2, h3⟩ := hw.sim
  obtain ⟨as, h4⟩ := h1.mem
  have h5 := h4.alloc [Obj.dict [(.str "state", .ref r), (.str "@module", .str "pylattica.core.simulation_state"),
    (.str "@class", .str "SimulationState")]]
  obtain ⟨as', h6, h7⟩ := run_frame h5 ps
  have hP : w.mem.heap.length ∉ w.mem.roots ++ as := fun hh => by have := h4.private_lt _ hh; omega
  obtain ⟨h8, _⟩ := h7.keep w.mem.heap.length (by simp) hP
  have h9 := h7.roots i r hr
  have hcell : m.heap[w.mem.heap.length]? = some (.dict [(.str "state", .ref r), (.str "@module", .str "pylattica.core.simulation_state"),
      (.str "@class", .str "SimulationState")]) := by
    refine h8.trans ?_
    simp
  constructor
  · rintro ⟨l, d, root, n, e1, e2, e3, e4⟩
    have hl : l = w.mem.heap.length := by
      simp only [asDict, HVal.ref.injEq] at e1; exact e1.symm
    subst hl
    rw [hcell] at e2; cases e2
    have : root = r := by
      have e5 : some (HVal.ref r) = some (.ref root) := e3
      simpa using e5.symm
    subst this
    exact ⟨root, n, h9, e4⟩
  · rintro ⟨root, n, e1, e2⟩
    have : root = r := by
      have e3 : some r = some root := h9.symm.trans e1
      simpa using e3.symm
    subst this
    exact ⟨_, _, root, n, rfl, hcell, rfl, e2⟩

/-! ### results -/

/-- What a result reports, in terms of values. -/
theorem reports_sim {w : World HMem} {v : World VMem} (h : WSim w v) (hw : WWF v) {r : Nat} {q : HResult}
    (hq : v.results[r]? = some q) {t0 : SimState} (ht0 : v.mem.states[q.initial]? = some t0) (k : Int) (o : Py SimState) :
    Reports w r k o ↔ match Dict.get? q.stored k with
      | some y => ∃ s, o = .ok s ∧ v.mem.states[y]? = some s
      | none => o = stepOf t0 (q.diffs.map v.mem.val) k.toNat := by
  have hqm := List.mem_of_getElem? hq
  obtain ⟨h1, h2⟩ := h.step (.getStep r k)
  have e1 : (v.step valOps (.getStep r k)) = ({ v with mem := (getStepW valOps v.mem q k).1 },
      (getStepW valOps v.mem q k).2.map some) := by simp only [World.step, hq]
  cases hst : Dict.get? q.stored k with
  | some y =>
    have f1 : getStepW valOps v.mem q k = (v.mem, .ok y) := by simp only [getStepW, hst]
    rw [f1] at e1
    cases o with
    | ok s =>
      simp only [Reports, Except.ok.injEq]
      rw [h1, e1]
      constructor
      · rintro ⟨z, hz, hzs⟩
        simp only [Except.map, Except.ok.injEq, Option.some.injEq] at hz
        subst hz
        rw [h2.mem.shows, e1] at hzs
        exact ⟨s, rfl, hzs⟩
      · rintro ⟨s1, rfl, hs⟩
        refine ⟨y, rfl, ?_⟩
        rw [h2.mem.shows, e1]; exact hs
    | error e =>
      simp only [Reports]
      rw [h1, e1]
      constructor
      · intro hh; cases hh
      · rintro ⟨s, hh, _⟩; cases hh
  | none =>
    have g1 := getStepW_val v.mem q k t0 ht0 hst (hw.diffs q hqm)
    cases hso : stepOf t0 (q.diffs.map v.mem.val) k.toNat with
    | error e =>
      rw [hso] at g1
      simp only at g1
      cases o with
      | ok s =>
        simp only [Reports]
        rw [h1, e1]
        constructor
        · rintro ⟨z, hz, _⟩
          simp only [g1.2] at hz; cases hz
        · intro hh; cases hh
      | error e' =>
        simp only [Reports]
        rw [h1, e1]
        simp only [g1.2, Except.map, Except.error.injEq]
        exact eq_comm
    | ok s1 =>
      rw [hso] at g1
      simp only at g1
      cases o with
      | ok s =>
        simp only [Reports]
        rw [h1, e1]
        simp only [g1.2.1, Except.map, Except.ok.injEq, Option.some.injEq]
        constructor
        · rintro ⟨z, hz, hzs⟩
          subst hz
          rw [h2.mem.shows, e1] at hzs
          simp only [g1.2.2, Option.some.injEq] at hzs
          exact hzs.symm
        · rintro rfl
          refine ⟨_, rfl, ?_⟩
          rw [h2.mem.shows, e1]; exact g1.2.2
      | error e' =>
        simp only [Reports]
        rw [h1, e1]
        simp only [g1.2.1, Except.map]
        constructor
        · intro hh; cases hh
        · intro hh; cases hh

theorem reformat_plain {v : VMem} (hv : VOk v) {j : Nat} (hp : PlainUpdate (v.val j)) :
    v.reformat j = ({ v with vals := v.vals ++ [v.val j] }, none) := by
  have hw := hv.val j
  cases hx : v.val j with
  | dict d =>
    rw [hx] at hp hw
    have hk : ∀ kv ∈ d, ∃ n, kv.1 = .int n := fun kv hkv => hp kv.1 (List.mem_map.2 ⟨kv, hkv, rfl⟩)
    have hf : d.filter (fun kv => decide (kv.1 ≠ GENERAL)) = d := by
      rw [List.filter_eq_self]
      intro kv hkv
      obtain ⟨n, hn⟩ := hk kv hkv
      rw [hn]; simp [GENERAL]
    have hd : Dict.WF d := by cases hw with | dict h _ => exact h
    have : SimResult.reformat (.dict d) = .ok d := by
      simp only [SimResult.reformat, vIntKeys_eq]
      rw [hf, toIntPairs_of_ints hk]
      simp only [Except.map, ofPairs_of_nodup _ hd]
    simp only [VMem.reformat, hx, this]
  | pyNone => rw [hx] at hp; exact hp.elim
  | num _ => rw [hx] at hp; exact hp.elim
  | str _ => rw [hx] at hp; exact hp.elim
  | list _ => rw [hx] at hp; exact hp.elim
  | tup _ => rw [hx] at hp; exact hp.elim

theorem reformatAll_plain (js : List Nat) : ∀ {v : VMem}, VOk v → (∀ j ∈ js, j < v.vals.length ∧ PlainUpdate (v.val j)) →
    ∃ v' ks, reformatAll valJson v js = (v', .ok ks) ∧ VOk v' ∧ ks.map v'.val = js.map v.val := by
  induction js with
  | nil => intro v h _; exact ⟨v, [], rfl, h, rfl⟩
  | cons j js ih =>
    intro v hv hj
    have h1 := reformat_plain hv (hj j (by simp)).2
    have hv1 : VOk { v with vals := v.vals ++ [v.val j] } := hv.push (hv.val j)
    have hk : Keeps (fun _ => False) v { v with vals := v.vals ++ [v.val j] } := by
      have := keeps_reformat v j
      rw [h1] at this; exact this
    obtain ⟨v', ks, h2, h3, h4⟩ := ih hv1 (fun j' hj' => by
      obtain ⟨h5, h6⟩ := hj j' (by simp [hj'])
      refine ⟨by simp; omega, ?_⟩
      rw [hk.val h5]; exact h6)
    refine ⟨v', v.vals.length :: ks, ?_, h3, ?_⟩
    · simp only [reformatAll]
      have : valJson.reformat v j = ({ v with vals := v.vals ++ [v.val j] }, none) := h1
      rw [this]
      simp only [h2]; rfl
    · have hk2 := reformatAll_keeps js { v with vals := v.vals ++ [v.val j] }
      rw [h2] at hk2
      rw [List.map_cons, List.map_cons, h4]
      congr 1
      · rw [hk2.val (by simp)]
        simp [VMem.val]
      · exact List.map_congr_left fun j' hj' => hk.val (hj j' (by simp [hj'])).1

theorem diffs_values {w : World HMem} {v : World VMem} (h : WSim w v) {q : HResult} {ws : List Val} (hd : Diffs w q ws) :
    ws = q.diffs.map v.mem.val := by
  obtain ⟨as, hm⟩ := h.mem
  unfold Diffs at hd
  generalize q.diffs = js at hd
  induction hd with
  | nil => rfl
  | @cons j x js ws hx _ ih =>
    rw [List.map_cons, ← ih, hx.unique (hm.val j).read]

theorem reformat_readable {x : Val} (h : ReadableUpdate x) : ∃ d, SimResult.reformat x = .ok d ∧ UpdateAsInts x (.dict d) := by
  cases x with
  | dict d =>
    have hr : ∀ kv ∈ d.filter (fun kv => decide (kv.1 ≠ GENERAL)), ∃ n, kv.1.toInt = .ok n := by
      intro kv hkv
      obtain ⟨h1, h2⟩ := List.mem_filter.1 hkv
      rcases h kv.1 (List.mem_map.2 ⟨kv, h1, rfl⟩) with h3 | h3
      · rw [h3] at h2; simp at h2
      · exact h3
    obtain ⟨l, hl⟩ := toIntPairs_ok hr
    refine ⟨Dict.ofPairs l, by simp only [SimResult.reformat, vIntKeys_eq, hl, Except.map], fun k hk => ?_, fun n => ?_⟩
    · obtain ⟨kv, hkv, rfl⟩ := List.mem_map.1 hk
      rcases Dict.mem_update hkv with hkv | hkv
      · cases hkv
      · exact toIntPairs_ints hl kv hkv
    · show Dict.get? (Dict.update [] l) (.int n) = _
      rw [Dict.get?_update', toIntPairs_find hl, ← List.filter_reverse, List.find?_filter]
      simp only [Dict.get?_nil, Option.or_none]
      congr 2
      funext a
      rw [Bool.eq_iff_iff]
      simp
  | pyNone => exact h.elim
  | num _ => exact h.elim
  | str _ => exact h.elim
  | list _ => exact h.elim
  | tup _ => exact h.elim

theorem reformatAll_readable (js : List Nat) : ∀ {v : VMem}, (∀ j ∈ js, j < v.vals.length ∧ ReadableUpdate (v.val j)) →
    ∃ v' ks, reformatAll valJson v js = (v', .ok ks) ∧ List.Forall₂ UpdateAsInts (js.map v.val) (ks.map v'.val) := by
  induction js with
  | nil => intro v _; exact ⟨v, [], rfl, .nil⟩
  | cons j js ih =>
    intro v hj
    obtain ⟨d, h1, h2⟩ := reformat_readable (hj j (by simp)).2
    have h3 : v.reformat j = ({ v with vals := v.vals ++ [.dict d] }, none) := by simp only [VMem.reformat, h1]
    have hk : Keeps (fun _ => False) v { v with vals := v.vals ++ [.dict d] } := by
      have := keeps_reformat v j
      rw [h3] at this; exact this
    obtain ⟨v', ks, h4, h5⟩ := ih (v := { v with vals := v.vals ++ [.dict d] }) (fun j' hj' => by
      obtain ⟨h5, h6⟩ := hj j' (by simp [hj'])
      refine ⟨by simp; omega, ?_⟩
      rw [hk.val h5]; exact h6)
    refine ⟨v', v.vals.length :: ks, ?_, ?_⟩
    · simp only [reformatAll]
      have : valJson.reformat v j = ({ v with vals := v.vals ++ [.dict d] }, none) := h3
      rw [this]
      simp only [h4]; rfl
    · have hk2 := reformatAll_keeps js { v with vals := v.vals ++ [.dict d] }
      rw [h4] at hk2
      refine .cons ?_ ?_
      · rw [hk2.val (by simp)]
        simp only [VMem.val, List.getD_eq_getElem?_getD]
        simp only [VMem.val, List.getD_eq_getElem?_getD] at h2
        simpa using h2
      · have : js.map v.val = js.map ({ v with vals := v.vals ++ [.dict d] } : VMem).val :=
          List.map_congr_left fun j' hj' => (hk.val (hj j' (by simp [hj'])).1).symm
        rw [this]; exact h5

/-- C118: `SimulationResult.from_dict(r.as_dict())` for ids that can be read as ints: the new result replays the updates with
their ids read as ints on the initial state with its ids read as ints.  It has an initial state of its own: calls of
update methods that do not name it (but may name the initial state of the original) do not change what it reports. -/
theorem C118_result_readable {w : World HMem} (hw : JReachable w) {r : Nat} {q : HResult} (hq : w.results[r]? = some q)
    {s : SimState} (hs : Shows w.mem q.initial s) (hr : Readable s) {ws : List Val} (hd : Diffs w q ws)
    (hp : ∀ x ∈ ws, ReadableUpdate x) :
    ∃ s' ws', ReadAsInts s s' ∧ List.Forall₂ UpdateAsInts ws ws' ∧ (w.jstep heapJson (.reloadResult r)).2 = .ok none ∧
      ∀ (ps : List Prim), (∀ p ∈ ps, p.target ≠ some w.mem.roots.length) → ∀ k,
        Reports { (w.jstep heapJson (.reloadResult r)).1 with mem := (w.jstep heapJson (.reloadResult r)).1.mem.run ps }
          w.results.length k (stepOf s' ws' k.toNat) := by
  obtain ⟨v, h1, h2, h3⟩ := hw.sim
  have hsv := (h1.mem.shows _ s).1 hs
  have hqv : v.results[r]? = some q := by rw [← h1.results]; exact hq
  have hqm := List.mem_of_getElem? hqv
  have hws := diffs_values h1 hd
  obtain ⟨h4, h5⟩ := h1.jstep (.reloadResult r)
  have h6 := h2.jstep (.reloadResult r)
  obtain ⟨s', hint, hs'⟩ := intIds_ok hr
  have hlen : w.mem.roots.length = v.mem.states.length := h1.mem.size
  have e1 : valJson.reload v.mem q.initial = ({ v.mem with states := v.mem.states.set q.initial s' ++ [s'] }, none) := by
    show v.mem.reload q.initial = _
    simp only [VMem.reload, hsv, hint]
  obtain ⟨v', ks, e2, h8⟩ := reformatAll_readable q.diffs (v := { v.mem with states := v.mem.states.set q.initial s' ++ [s'] })
    (fun j hj => ⟨h2.diffs q hqm j hj, by
      apply hp
      rw [hws]
      exact List.mem_map.2 ⟨j, hj, rfl⟩⟩)
  have hk2 := reformatAll_keeps q.diffs { v.mem with states := v.mem.states.set q.initial s' ++ [s'] }
  rw [e2] at hk2
  have e3 : v.jstep valJson (.reloadResult r) =
      ({ v with mem := v', results := v.results ++ [⟨v.mem.states.length, ks, [], none⟩] }, .ok none) := by
    simp only [World.jstep, World.reloadResult, hqv, e1, e2]
    rfl
  rw [e3] at h4 h5 h6
  refine ⟨s', ks.map v'.val, hs', by rw [hws]; exact h8, h4, fun ps ht k => ?_⟩
  have hkeep : Keeps (fun i => ∃ p ∈ ps, p.target = some i) v' (v'.run ps) :=
    keeps_run _ _ _ fun p hp' i hi' => ⟨p, hp', hi'⟩
  have h9 : WSim { (w.jstep heapJson (.reloadResult r)).1 with mem := (w.jstep heapJson (.reloadResult r)).1.mem.run ps }
      ⟨v'.run ps, v.results ++ [⟨v.mem.states.length, ks, [], none⟩], v.gens⟩ :=
    ⟨h5.mem.run ps, h5.results, h5.gens⟩
  have h10 : WWF ⟨v'.run ps, v.results ++ [⟨v.mem.states.length, ks, [], none⟩], v.gens⟩ := h6.grow hkeep
  have hn : w.results.length = v.results.length := by rw [h1.results]
  rw [hn]
  refine (reports_sim h9 h10 (q := ⟨v.mem.states.length, ks, [], none⟩) (by simp) (t0 := s') ?_ k _).2 ?_
  · exact hkeep.states _ _ (fun ⟨p, h11, h12⟩ => ht p h11 (by rw [hlen]; exact h12)) (hk2.states _ s' id (by simp))
  · show _ = _
    simp only
    congr 1
    refine List.map_congr_left fun d hd' => (hkeep.val ?_).symm
    exact h6.diffs ⟨v.mem.states.length, ks, [], none⟩ (by simp) d hd'

/-- C118: `SimulationResult.from_dict(r.as_dict())` for a result whose initial state has int ids and whose updates are
dicts with int ids: the new result reports at every step what replaying the recorded updates gives, no state changes, and
all results report what they did. -/
theorem C118_result {w : World HMem} (hw : JReachable w) {r : Nat} {q : HResult} (hq : w.results[r]? = some q)
    {s : SimState} (hs : Shows w.mem q.initial s) (hi : HasIntIds s) {ws : List Val} (hd : Diffs w q ws)
    (hp : ∀ x ∈ ws, PlainUpdate x) :
    (w.jstep heapJson (.reloadResult r)).2 = .ok none ∧
    (∀ k, Reports (w.jstep heapJson (.reloadResult r)).1 w.results.length k (stepOf s ws k.toNat)) ∧
    (∀ (j : Nat) (t : SimState), Shows w.mem j t → Shows (w.jstep heapJson (.reloadResult r)).1.mem j t) ∧
    ∀ (r' : Nat) (k : Int) (o : Py SimState), r' < w.results.length → Reports w r' k o →
      Reports (w.jstep heapJson (.reloadResult r)).1 r' k o := by
  obtain ⟨v, h1, h2, h3⟩ := hw.sim
  have hsv := (h1.mem.shows _ s).1 hs
  have hqv : v.results[r]? = some q := by rw [← h1.results]; exact hq
  have hqm := List.mem_of_getElem? hqv
  have hws := diffs_values h1 hd
  obtain ⟨h4, h5⟩ := h1.jstep (.reloadResult r)
  have h6 := h2.jstep (.reloadResult r)
  have hint := intIds_self (h3.states s (List.mem_of_getElem? hsv)) hi
  have e1 : valJson.reload v.mem q.initial = (⟨v.mem.states ++ [s], v.mem.vals⟩, none) := by
    show v.mem.reload q.initial = _
    simp only [VMem.reload, hsv, hint]
    congr 3
    apply List.ext_getElem?
    intro j
    by_cases hj : q.initial = j
    · subst hj; rw [List.getElem?_set_self (Keeps.lt hsv), hsv]
    · rw [List.getElem?_set_ne hj]
  have hv1 : VOk ⟨v.mem.states ++ [s], v.mem.vals⟩ := h3.add (h3.states s (List.mem_of_getElem? hsv))
  obtain ⟨v', ks, e2, h7, h8⟩ := reformatAll_plain q.diffs hv1 (fun j hj => ⟨h2.diffs q hqm j hj, by
    apply hp
    rw [hws]
    exact List.mem_map.2 ⟨j, hj, rfl⟩⟩)
  have hk2 := reformatAll_keeps q.diffs ⟨v.mem.states ++ [s], v.mem.vals⟩
  rw [e2] at hk2
  have hstates : ∀ (j : Nat) (t : SimState), v.mem.states[j]? = some t → v'.states[j]? = some t := by
    intro j t ht
    refine hk2.states j t id ?_
    show (v.mem.states ++ [s])[j]? = _
    rw [List.getElem?_append_left (Keeps.lt ht)]; exact ht
  have e3 : v.jstep valJson (.reloadResult r) =
      ({ v with mem := v', results := v.results ++ [⟨v.mem.states.length, ks, [], none⟩] }, .ok none) := by
    simp only [World.jstep, World.reloadResult, hqv, e1, e2]
    rfl
  rw [e3] at h4 h5 h6
  refine ⟨h4, fun k => ?_, fun j t ht => ?_, fun r' k o hr' ho => ?_⟩
  · have hn : w.results.length = v.results.length := by rw [h1.results]
    rw [hn]
    refine (reports_sim h5 h6 (q := ⟨v.mem.states.length, ks, [], none⟩) (by simp) (t0 := s) ?_ k _).2 ?_
    · refine hk2.states _ s id ?_
      simp
    · show _ = _
      simp only
      rw [h8, hws]
      rfl
  · rw [h5.mem.shows]
    exact hstates j t ((h1.mem.shows j t).1 ht)
  · rw [h1.results] at hr'
    obtain ⟨q', hq'⟩ : ∃ q', v.results[r']? = some q' := ⟨v.results[r'], by simp [hr']⟩
    have hq'm := List.mem_of_getElem? hq'
    obtain ⟨t0, ht0⟩ := some_of_lt (h2.initial q' hq'm)
    have ho' := (reports_sim h1 h2 hq' ht0 k o).1 ho
    refine (reports_sim h5 h6 (q := q') ?_ (hstates _ _ ht0) k o).2 ?_
    · show (v.results ++ _)[r']? = _
      rw [List.getElem?_append_left hr']; exact hq'
    · cases hst : Dict.get? q'.stored k with
      | some y =>
        rw [hst] at ho'
        obtain ⟨t, h9, h10⟩ := ho'
        exact ⟨t, h9, hstates y t h10⟩
      | none =>
        rw [hst] at ho'
        simp only at ho' ⊢
        rw [ho']
        congr 1
        refine List.map_congr_left fun d hd' => (hk2.val ?_).symm
        exact h2.diffs q' hq'm d hd'

/-! ### ids that are not ints -/

/-- A result with one step; its initial state has a site with the string id "7" and one with the int id 7. -/
def stringStart : List JCmd :=
  ([.prim .newState, .prim (.str "a"), .prim (.mkDict [(.str "x", 0)]), .prim (.setSite 0 (.str "7") 1), .prim (.str "b"),
    .prim (.mkDict [(.str "x", 2)]), .prim (.setSite 0 (.int 7) 3), .newResult 0, .prim (.mkDict [(.int 7, 1)]),
    .addStep 0 4] : List Cmd).map .cmd

def stringWorld : World HMem := (World.jrun heapJson ⟨.init, [], []⟩ stringStart).1

theorem stringWorld_reachable : JReachable stringWorld := ⟨stringStart, rfl⟩

/-- What a state object shows. -/
def shown (w : World HMem) (i : Nat) : Option SimState := w.mem.roots[i]?.bind (readState w.mem.heap 3)

/-- C118 without the condition on the ids is false: making a new state from `s.as_dict()` changes `s`; of the sites "7" and
7 only one is left. -/
theorem C118_false :
    shown stringWorld 0 = some ⟨[(.str "7", [(SITE_ID, .str "7"), (.str "x", .str "a")]),
      (.int 7, [(SITE_ID, .num 7), (.str "x", .str "b")])], some []⟩ ∧
    (stringWorld.jstep heapJson (.reload 0)).2 = .ok none ∧
    shown (stringWorld.jstep heapJson (.reload 0)).1 0 = some ⟨[(.int 7, [(SITE_ID, .num 7), (.str "x", .str "b")])], some []⟩ ∧
    shown (stringWorld.jstep heapJson (.reload 0)).1 1 = some ⟨[(.int 7, [(SITE_ID, .num 7), (.str "x", .str "b")])], some []⟩ := by
  decide +kernel

/-- C118 for results: `from_dict(r.as_dict())` changes what `r` itself reports for step 0. -/
theorem C118_result_false :
    let w := (stringWorld.jstep heapJson (.reloadResult 0)).1
    (stringWorld.jstep heapJson (.reloadResult 0)).2 = .ok none ∧ w.results.length = 2 ∧
    ((stringWorld.step heapOps (.getStep 0 0)).2 = .ok (some 1) ∧
      (shown (stringWorld.step heapOps (.getStep 0 0)).1 1).map SimState.siteIds = some [.str "7", .int 7]) ∧
    ((w.step heapOps (.getStep 0 0)).2 = .ok (some 2) ∧
      (shown (w.step heapOps (.getStep 0 0)).1 2).map SimState.siteIds = some [.int 7]) := by
  decide +kernel

/-! ### examples -/

/-- The state of `c33World` has int ids, and its updates are dicts with int ids. -/
def intWorld : World HMem := (World.jrun heapJson ⟨.init, [], []⟩ (c33Start.map .cmd)).1

example : JReachable intWorld ∧
    (∃ s, Shows intWorld.mem 0 s ∧ HasIntIds s ∧ Readable s) ∧
    ∃ q ws, intWorld.results[0]? = some q ∧ Diffs intWorld q ws ∧ (∀ x ∈ ws, PlainUpdate x) ∧ ws.length = 2 := by
  have h := (wsim_init.jrun (c33Start.map .cmd)).2
  refine ⟨⟨_, rfl⟩, ⟨⟨[(.int 0, [(SITE_ID, .num 0), (.str "x", .str "a")])], some []⟩, ?_, ?_, ?_⟩,
    ⟨0, [4, 7], [], none⟩, [.dict [(.int 0, .dict [(.str "x", .str "b")])], .dict [(.int 0, .dict [(.str "x", .str "c")])]],
    by rfl, ?_, ?_, rfl⟩
  · exact (h.mem.shows 0 _).2 (by rfl)
  · intro k hk
    simp only [SimState.siteIds, Dict.keys, List.map_cons, List.map_nil, List.mem_singleton] at hk
    exact ⟨0, hk⟩
  · intro k hk
    simp only [SimState.siteIds, Dict.keys, List.map_cons, List.map_nil, List.mem_singleton] at hk
    exact ⟨0, by rw [hk]; rfl⟩
  · exact .cons ⟨3, by decide +kernel⟩ (.cons ⟨3, by decide +kernel⟩ .nil)
  · intro x hx
    simp only [List.mem_cons, List.not_mem_nil, or_false] at hx
    rcases hx with rfl | rfl <;>
    · intro k hk
      simp only [Dict.keys, List.map_cons, List.map_nil, List.mem_singleton] at hk
      exact ⟨0, hk⟩

/-- The hypotheses of `C118_result_readable` with ids that are strings. -/
example : (∃ s, Shows stringWorld.mem 0 s ∧ Readable s ∧ ¬ HasIntIds s) ∧
    ∃ q ws, stringWorld.results[0]? = some q ∧ Diffs stringWorld q ws ∧ (∀ x ∈ ws, ReadableUpdate x) ∧ ws.length = 1 := by
  have h := (wsim_init.jrun stringStart).2
  refine ⟨⟨⟨[(.str "7", [(SITE_ID, .str "7"), (.str "x", .str "a")]), (.int 7, [(SITE_ID, .num 7), (.str "x", .str "b")])],
    some []⟩, (h.mem.shows 0 _).2 (by rfl), ?_, ?_⟩, ⟨0, [4], [], none⟩, [.dict [(.int 7, .dict [(.str "x", .str "a")])]],
    by rfl, .cons ⟨3, by decide +kernel⟩ .nil, ?_, rfl⟩
  · intro k hk
    simp only [SimState.siteIds, Dict.keys, List.map_cons, List.map_nil, List.mem_cons, List.not_mem_nil, or_false] at hk
    rcases hk with rfl | rfl
    · exact ⟨7, by decide +kernel⟩
    · exact ⟨7, rfl⟩
  · intro hh
    obtain ⟨n, hn⟩ := hh (.str "7") (by simp [SimState.siteIds, Dict.keys])
    cases hn
  · intro x hx
    simp only [List.mem_singleton] at hx
    subst hx
    intro k hk
    simp only [Dict.keys, List.map_cons, List.map_nil, List.mem_singleton] at hk
    exact .inr ⟨7, by rw [hk]; rfl⟩

/-- An id that cannot be read as an int, in a state that client code can make. -/
example : let w := (World.jrun heapJson ⟨.init, [], []⟩
      (([.prim .newState, .prim (.mkDict []), .prim (.setSite 0 (.str "a") 0)] : List Cmd).map .cmd)).1
    (w.jstep heapJson (.reload 0)).2 = .error .valueError := by
  decide +kernel

/-- A dict accepted by `from_dict` in a heap without dangling references. -/
example : ∃ h' r, fromDict [.dict [], .dict [(SITES, .ref 0)], .dict [(.str "state", .ref 1)]] (.ref 2) = (h', .ok r) ∧
    NoDangling [.dict [], .dict [(SITES, .ref 0)], .dict [(.str "state", .ref 1)]] := by
  refine ⟨_, _, rfl, fun l o h l' hl' => ?_⟩
  match l, h with
  | 0, h => cases h; simp [Obj.contents] at hl'
  | 1, h => cases h; simp [Obj.contents] at hl' ⊢; omega
  | 2, h => cases h; simp [Obj.contents] at hl' ⊢; omega
  | l + 3, h => simp at h

end Heap
end Pyl
