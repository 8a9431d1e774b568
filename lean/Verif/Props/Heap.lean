import Verif.Lemmas.HeapWorld
/-
Aliasing: copies (C09), runs and the caller's state (C16), states handed out by results (C33).
-/
set_option autoImplicit false

namespace Pyl
namespace Heap

/-- A situation that client code can bring about. -/
def Reachable (w : World HMem) : Prop := ∃ cs, w = (World.run heapOps ⟨.init, [], []⟩ cs).1

theorem Reachable.sim {w : World HMem} (h : Reachable w) : ∃ v, WSim w v ∧ WWF v := by
  obtain ⟨cs, rfl⟩ := h
  exact ⟨_, (wsim_init.run cs).2, wwf_init.run cs⟩

theorem Reachable.run {w : World HMem} (h : Reachable w) (cs : List Cmd) : Reachable (w.run heapOps cs).1 := by
  obtain ⟨cs0, rfl⟩ := h
  exact ⟨cs0 ++ cs, (World.run_append _ _ _ _).symm⟩

/-! ### C09 -/

/-- C09: whatever a client does with states, copies and values made from them, every state object shows exactly what it
would show if states were plain values: an update changes the state it is called on and nothing else. -/
theorem C09_as_values (ps : List Prim) (i : Nat) (s : SimState) :
    Shows (HMem.init.run ps) i s ↔ (VMem.init.run ps).states[i]? = some s :=
  (msim_init.run ps).shows i s

/-- C09: the copy is equal to the original at the time of the copy, and the original is not changed by copying. -/
theorem C09_copy_equal {w : World HMem} (hw : Reachable w) {i : Nat} {s : SimState} (hs : Shows w.mem i s) :
    Shows (w.step heapOps (.prim (.copy i))).1.mem w.mem.roots.length s ∧
      Shows (w.step heapOps (.prim (.copy i))).1.mem i s := by
  obtain ⟨v, h1, h2⟩ := hw.sim
  have hsv := (h1.mem.shows i s).1 hs
  have h3 := (h1.step (.prim (.copy i))).2.mem
  have hlen : w.mem.roots.length = v.mem.states.length := h1.mem.size
  rw [h3.shows, h3.shows]
  simp only [World.step, copy_val v.mem i s hsv, hlen]
  refine ⟨by simp, ?_⟩
  rw [List.getElem?_append_left (Keeps.lt hsv)]; exact hsv

/-- C09: after `c = s.copy()`, calls of the update methods in any order: those that do not name `s` leave what `s` shows,
those that do not name `c` leave what `c` shows. -/
theorem C09_independent {w : World HMem} (hw : Reachable w) {i : Nat} {s : SimState} (hs : Shows w.mem i s)
    (ps : List Prim) :
    ((∀ p ∈ ps, p.target ≠ some i) →
      Shows ((w.step heapOps (.prim (.copy i))).1.run heapOps (ps.map .prim)).1.mem i s) ∧
    ((∀ p ∈ ps, p.target ≠ some w.mem.roots.length) →
      Shows ((w.step heapOps (.prim (.copy i))).1.run heapOps (ps.map .prim)).1.mem w.mem.roots.length s) := by
  obtain ⟨hc, ho⟩ := C09_copy_equal hw hs
  obtain ⟨v, h1, h2⟩ := hw.sim
  have h3 := (h1.step (.prim (.copy i))).2
  have h4 := (h2.step (.prim (.copy i))).1
  have key : ∀ j, Shows (w.step heapOps (.prim (.copy i))).1.mem j s → (∀ p ∈ ps, p.target ≠ some j) →
      Shows ((w.step heapOps (.prim (.copy i))).1.run heapOps (ps.map .prim)).1.mem j s := by
    intro j hj hp
    rw [(h3.run (ps.map .prim)).2.mem.shows]
    refine h4.run_keeps' _ j s ((h3.mem.shows j s).1 hj) (by simp) ?_
    intro p hpm
    simp only [List.mem_map] at hpm
    obtain ⟨q, hq, he⟩ := hpm
    cases he
    exact hp _ hq
  exact ⟨key i ho, key _ hc⟩

/-- C09, for arbitrary code that mutates what it can reach: one piece of code holds values made before the copy (for
instance the original state), another one holds only the deep copy.  Whatever they do in turn, no action of one changes
an object that the other can reach. -/
theorem C09_isolated (h : Heap) (hd : NoDangling h) (vs : List HVal) (hv : ∀ l, HVal.ref l ∈ vs → l < h.length)
    (v : HVal) (hr : ∀ l, v = .ref l → l < h.length) (acts : List (Bool × Act)) (a : Act) :
    let d := acts.foldl Duo.step ⟨(deepcopy h v).1, vs, [(deepcopy h v).2]⟩
    (∀ l, Reach d.heap d.left l → (d.step (true, a)).heap[l]? = d.heap[l]?) ∧
    (∀ l, Reach d.heap d.right l → (d.step (false, a)).heap[l]? = d.heap[l]?) := by
  intro d
  obtain ⟨R, hR⟩ := (split_deepcopy h hd vs hv v hr).run acts
  constructor
  · intro l hl
    obtain ⟨h1, h2⟩ := hR.reach_left hl
    obtain ⟨_, _, _, h3⟩ := hR.step (true, a)
    exact h3 l h1 (by simpa using h2)
  · intro l hl
    obtain ⟨h1, h2⟩ := hR.reach_right hl
    obtain ⟨_, _, _, h3⟩ := hR.step (false, a)
    exact h3 l h1 (by simpa using h2)

/-- The hypotheses of `C09_isolated` in a heap with nested and shared objects. -/
example : NoDangling [.list [.str "x"], .dict [(.str "p", .ref 0), (.str "q", .ref 0)]] := by
  intro l o h l' hl'
  match l, h with
  | 0, h => cases h; simp [Obj.contents] at hl'
  | 1, h => cases h; simp [Obj.contents] at hl' ⊢; omega
  | l + 2, h => simp at h

/-- A state with a nested list, its copy, an update of each. -/
def demo : List Prim :=
  [.newState, .str "a", .mkList [0], .mkDict [(.str "x", 1)], .setSite 0 (.int 0) 2, .copy 0, .setSite 1 (.int 0) 4,
    .str "b", .mkDict [(.str "x", 3)], .setSite 1 (.int 0) 4]

example : ∃ s t, Shows (HMem.init.run demo) 0 s ∧ Shows (HMem.init.run demo) 1 t ∧
    Dict.get? s.sites (.int 0) = some [(SITE_ID, .num 0), (.str "x", .list [.str "a"])] ∧
    Dict.get? t.sites (.int 0) = some [(SITE_ID, .num 0), (.str "x", .str "b")] :=
  ⟨_, _, (C09_as_values demo 0 _).2 rfl, (C09_as_values demo 1 _).2 rfl, rfl, rfl⟩

/-! ### C16 -/

theorem mem_runProgram {i n r : Nat} {steps : List RunStep} {c : Cmd} (h : c ∈ runProgram i n r steps) :
    c = .prim (.copy i) ∨ c = .newResult n ∨ c = .setOutput r (n + 1) ∨
      ∃ s ∈ steps, (∃ p ∈ s.think, c = .prim p) ∨ c = .prim (.batch (n + 1) s.answer) ∨ c = .addStep r s.answer := by
  unfold runProgram at h
  rcases List.mem_append.1 h with h | h
  · rcases List.mem_append.1 h with h | h
    · simp only [List.mem_cons, List.not_mem_nil, or_false] at h
      tauto
    · obtain ⟨s, hs, h⟩ := List.mem_flatMap.1 h
      refine Or.inr (Or.inr (Or.inr ⟨s, hs, ?_⟩))
      rcases List.mem_append.1 h with h | h
      · rcases List.mem_append.1 h with h | h
        · obtain ⟨p, hp, rfl⟩ := List.mem_map.1 h
          exact Or.inl ⟨p, hp, rfl⟩
        · by_cases ha : s.applied = true
          · rw [if_pos ha] at h
            exact Or.inr (Or.inl (List.mem_singleton.1 h))
          · rw [if_neg ha] at h; cases h
      · exact Or.inr (Or.inr (List.mem_singleton.1 h))
  · exact Or.inr (Or.inr (Or.inl (List.mem_singleton.1 h)))

theorem runProgram_no_next (i n r : Nat) (steps : List RunStep) (j : Nat) : Cmd.next j ∉ runProgram i n r steps := by
  intro h
  rcases mem_runProgram h with h | h | h | ⟨s, _, ⟨p, _, h⟩ | h | h⟩ <;> cases h

/-- C16: a run does not change the state it was given, provided the code of the controller (including `pre_run`) does not
call update methods of that state itself. -/
theorem C16_caller_state {w : World HMem} (hw : Reachable w) {i : Nat} {s0 : SimState} (hs : Shows w.mem i s0)
    (steps : List RunStep) (hth : ∀ s ∈ steps, ∀ p ∈ s.think, p.target ≠ some i) :
    Shows (w.run heapOps (runProgram i w.mem.roots.length w.results.length steps)).1.mem i s0 := by
  obtain ⟨v, h1, h2⟩ := hw.sim
  have hlen : w.mem.roots.length = v.mem.states.length := h1.mem.size
  have hsv := (h1.mem.shows i s0).1 hs
  have hlt := Keeps.lt hsv
  rw [(h1.run _).2.mem.shows]
  refine h2.run_keeps' _ i s0 hsv (runProgram_no_next _ _ _ _) ?_
  intro p hp
  rcases mem_runProgram hp with h | h | h | ⟨s, hsm, ⟨q, hq, h⟩ | h | h⟩
  · cases h; simp [Prim.target]
  · cases h
  · cases h
  · cases h; exact hth s hsm p hq
  · cases h
    simp only [Prim.target, ne_eq, Option.some.injEq]
    omega
  · cases h

/-- The result object made by a run while it is being filled. -/
structure Filling (w : World VMem) (n r : Nat) (s0 : SimState) (answers : List Nat) : Prop where
  wf : WWF w
  init : w.mem.states[n]? = some s0
  res : ∃ x, w.results[r]? = some x ∧ x.initial = n ∧ x.stored = [] ∧ x.diffs.Sublist answers

theorem Filling.prims {w : World VMem} {n r : Nat} {s0 : SimState} {as : List Nat} (h : Filling w n r s0 as) (ps : List Prim)
    (hp : ∀ p ∈ ps, p.target ≠ some n) : Filling (w.run valOps (ps.map .prim)).1 n r s0 as := by
  refine ⟨h.wf.run _, h.wf.run_keeps' _ n s0 h.init (by simp) ?_, ?_⟩
  · intro p hpm
    simp only [List.mem_map] at hpm
    obtain ⟨q, hq, he⟩ := hpm
    cases he; exact hp _ hq
  · rw [(run_prims_results w ps).1]; exact h.res

theorem Filling.add {w : World VMem} {n r : Nat} {s0 : SimState} {as : List Nat} (h : Filling w n r s0 as) (j : Nat) :
    Filling (w.step valOps (.addStep r j)).1 n r s0 (as ++ [j]) := by
  obtain ⟨x, h1, h2, h3, h4⟩ := h.res
  refine ⟨(h.wf.step _).1, ?_, ?_⟩
  · refine (h.wf.step (.addStep r j)).2.1.states n s0 ?_ h.init
    rintro (⟨p, hp, _⟩ | ⟨⟨_, hp⟩, _⟩) <;> cases hp
  · simp only [World.step, h1]
    have hlt : r < w.results.length := by
      by_contra hn
      rw [List.getElem?_eq_none (by omega)] at h1; cases h1
    by_cases hj : j < valOps.nvals w.mem
    · simp only [hj, if_true]
      exact ⟨_, List.getElem?_set_self hlt, h2, h3, h4.append (List.Sublist.refl _)⟩
    · simp only [hj, if_false]
      exact ⟨x, h1, h2, h3, h4.trans (List.sublist_append_left _ _)⟩

theorem Filling.runSteps {n r : Nat} {s0 : SimState} (steps : List RunStep) :
    ∀ {w : World VMem} {as : List Nat}, Filling w n r s0 as → (∀ s ∈ steps, ∀ p ∈ s.think, p.target ≠ some n) →
    Filling (w.run valOps (steps.flatMap (fun s => s.think.map Cmd.prim ++
      (if s.applied then [.prim (.batch (n + 1) s.answer)] else []) ++ [.addStep r s.answer]))).1 n r s0
      (as ++ steps.map (·.answer)) := by
  induction steps with
  | nil => intro w as h _; simpa [World.run] using h
  | cons s steps ih =>
    intro w as h hth
    rw [List.flatMap_cons, World.run_append]
    have h1 : Filling (w.run valOps (s.think.map Cmd.prim ++
        (if s.applied then [Cmd.prim (.batch (n + 1) s.answer)] else []) ++ [Cmd.addStep r s.answer])).1 n r s0
        (as ++ [s.answer]) := by
      rw [World.run_append, World.run_append]
      have h2 := h.prims s.think (hth s (by simp))
      refine Filling.add ?_ s.answer
      split_ifs
      · exact h2.prims [.batch (n + 1) s.answer] (by simp [Prim.target])
      · exact h2
    have h2 := ih h1 (fun t ht => hth t (by simp [ht]))
    simpa using h2

/-- C16: the result of a run replays the recorded updates from the state as it was when the run started, whatever is done
afterwards to the caller's state object (or to any other state object except the result's own `initial_state`). -/
theorem C16_result_fixed {w : World HMem} (hw : Reachable w) {i : Nat} {s0 : SimState} (hs : Shows w.mem i s0)
    (steps : List RunStep) (hth : ∀ s ∈ steps, ∀ p ∈ s.think, p.target ≠ some w.mem.roots.length) :
    let w1 := (w.run heapOps (runProgram i w.mem.roots.length w.results.length steps)).1
    ∃ res, w1.results[w.results.length]? = some res ∧ res.initial = w.mem.roots.length ∧
      res.diffs.Sublist (steps.map (·.answer)) ∧ res.output = some (w.mem.roots.length + 1) ∧
      ∃ ws, List.Forall₂ (fun j x => Reads w1.mem.heap (w1.mem.val j) x) res.diffs ws ∧
        ∀ (later : List Prim), (∀ p ∈ later, p.target ≠ some w.mem.roots.length) → ∀ k : Int,
          let w2 := (w1.run heapOps (later.map .prim)).1
          match stepOf s0 ws k.toNat with
          | .ok s => ∃ x, (w2.step heapOps (.getStep w.results.length k)).2 = .ok (some x) ∧
              Shows (w2.step heapOps (.getStep w.results.length k)).1.mem x s
          | .error e => (w2.step heapOps (.getStep w.results.length k)).2 = .error e := by
  intro w1
  obtain ⟨v, h1, h2⟩ := hw.sim
  have hlen : w.mem.roots.length = v.mem.states.length := h1.mem.size
  have hsv := (h1.mem.shows i s0).1 hs
  have hlt := Keeps.lt hsv
  rw [hlen] at hth ⊢
  set n := v.mem.states.length with hn
  set r := w.results.length with hr
  have hr' : r = v.results.length := by rw [hr, h1.results]
  -- after the first three commands
  have hstart : Filling (v.run valOps [.prim (.copy i), .newResult n, .prim (.copy i)]).1 n r s0 [] := by
    refine ⟨h2.run _, ?_, ?_⟩
    · simp only [World.run, World.step, copy_val v.mem i s0 hsv]
      have hsz : n < valOps.size ⟨v.mem.states ++ [s0], v.mem.vals⟩ := by
        show n < (v.mem.states ++ [s0]).length
        simp [hn]
      simp only [hsz, if_true]
      rw [copy_val _ i s0 (by rw [List.getElem?_append_left hlt]; exact hsv)]
      simp [hn]
    · simp only [World.run, World.step, copy_val v.mem i s0 hsv]
      have hsz : n < valOps.size ⟨v.mem.states ++ [s0], v.mem.vals⟩ := by
        show n < (v.mem.states ++ [s0]).length
        simp [hn]
      simp only [hsz, if_true]
      exact ⟨⟨n, [], [], Option.none⟩, by simp [hr'], rfl, rfl, by simp⟩
  have hbody := Filling.runSteps steps hstart hth
  -- the size of the memory covers the live state
  have hlive : n + 1 < (v.run valOps [.prim (.copy i), .newResult n, .prim (.copy i)]).1.mem.states.length := by
    simp only [World.run, World.step, copy_val v.mem i s0 hsv]
    have hsz : n < valOps.size ⟨v.mem.states ++ [s0], v.mem.vals⟩ := by
      show n < (v.mem.states ++ [s0]).length
      simp [hn]
    simp only [hsz, if_true]
    rw [copy_val _ i s0 (by rw [List.getElem?_append_left hlt]; exact hsv)]
    simp [hn]
  have hsize : ∀ (cs : List Cmd) (u : World VMem), WWF u → u.mem.states.length ≤ (u.run valOps cs).1.mem.states.length := by
    intro cs
    induction cs with
    | nil => intro u _; exact le_rfl
    | cons c cs ih => intro u hu; exact le_trans (hu.step c).2.1.size (ih _ (hu.step c).1)
  set vb := ((v.run valOps [.prim (.copy i), .newResult n, .prim (.copy i)]).1.run valOps
    (steps.flatMap (fun s => s.think.map Cmd.prim ++
      (if s.applied then [.prim (.batch (n + 1) s.answer)] else []) ++ [.addStep r s.answer]))).1 with hvb
  have hlive' : n + 1 < vb.mem.states.length := lt_of_lt_of_le hlive (hsize _ _ hstart.wf)
  obtain ⟨x, hx1, hx2, hx3, hx4⟩ := hbody.res
  have hrlt : r < vb.results.length := by
    by_contra hn
    rw [List.getElem?_eq_none (by omega)] at hx1; cases hx1
  have hv1 : (v.run valOps (runProgram i n r steps)).1 = (vb.step valOps (.setOutput r (n + 1))).1 := by
    simp only [runProgram, World.run_append, hvb]; rfl
  have hw1 := (h1.run (runProgram i n r steps)).2
  have hwf1 := h2.run (runProgram i n r steps)
  set v1 := (v.run valOps (runProgram i n r steps)).1 with hv1d
  have hres1 : v1.results[r]? = some { x with output := some (n + 1) } := by
    rw [hv1]
    have : n + 1 < valOps.size vb.mem := hlive'
    simp only [World.step, hx1, this, if_true]
    exact List.getElem?_set_self hrlt
  have hinit1 : v1.mem.states[n]? = some s0 := by
    rw [hv1]
    refine (hbody.wf.step (.setOutput r (n + 1))).2.1.states n s0 ?_ hbody.init
    rintro (⟨p, hp, _⟩ | ⟨⟨_, hp⟩, _⟩) <;> cases hp
  have hw1e : w1 = (w.run heapOps (runProgram i n r steps)).1 := by rw [← hlen]
  rw [hw1e]
  refine ⟨{ x with output := some (n + 1) }, by rw [hw1.results]; exact hres1, hx2, by simpa using hx4, rfl,
    x.diffs.map v1.mem.val, ?_, ?_⟩
  · obtain ⟨as, hm⟩ := hw1.mem
    have : ∀ l : List Nat, List.Forall₂ (fun j y => Reads (w.run heapOps (runProgram i n r steps)).1.mem.heap
        ((w.run heapOps (runProgram i n r steps)).1.mem.val j) y) l (l.map v1.mem.val) := by
      intro l
      induction l with
      | nil => exact .nil
      | cons a l ih => exact .cons (hm.val a).read ih
    exact this x.diffs
  · intro later hlater k
    have hw2 := (hw1.run (later.map .prim)).2
    have hwf2 := hwf1.run (later.map .prim)
    have hres2 : (v1.run valOps (later.map .prim)).1.results[r]? = some { x with output := some (n + 1) } := by
      rw [(run_prims_results v1 later).1]; exact hres1
    have hinit2 : (v1.run valOps (later.map .prim)).1.mem.states[n]? = some s0 := by
      refine hwf1.run_keeps' _ n s0 hinit1 (by simp) ?_
      intro p hpm
      simp only [List.mem_map] at hpm
      obtain ⟨q, hq, he⟩ := hpm
      cases he; exact hlater _ hq
    set v2 := (v1.run valOps (later.map .prim)).1 with hv2
    have hd1 : ∀ d ∈ x.diffs, d < v1.mem.vals.length := fun d hd => hwf1.diffs _ (List.mem_of_getElem? hres1) d hd
    have hd2 : ∀ d ∈ x.diffs, d < v2.mem.vals.length := fun d hd => hwf2.diffs _ (List.mem_of_getElem? hres2) d hd
    have hvals : x.diffs.map v1.mem.val = x.diffs.map v2.mem.val := by
      refine List.map_congr_left fun d hd => ?_
      exact ((hwf1.run_val (later.map .prim) d (hd1 d hd)).2).symm
    have hg := getStepW_val v2.mem { x with output := some (n + 1) } k s0 (by show v2.mem.states[x.initial]? = _; rw [hx2]; exact hinit2)
      (by show Dict.get? x.stored k = none; rw [hx3]; rfl) hd2
    have hsim := hw2.step (.getStep r k)
    simp only
    rw [hvals, hsim.1]
    have hans : (v2.step valOps (.getStep r k)) = ({ v2 with mem := (getStepW valOps v2.mem { x with output := some (n + 1) } k).1 },
        (getStepW valOps v2.mem { x with output := some (n + 1) } k).2.map some) := by
      simp only [World.step, hres2]
    obtain ⟨_, hg⟩ := hg
    cases hst : stepOf s0 (x.diffs.map v2.mem.val) k.toNat with
    | error e =>
      simp only at hg
      rw [hst] at hg
      simp only at hg ⊢
      rw [hans]
      simp only [hg]; rfl
    | ok s =>
      simp only at hg
      rw [hst] at hg
      obtain ⟨hg1, hg2⟩ := hg
      refine ⟨v2.mem.states.length, by rw [hans]; simp only [hg1]; rfl, ?_⟩
      rw [hsim.2.mem.shows, hans]
      exact hg2

/-- A reachable situation with a state, and a two-step run on it. -/
def c16Start : List Cmd := [.prim .newState, .prim (.str "a"), .prim (.mkDict [(.str "x", 0)]), .prim (.setSite 0 (.int 0) 1)]
def c16Steps : List RunStep := [⟨[.getSite 1 (.int 0), .str "b", .mkDict [(.str "x", 3)], .mkDict [(.int 0, 4)]], true, 5⟩]

example : (World.run heapOps (World.run heapOps ⟨.init, [], []⟩ c16Start).1 (runProgram 0 1 0 c16Steps)).1.results.length = 1 := by
  decide

/-! ### C33 -/

/-- C33 (part): a state returned by `get_step`, whether newly made or taken from storage, stays what it was when it was
returned, as long as no update method is called on that very object.  What is missing for the full claim: states yielded
by `steps()` are changed by the generator itself (`C33_steps_false`), and a stored state is handed out again and again
(`C33_stored_false`). -/
theorem C33_get_step_stays_partial {w : World HMem} (hw : Reachable w) (r : Nat) (k : Int) {x : Nat} {s : SimState}
    (hx : (w.step heapOps (.getStep r k)).2 = .ok (some x)) (hs : Shows (w.step heapOps (.getStep r k)).1.mem x s)
    (cs : List Cmd) (hcs : Leaves cs x) : Shows ((w.step heapOps (.getStep r k)).1.run heapOps cs).1.mem x s := by
  obtain ⟨v, h1, h2⟩ := hw.sim
  obtain ⟨h3, h4⟩ := h1.step (.getStep r k)
  have h5 := (h2.step (.getStep r k)).1
  rw [(h4.run cs).2.mem.shows]
  refine h5.run_keeps cs x s ((h4.mem.shows x s).1 hs) ?_ hcs
  rw [h3] at hx
  simp only [World.step] at hx ⊢
  cases hr : v.results[r]? with
  | none => rw [hr] at hx; cases hx
  | some q =>
    rw [hr] at hx
    have hq := List.mem_of_getElem? hr
    simp only at hx ⊢
    unfold getStepW at hx
    cases hst : Dict.get? q.stored k with
    | some y =>
      rw [hst] at hx
      simp only [Except.map, Except.ok.injEq, Option.some.injEq] at hx
      subst hx
      exact (h2.stored q hq (k, y) (Dict.mem_of_get? hst)).2
    | none =>
      rw [hst] at hx
      simp only at hx
      have hxe : x = v.mem.states.length := by
        revert hx
        generalize valOps.step v.mem (.copy q.initial) = b
        obtain ⟨b1, _ | e⟩ := b
        · simp only
          generalize applyDiffs valOps (valOps.size v.mem) b1 q.diffs k.toNat = c
          obtain ⟨c1, _ | e⟩ := c
          · simp only [Except.map, Except.ok.injEq, Option.some.injEq]
            exact fun h => h.symm
          · simp [Except.map]
        · simp [Except.map]
      intro g hg he
      have := h2.gens g hg x he
      omega

/-- What asking for step `k` of result `r` yields: the state shown, or the exception. -/
def Reports (w : World HMem) (r : Nat) (k : Int) (o : Py SimState) : Prop :=
  match o with
  | .ok s => ∃ y, (w.step heapOps (.getStep r k)).2 = .ok (some y) ∧ Shows (w.step heapOps (.getStep r k)).1.mem y s
  | .error e => (w.step heapOps (.getStep r k)).2 = .error e

/-- C33 (part): changing a state that `get_step` had to make (not one taken from storage) changes nothing that any result
reports later. -/
theorem C33_no_effect_partial {w : World HMem} (hw : Reachable w) (r : Nat) (k : Int) {q : HResult}
    (hq : w.results[r]? = some q) (hst : Dict.get? q.stored k = none) {x : Nat}
    (hx : (w.step heapOps (.getStep r k)).2 = .ok (some x)) (ps : List Prim) (hps : ∀ p ∈ ps, ∀ i, p.target = some i → i = x)
    (r' : Nat) (k' : Int) (o : Py SimState) (ho : Reports (w.step heapOps (.getStep r k)).1 r' k' o) :
    Reports ((w.step heapOps (.getStep r k)).1.run heapOps (ps.map .prim)).1 r' k' o := by
  obtain ⟨v, h1, h2⟩ := hw.sim
  obtain ⟨h3, h4⟩ := h1.step (.getStep r k)
  have h5 := (h2.step (.getStep r k)).1
  rw [h3] at hx
  rw [h1.results] at hq
  have hstep : v.step valOps (.getStep r k) = ({ v with mem := (getStepW valOps v.mem q k).1 },
      (getStepW valOps v.mem q k).2.map some) := by simp only [World.step, hq]
  have hqm := List.mem_of_getElem? hq
  obtain ⟨s0, hs0⟩ := some_of_lt (h2.initial q hqm)
  have hgs := getStepW_val v.mem q k s0 hs0 hst (h2.diffs q hqm)
  have hxe : x = v.mem.states.length := by
    rw [hstep] at hx
    cases hso : stepOf s0 (q.diffs.map v.mem.val) k.toNat with
    | error e => rw [hso] at hgs; simp only at hgs; rw [hgs.2] at hx; cases hx
    | ok s =>
      rw [hso] at hgs; simp only at hgs
      rw [hgs.2.1] at hx
      simp only [Except.map, Except.ok.injEq, Option.some.injEq] at hx
      exact hx.symm
  set v1 := (v.step valOps (.getStep r k)).1 with hv1
  have hres1 : v1.results = v.results := by rw [hv1, hstep]
  have hk : Keeps (· = x) v1.mem (v1.run valOps (ps.map .prim)).1.mem := by
    have : ∀ (ps : List Prim) (u : World VMem), (u.run valOps (ps.map .prim)).1.mem = u.mem.run ps := by
      intro ps
      induction ps with
      | nil => intro u; rfl
      | cons p ps ih => intro u; exact ih _
    rw [this]
    exact keeps_run _ _ _ hps
  have h6 := (h4.run (ps.map .prim)).2
  have h7 := h5.run (ps.map .prim)
  have hres2 : (v1.run valOps (ps.map .prim)).1.results = v.results := by rw [(run_prims_results v1 ps).1, hres1]
  have hsim1 := h4.step (.getStep r' k')
  have hsim2 := h6.step (.getStep r' k')
  set v2 := (v1.run valOps (ps.map .prim)).1 with hv2
  -- compare the two answers on values
  cases hr' : v.results[r']? with
  | none =>
    have e1 : (v1.step valOps (.getStep r' k')) = (v1, .ok Option.none) := by simp only [World.step, hres1, hr']
    cases o with
    | ok s =>
      obtain ⟨y, hy, _⟩ := ho
      rw [hsim1.1, e1] at hy; cases hy
    | error e =>
      have ho' : _ = Except.error e := ho
      rw [hsim1.1, e1] at ho'; cases ho'
  | some q' =>
    have hq'm := List.mem_of_getElem? hr'
    have e1 : (v1.step valOps (.getStep r' k')) = ({ v1 with mem := (getStepW valOps v1.mem q' k').1 },
        (getStepW valOps v1.mem q' k').2.map some) := by simp only [World.step, hres1, hr']
    have e2 : (v2.step valOps (.getStep r' k')) = ({ v2 with mem := (getStepW valOps v2.mem q' k').1 },
        (getStepW valOps v2.mem q' k').2.map some) := by simp only [World.step, hres2, hr']
    cases hst' : Dict.get? q'.stored k' with
    | some y =>
      have f1 : getStepW valOps v1.mem q' k' = (v1.mem, .ok y) := by simp only [getStepW, hst']
      have f2 : getStepW valOps v2.mem q' k' = (v2.mem, .ok y) := by simp only [getStepW, hst']
      have hylt := (h2.stored q' hq'm (k', y) (Dict.mem_of_get? hst')).1
      cases o with
      | ok s =>
        obtain ⟨z, hz, hzs⟩ := ho
        rw [hsim1.1, e1, f1] at hz
        simp only [Except.map, Except.ok.injEq, Option.some.injEq] at hz
        subst hz
        rw [hsim1.2.mem.shows, e1, f1] at hzs
        refine ⟨y, by rw [hsim2.1, e2, f2]; rfl, ?_⟩
        rw [hsim2.2.mem.shows, e2, f2]
        exact hk.states y s (by simp only at hylt; omega) hzs
      | error e =>
        have ho' : _ = Except.error e := ho
        rw [hsim1.1, e1, f1] at ho'; cases ho'
    | none =>
      obtain ⟨t0, ht0⟩ := some_of_lt (h2.initial q' hq'm)
      have hini := h2.initial q' hq'm
      have ht1 : v1.mem.states[q'.initial]? = some t0 := by
        have := (h2.step (.getStep r k)).2.1.states q'.initial t0 (by
          rintro (⟨p, hp, _⟩ | ⟨⟨_, hp⟩, _⟩) <;> cases hp) ht0
        exact this
      have ht2 : v2.mem.states[q'.initial]? = some t0 := hk.states _ _ (by omega) ht1
      have hq1 : q' ∈ v1.results := by rw [hres1]; exact hq'm
      have hq2 : q' ∈ v2.results := by rw [hres2]; exact hq'm
      have g1 := getStepW_val v1.mem q' k' t0 ht1 hst' (h5.diffs q' hq1)
      have g2 := getStepW_val v2.mem q' k' t0 ht2 hst' (h7.diffs q' hq2)
      have hvals : q'.diffs.map v2.mem.val = q'.diffs.map v1.mem.val :=
        List.map_congr_left fun d hd => hk.val (h5.diffs q' hq1 d hd)
      rw [hvals] at g2
      cases hso : stepOf t0 (q'.diffs.map v1.mem.val) k'.toNat with
      | error e =>
        rw [hso] at g1 g2
        simp only at g1 g2
        cases o with
        | ok s =>
          obtain ⟨z, hz, _⟩ := ho
          rw [hsim1.1, e1] at hz
          simp only [g1.2] at hz; cases hz
        | error e' =>
          have ho' : _ = Except.error e' := ho
          rw [hsim1.1, e1] at ho'
          simp only [g1.2, Except.map] at ho'
          show _ = Except.error e'
          rw [hsim2.1, e2]
          simp only [g2.2, Except.map]
          exact ho'
      | ok s1 =>
        rw [hso] at g1 g2
        simp only at g1 g2
        cases o with
        | ok s =>
          obtain ⟨z, hz, hzs⟩ := ho
          rw [hsim1.1, e1] at hz
          simp only [g1.2.1, Except.map, Except.ok.injEq, Option.some.injEq] at hz
          subst hz
          rw [hsim1.2.mem.shows, e1] at hzs
          simp only [g1.2.2, Option.some.injEq] at hzs
          subst hzs
          refine ⟨v2.mem.states.length, by rw [hsim2.1, e2]; simp only [g2.2.1]; rfl, ?_⟩
          rw [hsim2.2.mem.shows, e2]
          exact g2.2.2
        | error e' =>
          have ho' : _ = Except.error e' := ho
          rw [hsim1.1, e1] at ho'
          simp only [g1.2.1] at ho'; cases ho'

/-- A result with two steps, site 0 going through "a", "b", "c". -/
def c33Start : List Cmd :=
  [.prim .newState, .prim (.str "a"), .prim (.mkDict [(.str "x", 0)]), .prim (.setSite 0 (.int 0) 1), .newResult 0,
    .prim (.str "b"), .prim (.mkDict [(.str "x", 2)]), .prim (.mkDict [(.int 0, 3)]), .addStep 0 4,
    .prim (.str "c"), .prim (.mkDict [(.str "x", 5)]), .prim (.mkDict [(.int 0, 6)]), .addStep 0 7]

def c33World : World HMem := (World.run heapOps ⟨.init, [], []⟩ c33Start).1

theorem c33World_reachable : Reachable c33World := ⟨c33Start, rfl⟩

/-- The value of `"x"` at site 0 of a state object, as the client reads it. -/
def xOf (w : World HMem) (i : Nat) : Option Val :=
  (w.mem.roots[i]?.bind (readState w.mem.heap 3)).bind fun s => (Dict.get? s.sites (.int 0)).bind fun p => Dict.get? p (.str "x")

/-- C33 is false for `steps()`: the first state yielded is the same object as the second, so asking the generator for the
second state changes the first one, although the client updates nothing. -/
theorem C33_steps_false :
    let w1 := (c33World.run heapOps [.steps 0, .next 0])
    let w2 := (w1.1.step heapOps (.next 0))
    w1.2 = [.ok none, .ok (some 1)] ∧ w2.2 = .ok (some 1) ∧
      xOf w1.1 1 = some (.str "a") ∧ xOf w2.1 1 = some (.str "b") := by
  decide +kernel

/-- C33 is false for stored steps: after `load_steps()`, changing the state returned by `get_step(1)` changes what
`get_step(1)` reports. -/
theorem C33_stored_false :
    let w1 := (c33World.run heapOps [.loadSteps 0 1, .getStep 0 1])
    let w2 := (w1.1.run heapOps [.prim (.setSite 3 (.int 0) 6), .getStep 0 1])
    w1.2 = [.ok none, .ok (some 3)] ∧ w2.2 = [.ok none, .ok (some 3)] ∧
      xOf w1.1 3 = some (.str "b") ∧ xOf w2.1 3 = some (.str "c") := by
  decide +kernel

/-- A result with one step that sets `"x"` to a list. -/
def nestedStart : List Cmd :=
  [.prim .newState, .newResult 0, .prim (.str "b"), .prim (.mkList [0]), .prim (.mkDict [(.str "x", 1)]),
    .prim (.mkDict [(.int 0, 2)]), .addStep 0 3]

/-- C33 is false for nested values even without storage: the list inside the state returned by `get_step(1)` is the one
inside the recorded update, so clearing it (`state.get_site_state(0)["x"].clear()`, here the write at its location, the
first entry made by `mkList`) changes what `get_step(1)` reports from then on. -/
theorem C33_nested_false :
    let w1 := (World.run heapOps ⟨.init, [], []⟩ (nestedStart ++ [.getStep 0 1])).1
    let w2 := { w1 with mem := { w1.mem with heap := w1.mem.heap.set 3 (.list []) } }
    let w3 := (w2.step heapOps (.getStep 0 1))
    xOf w1 1 = some (.list [.str "b"]) ∧ xOf w2 1 = some (.list []) ∧
      w3.2 = .ok (some 2) ∧ xOf w3.1 2 = some (.list []) := by
  decide +kernel

/-- The hypotheses of the partial theorems: an unstored step, and later updates of the state returned for it. -/
example : (c33World.step heapOps (.getStep 0 1)).2 = .ok (some 1) ∧ xOf (c33World.step heapOps (.getStep 0 1)).1 1 = some (.str "b") := by
  decide +kernel

end Heap
end Pyl
