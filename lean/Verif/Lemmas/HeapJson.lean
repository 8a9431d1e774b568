import Verif.Spec.HeapJson
import Verif.Lemmas.HeapWorld
import Verif.Props.Json
/-
Rebuilding states and results: the heap and the values stay in lockstep.
-/
set_option autoImplicit false

namespace Pyl
namespace Heap

/-! ### reading keys as ints -/

/-- The pairs with their keys read as ints. -/
def toIntPairs {ν : Type} (d : List (Key × ν)) : Py (List (Key × ν)) :=
  d.mapM fun kv => do pure (Key.int (← kv.1.toInt), kv.2)

theorem toIntPairs_cons {ν : Type} (kv : Key × ν) (d : List (Key × ν)) :
    toIntPairs (kv :: d) = (kv.1.toInt).bind fun n => (toIntPairs d).bind fun l => .ok ((Key.int n, kv.2) :: l) := by
  simp only [toIntPairs, List.mapM_cons, bind, pure, Except.pure]
  cases kv.1.toInt with
  | error e => rfl
  | ok n => rfl

theorem toIntPairs_rel {α β : Type} {R : α → β → Prop} {d : List (Key × α)} {e : List (Key × β)} (h : KRel R d e) :
    match toIntPairs e with
    | .ok e' => ∃ d', toIntPairs d = .ok d' ∧ KRel R d' e'
    | .error x => toIntPairs d = .error x := by
  induction h with
  | nil => exact ⟨[], rfl, .nil⟩
  | @cons p q d e hp _ ih =>
    rw [toIntPairs_cons, toIntPairs_cons, hp.1]
    cases q.1.toInt with
    | error x => rfl
    | ok n =>
      simp only [Except.bind]
      cases he : toIntPairs e with
      | error x => rw [he] at ih; simp only at ih; rw [ih]
      | ok e' =>
        rw [he] at ih
        obtain ⟨d', h1, h2⟩ := ih
        exact ⟨(Key.int n, p.2) :: d', by rw [h1], .cons ⟨rfl, hp.2⟩ h2⟩

theorem intKeys_eq (d : Dict Key HVal) : intKeys d = (toIntPairs d).map Dict.ofPairs := by
  simp only [intKeys, toIntPairs]
  cases List.mapM (fun kv : Key × HVal => (do pure (Key.int (← kv.1.toInt), kv.2) : Py (Key × HVal))) d <;> rfl

theorem vIntKeys_eq (d : Props) : Pyl.intKeys d = (toIntPairs d).map Dict.ofPairs := by
  simp only [Pyl.intKeys, toIntPairs]
  cases List.mapM (fun kv : Key × Val => (do pure (Key.int (← kv.1.toInt), kv.2) : Py (Key × Val))) d <;> rfl

theorem intIds_eq (s : SimState) : intIds s = (toIntPairs s.sites).map fun l => ⟨Dict.ofPairs l, s.general⟩ := by
  simp only [intIds, toIntPairs]
  cases List.mapM (fun kv : Key × Props => (do pure (Key.int (← kv.1.toInt), kv.2) : Py (Key × Props))) s.sites <;> rfl

theorem toIntPairs_ok {ν : Type} {d : List (Key × ν)} (h : ∀ kv ∈ d, ∃ n, kv.1.toInt = .ok n) :
    ∃ l, toIntPairs d = .ok l := by
  induction d with
  | nil => exact ⟨[], rfl⟩
  | cons kv d ih =>
    obtain ⟨n, hn⟩ := h kv (by simp)
    obtain ⟨l, hl⟩ := ih fun x hx => h x (by simp [hx])
    exact ⟨_, by rw [toIntPairs_cons, hn, hl]; rfl⟩

theorem toInt_error {k : Key} {e : Err} (h : k.toInt = .error e) : e = .valueError := by
  cases k with
  | int i => cases h
  | str s =>
    simp only [Key.toInt] at h
    split at h <;> cases h; rfl

theorem toIntPairs_error {ν : Type} {d : List (Key × ν)} (h : ¬ ∀ kv ∈ d, ∃ n, kv.1.toInt = .ok n) :
    toIntPairs d = .error .valueError := by
  induction d with
  | nil => exact absurd (by simp) h
  | cons kv d ih =>
    rw [toIntPairs_cons]
    cases hk : kv.1.toInt with
    | error e => rw [toInt_error hk]; rfl
    | ok n =>
      rw [ih fun hd => h fun x hx => by
        rcases List.mem_cons.1 hx with rfl | hx
        · exact ⟨n, hk⟩
        · exact hd x hx]
      rfl

theorem toIntPairs_ints {ν : Type} {d l : List (Key × ν)} (h : toIntPairs d = .ok l) : ∀ kv ∈ l, ∃ n, kv.1 = .int n := by
  induction d generalizing l with
  | nil => cases h; simp
  | cons kv d ih =>
    rw [toIntPairs_cons] at h
    cases hk : kv.1.toInt with
    | error e => rw [hk] at h; cases h
    | ok n =>
      rw [hk] at h
      cases hd : toIntPairs d with
      | error e => rw [hd] at h; cases h
      | ok l' =>
        rw [hd] at h; cases h
        intro x hx
        rcases List.mem_cons.1 hx with rfl | hx
        · exact ⟨n, rfl⟩
        · exact ih hd x hx

theorem toIntPairs_of_ints {ν : Type} {d : List (Key × ν)} (h : ∀ kv ∈ d, ∃ n, kv.1 = .int n) : toIntPairs d = .ok d := by
  induction d with
  | nil => rfl
  | cons kv d ih =>
    obtain ⟨n, hn⟩ := h kv (by simp)
    rw [toIntPairs_cons, hn, ih fun x hx => h x (by simp [hx])]
    obtain ⟨k, v⟩ := kv
    cases hn; rfl

/-- Looking up an int from the back. -/
theorem toIntPairs_find {ν : Type} {d l : List (Key × ν)} (h : toIntPairs d = .ok l) (n : Int) :
    Dict.get? l.reverse (.int n) = (d.reverse.find? fun kp => kp.1.toInt.toOption == some n).map Prod.snd := by
  have gen : ∀ (d l : List (Key × ν)), List.Forall₂ (fun p q => q.2 = p.2 ∧ ∃ i, p.1.toInt = .ok i ∧ q.1 = .int i) d l →
      Dict.get? l (.int n) = (d.find? fun kp => kp.1.toInt.toOption == some n).map Prod.snd := by
    intro d l hr
    induction hr with
    | nil => rfl
    | @cons p q d l hp _ ih =>
      obtain ⟨k, v⟩ := q
      obtain ⟨h1, i, h2, h3⟩ := hp
      simp only at h1 h3
      subst h1 h3
      rw [Dict.get?_cons, List.find?_cons, h2]
      by_cases hi : i = n
      · subst hi; simp [Except.toOption]
      · have : (Except.toOption (Except.ok i : Py Int) == some n) = false := by simp [Except.toOption, hi]
        rw [this, if_neg (by simpa using hi)]
        exact ih
  refine gen _ _ (List.rel_reverse ?_)
  induction d generalizing l with
  | nil => cases h; exact .nil
  | cons kv d ih =>
    rw [toIntPairs_cons] at h
    cases hk : kv.1.toInt with
    | error e => rw [hk] at h; cases h
    | ok i =>
      rw [hk] at h
      cases hd : toIntPairs d with
      | error e => rw [hd] at h; cases h
      | ok l' =>
        rw [hd] at h; cases h
        exact .cons ⟨rfl, i, hk, rfl⟩ (ih hd)

/-! ### one state -/

theorem fromDict_asDict (h : Heap) (r : Nat) {st sd : Dict Key HVal} {a : Nat} (h1 : h[r]? = some (.dict st))
    (h2 : Dict.get? st SITES = some (.ref a)) (h3 : h[a]? = some (.dict sd)) :
    fromDict (asDict h r).1 (asDict h r).2 = match intKeys sd with
      | .error e => ((asDict h r).1, .error e)
      | .ok nd =>
        let h1 := ((asDict h r).1 ++ [Obj.dict nd]).set r (.dict (Dict.set st SITES (.ref (asDict h r).1.length)))
        ((deepcopy h1 (.ref r)).1, .ok (r + h1.length)) := by
  have e1 : (asDict h r).1[r]? = some (.dict st) := by
    simp only [asDict]; rw [List.getElem?_append_left (getElem?_lt h1)]; exact h1
  have e2 : (asDict h r).1[a]? = some (.dict sd) := by
    simp only [asDict]; rw [List.getElem?_append_left (getElem?_lt h3)]; exact h3
  have e3 : dictAt (asDict h r).1 (asDict h r).2 = .ok [(.str "state", .ref r), (.str "@module", .str "pylattica.core.simulation_state"),
      (.str "@class", .str "SimulationState")] := by
    refine dictAt_ref ?_
    simp [asDict]
  have e4 : Dict.get? [(Key.str "state", HVal.ref r), (.str "@module", .str "pylattica.core.simulation_state"),
      (.str "@class", .str "SimulationState")] (.str "state") = some (.ref r) := rfl
  rw [fromDict, e3]
  simp only [e4, e1, h2, dictAt_ref e2]
  cases intKeys sd <;> rfl

theorem mem_set {l : List Nat} {i n x : Nat} (h : x ∈ l.set i n) : x ∈ l ∨ x = n := List.mem_or_eq_of_mem_set h

/-- Giving a state a new SITES dict. -/
theorem MemSim.resite {m : HMem} {v : VMem} {as : List Nat} (h : MemSim m v as) {i r a : Nat} {s s' : SimState}
    (hr : m.roots[i]? = some r) (ha : as[i]? = some a) (hs : v.states[i]? = some s) {st nd : Dict Key HVal}
    (hst : m.heap[r]? = some (.dict st)) (hg : s'.general = s.general)
    (hnd : KRel (fun x p => Rep m.heap (· ∈ m.roots ++ as) x (.dict p)) nd s'.sites) :
    MemSim ⟨(m.heap ++ [Obj.dict nd]).set r (.dict (Dict.set st SITES (.ref m.heap.length))), m.roots, m.vals⟩
        { v with states := v.states.set i s' } (as.set i m.heap.length) ∧
      Frame m ⟨(m.heap ++ [Obj.dict nd]).set r (.dict (Dict.set st SITES (.ref m.heap.length))), m.roots, m.vals⟩ as
        (as.set i m.heap.length) := by
  set n := m.heap.length with hn
  have hlt := h.private_lt
  have hrP : r ∈ m.roots ++ as := List.mem_append_left _ (List.mem_of_getElem? hr)
  obtain ⟨g1, g2, g3⟩ := alloc_set m.heap (.dict nd) (.dict (Dict.set st SITES (.ref n))) r (hlt r hrP)
  have mem' : ∀ l, l ∈ m.roots ++ as.set i n → l ∈ m.roots ++ as ∨ l = n := by
    intro l hl
    rcases List.mem_append.1 hl with hl | hl
    · exact Or.inl (List.mem_append_left _ hl)
    · rcases mem_set hl with hl | hl
      · exact Or.inl (List.mem_append_right _ hl)
      · exact Or.inr hl
  have hag : ∀ l o, ¬ l ∈ m.roots ++ as → m.heap[l]? = some o →
      ((m.heap ++ [Obj.dict nd]).set r (.dict (Dict.set st SITES (.ref n))))[l]? = some o ∧ ¬ l ∈ m.roots ++ as.set i n := by
    intro l o h1 h2
    have h3 := getElem?_lt h2
    refine ⟨by rw [g1.same l (fun e => h1 (e ▸ hrP)) h3, h2], fun hl => ?_⟩
    rcases mem' l hl with hl | hl
    · exact h1 hl
    · omega
  have hia : i < as.length := by
    by_contra hc
    rw [List.getElem?_eq_none (by omega)] at ha; cases ha
  have hnd' := List.nodup_append.1 h.nodup
  refine ⟨⟨by simpa using h.lenA, by simpa using h.lenS, ?_, fun j r2 a2 s2 h1 h2 h3 => ?_, h.vals.imp fun _ _ hx => hx.frame hag⟩,
    fun l hl hP => ?_, ?_, fun _ _ hx => hx⟩
  · have e : m.roots ++ as.set i n = (m.roots ++ as).set (m.roots.length + i) n := by
      rw [List.set_append_right _ _ (by omega)]; simp
    show (m.roots ++ as.set i n).Nodup
    rw [e]
    exact h.nodup.set fun hh => by have := hlt _ hh; omega
  · by_cases hij : i = j
    · subst hij
      rw [hr] at h1
      rw [List.getElem?_set_self hia] at h2
      rw [List.getElem?_set_self (Keeps.lt hs)] at h3
      cases h1; cases h2; cases h3
      have hs0 := h.states i r a s hr ha hs
      obtain ⟨pr, pa, ne, ⟨d, q1, q2, q3⟩, sd, q4, q5⟩ := hs0
      rw [hst] at q1; cases q1
      have hnP : n ∈ m.roots ++ as.set i n :=
        List.mem_append_right _ (List.mem_iff_getElem.2 ⟨i, by simpa using hia, by simp⟩)
      have hrn : r < n := hlt r hrP
      refine ⟨List.mem_append_left _ (List.mem_of_getElem? hr), hnP, by omega, ⟨_, g2, by simp, ?_⟩, nd, g3,
        hnd.mono fun _ _ hx => hx.frame hag⟩
      rw [hg]
      cases hgen : s.general with
      | none =>
        rw [hgen] at q3
        simp only at q3 ⊢
        rw [Dict.get?_set_ne _ _ (by decide)]; exact q3
      | some g =>
        rw [hgen] at q3
        obtain ⟨x, q6, q7⟩ := q3
        exact ⟨x, by rw [Dict.get?_set_ne _ _ (by decide)]; exact q6, q7.frame hag⟩
    · rw [List.getElem?_set_ne hij] at h2 h3
      have hs2 := h.states j r2 a2 s2 h1 h2 h3
      have n1 : r2 ≠ r := by
        intro e
        exact hij ((List.getElem?_inj (by
          by_contra hn
          rw [List.getElem?_eq_none (by omega)] at hr; cases hr) hnd'.1).1 (by rw [hr, h1, e]))
      have n4 : a2 ≠ r := fun e => hnd'.2.2 r (List.mem_of_getElem? hr) a2 (List.mem_of_getElem? h2) e.symm
      refine hs2.frame hag (g1.same r2 n1 (hlt _ hs2.pr)) (g1.same a2 n4 (hlt _ hs2.pa))
        (List.mem_append_left _ (List.mem_of_getElem? h1)) (List.mem_append_right _ ?_)
      exact List.mem_of_getElem? (i := j) (by rw [List.getElem?_set_ne hij]; exact h2)
  · refine ⟨g1.same l (fun e => hP (e ▸ hrP)) hl, fun hl' => ?_⟩
    rcases mem' l hl' with hl' | hl'
    · exact hP hl'
    · omega
  · exact g1.len

/-- Rebuilding a state, in lockstep. -/
theorem reload_frame {m : HMem} {v : VMem} {as : List Nat} (h : MemSim m v as) (i : Nat) :
    (m.reload i).2 = (v.reload i).2 ∧ ∃ as', MemSim (m.reload i).1 (v.reload i).1 as' ∧ Frame m (m.reload i).1 as as' := by
  cases hr : m.roots[i]? with
  | none =>
    have hn : v.states[i]? = none := by
      rw [List.getElem?_eq_none_iff] at hr ⊢
      rw [h.lenS]; exact hr
    simp only [HMem.reload, VMem.reload, hr, hn]
    exact ⟨trivial, as, h, .same as rfl rfl⟩
  | some r =>
    obtain ⟨s, hs⟩ := getElem?_some_of h.lenS.symm hr
    obtain ⟨a, ha⟩ := getElem?_some_of h.lenA.symm hr
    obtain ⟨pr, pa, ne, ⟨st, q1, q2, q3⟩, sd, q4, q5⟩ := h.states i r a s hr ha hs
    have h0 := h.alloc [Obj.dict [(.str "state", .ref r), (.str "@module", .str "pylattica.core.simulation_state"),
      (.str "@class", .str "SimulationState")]]
    have f0 : Frame m { m with heap := (asDict m.heap r).1 } as as := .alloc as _ rfl rfl
    simp only [HMem.reload, VMem.reload, hr, hs, fromDict_asDict m.heap r q1 q2 q4, intKeys_eq, intIds_eq]
    have hrel := toIntPairs_rel q5
    cases he : toIntPairs s.sites with
    | error e =>
      rw [he] at hrel
      simp only at hrel
      simp only [hrel, Except.map]
      exact ⟨trivial, as, h0, f0⟩
    | ok e' =>
      rw [he] at hrel
      obtain ⟨d', h1, h2⟩ := hrel
      simp only [h1, Except.map]
      have hag : ∀ l o, ¬ l ∈ m.roots ++ as → m.heap[l]? = some o → (asDict m.heap r).1[l]? = some o ∧ ¬ l ∈ m.roots ++ as :=
        fun l ob h1 h2 => ⟨by simp only [asDict]; rw [List.getElem?_append_left (getElem?_lt h2)]; exact h2, h1⟩
      obtain ⟨k1, k2⟩ := MemSim.resite (m := { m with heap := (asDict m.heap r).1 }) h0 (s' := ⟨Dict.ofPairs e', s.general⟩)
        hr ha hs (st := st) (nd := Dict.ofPairs d')
        (by simp only [asDict]; rw [List.getElem?_append_left (getElem?_lt q1)]; exact q1) rfl
        ((KRel.ofPairs h2).mono fun _ _ hx => hx.frame hag)
      obtain ⟨as', k3, k4⟩ := k1.copy (i := i) (r := r) (s := ⟨Dict.ofPairs e', s.general⟩) hr
        (List.getElem?_set_self (Keeps.lt hs))
      exact ⟨trivial, as', k3, f0.trans (k2.trans k4)⟩

theorem KRel.filter {α β : Type} {R : α → β → Prop} {d : Dict Key α} {e : Dict Key β} (h : KRel R d e) (f : Key → Bool) :
    KRel R (d.filter fun kv => f kv.1) (e.filter fun kv => f kv.1) := by
  induction h with
  | nil => exact .nil
  | @cons p q d e hp _ ih =>
    rw [List.filter_cons, List.filter_cons, hp.1]
    by_cases hf : f q.1 = true
    · rw [if_pos hf, if_pos hf]; exact .cons hp ih
    · rw [if_neg hf, if_neg hf]; exact ih

/-- Rebuilding an update, in lockstep. -/
theorem reformat_frame {m : HMem} {v : VMem} {as : List Nat} (h : MemSim m v as) (j : Nat) :
    (m.reformat j).2 = (v.reformat j).2 ∧ MemSim (m.reformat j).1 (v.reformat j).1 as ∧ Frame m (m.reformat j).1 as as := by
  rcases rep_dictAt (h.val j) with ⟨e, d, h1, h2, h3⟩ | ⟨h1, h2⟩
  · simp only [HMem.reformat, VMem.reformat, h1, h2, SimResult.reformat, vIntKeys_eq, intKeys_eq]
    have hrel := toIntPairs_rel (h3.filter fun k => decide (k ≠ GENERAL))
    cases he : toIntPairs (e.filter fun kv => decide (kv.1 ≠ GENERAL)) with
    | error x =>
      rw [he] at hrel
      simp only at hrel
      simp only [hrel, Except.map]
      exact ⟨trivial, h, .same as rfl rfl⟩
    | ok e' =>
      rw [he] at hrel
      obtain ⟨d', h4, h5⟩ := hrel
      simp only [h4, Except.map]
      have hP : ¬ m.heap.length ∈ m.roots ++ as := fun hh => by have := h.private_lt _ hh; omega
      have h0 := h.alloc [.dict (Dict.ofPairs d')]
      have hag : ∀ l o, ¬ l ∈ m.roots ++ as → m.heap[l]? = some o →
          (m.heap ++ [Obj.dict (Dict.ofPairs d')])[l]? = some o ∧ ¬ l ∈ m.roots ++ as :=
        fun l ob h1 h2 => ⟨by rw [List.getElem?_append_left (getElem?_lt h2)]; exact h2, h1⟩
      refine ⟨trivial, h0.push (x := .ref m.heap.length) (Rep.dict (P := (· ∈ m.roots ++ as)) hP
        (by rw [List.getElem?_append_right (Nat.le_refl _), Nat.sub_self]; rfl) ?_), .alloc as _ rfl rfl⟩
      exact (KRel.ofPairs h5).mono fun _ _ hx => hx.frame hag
  · have : SimResult.reformat (v.val j) = .error .attributeError := by
      revert h1
      cases v.val j <;> intro h1 <;> first | rfl | exact absurd rfl (h1 _)
    simp only [HMem.reformat, VMem.reformat, h2, this]
    exact ⟨trivial, h, .same as rfl rfl⟩

theorem MSim.reload {m : HMem} {v : VMem} (h : MSim m v) (i : Nat) :
    (m.reload i).2 = (v.reload i).2 ∧ MSim (m.reload i).1 (v.reload i).1 := by
  obtain ⟨as, h⟩ := h
  obtain ⟨h1, as', h2, _⟩ := reload_frame h i
  exact ⟨h1, as', h2⟩

theorem MSim.reformat {m : HMem} {v : VMem} (h : MSim m v) (j : Nat) :
    (m.reformat j).2 = (v.reformat j).2 ∧ MSim (m.reformat j).1 (v.reformat j).1 := by
  obtain ⟨as, h⟩ := h
  obtain ⟨h1, h2, _⟩ := reformat_frame h j
  exact ⟨h1, as, h2⟩

theorem reformatAll_sim (js : List Nat) : ∀ {m : HMem} {v : VMem}, MSim m v →
    (reformatAll heapJson m js).2 = (reformatAll valJson v js).2 ∧
      MSim (reformatAll heapJson m js).1 (reformatAll valJson v js).1 := by
  induction js with
  | nil => intro m v h; exact ⟨rfl, h⟩
  | cons j js ih =>
    intro m v h
    obtain ⟨h1, h2⟩ := h.reformat j
    have hn : heapJson.nvals m = valJson.nvals v := h.nvals
    simp only [reformatAll]
    change (heapJson.reformat m j).2 = (valJson.reformat v j).2 at h1
    change MSim (heapJson.reformat m j).1 (valJson.reformat v j).1 at h2
    rcases hA : heapJson.reformat m j with ⟨m', o⟩
    rcases hB : valJson.reformat v j with ⟨v', o'⟩
    rw [hA, hB] at h1 h2
    simp only at h1 h2
    subst h1
    cases o with
    | some e => exact ⟨rfl, h2⟩
    | none =>
      obtain ⟨h3, h4⟩ := ih h2
      exact ⟨by simp only [h3, hn], h4⟩

/-- One command, in lockstep. -/
theorem WSim.jstep {w : World HMem} {v : World VMem} (h : WSim w v) (c : JCmd) :
    (w.jstep heapJson c).2 = (v.jstep valJson c).2 ∧ WSim (w.jstep heapJson c).1 (v.jstep valJson c).1 := by
  cases c with
  | cmd c => exact h.step c
  | reload i =>
    obtain ⟨h1, h2⟩ := h.mem.reload i
    change (heapJson.reload w.mem i).2 = (valJson.reload v.mem i).2 at h1
    exact ⟨by simp only [World.jstep, h1], h2, h.results, h.gens⟩
  | reloadResult r =>
    have hsz : heapJson.size w.mem = valJson.size v.mem := h.mem.size
    simp only [World.jstep, World.reloadResult, h.results]
    cases v.results[r]? with
    | none => exact ⟨rfl, h⟩
    | some q =>
      simp only
      obtain ⟨h1, h2⟩ := h.mem.reload q.initial
      change (heapJson.reload w.mem q.initial).2 = (valJson.reload v.mem q.initial).2 at h1
      change MSim (heapJson.reload w.mem q.initial).1 (valJson.reload v.mem q.initial).1 at h2
      rcases hA : heapJson.reload w.mem q.initial with ⟨m', o⟩
      rcases hB : valJson.reload v.mem q.initial with ⟨v', o'⟩
      rw [hA, hB] at h1 h2
      simp only at h1 h2
      subst h1
      cases o with
      | some e => exact ⟨rfl, h2, rfl, h.gens⟩
      | none =>
        simp only
        obtain ⟨h3, h4⟩ := reformatAll_sim q.diffs h2
        rcases hC : reformatAll heapJson m' q.diffs with ⟨m2, o2⟩
        rcases hD : reformatAll valJson v' q.diffs with ⟨v2, o3⟩
        rw [hC, hD] at h3 h4
        simp only at h3 h4
        subst h3
        cases o2 with
        | error e => exact ⟨rfl, h4, rfl, h.gens⟩
        | ok js => exact ⟨rfl, h4, by simp only [hsz], h.gens⟩

theorem WSim.jrun {w : World HMem} {v : World VMem} (h : WSim w v) (cs : List JCmd) :
    (w.jrun heapJson cs).2 = (v.jrun valJson cs).2 ∧ WSim (w.jrun heapJson cs).1 (v.jrun valJson cs).1 := by
  induction cs generalizing w v with
  | nil => exact ⟨rfl, h⟩
  | cons c cs ih =>
    obtain ⟨h1, h2⟩ := h.jstep c
    obtain ⟨h3, h4⟩ := ih h2
    exact ⟨by simp only [World.jrun, h1, h3], h4⟩

/-! ### the world on values -/

theorem keeps_reload (v : VMem) (i : Nat) : Keeps (· = i) v (v.reload i).1 := by
  unfold VMem.reload
  cases hs : v.states[i]? with
  | none => exact .refl _ _
  | some s =>
    simp only
    cases intIds s with
    | error e => exact .refl _ _
    | ok s' =>
      refine ⟨fun j t hj ht => ?_, by simp, fun _ _ => rfl, le_rfl⟩
      have hlt := Keeps.lt ht
      simp only
      rw [List.getElem?_append_left (by simpa using hlt), List.getElem?_set_ne (by omega)]
      exact ht

theorem keeps_reformat (v : VMem) (j : Nat) : Keeps (fun _ => False) v (v.reformat j).1 := by
  unfold VMem.reformat
  cases SimResult.reformat (v.val j) with
  | error e => exact .refl _ _
  | ok d => exact ⟨fun _ _ _ h => h, le_rfl, fun k hk => by simp [List.getElem?_append_left hk], by simp⟩

theorem reformatAll_keeps (js : List Nat) : ∀ (v : VMem), Keeps (fun _ => False) v (reformatAll valJson v js).1 := by
  induction js with
  | nil => intro v; exact .refl _ _
  | cons j js ih =>
    intro v
    have hk := keeps_reformat v j
    change Keeps _ v (valJson.reformat v j).1 at hk
    simp only [reformatAll]
    rcases hA : valJson.reformat v j with ⟨v', o⟩
    rw [hA] at hk
    cases o with
    | some e => exact hk
    | none => exact hk.trans (ih v')

end Heap
end Pyl
