import Verif.Lemmas.Heap
import Mathlib.Data.List.Nodup
/-
Memories and worlds on the heap run in lockstep with those on values.
-/
set_option autoImplicit false

namespace Pyl
namespace Heap

/-- The heap memory represents the value memory: the private dicts (`_state` and its SITES dict) of the states are
pairwise different and nothing else refers to them. -/
structure MemSim (m : HMem) (v : VMem) (as : List Nat) : Prop where
  lenA : as.length = m.roots.length
  lenS : v.states.length = m.roots.length
  nodup : (m.roots ++ as).Nodup
  states : ∀ (i r a : Nat) (s : SimState), m.roots[i]? = some r → as[i]? = some a → v.states[i]? = some s →
    StRep m.heap (· ∈ m.roots ++ as) r a s
  vals : List.Forall₂ (Rep m.heap (· ∈ m.roots ++ as)) m.vals v.vals

theorem forall₂_getD {R : HVal → Val → Prop} {l : List HVal} {l' : List Val} (h : List.Forall₂ R l l')
    (h0 : R .pyNone .pyNone) (j : Nat) : R (l.getD j .pyNone) (l'.getD j .pyNone) := by
  induction h generalizing j with
  | nil => simpa using h0
  | cons hp _ ih =>
    cases j with
    | zero => simpa using hp
    | succ j => simpa using ih j

theorem MemSim.val {m : HMem} {v : VMem} {as : List Nat} (h : MemSim m v as) (j : Nat) :
    Rep m.heap (· ∈ m.roots ++ as) (m.val j) (v.val j) := forall₂_getD h.vals .none j

theorem MemSim.private_lt {m : HMem} {v : VMem} {as : List Nat} (h : MemSim m v as) :
    ∀ l, l ∈ m.roots ++ as → l < m.heap.length := by
  intro l hl
  rcases List.mem_append.1 hl with hl | hl
  · obtain ⟨i, hi, rfl⟩ := List.mem_iff_getElem.1 hl
    have hs := h.states i m.roots[i] (as[i]'(by rw [h.lenA]; exact hi)) (v.states[i]'(by rw [h.lenS]; exact hi))
      (by simp) (by simp) (by simp)
    obtain ⟨d, h1, _⟩ := hs.st
    exact getElem?_lt h1
  · obtain ⟨i, hi, rfl⟩ := List.mem_iff_getElem.1 hl
    have hi' : i < m.roots.length := by rw [← h.lenA]; exact hi
    have hs := h.states i m.roots[i] (as[i]'hi) (v.states[i]'(by rw [h.lenS]; exact hi'))
      (by simp) (by simp) (by simp)
    obtain ⟨d, h1, _⟩ := hs.sites
    exact getElem?_lt h1

theorem getElem?_some_of {α β : Type} {l : List α} {l' : List β} (h : l.length = l'.length) {i : Nat} {a : α}
    (ha : l[i]? = some a) : ∃ b, l'[i]? = some b := by
  have : i < l.length := by
    by_contra hn
    rw [List.getElem?_eq_none (by omega)] at ha; cases ha
  exact ⟨l'[i]'(by omega), by simp⟩

/-- Pushing a represented value. -/
theorem MemSim.push {m : HMem} {v : VMem} {as : List Nat} (h : MemSim m v as) {x : HVal} {y : Val}
    (hx : Rep m.heap (· ∈ m.roots ++ as) x y) :
    MemSim { m with vals := m.vals ++ [x] } { v with vals := v.vals ++ [y] } as :=
  ⟨h.lenA, h.lenS, h.nodup, h.states, List.rel_append h.vals (.cons hx .nil)⟩

/-- Allocating an object. -/
theorem MemSim.alloc {m : HMem} {v : VMem} {as : List Nat} (h : MemSim m v as) (o : List Obj) :
    MemSim { m with heap := m.heap ++ o } v as := by
  have hag : ∀ l ob, ¬ l ∈ m.roots ++ as → m.heap[l]? = some ob → (m.heap ++ o)[l]? = some ob ∧ ¬ l ∈ m.roots ++ as :=
    fun l ob h1 h2 => ⟨by rw [List.getElem?_append_left (getElem?_lt h2)]; exact h2, h1⟩
  refine ⟨h.lenA, h.lenS, h.nodup, fun i r a s h1 h2 h3 => ?_, h.vals.imp fun _ _ hr => hr.frame hag⟩
  have hs := h.states i r a s h1 h2 h3
  refine hs.frame hag ?_ ?_ hs.pr hs.pa
  · obtain ⟨d, hd, _⟩ := hs.st
    exact List.getElem?_append_left (getElem?_lt hd)
  · obtain ⟨d, hd, _⟩ := hs.sites
    exact List.getElem?_append_left (getElem?_lt hd)

/-- Replacing one state. -/
theorem MemSim.update {m : HMem} {v : VMem} {as : List Nat} (h : MemSim m v as) {i r a : Nat} {s' : SimState} {h' : Heap}
    (hr : m.roots[i]? = some r) (ha : as[i]? = some a) (hs' : StRep h' (· ∈ m.roots ++ as) r a s')
    (hg : Grows2 r a m.heap h') :
    MemSim { m with heap := h' } { v with states := v.states.set i s' } as := by
  have hPr : r ∈ m.roots ++ as := List.mem_append_left _ (List.mem_of_getElem? hr)
  have hPa : a ∈ m.roots ++ as := List.mem_append_right _ (List.mem_of_getElem? ha)
  have hag := hg.agree (P := (· ∈ m.roots ++ as)) hPr hPa
  refine ⟨h.lenA, by simpa using h.lenS, h.nodup, fun j r2 a2 s2 h1 h2 h3 => ?_, h.vals.imp fun _ _ hx => hx.frame hag⟩
  by_cases hij : i = j
  · subst hij
    rw [hr] at h1; rw [ha] at h2
    injection h1 with h1; injection h2 with h2
    subst h1 h2
    have hlt : i < v.states.length := by
      rw [h.lenS]
      by_contra hn
      rw [List.getElem?_eq_none (by omega)] at hr; cases hr
    rw [List.getElem?_set_self hlt] at h3
    injection h3 with h3
    exact h3 ▸ hs'
  · rw [List.getElem?_set_ne hij] at h3
    have hs := h.states j r2 a2 s2 h1 h2 h3
    have hnd := List.nodup_append.1 h.nodup
    have n1 : r2 ≠ r := by
      intro e
      exact hij ((List.getElem?_inj (by
        by_contra hn
        rw [List.getElem?_eq_none (by omega)] at hr; cases hr) hnd.1).1 (by rw [hr, h1, e]))
    have n2 : a2 ≠ a := by
      intro e
      exact hij ((List.getElem?_inj (by
        by_contra hn
        rw [List.getElem?_eq_none (by omega)] at ha; cases ha) hnd.2.1).1 (by rw [ha, h2, e]))
    have n3 : r2 ≠ a := hnd.2.2 r2 (List.mem_of_getElem? h1) a (List.mem_of_getElem? ha)
    have n4 : a2 ≠ r := fun e => hnd.2.2 r (List.mem_of_getElem? hr) a2 (List.mem_of_getElem? h2) e.symm
    refine hs.frame hag ?_ ?_ hs.pr hs.pa
    · obtain ⟨d, hd, _⟩ := hs.st
      exact hg.same r2 n1 n3 (getElem?_lt hd)
    · obtain ⟨d, hd, _⟩ := hs.sites
      exact hg.same a2 n4 n2 (getElem?_lt hd)

theorem getSite_sim {h : Heap} {P : Nat → Prop} {root a : Nat} {s : SimState} (hs : StRep h P root a s) (k : Key) :
    Rep h P (getSite h root k) ((s.getSiteState k).elim .pyNone Val.dict) := by
  obtain ⟨pr, pa, ne, ⟨d, h1, h2, h3⟩, sd, h4, h5⟩ := hs
  simp only [getSite, dictAt_ref h1, h2, dictAt_ref h4, SimState.getSiteState]
  rcases h5.get? k with ⟨h6, h7⟩ | ⟨v, p, h6, h7, h8⟩
  · rw [h6, h7]; exact .none
  · rw [h6, h7]; exact h8

theorem getGeneral_sim {h : Heap} {P : Nat → Prop} {root a : Nat} {s : SimState} (hs : StRep h P root a s) :
    Rep h P (getGeneral h root) (s.getGeneralState.elim .pyNone Val.dict) := by
  obtain ⟨pr, pa, ne, ⟨d, h1, h2, h3⟩, _⟩ := hs
  simp only [getGeneral, dictAt_ref h1, SimState.getGeneralState]
  cases hg : s.general with
  | none => rw [hg] at h3; simp only at h3; rw [h3]; exact .none
  | some g =>
    rw [hg] at h3
    obtain ⟨v, h6, h7⟩ := h3
    rw [h6]; exact h7

/-- From `m` to `m'` everything outside the private dicts of the states stays as it is, and the states keep their places. -/
structure Frame (m m' : HMem) (as as' : List Nat) : Prop where
  keep : ∀ l, l < m.heap.length → l ∉ m.roots ++ as → m'.heap[l]? = m.heap[l]? ∧ l ∉ m'.roots ++ as'
  len : m.heap.length ≤ m'.heap.length
  roots : ∀ (i r : Nat), m.roots[i]? = some r → m'.roots[i]? = some r

theorem Frame.same {m m' : HMem} (as : List Nat) (hr : m'.roots = m.roots) (hh : m'.heap = m.heap) : Frame m m' as as :=
  ⟨fun l _ h => by rw [hr, hh]; exact ⟨rfl, h⟩, by rw [hh], fun _ _ h => by rw [hr]; exact h⟩

theorem Frame.alloc {m m' : HMem} (as : List Nat) (o : List Obj) (hr : m'.roots = m.roots) (hh : m'.heap = m.heap ++ o) :
    Frame m m' as as :=
  ⟨fun l hl h => by rw [hr, hh]; exact ⟨List.getElem?_append_left hl, h⟩, by rw [hh]; simp,
    fun _ _ h => by rw [hr]; exact h⟩

theorem Frame.grows {m m' : HMem} {as : List Nat} {r a : Nat} (hm : r ∈ m.roots ++ as) (ha : a ∈ m.roots ++ as)
    (hr : m'.roots = m.roots) (hg : Grows2 r a m.heap m'.heap) : Frame m m' as as :=
  ⟨fun l hl h => by
      rw [hr]
      exact ⟨hg.same l (fun e => h (e ▸ hm)) (fun e => h (e ▸ ha)) hl, h⟩,
    hg.len, fun _ _ h => by rw [hr]; exact h⟩

theorem Frame.trans {m m' m'' : HMem} {as as' as'' : List Nat} (h : Frame m m' as as') (h' : Frame m' m'' as' as'') :
    Frame m m'' as as'' :=
  ⟨fun l hl hn => by
      obtain ⟨h1, h2⟩ := h.keep l hl hn
      obtain ⟨h3, h4⟩ := h'.keep l (lt_of_lt_of_le hl h.len) h2
      exact ⟨h3.trans h1, h4⟩,
    h.len.trans h'.len, fun i r hr => h'.roots i r (h.roots i r hr)⟩

/-- Adding a state whose dicts are new. -/
theorem Frame.add {m m' : HMem} {as : List Nat} {r a : Nat} (hr : m.heap.length ≤ r) (ha : m.heap.length ≤ a)
    (hroots : m'.roots = m.roots ++ [r]) (hh : ∃ o, m'.heap = m.heap ++ o) : Frame m m' as (as ++ [a]) := by
  obtain ⟨o, ho⟩ := hh
  refine ⟨fun l hl h => ?_, by rw [ho]; simp, fun i x hx => ?_⟩
  · rw [hroots, ho]
    refine ⟨List.getElem?_append_left hl, fun hm => h ?_⟩
    simp only [List.mem_append, List.mem_singleton] at hm ⊢
    rcases hm with (hm | hm) | (hm | hm)
    · exact Or.inl hm
    · omega
    · exact Or.inr hm
    · omega
  · rw [hroots, List.getElem?_append_left (List.getElem?_eq_some_iff.1 hx).1]; exact hx

/-- A deep copy of a state. -/
theorem MemSim.copy {m : HMem} {v : VMem} {as : List Nat} (h : MemSim m v as) {i r : Nat} {s : SimState}
    (hr : m.roots[i]? = some r) (hs : v.states[i]? = some s) :
    ∃ as', MemSim ⟨(deepcopy m.heap (.ref r)).1, m.roots ++ [r + m.heap.length], m.vals⟩
      { v with states := v.states ++ [s] } as' ∧
      Frame m ⟨(deepcopy m.heap (.ref r)).1, m.roots ++ [r + m.heap.length], m.vals⟩ as as' := by
  obtain ⟨a, ha⟩ := getElem?_some_of h.lenA.symm hr
  set n := m.heap.length with hn
  have hlt := h.private_lt
  have hst := h.states i r a s hr ha hs
  refine ⟨as ++ [a + n], ?_, Frame.add (r := r + n) (by omega) (by omega) rfl ⟨_, rfl⟩⟩
  have mem_iff : ∀ l, l ∈ (m.roots ++ [r + n]) ++ (as ++ [a + n]) ↔ l ∈ m.roots ++ as ∨ l = r + n ∨ l = a + n := by
    intro l; simp only [List.mem_append, List.mem_singleton]; tauto
  have hrP : r ∈ m.roots ++ as := List.mem_append_left _ (List.mem_of_getElem? hr)
  have haP : a ∈ m.roots ++ as := List.mem_append_right _ (List.mem_of_getElem? ha)
  have hag : ∀ l o, ¬ l ∈ m.roots ++ as → m.heap[l]? = some o →
      (deepcopy m.heap (.ref r)).1[l]? = some o ∧ ¬ l ∈ (m.roots ++ [r + n]) ++ (as ++ [a + n]) := by
    intro l o h1 h2
    have h3 := getElem?_lt h2
    refine ⟨by simp only [deepcopy]; rw [List.getElem?_append_left h3]; exact h2, ?_⟩
    rw [mem_iff]
    rintro (h4 | h4 | h4)
    · exact h1 h4
    · omega
    · omega
  have hcl : ∀ l o, ¬ l ∈ m.roots ++ as → m.heap[l]? = some o →
      ¬ (l + m.heap.length) ∈ (m.roots ++ [r + n]) ++ (as ++ [a + n]) := by
    intro l o h1 _
    rw [mem_iff]
    rintro (h4 | h4 | h4)
    · have := hlt _ h4; omega
    · exact h1 ((by omega : l = r) ▸ hrP)
    · exact h1 ((by omega : l = a) ▸ haP)
  have hold : ∀ l, l < n → (deepcopy m.heap (.ref r)).1[l]? = m.heap[l]? := by
    intro l hl; simp only [deepcopy]; rw [List.getElem?_append_left hl]
  refine ⟨by simp [h.lenA], by simp [h.lenS], ?_, ?_, h.vals.imp fun _ _ hx => hx.frame hag⟩
  · have p1 : ((m.roots ++ [r + n]) ++ (as ++ [a + n])).Perm ((m.roots ++ as) ++ [r + n, a + n]) := by
      have : ((m.roots ++ [r + n]) ++ (as ++ [a + n])) = m.roots ++ ([r + n] ++ as ++ [a + n]) := by simp
      rw [this, List.append_assoc m.roots]
      refine List.Perm.append_left _ ?_
      have : as ++ [r + n, a + n] = (as ++ [r + n]) ++ [a + n] := by simp
      rw [this]
      exact List.Perm.append_right _ List.perm_append_comm
    rw [p1.nodup_iff, List.nodup_append]
    refine ⟨h.nodup, ?_, ?_⟩
    · have : r ≠ a := hst.ne
      simp; omega
    · intro x hx y hy
      have := hlt x hx
      simp at hy
      rcases hy with rfl | rfl <;> omega
  · intro j r2 a2 s2 h1 h2 h3
    by_cases hj : j < m.roots.length
    · rw [List.getElem?_append_left hj] at h1
      rw [List.getElem?_append_left (by rw [h.lenA]; exact hj)] at h2
      rw [List.getElem?_append_left (by rw [h.lenS]; exact hj)] at h3
      have hs2 := h.states j r2 a2 s2 h1 h2 h3
      refine hs2.frame hag ?_ ?_ ((mem_iff _).2 (Or.inl hs2.pr)) ((mem_iff _).2 (Or.inl hs2.pa))
      · exact hold _ (hlt _ hs2.pr)
      · exact hold _ (hlt _ hs2.pa)
    · rw [List.getElem?_append_right (by omega)] at h1
      rw [List.getElem?_append_right (by rw [h.lenA]; omega)] at h2
      rw [List.getElem?_append_right (by rw [h.lenS]; omega)] at h3
      rw [h.lenA] at h2; rw [h.lenS] at h3
      have hj0 : j - m.roots.length = 0 := by
        by_contra hne
        rw [List.getElem?_eq_none (by simp; omega)] at h1; cases h1
      rw [hj0] at h1 h2 h3
      simp at h1 h2 h3
      subst h1 h2 h3
      obtain ⟨pr, pa, ne, ⟨d, g1, g2, g3⟩, sd, g4, g5⟩ := hst
      refine ⟨(mem_iff _).2 (by simp), (mem_iff _).2 (by simp), by omega,
        ⟨d.map fun p => (p.1, p.2.shift n), ?_, ?_, ?_⟩, sd.map fun p => (p.1, p.2.shift n), ?_, ?_⟩
      · exact get?_shift m.heap r _ g1
      · have : ∀ (d : Dict Key HVal) k, Dict.get? (d.map fun p => (p.1, p.2.shift n)) k =
            (Dict.get? d k).map (HVal.shift n) := by
          intro d k
          induction d with
          | nil => rfl
          | cons p d ih =>
            obtain ⟨k', x⟩ := p
            simp only [List.map_cons, Dict.get?_cons]
            split_ifs <;> simp [ih]
        rw [this, g2]; rfl
      · have hget : ∀ (d : Dict Key HVal) k, Dict.get? (d.map fun p => (p.1, p.2.shift n)) k =
            (Dict.get? d k).map (HVal.shift n) := by
          intro d k
          induction d with
          | nil => rfl
          | cons p d ih =>
            obtain ⟨k', x⟩ := p
            simp only [List.map_cons, Dict.get?_cons]
            split_ifs <;> simp [ih]
        cases hgen : s.general with
        | none => rw [hgen] at g3; simp only at g3 ⊢; rw [hget, g3]; rfl
        | some g =>
          rw [hgen] at g3
          obtain ⟨x, g6, g7⟩ := g3
          exact ⟨x.shift n, by rw [hget, g6]; rfl, Rep.deepcopy (P := (· ∈ m.roots ++ as)) hcl g7⟩
      · exact get?_shift m.heap a _ g4
      · exact (List.forall₂_map_left_iff).2 (g5.imp fun _ _ hp => ⟨hp.1, Rep.deepcopy (P := (· ∈ m.roots ++ as)) hcl hp.2⟩)

/-- One primitive, in lockstep. -/
theorem step_frame {m : HMem} {v : VMem} {as : List Nat} (h : MemSim m v as) (p : Prim) :
    (m.step p).2 = (v.step p).2 ∧ ∃ as', MemSim (m.step p).1 (v.step p).1 as' ∧ Frame m (m.step p).1 as as' := by
  have hnone : ∀ i : Nat, m.roots[i]? = none → v.states[i]? = none := by
    intro i hi
    rw [List.getElem?_eq_none_iff] at hi ⊢
    rw [h.lenS]; exact hi
  cases p with
  | newState =>
    refine ⟨rfl, as ++ [m.heap.length], ?_, Frame.add (r := m.heap.length + 2) (by omega) le_rfl rfl ⟨_, rfl⟩⟩
    simp only [HMem.step, VMem.step]
    have h0 := h.alloc [.dict [], .dict [], .dict [(SITES, .ref m.heap.length), (GENERAL, .ref (m.heap.length + 1))]]
    set n := m.heap.length with hn
    have hlt := h.private_lt
    have mem_iff : ∀ l, l ∈ (m.roots ++ [n + 2]) ++ (as ++ [n]) ↔ l ∈ m.roots ++ as ∨ l = n + 2 ∨ l = n := by
      intro l; simp only [List.mem_append, List.mem_singleton]; tauto
    have hag : ∀ l o, ¬ l ∈ m.roots ++ as → m.heap[l]? = some o →
        (m.heap ++ [Obj.dict [], .dict [], .dict [(SITES, .ref n), (GENERAL, .ref (n + 1))]])[l]? = some o ∧
          ¬ l ∈ (m.roots ++ [n + 2]) ++ (as ++ [n]) := by
      intro l o h1 h2
      have h3 := getElem?_lt h2
      refine ⟨by rw [List.getElem?_append_left h3]; exact h2, ?_⟩
      rw [mem_iff]
      rintro (h4 | h4 | h4)
      · exact h1 h4
      · omega
      · omega
    refine ⟨by simp [h.lenA], by simp [h.lenS], ?_, ?_, h.vals.imp fun _ _ hx => hx.frame hag⟩
    · have p1 : ((m.roots ++ [n + 2]) ++ (as ++ [n])).Perm ((m.roots ++ as) ++ [n + 2, n]) := by
        have : ((m.roots ++ [n + 2]) ++ (as ++ [n])) = m.roots ++ ([n + 2] ++ as ++ [n]) := by simp
        rw [this, List.append_assoc m.roots]
        refine List.Perm.append_left _ ?_
        have : as ++ [n + 2, n] = (as ++ [n + 2]) ++ [n] := by simp
        rw [this]
        exact List.Perm.append_right _ List.perm_append_comm
      rw [p1.nodup_iff, List.nodup_append]
      refine ⟨h.nodup, by simp, ?_⟩
      intro x hx y hy
      have := hlt x hx
      simp at hy
      rcases hy with rfl | rfl <;> omega
    · intro j r2 a2 s2 h1 h2 h3
      by_cases hj : j < m.roots.length
      · rw [List.getElem?_append_left hj] at h1
        rw [List.getElem?_append_left (by rw [h.lenA]; exact hj)] at h2
        rw [List.getElem?_append_left (by rw [h.lenS]; exact hj)] at h3
        have hs2 := h.states j r2 a2 s2 h1 h2 h3
        refine hs2.frame hag ?_ ?_ ((mem_iff _).2 (Or.inl hs2.pr)) ((mem_iff _).2 (Or.inl hs2.pa))
        · exact List.getElem?_append_left (hlt _ hs2.pr)
        · exact List.getElem?_append_left (hlt _ hs2.pa)
      · rw [List.getElem?_append_right (by omega)] at h1
        rw [List.getElem?_append_right (by rw [h.lenA]; omega)] at h2
        rw [List.getElem?_append_right (by rw [h.lenS]; omega)] at h3
        rw [h.lenA] at h2; rw [h.lenS] at h3
        have hj0 : j - m.roots.length = 0 := by
          by_contra hne
          rw [List.getElem?_eq_none (by simp; omega)] at h1; cases h1
        rw [hj0] at h1 h2 h3
        simp at h1 h2 h3
        subst h1 h2 h3
        refine ⟨(mem_iff _).2 (by simp), (mem_iff _).2 (by simp), by omega,
          ⟨[(SITES, .ref n), (GENERAL, .ref (n + 1))], ?_, rfl, .ref (n + 1), rfl, ?_⟩, [], ?_, .nil⟩
        · rw [List.getElem?_append_right (by omega)]
          have : n + 2 - m.heap.length = 2 := by omega
          rw [this]; rfl
        · refine Rep.dict (d := []) ?_ ?_ .nil
          · show ¬ (n + 1) ∈ _
            rw [mem_iff]
            rintro (h4 | h4 | h4)
            · have := hlt _ h4; omega
            · omega
            · omega
          · rw [List.getElem?_append_right (by omega)]
            have : n + 1 - m.heap.length = 1 := by omega
            rw [this]; rfl
        · rw [List.getElem?_append_right (by omega)]
          have : n - m.heap.length = 0 := by omega
          rw [this]; rfl
  | copy i =>
    cases hr : m.roots[i]? with
    | none => simp only [HMem.step, VMem.step, hr, hnone i hr]; exact ⟨trivial, as, h, .same as rfl rfl⟩
    | some r =>
      obtain ⟨s, hs⟩ := getElem?_some_of h.lenS.symm hr
      simp only [HMem.step, VMem.step, hr, hs]
      exact ⟨trivial, h.copy hr hs⟩
  | none => exact ⟨rfl, as, h.push .none, .same as rfl rfl⟩
  | num q => exact ⟨rfl, as, h.push (.num q), .same as rfl rfl⟩
  | str s => exact ⟨rfl, as, h.push (.str s), .same as rfl rfl⟩
  | mkDict es =>
    refine ⟨rfl, as, ?_, .alloc as _ rfl rfl⟩
    have hP : ¬ m.heap.length ∈ m.roots ++ as := fun hh => by have := h.private_lt _ hh; omega
    have h0 := h.alloc [.dict (Dict.ofPairs (es.map fun p => (p.1, m.val p.2)))]
    refine h0.push (x := .ref m.heap.length) (Rep.dict (P := (· ∈ m.roots ++ as)) hP (by rw [List.getElem?_append_right (Nat.le_refl _), Nat.sub_self]; rfl) ?_)
    refine KRel.ofPairs ?_
    have : ∀ es' : List (Key × Nat), KRel (Rep (m.heap ++ [Obj.dict (Dict.ofPairs (es.map fun p => (p.1, m.val p.2)))]) (· ∈ m.roots ++ as)) (es'.map fun p => (p.1, m.val p.2))
        (es'.map fun p => (p.1, v.val p.2)) := by
      intro es'
      induction es' with
      | nil => exact .nil
      | cons e es ih => exact .cons ⟨rfl, h0.val e.2⟩ ih
    exact this es
  | mkList es =>
    refine ⟨rfl, as, ?_, .alloc as _ rfl rfl⟩
    have hP : ¬ m.heap.length ∈ m.roots ++ as := fun hh => by have := h.private_lt _ hh; omega
    have h0 := h.alloc [.list (es.map m.val)]
    refine h0.push (x := .ref m.heap.length) (Rep.list (P := (· ∈ m.roots ++ as)) hP (by rw [List.getElem?_append_right (Nat.le_refl _), Nat.sub_self]; rfl) ?_)
    have : ∀ es' : List Nat, List.Forall₂ (Rep (m.heap ++ [Obj.list (es.map m.val)]) (· ∈ m.roots ++ as)) (es'.map m.val) (es'.map v.val) := by
      intro es'
      induction es' with
      | nil => exact .nil
      | cons e es ih => exact .cons (h0.val e) ih
    exact this es
  | mkTup es =>
    refine ⟨rfl, as, ?_, .alloc as _ rfl rfl⟩
    have hP : ¬ m.heap.length ∈ m.roots ++ as := fun hh => by have := h.private_lt _ hh; omega
    have h0 := h.alloc [.tup (es.map m.val)]
    refine h0.push (x := .ref m.heap.length) (Rep.tup (P := (· ∈ m.roots ++ as)) hP (by rw [List.getElem?_append_right (Nat.le_refl _), Nat.sub_self]; rfl) ?_)
    have : ∀ es' : List Nat, List.Forall₂ (Rep (m.heap ++ [Obj.tup (es.map m.val)]) (· ∈ m.roots ++ as)) (es'.map m.val) (es'.map v.val) := by
      intro es'
      induction es' with
      | nil => exact .nil
      | cons e es ih => exact .cons (h0.val e) ih
    exact this es
  | setSite i k j =>
    cases hr : m.roots[i]? with
    | none => simp only [HMem.step, VMem.step, hr, hnone i hr]; exact ⟨trivial, as, h, .same as rfl rfl⟩
    | some r =>
      obtain ⟨s, hs⟩ := getElem?_some_of h.lenS.symm hr
      obtain ⟨a, ha⟩ := getElem?_some_of h.lenA.symm hr
      simp only [HMem.step, VMem.step, hr, hs]
      have := setSiteState_sim (h.states i r a s hr ha hs) h.private_lt k (h.val j)
      cases hw : s.setSiteStateV k (v.val j) with
      | error e => rw [hw] at this; simp only at this; simp only [this]; exact ⟨trivial, as, h, .same as rfl rfl⟩
      | ok s' =>
        rw [hw] at this
        obtain ⟨h', h1, h2, h3⟩ := this
        simp only [h1]
        exact ⟨trivial, as, h.update hr ha h2 ⟨h3.len, fun l _ hl => h3.same l hl⟩,
          .grows (List.mem_append_left _ (List.mem_of_getElem? hr)) (List.mem_append_right _ (List.mem_of_getElem? ha)) rfl ⟨h3.len, fun l _ hl => h3.same l hl⟩⟩
  | setGeneral i j =>
    cases hr : m.roots[i]? with
    | none => simp only [HMem.step, VMem.step, hr, hnone i hr]; exact ⟨trivial, as, h, .same as rfl rfl⟩
    | some r =>
      obtain ⟨s, hs⟩ := getElem?_some_of h.lenS.symm hr
      obtain ⟨a, ha⟩ := getElem?_some_of h.lenA.symm hr
      simp only [HMem.step, VMem.step, hr, hs]
      have := setGeneralState_sim (h.states i r a s hr ha hs) h.private_lt (h.val j)
      cases hw : s.setGeneralStateV (v.val j) with
      | error e => rw [hw] at this; simp only at this; simp only [this]; exact ⟨trivial, as, h, .same as rfl rfl⟩
      | ok s' =>
        rw [hw] at this
        obtain ⟨h', h1, h2, h3⟩ := this
        simp only [h1]
        exact ⟨trivial, as, h.update hr ha h2 ⟨h3.len, fun l hl _ => h3.same l hl⟩,
          .grows (List.mem_append_left _ (List.mem_of_getElem? hr)) (List.mem_append_right _ (List.mem_of_getElem? ha)) rfl ⟨h3.len, fun l hl _ => h3.same l hl⟩⟩
  | batch i j =>
    cases hr : m.roots[i]? with
    | none => simp only [HMem.step, VMem.step, hr, hnone i hr]; exact ⟨trivial, as, h, .same as rfl rfl⟩
    | some r =>
      obtain ⟨s, hs⟩ := getElem?_some_of h.lenS.symm hr
      obtain ⟨a, ha⟩ := getElem?_some_of h.lenA.symm hr
      simp only [HMem.step, VMem.step, hr, hs]
      obtain ⟨h1, h2, h3⟩ := batchUpdate_sim (h.states i r a s hr ha hs) h.private_lt (h.val j)
      exact ⟨h1, as, h.update hr ha h2 h3, .grows (List.mem_append_left _ (List.mem_of_getElem? hr)) (List.mem_append_right _ (List.mem_of_getElem? ha)) rfl h3⟩
  | getSite i k =>
    cases hr : m.roots[i]? with
    | none => simp only [HMem.step, VMem.step, hr, hnone i hr]; exact ⟨trivial, as, h.push .none, .same as rfl rfl⟩
    | some r =>
      obtain ⟨s, hs⟩ := getElem?_some_of h.lenS.symm hr
      obtain ⟨a, ha⟩ := getElem?_some_of h.lenA.symm hr
      simp only [HMem.step, VMem.step, hr, hs]
      exact ⟨trivial, as, h.push (getSite_sim (h.states i r a s hr ha hs) k), .same as rfl rfl⟩
  | getGeneral i =>
    cases hr : m.roots[i]? with
    | none => simp only [HMem.step, VMem.step, hr, hnone i hr]; exact ⟨trivial, as, h.push .none, .same as rfl rfl⟩
    | some r =>
      obtain ⟨s, hs⟩ := getElem?_some_of h.lenS.symm hr
      obtain ⟨a, ha⟩ := getElem?_some_of h.lenA.symm hr
      simp only [HMem.step, VMem.step, hr, hs]
      exact ⟨trivial, as, h.push (getGeneral_sim (h.states i r a s hr ha hs)), .same as rfl rfl⟩

theorem step_sim {m : HMem} {v : VMem} {as : List Nat} (h : MemSim m v as) (p : Prim) :
    (m.step p).2 = (v.step p).2 ∧ ∃ as', MemSim (m.step p).1 (v.step p).1 as' := by
  obtain ⟨h1, as', h2, _⟩ := step_frame h p
  exact ⟨h1, as', h2⟩

/-- Memories in lockstep. -/
def MSim (m : HMem) (v : VMem) : Prop := ∃ as, MemSim m v as

theorem MSim.size {m : HMem} {v : VMem} (h : MSim m v) : heapOps.size m = valOps.size v := by
  obtain ⟨as, h⟩ := h; exact h.lenS.symm

theorem MSim.nvals {m : HMem} {v : VMem} (h : MSim m v) : heapOps.nvals m = valOps.nvals v := by
  obtain ⟨as, h⟩ := h; exact h.vals.length_eq

theorem MSim.step {m : HMem} {v : VMem} (h : MSim m v) (p : Prim) :
    (heapOps.step m p).2 = (valOps.step v p).2 ∧ MSim (heapOps.step m p).1 (valOps.step v p).1 := by
  obtain ⟨as, h⟩ := h; exact step_sim h p

/-- The world on the heap and the world on values are in lockstep. -/
structure WSim (w : World HMem) (v : World VMem) : Prop where
  mem : MSim w.mem v.mem
  results : w.results = v.results
  gens : w.gens = v.gens

theorem applyDiffs_sim (x : Nat) (ds : List Nat) : ∀ {m : HMem} {v : VMem} (n : Nat), MSim m v →
    (applyDiffs heapOps x m ds n).2 = (applyDiffs valOps x v ds n).2 ∧
      MSim (applyDiffs heapOps x m ds n).1 (applyDiffs valOps x v ds n).1 := by
  induction ds with
  | nil => intro m v n h; cases n <;> exact ⟨rfl, h⟩
  | cons d ds ih =>
    intro m v n h
    cases n with
    | zero => exact ⟨rfl, h⟩
    | succ n =>
      obtain ⟨h1, h2⟩ := h.step (.batch x d)
      simp only [applyDiffs]
      generalize heapOps.step m (.batch x d) = a at h1 h2
      generalize valOps.step v (.batch x d) = b at h1 h2
      obtain ⟨a1, a2⟩ := a
      obtain ⟨b1, b2⟩ := b
      simp only at h1 h2; subst h1
      cases a2 with
      | some e => exact ⟨rfl, h2⟩
      | none => exact ih n h2

theorem getStepW_sim {m : HMem} {v : VMem} (h : MSim m v) (r : HResult) (k : Int) :
    (getStepW heapOps m r k).2 = (getStepW valOps v r k).2 ∧
      MSim (getStepW heapOps m r k).1 (getStepW valOps v r k).1 := by
  unfold getStepW
  cases Dict.get? r.stored k with
  | some i => exact ⟨rfl, h⟩
  | none =>
    simp only
    obtain ⟨h1, h2⟩ := h.step (.copy r.initial)
    rw [h.size]
    generalize heapOps.step m (.copy r.initial) = a at h1 h2
    generalize valOps.step v (.copy r.initial) = b at h1 h2
    obtain ⟨a1, a2⟩ := a
    obtain ⟨b1, b2⟩ := b
    simp only at h1 h2; subst h1
    cases a2 with
    | some e => exact ⟨rfl, h2⟩
    | none =>
      simp only
      obtain ⟨h3, h4⟩ := applyDiffs_sim (valOps.size v) r.diffs k.toNat h2
      generalize applyDiffs heapOps (valOps.size v) a1 r.diffs k.toNat = a at h3 h4
      generalize applyDiffs valOps (valOps.size v) b1 r.diffs k.toNat = b at h3 h4
      obtain ⟨c1, c2⟩ := a
      obtain ⟨d1, d2⟩ := b
      simp only at h3 h4; subst h3
      cases c2 <;> exact ⟨rfl, h4⟩

theorem loadLoopW_sim (iv : Int) (x : Nat) (ds : List Nat) : ∀ (i : Nat) {m : HMem} {v : VMem} (st : Dict Int Nat),
    MSim m v → (loadLoopW heapOps iv x i m ds st).2 = (loadLoopW valOps iv x i v ds st).2 ∧
      MSim (loadLoopW heapOps iv x i m ds st).1 (loadLoopW valOps iv x i v ds st).1 := by
  induction ds with
  | nil => intro i m v st h; exact ⟨rfl, h⟩
  | cons d ds ih =>
    intro i m v st h
    obtain ⟨h1, h2⟩ := h.step (.batch x d)
    simp only [loadLoopW]
    generalize heapOps.step m (.batch x d) = a at h1 h2
    generalize valOps.step v (.batch x d) = b at h1 h2
    obtain ⟨a1, a2⟩ := a
    obtain ⟨b1, b2⟩ := b
    simp only at h1 h2; subst h1
    cases a2 with
    | some e => exact ⟨rfl, h2⟩
    | none =>
      simp only
      split_ifs
      · exact ⟨rfl, h2⟩
      · obtain ⟨h3, h4⟩ := h2.step (.copy x)
        rw [h2.size]
        generalize heapOps.step a1 (.copy x) = a at h3 h4
        generalize valOps.step b1 (.copy x) = b at h3 h4
        obtain ⟨c1, c2⟩ := a
        obtain ⟨d1, d2⟩ := b
        simp only at h3 h4; subst h3
        cases c2 with
        | some e => exact ⟨rfl, h4⟩
        | none => exact ih _ _ h4
      · exact ih _ _ h2

theorem loadStepsW_sim {m : HMem} {v : VMem} (h : MSim m v) (r : HResult) (iv : Int) :
    (loadStepsW heapOps m r iv).2 = (loadStepsW valOps v r iv).2 ∧
      MSim (loadStepsW heapOps m r iv).1 (loadStepsW valOps v r iv).1 := by
  have h1 := (h.step (.copy r.initial)).2
  have h2 := (h1.step (.copy r.initial)).2
  have := loadLoopW_sim iv (valOps.size v) r.diffs 0 (Dict.set r.stored 0 (valOps.size (valOps.step v (.copy r.initial)).1)) h2
  simp only [loadStepsW, h.size, h1.size]
  exact ⟨by rw [this.1], this.2⟩

theorem nextW_sim {m : HMem} {v : VMem} (h : MSim m v) (r : HResult) (g : Gen) :
    (nextW heapOps m r g).2 = (nextW valOps v r g).2 ∧ MSim (nextW heapOps m r g).1 (nextW valOps v r g).1 := by
  unfold nextW
  by_cases hd : g.done = true
  · simp only [hd, if_true]; exact ⟨trivial, h⟩
  · simp only [hd]
    cases g.live with
    | none =>
      have h1 := (h.step (.copy r.initial)).2
      simp only [h.size]
      by_cases he : r.diffs.isEmpty = true
      · simp only [he, if_true]; exact ⟨rfl, h1⟩
      · simp only [he]; exact ⟨rfl, h1⟩
    | some x =>
      simp only
      obtain ⟨h1, h2⟩ := h.step (.batch x (r.diffs.getD (g.pos - 1) 0))
      generalize heapOps.step m (.batch x (r.diffs.getD (g.pos - 1) 0)) = a at h1 h2
      generalize valOps.step v (.batch x (r.diffs.getD (g.pos - 1) 0)) = b at h1 h2
      obtain ⟨a1, a2⟩ := a
      obtain ⟨b1, b2⟩ := b
      simp only at h1 h2; subst h1
      cases a2 with
      | some e => exact ⟨rfl, h2⟩
      | none =>
        by_cases hp : g.pos < r.diffs.length
        · simp only [hp, if_true]; exact ⟨rfl, h2⟩
        · simp only [hp, if_false]; exact ⟨rfl, h2⟩

/-- One command, in lockstep: same answers, and the worlds stay in lockstep. -/
theorem WSim.step {w : World HMem} {v : World VMem} (h : WSim w v) (c : Cmd) :
    (w.step heapOps c).2 = (v.step valOps c).2 ∧ WSim (w.step heapOps c).1 (v.step valOps c).1 := by
  obtain ⟨hm, hr, hg⟩ := h
  cases c with
  | prim p =>
    obtain ⟨h1, h2⟩ := hm.step p
    exact ⟨by simp only [World.step, h1], h2, hr, hg⟩
  | newResult i =>
    simp only [World.step, hr, hm.size]
    by_cases hi : i < valOps.size v.mem
    · simp only [hi, if_true]; exact ⟨trivial, hm, rfl, hg⟩
    · simp only [hi, if_false]; exact ⟨trivial, hm, hr, hg⟩
  | addStep r j =>
    simp only [World.step, hr, hm.nvals]
    cases v.results[r]? with
    | none => exact ⟨rfl, hm, hr, hg⟩
    | some x =>
      by_cases hi : j < valOps.nvals v.mem
      · simp only [hi, if_true]; exact ⟨trivial, hm, rfl, hg⟩
      · simp only [hi, if_false]; exact ⟨trivial, hm, hr, hg⟩
  | setOutput r j =>
    simp only [World.step, hr, hm.size]
    cases v.results[r]? with
    | none => exact ⟨rfl, hm, hr, hg⟩
    | some x =>
      by_cases hi : j < valOps.size v.mem
      · simp only [hi, if_true]; exact ⟨trivial, hm, rfl, hg⟩
      · simp only [hi, if_false]; exact ⟨trivial, hm, hr, hg⟩
  | getStep r k =>
    simp only [World.step, hr]
    cases v.results[r]? with
    | none => exact ⟨rfl, hm, hr, hg⟩
    | some x =>
      obtain ⟨h1, h2⟩ := getStepW_sim hm x k
      exact ⟨by simp only [h1], h2, rfl, hg⟩
  | loadSteps r k =>
    simp only [World.step, hr]
    cases v.results[r]? with
    | none => exact ⟨rfl, hm, hr, hg⟩
    | some x =>
      obtain ⟨h1, h2⟩ := loadStepsW_sim hm x k
      exact ⟨by simp only [h1], h2, by simp only [h1], hg⟩
  | steps r => exact ⟨rfl, hm, hr, by simp only [World.step, hg]⟩
  | next g =>
    simp only [World.step, hg, hr]
    cases v.gens[g]? with
    | none => exact ⟨rfl, hm, hr, hg⟩
    | some x =>
      simp only
      cases v.results[x.res]? with
      | none => exact ⟨rfl, hm, hr, hg⟩
      | some r =>
        obtain ⟨h1, h2⟩ := nextW_sim hm r x
        exact ⟨by simp only [h1], h2, rfl, by simp only [h1]⟩

theorem WSim.run {w : World HMem} {v : World VMem} (h : WSim w v) (cs : List Cmd) :
    (w.run heapOps cs).2 = (v.run valOps cs).2 ∧ WSim (w.run heapOps cs).1 (v.run valOps cs).1 := by
  induction cs generalizing w v with
  | nil => exact ⟨rfl, h⟩
  | cons c cs ih =>
    obtain ⟨h1, h2⟩ := h.step c
    obtain ⟨h3, h4⟩ := ih h2
    exact ⟨by simp only [World.run, h1, h3], h4⟩

theorem wsim_init : WSim ⟨.init, [], []⟩ ⟨.init, [], []⟩ :=
  ⟨⟨[], rfl, rfl, by simp [HMem.init], by simp [HMem.init], .nil⟩, rfl, rfl⟩

end Heap
end Pyl
