import Verif.Spec.Heap
import Verif.Lemmas.HeapSim
/-
Reading the heap agrees with the representation relation.
-/
set_option autoImplicit false

namespace Pyl
namespace Heap

theorem mapM_mono {α β : Type} {f g : α → Option β} (l : List α) (h : ∀ a b, f a = some b → g a = some b) :
    ∀ {r : List β}, l.mapM f = some r → l.mapM g = some r := by
  induction l with
  | nil => intro r hr; simpa using hr
  | cons a l ih =>
    intro r hr
    simp only [List.mapM_cons, bind, Option.bind_eq_some_iff, pure] at hr ⊢
    obtain ⟨b, h1, bs, h2, h3⟩ := hr
    exact ⟨b, h a b h1, bs, ih h2, h3⟩

theorem readVal_mono {h : Heap} {n m : Nat} (hnm : n ≤ m) {v : HVal} {w : Val} (hr : readVal h n v = some w) :
    readVal h m v = some w := by
  induction m generalizing n v w with
  | zero => obtain rfl : n = 0 := by omega
            exact hr
  | succ m ih =>
    cases n with
    | zero => cases v <;> simp_all [readVal]
    | succ n =>
      cases v with
      | ref l =>
        simp only [readVal] at hr ⊢
        cases hl : h[l]? with
        | none => rw [hl] at hr; cases hr
        | some o =>
          rw [hl] at hr
          cases o with
          | list vs =>
            simp only [Option.map_eq_some_iff] at hr ⊢
            obtain ⟨r, h1, h2⟩ := hr
            exact ⟨r, mapM_mono vs (fun a b => ih (by omega)) h1, h2⟩
          | tup vs =>
            simp only [Option.map_eq_some_iff] at hr ⊢
            obtain ⟨r, h1, h2⟩ := hr
            exact ⟨r, mapM_mono vs (fun a b => ih (by omega)) h1, h2⟩
          | dict d =>
            simp only [Option.map_eq_some_iff] at hr ⊢
            obtain ⟨r, h1, h2⟩ := hr
            refine ⟨r, mapM_mono d (fun a b hab => ?_) h1, h2⟩
            obtain ⟨w, h3, h4⟩ := Option.map_eq_some_iff.1 hab
            exact Option.map_eq_some_iff.2 ⟨w, ih (by omega) h3, h4⟩
      | _ => simpa [readVal] using hr

theorem mapM_of_forall₂ {α β : Type} {R : α → β → Prop} {f : α → Option β} (hf : ∀ a b, R a b → f a = some b)
    {l : List α} {r : List β} (h : List.Forall₂ R l r) : l.mapM f = some r := by
  induction h with
  | nil => rfl
  | cons hp _ ih => simp [List.mapM_cons, hf _ _ hp, ih]

theorem RepN.read {h : Heap} {P : Nat → Prop} {n : Nat} {v : HVal} {w : Val} (hr : RepN h P n v w) :
    readVal h n v = some w := by
  induction n generalizing v w with
  | zero => cases v <;> simp_all [RepN, readVal]
  | succ n ih =>
    cases v with
    | ref l =>
      simp only [RepN] at hr
      simp only [readVal]
      rcases hr.2 with ⟨vs, ws, h1, rfl, h3⟩ | ⟨vs, ws, h1, rfl, h3⟩ | ⟨d, e, h1, rfl, h3⟩
      · simp only [h1, mapM_of_forall₂ (R := RepN h P n) (fun _ _ hx => ih hx) h3]; rfl
      · simp only [h1, mapM_of_forall₂ (R := RepN h P n) (fun _ _ hx => ih hx) h3]; rfl
      · simp only [h1]
        rw [mapM_of_forall₂ (R := fun (p : Key × HVal) (q : Key × Val) => p.1 = q.1 ∧ RepN h P n p.2 q.2) _ h3]
        · rfl
        · rintro ⟨k, a⟩ ⟨k', b⟩ ⟨h4, h5⟩
          simp only at h4 h5
          simp [ih h5, h4]
    | _ => simp_all [RepN, readVal]

theorem Rep.read {h : Heap} {P : Nat → Prop} {v : HVal} {w : Val} (hr : Rep h P v w) : Reads h v w := by
  obtain ⟨n, hn⟩ := hr; exact ⟨n, hn.read⟩

theorem Reads.unique {h : Heap} {v : HVal} {w w' : Val} (hr : Reads h v w) (hr' : Reads h v w') : w = w' := by
  obtain ⟨n, hn⟩ := hr
  obtain ⟨m, hm⟩ := hr'
  have h1 := readVal_mono (le_max_left n m) hn
  have h2 := readVal_mono (le_max_right n m) hm
  rw [h1] at h2; injection h2

theorem readDict_mono {h : Heap} {n m : Nat} (hnm : n ≤ m) {v : HVal} {p : Props} (hr : readDict h n v = some p) :
    readDict h m v = some p := by
  unfold readDict at hr ⊢
  cases hv : readVal h n v with
  | none => simp [hv] at hr
  | some w => rw [readVal_mono hnm hv]; rw [hv] at hr; exact hr

theorem readGeneral_mono {h : Heap} {n m : Nat} (hnm : n ≤ m) {v : Option HVal} {p : Option Props}
    (hr : readGeneral h n v = some p) : readGeneral h m v = some p := by
  cases v with
  | none => exact hr
  | some v =>
    simp only [readGeneral, Option.map_eq_some_iff] at hr ⊢
    obtain ⟨q, h1, h2⟩ := hr
    exact ⟨q, readDict_mono hnm h1, h2⟩

theorem readState_mono {h : Heap} {n m : Nat} (hnm : n ≤ m) {root : Nat} {s : SimState}
    (hr : readState h n root = some s) : readState h m root = some s := by
  unfold readState at hr ⊢
  cases h1 : h[root]? with
  | none => simp only [h1] at hr; cases hr
  | some o =>
    simp only [h1] at hr ⊢
    cases o with
    | list _ => cases hr
    | tup _ => cases hr
    | dict d =>
      simp only at hr ⊢
      cases h2 : Dict.get? d SITES with
      | none => simp only [h2] at hr; cases hr
      | some v =>
        simp only [h2] at hr ⊢
        cases v with
        | ref a =>
          simp only at hr ⊢
          cases h3 : h[a]? with
          | none => simp only [h3] at hr; cases hr
          | some o =>
            simp only [h3] at hr ⊢
            cases o with
            | list _ => cases hr
            | tup _ => cases hr
            | dict sd =>
              simp only at hr ⊢
              cases h4 : sd.mapM (fun p => (readDict h n p.2).map fun q => (p.1, q)) with
              | none => simp [h4] at hr
              | some ss =>
                cases h5 : readGeneral h n (Dict.get? d GENERAL) with
                | none => simp [h4, h5] at hr
                | some g =>
                  have h6 : sd.mapM (fun p => (readDict h m p.2).map fun q => (p.1, q)) = some ss := by
                    refine mapM_mono sd ?_ h4
                    intro a b hab
                    obtain ⟨q, h7, h8⟩ := Option.map_eq_some_iff.1 hab
                    exact Option.map_eq_some_iff.2 ⟨q, readDict_mono hnm h7, h8⟩
                  rw [h6, readGeneral_mono hnm h5]
                  rw [h4, h5] at hr
                  exact hr
        | _ => cases hr

/-- Observing a state is deterministic. -/
theorem Shows.unique {m : HMem} {i : Nat} {s s' : SimState} (h : Shows m i s) (h' : Shows m i s') : s = s' := by
  obtain ⟨r, n, h1, h2⟩ := h
  obtain ⟨r', n', h1', h2'⟩ := h'
  rw [h1] at h1'; injection h1' with h1'; subst h1'
  have h3 := readState_mono (le_max_left n n') h2
  have h4 := readState_mono (le_max_right n n') h2'
  rw [h3] at h4; injection h4

theorem StRep.read {h : Heap} {P : Nat → Prop} {root a : Nat} {s : SimState} (hs : StRep h P root a s) :
    ∃ n, readState h n root = some s := by
  obtain ⟨pr, pa, ne, ⟨d, h1, h2, h3⟩, sd, h4, h5⟩ := hs
  have h6 : ∃ n, KRel (fun v p => RepN h P n v (.dict p)) sd s.sites := by
    clear h4
    generalize s.sites = ss at h5
    induction h5 with
    | nil => exact ⟨0, .nil⟩
    | cons hp _ ih =>
      obtain ⟨n, hn⟩ := ih
      obtain ⟨hk, m, hm⟩ := hp
      exact ⟨max n m, .cons ⟨hk, hm.mono (le_max_right _ _)⟩ (List.Forall₂.imp
        (fun _ _ hx => ⟨hx.1, RepN.mono (le_max_left _ _) hx.2⟩) hn)⟩
  obtain ⟨n, hn⟩ := h6
  have hdict : ∀ {k N : Nat} {v : HVal} {p : Props}, k ≤ N → RepN h P k v (.dict p) → readDict h N v = some p := by
    intro k N v p hk hr
    simp only [readDict, readVal_mono hk hr.read]
  have hsites : ∀ N, n ≤ N → sd.mapM (fun p => (readDict h N p.2).map fun q => (p.1, q)) = some s.sites := by
    intro N hN
    refine mapM_of_forall₂ (R := fun (p : Key × HVal) (q : Key × Props) => p.1 = q.1 ∧ RepN h P n p.2 (.dict q.2)) ?_ hn
    rintro ⟨k, v⟩ ⟨k', p⟩ ⟨h7, h8⟩
    simp only at h7 h8 ⊢
    simp [hdict hN h8, h7]
  cases hg : s.general with
  | none =>
    rw [hg] at h3; simp only at h3
    refine ⟨n, ?_⟩
    simp only [readState, h1, h2, h4, hsites n le_rfl, h3, readGeneral, ← hg]
  | some g =>
    rw [hg] at h3
    obtain ⟨v, h7, m, h8⟩ := h3
    refine ⟨max n m, ?_⟩
    simp only [readState, h1, h2, h4, hsites _ (le_max_left n m), h7, readGeneral, hdict (le_max_right n m) h8,
      Option.map_some]
    rw [← hg]

/-- What an observer sees is the state of the value model. -/
theorem MSim.shows {m : HMem} {v : VMem} (h : MSim m v) (i : Nat) (s : SimState) :
    Shows m i s ↔ v.states[i]? = some s := by
  obtain ⟨as, h⟩ := h
  have key : ∀ s, v.states[i]? = some s → Shows m i s := by
    intro s hs
    obtain ⟨r, hr⟩ := getElem?_some_of h.lenS hs
    obtain ⟨a, ha⟩ := getElem?_some_of h.lenA.symm hr
    obtain ⟨n, hn⟩ := (h.states i r a s hr ha hs).read
    exact ⟨r, n, hr, hn⟩
  refine ⟨fun hsh => ?_, key s⟩
  obtain ⟨r, n, hr, _⟩ := id hsh
  obtain ⟨s', hs'⟩ := getElem?_some_of h.lenS.symm hr
  rw [hs', (key s' hs').unique hsh]

theorem MSim.run {m : HMem} {v : VMem} (h : MSim m v) (ps : List Prim) : MSim (m.run ps) (v.run ps) := by
  induction ps generalizing m v with
  | nil => exact h
  | cons p ps ih => exact ih (h.step p).2

theorem msim_init : MSim .init .init := wsim_init.mem

/-- On values, a primitive changes only its target. -/
theorem VMem.step_states (v : VMem) (p : Prim) (i : Nat) (s : SimState) (h : v.states[i]? = some s)
    (hp : p.target ≠ some i) : (v.step p).1.states[i]? = some s := by
  have hlt : i < v.states.length := by
    by_contra hn
    rw [List.getElem?_eq_none (by omega)] at h; cases h
  cases p with
  | newState => simp only [VMem.step]; rw [List.getElem?_append_left hlt]; exact h
  | copy j =>
    simp only [VMem.step]
    cases v.states[j]? with
    | none => exact h
    | some _ => simp only; rw [List.getElem?_append_left hlt]; exact h
  | setSite j k x =>
    have hj : j ≠ i := fun e => hp (by rw [← e]; rfl)
    simp only [VMem.step]
    cases v.states[j]? with
    | none => exact h
    | some t =>
      simp only
      cases t.setSiteStateV k (v.val x) with
      | error e => exact h
      | ok t' => simp only; rw [List.getElem?_set_ne hj]; exact h
  | setGeneral j x =>
    have hj : j ≠ i := fun e => hp (by rw [← e]; rfl)
    simp only [VMem.step]
    cases v.states[j]? with
    | none => exact h
    | some t =>
      simp only
      cases t.setGeneralStateV (v.val x) with
      | error e => exact h
      | ok t' => simp only; rw [List.getElem?_set_ne hj]; exact h
  | batch j x =>
    have hj : j ≠ i := fun e => hp (by rw [← e]; rfl)
    simp only [VMem.step]
    cases v.states[j]? with
    | none => exact h
    | some t => simp only; rw [List.getElem?_set_ne hj]; exact h
  | getSite j k => simp only [VMem.step]; cases v.states[j]? <;> exact h
  | getGeneral j => simp only [VMem.step]; cases v.states[j]? <;> exact h
  | _ => exact h

theorem VMem.run_states (v : VMem) (ps : List Prim) (i : Nat) (s : SimState) (h : v.states[i]? = some s)
    (hp : ∀ p ∈ ps, p.target ≠ some i) : (v.run ps).states[i]? = some s := by
  induction ps generalizing v with
  | nil => exact h
  | cons p ps ih =>
    exact ih _ (v.step_states p i s h (hp p (by simp))) (fun q hq => hp q (by simp [hq]))

/-! ### two pieces of code -/

/-- `R` marks the locations of the right piece of code: the values held on each side stay on that side. -/
structure Split (d : Duo) (R : Nat → Prop) : Prop where
  left : ∀ l, HVal.ref l ∈ d.left → l < d.heap.length ∧ ¬ R l
  right : ∀ l, HVal.ref l ∈ d.right → l < d.heap.length ∧ R l
  heapL : ∀ (l : Nat) (o : Obj), d.heap[l]? = some o → ¬ R l → ∀ l', HVal.ref l' ∈ o.contents → l' < d.heap.length ∧ ¬ R l'
  heapR : ∀ (l : Nat) (o : Obj), d.heap[l]? = some o → R l → ∀ l', HVal.ref l' ∈ o.contents → l' < d.heap.length ∧ R l'

theorem held_mem {vs : List HVal} {j l : Nat} (h : held vs j = .ref l) : HVal.ref l ∈ vs := by
  unfold held at h
  rw [List.getD_eq_getElem?_getD] at h
  cases hj : vs[j]? with
  | none => rw [hj] at h; cases h
  | some v =>
    rw [hj] at h
    simp only [Option.getD_some] at h
    exact h ▸ List.mem_of_getElem? hj

/-- One action by code whose values stay in the region `S` of allocated locations: nothing outside `S` changes, and the
values and the region's contents stay in the region (with the new locations). -/
theorem Act.run_region (h : Heap) (vs : List HVal) (a : Act) (S : Nat → Prop)
    (hv : ∀ l, HVal.ref l ∈ vs → l < h.length ∧ S l)
    (hh : ∀ (l : Nat) (o : Obj), h[l]? = some o → S l → ∀ l', HVal.ref l' ∈ o.contents → l' < h.length ∧ S l')
    (hnew : ∀ l, h.length ≤ l → S l) :
    h.length ≤ (a.run h vs).1.length ∧
    (∀ l, ¬ S l → (a.run h vs).1[l]? = h[l]?) ∧
    (∀ l, HVal.ref l ∈ (a.run h vs).2 → l < (a.run h vs).1.length ∧ S l) ∧
    (∀ (l : Nat) (o : Obj), (a.run h vs).1[l]? = some o → S l → ∀ l', HVal.ref l' ∈ o.contents →
      l' < (a.run h vs).1.length ∧ S l') := by
  have keep : h.length ≤ h.length ∧ (∀ l, ¬ S l → h[l]? = h[l]?) ∧ (∀ l, HVal.ref l ∈ vs → l < h.length ∧ S l) ∧
      (∀ (l : Nat) (o : Obj), h[l]? = some o → S l → ∀ l', HVal.ref l' ∈ o.contents → l' < h.length ∧ S l') :=
    ⟨le_rfl, fun _ _ => rfl, hv, hh⟩
  have alloc : ∀ o : Obj, (∀ l, HVal.ref l ∈ o.contents → HVal.ref l ∈ vs) →
      h.length ≤ (h ++ [o]).length ∧ (∀ l, ¬ S l → (h ++ [o])[l]? = h[l]?) ∧
      (∀ l, HVal.ref l ∈ vs ++ [.ref h.length] → l < (h ++ [o]).length ∧ S l) ∧
      (∀ (l : Nat) (o' : Obj), (h ++ [o])[l]? = some o' → S l → ∀ l', HVal.ref l' ∈ o'.contents →
        l' < (h ++ [o]).length ∧ S l') := by
    intro o ho
    refine ⟨by simp, ?_, ?_, ?_⟩
    · intro l hl
      have : l < h.length := by
        by_contra hn; exact hl (hnew l (by omega))
      exact List.getElem?_append_left this
    · intro l hl
      rcases List.mem_append.1 hl with hl | hl
      · have := hv l hl
        exact ⟨by simp; omega, this.2⟩
      · simp at hl; subst hl
        exact ⟨by simp, hnew _ le_rfl⟩
    · intro l o' hl hS l' hl'
      by_cases hlt : l < h.length
      · rw [List.getElem?_append_left hlt] at hl
        have := hh l o' hl hS l' hl'
        exact ⟨by simp; omega, this.2⟩
      · rw [List.getElem?_append_right (by omega)] at hl
        have h0 : l - h.length = 0 := by
          by_contra hne
          rw [List.getElem?_eq_none (by simp; omega)] at hl; cases hl
        rw [h0] at hl; simp at hl; subst hl
        have := hv l' (ho l' hl')
        exact ⟨by simp; omega, this.2⟩
  have put : ∀ (l : Nat) (o : Obj), HVal.ref l ∈ vs → (∀ l, HVal.ref l ∈ o.contents → HVal.ref l ∈ vs) →
      h.length ≤ (h.set l o).length ∧ (∀ l', ¬ S l' → (h.set l o)[l']? = h[l']?) ∧
      (∀ l', HVal.ref l' ∈ vs → l' < (h.set l o).length ∧ S l') ∧
      (∀ (l1 : Nat) (o' : Obj), (h.set l o)[l1]? = some o' → S l1 → ∀ l', HVal.ref l' ∈ o'.contents →
        l' < (h.set l o).length ∧ S l') := by
    intro l o hl ho
    refine ⟨by simp, ?_, ?_, ?_⟩
    · intro l' hl'
      exact List.getElem?_set_ne (fun e : l = l' => hl' (e ▸ (hv l hl).2))
    · intro l' hl'; simpa using hv l' hl'
    · intro l1 o' h1 hS l' hl'
      simp only [List.length_set]
      by_cases he : l = l1
      · subst he
        rw [List.getElem?_set_self (hv l hl).1] at h1
        injection h1 with h1; subst h1
        exact hv l' (ho l' hl')
      · rw [List.getElem?_set_ne he] at h1
        exact hh l1 o' h1 hS l' hl'
  have inList : ∀ (es : List Nat) (l : Nat), HVal.ref l ∈ es.map (held vs) → HVal.ref l ∈ vs := by
    intro es l hl
    obtain ⟨j, _, hj⟩ := List.mem_map.1 hl
    exact held_mem hj
  have inDict : ∀ (es : List (Key × Nat)) (l : Nat),
      HVal.ref l ∈ (Obj.dict (es.map fun p => (p.1, held vs p.2))).contents → HVal.ref l ∈ vs := by
    intro es l hl
    simp only [Obj.contents, List.map_map, List.mem_map] at hl
    obtain ⟨j, _, hj⟩ := hl
    exact held_mem hj
  cases a with
  | atom v =>
    cases v with
    | ref l => exact keep
    | _ =>
      refine ⟨le_rfl, fun _ _ => rfl, fun l hl => ?_, hh⟩
      simp only [Act.run, List.mem_append, List.mem_singleton] at hl
      rcases hl with hl | hl
      · exact hv l hl
      · cases hl
  | item b i =>
    simp only [Act.run]
    cases hb : held vs b with
    | ref l =>
      simp only
      cases ho : h[l]? with
      | none => exact keep
      | some o =>
        refine ⟨le_rfl, fun _ _ => rfl, fun l' hl' => ?_, hh⟩
        rcases List.mem_append.1 hl' with hl' | hl'
        · exact hv l' hl'
        · simp only [List.mem_singleton] at hl'
          exact hh l o ho (hv l (held_mem hb)).2 l' (held_mem hl'.symm)
    | _ => exact keep
  | newDict es => exact alloc _ (inDict es)
  | newList es => exact alloc _ (inList es)
  | newTup es => exact alloc _ (inList es)
  | putDict b es =>
    simp only [Act.run]
    cases hb : held vs b with
    | ref l => exact put l _ (held_mem hb) (inDict es)
    | _ => exact keep
  | putList b es =>
    simp only [Act.run]
    cases hb : held vs b with
    | ref l => exact put l _ (held_mem hb) (inList es)
    | _ => exact keep

/-- The split survives a step of either side, and everything on the other side stays as it is. -/
theorem Split.step {d : Duo} {R : Nat → Prop} (h : Split d R) (x : Bool × Act) :
    ∃ R', Split (d.step x) R' ∧ (∀ l, l < d.heap.length → (R' l ↔ R l)) ∧
      ∀ l, l < d.heap.length → (if x.1 then ¬ R l else R l) → (d.step x).heap[l]? = d.heap[l]? := by
  obtain ⟨b, a⟩ := x
  cases b with
  | false =>
    set R' : Nat → Prop := fun l => R l ∧ l < d.heap.length with hR'
    have hiff : ∀ l, l < d.heap.length → (R' l ↔ R l) := fun l hl => by simp [hR', hl]
    obtain ⟨h1, h2, h3, h4⟩ := Act.run_region d.heap d.left a (fun l => ¬ R' l)
      (fun l hl => ⟨(h.left l hl).1, fun hr => (h.left l hl).2 hr.1⟩)
      (fun l o hl hS l' hl' => by
        have hlt := getElem?_lt hl
        have hR : ¬ R l := fun hr => hS ⟨hr, hlt⟩
        have := h.heapL l o hl hR l' hl'
        exact ⟨this.1, fun hr => this.2 hr.1⟩)
      (fun l hl hr => by have := hr.2; omega)
    refine ⟨R', ⟨h3, ?_, h4, ?_⟩, hiff, ?_⟩
    · intro l hl
      have := h.right l hl
      exact ⟨lt_of_lt_of_le this.1 h1, this.2, this.1⟩
    · intro l o hl hr l' hl'
      have h5 : (a.run d.heap d.left).1[l]? = d.heap[l]? := h2 l (fun hn => hn hr)
      have hl2 : d.heap[l]? = some o := h5.symm.trans hl
      have := h.heapR l o hl2 hr.1 l' hl'
      exact ⟨lt_of_lt_of_le this.1 h1, this.2, this.1⟩
    · intro l hlt hr
      simp only [Bool.false_eq_true, if_false] at hr
      exact h2 l (fun hn => hn ⟨hr, hlt⟩)
  | true =>
    set R' : Nat → Prop := fun l => R l ∨ d.heap.length ≤ l with hR'
    have hiff : ∀ l, l < d.heap.length → (R' l ↔ R l) := fun l hl => by
      simp only [hR']; constructor
      · rintro (h | h)
        · exact h
        · omega
      · exact Or.inl
    obtain ⟨h1, h2, h3, h4⟩ := Act.run_region d.heap d.right a R'
      (fun l hl => ⟨(h.right l hl).1, Or.inl (h.right l hl).2⟩)
      (fun l o hl hS l' hl' => by
        have hlt := getElem?_lt hl
        have := h.heapR l o hl ((hiff l hlt).1 hS) l' hl'
        exact ⟨this.1, Or.inl this.2⟩)
      (fun l hl => Or.inr hl)
    refine ⟨R', ⟨?_, h3, ?_, h4⟩, hiff, ?_⟩
    · intro l hl
      have := h.left l hl
      exact ⟨lt_of_lt_of_le this.1 h1, fun hr => this.2 ((hiff l this.1).1 hr)⟩
    · intro l o hl hr l' hl'
      have h5 : (a.run d.heap d.right).1[l]? = d.heap[l]? := h2 l hr
      have hl2 : d.heap[l]? = some o := h5.symm.trans hl
      have := h.heapL l o hl2 (fun hh => hr (Or.inl hh)) l' hl'
      exact ⟨lt_of_lt_of_le this.1 h1, fun hh => this.2 ((hiff l' this.1).1 hh)⟩
    · intro l hlt hr
      simp only [if_true] at hr
      exact h2 l (fun hn => hr ((hiff l hlt).1 hn))

theorem Split.reach_left {d : Duo} {R : Nat → Prop} (h : Split d R) {l : Nat} (hr : Reach d.heap d.left l) :
    l < d.heap.length ∧ ¬ R l := by
  induction hr with
  | root hl => exact h.left _ hl
  | next _ ho hc ih => exact h.heapL _ _ ho ih.2 _ hc

theorem Split.reach_right {d : Duo} {R : Nat → Prop} (h : Split d R) {l : Nat} (hr : Reach d.heap d.right l) :
    l < d.heap.length ∧ R l := by
  induction hr with
  | root hl => exact h.right _ hl
  | next _ ho hc ih => exact h.heapR _ _ ho ih.2 _ hc

theorem Split.run {d : Duo} {R : Nat → Prop} (h : Split d R) (xs : List (Bool × Act)) :
    ∃ R', Split (xs.foldl Duo.step d) R' := by
  induction xs generalizing d R with
  | nil => exact ⟨R, h⟩
  | cons x xs ih =>
    obtain ⟨R', h1, _⟩ := h.step x
    exact ih h1

theorem mem_contents_shift {o : Obj} {n l : Nat} (h : HVal.ref l ∈ (o.shift n).contents) :
    ∃ l', l = l' + n ∧ HVal.ref l' ∈ o.contents := by
  have key : ∀ v : HVal, v.shift n = .ref l → ∃ l', l = l' + n ∧ v = .ref l' := by
    intro v hv
    cases v with
    | ref l' => simp only [HVal.shift, HVal.ref.injEq] at hv; exact ⟨l', hv.symm, rfl⟩
    | _ => simp [HVal.shift] at hv
  cases o with
  | dict d =>
    simp only [Obj.shift, Obj.contents, List.map_map, List.mem_map] at h
    obtain ⟨p, hp, he⟩ := h
    obtain ⟨l', h1, h2⟩ := key _ he
    exact ⟨l', h1, by simp only [Obj.contents, List.mem_map]; exact ⟨p, hp, h2⟩⟩
  | list vs =>
    simp only [Obj.shift, Obj.contents, List.mem_map] at h
    obtain ⟨p, hp, he⟩ := h
    obtain ⟨l', h1, h2⟩ := key _ he
    exact ⟨l', h1, h2 ▸ hp⟩
  | tup vs =>
    simp only [Obj.shift, Obj.contents, List.mem_map] at h
    obtain ⟨p, hp, he⟩ := h
    obtain ⟨l', h1, h2⟩ := key _ he
    exact ⟨l', h1, h2 ▸ hp⟩

/-- Right after `deepcopy`, the original on one side and the copy on the other are split. -/
theorem split_deepcopy (h : Heap) (hd : NoDangling h) (vs : List HVal) (hv : ∀ l, HVal.ref l ∈ vs → l < h.length)
    (v : HVal) (hr : ∀ l, v = .ref l → l < h.length) :
    Split ⟨(deepcopy h v).1, vs, [(deepcopy h v).2]⟩ (fun l => h.length ≤ l) := by
  simp only [deepcopy]
  refine ⟨fun l hl => ?_, fun l hl => ?_, fun l o hl hR l' hl' => ?_, fun l o hl hR l' hl' => ?_⟩
  · have := hv l hl
    exact ⟨by simp; omega, by omega⟩
  · simp only [List.mem_singleton] at hl
    cases v with
    | ref r =>
      simp only [HVal.shift, HVal.ref.injEq] at hl
      have := hr r rfl
      exact ⟨by simp; omega, by omega⟩
    | _ => simp [HVal.shift] at hl
  · rw [List.getElem?_append_left (by omega)] at hl
    have := hd l o hl l' hl'
    exact ⟨by simp; omega, by omega⟩
  · rw [List.getElem?_append_right hR, List.getElem?_map] at hl
    obtain ⟨o', ho', rfl⟩ := Option.map_eq_some_iff.1 hl
    obtain ⟨l2, rfl, h2⟩ := mem_contents_shift hl'
    have := hd _ o' ho' l2 h2
    exact ⟨by simp; omega, by omega⟩

end Heap
end Pyl
