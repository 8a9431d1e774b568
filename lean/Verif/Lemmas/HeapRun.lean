import Verif.Spec.HeapRun
import Verif.Lemmas.HeapWorld
import Verif.Lemmas.State
/-
Runs on the heap in lockstep with runs on values.
-/
set_option autoImplicit false

namespace Pyl
namespace Heap

theorem run_frame {m : HMem} {v : VMem} {as : List Nat} (h : MemSim m v as) (ps : List Prim) :
    ∃ as', MemSim (m.run ps) (v.run ps) as' ∧ Frame m (m.run ps) as as' := by
  induction ps generalizing m v as with
  | nil => exact ⟨as, h, .same as rfl rfl⟩
  | cons p ps ih =>
    obtain ⟨_, as1, h1, f1⟩ := step_frame h p
    obtain ⟨as2, h2, f2⟩ := ih h1
    exact ⟨as2, h2, f1.trans f2⟩

theorem Frame.rep {m m' : HMem} {as as' : List Nat} (f : Frame m m' as as') {x : HVal} {y : Val}
    (h : Rep m.heap (· ∈ m.roots ++ as) x y) : Rep m'.heap (· ∈ m'.roots ++ as') x y :=
  h.frame fun l o h1 h2 => by
    obtain ⟨h3, h4⟩ := f.keep l (getElem?_lt h2) h1
    exact ⟨h3.trans h2, h4⟩

/-- What the controller keeps, on values. -/
def KnownV (v : VMem) (p : Nat × Val) : Prop := p.1 < v.vals.length ∧ v.val p.1 = p.2

theorem MSim.known {m : HMem} {v : VMem} (h : MSim m v) (p : Nat × Val) : Known m p ↔ KnownV v p := by
  have hl : m.vals.length = v.vals.length := h.nvals
  obtain ⟨as, h⟩ := h
  have hr := (h.val p.1).read
  constructor
  · rintro ⟨h1, h2⟩; exact ⟨hl ▸ h1, hr.unique h2⟩
  · rintro ⟨h1, h2⟩; exact ⟨hl ▸ h1, h2 ▸ hr⟩

theorem KnownV.keeps {v v' : VMem} {T : Nat → Prop} {p : Nat × Val} (h : KnownV v p) (hk : Keeps T v v') : KnownV v' p :=
  ⟨h.1.trans_le hk.nvals, (hk.val h.1).trans h.2⟩

/-- An answer represents an answer. -/
def AnsRep (h : Heap) (P : Nat → Prop) : HAns → Resp → Prop
  | .one v, .noUpdate => Rep h P v .pyNone
  | .one v, .dict d => Rep h P v (.dict d)
  | .pair v next, .tuple none next' => Rep h P v .pyNone ∧ next = next'
  | .pair v next, .tuple (some d) next' => Rep h P v (.dict d) ∧ next = next'
  | _, _ => False

theorem ansRep {h : Heap} {P : Nat → Prop} {a : HAns} {r : Resp} {y : Val} (hr : AnsReads h a r)
    (hv : Rep h P a.value y) : AnsRep h P a r := by
  have key : ∀ w, Reads h a.value w → Rep h P a.value w := fun w hw => by rw [hw.unique hv.read]; exact hv
  cases a with
  | one v =>
    cases r with
    | noUpdate => exact key _ hr
    | dict d => exact key _ hr
    | tuple d n => exact hr.elim
  | pair v nx =>
    cases r with
    | noUpdate => exact hr.elim
    | dict d => exact hr.elim
    | tuple d n => cases d with
      | none => exact ⟨key _ hr.1, hr.2⟩
      | some d => exact ⟨key _ hr.1, hr.2⟩

/-- One call of the rule. -/
theorem update_sim {σ : Type} {c : Code σ} {C : Controller σ} {held : σ → List (Nat × Val)} (hc : Follows c C held)
    {m : HMem} {v : VMem} {as : List Nat} (h : MemSim m v as) {x : Nat} {s : SimState} (hs : v.states[x]? = some s)
    {st : σ} (hk : ∀ p ∈ held st, KnownV v p) (sid : Key) :
    ∃ v' as', MemSim (c.update st sid x m).1 v' as' ∧ Frame m (c.update st sid x m).1 as as' ∧ Keeps (fun _ => False) v v' ∧
      match C.update st sid s with
      | .error e => (c.update st sid x m).2 = .error e
      | .ok (st', r) => ∃ a, (c.update st sid x m).2 = .ok (st', a) ∧
          AnsRep (c.update st sid x m).1.heap (· ∈ (c.update st sid x m).1.roots ++ as') a r ∧ ∀ p ∈ held st', KnownV v' p := by
  have hm : MSim m v := ⟨as, h⟩
  obtain ⟨ps, hp, h1, h2⟩ := hc.update st sid x m s ⟨v, hm⟩ ((hm.shows x s).2 hs) fun p hp => (hm.known p).2 (hk p hp)
  obtain ⟨as', h3, h4⟩ := run_frame h ps
  refine ⟨v.run ps, as', by rw [h1]; exact h3, by rw [h1]; exact h4,
    keeps_run v ps _ fun p hpm i hi => (by rw [hp p hpm] at hi; exact absurd hi (by simp)), ?_⟩
  rw [h1]
  revert h2
  cases C.update st sid s with
  | error e => exact id
  | ok y =>
    obtain ⟨st', r⟩ := y
    rintro ⟨a, j, h5, h6, h7, h8⟩
    exact ⟨a, h5, ansRep h7 (h6 ▸ h3.val j), fun p hp => (MSim.known ⟨as', h3⟩ p).1 (h8 p hp)⟩

/-- The accumulated updates of a step. -/
def AccRep (h : Heap) (P : Nat → Prop) : Acc → Option Upd → Prop
  | none, none => True
  | some (s, g), some u => KRel (Rep h P) s u.sites ∧ KRel (Rep h P) g u.general
  | _, _ => False

theorem AccRep.frame {m m' : HMem} {as as' : List Nat} (f : Frame m m' as as') {a : Acc} {u : Option Upd}
    (h : AccRep m.heap (· ∈ m.roots ++ as) a u) : AccRep m'.heap (· ∈ m'.roots ++ as') a u := by
  cases a with
  | none => cases u with
    | none => trivial
    | some u => exact h.elim
  | some p => cases u with
    | none => exact h.elim
    | some u => exact ⟨h.1.mono fun _ _ hx => f.rep hx, h.2.mono fun _ _ hx => f.rep hx⟩

theorem KRel.has {α β : Type} {R : α → β → Prop} {d : Dict Key α} {e : Dict Key β} (h : KRel R d e) (k : Key) :
    Dict.has d k = Dict.has e k := by
  rcases h.get? k with ⟨h1, h2⟩ | ⟨a, b, h1, h2, _⟩
  · simp only [Dict.has, h1, h2, Option.isSome]
  · simp only [Dict.has, h1, h2, Option.isSome]

theorem partAt_sim {h : Heap} {P : Nat → Prop} {d : Dict Key HVal} {e : Props} (hd : KRel (Rep h P) d e) (k : Key) :
    match dictPart e k with
    | .error x => partAt h d k = .error x
    | .ok q => ∃ b, partAt h d k = .ok b ∧ KRel (Rep h P) b q := by
  rcases hd.get? k with ⟨h1, h2⟩ | ⟨a, b, h1, h2, h3⟩
  · simp only [dictPart, partAt, h1, h2]; exact ⟨[], rfl, .nil⟩
  · rcases rep_dictAt h3 with ⟨e', d', rfl, h4, h5⟩ | ⟨h4, h5⟩
    · simp only [dictPart, partAt, h1, h2]; exact ⟨d', h4, h5⟩
    · have : dictPart e k = .error .typeError := by
        simp only [dictPart, h2]
      rw [this]
      simp only [partAt, h1]; exact h5

/-- Whether a key is an int. -/
def isIntKey : Key → Bool
  | .int _ => true
  | .str _ => false

theorem intKeyed_keys (d : Dict Key HVal) : intKeyed d = (!d.isEmpty && d.all fun kv => isIntKey kv.1) := by
  unfold intKeyed
  congr 2

theorem allIntKeys_keys (d : Props) : allIntKeys d = (!d.isEmpty && d.all fun kv => isIntKey kv.1) := by
  unfold allIntKeys
  congr 2

theorem intKeyed_eq {R : HVal → Val → Prop} {d : Dict Key HVal} {e : Props} (hd : KRel R d e) :
    intKeyed d = allIntKeys e := by
  have h1 : d.isEmpty = e.isEmpty := by cases hd <;> rfl
  have h2 : ∀ {d : Dict Key HVal} {e : Props}, KRel R d e →
      (d.all fun kv => isIntKey kv.1) = e.all fun kv => isIntKey kv.1 := by
    intro d e hd
    induction hd with
    | nil => rfl
    | @cons p q d e hp _ ih => rw [List.all_cons, List.all_cons, ih, hp.1]
  rw [intKeyed_keys, allIntKeys_keys, h1, h2 hd]

/-- Merging an answer. -/
theorem mergeAt_sim {h : Heap} {P : Nat → Prop} {x : HVal} {o : Option Props} (hx : Rep h P x (diffVal o)) {a : Acc}
    {u : Option Upd} (ha : AccRep h P a u) (sid : Key) :
    match mergeUpdates o u (some sid) with
    | .error e => mergeAt h x a sid = .error e
    | .ok u' => ∃ a', mergeAt h x a sid = .ok a' ∧ AccRep h P a' u' := by
  cases o with
  | none =>
    rcases hx.cases with ⟨rfl, _⟩ | ⟨q, _, h1⟩ | ⟨q, _, h1⟩ | ⟨l, _, _, ⟨_, _, _, h1, _⟩ | ⟨_, _, _, h1, _⟩ | ⟨_, _, _, h1, _⟩⟩
    · exact ⟨a, rfl, ha⟩
    all_goals cases h1
  | some p =>
    rcases hx.cases with ⟨_, h1⟩ | ⟨q, _, h1⟩ | ⟨q, _, h1⟩ | ⟨l, rfl, hP, ⟨_, _, _, h1, _⟩ | ⟨_, _, _, h1, _⟩ | ⟨d, e, h2, h1, h3⟩⟩
    any_goals cases h1
    have hcur : ∃ cs cg, a.getD ([], []) = (cs, cg) ∧ KRel (Rep h P) cs (u.getD Upd.empty).sites ∧
        KRel (Rep h P) cg (u.getD Upd.empty).general := by
      cases a with
      | none => cases u with
        | none => exact ⟨[], [], rfl, .nil, .nil⟩
        | some u => exact ha.elim
      | some q => cases u with
        | none => exact ha.elim
        | some u => exact ⟨q.1, q.2, rfl, ha.1, ha.2⟩
    obtain ⟨cs, cg, hc, hcs, hcg⟩ := hcur
    simp only [mergeUpdates, mergeAt, h2, h3.has, hc, intKeyed_eq h3]
    by_cases hb : (Dict.has p SITES || Dict.has p GENERAL) = true
    · simp only [hb, if_true]
      have hA := partAt_sim h3 SITES
      have hB := partAt_sim h3 GENERAL
      revert hA hB
      cases dictPart p SITES with
      | error e => intro hA _; simp only at hA; simp only [hA]; rfl
      | ok ss =>
        rintro ⟨b1, hA, hA2⟩
        cases dictPart p GENERAL with
        | error e => intro hB; simp only at hB; simp only [hA, hB]; rfl
        | ok gs =>
          rintro ⟨b2, hB, hB2⟩
          simp only [hA, hB]
          exact ⟨_, rfl, hcs.update hA2, hcg.update hB2⟩
    · simp only [hb]
      by_cases hi : allIntKeys p = true
      · simp only [hi, if_true]; exact ⟨_, rfl, hcs.update h3, hcg⟩
      · simp only [hi]
        exact ⟨_, rfl, hcs.update (.cons ⟨rfl, hx⟩ .nil), hcg⟩

/-- Making the dicts of the merged updates. -/
theorem pushAcc_sim {m : HMem} {v : VMem} {as : List Nat} (h : MemSim m v as) {a : Acc} {u : Option Upd}
    (ha : AccRep m.heap (· ∈ m.roots ++ as) a u) :
    MemSim (pushAcc m a) { v with vals := v.vals ++ [diffVal (u.map Upd.toProps)] } as := by
  cases a with
  | none => cases u with
    | none => exact h.push .none
    | some u => exact ha.elim
  | some p => cases u with
    | none => exact ha.elim
    | some u =>
      obtain ⟨s, g⟩ := p
      have hlt := h.private_lt
      set n := m.heap.length with hn
      have hh := h.alloc [.dict s, .dict g, .dict [(SITES, .ref n), (GENERAL, .ref (n + 1))]]
      have hP : ∀ k, n ≤ k → ¬ k ∈ m.roots ++ as := fun k hk hm => by have := hlt k hm; omega
      have hag : ∀ l o, ¬ l ∈ m.roots ++ as → m.heap[l]? = some o →
          (m.heap ++ [Obj.dict s, .dict g, .dict [(SITES, .ref n), (GENERAL, .ref (n + 1))]])[l]? = some o ∧
            ¬ l ∈ m.roots ++ as :=
        fun l ob h1 h2 => ⟨by rw [List.getElem?_append_left (getElem?_lt h2)]; exact h2, h1⟩
      refine hh.push (x := .ref (n + 2)) (Rep.dict (P := (· ∈ m.roots ++ as)) (hP _ (by omega))
        (by rw [List.getElem?_append_right (by omega)]; simp [hn]; rfl) ?_)
      refine .cons ⟨rfl, Rep.dict (P := (· ∈ m.roots ++ as)) (hP _ le_rfl)
          (by rw [List.getElem?_append_right (by omega)]; simp [hn]) (ha.1.mono fun _ _ hx => hx.frame hag)⟩
        (.cons ⟨rfl, Rep.dict (P := (· ∈ m.roots ++ as)) (hP _ (by omega))
          (by rw [List.getElem?_append_right (by omega)]; simp [hn]) (ha.2.mono fun _ _ hx => hx.frame hag)⟩ .nil)

theorem siteIdsAt_eq {m : HMem} {v : VMem} {as : List Nat} (h : MemSim m v as) {x : Nat} {s : SimState}
    (hs : v.states[x]? = some s) : siteIdsAt m x = s.siteIds := by
  obtain ⟨r, hr⟩ := getElem?_some_of h.lenS hs
  obtain ⟨a, ha⟩ := getElem?_some_of h.lenA.symm hr
  obtain ⟨pr, pa, ne, ⟨d, h1, h2, _⟩, sd, h4, h5⟩ := h.states x r a s hr ha hs
  have hk : ∀ {d : Dict Key HVal} {e : Dict Key Props}, KRel (fun v p => Rep m.heap (· ∈ m.roots ++ as) v (.dict p)) d e →
      d.map Prod.fst = Dict.keys e := by
    intro d e hd
    induction hd with
    | nil => rfl
    | @cons p q d e hp _ ih => simp only [List.map_cons, Dict.keys, hp.1] at ih ⊢; rw [ih]
  simp only [siteIdsAt, hr, dictAt_ref h1, h2, dictAt_ref h4, SimState.siteIds]
  exact hk h5

variable {σ : Type} {c : Code σ} {C : Controller σ} {held : σ → List (Nat × Val)}

/-- All calls of a step. -/
theorem stepBatchAt_sim (hc : Follows c C held) {x : Nat} {s : SimState} (ids : List Key) :
    ∀ {m : HMem} {v : VMem} {as : List Nat} {st : σ} {a : Acc} {u : Option Upd}, MemSim m v as → v.states[x]? = some s →
    (∀ p ∈ held st, KnownV v p) → AccRep m.heap (· ∈ m.roots ++ as) a u →
    ∃ v' as', MemSim (stepBatchAt c x ids st a m).1 v' as' ∧ Frame m (stepBatchAt c x ids st a m).1 as as' ∧
      Keeps (fun _ => False) v v' ∧
      match ids.foldlM (fun (acc : σ × Option Upd) sid => do
          let (st', r) ← C.update acc.1 sid s
          let b ← mergeResp r acc.2 sid
          pure (st', b)) (st, u) with
      | .error e => (stepBatchAt c x ids st a m).2 = .error e
      | .ok (st', u') => ∃ a', (stepBatchAt c x ids st a m).2 = .ok (st', a') ∧
          AccRep (stepBatchAt c x ids st a m).1.heap (· ∈ (stepBatchAt c x ids st a m).1.roots ++ as') a' u' ∧
          ∀ p ∈ held st', KnownV v' p := by
  induction ids with
  | nil => intro m v as st a u h hs hk ha; exact ⟨v, as, h, .same as rfl rfl, .refl _ _, a, rfl, ha, hk⟩
  | cons sid ids ih =>
    intro m v as st a u h hs hk ha
    obtain ⟨v1, as1, h1, f1, k1, h2⟩ := update_sim hc h hs hk sid
    simp only [List.foldlM_cons, stepBatchAt]
    rcases hA : c.update st sid x m with ⟨m1, o⟩
    rw [hA] at h1 f1 h2
    simp only at h1 f1 h2
    cases hB : C.update st sid s with
    | error e =>
      rw [hB] at h2
      simp only at h2; subst h2
      exact ⟨v1, as1, h1, f1, k1, rfl⟩
    | ok y =>
      obtain ⟨st', r⟩ := y
      rw [hB] at h2
      obtain ⟨b, h3, h4, h5⟩ := h2
      subst h3
      simp only
      have hmerge : match mergeResp r u sid with
          | .error e => mergeAns m1.heap b a sid = .error e
          | .ok u' => ∃ a', mergeAns m1.heap b a sid = .ok a' ∧ AccRep m1.heap (· ∈ m1.roots ++ as1) a' u' := by
        cases b with
        | one x =>
          cases r with
          | noUpdate => exact mergeAt_sim (o := none) h4 (ha.frame f1) sid
          | dict d => exact mergeAt_sim (o := some d) h4 (ha.frame f1) sid
          | tuple d n => exact h4.elim
        | pair x nx =>
          cases r with
          | noUpdate => exact h4.elim
          | dict d => exact h4.elim
          | tuple d n => rfl
      cases hM : mergeResp r u sid with
      | error e =>
        rw [hM] at hmerge
        simp only at hmerge
        simp only [hmerge]
        refine ⟨v1, as1, h1, f1, k1, ?_⟩
        simp only [bind, Except.bind, hM]
      | ok u' =>
        rw [hM] at hmerge
        obtain ⟨a', h6, h7⟩ := hmerge
        simp only [h6]
        obtain ⟨v2, as2, g1, g2, g3, g4⟩ := ih (st := st') h1 (k1.states x s id hs) h5 h7
        refine ⟨v2, as2, g1, f1.trans g2, k1.trans g3, ?_⟩
        simp only [bind, Except.bind, hM, pure, Except.pure] at g4 ⊢
        exact g4

/-! ### whole runs -/

/-- A run in progress: `x0` is the result's initial state, `x` the live state, `r` the result. -/
structure Running (w : World HMem) (v : World VMem) (x0 r x : Nat) (s0 live : SimState) (res : SimResult) : Prop where
  sim : WSim w v
  wf : WWF v
  init : v.mem.states[x0]? = some s0
  cur : v.mem.states[x]? = some live
  ne : x0 ≠ x
  diffs : ∃ js, v.results[r]? = some ⟨x0, js, [], none⟩ ∧ js.map v.mem.val = res.diffs.map diffVal
  first : res.initial = s0
  stored : res.stored = []

theorem applyVal_diffVal (s : SimState) (o : Option Props) : applyVal s (diffVal o) = s.batchUpdateO o := by
  cases o <;> rfl

theorem Running.grow {w : World HMem} {v : World VMem} {x0 r x : Nat} {s0 live : SimState} {res : SimResult}
    (h : Running w v x0 r x s0 live res) {m : HMem} {v1 : VMem} (hm : MSim m v1) (hk : Keeps (fun _ => False) v.mem v1) :
    Running { w with mem := m } { v with mem := v1 } x0 r x s0 live res := by
  obtain ⟨js, h1, h2⟩ := h.diffs
  refine ⟨⟨hm, h.sim.results, h.sim.gens⟩, h.wf.grow hk, hk.states _ _ id h.init, hk.states _ _ id h.cur, h.ne,
    ⟨js, h1, ?_⟩, h.first, h.stored⟩
  rw [← h2]
  refine List.map_congr_left fun j hj => hk.val (h.wf.diffs _ (List.mem_of_getElem? h1) j hj)

/-- Applying and recording the merged updates. -/
theorem apply_sim {w : World HMem} {v : World VMem} {x0 r x : Nat} {s0 live : SimState} {res : SimResult}
    (h : Running w v x0 r x s0 live res) {as : List Nat} (hm : MemSim w.mem v.mem as) {a : Acc} {u : Option Upd}
    (ha : AccRep w.mem.heap (· ∈ w.mem.roots ++ as) a u) :
    match live.batchUpdateO (u.map Upd.toProps) with
    | .error e => ∃ w2, World.step heapOps { w with mem := pushAcc w.mem a } (.prim (.batch x w.mem.vals.length)) = (w2, .error e)
    | .ok live' => ∃ w2 v2, World.step heapOps { w with mem := pushAcc w.mem a } (.prim (.batch x w.mem.vals.length)) =
        (w2, .ok none) ∧ Running (w2.step heapOps (.addStep r w.mem.vals.length)).1 v2 x0 r x s0 live'
          (res.addStep (u.map Upd.toProps)) ∧ Keeps (· = x) v.mem v2.mem := by
  have hlen : w.mem.vals.length = v.mem.vals.length := hm.vals.length_eq
  set d := diffVal (u.map Upd.toProps) with hd
  set v1 : VMem := { v.mem with vals := v.mem.vals ++ [d] } with hv1
  have hk1 : Keeps (fun _ => False) v.mem v1 :=
    ⟨fun _ _ _ hs => hs, le_rfl, fun j hj => List.getElem?_append_left hj, by simp [hv1]⟩
  have hR := h.grow (m := pushAcc w.mem a) ⟨as, pushAcc_sim hm ha⟩ hk1
  have hval : v1.val v.mem.vals.length = d := by simp [VMem.val, hv1]
  have hstep : World.step valOps { v with mem := v1 } (.prim (.batch x v.mem.vals.length)) =
      ({ v with mem := { v1 with states := v1.states.set x (batchV live d).1 } }, match (batchV live d).2 with
        | Option.none => .ok Option.none
        | some e => .error e) := by
    have : valOps.step v1 (.batch x v.mem.vals.length) = ({ v1 with states := v1.states.set x (batchV live d).1 },
        (batchV live d).2) := by
      show v1.step (.batch x v.mem.vals.length) = _
      simp only [VMem.step, show v1.states[x]? = some live from hR.cur, hval]
    simp only [World.step, this]
    cases (batchV live d).2 <;> rfl
  obtain ⟨e1, e2⟩ := hR.sim.step (.prim (.batch x v.mem.vals.length))
  have hk2 : Keeps (· = x) v1 (valOps.step v1 (.batch x v.mem.vals.length)).1 := keeps_batch _ _ _
  have hwf2 := (hR.wf.step (.prim (.batch x v.mem.vals.length))).1
  rw [← applyVal_diffVal, ← hd, batchV_eq, hlen]
  rcases hW : World.step heapOps { w with mem := pushAcc w.mem a } (.prim (.batch x v.mem.vals.length)) with ⟨w2, o⟩
  rw [hW] at e1 e2
  rw [hstep] at e1 e2 hwf2
  have hk2' : Keeps (· = x) v1 { v1 with states := v1.states.set x (batchV live d).1 } := by
    have : valOps.step v1 (.batch x v.mem.vals.length) = ({ v1 with states := v1.states.set x (batchV live d).1 },
        (batchV live d).2) := by
      show v1.step (.batch x v.mem.vals.length) = _
      simp only [VMem.step, show v1.states[x]? = some live from hR.cur, hval]
    rw [this] at hk2; exact hk2
  simp only at e1
  rcases hb : batchV live d with ⟨s', _ | e⟩
  · rw [hb] at e1 e2 hwf2 hk2'
    simp only at e1 e2 hwf2 hk2' ⊢
    subst e1
    have hlt : x < v1.states.length := Keeps.lt hR.cur
    set v2 : World VMem := { v with mem := { v1 with states := v1.states.set x s' } } with hv2
    obtain ⟨_, g2⟩ := e2.step (.addStep r v.mem.vals.length)
    obtain ⟨g3, g4, _⟩ := hwf2.step (.addStep r v.mem.vals.length)
    obtain ⟨js, h1, h2⟩ := h.diffs
    have hrlt : r < v.results.length := (List.getElem?_eq_some_iff.1 h1).1
    have hadd : (v2.step valOps (.addStep r v.mem.vals.length)).1 =
        { v2 with results := v2.results.set r ⟨x0, js ++ [v.mem.vals.length], [], none⟩ } := by
      have hn : v.mem.vals.length < valOps.nvals v2.mem := by
        show v.mem.vals.length < (v.mem.vals ++ [d]).length
        simp
      simp only [World.step, show v2.results[r]? = some _ from h1, hn, if_true]
    refine ⟨w2, (v2.step valOps (.addStep r v.mem.vals.length)).1, rfl, ⟨g2, g3, ?_, ?_, h.ne, ?_, h.first, h.stored⟩, ?_⟩
    · rw [hadd]; exact hk2'.states x0 s0 h.ne (hk1.states x0 s0 id h.init)
    · rw [hadd]; exact List.getElem?_set_self hlt
    · refine ⟨js ++ [v.mem.vals.length], by rw [hadd]; exact List.getElem?_set_self hrlt, ?_⟩
      rw [hadd]
      simp only [SimResult.addStep, List.map_append, List.map_cons, List.map_nil]
      congr 1
      · rw [← h2]
        refine List.map_congr_left fun j hj => ?_
        have hj' := h.wf.diffs _ (List.mem_of_getElem? h1) j hj
        exact hk1.val hj'
      · exact congrArg (· :: []) hval
    · rw [hadd]
      exact (hk1.mono fun _ _ hf => hf.elim).trans hk2'
  · rw [hb] at e1
    simp only at e1
    subst e1
    exact ⟨w2, rfl⟩

/-- The serial loop. -/
theorem syncLoopAt_sim (hc : Follows c C held) {x0 r x : Nat} {s0 : SimState} (n : Nat) :
    ∀ {w : World HMem} {v : World VMem} {st : σ} {live : SimState} {res : SimResult}, Running w v x0 r x s0 live res →
    (∀ p ∈ held st, KnownV v.mem p) →
    match syncLoop C n st live res with
    | .error e => (syncLoopAt c x r n st w).2 = .error e
    | .ok (st', live', res') => (syncLoopAt c x r n st w).2 = .ok st' ∧
        ∃ v', Running (syncLoopAt c x r n st w).1 v' x0 r x s0 live' res' ∧ Keeps (· = x) v.mem v'.mem ∧
          ∀ p ∈ held st', KnownV v'.mem p := by
  induction n with
  | zero => intro w v st live res h hk; exact ⟨rfl, v, h, .refl _ _, hk⟩
  | succ n ih =>
    intro w v st live res h hk
    obtain ⟨as, hm⟩ := h.sim.mem
    have hids := siteIdsAt_eq hm h.cur
    obtain ⟨v1, as1, h1, f1, k1, h2⟩ := stepBatchAt_sim hc (siteIdsAt w.mem x) (st := st) (a := none) (u := none) hm h.cur hk
      trivial
    simp only [syncLoop, syncLoopAt, takeStep, stepBatch]
    rw [hids] at h1 f1 h2 ⊢
    rcases hA : stepBatchAt c x live.siteIds st none w.mem with ⟨m1, o⟩
    rw [hA] at h1 f1 h2
    simp only at h1 f1 h2
    revert h2
    cases live.siteIds.foldlM (fun (acc : σ × Option Upd) sid => do
          let (st', r) ← C.update acc.1 sid live
          let b ← mergeResp r acc.2 sid
          pure (st', b)) (st, none) with
    | error e => intro h2; simp only at h2; subst h2; rfl
    | ok y =>
      obtain ⟨st', u⟩ := y
      rintro ⟨a', h3, h4, h5⟩
      subst h3
      simp only [bind, Except.bind]
      have hR := h.grow ⟨as1, h1⟩ k1
      have hap := apply_sim hR (as := as1) h1 h4
      simp only at hap
      revert hap
      cases live.batchUpdateO (u.map Upd.toProps) with
      | error e => rintro ⟨w2, hw2⟩; simp only [hw2]
      | ok live' =>
        rintro ⟨w2, v2, hw2, hR2, hk2⟩
        simp only [hw2]
        have := ih (st := st') hR2 fun p hp => (h5 p hp).keeps hk2
        revert this
        cases syncLoop C n st' live' (res.addStep (u.map Upd.toProps)) with
        | error e => exact id
        | ok z =>
          rintro ⟨g1, v', g2, g3, g4⟩
          exact ⟨g1, v', g2, ((k1.mono fun _ _ hf => hf.elim).trans hk2).trans g3, g4⟩

/-- The beginning of a run: the result, `pre_run`, the live state. -/
theorem start_sim (hc : Follows c C held) {w : World HMem} {v : World VMem} (hw : WSim w v) (hwf : WWF v) {i : Nat}
    {s0 : SimState} (hs : v.mem.states[i]? = some s0) {st : σ} (hk : ∀ p ∈ held st, KnownV v.mem p) :
    let w1 := (w.run heapOps [.prim (.copy i), .newResult w.mem.roots.length]).1
    let q := c.preRun st i w1.mem
    match C.preRun st s0 with
    | .error e => q.2 = .error e
    | .ok (st1, s1) => q.2 = .ok st1 ∧ ∃ v3,
        Running (World.step heapOps { w1 with mem := q.1 } (.prim (.copy i))).1 v3 w.mem.roots.length w.results.length
          q.1.roots.length s0 s1 (SimResult.new s0.copy) ∧
        Keeps (· = i) v.mem v3.mem ∧ v3.mem.states[i]? = some s1 ∧ w.mem.roots.length ≤ q.1.roots.length ∧
        ∀ p ∈ held st1, KnownV v3.mem p := by
  intro w1 q
  have hlt := Keeps.lt hs
  have hlen : w.mem.roots.length = v.mem.states.length := hw.mem.size
  have hrl : w.results.length = v.results.length := by rw [hw.results]
  set n := v.mem.states.length with hn
  have hw1 := (hw.run [.prim (.copy i), .newResult n]).2
  have hwf1 := hwf.run [.prim (.copy i), .newResult n]
  have hv1 : (v.run valOps [.prim (.copy i), .newResult n]).1 =
      ⟨⟨v.mem.states ++ [s0], v.mem.vals⟩, v.results ++ [⟨n, [], [], none⟩], v.gens⟩ := by
    simp only [World.run, World.step, copy_val v.mem i s0 hs]
    have hsz : n < valOps.size ⟨v.mem.states ++ [s0], v.mem.vals⟩ := by
      show n < (v.mem.states ++ [s0]).length
      simp [hn]
    simp only [hsz, if_true]
  rw [hv1] at hw1 hwf1
  rw [← hlen] at hw1 hwf1
  have hm1 : MSim w1.mem ⟨v.mem.states ++ [s0], v.mem.vals⟩ := hw1.mem
  have hk0 : Keeps (fun _ => False) v.mem ⟨v.mem.states ++ [s0], v.mem.vals⟩ :=
    ⟨fun j s _ hj => by rw [List.getElem?_append_left (Keeps.lt hj)]; exact hj, by simp, fun _ _ => rfl, le_rfl⟩
  obtain ⟨ps, hp, h1, h2⟩ := hc.preRun st i w1.mem s0 ⟨_, hm1⟩ ((hm1.shows i s0).2 (hk0.states i s0 id hs))
    fun p hp => (hm1.known p).2 ((hk p hp).keeps hk0)
  have hq : q.1 = w1.mem.run ps := h1
  revert h2
  cases C.preRun st s0 with
  | error e => exact id
  | ok y =>
    obtain ⟨st1, s1⟩ := y
    rintro ⟨h3, h4, h5⟩
    refine ⟨h3, ?_⟩
    have hm2 : MSim q.1 (VMem.run ⟨v.mem.states ++ [s0], v.mem.vals⟩ ps) := by rw [hq]; exact hm1.run ps
    have hk2 : Keeps (· = i) ⟨v.mem.states ++ [s0], v.mem.vals⟩ (VMem.run ⟨v.mem.states ++ [s0], v.mem.vals⟩ ps) :=
      keeps_run _ ps _ hp
    set v2 := VMem.run ⟨v.mem.states ++ [s0], v.mem.vals⟩ ps with hv2
    have hs1 : v2.states[i]? = some s1 := by
      rw [← hm2.shows, hq]; exact h4
    have hx : q.1.roots.length = v2.states.length := hm2.size
    have hi0 : v2.states[n]? = some s0 :=
      hk2.states n s0 (by show n ≠ i; omega) (by simp [hn])
    have hnlt := Keeps.lt hi0
    have hW2 : WSim { w1 with mem := q.1 } ⟨v2, v.results ++ [⟨n, [], [], none⟩], v.gens⟩ := by
      exact ⟨hm2, hw1.results.trans (by simp only [hlen]), hw1.gens⟩
    have hwf2 : WWF ⟨v2, v.results ++ [⟨n, [], [], none⟩], v.gens⟩ := by
      rw [hlen] at hwf1
      exact hwf1.grow hk2
    have hW3 := (hW2.step (.prim (.copy i))).2
    have hwf3 := (hwf2.step (.prim (.copy i))).1
    have hv3 : (World.step valOps ⟨v2, v.results ++ [⟨n, [], [], none⟩], v.gens⟩ (.prim (.copy i))).1 =
        ⟨⟨v2.states ++ [s1], v2.vals⟩, v.results ++ [⟨n, [], [], none⟩], v.gens⟩ := by
      simp only [World.step, copy_val v2 i s1 hs1]
    rw [hv3] at hW3 hwf3
    have hk3 : Keeps (fun _ => False) v2 ⟨v2.states ++ [s1], v2.vals⟩ :=
      ⟨fun j s _ hj => by rw [List.getElem?_append_left (Keeps.lt hj)]; exact hj, by simp, fun _ _ => rfl, le_rfl⟩
    refine ⟨_, ⟨hW3, hwf3, ?_, ?_, ?_, ⟨[], ?_, rfl⟩, rfl, rfl⟩, ?_, hk3.states i s1 id hs1, ?_, ?_⟩
    · rw [hlen]; exact hk3.states n s0 id hi0
    · rw [hx]; simp
    · rw [hlen, hx]; omega
    · rw [hlen, hrl]; simp
    · exact ((hk0.mono fun _ _ hf => hf.elim).trans hk2).trans (hk3.mono fun _ _ hf => hf.elim)
    · rw [hlen, hx]; omega
    · intro p hp
      rw [hq] at hm2
      exact ((hm2.known p).1 (h5 p hp)).keeps hk3

/-- What is left when a run has ended. -/
structure Ended (w : World HMem) (v : World VMem) (x0 r x : Nat) (res : SimResult) : Prop where
  sim : WSim w v
  wf : WWF v
  init : v.mem.states[x0]? = some res.initial
  out : ∃ s, v.mem.states[x]? = some s ∧ res.output = some s
  diffs : ∃ js, v.results[r]? = some ⟨x0, js, [], some x⟩ ∧ js.map v.mem.val = res.diffs.map diffVal
  stored : res.stored = []

theorem Running.finish {w : World HMem} {v : World VMem} {x0 r x : Nat} {s0 live : SimState} {res : SimResult}
    (h : Running w v x0 r x s0 live res) :
    ∃ v', Ended (w.step heapOps (.setOutput r x)).1 v' x0 r x (res.setOutput live) ∧ v'.mem = v.mem := by
  obtain ⟨js, h1, h2⟩ := h.diffs
  have hrlt : r < v.results.length := (List.getElem?_eq_some_iff.1 h1).1
  have hx : x < valOps.size v.mem := Keeps.lt h.cur
  have hset : (v.step valOps (.setOutput r x)).1 = { v with results := v.results.set r ⟨x0, js, [], some x⟩ } := by
    simp only [World.step, h1, hx, if_true]
  refine ⟨(v.step valOps (.setOutput r x)).1, ⟨(h.sim.step _).2, (h.wf.step _).1, ?_, ⟨live, ?_, rfl⟩, ⟨js, ?_, ?_⟩, h.stored⟩, ?_⟩
  · rw [hset, show (res.setOutput live).initial = s0 from h.first]; exact h.init
  · rw [hset]; exact h.cur
  · rw [hset]; exact List.getElem?_set_self hrlt
  · rw [hset]; exact h2
  · rw [hset]

theorem Ended.reads {w : World HMem} {v : World VMem} {x0 r x : Nat} {res : SimResult} (h : Ended w v x0 r x res) :
    ResultReads w r res := by
  obtain ⟨js, h1, h2⟩ := h.diffs
  obtain ⟨s, h3, h4⟩ := h.out
  obtain ⟨as, hm⟩ := h.sim.mem
  refine ⟨_, by rw [h.sim.results]; exact h1, (h.sim.mem.shows _ _).2 h.init, ?_, rfl, h.stored, x, s, rfl, h4,
    (h.sim.mem.shows _ _).2 h3⟩
  have key : ∀ (js : List Nat) (ds : List (Option Props)), js.map v.mem.val = ds.map diffVal →
      List.Forall₂ (fun j d => Reads w.mem.heap (w.mem.val j) (diffVal d)) js ds := by
    intro js
    induction js with
    | nil => intro ds he; cases ds with
      | nil => exact .nil
      | cons d ds => simp at he
    | cons j js ih => intro ds he; cases ds with
      | nil => simp at he
      | cons d ds =>
        simp only [List.map_cons, List.cons.injEq] at he
        exact .cons (he.1 ▸ (hm.val j).read) (ih ds he.2)
  exact key js _ h2

/-- Whole serial runs. -/
theorem runSyncAt_sim (hc : Follows c C held) {w : World HMem} {v : World VMem} (hw : WSim w v) (hwf : WWF v) {i : Nat}
    {s0 : SimState} (hs : v.mem.states[i]? = some s0) {st : σ} (hk : ∀ p ∈ held st, KnownV v.mem p) (n : Nat) :
    match runSync C st s0 n with
    | .error e => (runSyncAt c st i n w).2 = .error e
    | .ok (st', res) => (runSyncAt c st i n w).2 = .ok (st', w.results.length) ∧
        ∃ v' x, Ended (runSyncAt c st i n w).1 v' w.mem.roots.length w.results.length x res ∧ Keeps (· = i) v.mem v'.mem ∧
          (∃ st1 s1, C.preRun st s0 = .ok (st1, s1) ∧ v'.mem.states[i]? = some s1) ∧ w.mem.roots.length < x ∧
          ∀ p ∈ held st', KnownV v'.mem p := by
  have hlt := Keeps.lt hs
  have hlen : w.mem.roots.length = v.mem.states.length := hw.mem.size
  have hstart := start_sim hc hw hwf hs hk
  simp only [runSync, runSyncAt]
  simp only at hstart
  revert hstart
  generalize c.preRun st i (w.run heapOps [.prim (.copy i), .newResult w.mem.roots.length]).1.mem = q
  obtain ⟨m, o⟩ := q
  cases hpre : C.preRun st s0 with
  | error e => intro h; simp only at h; subst h; rfl
  | ok y =>
    obtain ⟨st1, s1⟩ := y
    rintro ⟨h1, v3, h2, h3, h4, h5, h6⟩
    simp only at h1; subst h1
    simp only [bind, Except.bind]
    have hloop := syncLoopAt_sim hc n h2 h6
    simp only [show s1.copy = s1 from rfl]
    revert hloop
    generalize syncLoopAt c m.roots.length w.results.length n st1 _ = g
    obtain ⟨w4, o4⟩ := g
    cases syncLoop C n st1 s1 (SimResult.new s0.copy) with
    | error e => intro h; simp only at h; subst h; rfl
    | ok z =>
      obtain ⟨st', live', res'⟩ := z
      rintro ⟨g1, v', g2, g3, g4⟩
      simp only at g1; subst g1
      obtain ⟨v'', e1, e2⟩ := g2.finish
      have hx : w.mem.roots.length < m.roots.length := by
        have := h2.ne
        simp only at h5 this
        omega
      refine ⟨rfl, v'', _, e1, ?_, ⟨st1, s1, rfl, ?_⟩, hx, ?_⟩
      · rw [e2]
        refine ⟨fun j s hj hjs => g3.states j s ?_ (h3.states j s hj hjs), h3.size.trans g3.size,
          fun j hj => (g3.vals j (hj.trans_le h3.nvals)).trans (h3.vals j hj), h3.nvals.trans g3.nvals⟩
        have := Keeps.lt hjs
        show j ≠ m.roots.length
        omega
      · rw [e2]; exact g3.states i s1 (by show i ≠ m.roots.length; omega) h4
      · rw [e2]; exact g4

/-! ### asynchronous runs -/

theorem addSitesAt_sim (hc : Follows c C held) {w : World HMem} {v : World VMem} {x0 r x : Nat} {s0 live : SimState}
    {res : SimResult} (h : Running w v x0 r x s0 live res) {st : σ} (hk : ∀ p ∈ held st, KnownV v.mem p) (q : List Key) :
    match addSites C st live q with
    | .error e => (addSitesAt c x st q w.mem).2 = .error e
    | .ok (st', q') => (addSitesAt c x st q w.mem).2 = .ok (st', q') ∧
        ∃ v', Running { w with mem := (addSitesAt c x st q w.mem).1 } v' x0 r x s0 live res ∧ Keeps (· = x) v.mem v'.mem ∧
          ∀ p ∈ held st', KnownV v'.mem p := by
  have hm := h.sim.mem
  obtain ⟨ps, hp, h1, h2, h3⟩ := hc.randomSite st x w.mem live ⟨_, hm⟩ ((hm.shows x live).2 h.cur)
    fun p hp => (hm.known p).2 (hk p hp)
  have hkk : Keeps (fun _ => False) v.mem (v.mem.run ps) :=
    keeps_run _ ps _ fun p hpm i hi => (by rw [hp p hpm] at hi; exact absurd hi (by simp))
  have hR := h.grow (hm.run ps) hkk
  have hkn : ∀ st' q, C.randomSite st live = .ok (st', q) → ∀ p ∈ held st', KnownV (v.mem.run ps) p :=
    fun st' q he p hp => ((hm.run ps).known p).1 (h3 st' q he p hp)
  have hkx : Keeps (· = x) v.mem (v.mem.run ps) := hkk.mono fun _ _ hf => hf.elim
  simp only [addSites, addSitesAt]
  revert h1 h2 hkn
  generalize c.randomSite st x w.mem = y
  obtain ⟨m', o⟩ := y
  intro h1 h2 hkn
  simp only at h1 h2
  subst h1 h2
  revert hkn
  cases C.randomSite st live with
  | error e => intro _; rfl
  | ok z =>
    obtain ⟨st', rq⟩ := z
    intro hkn
    cases rq <;> exact ⟨rfl, _, hR, hkx, hkn _ _ rfl⟩

theorem AnsRep.split {h : Heap} {P : Nat → Prop} {a : HAns} {r : Resp} (ha : AnsRep h P a r) :
    Rep h P a.split.1 (diffVal r.split.1) ∧ a.split.2 = r.split.2 := by
  cases a with
  | one v => cases r with
    | noUpdate => exact ⟨ha, rfl⟩
    | dict d => exact ⟨ha, rfl⟩
    | tuple d n => exact ha.elim
  | pair v nx => cases r with
    | noUpdate => exact ha.elim
    | dict d => exact ha.elim
    | tuple d n => cases d with
      | none => exact ⟨ha.1, ha.2⟩
      | some d => exact ⟨ha.1, ha.2⟩

/-- One iteration of the asynchronous loop. -/
theorem asyncStepAt_sim (hc : Follows c C held) {x0 r x : Nat} {s0 : SimState} {w : World HMem} {v : World VMem}
    {a : AsyncSt σ} (h : Running w v x0 r x s0 a.live a.res) (hk : ∀ p ∈ held a.st, KnownV v.mem p) :
    match asyncStep C a with
    | .error e => (asyncStepAt c x r a.st a.queue w).2 = .error e
    | .ok a' => (asyncStepAt c x r a.st a.queue w).2 = .ok (a'.st, a'.queue) ∧
        ∃ v', Running (asyncStepAt c x r a.st a.queue w).1 v' x0 r x s0 a'.live a'.res ∧ Keeps (· = x) v.mem v'.mem ∧
          ∀ p ∈ held a'.st, KnownV v'.mem p := by
  obtain ⟨st, live, queue, res, trace⟩ := a
  simp only at h hk
  cases queue with
  | nil => rfl
  | cons sid q =>
    obtain ⟨as, hm⟩ := h.sim.mem
    obtain ⟨v1, as1, h1, f1, k1, h2⟩ := update_sim hc hm h.cur hk sid
    simp only [asyncStep, asyncStepAt]
    rcases hA : c.update st sid x w.mem with ⟨m1, o⟩
    rw [hA] at h1 f1 h2
    simp only at h1 f1 h2
    revert h2
    cases C.update st sid live with
    | error e => intro h2; simp only at h2; subst h2; rfl
    | ok y =>
      obtain ⟨st', rr⟩ := y
      rintro ⟨b, h3, h4, h5⟩
      subst h3
      simp only [bind, Except.bind]
      obtain ⟨h6, h7⟩ := h4.split
      have hM := mergeAt_sim h6 (a := none) (u := none) trivial sid
      revert hM
      cases mergeUpdates rr.split.1 none (some sid) with
      | error e => intro hM; simp only at hM; simp only [hM]
      | ok u =>
        rintro ⟨acc, h8, h9⟩
        simp only [h8]
        have hR := h.grow ⟨as1, h1⟩ k1
        have hap := apply_sim hR (as := as1) h1 h9
        simp only at hap
        revert hap
        cases live.batchUpdateO (u.map Upd.toProps) with
        | error e => rintro ⟨w2, hw2⟩; simp only [hw2]
        | ok live' =>
          rintro ⟨w2, v2, hw2, hR2, hk2⟩
          simp only [hw2, h7]
          have hkk : Keeps (· = x) v.mem v2.mem := (k1.mono fun _ _ hf => hf.elim).trans hk2
          have h5' : ∀ p ∈ held st', KnownV v2.mem p := fun p hp => (h5 p hp).keeps hk2
          by_cases hq : (q ++ rr.split.2).isEmpty = true
          · simp only [hq, if_true]
            have hS := addSitesAt_sim hc hR2 h5' (q ++ rr.split.2)
            revert hS
            cases addSites C st' live' (q ++ rr.split.2) with
            | error e => exact id
            | ok z =>
              rintro ⟨g1, v', g2, g3, g4⟩
              exact ⟨g1, v', g2, hkk.trans g3, g4⟩
          · simp only [hq]
            exact ⟨rfl, v2, hR2, hkk, h5'⟩

/-- The asynchronous loop. -/
theorem asyncLoopAt_sim (hc : Follows c C held) {x0 r x : Nat} {s0 : SimState} (n : Nat) :
    ∀ {w : World HMem} {v : World VMem} {a : AsyncSt σ}, Running w v x0 r x s0 a.live a.res →
    (∀ p ∈ held a.st, KnownV v.mem p) →
    match asyncLoop C n a with
    | .error e => (asyncLoopAt c x r n a.st a.queue w).2 = .error e
    | .ok a' => (asyncLoopAt c x r n a.st a.queue w).2 = .ok (a'.st, a'.queue) ∧
        ∃ v', Running (asyncLoopAt c x r n a.st a.queue w).1 v' x0 r x s0 a'.live a'.res ∧ Keeps (· = x) v.mem v'.mem ∧
          ∀ p ∈ held a'.st, KnownV v'.mem p := by
  induction n with
  | zero => intro w v a h hk; exact ⟨rfl, v, h, .refl _ _, hk⟩
  | succ n ih =>
    intro w v a h hk
    have h1 := asyncStepAt_sim hc h hk
    simp only [asyncLoop, asyncLoopAt]
    revert h1
    generalize asyncStepAt c x r a.st a.queue w = y
    obtain ⟨w1, o⟩ := y
    cases asyncStep C a with
    | error e => intro h1; simp only at h1; subst h1; rfl
    | ok a1 =>
      rintro ⟨h1, v1, h2, h3, h4⟩
      simp only at h1; subst h1
      simp only [bind, Except.bind]
      by_cases hq : a1.queue.isEmpty = true
      · simp only [hq, if_true]
        exact ⟨rfl, v1, h2, h3, h4⟩
      · simp only [hq]
        have h5 := ih h2 h4
        revert h5
        simp only [Bool.false_eq_true, if_false]
        cases asyncLoop C n a1 with
        | error e => exact id
        | ok z =>
          rintro ⟨g1, v', g2, g3, g4⟩
          exact ⟨g1, v', g2, h3.trans g3, g4⟩

/-- Whole asynchronous runs. -/
theorem runAsyncAt_sim (hc : Follows c C held) {w : World HMem} {v : World VMem} (hw : WSim w v) (hwf : WWF v) {i : Nat}
    {s0 : SimState} (hs : v.mem.states[i]? = some s0) {st : σ} (hk : ∀ p ∈ held st, KnownV v.mem p) (n : Nat) :
    match runAsync C st s0 n with
    | .error e => (runAsyncAt c st i n w).2 = .error e
    | .ok a => (runAsyncAt c st i n w).2 = .ok (a.st, w.results.length) ∧
        ∃ v' x, Ended (runAsyncAt c st i n w).1 v' w.mem.roots.length w.results.length x a.res ∧ Keeps (· = i) v.mem v'.mem ∧
          (∃ st1 s1, C.preRun st s0 = .ok (st1, s1) ∧ v'.mem.states[i]? = some s1) ∧ w.mem.roots.length < x ∧
          ∀ p ∈ held a.st, KnownV v'.mem p := by
  have hlt := Keeps.lt hs
  have hlen : w.mem.roots.length = v.mem.states.length := hw.mem.size
  have hstart := start_sim hc hw hwf hs hk
  simp only [runAsync, runAsyncAt, asyncRunFrom]
  simp only at hstart
  revert hstart
  generalize c.preRun st i (w.run heapOps [.prim (.copy i), .newResult w.mem.roots.length]).1.mem = q
  obtain ⟨m, o⟩ := q
  cases hpre : C.preRun st s0 with
  | error e => intro h; simp only at h; subst h; rfl
  | ok y =>
    obtain ⟨st1, s1⟩ := y
    rintro ⟨h1, v3, h2, h3, h4, h5, h6⟩
    simp only at h1; subst h1
    simp only [bind, Except.bind]
    simp only [show s1.copy = s1 from rfl]
    have hx : w.mem.roots.length < m.roots.length := by
      have := h2.ne
      simp only at h5 this
      omega
    have hS := addSitesAt_sim hc h2 h6 []
    revert h2 hS
    generalize (World.step heapOps { (w.run heapOps [.prim (.copy i), .newResult w.mem.roots.length]).1 with mem := m }
      (.prim (.copy i))).1 = w3
    intro h2
    simp only
    generalize addSitesAt c m.roots.length st1 [] w3.mem = y
    obtain ⟨m', o⟩ := y
    cases addSites C st1 s1 [] with
    | error e => intro hS; simp only at hS; subst hS; rfl
    | ok z =>
      obtain ⟨st2, q⟩ := z
      rintro ⟨g1, v4, g2, g3, g4⟩
      simp only at g1; subst g1
      by_cases hq : q.isEmpty = true
      · simp only [hq, if_true]
      · simp only [hq, Bool.false_eq_true, if_false]
        have hloop := asyncLoopAt_sim hc n (a := ⟨st2, s1, q, SimResult.new s0.copy, []⟩) g2 g4
        revert hloop
        simp only
        generalize asyncLoopAt c m.roots.length w.results.length n st2 q _ = g
        obtain ⟨w4, o4⟩ := g
        cases asyncLoop C n ⟨st2, s1, q, SimResult.new s0.copy, []⟩ with
        | error e => intro h; simp only at h; subst h; rfl
        | ok a =>
          rintro ⟨f1, v', f2, f3, f4⟩
          simp only at f1; subst f1
          obtain ⟨v'', e1, e2⟩ := f2.finish
          refine ⟨rfl, v'', _, e1, ?_, ⟨st1, s1, rfl, ?_⟩, hx, ?_⟩
          · rw [e2]
            refine ⟨fun j s hj hjs => f3.states j s ?_ (g3.states j s ?_ (h3.states j s hj hjs)),
              (h3.size.trans g3.size).trans f3.size,
              fun j hj => (f3.vals j ((hj.trans_le h3.nvals).trans_le g3.nvals)).trans
                ((g3.vals j (hj.trans_le h3.nvals)).trans (h3.vals j hj)),
              (h3.nvals.trans g3.nvals).trans f3.nvals⟩
            all_goals
              have := Keeps.lt hjs
              show j ≠ m.roots.length
              omega
          · rw [e2]
            exact f3.states i s1 (by show i ≠ m.roots.length; omega)
              (g3.states i s1 (by show i ≠ m.roots.length; omega) h4)
          · rw [e2]; exact f4

end Heap
end Pyl
