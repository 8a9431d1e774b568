import Verif.Model.Heap
import Verif.Lemmas.Runner
import Mathlib.Data.List.Forall2
/-
The heap model refines the value model.
-/
set_option autoImplicit false

namespace Pyl
namespace Heap

/-! ### dicts related entry by entry -/
section KRel
variable {α β : Type}

/-- Same keys in the same order, related values. -/
def KRel (R : α → β → Prop) (d : Dict Key α) (e : Dict Key β) : Prop :=
  List.Forall₂ (fun p q => p.1 = q.1 ∧ R p.2 q.2) d e

theorem KRel.mono {R S : α → β → Prop} (h : ∀ a b, R a b → S a b) {d : Dict Key α} {e : Dict Key β}
    (hr : KRel R d e) : KRel S d e := List.Forall₂.imp (fun _ _ hp => ⟨hp.1, h _ _ hp.2⟩) hr

theorem KRel.get? {R : α → β → Prop} {d : Dict Key α} {e : Dict Key β} (h : KRel R d e) (k : Key) :
    (Dict.get? d k = none ∧ Dict.get? e k = none) ∨
      ∃ a b, Dict.get? d k = some a ∧ Dict.get? e k = some b ∧ R a b := by
  induction h with
  | nil => left; exact ⟨rfl, rfl⟩
  | @cons p q d e hp _ ih =>
    obtain ⟨k1, a⟩ := p; obtain ⟨k2, b⟩ := q
    obtain ⟨h1, h2⟩ := hp
    simp only at h1 h2; subst h1
    rw [Dict.get?_cons, Dict.get?_cons]
    by_cases hk : k1 = k
    · right; exact ⟨a, b, by simp [hk], by simp [hk], h2⟩
    · simpa [hk] using ih

theorem KRel.set {R : α → β → Prop} {d : Dict Key α} {e : Dict Key β} (h : KRel R d e) (k : Key) {a : α} {b : β}
    (hab : R a b) : KRel R (Dict.set d k a) (Dict.set e k b) := by
  induction h with
  | nil => exact .cons ⟨rfl, hab⟩ .nil
  | @cons p q d e hp hr ih =>
    obtain ⟨k1, x⟩ := p; obtain ⟨k2, y⟩ := q
    obtain ⟨h1, h2⟩ := hp
    simp only at h1 h2; subst h1
    simp only [Dict.set]
    by_cases hk : k1 = k
    · simp only [hk, if_true]; exact .cons ⟨rfl, hab⟩ hr
    · simp only [hk, if_false]; exact .cons ⟨rfl, h2⟩ ih

theorem KRel.update {R : α → β → Prop} {d u : Dict Key α} {e v : Dict Key β} (h : KRel R d e) (hu : KRel R u v) :
    KRel R (Dict.update d u) (Dict.update e v) := by
  induction hu generalizing d e with
  | nil => exact h
  | @cons p q u v hp _ ih =>
    rw [Dict.update_cons, Dict.update_cons, hp.1]
    exact ih (h.set q.1 hp.2)

theorem KRel.ofPairs {R : α → β → Prop} {u : Dict Key α} {v : Dict Key β} (hu : KRel R u v) :
    KRel R (Dict.ofPairs u) (Dict.ofPairs v) := KRel.update .nil hu

end KRel

/-! ### representation -/

/-- `v` represents the value `w` on the heap, looking at most `n` levels deep and never at a location in `P`. -/
def RepN (h : Heap) (P : Nat → Prop) : Nat → HVal → Val → Prop
  | _, .pyNone, w => w = .pyNone
  | _, .num q, w => w = .num q
  | _, .str s, w => w = .str s
  | 0, .ref _, _ => False
  | n + 1, .ref l, w => ¬ P l ∧ (
      (∃ vs ws, h[l]? = some (.list vs) ∧ w = .list ws ∧ List.Forall₂ (RepN h P n) vs ws) ∨
      (∃ vs ws, h[l]? = some (.tup vs) ∧ w = .tup ws ∧ List.Forall₂ (RepN h P n) vs ws) ∨
      (∃ d e, h[l]? = some (.dict d) ∧ w = .dict e ∧ KRel (RepN h P n) d e))

/-- `v` represents the value `w` on the heap without passing through a location in `P`. -/
def Rep (h : Heap) (P : Nat → Prop) (v : HVal) (w : Val) : Prop := ∃ n, RepN h P n v w

variable {h h' : Heap} {P P' : Nat → Prop}

theorem RepN.mono {n m : Nat} (hnm : n ≤ m) {v : HVal} {w : Val} (hr : RepN h P n v w) : RepN h P m v w := by
  induction m generalizing n v w with
  | zero =>
    obtain rfl : n = 0 := by omega
    exact hr
  | succ m ih =>
    cases n with
    | zero => cases v <;> simp_all [RepN]
    | succ n =>
      cases v with
      | ref l =>
        simp only [RepN] at hr ⊢
        refine ⟨hr.1, ?_⟩
        rcases hr.2 with ⟨vs, ws, h1, h2, h3⟩ | ⟨vs, ws, h1, h2, h3⟩ | ⟨d, e, h1, h2, h3⟩
        · exact Or.inl ⟨vs, ws, h1, h2, h3.imp fun _ _ => ih (by omega)⟩
        · exact Or.inr (Or.inl ⟨vs, ws, h1, h2, h3.imp fun _ _ => ih (by omega)⟩)
        · exact Or.inr (Or.inr ⟨d, e, h1, h2, h3.mono fun _ _ => ih (by omega)⟩)
      | _ => simpa [RepN] using hr

theorem forall₂_rep {vs : List HVal} {ws : List Val} (hr : List.Forall₂ (Rep h P) vs ws) :
    ∃ n, List.Forall₂ (RepN h P n) vs ws := by
  induction hr with
  | nil => exact ⟨0, .nil⟩
  | cons hp _ ih =>
    obtain ⟨n, hn⟩ := ih
    obtain ⟨m, hm⟩ := hp
    exact ⟨max n m, .cons (hm.mono (le_max_right _ _)) (hn.imp fun _ _ => RepN.mono (le_max_left _ _))⟩

theorem kRel_rep {d : Dict Key HVal} {e : Props} (hr : KRel (Rep h P) d e) : ∃ n, KRel (RepN h P n) d e := by
  induction hr with
  | nil => exact ⟨0, .nil⟩
  | cons hp _ ih =>
    obtain ⟨n, hn⟩ := ih
    obtain ⟨hk, m, hm⟩ := hp
    exact ⟨max n m, .cons ⟨hk, hm.mono (le_max_right _ _)⟩ (KRel.mono (fun _ _ => RepN.mono (le_max_left _ _)) hn)⟩

theorem Rep.none : Rep h P .pyNone .pyNone := ⟨0, rfl⟩
theorem Rep.num (q : Rat) : Rep h P (.num q) (.num q) := ⟨0, rfl⟩
theorem Rep.str (s : String) : Rep h P (.str s) (.str s) := ⟨0, rfl⟩
theorem Rep.keyVal (k : Key) : Rep h P (keyVal k) k.toVal := by cases k <;> exact ⟨0, rfl⟩

theorem Rep.dict {l : Nat} {d : Dict Key HVal} {e : Props} (hP : ¬ P l) (hl : h[l]? = some (.dict d))
    (hr : KRel (Rep h P) d e) : Rep h P (.ref l) (.dict e) := by
  obtain ⟨n, hn⟩ := kRel_rep hr
  exact ⟨n + 1, hP, Or.inr (Or.inr ⟨d, e, hl, rfl, hn⟩)⟩

theorem Rep.list {l : Nat} {vs : List HVal} {ws : List Val} (hP : ¬ P l) (hl : h[l]? = some (.list vs))
    (hr : List.Forall₂ (Rep h P) vs ws) : Rep h P (.ref l) (.list ws) := by
  obtain ⟨n, hn⟩ := forall₂_rep hr
  exact ⟨n + 1, hP, Or.inl ⟨vs, ws, hl, rfl, hn⟩⟩

theorem Rep.tup {l : Nat} {vs : List HVal} {ws : List Val} (hP : ¬ P l) (hl : h[l]? = some (.tup vs))
    (hr : List.Forall₂ (Rep h P) vs ws) : Rep h P (.ref l) (.tup ws) := by
  obtain ⟨n, hn⟩ := forall₂_rep hr
  exact ⟨n + 1, hP, Or.inr (Or.inl ⟨vs, ws, hl, rfl, hn⟩)⟩

/-- The cases of a representation. -/
theorem Rep.cases {v : HVal} {w : Val} (hr : Rep h P v w) :
    (v = .pyNone ∧ w = .pyNone) ∨ (∃ q, v = .num q ∧ w = .num q) ∨ (∃ s, v = .str s ∧ w = .str s) ∨
    ∃ l, v = .ref l ∧ ¬ P l ∧ (
      (∃ vs ws, h[l]? = some (.list vs) ∧ w = .list ws ∧ List.Forall₂ (Rep h P) vs ws) ∨
      (∃ vs ws, h[l]? = some (.tup vs) ∧ w = .tup ws ∧ List.Forall₂ (Rep h P) vs ws) ∨
      (∃ d e, h[l]? = some (.dict d) ∧ w = .dict e ∧ KRel (Rep h P) d e)) := by
  obtain ⟨n, hn⟩ := hr
  cases v with
  | pyNone => left; cases n <;> exact ⟨rfl, hn⟩
  | num q => right; left; cases n <;> exact ⟨q, rfl, hn⟩
  | str s => right; right; left; cases n <;> exact ⟨s, rfl, hn⟩
  | ref l =>
    right; right; right
    cases n with
    | zero => exact hn.elim
    | succ n =>
      refine ⟨l, rfl, hn.1, ?_⟩
      rcases hn.2 with ⟨vs, ws, h1, h2, h3⟩ | ⟨vs, ws, h1, h2, h3⟩ | ⟨d, e, h1, h2, h3⟩
      · exact Or.inl ⟨vs, ws, h1, h2, h3.imp fun _ _ hh => ⟨n, hh⟩⟩
      · exact Or.inr (Or.inl ⟨vs, ws, h1, h2, h3.imp fun _ _ hh => ⟨n, hh⟩⟩)
      · exact Or.inr (Or.inr ⟨d, e, h1, h2, h3.mono fun _ _ hh => ⟨n, hh⟩⟩)

/-- Representations survive changes at private locations and allocations. -/
theorem RepN.frame (hag : ∀ l o, ¬ P l → h[l]? = some o → h'[l]? = some o ∧ ¬ P' l) {n : Nat} {v : HVal} {w : Val}
    (hr : RepN h P n v w) : RepN h' P' n v w := by
  induction n generalizing v w with
  | zero => cases v <;> simp_all [RepN]
  | succ n ih =>
    cases v with
    | ref l =>
      simp only [RepN] at hr ⊢
      rcases hr.2 with ⟨vs, ws, h1, h2, h3⟩ | ⟨vs, ws, h1, h2, h3⟩ | ⟨d, e, h1, h2, h3⟩
      · obtain ⟨a, b⟩ := hag l _ hr.1 h1
        exact ⟨b, Or.inl ⟨vs, ws, a, h2, h3.imp fun _ _ => ih⟩⟩
      · obtain ⟨a, b⟩ := hag l _ hr.1 h1
        exact ⟨b, Or.inr (Or.inl ⟨vs, ws, a, h2, h3.imp fun _ _ => ih⟩)⟩
      · obtain ⟨a, b⟩ := hag l _ hr.1 h1
        exact ⟨b, Or.inr (Or.inr ⟨d, e, a, h2, h3.mono fun _ _ => ih⟩)⟩
    | _ => simpa [RepN] using hr

theorem Rep.frame (hag : ∀ l o, ¬ P l → h[l]? = some o → h'[l]? = some o ∧ ¬ P' l) {v : HVal} {w : Val}
    (hr : Rep h P v w) : Rep h' P' v w := by
  obtain ⟨n, hn⟩ := hr; exact ⟨n, hn.frame hag⟩

/-- Reading is deterministic: a heap value represents at most one value. -/
theorem Rep.unique {v : HVal} {w w' : Val} (hr : Rep h P v w) (hr' : Rep h P' v w') : w = w' := by
  obtain ⟨n, hn⟩ := hr
  obtain ⟨m, hm⟩ := hr'
  induction n generalizing v w m w' with
  | zero => cases v <;> cases m <;> simp_all [RepN]
  | succ n ih =>
    cases v with
    | ref l =>
      cases m with
      | zero => exact hm.elim
      | succ m =>
        have hl : ∀ {vs : List HVal} {ws ws' : List Val}, List.Forall₂ (RepN h P n) vs ws →
            List.Forall₂ (RepN h P' m) vs ws' → ws = ws' := by
          intro vs ws ws' h1 h2
          induction h1 generalizing ws' with
          | nil => cases h2; rfl
          | cons ha _ ih' => cases h2 with | cons hb hb' => rw [ih ha m hb, ih' hb']
        have hd : ∀ {d : Dict Key HVal} {e e' : Props}, KRel (RepN h P n) d e → KRel (RepN h P' m) d e' → e = e' := by
          intro d e e' h1 h2
          induction h1 generalizing e' with
          | nil => cases h2; rfl
          | cons ha _ ih' => cases h2 with
            | cons hb hb' => rw [ih' hb', Prod.ext (ha.1.symm.trans hb.1) (ih ha.2 m hb.2)]
        rcases hn.2 with ⟨vs, ws, h1, rfl, h3⟩ | ⟨vs, ws, h1, rfl, h3⟩ | ⟨d, e, h1, rfl, h3⟩ <;>
        rcases hm.2 with ⟨vs', ws', h1', rfl, h3'⟩ | ⟨vs', ws', h1', rfl, h3'⟩ | ⟨d', e', h1', rfl, h3'⟩ <;>
        rw [h1] at h1' <;> simp at h1' <;> subst h1'
        · rw [hl h3 h3']
        · rw [hl h3 h3']
        · rw [hd h3 h3']
    | _ => cases m <;> simp_all [RepN]

theorem get?_shift (h : Heap) (l : Nat) (o : Obj) (hl : h[l]? = some o) :
    (h ++ h.map (Obj.shift h.length))[l + h.length]? = some (o.shift h.length) := by
  rw [List.getElem?_append_right (by omega)]
  simp [hl]

/-- The clones made by `deepcopy` represent the same values. -/
theorem Rep.deepcopy (hP : ∀ l o, ¬ P l → h[l]? = some o → ¬ P' (l + h.length)) {v : HVal} {w : Val} (hr : Rep h P v w) :
    Rep (Heap.deepcopy h v).1 P' (v.shift h.length) w := by
  obtain ⟨n, hn⟩ := hr
  refine ⟨n, ?_⟩
  simp only [Heap.deepcopy]
  induction n generalizing v w with
  | zero => cases v <;> simp_all [RepN, HVal.shift]
  | succ n ih =>
    cases v with
    | ref l =>
      simp only [RepN, HVal.shift] at hn ⊢
      have hlist : ∀ {vs : List HVal} {ws : List Val}, List.Forall₂ (RepN h P n) vs ws →
          List.Forall₂ (RepN (h ++ h.map (Obj.shift h.length)) P' n) (vs.map (HVal.shift h.length)) ws := by
        intro vs ws h1
        induction h1 with
        | nil => exact .nil
        | cons ha _ ih' => exact .cons (ih ha) ih'
      have hd : ∀ {d : Dict Key HVal} {e : Props}, KRel (RepN h P n) d e →
          KRel (RepN (h ++ h.map (Obj.shift h.length)) P' n) (d.map fun p => (p.1, p.2.shift h.length)) e := by
        intro d e h1
        induction h1 with
        | nil => exact .nil
        | cons ha _ ih' => exact .cons ⟨ha.1, ih ha.2⟩ ih'
      rcases hn.2 with ⟨vs, ws, h1, h2, h3⟩ | ⟨vs, ws, h1, h2, h3⟩ | ⟨d, e, h1, h2, h3⟩
      · exact ⟨hP l _ hn.1 h1, Or.inl ⟨_, ws, get?_shift h l _ h1, h2, hlist h3⟩⟩
      · exact ⟨hP l _ hn.1 h1, Or.inr (Or.inl ⟨_, ws, get?_shift h l _ h1, h2, hlist h3⟩)⟩
      · exact ⟨hP l _ hn.1 h1, Or.inr (Or.inr ⟨_, e, get?_shift h l _ h1, h2, hd h3⟩)⟩
    | _ => simpa [RepN, HVal.shift] using hn

/-! ### states -/

/-- The state object with `_state` at `root` and its SITES dict at `a` represents `s`. -/
structure StRep (h : Heap) (P : Nat → Prop) (root a : Nat) (s : SimState) : Prop where
  pr : P root
  pa : P a
  ne : root ≠ a
  st : ∃ d, h[root]? = some (.dict d) ∧ Dict.get? d SITES = some (.ref a) ∧
    (match s.general with
      | none => Dict.get? d GENERAL = none
      | some g => ∃ v, Dict.get? d GENERAL = some v ∧ Rep h P v (.dict g))
  sites : ∃ sd, h[a]? = some (.dict sd) ∧ KRel (fun v p => Rep h P v (.dict p)) sd s.sites

theorem StRep.frame {root a : Nat} {s : SimState} (hs : StRep h P root a s)
    (hag : ∀ l o, ¬ P l → h[l]? = some o → h'[l]? = some o ∧ ¬ P' l) (hr : h'[root]? = h[root]?) (ha : h'[a]? = h[a]?)
    (hPr : P' root) (hPa : P' a) : StRep h' P' root a s := by
  obtain ⟨pr, pa, ne, ⟨d, h1, h2, h3⟩, sd, h4, h5⟩ := hs
  refine ⟨hPr, hPa, ne, ⟨d, by rw [hr]; exact h1, h2, ?_⟩, sd, by rw [ha]; exact h4,
    h5.mono fun _ _ hv => hv.frame hag⟩
  cases hg : s.general with
  | none => rw [hg] at h3; exact h3
  | some g =>
    rw [hg] at h3
    obtain ⟨v, h6, h7⟩ := h3
    exact ⟨v, h6, h7.frame hag⟩

theorem dictAt_ref {l : Nat} {d : Dict Key HVal} (hl : h[l]? = some (.dict d)) : dictAt h (.ref l) = .ok d := by
  simp [dictAt, hl]

theorem rep_dictAt {v : HVal} {w : Val} (hr : Rep h P v w) :
    (∃ e d, w = .dict e ∧ dictAt h v = .ok d ∧ KRel (Rep h P) d e) ∨
    ((∀ e, w ≠ .dict e) ∧ dictAt h v = .error .typeError) := by
  rcases hr.cases with ⟨rfl, rfl⟩ | ⟨q, rfl, rfl⟩ | ⟨s, rfl, rfl⟩ | ⟨l, rfl, _, h1⟩
  · right; simp [dictAt]
  · right; simp [dictAt]
  · right; simp [dictAt]
  · rcases h1 with ⟨vs, ws, h1, rfl, _⟩ | ⟨vs, ws, h1, rfl, _⟩ | ⟨d, e, h1, rfl, h3⟩
    · right; simp [dictAt, h1]
    · right; simp [dictAt, h1]
    · left; exact ⟨e, d, rfl, dictAt_ref h1, h3⟩

/-- Heaps that differ only at `x` and by allocation. -/
structure Grows (x : Nat) (h h' : Heap) : Prop where
  len : h.length ≤ h'.length
  same : ∀ l, l ≠ x → l < h.length → h'[l]? = h[l]?

theorem Grows.refl (x : Nat) (h : Heap) : Grows x h h := ⟨le_rfl, fun _ _ _ => rfl⟩

theorem getElem?_lt {l : Nat} {o : Obj} (hl : h[l]? = some o) : l < h.length := by
  by_contra hn
  rw [List.getElem?_eq_none (by omega)] at hl; cases hl

theorem alloc_set (h : Heap) (o o' : Obj) (a : Nat) (ha : a < h.length) :
    Grows a h ((h ++ [o]).set a o') ∧ ((h ++ [o]).set a o')[a]? = some o' ∧
      ((h ++ [o]).set a o')[h.length]? = some o := by
  refine ⟨⟨by simp, fun l h1 h2 => ?_⟩, ?_, ?_⟩
  · rw [List.getElem?_set_ne (by omega), List.getElem?_append_left h2]
  · rw [List.getElem?_set_self (by simp; omega)]
  · rw [List.getElem?_set_ne (by omega), List.getElem?_append_right le_rfl]; simp

theorem Grows.agree {x : Nat} (hg : Grows x h h') (hx : P x) : ∀ l o, ¬ P l → h[l]? = some o → h'[l]? = some o ∧ ¬ P l := by
  intro l o h1 h2
  refine ⟨?_, h1⟩
  rw [hg.same l (fun e => h1 (e ▸ hx)) (getElem?_lt h2), h2]

/-- `set_site_state` on the heap does what it does on values. -/
theorem setSiteState_sim {root a : Nat} {s : SimState} (hs : StRep h P root a s)
    (hP : ∀ l, P l → l < h.length) (sid : Key) {u : HVal} {w : Val} (hu : Rep h P u w) :
    match s.setSiteStateV sid w with
    | .ok s' => ∃ h', setSiteState h root sid u = .ok h' ∧ StRep h' P root a s' ∧ Grows a h h'
    | .error e => setSiteState h root sid u = .error e := by
  obtain ⟨pr, pa, ne, ⟨d, h1, h2, h3⟩, sd, h4, h5⟩ := hs
  -- the dict it starts from
  have hold : ∃ old, oldDict h sd sid = .ok old ∧ KRel (Rep h P) old
        (match Dict.get? s.sites sid with
          | some o => o
          | none => [(SITE_ID, sid.toVal)]) := by
    unfold oldDict
    rcases h5.get? sid with ⟨h6, h7⟩ | ⟨v, p, h6, h7, h8⟩
    · rw [h6, h7]
      exact ⟨_, rfl, .cons ⟨rfl, .keyVal sid⟩ .nil⟩
    · rw [h6, h7]
      rcases rep_dictAt h8 with ⟨e, d', he, h9, h10⟩ | ⟨h9, _⟩
      · cases he
        cases v with
        | ref l => exact ⟨d', h9, h10⟩
        | _ => simp [dictAt] at h9
      · exact absurd rfl (h9 p)
  obtain ⟨old, ho1, ho2⟩ := hold
  have hd1 := dictAt_ref h1
  have hd2 := dictAt_ref h4
  rcases rep_dictAt hu with ⟨e, ud, rfl, h6, h7⟩ | ⟨h6, h7⟩
  · simp only [SimState.setSiteStateV]
    have hlen : a < h.length := getElem?_lt h4
    obtain ⟨g1, g2, g3⟩ := alloc_set h (.dict (Dict.update old ud))
      (.dict (Dict.set sd sid (.ref h.length))) a hlen
    refine ⟨_, by simp only [setSiteState, hd1, ok_bind, h2, hd2, ho1, h6], ?_, g1⟩
    have hag := Grows.agree g1 pa
    have hPn : ¬ P h.length := fun hh => absurd (hP _ hh) (by omega)
    refine ⟨pr, pa, ne, ⟨d, ?_, h2, ?_⟩, _, g2, ?_⟩
    · rw [g1.same root ne (getElem?_lt h1), h1]
    · have : (s.setSiteState sid e).general = s.general := rfl
      rw [this]
      cases hg : s.general with
      | none => rw [hg] at h3; exact h3
      | some g =>
        rw [hg] at h3
        obtain ⟨v, h8, h9⟩ := h3
        exact ⟨v, h8, h9.frame hag⟩
    · have hsites : (s.setSiteState sid e).sites = Dict.set s.sites sid (Dict.update (match Dict.get? s.sites sid with
          | some o => o
          | none => [(SITE_ID, sid.toVal)]) e) := rfl
      rw [hsites]
      refine KRel.set (h5.mono fun _ _ hv => hv.frame hag) sid ?_
      refine Rep.dict hPn g3 ?_
      exact (ho2.update h7).mono fun _ _ hv => hv.frame hag
  · have hw : s.setSiteStateV sid w = .error .typeError := by
      cases w <;> first | rfl | exact absurd rfl (h6 _)
    rw [hw]
    simp only [setSiteState, hd1, ok_bind, h2, hd2, ho1, h7, error_bind]

theorem setGeneralState_sim {root a : Nat} {s : SimState} (hs : StRep h P root a s)
    (hP : ∀ l, P l → l < h.length) {u : HVal} {w : Val} (hu : Rep h P u w) :
    match s.setGeneralStateV w with
    | .ok s' => ∃ h', setGeneralState h root u = .ok h' ∧ StRep h' P root a s' ∧ Grows root h h'
    | .error e => setGeneralState h root u = .error e := by
  obtain ⟨pr, pa, ne, ⟨d, h1, h2, h3⟩, sd, h4, h5⟩ := hs
  have hd1 := dictAt_ref h1
  cases hg : s.general with
  | none =>
    rw [hg] at h3
    have hw : s.setGeneralStateV w = .error .typeError := by
      cases w <;> simp [SimState.setGeneralStateV, SimState.setGeneralState, hg]
    rw [hw]
    simp only at h3
    simp only [setGeneralState, hd1, ok_bind, h3, error_bind]
  | some g =>
    rw [hg] at h3
    obtain ⟨v, h6, h7⟩ := h3
    have hold : ∃ old, dictAt h v = .ok old ∧ KRel (Rep h P) old g := by
      rcases rep_dictAt h7 with ⟨e, d', he, h9, h10⟩ | ⟨h9, _⟩
      · cases he; exact ⟨d', h9, h10⟩
      · exact absurd rfl (h9 g)
    obtain ⟨old, ho1, ho2⟩ := hold
    rcases rep_dictAt hu with ⟨e, ud, rfl, h8, h9⟩ | ⟨h8, h9⟩
    · have hw : s.setGeneralStateV (.dict e) = .ok { s with general := some (Dict.update g e) } := by
        simp [SimState.setGeneralStateV, SimState.setGeneralState, hg]
      rw [hw]
      have hlen : root < h.length := getElem?_lt h1
      obtain ⟨g1, g2, g3⟩ := alloc_set h (.dict (Dict.update old ud))
        (.dict (Dict.set d GENERAL (.ref h.length))) root hlen
      refine ⟨_, by simp only [setGeneralState, hd1, ok_bind, h6, ho1, h8], ?_, g1⟩
      have hag := Grows.agree g1 pr
      have hPn : ¬ P h.length := fun hh => absurd (hP _ hh) (by omega)
      refine ⟨pr, pa, ne, ⟨_, g2, ?_, .ref h.length, ?_, ?_⟩, sd, ?_, h5.mono fun _ _ hv => hv.frame hag⟩
      · rw [Dict.get?_set_ne _ _ (by decide)]; exact h2
      · simp
      · exact Rep.dict hPn g3 ((ho2.update h9).mono fun _ _ hv => hv.frame hag)
      · rw [g1.same a (Ne.symm ne) (getElem?_lt h4), h4]
    · have hw : s.setGeneralStateV w = .error .typeError := by
        cases w <;> first | rfl | exact absurd rfl (h8 _)
      rw [hw]
      simp only [setGeneralState, hd1, ok_bind, h6, ho1, h9, error_bind]

/-- Heaps that differ only at `x`, `y` and by allocation. -/
structure Grows2 (x y : Nat) (h h' : Heap) : Prop where
  len : h.length ≤ h'.length
  same : ∀ l, l ≠ x → l ≠ y → l < h.length → h'[l]? = h[l]?

theorem Grows2.refl (x y : Nat) (h : Heap) : Grows2 x y h h := ⟨le_rfl, fun _ _ _ _ => rfl⟩

theorem Grows2.agree {x y : Nat} (hg : Grows2 x y h h') (hx : P x) (hy : P y) :
    ∀ l o, ¬ P l → h[l]? = some o → h'[l]? = some o ∧ ¬ P l := by
  intro l o h1 h2
  refine ⟨?_, h1⟩
  rw [hg.same l (fun e => h1 (e ▸ hx)) (fun e => h1 (e ▸ hy)) (getElem?_lt h2), h2]

theorem Grows2.trans {x y : Nat} {h'' : Heap} (h1 : Grows2 x y h h') (h2 : Grows2 x y h' h'') : Grows2 x y h h'' :=
  ⟨h1.len.trans h2.len, fun l a b c => by rw [h2.same l a b (by have := h1.len; omega), h1.same l a b c]⟩

theorem setSites_sim {root a : Nat} (items : Dict Key HVal) :
    ∀ {h : Heap} {s : SimState} {e : Props}, StRep h P root a s → (∀ l, P l → l < h.length) →
      KRel (Rep h P) items e →
      (setSites h root items).2 = (s.setSitesEff e).2 ∧ StRep (setSites h root items).1 P root a (s.setSitesEff e).1 ∧
        Grows2 root a h (setSites h root items).1 := by
  induction items with
  | nil =>
    intro h s e hs _ hr
    cases hr
    exact ⟨rfl, hs, .refl _ _ _⟩
  | cons p items ih =>
    intro h s e hs hP hr
    cases hr with
    | @cons _ q _ e hp hr' =>
      obtain ⟨k, v⟩ := p
      obtain ⟨k', w⟩ := q
      obtain ⟨hk, hv⟩ := hp
      simp only at hk hv; subst hk
      have := setSiteState_sim hs hP k hv
      cases hw : s.setSiteStateV k w with
      | error er =>
        rw [hw] at this
        simp only at this
        simp only [setSites, this, SimState.setSitesEff, hw]
        exact ⟨trivial, hs, .refl _ _ _⟩
      | ok s' =>
        rw [hw] at this
        obtain ⟨h', h1, h2, h3⟩ := this
        have hg : Grows2 root a h h' := ⟨h3.len, fun l _ hl => h3.same l hl⟩
        obtain ⟨i1, i2, i3⟩ := ih h2 (fun l hl => (hP l hl).trans_le h3.len)
          (KRel.mono (fun _ _ hv => hv.frame (h3.agree hs.pa)) hr')
        simp only [setSites, h1, SimState.setSitesEff, hw]
        exact ⟨i1, i2, hg.trans i3⟩

theorem batchUpdate_sim {root a : Nat} {s : SimState} (hs : StRep h P root a s) (hP : ∀ l, P l → l < h.length)
    {u : HVal} {w : Val} (hu : Rep h P u w) :
    (batchUpdate h root u).2 = (batchV s w).2 ∧ StRep (batchUpdate h root u).1 P root a (batchV s w).1 ∧
      Grows2 root a h (batchUpdate h root u).1 := by
  rcases hu.cases with ⟨rfl, rfl⟩ | ⟨q, rfl, rfl⟩ | ⟨s', rfl, rfl⟩ | ⟨l, rfl, hPl, h1⟩
  · exact ⟨rfl, hs, .refl _ _ _⟩
  · exact ⟨rfl, hs, .refl _ _ _⟩
  · exact ⟨rfl, hs, .refl _ _ _⟩
  · rcases h1 with ⟨vs, ws, h1, rfl, _⟩ | ⟨vs, ws, h1, rfl, _⟩ | ⟨d, e, h1, rfl, h3⟩
    · simp only [batchUpdate, h1, batchV]; exact ⟨trivial, hs, .refl _ _ _⟩
    · simp only [batchUpdate, h1, batchV]; exact ⟨trivial, hs, .refl _ _ _⟩
    · simp only [batchUpdate, h1, batchV]
      rcases h3.get? GENERAL with ⟨h4, h5⟩ | ⟨gv, gw, h4, h5, hgr⟩
      · simp only [h4, SimState.batchUpdateEff, h5]
        exact setSites_sim d hs hP h3
      · simp only [h4, SimState.batchUpdateEff, h5]
        -- the items
        have fin : ∀ (items : Dict Key HVal) (e' : Props), KRel (Rep h P) items e' →
            (match setSites h root items with
              | (h', some e) => (h', some e)
              | (h', none) => match setGeneralState h' root gv with
                | .ok h'' => (h'', none)
                | .error e => (h', some e)).2 =
            (match s.setSitesEff e' with
              | (s', some e) => (s', some e)
              | (s', none) => match s'.setGeneralStateV gw with
                | .ok s'' => (s'', none)
                | .error e => (s', some e)).2 ∧
            StRep (match setSites h root items with
              | (h', some e) => (h', some e)
              | (h', none) => match setGeneralState h' root gv with
                | .ok h'' => (h'', none)
                | .error e => (h', some e)).1 P root a
            (match s.setSitesEff e' with
              | (s', some e) => (s', some e)
              | (s', none) => match s'.setGeneralStateV gw with
                | .ok s'' => (s'', none)
                | .error e => (s', some e)).1 ∧
            Grows2 root a h (match setSites h root items with
              | (h', some e) => (h', some e)
              | (h', none) => match setGeneralState h' root gv with
                | .ok h'' => (h'', none)
                | .error e => (h', some e)).1 := by
          intro items e' hr
          obtain ⟨i1, i2, i3⟩ := setSites_sim items hs hP hr
          generalize setSites h root items = x at i1 i2 i3
          generalize s.setSitesEff e' = y at i1 i2
          obtain ⟨h', oe⟩ := x
          obtain ⟨s', oe'⟩ := y
          simp only at i1 i2 i3; subst i1
          cases oe with
          | some e => exact ⟨rfl, i2, i3⟩
          | none =>
            have hP' : ∀ l, P l → l < h'.length := fun l hl => (hP l hl).trans_le i3.len
            have := setGeneralState_sim i2 hP' (hgr.frame (i3.agree hs.pr hs.pa))
            cases hw : s'.setGeneralStateV gw with
            | error er => rw [hw] at this; simp only at this; simp only [this, hw]; exact ⟨trivial, i2, i3⟩
            | ok s'' =>
              rw [hw] at this
              obtain ⟨h'', j1, j2, j3⟩ := this
              simp only [j1, hw]
              exact ⟨trivial, j2, i3.trans ⟨j3.len, fun l hl _ => j3.same l hl⟩⟩
        rcases h3.get? SITES with ⟨h6, h7⟩ | ⟨sv, sw, h6, h7, hsr⟩
        · simp only [h6, h7]
          exact fin [] [] .nil
        · simp only [h6, h7]
          rcases rep_dictAt hsr with ⟨e', d', rfl, h8, h9⟩ | ⟨h8, h9⟩
          · simp only [h8, Except.toOption]
            exact fin d' e' h9
          · simp only [h9, Except.toOption]
            cases sw with
            | dict e' => exact absurd rfl (h8 e')
            | _ => exact ⟨trivial, hs, .refl _ _ _⟩

end Heap
end Pyl
