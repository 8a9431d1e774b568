import Verif.Model.Py
import Mathlib.Data.List.Nodup
import Mathlib.Data.List.Perm.Basic
import Mathlib.Tactic.Common

set_option linter.unusedSectionVars false

set_option autoImplicit false

namespace Pyl
namespace Dict
variable {κ ν : Type _} [DecidableEq κ]

@[simp] theorem get?_nil (k : κ) : get? ([] : Dict κ ν) k = none := rfl

theorem get?_cons (k' : κ) (v : ν) (d : Dict κ ν) (k : κ) :
    get? ((k', v) :: d) k = if k' = k then some v else get? d k := rfl

@[simp] theorem keys_nil : keys ([] : Dict κ ν) = [] := rfl
@[simp] theorem keys_cons (p : κ × ν) (d : Dict κ ν) : keys (p :: d) = p.1 :: keys d := rfl
@[simp] theorem keys_append (d e : Dict κ ν) : keys (d ++ e) = keys d ++ keys e := by simp [keys]

theorem get?_eq_none_iff {d : Dict κ ν} {k : κ} : get? d k = none ↔ k ∉ keys d := by
  induction d with
  | nil => simp
  | cons p d ih =>
    obtain ⟨k', v⟩ := p
    rw [get?_cons]
    by_cases h : k' = k
    · simp [h]
    · have h' : ¬ k = k' := fun e => h e.symm
      simp [h, h', ih]

theorem get?_isSome_iff {d : Dict κ ν} {k : κ} : (get? d k).isSome ↔ k ∈ keys d := by
  rw [← not_iff_not, ← get?_eq_none_iff]; simp

theorem mem_keys_of_get? {d : Dict κ ν} {k : κ} {v : ν} (h : get? d k = some v) : k ∈ keys d := by
  rw [← get?_isSome_iff, h]; rfl

theorem mem_of_get? {d : Dict κ ν} {k : κ} {v : ν} (h : get? d k = some v) : (k, v) ∈ d := by
  induction d with
  | nil => simp at h
  | cons p d ih =>
    obtain ⟨k', v'⟩ := p
    rw [get?_cons] at h
    by_cases hk : k' = k
    · simp [hk] at h; simp [hk, h]
    · simp [hk] at h; simp [ih h]

theorem get?_of_mem {d : Dict κ ν} (hd : WF d) {k : κ} {v : ν} (h : (k, v) ∈ d) :
    get? d k = some v := by
  induction d with
  | nil => simp at h
  | cons p d ih =>
    obtain ⟨k', v'⟩ := p
    have hd' : k' ∉ keys d ∧ WF d := by simpa [WF] using hd
    rw [get?_cons]
    rcases List.mem_cons.1 h with h | h
    · injection h with h1 h2; simp [h1, h2]
    · have hk : k ∈ keys d := List.mem_map.2 ⟨_, h, rfl⟩
      have : k' ≠ k := fun e => hd'.1 (e ▸ hk)
      simp [this, ih hd'.2 h]

theorem mem_iff_get? {d : Dict κ ν} (hd : WF d) {k : κ} {v : ν} : (k, v) ∈ d ↔ get? d k = some v :=
  ⟨get?_of_mem hd, mem_of_get?⟩

theorem has_iff {d : Dict κ ν} {k : κ} : has d k = true ↔ k ∈ keys d := get?_isSome_iff

theorem has_false_iff {d : Dict κ ν} {k : κ} : has d k = false ↔ k ∉ keys d := by
  rw [← has_iff]; simp

theorem get?_append (d e : Dict κ ν) (k : κ) : get? (d ++ e) k = (get? d k).or (get? e k) := by
  induction d with
  | nil => simp
  | cons p d ih =>
    obtain ⟨k', v⟩ := p
    rw [List.cons_append, get?_cons, get?_cons]
    by_cases h : k' = k <;> simp [h, ih]

theorem get?_set (d : Dict κ ν) (k : κ) (v : ν) (k' : κ) :
    get? (set d k v) k' = if k = k' then some v else get? d k' := by
  induction d with
  | nil => simp [set, get?_cons]
  | cons p d ih =>
    obtain ⟨k₁, v₁⟩ := p
    simp only [set]
    split_ifs with h1 h2 <;> simp_all [get?_cons]

@[simp] theorem get?_set_self (d : Dict κ ν) (k : κ) (v : ν) : get? (set d k v) k = some v := by
  simp [get?_set]

theorem get?_set_ne (d : Dict κ ν) {k k' : κ} (v : ν) (h : k ≠ k') :
    get? (set d k v) k' = get? d k' := by simp [get?_set, h]

theorem keys_set (d : Dict κ ν) (k : κ) (v : ν) :
    keys (set d k v) = if k ∈ keys d then keys d else keys d ++ [k] := by
  induction d with
  | nil => simp [set]
  | cons p d ih =>
    obtain ⟨k₁, v₁⟩ := p
    simp only [set]
    by_cases h : k₁ = k
    · simp [h]
    · have h' : ¬ k = k₁ := fun e => h e.symm
      simp only [h, if_false, keys_cons, ih, List.mem_cons, h', false_or]
      split_ifs <;> simp

theorem keys_set_of_mem {d : Dict κ ν} {k : κ} (v : ν) (h : k ∈ keys d) : keys (set d k v) = keys d := by
  simp [keys_set, h]

theorem mem_keys_set {d : Dict κ ν} {k k' : κ} {v : ν} :
    k' ∈ keys (set d k v) ↔ k' = k ∨ k' ∈ keys d := by
  rw [keys_set]; split_ifs with h
  · constructor
    · exact Or.inr
    · rintro (rfl | h') <;> assumption
  · simp [or_comm]

theorem WF.set {d : Dict κ ν} (hd : WF d) (k : κ) (v : ν) : WF (set d k v) := by
  unfold WF at *
  rw [keys_set]; split_ifs with h
  · exact hd
  · exact List.nodup_append.2 ⟨hd, by simp, by rintro a ha b hb rfl; simp at hb; exact h (hb ▸ ha)⟩

theorem WF.nil : WF ([] : Dict κ ν) := by simp [WF]

theorem WF.tail {p : κ × ν} {d : Dict κ ν} (h : WF (p :: d)) : WF d := by
  simp [WF] at h; exact h.2

theorem WF.head {p : κ × ν} {d : Dict κ ν} (h : WF (p :: d)) : p.1 ∉ keys d := by
  simp [WF] at h; exact h.1

@[simp] theorem update_nil (d : Dict κ ν) : update d [] = d := rfl
@[simp] theorem update_cons (d : Dict κ ν) (p : κ × ν) (u : Dict κ ν) :
    update d (p :: u) = update (set d p.1 p.2) u := rfl
theorem update_append (d u v : Dict κ ν) : update d (u ++ v) = update (update d u) v := by
  simp [update, List.foldl_append]

theorem WF.update {d : Dict κ ν} (hd : WF d) (u : Dict κ ν) : WF (update d u) := by
  induction u generalizing d with
  | nil => exact hd
  | cons p u ih => exact ih (hd.set p.1 p.2)

theorem WF.ofPairs (l : List (κ × ν)) : WF (ofPairs l) := WF.update WF.nil l

/-- Lookup after `update`: the last entry of `u` for the key wins. -/
theorem get?_update' (d u : Dict κ ν) (k : κ) :
    get? (update d u) k = (get? u.reverse k).or (get? d k) := by
  induction u generalizing d with
  | nil => simp
  | cons p u ih =>
    obtain ⟨k₁, v₁⟩ := p
    rw [update_cons, ih, List.reverse_cons, get?_append, get?_set, get?_cons]
    cases get? u.reverse k <;> simp
    by_cases h : k₁ = k <;> simp [h]

theorem keys_reverse (u : Dict κ ν) : keys u.reverse = (keys u).reverse := by simp [keys]

theorem WF.reverse {u : Dict κ ν} (h : WF u) : WF u.reverse := by
  unfold WF at *; rw [keys_reverse]; exact List.nodup_reverse.2 h

theorem get?_perm {d e : Dict κ ν} (hd : WF d) (h : d.Perm e) (k : κ) : get? d k = get? e k := by
  have he : WF e := (h.map Prod.fst).nodup_iff.1 hd
  cases hk : get? e k with
  | none =>
    rw [get?_eq_none_iff] at hk ⊢
    exact fun h' => hk ((h.map Prod.fst).mem_iff.1 h')
  | some v => exact get?_of_mem hd (h.mem_iff.2 (mem_of_get? hk))

theorem get?_reverse {u : Dict κ ν} (h : WF u) (k : κ) : get? u.reverse k = get? u k :=
  (get?_perm h (List.reverse_perm u).symm k).symm

/-- Lookup after `update` with a proper dict. -/
theorem get?_update {d u : Dict κ ν} (hu : WF u) (k : κ) :
    get? (update d u) k = (get? u k).or (get? d k) := by
  rw [get?_update', get?_reverse hu]

theorem mem_keys_update {d u : Dict κ ν} {k : κ} :
    k ∈ keys (update d u) ↔ k ∈ keys d ∨ k ∈ keys u := by
  induction u generalizing d with
  | nil => simp
  | cons p u ih =>
    rw [update_cons, ih, mem_keys_set, keys_cons, List.mem_cons]; tauto

theorem mem_set {d : Dict κ ν} {k : κ} {v : ν} {p : κ × ν} (h : p ∈ set d k v) :
    p ∈ d ∨ p.2 = v ∧ p.1 = k := by
  induction d with
  | nil => simp [set] at h; simp [h]
  | cons q d ih =>
    obtain ⟨k₁, v₁⟩ := q
    simp only [set] at h
    split_ifs at h with hk
    · rcases List.mem_cons.1 h with h | h
      · right; simp [h, hk]
      · left; simp [h]
    · rcases List.mem_cons.1 h with h | h
      · left; simp [h]
      · rcases ih h with h | h
        · left; simp [h]
        · right; exact h

theorem mem_update {d u : Dict κ ν} {p : κ × ν} (h : p ∈ update d u) : p ∈ d ∨ p ∈ u := by
  induction u generalizing d with
  | nil => exact Or.inl h
  | cons q u ih =>
    rcases ih h with h | h
    · rcases mem_set h with h | ⟨h1, h2⟩
      · exact Or.inl h
      · right; simp [Prod.ext h2 h1]
    · right; simp [h]

theorem update_self_keys {d u : Dict κ ν} (h : ∀ k ∈ keys u, k ∈ keys d) :
    keys (update d u) = keys d := by
  induction u generalizing d with
  | nil => rfl
  | cons p u ih =>
    have hp : p.1 ∈ keys d := h _ (by simp)
    rw [update_cons, ih, keys_set_of_mem _ hp]
    intro k hk
    rw [keys_set_of_mem _ hp]; exact h k (by simp [hk])

/-- Two dicts with the same key list and the same lookups are identical. -/
theorem ext_keys {d e : Dict κ ν} (hd : WF d) (hk : keys d = keys e) (h : ∀ k, get? d k = get? e k) :
    d = e := by
  induction d generalizing e with
  | nil => cases e with
    | nil => rfl
    | cons => simp at hk
  | cons p d ih =>
    cases e with
    | nil => simp at hk
    | cons q e =>
      obtain ⟨k₁, v₁⟩ := p
      obtain ⟨k₂, v₂⟩ := q
      simp only [keys_cons, List.cons.injEq] at hk
      obtain ⟨rfl, hk⟩ := hk
      have h1 := h k₁
      simp [get?_cons] at h1
      subst h1
      congr 1
      refine ih hd.tail hk fun k => ?_
      have := h k
      rw [get?_cons, get?_cons] at this
      by_cases hkk : k₁ = k
      · subst hkk
        rw [get?_eq_none_iff.2 hd.head, get?_eq_none_iff.2 (hk ▸ hd.head)]
      · simpa [hkk] using this

theorem EqvBy.refl {R : ν → ν → Prop} (hR : ∀ a, R a a) (d : Dict κ ν) : EqvBy R d d := by
  intro k; refine ⟨Iff.rfl, ?_⟩
  intro a b ha hb; rw [ha] at hb; injection hb with hb; exact hb ▸ hR a

theorem EqvBy.symm {R : ν → ν → Prop} (hR : ∀ a b, R a b → R b a) {d e : Dict κ ν}
    (h : EqvBy R d e) : EqvBy R e d := fun k =>
  ⟨(h k).1.symm, fun a b ha hb => hR _ _ ((h k).2 b a hb ha)⟩

theorem EqvBy.trans {R : ν → ν → Prop} (hR : ∀ a b c, R a b → R b c → R a c) {d e f : Dict κ ν}
    (h : EqvBy R d e) (h' : EqvBy R e f) : EqvBy R d f := by
  intro k
  refine ⟨(h k).1.trans (h' k).1, fun a c ha hc => ?_⟩
  cases hb : get? e k with
  | none => rw [(h k).1.2 hb] at ha; cases ha
  | some b => exact hR _ _ _ ((h k).2 a b ha hb) ((h' k).2 b c hb hc)

theorem EqvBy.of_get? {R : ν → ν → Prop} (hR : ∀ a, R a a) {d e : Dict κ ν}
    (h : ∀ k, get? d k = get? e k) : EqvBy R d e := by
  intro k; rw [h k]; exact EqvBy.refl hR e k

theorem EqvBy.of_perm {R : ν → ν → Prop} (hR : ∀ a, R a a) {d e : Dict κ ν} (hd : WF d)
    (h : d.Perm e) : EqvBy R d e := EqvBy.of_get? hR (get?_perm hd h)

theorem eqvBy_nil {R : ν → ν → Prop} : EqvBy R ([] : Dict κ ν) [] := fun k => by simp

theorem EqvBy.mem_keys {R : ν → ν → Prop} {d e : Dict κ ν} (h : EqvBy R d e) (k : κ) :
    k ∈ keys d ↔ k ∈ keys e := by
  have := (h k).1
  rw [get?_eq_none_iff, get?_eq_none_iff] at this
  tauto

theorem EqvBy.get? {R : ν → ν → Prop} {d e : Dict κ ν} (h : EqvBy R d e) (k : κ) :
    (Dict.get? d k = none ∧ Dict.get? e k = none) ∨
      ∃ a b, Dict.get? d k = some a ∧ Dict.get? e k = some b ∧ R a b := by
  cases ha : Dict.get? d k with
  | none => exact Or.inl ⟨rfl, (h k).1.1 ha⟩
  | some a =>
    cases hb : Dict.get? e k with
    | none => rw [(h k).1.2 hb] at ha; cases ha
    | some b => exact Or.inr ⟨a, b, rfl, rfl, (h k).2 a b ha hb⟩

theorem EqvBy.update {R : ν → ν → Prop} {d e u v : Dict κ ν} (hu : WF u) (hv : WF v)
    (h : EqvBy R d e) (h' : EqvBy R u v) : EqvBy R (update d u) (update e v) := by
  intro k
  rw [get?_update hu, get?_update hv]
  rcases h'.get? k with ⟨h1, h2⟩ | ⟨a, b, h1, h2, hr⟩
  · rw [h1, h2]; simpa using h k
  · rw [h1, h2]
    refine ⟨by simp, fun a' b' ha hb => ?_⟩
    simp at ha hb; subst ha hb; exact hr

end Dict

namespace Val

theorem PyEq.symm {a b : Val} (h : PyEq a b) : PyEq b a := by
  induction h with
  | refl a => exact .refl a
  | list hl _ ih => exact .list hl.symm fun i a b ha hb => ih i b a hb ha
  | tup hl _ ih => exact .tup hl.symm fun i a b ha hb => ih i b a hb ha
  | dict hk _ ih => exact .dict (fun k => (hk k).symm) fun k a b ha hb => ih k b a hb ha

theorem PyEq.trans {a b c : Val} (h : PyEq a b) (h' : PyEq b c) : PyEq a c := by
  induction h generalizing c with
  | refl a => exact h'
  | @list l m hl hm ih =>
    cases h' with
    | refl => exact .list hl hm
    | @list _ n hl' hn =>
      refine .list (hl.trans hl') fun i a c ha hc => ?_
      have hi : i < m.length := by
        rw [← hl]; exact (List.getElem?_eq_some_iff.1 ha).1
      exact ih i a _ ha (List.getElem?_eq_getElem hi) (hn i _ c (List.getElem?_eq_getElem hi) hc)
  | @tup l m hl hm ih =>
    cases h' with
    | refl => exact .tup hl hm
    | @tup _ n hl' hn =>
      refine .tup (hl.trans hl') fun i a c ha hc => ?_
      have hi : i < m.length := by
        rw [← hl]; exact (List.getElem?_eq_some_iff.1 ha).1
      exact ih i a _ ha (List.getElem?_eq_getElem hi) (hn i _ c (List.getElem?_eq_getElem hi) hc)
  | @dict d e hk he ih =>
    cases h' with
    | refl => exact .dict hk he
    | @dict _ f hk' hf =>
      refine .dict (fun k => (hk k).trans (hk' k)) fun k a c ha hc => ?_
      cases hb : Dict.get? e k with
      | none => rw [(hk k).2 hb] at ha; cases ha
      | some b => exact ih k a b ha hb (hf k b c hb hc)

theorem pyEq_dict_iff {d e : Props} (h : PyEq (.dict d) (.dict e)) : Dict.EqvBy PyEq d e := by
  cases h with
  | refl => exact Dict.EqvBy.refl PyEq.refl d
  | dict hk he => exact fun k => ⟨hk k, he k⟩

theorem pyEq_dict {d e : Props} (h : Dict.EqvBy PyEq d e) : PyEq (.dict d) (.dict e) :=
  .dict (fun k => (h k).1) fun k => (h k).2

theorem WF.keys {d : Props} (h : (Val.dict d).WF) : Dict.WF d := by cases h; assumption
theorem WF.entry {d : Props} (h : (Val.dict d).WF) {kv : Key × Val} (hk : kv ∈ d) : kv.2.WF := by
  cases h with | dict _ h => exact h _ hk
theorem WF.get? {d : Props} (h : (Val.dict d).WF) {k : Key} {v : Val} (hk : Dict.get? d k = some v) :
    v.WF := h.entry (Dict.mem_of_get? hk)

theorem WF.update {d u : Props} (hd : (Val.dict d).WF) (hu : (Val.dict u).WF) :
    (Val.dict (Dict.update d u)).WF := by
  refine .dict (hd.keys.update u) fun kv hkv => ?_
  rcases Dict.mem_update hkv with h | h
  · exact hd.entry h
  · exact hu.entry h

end Val
end Pyl
