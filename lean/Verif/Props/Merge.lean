import Verif.Spec.Runner
import Verif.Props.State
/-
C11, C12: merge_updates.
-/
set_option autoImplicit false

namespace Pyl
open SimState Spec

theorem allIntKeys_iff {d : Props} : allIntKeys d = true ↔ d ≠ [] ∧ ∀ k ∈ Dict.keys d, ∃ n, k = .int n := by
  unfold allIntKeys
  simp only [Bool.and_eq_true, Bool.not_eq_true', List.all_eq_true]
  constructor
  · rintro ⟨h1, h2⟩
    refine ⟨by rintro rfl; simp at h1, fun k hk => ?_⟩
    obtain ⟨kv, hkv, rfl⟩ := List.mem_map.1 hk
    have := h2 kv hkv
    cases h : kv.1 with
    | int n => exact ⟨n, rfl⟩
    | str s => simp [h] at this
  · rintro ⟨h1, h2⟩
    refine ⟨by cases d <;> simp_all, fun kv hkv => ?_⟩
    obtain ⟨n, hn⟩ := h2 kv.1 (List.mem_map.2 ⟨kv, hkv, rfl⟩)
    simp [hn]

theorem isPatch_iff {d : Props} : IsPatch d ↔
    (Dict.has d SITES || Dict.has d GENERAL) = false ∧ allIntKeys d = false := by
  unfold IsPatch
  rw [Bool.or_eq_false_iff, Dict.has_false_iff, Dict.has_false_iff, ← Bool.not_eq_true, allIntKeys_iff, and_assoc]
  refine and_congr_right fun _ => and_congr_right fun _ => ?_
  constructor
  · rintro (rfl | ⟨s, hs⟩) ⟨h1, h2⟩
    · exact h1 rfl
    · obtain ⟨n, hn⟩ := h2 _ hs; cases hn
  · intro h
    by_contra hc
    push Not at hc
    refine h ⟨hc.1, fun k hk => ?_⟩
    cases k with
    | int n => exact ⟨n, rfl⟩
    | str s => exact absurd hk (hc.2 s)

/-- C11: no update leaves the accumulated update as it is. -/
theorem C11_none (curr : Option Upd) (sid : Option Key) : mergeUpdates none curr sid = .ok curr := rfl

/-- C11: a dict with a SITES or a GENERAL key contributes its two parts (an absent part counts as empty);
later entries replace earlier ones whole. -/
theorem C11_total (d ss gs : Props) (curr : Option Upd) (sid : Option Key) (hd : (Val.dict d).WF)
    (h : SITES ∈ Dict.keys d ∨ GENERAL ∈ Dict.keys d)
    (hs : Dict.get? d SITES = some (.dict ss) ∨ SITES ∉ Dict.keys d ∧ ss = [])
    (hg : Dict.get? d GENERAL = some (.dict gs) ∨ GENERAL ∉ Dict.keys d ∧ gs = []) :
    ∃ u, mergeUpdates (some d) curr sid = .ok (some u) ∧
      Merged (curr.getD ⟨[], []⟩).sites ss u.sites ∧ Merged (curr.getD ⟨[], []⟩).general gs u.general := by
  have h1 : dictPart d SITES = .ok ss := by
    rcases hs with h | ⟨h, rfl⟩
    · simp [dictPart, h]
    · simp [dictPart, Dict.get?_eq_none_iff.2 h]
  have h2 : dictPart d GENERAL = .ok gs := by
    rcases hg with h | ⟨h, rfl⟩
    · simp [dictPart, h]
    · simp [dictPart, Dict.get?_eq_none_iff.2 h]
  have h3 : (Dict.has d SITES || Dict.has d GENERAL) = true := by
    rw [Bool.or_eq_true, Dict.has_iff, Dict.has_iff]; exact h
  have w1 : Dict.WF ss := by
    rcases hs with h | ⟨_, rfl⟩
    · exact (hd.get? h).keys
    · exact Dict.WF.nil
  have w2 : Dict.WF gs := by
    rcases hg with h | ⟨_, rfl⟩
    · exact (hd.get? h).keys
    · exact Dict.WF.nil
  refine ⟨⟨Dict.update (curr.getD ⟨[], []⟩).sites ss, Dict.update (curr.getD ⟨[], []⟩).general gs⟩, ?_,
    merged_update w1, merged_update w2⟩
  simp only [mergeUpdates, h3, if_true, h1, h2, bind, Except.bind, pure, Except.pure]; rfl

/-- C11: a nonempty dict whose keys are all ints is a map from site ids to updates. -/
theorem C11_per_site (d : Props) (curr : Option Upd) (sid : Option Key) (hd : Dict.WF d) (h0 : d ≠ [])
    (h : ∀ k ∈ Dict.keys d, ∃ n, k = .int n) :
    ∃ u, mergeUpdates (some d) curr sid = .ok (some u) ∧
      Merged (curr.getD ⟨[], []⟩).sites d u.sites ∧ u.general = (curr.getD ⟨[], []⟩).general := by
  have h1 : allIntKeys d = true := allIntKeys_iff.2 ⟨h0, h⟩
  have h3 : (Dict.has d SITES || Dict.has d GENERAL) = false := by
    rw [Bool.or_eq_false_iff, Dict.has_false_iff, Dict.has_false_iff]
    constructor <;> intro hk <;> obtain ⟨n, hn⟩ := h _ hk <;> simp [SITES, GENERAL] at hn
  refine ⟨⟨Dict.update (curr.getD ⟨[], []⟩).sites d, (curr.getD ⟨[], []⟩).general⟩, ?_, merged_update hd, rfl⟩
  simp [mergeUpdates, h3, h1, Upd.empty]

/-- C11: any other dict, the empty one included, is an update of the visited site. -/
theorem C11_visited_site (d : Props) (curr : Option Upd) (i : Key) (h : IsPatch d) :
    ∃ u, mergeUpdates (some d) curr (some i) = .ok (some u) ∧
      Merged (curr.getD ⟨[], []⟩).sites [(i, .dict d)] u.sites ∧
      u.general = (curr.getD ⟨[], []⟩).general := by
  obtain ⟨h3, h1⟩ := isPatch_iff.1 h
  refine ⟨⟨Dict.update (curr.getD ⟨[], []⟩).sites [(i, .dict d)], (curr.getD ⟨[], []⟩).general⟩, ?_,
    merged_update (by simp [Dict.WF]), rfl⟩
  simp [mergeUpdates, h3, h1, Upd.empty]

/-- C11: the four cases above are all there are. -/
theorem C11_exhaustive (d : Props) : (SITES ∈ Dict.keys d ∨ GENERAL ∈ Dict.keys d) ∨
    (d ≠ [] ∧ ∀ k ∈ Dict.keys d, ∃ n, k = .int n) ∨ IsPatch d := by
  by_cases h : (Dict.has d SITES || Dict.has d GENERAL) = true
  · left; rw [Bool.or_eq_true, Dict.has_iff, Dict.has_iff] at h; exact h
  · by_cases h2 : allIntKeys d = true
    · exact Or.inr (Or.inl (allIntKeys_iff.1 h2))
    · exact Or.inr (Or.inr (isPatch_iff.2 ⟨by simpa using h, by simpa using h2⟩))

/-- C12: `merge_updates` raises ValueError exactly when there is no target site for a single-site update. -/
theorem C12_value_error (new : Option Props) (curr : Option Upd) (sid : Option Key) :
    mergeUpdates new curr sid = .error .valueError ↔
      sid = none ∧ ∃ d, new = some d ∧ SITES ∉ Dict.keys d ∧ GENERAL ∉ Dict.keys d ∧
        ¬ (d ≠ [] ∧ ∀ k ∈ Dict.keys d, ∃ n, k = .int n) := by
  cases new with
  | none => simp [mergeUpdates]
  | some d =>
    have hp : ∀ k, dictPart d k ≠ .error .valueError := by
      intro k; unfold dictPart; split <;> simp
    by_cases h : (Dict.has d SITES || Dict.has d GENERAL) = true
    · have h' := h
      rw [Bool.or_eq_true, Dict.has_iff, Dict.has_iff] at h'
      constructor
      · intro he
        simp only [mergeUpdates, h, if_true, bind, Except.bind] at he
        cases h1 : dictPart d SITES with
        | error e => rw [h1] at he; simp at he; exact absurd (he ▸ h1) (hp _)
        | ok ss =>
          cases h2 : dictPart d GENERAL with
          | error e => rw [h1, h2] at he; simp at he; exact absurd (he ▸ h2) (hp _)
          | ok gs => rw [h1, h2] at he; simp [pure, Except.pure] at he
      · rintro ⟨_, d', hd', h1, h2, _⟩
        simp at hd'; subst hd'; tauto
    · have h' : (Dict.has d SITES || Dict.has d GENERAL) = false := by simpa using h
      have h'' := h'
      rw [Bool.or_eq_false_iff, Dict.has_false_iff, Dict.has_false_iff] at h''
      by_cases h2 : allIntKeys d = true
      · constructor
        · intro he; simp [mergeUpdates, h', h2] at he
        · rintro ⟨_, d', hd', _, _, h3⟩
          simp at hd'; subst hd'
          exact absurd (allIntKeys_iff.1 h2) h3
      · cases sid with
        | some i => simp [mergeUpdates, h', h2]
        | none =>
          simp only [mergeUpdates, h', h2, true_and]
          refine ⟨fun _ => ⟨d, rfl, h''.1, h''.2, fun hc => h2 (allIntKeys_iff.2 hc)⟩, fun _ => by simp⟩

example : mergeUpdates (some [(.str "a", .num 1)]) none none = .error .valueError := by decide
example : mergeUpdates (some [(.int 3, .dict [(.str "a", .num 1)])]) none none =
    .ok (some ⟨[(.int 3, .dict [(.str "a", .num 1)])], []⟩) := by decide
example : IsPatch [(.str "a", .num 1)] := by
  refine ⟨by simp [SITES], by simp [GENERAL], Or.inr ⟨"a", by simp⟩⟩

end Pyl
