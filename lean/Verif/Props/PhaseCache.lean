import Verif.Spec.PhaseCache
import Verif.Props.ResultAnalyzer
import Mathlib.Data.List.Dedup
/-
C161: `all_phases` answers from a cache that all analyzers share.
-/
set_option autoImplicit false

namespace Pyl
open Spec

namespace PhaseCache

/-- Keep the first entry of everyone. -/
def recent : List (ℕ × List Val) → List (ℕ × List Val)
  | [] => []
  | x :: xs => x :: (recent xs).filter fun e => e.1 ≠ x.1

theorem mem_recent_names (L : List (ℕ × List Val)) (b : ℕ) : b ∈ (recent L).map Prod.fst ↔ b ∈ L.map Prod.fst := by
  induction L with
  | nil => simp [recent]
  | cons x xs ih =>
    by_cases hb : b = x.1
    · simp [recent, hb]
    · simp only [recent, List.map_cons, List.mem_cons, hb, false_or, ← ih]
      simp only [List.mem_map, List.mem_filter, ne_eq, decide_not, Bool.not_eq_eq_eq_not, Bool.not_true, decide_eq_false_iff_not]
      constructor
      · rintro ⟨e, ⟨h1, -⟩, h2⟩
        exact ⟨e, h1, h2⟩
      · rintro ⟨e, h1, rfl⟩
        exact ⟨e, ⟨h1, hb⟩, rfl⟩

theorem recent_nodup (L : List (ℕ × List Val)) : ((recent L).map Prod.fst).Nodup := by
  induction L with
  | nil => simp [recent]
  | cons x xs ih =>
    rw [recent, List.map_cons, List.nodup_cons]
    refine ⟨?_, (List.Sublist.map _ List.filter_sublist).nodup ih⟩
    simp

theorem recent_length (L : List (ℕ × List Val)) : (recent L).length = {b | b ∈ L.map Prod.fst}.ncard := by
  classical
  rw [← List.length_map (f := Prod.fst), ← List.toFinset_card_of_nodup (recent_nodup L), ← Set.ncard_coe_finset]
  congr 1
  ext b
  simp only [List.coe_toFinset, Set.mem_ofPred_eq]
  exact mem_recent_names L b

theorem recent_append (L₁ L₂ : List (ℕ × List Val)) (a : ℕ) (v : List Val) (h : a ∉ L₁.map Prod.fst) :
    ∃ T, recent (L₁ ++ (a, v) :: L₂) = recent L₁ ++ (a, v) :: T := by
  induction L₁ with
  | nil => exact ⟨_, rfl⟩
  | cons x xs ih =>
    simp only [List.map_cons, List.mem_cons, not_or] at h
    obtain ⟨T, hT⟩ := ih h.2
    refine ⟨T.filter fun e => e.1 ≠ x.1, ?_⟩
    rw [List.cons_append, recent, hT, List.filter_append, List.filter_cons_of_pos (by simpa using h.1), recent, List.cons_append]

theorem find_none {C : List (ℕ × List Val)} {a : ℕ} : C.find? (fun e => e.1 = a) = none ↔ a ∉ C.map Prod.fst := by
  rw [List.find?_eq_none]
  simp only [decide_eq_true_eq, List.mem_map, not_exists, not_and]

/-- Using `a` once more: the cache of the new list. -/
theorem take_hit (R : List (ℕ × List Val)) (a : ℕ) (x : ℕ × List Val) (n : ℕ) (hnd : (R.map Prod.fst).Nodup) (ha : a ∈ (R.take (n + 1)).map Prod.fst) :
    x :: (R.take (n + 1)).filter (fun e => e.1 ≠ a) = (x :: R.filter fun e => e.1 ≠ a).take (n + 1) := by
  rw [List.take_succ_cons]
  congr 1
  induction R generalizing n with
  | nil => simp
  | cons y ys ih =>
    rw [List.map_cons, List.nodup_cons] at hnd
    by_cases hy : y.1 = a
    · rw [List.take_succ_cons, List.filter_cons_of_neg (by simpa using hy), List.filter_cons_of_neg (by simpa using hy)]
      have hno : ∀ e ∈ ys, e.1 ≠ a := fun e he h => hnd.1 (hy ▸ h ▸ List.mem_map_of_mem he)
      rw [List.filter_eq_self.2 fun e he => by simpa using hno e (List.mem_of_mem_take he),
        List.filter_eq_self.2 fun e he => by simpa using hno e he]
    · rw [List.take_succ_cons, List.filter_cons_of_pos (by simpa using hy), List.filter_cons_of_pos (by simpa using hy)]
      rw [List.take_succ_cons, List.map_cons, List.mem_cons] at ha
      have ha := ha.resolve_left fun h => hy h.symm
      cases n with
      | zero => simp at ha
      | succ n => rw [ih n hnd.2 ha, List.take_succ_cons]

theorem take_miss (R : List (ℕ × List Val)) (a : ℕ) (x : ℕ × List Val) (n : ℕ) (ha : a ∉ (R.take (n + 1)).map Prod.fst) :
    (x :: R.take (n + 1)).take (n + 1) = (x :: R.filter fun e => e.1 ≠ a).take (n + 1) := by
  rw [List.take_succ_cons, List.take_succ_cons, List.take_take]
  congr 1
  rw [Nat.min_eq_left (Nat.le_succ n)]
  induction R generalizing n with
  | nil => simp
  | cons y ys ih =>
    rw [List.take_succ_cons, List.map_cons, List.mem_cons, not_or] at ha
    rw [List.filter_cons_of_pos (by simpa using Ne.symm ha.1)]
    cases n with
    | zero => simp
    | succ n => rw [List.take_succ_cons, List.take_succ_cons, ih n ha.2]

/-- The answered calls before `t`, the latest first. -/
def log (calls : ℕ → PhaseCall) : ℕ → List (ℕ × List Val)
  | 0 => []
  | t + 1 =>
    match answer calls t with
    | .ok v => ((calls t).who, v) :: log calls t
    | .error _ => log calls t

theorem ask_hit {C : List (ℕ × List Val)} {c : PhaseCall} {e : ℕ × List Val} (h : C.find? (fun e => e.1 = c.who) = some e) :
    ask C c = (.ok e.2, e :: C.filter (fun e' => e'.1 ≠ c.who)) := by
  unfold ask; rw [h]

theorem ask_miss {C : List (ℕ × List Val)} {c : PhaseCall} (h : C.find? (fun e => e.1 = c.who) = none) :
    ask C c = (c.fresh, match c.fresh with | .error _ => C | .ok l => ((c.who, l) :: C).take CAPACITY) := by
  unfold ask; rw [h]; rcases c.fresh with e | l <;> rfl

theorem before_eq (calls : ℕ → PhaseCall) (t : ℕ) : before calls t = (recent (log calls t)).take CAPACITY := by
  induction t with
  | zero => simp [before, log, recent]
  | succ t ih =>
    have hb : before calls (t + 1) = (ask (before calls t) (calls t)).2 := rfl
    have ha : answer calls t = (ask (before calls t) (calls t)).1 := rfl
    rw [hb, log, ha]
    rcases hf : (before calls t).find? (fun e => e.1 = (calls t).who) with _ | e
    · rw [ask_miss hf]
      rw [find_none, ih] at hf
      rcases hc : (calls t).fresh with e | l
      · exact ih
      · show List.take CAPACITY (((calls t).who, l) :: before calls t) = List.take CAPACITY (recent (((calls t).who, l) :: log calls t))
        rw [ih, recent]
        exact take_miss _ _ _ 127 hf
    · rw [ask_hit hf]
      have he : e.1 = (calls t).who := by simpa using List.find?_some hf
      have hm : (calls t).who ∈ (before calls t).map Prod.fst := he ▸ List.mem_map_of_mem (List.mem_of_find?_eq_some hf)
      rw [ih] at hm
      show e :: (before calls t).filter (fun e' => e'.1 ≠ (calls t).who) = List.take CAPACITY (recent (((calls t).who, e.2) :: log calls t))
      rw [ih, recent, show ((calls t).who, e.2) = e by rw [← he], he]
      exact take_hit _ _ _ 127 (recent_nodup _) hm

theorem mem_log (calls : ℕ → PhaseCall) (t b : ℕ) : b ∈ (log calls t).map Prod.fst ↔ ∃ u w, u < t ∧ (calls u).who = b ∧ answer calls u = .ok w := by
  induction t with
  | zero => simp [log]
  | succ t ih =>
    rw [log]
    rcases ha : answer calls t with e | v
    · simp only [ih]
      constructor
      · rintro ⟨u, w, h1, h2, h3⟩
        exact ⟨u, w, by omega, h2, h3⟩
      · rintro ⟨u, w, h1, h2, h3⟩
        refine ⟨u, w, ?_, h2, h3⟩
        rcases Nat.lt_succ_iff_lt_or_eq.1 h1 with h | rfl
        · exact h
        · rw [ha] at h3; cases h3
    · simp only [List.map_cons, List.mem_cons, ih]
      constructor
      · rintro (rfl | ⟨u, w, h1, h2, h3⟩)
        · exact ⟨t, v, by omega, rfl, ha⟩
        · exact ⟨u, w, by omega, h2, h3⟩
      · rintro ⟨u, w, h1, h2, h3⟩
        rcases Nat.lt_succ_iff_lt_or_eq.1 h1 with h | rfl
        · exact .inr ⟨u, w, h, h2, h3⟩
        · exact .inl h2.symm

theorem log_split (calls : ℕ → PhaseCall) {t' : ℕ} {v : List Val} (hv : answer calls t' = .ok v) (t : ℕ) (h : t' < t) :
    ∃ L₁, log calls t = L₁ ++ ((calls t').who, v) :: log calls t' ∧ {b | b ∈ L₁.map Prod.fst} = answeredBetween calls (answer calls) t' t := by
  induction t, h using Nat.le_induction with
  | base =>
    refine ⟨[], ?_, ?_⟩
    · rw [log, hv]; rfl
    · ext b
      simp only [List.map_nil, List.not_mem_nil, answeredBetween, Set.mem_ofPred_eq, false_iff]
      rintro ⟨u, w, h1, h2, -⟩
      omega
  | succ t hle ih =>
    obtain ⟨L₁, h1, h2⟩ := ih
    rcases ha : answer calls t with e | w
    · refine ⟨L₁, by rw [log, ha]; exact h1, ?_⟩
      rw [h2]
      ext b
      simp only [answeredBetween, Set.mem_ofPred_eq]
      constructor
      · rintro ⟨u, w, h3, h4, h5⟩
        exact ⟨u, w, h3, by omega, h5⟩
      · rintro ⟨u, w, h3, h4, h5, h6⟩
        refine ⟨u, w, h3, ?_, h5, h6⟩
        rcases Nat.lt_succ_iff_lt_or_eq.1 h4 with h | rfl
        · exact h
        · rw [ha] at h6; cases h6
    · refine ⟨((calls t).who, w) :: L₁, by rw [log, ha, h1]; rfl, ?_⟩
      ext b
      have h2' := Set.ext_iff.1 h2 b
      simp only [Set.mem_ofPred_eq, answeredBetween] at h2'
      simp only [answeredBetween, Set.mem_ofPred_eq, List.map_cons, List.mem_cons, h2']
      constructor
      · rintro (rfl | ⟨u, w, h3, h4, h5⟩)
        · exact ⟨t, w, hle, by omega, rfl, ha⟩
        · exact ⟨u, w, h3, by omega, h5⟩
      · rintro ⟨u, w', h3, h4, h5, h6⟩
        rcases Nat.lt_succ_iff_lt_or_eq.1 h4 with h | rfl
        · exact .inr ⟨u, w', h3, h, h5, h6⟩
        · exact .inl h5.symm

theorem answer_fresh {calls : ℕ → PhaseCall} {t : ℕ} (h : (calls t).who ∉ (before calls t).map Prod.fst) : answer calls t = (calls t).fresh := by
  unfold answer
  rw [ask_miss (find_none.2 h)]

end PhaseCache
open PhaseCache

/-- C161: an analyzer that was never answered looks at its result. -/
theorem C161_first (calls : ℕ → PhaseCall) (t : ℕ) (h : ∀ u v, u < t → (calls u).who = (calls t).who → answer calls u ≠ .ok v) :
    answer calls t = (calls t).fresh := by
  refine answer_fresh fun hm => ?_
  rw [before_eq] at hm
  obtain ⟨e, he, hew⟩ := List.mem_map.1 hm
  have := (mem_recent_names _ _).1 (List.mem_map.2 ⟨e, List.mem_of_mem_take he, hew⟩)
  obtain ⟨u, w, h1, h2, h3⟩ := (mem_log _ _ _).1 this
  exact h u w h1 h2 h3

/-- C161: an analyzer that was answered before repeats its last answer, whatever has happened to its result since, if fewer than 128 other analyzers were
answered in between. -/
theorem C161_stale (calls : ℕ → PhaseCall) (t' t : ℕ) (v : List Val) (h : LastAnswer calls (answer calls) t' t v)
    (hfew : (answeredBetween calls (answer calls) t' t).ncard < 128) : answer calls t = .ok v := by
  obtain ⟨hlt, hwho, hv, hlast⟩ := h
  obtain ⟨L₁, hL, hset⟩ := log_split calls hv t hlt
  have hna : (calls t).who ∉ L₁.map Prod.fst := by
    intro hm
    have : (calls t).who ∈ answeredBetween calls (answer calls) t' t := hset ▸ hm
    obtain ⟨u, w, h1, h2, h3, h4⟩ := this
    exact hlast u w h1 h2 h3 h4
  obtain ⟨T, hT⟩ := recent_append L₁ (log calls t') (calls t).who v hna
  have hlen : (recent L₁).length < 128 := by rw [recent_length, hset]; exact hfew
  have hb : before calls t = recent L₁ ++ ((calls t).who, v) :: T.take (127 - (recent L₁).length) := by
    rw [before_eq, hL, hwho, hT, List.take_append, List.take_of_length_le (by show _ ≤ 128; omega), show CAPACITY - (recent L₁).length = (127 - (recent L₁).length) + 1 by show 128 - _ = _; omega,
      List.take_succ_cons]
  have hf : (before calls t).find? (fun e => e.1 = (calls t).who) = some ((calls t).who, v) := by
    rw [hb, List.find?_append, find_none.2 (fun hm => hna ((mem_recent_names _ _).1 hm))]
    simp
  unfold answer
  rw [ask_hit hf]

/-- C161: once 128 other analyzers were answered in between it looks at its result again. -/
theorem C161_refresh (calls : ℕ → PhaseCall) (t' t : ℕ) (v : List Val) (h : LastAnswer calls (answer calls) t' t v)
    (hmany : 128 ≤ (answeredBetween calls (answer calls) t' t).ncard) : answer calls t = (calls t).fresh := by
  obtain ⟨hlt, hwho, hv, hlast⟩ := h
  obtain ⟨L₁, hL, hset⟩ := log_split calls hv t hlt
  have hna : (calls t).who ∉ L₁.map Prod.fst := by
    intro hm
    have : (calls t).who ∈ answeredBetween calls (answer calls) t' t := hset ▸ hm
    obtain ⟨u, w, h1, h2, h3, h4⟩ := this
    exact hlast u w h1 h2 h3 h4
  obtain ⟨T, hT⟩ := recent_append L₁ (log calls t') (calls t).who v hna
  have hlen : 128 ≤ (recent L₁).length := by rw [recent_length, hset]; exact hmany
  refine answer_fresh fun hm => ?_
  rw [before_eq, hL, hwho, hT, List.take_append_of_le_length (show CAPACITY ≤ _ from hlen)] at hm
  obtain ⟨e, he, hew⟩ := List.mem_map.1 hm
  exact hna ((mem_recent_names _ _).1 (List.mem_map.2 ⟨e, List.mem_of_mem_take he, hew⟩))

/-- C161: with at most 128 analyzers in a process, every analyzer keeps the first answer it gave. -/
theorem C161_object (calls : ℕ → PhaseCall) (hfin : (Set.range fun u => (calls u).who).Finite) (hfew : (Set.range fun u => (calls u).who).ncard ≤ 128)
    (t₀ t : ℕ) (v : List Val) (hlt : t₀ < t) (hwho : (calls t₀).who = (calls t).who) (hv : answer calls t₀ = .ok v) : answer calls t = .ok v := by
  induction t using Nat.strong_induction_on with
  | _ t ih =>
    by_cases hlast : ∀ u w, t₀ < u → u < t → (calls u).who = (calls t).who → answer calls u ≠ .ok w
    · refine C161_stale calls t₀ t v ⟨hlt, hwho, hv, hlast⟩ ?_
      have hsub : answeredBetween calls (answer calls) t₀ t ⊆ (Set.range fun u => (calls u).who) \ {(calls t).who} := by
        rintro b ⟨u, w, h1, h2, rfl, h4⟩
        exact ⟨⟨u, rfl⟩, fun h => hlast u w h1 h2 h h4⟩
      have h1 := Set.ncard_le_ncard hsub (hfin.subset Set.sdiff_subset)
      have h2 := Set.ncard_sdiff_singleton_lt_of_mem (Set.mem_range_self (f := fun u => (calls u).who) t) hfin
      omega
    · push Not at hlast
      obtain ⟨u₀, w₀, h1, h2, h3, h4⟩ := hlast
      classical
      -- the last answered call before `t`
      have hex : ∃ k, k < t ∧ ∃ w, t₀ < t - 1 - k ∧ (calls (t - 1 - k)).who = (calls t).who ∧ answer calls (t - 1 - k) = .ok w := by
        refine ⟨t - 1 - u₀, by omega, w₀, ?_⟩
        rw [show t - 1 - (t - 1 - u₀) = u₀ by omega]
        exact ⟨h1, h3, h4⟩
      obtain ⟨hk1, w, hk2, hk3, hk4⟩ := Nat.find_spec hex
      set u := t - 1 - Nat.find hex with hu
      have hw : answer calls u = .ok v := ih u (by omega) hk2 (hwho.trans hk3.symm)
      refine C161_stale calls u t v ⟨by omega, hk3, hw, fun x y hx1 hx2 hx3 hx4 => ?_⟩ ?_
      · refine Nat.find_min hex (m := t - 1 - x) (by omega) ⟨by omega, y, ?_⟩
        rw [show t - 1 - (t - 1 - x) = x by omega]
        exact ⟨by omega, hx3, hx4⟩
      · have hsub : answeredBetween calls (answer calls) u t ⊆ (Set.range fun u => (calls u).who) \ {(calls t).who} := by
          rintro b ⟨x, y, hx1, hx2, rfl, hx4⟩
          refine ⟨⟨x, rfl⟩, fun hx3 => Nat.find_min hex (m := t - 1 - x) (by omega) ⟨by omega, y, ?_⟩⟩
          rw [show t - 1 - (t - 1 - x) = x by omega]
          exact ⟨by omega, hx3, hx4⟩
        have h5 := Set.ncard_le_ncard hsub (hfin.subset Set.sdiff_subset)
        have h6 := Set.ncard_sdiff_singleton_lt_of_mem (Set.mem_range_self (f := fun u => (calls u).who) t) hfin
        omega

/-! ### A result that grows while other analyzers are asked -/

/-- Analyzer 0 is asked about the run from A to B, then `n` others, then analyzer 0 after a further step. -/
def askAgain (n t : ℕ) : PhaseCall :=
  if t = n + 1 then ⟨0, resultAfter (oneSite (.str "A")) (aToB ++ aToB), fun _ l => l⟩ else ⟨t, resultAfter (oneSite (.str "A")) aToB, fun _ l => l⟩

theorem askAgain_answer (n t : ℕ) (ht : t ≤ n) : answer (askAgain n) t = .ok [.str "A"] := by
  have hw : ∀ u, u ≤ n → (askAgain n u).who = u := fun u hu => by unfold askAgain; rw [if_neg (by omega)]
  rw [C161_first]
  · unfold askAgain
    rw [if_neg (by omega)]
    rfl
  · intro u v hu h
    rw [hw u (by omega), hw t ht] at h
    omega

theorem askAgain_last (n : ℕ) : LastAnswer (askAgain n) (answer (askAgain n)) 0 (n + 1) [.str "A"] ∧
    (answeredBetween (askAgain n) (answer (askAgain n)) 0 (n + 1)).ncard = n := by
  have hw : ∀ u, u ≤ n → (askAgain n u).who = u := fun u hu => by unfold askAgain; rw [if_neg (by omega)]
  have hl : (askAgain n (n + 1)).who = 0 := by unfold askAgain; rw [if_pos rfl]
  refine ⟨⟨by omega, ?_, askAgain_answer n 0 (by omega), fun u w h1 h2 h3 => ?_⟩, ?_⟩
  · rw [hl, hw 0 (by omega)]
  · rw [hl, hw u (by omega)] at h3
    omega
  · have : answeredBetween (askAgain n) (answer (askAgain n)) 0 (n + 1) = ↑(Finset.Icc 1 n) := by
      ext b
      simp only [answeredBetween, Set.mem_ofPred_eq, Finset.coe_Icc, Set.mem_Icc]
      constructor
      · rintro ⟨u, w, h1, h2, h3, -⟩
        rw [hw u (by omega)] at h3
        omega
      · rintro ⟨h1, h2⟩
        exact ⟨b, _, by omega, by omega, hw b h2, askAgain_answer n b h2⟩
    rw [this, Set.ncard_coe_finset, Nat.card_Icc]
    omega

/-- C161: with fewer than 128 other analyzers asked in between, the new phase B is missing from the second answer; from 128 on it is there. -/
theorem C161_example (n : ℕ) : answer (askAgain n) (n + 1) = .ok (if n < 128 then [.str "A"] else [.str "A", .str "B"]) := by
  obtain ⟨h1, h2⟩ := askAgain_last n
  by_cases h : n < 128
  · rw [if_pos h]
    exact C161_stale _ _ _ _ h1 (by omega)
  · rw [if_neg h, C161_refresh _ _ _ _ h1 (by omega)]
    unfold askAgain
    rw [if_pos rfl]
    rfl

/-- Three analyzers are asked in turn, at first about the run from A to B, later after a further step. -/
def inTurn (t : ℕ) : PhaseCall := ⟨t % 3, resultAfter (oneSite (.str "A")) (if t < 3 then aToB else aToB ++ aToB), fun _ l => l⟩

/-- C161: none of the three ever sees phase B. -/
theorem C161_in_turn (t : ℕ) : answer inTurn t = .ok [.str "A"] := by
  have hsmall : ∀ u < 3, answer inTurn u = .ok [.str "A"] := by
    intro u hu
    rw [C161_first]
    · unfold inTurn
      rw [if_pos hu]
      rfl
    · intro x v hx h
      have h : x % 3 = u % 3 := h
      omega
  by_cases ht : t < 3
  · exact hsmall t ht
  · have hsub : (Set.range fun u => (inTurn u).who) ⊆ ↑(Finset.range 3) := by
      rintro _ ⟨u, rfl⟩
      simp only [Finset.coe_range, Set.mem_Iio]
      exact Nat.mod_lt _ (by omega)
    have hc := Set.ncard_le_ncard hsub (Finset.finite_toSet _)
    rw [Set.ncard_coe_finset, Finset.card_range] at hc
    exact C161_object inTurn ((Finset.finite_toSet _).subset hsub) (by omega) (t % 3) t _ (by omega) (Nat.mod_mod _ _) (hsmall _ (by omega))

end Pyl
