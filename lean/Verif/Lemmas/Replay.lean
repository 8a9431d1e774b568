import Verif.Model.Result
import Verif.Lemmas.Runner

set_option autoImplicit false

namespace Pyl
namespace SimResult

@[simp] theorem replayTo_zero (s : SimState) (ds : List (Option Props)) : replayTo s ds 0 = .ok s := by
  cases ds <;> rfl

theorem replayTo_cons (s : SimState) (d : Option Props) (ds : List (Option Props)) (n : Nat) :
    replayTo s (d :: ds) (n + 1) = (s.batchUpdateO d >>= fun s' => replayTo s' ds n) := rfl

theorem replay_cons (s : SimState) (d : Option Props) (ds : List (Option Props)) :
    replay s (d :: ds) = (s.batchUpdateO d >>= fun s' => replay s' ds) := rfl

theorem replayTo_append (s : SimState) (ds es : List (Option Props)) (k : Nat) (hk : k ≤ ds.length) :
    replayTo s (ds ++ es) k = replayTo s ds k := by
  induction ds generalizing s k with
  | nil =>
    obtain rfl : k = 0 := by simpa using hk
    simp
  | cons d ds ih =>
    cases k with
    | zero => simp
    | succ k =>
      rw [List.cons_append, replayTo_cons, replayTo_cons]
      have hk' : k ≤ ds.length := by simpa using hk
      congr 1
      funext s'
      exact ih s' k hk'

theorem replayTo_eq_replay_take (s : SimState) (ds : List (Option Props)) (k : Nat) (hk : k ≤ ds.length) :
    replayTo s ds k = replay s (ds.take k) := by
  induction ds generalizing s k with
  | nil =>
    obtain rfl : k = 0 := by simpa using hk
    simp [replay]
  | cons d ds ih =>
    cases k with
    | zero => simp [replay]
    | succ k =>
      rw [List.take_succ_cons, replayTo_cons, replay_cons]
      have hk' : k ≤ ds.length := by simpa using hk
      congr 1
      funext s'
      exact ih s' k hk'

theorem replayTo_length (s : SimState) (ds : List (Option Props)) : replayTo s ds ds.length = replay s ds := by
  rw [replayTo_eq_replay_take _ _ _ le_rfl, List.take_length]

theorem replay_append (s : SimState) (ds es : List (Option Props)) :
    replay s (ds ++ es) = (replay s ds >>= fun s' => replay s' es) := by
  induction ds generalizing s with
  | nil => rfl
  | cons d ds ih =>
    rw [List.cons_append, replay_cons, replay_cons]
    cases s.batchUpdateO d with
    | error e => rfl
    | ok s' => simp [ih]

theorem replay_snoc {s s1 : SimState} {ds : List (Option Props)} (h : replay s ds = .ok s1) (d : Option Props) :
    replay s (ds ++ [d]) = s1.batchUpdateO d := by
  rw [replay_append, h, ok_bind, replay_cons]
  cases s1.batchUpdateO d <;> rfl

/-- Past the end: IndexError, provided the recorded diffs can be applied at all. -/
theorem replayTo_past {s s1 : SimState} {ds : List (Option Props)} (h : replay s ds = .ok s1) (k : Nat)
    (hk : ds.length < k) : replayTo s ds k = .error .indexError := by
  induction ds generalizing s k with
  | nil =>
    cases k with
    | zero => simp at hk
    | succ k => rfl
  | cons d ds ih =>
    cases k with
    | zero => simp at hk
    | succ k =>
      rw [replay_cons] at h
      obtain ⟨s2, h1, h2⟩ := bind_ok h
      rw [replayTo_cons, h1, ok_bind]
      exact ih h2 k (by simpa using hk)

/-- Every prefix of an applicable history is applicable. -/
theorem replayTo_ok {s s1 : SimState} {ds : List (Option Props)} (h : replay s ds = .ok s1) (k : Nat)
    (hk : k ≤ ds.length) : ∃ sk, replayTo s ds k = .ok sk := by
  rw [replayTo_eq_replay_take _ _ _ hk]
  rw [← List.take_append_drop k ds, replay_append] at h
  obtain ⟨sk, h1, _⟩ := bind_ok h
  exact ⟨sk, h1⟩

end SimResult
end Pyl
