import Verif.Spec.ResultFile
import Verif.Props.Json
/-
C168: saving results with and without a file name.
-/
set_option autoImplicit false

namespace Pyl
open SimState Spec SimResult

theorem twoDigits_all : ∀ a : Fin 100, (twoDigits a).toList.length = 2 ∧ ∀ b : Fin 100, twoDigits a = twoDigits b → a = b := by
  decide +kernel

theorem twoDigits_length {a : Nat} (h : a < 100) : (twoDigits a).toList.length = 2 := (twoDigits_all ⟨a, h⟩).1

theorem twoDigits_inj {a b : Nat} (ha : a < 100) (hb : b < 100) (h : (twoDigits a).toList = (twoDigits b).toList) : a = b :=
  congrArg Fin.val ((twoDigits_all ⟨a, ha⟩).2 ⟨b, hb⟩ (String.toList_injective h))

/-- The name from the clock tells the minute. -/
theorem clockName_inj {t u : Clock} (ht : Clock.Valid t) (hu : Clock.Valid u) (h : clockName t = clockName u) : SameMinute t u := by
  obtain ⟨-, t1, -, t2, t3, t4, -⟩ := ht
  obtain ⟨-, u1, -, u2, u3, u4, -⟩ := hu
  have h1 := congrArg String.toList h
  simp only [clockName, String.toList_append, List.append_assoc] at h1
  obtain ⟨e1, h1⟩ := List.append_inj h1 (by rw [twoDigits_length (by omega), twoDigits_length (by omega)])
  have h1 := List.append_cancel_left h1
  obtain ⟨e2, h1⟩ := List.append_inj h1 (by rw [twoDigits_length (by omega), twoDigits_length (by omega)])
  have h1 := List.append_cancel_left h1
  obtain ⟨e3, h1⟩ := List.append_inj' h1 (by
    simp only [List.length_append]
    rw [twoDigits_length (by omega), twoDigits_length (by omega), twoDigits_length (by omega), twoDigits_length (by omega)])
  have h1 := List.append_cancel_left h1
  obtain ⟨e4, h1⟩ := List.append_inj h1 (by rw [twoDigits_length (by omega), twoDigits_length (by omega)])
  have h1 := List.append_cancel_left h1
  have e5 := List.append_cancel_right h1
  refine ⟨?_, twoDigits_inj (by omega) (by omega) e1, twoDigits_inj (by omega) (by omega) e2, twoDigits_inj (by omega) (by omega) e4,
    twoDigits_inj (by omega) (by omega) e5⟩
  have h2 : t.year.repr = u.year.repr := String.toList_injective e3
  have h3 := congrArg (fun s : String => Nat.ofDigitChars 10 s.toList 0) h2
  simpa using h3

theorem clockName_same {t u : Clock} (h : SameMinute t u) : clockName t = clockName u := by
  obtain ⟨h1, h2, h3, h4, h5⟩ := h
  unfold clockName
  rw [h1, h2, h3, h4, h5]

/-- C168: what `to_file` writes `from_file` reads: the returned name is the given one, or the one from the clock; the file under that name holds a result whose
diffs have the documented format; the other files are as they were. -/
theorem C168_file (s0 : SimState) (ops : List ROp) (hw : s0.WF) (hn : s0.JsonNative) (hd : ∀ d ∈ added ops, ∃ p, d = some p ∧ FlatDiff p)
    (now : Clock) (fpath : Option String) (files files' : ResultFiles) (name : String) (h : toFile now (resultAfter s0 ops) fpath files = (files', name)) :
    (∀ f, fpath = some f → name = f) ∧ FileHolds files' name (resultAfter s0 ops) ∧ ∀ nm, nm ≠ name → fromFile files' nm = fromFile files nm := by
  obtain ⟨j, r, h1, h2, h3, h4⟩ := C35_flat_partial s0 ops hw hn hd
  unfold toFile at h
  simp only [Prod.mk.injEq] at h
  obtain ⟨rfl, rfl⟩ := h
  refine ⟨fun f hf => by rw [hf], ⟨r, ?_, h3, h4⟩, fun nm hnm => ?_⟩
  · unfold fromFile
    rw [Dict.get?_set_self, h1]
    simp only [h2]
  · unfold fromFile
    rw [Dict.get?_set_ne _ _ (Ne.symm hnm)]

/-- C168 (partial): two results saved one after the other without names in different minutes are both there afterwards.  Missing: the same minute
(`C168_false`). -/
theorem C168_two_partial (s0 s1 : SimState) (ops0 ops1 : List ROp) (hw0 : s0.WF) (hn0 : s0.JsonNative) (hd0 : ∀ d ∈ added ops0, ∃ p, d = some p ∧ FlatDiff p)
    (hw1 : s1.WF) (hn1 : s1.JsonNative) (hd1 : ∀ d ∈ added ops1, ∃ p, d = some p ∧ FlatDiff p) (t u : Clock) (ht : Clock.Valid t) (hu : Clock.Valid u)
    (htu : ¬ SameMinute t u) (files files' files'' : ResultFiles) (name0 name1 : String)
    (h0 : toFile t (resultAfter s0 ops0) none files = (files', name0)) (h1 : toFile u (resultAfter s1 ops1) none files' = (files'', name1)) :
    FileHolds files'' name0 (resultAfter s0 ops0) ∧ FileHolds files'' name1 (resultAfter s1 ops1) := by
  have hne : name0 ≠ name1 := by
    have e0 : clockName t = name0 := congrArg Prod.snd h0
    have e1 : clockName u = name1 := congrArg Prod.snd h1
    intro e
    exact htu (clockName_inj ht hu (by rw [e0, e1, e]))
  obtain ⟨-, a, -⟩ := C168_file s0 ops0 hw0 hn0 hd0 t none files files' name0 h0
  obtain ⟨-, b, c⟩ := C168_file s1 ops1 hw1 hn1 hd1 u none files' files'' name1 h1
  refine ⟨?_, b⟩
  obtain ⟨r', e1, e2, e3⟩ := a
  exact ⟨r', by rw [c _ hne, e1], e2, e3⟩

/-- C168: two results saved without names within one minute get the same name, and the first is lost: the file holds the second. -/
theorem C168_overwrites (s1 : SimState) (ops1 : List ROp) (hw1 : s1.WF) (hn1 : s1.JsonNative) (hd1 : ∀ d ∈ added ops1, ∃ p, d = some p ∧ FlatDiff p)
    (r0 : SimResult) (t u : Clock) (htu : SameMinute t u) (files files' files'' : ResultFiles) (name0 name1 : String)
    (h0 : toFile t r0 none files = (files', name0)) (h1 : toFile u (resultAfter s1 ops1) none files' = (files'', name1)) :
    name0 = name1 ∧ FileHolds files'' name0 (resultAfter s1 ops1) := by
  have e0 : clockName t = name0 := congrArg Prod.snd h0
  have e1 : clockName u = name1 := congrArg Prod.snd h1
  have e : name0 = name1 := by rw [← e0, ← e1, clockName_same htu]
  refine ⟨e, ?_⟩
  rw [e]
  exact (C168_file s1 ops1 hw1 hn1 hd1 u none files' files'' name1 h1).2.1

/-- C168 is false as stated: of two results saved without names some are lost. -/
theorem C168_false : ¬ ∀ (r0 r1 : SimResult) (t u : Clock) (files' files'' : ResultFiles) (name0 name1 : String), Clock.Valid t → Clock.Valid u →
    toFile t r0 none [] = (files', name0) → toFile u r1 none files' = (files'', name1) → FileHolds files'' name0 r0 := by
  intro h
  have hw : SimState.empty.WF ∧ SimState.empty.JsonNative := by
    have hv : (Val.dict []).WF := .dict (by simp [Dict.WF, Dict.keys]) (by simp)
    have hv' : (Val.dict []).JsonNative := .dict (by simp) (by simp)
    refine ⟨⟨?_, ?_, ?_⟩, ⟨?_, ?_, ?_⟩⟩ <;> simp [SimState.empty, siteIds, getSiteState, getGeneralState, Dict.get?, Dict.WF, Dict.keys, hv, hv']
  let t : Clock := ⟨2024, 5, 17, 9, 30, 1⟩
  have ht : Clock.Valid t := by simp [Clock.Valid, t]
  obtain ⟨r', e1, e2, -⟩ := h (resultAfter .empty [.add (some [])]) (resultAfter .empty []) t t _ _ _ _ ht ht rfl rfl
  obtain ⟨-, r'', e3, e4, -⟩ := C168_overwrites .empty [] hw.1 hw.2 (by simp [added]) (resultAfter .empty [.add (some [])]) t t ⟨rfl, rfl, rfl, rfl, rfl⟩ [] _ _ _ _
    rfl rfl
  rw [e3] at e1
  injection e1 with e1
  injection e1 with e1
  rw [← e1, e4, C30_len, C30_len] at e2
  simp [added] at e2

/-- A case of the theorems: two times a minute apart, at which one and the same clock text but for the last digits is shown. -/
example : Clock.Valid ⟨2024, 5, 17, 9, 30, 59⟩ ∧ Clock.Valid ⟨2024, 5, 17, 9, 31, 0⟩ ∧ ¬ SameMinute ⟨2024, 5, 17, 9, 30, 59⟩ ⟨2024, 5, 17, 9, 31, 0⟩ ∧
    clockName ⟨2024, 5, 17, 9, 30, 59⟩ = "05-17-2024-09-30.json" := by
  refine ⟨by simp [Clock.Valid], by simp [Clock.Valid], by simp [SameMinute], by decide +kernel⟩

end Pyl
