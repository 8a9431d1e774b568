import Verif.Model.Json
import Verif.Spec.Json
import Verif.Lemmas.Dict
import Verif.Lemmas.Runner
set_option autoImplicit false

namespace Pyl

theorem intTail_digits (l : List Char) (hl : ∀ c ∈ l, c.isDigit = true) (n : Nat) :
    intTail n l = some (Nat.ofDigitChars 10 l n) := by
  induction l generalizing n with
  | nil => simp [intTail, Nat.ofDigitChars]
  | cons c l ih =>
    have hc := hl c (by simp)
    have hne : c ≠ '_' := by rintro rfl; simp at hc
    have : intTail n (c :: l) = if c.isDigit then intTail (n * 10 + (c.toNat - '0'.toNat)) l else none := by
      rw [intTail]
      rintro c' l' rfl; exact absurd rfl hne
    rw [this, if_pos hc, ih (fun c h => hl c (by simp [h]))]
    simp [Nat.ofDigitChars, Nat.mul_comm]

theorem intBody_toDigits (n : Nat) : intBody (Nat.toDigits 10 n) = some n := by
  have h : ∀ c ∈ Nat.toDigits 10 n, c.isDigit = true := fun c hc =>
    Nat.isDigit_of_mem_toDigits (by decide) (by decide) hc
  have h2 := Nat.ofDigitChars_ten_toDigits (n := n)
  cases hl : Nat.toDigits 10 n with
  | nil => exact absurd hl Nat.toDigits_ne_nil
  | cons c l =>
    rw [hl] at h h2
    rw [intBody, if_pos (h c (by simp)), intTail_digits l (fun c hc => h c (by simp [hc]))]
    rw [← h2]; simp [Nat.ofDigitChars]

theorem isDigit_toNat {c : Char} (h : c.isDigit = true) : 48 ≤ c.toNat ∧ c.toNat ≤ 57 := by
  simp only [Char.isDigit, Bool.and_eq_true, decide_eq_true_eq] at h
  exact ⟨UInt32.le_iff_toNat_le.1 h.1, UInt32.le_iff_toNat_le.1 h.2⟩

theorem isDigit_not_ws {c : Char} (h : c.isDigit = true) : isSpace c = false := by
  have := isDigit_toNat h
  rw [Bool.eq_false_iff]
  intro hw
  simp only [isSpace, Bool.or_eq_true, Bool.and_eq_true, decide_eq_true_eq] at hw
  omega

theorem stripped_eq {l : List Char} (h : ∀ c ∈ l, isSpace c = false) : stripped l = l := by
  have hd : ∀ l : List Char, (∀ c ∈ l, isSpace c = false) → l.dropWhile isSpace = l := by
    intro l h
    cases l with
    | nil => rfl
    | cons c l => simp [List.dropWhile, h c (by simp)]
  rw [stripped, hd l h, hd _ (fun c hc => h c (by simpa using hc)), List.reverse_reverse]

/-- `int(str(i)) == i` -/
theorem toInt_decimal (i : Int) : (Key.str (decimal i)).toInt = .ok i := by
  have hdig : ∀ n, ∀ c ∈ Nat.toDigits 10 n, c.isDigit = true := fun n c hc =>
    Nat.isDigit_of_mem_toDigits (by decide) (by decide) hc
  by_cases hi : i < 0
  · have : intSigned (stripped (decimal i).toList) = some i := by
      rw [decimal, if_pos hi, String.toList_ofList, stripped_eq, intSigned, intBody_toDigits]
      · simp; omega
      · intro c hc
        rcases List.mem_cons.1 hc with rfl | hc
        · decide
        · exact isDigit_not_ws (hdig _ c hc)
    simp only [Key.toInt, this]
  · have : intSigned (stripped (decimal i).toList) = some i := by
      rw [decimal, if_neg hi, String.toList_ofList, stripped_eq (fun c hc => isDigit_not_ws (hdig _ c hc))]
      have hb := intBody_toDigits i.natAbs
      cases hl : Nat.toDigits 10 i.natAbs with
      | nil => exact absurd hl Nat.toDigits_ne_nil
      | cons c l =>
        have hc := hdig i.natAbs c (by rw [hl]; simp)
        rw [hl] at hb
        rw [intSigned, hb]
        · simp; omega
        · rintro l' h; injection h with h _; subst h; simp at hc
        · rintro l' h; injection h with h _; subst h; simp at hc
    simp only [Key.toInt, this]

theorem decimal_injective {i j : Int} (h : decimal i = decimal j) : i = j := by
  have h1 := toInt_decimal i
  rw [h, toInt_decimal j] at h1
  injection h1 with h1
  exact h1.symm

theorem jsonPairs_eq (d : Props) : Val.jsonPairs d = d.map fun kv => (kv.1.json, kv.2.json) := by
  induction d with
  | nil => rfl
  | cons e d ih => obtain ⟨k, v⟩ := e; simp [Val.jsonPairs, ih]

theorem jsonList_eq (l : List Val) : Val.jsonList l = l.map Val.json := by
  induction l with
  | nil => rfl
  | cons e d ih => simp [Val.jsonList, ih]

theorem update_fresh {κ ν : Type _} [DecidableEq κ] (d u : Dict κ ν) (h : (Dict.keys d ++ Dict.keys u).Nodup) :
    Dict.update d u = d ++ u := by
  induction u generalizing d with
  | nil => simp
  | cons e u ih =>
    obtain ⟨k, v⟩ := e
    have hk : k ∉ Dict.keys d := fun hk => (List.nodup_append.1 h).2.2 k hk k (by simp) rfl
    have hs : ∀ d : Dict κ ν, k ∉ Dict.keys d → Dict.set d k v = d ++ [(k, v)] := by
      intro d
      induction d with
      | nil => intro _; rfl
      | cons e d ih =>
        intro hk
        simp only [Dict.keys_cons, List.mem_cons, not_or] at hk
        simp only [Dict.set, if_neg (Ne.symm hk.1), List.cons_append]
        rw [ih hk.2]
    rw [Dict.update_cons, hs d hk, ih]
    · simp
    · simpa using h

theorem ofPairs_of_nodup {κ ν : Type _} [DecidableEq κ] (u : Dict κ ν) (h : Dict.WF u) : Dict.ofPairs u = u := by
  rw [Dict.ofPairs, update_fresh [] u (by simpa [Dict.WF] using h), List.nil_append]

theorem Val.JsonNative.str_keys {d : Props} (h : (Val.dict d).JsonNative) : ∀ kv ∈ d, ∃ s, kv.1 = .str s := by
  cases h; assumption
theorem Val.JsonNative.entry {d : Props} (h : (Val.dict d).JsonNative) : ∀ kv ∈ d, kv.2.JsonNative := by
  cases h; assumption

/-- A representable value comes back from JSON unchanged. -/
theorem json_native {v : Val} (h : v.JsonNative) (hw : v.WF) : v.json = v := by
  induction h with
  | pyNone => simp [Val.json]
  | num q => simp [Val.json]
  | str s => simp [Val.json]
  | @list l _ ih =>
    cases hw with
    | list hw =>
      simp only [Val.json, jsonList_eq]
      congr 1
      conv_rhs => rw [← List.map_id' l]
      exact List.map_congr_left fun a ha => ih a ha (hw a ha)
  | @dict d hk _ ih =>
    cases hw with
    | dict hwf hw =>
      have : (d.map fun kv => (kv.1.json, kv.2.json)) = d := by
        conv_rhs => rw [← List.map_id' d]
        refine List.map_congr_left fun kv hkv => ?_
        obtain ⟨s, hs⟩ := hk kv hkv
        rw [ih kv hkv (hw kv hkv), hs, Key.json, ← hs]
      simp only [Val.json, jsonPairs_eq, this, ofPairs_of_nodup d hwf]

/-- The entries of a dict with int keys after JSON. -/
theorem json_int_dict {d : Props} (hwf : Dict.WF d) (hk : ∀ kv ∈ d, ∃ i, kv.1 = .int i)
    (hw : ∀ kv ∈ d, kv.2.WF) (hn : ∀ kv ∈ d, kv.2.JsonNative) :
    (Val.dict d).json = .dict (d.map fun kv => (kv.1.json, kv.2)) := by
  have e : (d.map fun kv => (kv.1.json, kv.2.json)) = d.map fun kv => (kv.1.json, kv.2) :=
    List.map_congr_left fun kv hkv => by rw [json_native (hn kv hkv) (hw kv hkv)]
  simp only [Val.json, jsonPairs_eq, e]
  congr 1
  refine ofPairs_of_nodup _ ?_
  have : Dict.keys (d.map fun kv => (kv.1.json, kv.2)) = (Dict.keys d).map Key.json := by
    simp [Dict.keys, Function.comp_def]
  rw [Dict.WF, this]
  refine List.Nodup.map_on ?_ hwf
  intro a ha b hb hab
  obtain ⟨kv, hkv, rfl⟩ := List.mem_map.1 ha
  obtain ⟨kv', hkv', rfl⟩ := List.mem_map.1 hb
  obtain ⟨i, hi⟩ := hk kv hkv
  obtain ⟨j, hj⟩ := hk kv' hkv'
  rw [hi, hj] at hab ⊢
  simp only [Key.json, Key.str.injEq] at hab
  rw [decimal_injective hab]

theorem mapM_ok {α β : Type _} {f : α → Py β} {g : α → β} (l : List α) (h : ∀ a ∈ l, f a = .ok (g a)) :
    l.mapM f = .ok (l.map g) := by
  induction l with
  | nil => rfl
  | cons a l ih =>
    rw [List.mapM_cons, h a (by simp), ih fun a ha => h a (by simp [ha])]
    rfl

/-- `int` of the printed keys gives the dict back. -/
theorem intKeys_json {d : Props} (hwf : Dict.WF d) (hk : ∀ kv ∈ d, ∃ i, kv.1 = .int i) :
    intKeys (d.map fun kv => (kv.1.json, kv.2)) = .ok d := by
  have h : (d.map fun kv => (kv.1.json, kv.2)).mapM (fun kv => do pure (Key.int (← kv.1.toInt), kv.2)) = (.ok d : Py _) := by
    rw [List.mapM_map]
    have := mapM_ok (f := fun kv : Key × Val => (do pure (Key.int (← kv.1.json.toInt), kv.2) : Py (Key × Val)))
      (g := id) d (by
        intro kv hkv
        obtain ⟨i, hi⟩ := hk kv hkv
        obtain ⟨k, v⟩ := kv
        simp only at hi; subst hi
        simp only [Key.json, toInt_decimal]; rfl)
    rw [List.map_id] at this
    exact this
  rw [intKeys, h]
  simp only [ok_bind]
  rw [ofPairs_of_nodup d hwf]; rfl

end Pyl
