import Verif.Spec.Loading
import Verif.Lemmas.Json
import Verif.Lemmas.Dict
/-
`int(k)` and `{int(k): v for k, v in d.items()}`.
-/
set_option autoImplicit false

namespace Pyl
open Spec

theorem isSpace_iff (c : Char) : isSpace c = true ↔ c ∈ blanks := by
  have key : ∀ a b : Char, a.toNat = b.toNat → a = b := fun a b h => by
    rw [← Char.ofNat_toNat a, ← Char.ofNat_toNat b, h]
  constructor
  · intro h
    simp only [isSpace, Bool.or_eq_true, Bool.and_eq_true, decide_eq_true_eq] at h
    have h1 : c.toNat = 9 ∨ c.toNat = 10 ∨ c.toNat = 11 ∨ c.toNat = 12 ∨ c.toNat = 13 ∨ c.toNat = 28 ∨ c.toNat = 29 ∨ c.toNat = 30 ∨ c.toNat = 31 ∨
        c.toNat = 32 := by omega
    simp only [blanks, List.mem_cons, List.not_mem_nil, or_false]
    rcases h1 with h | h | h | h | h | h | h | h | h | h
    · exact .inl (key _ _ h)
    · exact .inr (.inl (key _ _ h))
    · exact .inr (.inr (.inl (key _ _ h)))
    · exact .inr (.inr (.inr (.inl (key _ _ h))))
    · exact .inr (.inr (.inr (.inr (.inl (key _ _ h)))))
    · exact .inr (.inr (.inr (.inr (.inr (.inl (key _ _ h))))))
    · exact .inr (.inr (.inr (.inr (.inr (.inr (.inl (key _ _ h)))))))
    · exact .inr (.inr (.inr (.inr (.inr (.inr (.inr (.inl (key _ _ h))))))))
    · exact .inr (.inr (.inr (.inr (.inr (.inr (.inr (.inr (.inl (key _ _ h)))))))))
    · exact .inr (.inr (.inr (.inr (.inr (.inr (.inr (.inr (.inr (key _ _ h)))))))))
  · intro h
    simp only [blanks, List.mem_cons, List.not_mem_nil, or_false] at h
    rcases h with rfl | rfl | rfl | rfl | rfl | rfl | rfl | rfl | rfl | rfl <;> decide

theorem isDigit_iff (c : Char) : c.isDigit = true ↔ 48 ≤ c.toNat ∧ c.toNat ≤ 57 := by
  refine ⟨isDigit_toNat, fun h => ?_⟩
  simp only [Char.isDigit, Bool.and_eq_true, decide_eq_true_eq]
  exact ⟨UInt32.le_iff_toNat_le.2 h.1, UInt32.le_iff_toNat_le.2 h.2⟩

/-- The value of further digits. -/
def moreDigits (n : Nat) (l : List Char) : Nat := l.foldl (fun n c => n * 10 + (c.toNat - 48)) n

theorem moreDigits_zero (l : List Char) : moreDigits 0 l = digitsValue l := by
  unfold moreDigits digitsValue
  congr 1
  funext n c
  rw [Nat.mul_comm]

theorem intTail_iff (n : Nat) (l : List Char) (v : Nat) : intTail n l = some v ↔ ∃ (g : List Char) (groups : List (List Char)),
    (∀ c ∈ g, c.isDigit = true) ∧ (∀ h ∈ groups, h ≠ [] ∧ ∀ c ∈ h, c.isDigit = true) ∧ l = g ++ (groups.map ('_' :: ·)).flatten ∧
    v = moreDigits n (g ++ groups.flatten) := by
  fun_induction intTail n l with
  | case1 n =>
    constructor
    · intro h; injection h with h
      exact ⟨[], [], by simp, by simp, by simp, by simp [moreDigits, h]⟩
    · rintro ⟨g, groups, -, h2, h3, rfl⟩
      obtain ⟨rfl, h4⟩ := List.append_eq_nil_iff.1 h3.symm
      cases groups with
      | nil => rfl
      | cons h t => simp at h4
  | case2 n c l hc ih =>
    rw [ih]
    constructor
    · rintro ⟨g, groups, h1, h2, rfl, rfl⟩
      exact ⟨[], (c :: g) :: groups, by simp, by
        intro h hh
        rcases List.mem_cons.1 hh with rfl | hh
        · exact ⟨by simp, fun x hx => by rcases List.mem_cons.1 hx with rfl | hx; exacts [hc, h1 x hx]⟩
        · exact h2 h hh, by simp, by simp [moreDigits]⟩
    · rintro ⟨g, groups, h1, h2, h3, rfl⟩
      cases g with
      | cons a g =>
        simp only [List.cons_append, List.cons.injEq] at h3
        have := h1 a (by simp)
        rw [← h3.1] at this
        exact absurd this (by decide)
      | nil =>
        cases groups with
        | nil => simp at h3
        | cons h t =>
          obtain ⟨h4, h5⟩ := h2 h (by simp)
          cases h with
          | nil => exact absurd rfl h4
          | cons a h =>
            simp only [List.nil_append, List.map_cons, List.flatten_cons, List.cons_append, List.cons.injEq, true_and] at h3
            obtain ⟨rfl, rfl⟩ := h3
            exact ⟨h, t, fun x hx => h5 x (by simp [hx]), fun x hx => h2 x (by simp [hx]), rfl, by simp [moreDigits]⟩
  | case3 n c l hc =>
    constructor
    · intro h; cases h
    · rintro ⟨g, groups, h1, h2, h3, -⟩
      exfalso
      cases g with
      | cons a g =>
        simp only [List.cons_append, List.cons.injEq] at h3
        have := h1 a (by simp)
        rw [← h3.1] at this
        exact absurd this (by decide)
      | nil =>
        cases groups with
        | nil => simp at h3
        | cons h t =>
          obtain ⟨h4, h5⟩ := h2 h (by simp)
          cases h with
          | nil => exact absurd rfl h4
          | cons a h =>
            simp only [List.nil_append, List.map_cons, List.flatten_cons, List.cons_append, List.cons.injEq, true_and] at h3
            exact hc (by rw [h3.1]; exact h5 a (by simp))
  | case4 n c l hno hc ih =>
    rw [ih]
    constructor
    · rintro ⟨g, groups, h1, h2, rfl, rfl⟩
      exact ⟨c :: g, groups, fun x hx => by rcases List.mem_cons.1 hx with rfl | hx; exacts [hc, h1 x hx], h2, by simp, by simp [moreDigits]⟩
    · rintro ⟨g, groups, h1, h2, h3, rfl⟩
      cases g with
      | cons a g =>
        simp only [List.cons_append, List.cons.injEq] at h3
        obtain ⟨rfl, rfl⟩ := h3
        exact ⟨g, groups, fun x hx => h1 x (by simp [hx]), h2, rfl, by simp [moreDigits]⟩
      | nil =>
        cases groups with
        | nil => simp at h3
        | cons h t =>
          simp only [List.nil_append, List.map_cons, List.flatten_cons, List.cons_append, List.cons.injEq] at h3
          rw [h3.1] at hc
          exact absurd hc (by decide)
  | case5 n c l hno hc =>
    constructor
    · intro h; cases h
    · rintro ⟨g, groups, h1, h2, h3, -⟩
      exfalso
      cases g with
      | cons a g =>
        simp only [List.cons_append, List.cons.injEq] at h3
        exact hc (by rw [h3.1]; exact h1 a (by simp))
      | nil =>
        cases groups with
        | nil => simp at h3
        | cons h t =>
          obtain ⟨h4, h5⟩ := h2 h (by simp)
          cases h with
          | nil => exact absurd rfl h4
          | cons a h =>
            simp only [List.nil_append, List.map_cons, List.flatten_cons, List.cons_append, List.cons.injEq] at h3
            exact hno a _ h3.1 h3.2

theorem intercalate_cons (g : List Char) (groups : List (List Char)) :
    List.intercalate ['_'] (g :: groups) = g ++ (groups.map ('_' :: ·)).flatten := by
  induction groups generalizing g with
  | nil => simp [List.intercalate]
  | cons h t ih =>
    have : List.intercalate ['_'] (g :: h :: t) = g ++ ['_'] ++ List.intercalate ['_'] (h :: t) := by
      simp [List.intercalate, List.intersperse]
    rw [this, ih h]
    simp

theorem intBody_iff (l : List Char) (v : Nat) : intBody l = some v ↔ ∃ groups : List (List Char), groups ≠ [] ∧
    (∀ g ∈ groups, g ≠ [] ∧ ∀ c ∈ g, c.isDigit = true) ∧ l = List.intercalate ['_'] groups ∧ v = digitsValue groups.flatten := by
  cases l with
  | nil =>
    constructor
    · intro h; cases h
    · rintro ⟨groups, h1, h2, h3, -⟩
      cases groups with
      | nil => exact absurd rfl h1
      | cons g t =>
        rw [intercalate_cons] at h3
        exact absurd (List.append_eq_nil_iff.1 h3.symm).1 (h2 g (by simp)).1
  | cons c l =>
    rw [intBody]
    constructor
    · intro h
      split at h
      · rename_i hc
        obtain ⟨g, groups, h1, h2, rfl, rfl⟩ := (intTail_iff _ _ _).1 h
        refine ⟨(c :: g) :: groups, by simp, fun x hx => ?_, by rw [intercalate_cons]; simp, ?_⟩
        · rcases List.mem_cons.1 hx with rfl | hx
          · exact ⟨by simp, fun y hy => by rcases List.mem_cons.1 hy with rfl | hy; exacts [hc, h1 y hy]⟩
          · exact h2 x hx
        · rw [← moreDigits_zero]
          simp [moreDigits]
      · cases h
    · rintro ⟨groups, h1, h2, h3, rfl⟩
      cases groups with
      | nil => exact absurd rfl h1
      | cons g t =>
        rw [intercalate_cons] at h3
        obtain ⟨h4, h5⟩ := h2 g (by simp)
        cases g with
        | nil => exact absurd rfl h4
        | cons a g =>
          simp only [List.cons_append, List.cons.injEq] at h3
          obtain ⟨rfl, rfl⟩ := h3
          rw [if_pos (h5 c (by simp)), intTail_iff]
          refine ⟨g, t, fun x hx => h5 x (by simp [hx]), fun x hx => h2 x (by simp [hx]), rfl, ?_⟩
          rw [← moreDigits_zero]
          simp [moreDigits]

theorem intSigned_iff (l : List Char) (i : Int) : intSigned l = some i ↔ ∃ (sign : List Char) (groups : List (List Char)),
    (sign = [] ∨ sign = ['+'] ∨ sign = ['-']) ∧ groups ≠ [] ∧ (∀ g ∈ groups, g ≠ [] ∧ ∀ c ∈ g, c.isDigit = true) ∧
    l = sign ++ List.intercalate ['_'] groups ∧ i = if sign = ['-'] then -(digitsValue groups.flatten : ℤ) else digitsValue groups.flatten := by
  have hhead : ∀ groups : List (List Char), groups ≠ [] → (∀ g ∈ groups, g ≠ [] ∧ ∀ c ∈ g, c.isDigit = true) →
      ∃ c t, List.intercalate ['_'] groups = c :: t ∧ c.isDigit = true := by
    intro groups h1 h2
    cases groups with
    | nil => exact absurd rfl h1
    | cons g t =>
      obtain ⟨h4, h5⟩ := h2 g (by simp)
      cases g with
      | nil => exact absurd rfl h4
      | cons a g => exact ⟨a, _, by rw [intercalate_cons]; rfl, h5 a (by simp)⟩
  unfold intSigned
  split
  · rename_i l
    rw [Option.map_eq_some_iff]
    constructor
    · rintro ⟨v, h, rfl⟩
      obtain ⟨groups, h1, h2, rfl, rfl⟩ := (intBody_iff _ _).1 h
      exact ⟨['-'], groups, .inr (.inr rfl), h1, h2, rfl, by simp⟩
    · rintro ⟨sign, groups, hs, h1, h2, h3, rfl⟩
      obtain ⟨c, t, h4, h5⟩ := hhead groups h1 h2
      rcases hs with rfl | rfl | rfl
      · rw [List.nil_append, h4] at h3; injection h3 with h3; subst h3; exact absurd h5 (by decide)
      · rw [List.singleton_append] at h3; injection h3 with h3; exact absurd h3 (by decide)
      · rw [List.singleton_append] at h3; injection h3 with _ h3
        exact ⟨_, (intBody_iff _ _).2 ⟨groups, h1, h2, h3, rfl⟩, by simp⟩
  · rename_i l
    rw [Option.map_eq_some_iff]
    constructor
    · rintro ⟨v, h, rfl⟩
      obtain ⟨groups, h1, h2, rfl, rfl⟩ := (intBody_iff _ _).1 h
      exact ⟨['+'], groups, .inr (.inl rfl), h1, h2, rfl, by simp⟩
    · rintro ⟨sign, groups, hs, h1, h2, h3, rfl⟩
      obtain ⟨c, t, h4, h5⟩ := hhead groups h1 h2
      rcases hs with rfl | rfl | rfl
      · rw [List.nil_append, h4] at h3; injection h3 with h3; subst h3; exact absurd h5 (by decide)
      · rw [List.singleton_append] at h3; injection h3 with _ h3
        exact ⟨_, (intBody_iff _ _).2 ⟨groups, h1, h2, h3, rfl⟩, by simp⟩
      · rw [List.singleton_append] at h3; injection h3 with h3; exact absurd h3 (by decide)
  · rename_i l hm hp
    rw [Option.map_eq_some_iff]
    constructor
    · rintro ⟨v, h, rfl⟩
      obtain ⟨groups, h1, h2, rfl, rfl⟩ := (intBody_iff _ _).1 h
      exact ⟨[], groups, .inl rfl, h1, h2, rfl, by simp⟩
    · rintro ⟨sign, groups, hs, h1, h2, h3, rfl⟩
      rcases hs with rfl | rfl | rfl
      · exact ⟨_, (intBody_iff _ _).2 ⟨groups, h1, h2, h3, rfl⟩, by simp⟩
      · exact absurd h3 (hp _)
      · exact absurd h3 (hm _)

theorem of_mem_takeWhile {p : Char → Bool} {c : Char} {l : List Char} (h : c ∈ l.takeWhile p) : p c = true := by
  have := List.all_takeWhile (l := l) (p := p)
  exact List.all_eq_true.1 this c h

theorem stripped_parts (l : List Char) : ∃ pre post, (∀ c ∈ pre, isSpace c = true) ∧ (∀ c ∈ post, isSpace c = true) ∧ l = pre ++ stripped l ++ post := by
  refine ⟨l.takeWhile isSpace, ((l.dropWhile isSpace).reverse.takeWhile isSpace).reverse, fun c hc => ?_, fun c hc => ?_, ?_⟩
  · exact of_mem_takeWhile hc
  · exact of_mem_takeWhile (List.mem_reverse.1 hc)
  · unfold stripped
    rw [List.append_assoc, ← List.reverse_append, List.takeWhile_append_dropWhile, List.reverse_reverse, List.takeWhile_append_dropWhile]

theorem stripped_append {pre body post : List Char} (h1 : ∀ c ∈ pre, isSpace c = true) (h2 : ∀ c ∈ post, isSpace c = true)
    (h3 : ∀ c ∈ body, isSpace c = false) (h4 : body ≠ []) : stripped (pre ++ body ++ post) = body := by
  have hd : ∀ p b : List Char, (∀ c ∈ p, isSpace c = true) → (∀ c ∈ b.head?, isSpace c = false) → (p ++ b).dropWhile isSpace = b := by
    intro p b hp hb
    induction p with
    | nil =>
      cases b with
      | nil => rfl
      | cons c b => simp [hb c (by simp)]
    | cons a p ih => simp [hp a (by simp), ih fun c hc => hp c (by simp [hc])]
  unfold stripped
  rw [List.append_assoc, hd _ _ h1 (by
    cases body with
    | nil => exact absurd rfl h4
    | cons a b => simp; exact h3 a (by simp)), List.reverse_append, hd _ _ (fun c hc => h2 c (List.mem_reverse.1 hc)) (by
    intro c hc
    have : c ∈ body.reverse := List.mem_of_mem_head? hc
    exact h3 c (List.mem_reverse.1 this)), List.reverse_reverse]

/-- `int(k)` of a string. -/
theorem toInt_str (s : String) (i : Int) : (Key.str s).toInt = .ok i ↔ IntLiteral s i := by
  have h0 : (Key.str s).toInt = .ok i ↔ intSigned (stripped s.toList) = some i := by
    simp only [Key.toInt]
    split
    · rename_i j h
      rw [h]
      constructor <;> intro e <;> injection e with e <;> rw [e]
    · rename_i h
      rw [h]
      constructor <;> intro e <;> cases e
  rw [h0, intSigned_iff]
  constructor
  · rintro ⟨sign, groups, hs, h1, h2, h3, rfl⟩
    obtain ⟨pre, post, h4, h5, h6⟩ := stripped_parts s.toList
    refine ⟨pre, sign, groups, post, fun c hc => (isSpace_iff c).1 (h4 c hc), fun c hc => (isSpace_iff c).1 (h5 c hc), hs, h1,
      fun g hg => ⟨(h2 g hg).1, fun c hc => (isDigit_iff c).1 ((h2 g hg).2 c hc)⟩, ?_, rfl⟩
    rw [h3, ← List.append_assoc] at h6
    exact h6
  · rintro ⟨pre, sign, groups, post, h4, h5, hs, h1, h2, h6, rfl⟩
    have h2' : ∀ g ∈ groups, g ≠ [] ∧ ∀ c ∈ g, c.isDigit = true := fun g hg => ⟨(h2 g hg).1, fun c hc => (isDigit_iff c).2 ((h2 g hg).2 c hc)⟩
    refine ⟨sign, groups, hs, h1, h2', ?_, rfl⟩
    have hbody : ∀ c ∈ sign ++ List.intercalate ['_'] groups, isSpace c = false := by
      intro c hc
      rcases List.mem_append.1 hc with hc | hc
      · rcases hs with rfl | rfl | rfl <;> simp at hc <;> rw [hc] <;> decide
      · cases groups with
        | nil => simp [List.intercalate] at hc
        | cons g t =>
          rw [intercalate_cons] at hc
          rcases List.mem_append.1 hc with hc | hc
          · exact isDigit_not_ws ((h2' g (by simp)).2 c hc)
          · obtain ⟨x, hx, hc⟩ := List.mem_flatten.1 hc
            obtain ⟨y, hy, rfl⟩ := List.mem_map.1 hx
            rcases List.mem_cons.1 hc with rfl | hc
            · decide
            · exact isDigit_not_ws ((h2' y (by simp [hy])).2 c hc)
    have hne : sign ++ List.intercalate ['_'] groups ≠ [] := by
      cases groups with
      | nil => exact absurd rfl h1
      | cons g t =>
        rw [intercalate_cons]
        intro h
        exact (h2 g (by simp)).1 (List.append_eq_nil_iff.1 (List.append_eq_nil_iff.1 h).2).1
    rw [h6, List.append_assoc pre sign, stripped_append (fun c hc => (isSpace_iff c).2 (h4 c hc)) (fun c hc => (isSpace_iff c).2 (h5 c hc)) hbody hne]

/-- `int(k)`. -/
theorem toInt_iff (k : Key) (i : Int) : k.toInt = .ok i ↔ Denotes k i := by
  cases k with
  | int j =>
    simp only [Key.toInt, Denotes]
    constructor
    · intro h; injection h
    · rintro rfl; rfl
  | str s => exact toInt_str s i

theorem toInt_error {k : Key} (h : ∀ i, ¬ Denotes k i) : k.toInt = .error .valueError := by
  cases hk : k.toInt with
  | ok i => exact absurd ((toInt_iff k i).1 hk) (h i)
  | error e =>
    cases k with
    | int j => simp [Key.toInt] at hk
    | str s =>
      simp only [Key.toInt] at hk
      split at hk <;> cases hk
      rfl

theorem mapM_error {α β : Type _} {f : α → Py β} {e : Err} (l : List α) (h : ∀ a ∈ l, (∃ b, f a = .ok b) ∨ f a = .error e) (hb : ∃ a ∈ l, f a = .error e) :
    l.mapM f = .error e := by
  induction l with
  | nil => simp at hb
  | cons a l ih =>
    rw [List.mapM_cons]
    rcases h a (by simp) with ⟨b, hb1⟩ | h1
    · rw [hb1, ok_bind, ih (fun x hx => h x (by simp [hx])) (by
        obtain ⟨x, hx, hx2⟩ := hb
        rcases List.mem_cons.1 hx with rfl | hx
        · rw [hb1] at hx2; cases hx2
        · exact ⟨x, hx, hx2⟩)]
      rfl
    · rw [h1]; rfl

/-- A key that is no literal. -/
theorem intKeys_error {d : Props} (h : ∃ kv ∈ d, ∀ i, ¬ Denotes kv.1 i) : intKeys d = .error .valueError := by
  unfold intKeys
  rw [mapM_error (e := .valueError)]
  · rfl
  · intro kv _
    by_cases hk : ∃ i, Denotes kv.1 i
    · obtain ⟨i, hi⟩ := hk
      exact .inl ⟨_, by rw [(toInt_iff _ _).2 hi]; rfl⟩
    · right
      rw [toInt_error fun i hi => hk ⟨i, hi⟩]
      rfl
  · obtain ⟨kv, h1, h2⟩ := h
    exact ⟨kv, h1, by rw [toInt_error h2]; rfl⟩

theorem get?_ofPairs_last {l : List (Key × Val)} {k : Key} {v : Val} : Dict.get? (Dict.ofPairs l) k = some v ↔
    ∃ before after, l = before ++ (k, v) :: after ∧ ∀ kv ∈ after, kv.1 ≠ k := by
  rw [Dict.ofPairs, Dict.get?_update']
  have hnil : Dict.get? ([] : Dict Key Val) k = none := rfl
  rw [hnil, Option.or_none]
  induction l using List.reverseRecOn with
  | nil => simp
  | append_singleton l a ih =>
    obtain ⟨k', v'⟩ := a
    rw [List.reverse_append, List.reverse_singleton, List.singleton_append, Dict.get?_cons]
    by_cases e : k' = k
    · rw [if_pos e]
      constructor
      · intro h; injection h with h; subst h e
        exact ⟨l, [], rfl, by simp⟩
      · rintro ⟨b, a, h1, h2⟩
        rcases List.eq_nil_or_concat a with rfl | ⟨a', x, rfl⟩
        · have := (List.append_inj' h1 rfl).2
          injection this with this; injection this with _ this
          rw [this]
        · exfalso
          rw [List.concat_eq_append, ← List.cons_append, ← List.append_assoc] at h1
          have := (List.append_inj' h1 rfl).2
          injection this with this
          exact h2 x (by simp) (by rw [← this]; exact e)
    · rw [if_neg e]
      refine ih.trans ?_
      constructor
      · rintro ⟨b, a, rfl, h2⟩
        exact ⟨b, a ++ [(k', v')], by simp, fun kv hkv => by
          rcases List.mem_append.1 hkv with h | h
          · exact h2 kv h
          · rw [List.mem_singleton.1 h]; exact e⟩
      · rintro ⟨b, a, h1, h2⟩
        rcases List.eq_nil_or_concat a with rfl | ⟨a', x, rfl⟩
        · have := (List.append_inj' h1 rfl).2
          injection this with this; injection this with this _
          exact absurd this e
        · rw [List.concat_eq_append, ← List.cons_append, ← List.append_assoc] at h1
          have h3 := (List.append_inj' h1 rfl).1
          exact ⟨b, a', h3, fun kv hkv => h2 kv (by simp [hkv])⟩

theorem forall₂_append_right {α β : Type _} {R : α → β → Prop} {l : List α} {r1 r2 : List β} (h : List.Forall₂ R l (r1 ++ r2)) :
    ∃ l1 l2, List.Forall₂ R l1 r1 ∧ List.Forall₂ R l2 r2 ∧ l = l1 ++ l2 := by
  induction r1 generalizing l with
  | nil => exact ⟨[], l, .nil, h, rfl⟩
  | cons b r1 ih =>
    cases h with
    | cons h1 h2 =>
      obtain ⟨l1, l2, h3, h4, rfl⟩ := ih h2
      exact ⟨_ :: l1, l2, .cons h1 h3, h4, rfl⟩

theorem forall₂_append_left {α β : Type _} {R : α → β → Prop} {r : List β} {l1 l2 : List α} (h : List.Forall₂ R (l1 ++ l2) r) :
    ∃ r1 r2, List.Forall₂ R l1 r1 ∧ List.Forall₂ R l2 r2 ∧ r = r1 ++ r2 := by
  induction l1 generalizing r with
  | nil => exact ⟨[], r, .nil, h, rfl⟩
  | cons b l1 ih =>
    cases h with
    | cons h1 h2 =>
      obtain ⟨r1, r2, h3, h4, rfl⟩ := ih h2
      exact ⟨_ :: r1, r2, .cons h1 h3, h4, rfl⟩

theorem mapM_toInt {d : Props} {l : List (Key × Val)} (h : (d.mapM fun kv => (do pure (Key.int (← kv.1.toInt), kv.2) : Py (Key × Val))) = .ok l) :
    List.Forall₂ (fun a b => ∃ i, Denotes a.1 i ∧ b = (.int i, a.2)) d l := by
  induction d generalizing l with
  | nil =>
    have : l = [] := by simpa [pure, Except.pure] using h.symm
    subst this; exact .nil
  | cons a d ih =>
    rw [List.mapM_cons] at h
    obtain ⟨b, hb, h⟩ := bind_ok h
    obtain ⟨bs, hbs, h⟩ := bind_ok h
    have : l = b :: bs := by simpa [pure, Except.pure] using h.symm
    subst this
    obtain ⟨i, hi, hb⟩ := bind_ok hb
    exact .cons ⟨i, (toInt_iff _ _).1 hi, by simpa [pure, Except.pure] using hb.symm⟩ (ih hbs)

theorem denotes_unique {k : Key} {i j : ℤ} (h1 : Denotes k i) (h2 : Denotes k j) : i = j := by
  rw [← toInt_iff] at h1 h2
  rw [h1] at h2
  injection h2

/-- `{int(k): v for k, v in d.items()}` when all keys are literals. -/
theorem intKeys_ok {d : Props} (h : ∀ kv ∈ d, ∃ i, Denotes kv.1 i) : ∃ e, intKeys d = .ok e ∧ Dict.WF e ∧ (∀ k ∈ Dict.keys e, ∃ i, k = .int i) ∧
    ∀ i v, Dict.get? e (.int i) = some v ↔ LastEntry d i v := by
  have hex : ∃ l, (d.mapM fun kv => (do pure (Key.int (← kv.1.toInt), kv.2) : Py (Key × Val))) = .ok l := by
    clear * - h
    induction d with
    | nil => exact ⟨[], rfl⟩
    | cons a d ih =>
      obtain ⟨i, hi⟩ := h a (by simp)
      obtain ⟨l, hl⟩ := ih fun kv hkv => h kv (by simp [hkv])
      exact ⟨(.int i, a.2) :: l, by rw [List.mapM_cons, (toInt_iff _ _).2 hi, hl]; rfl⟩
  obtain ⟨l, hl⟩ := hex
  have hf := mapM_toInt hl
  refine ⟨Dict.ofPairs l, by rw [intKeys, hl]; rfl, Dict.WF.ofPairs l, fun k hk => ?_, fun i v => ?_⟩
  · rw [Dict.ofPairs, Dict.mem_keys_update] at hk
    rcases hk with hk | hk
    · simp at hk
    obtain ⟨kv, hkv, rfl⟩ := List.mem_map.1 hk
    clear * - hf hkv
    induction hf with
    | nil => simp at hkv
    | cons h1 _ ih =>
      rcases List.mem_cons.1 hkv with rfl | hkv
      · obtain ⟨i, -, e⟩ := h1
        exact ⟨i, by rw [e]⟩
      · exact ih hkv
  · rw [get?_ofPairs_last]
    clear hl
    have hmem : ∀ {d : Props} {l : List (Key × Val)}, List.Forall₂ (fun a b => ∃ i, Denotes a.1 i ∧ b = (Key.int i, a.2)) d l →
        ((∀ kv ∈ l, kv.1 ≠ Key.int i) ↔ ∀ kv ∈ d, ¬ Denotes kv.1 i) := by
      intro d l hf
      induction hf with
      | nil => simp
      | cons h1 _ ih =>
        obtain ⟨j, hj, e⟩ := h1
        simp only [List.forall_mem_cons]
        rw [ih, e]
        refine and_congr_left fun _ => not_congr ?_
        constructor
        · intro h; injection h with h; rw [← h]; exact hj
        · intro h; rw [denotes_unique hj h]
    constructor
    · rintro ⟨b, a, rfl, h2⟩
      obtain ⟨b', r, hb, hr, rfl⟩ := forall₂_append_right hf
      cases r with
      | nil => cases hr
      | cons x r =>
        cases hr with
        | cons h3 h4 =>
          obtain ⟨j, hj, e⟩ := h3
          injection e with e1 e2
          injection e1 with e1
          obtain ⟨k, w⟩ := x
          refine ⟨b', k, r, by rw [e2], by rw [e1]; exact hj, (hmem h4).1 h2⟩
    · rintro ⟨b, k, a, rfl, h1, h2⟩
      obtain ⟨b', r, hb, hr, rfl⟩ := forall₂_append_left hf
      cases hr with
      | cons h3 h4 =>
        obtain ⟨j, hj, e⟩ := h3
        rw [denotes_unique hj h1] at e
        exact ⟨b', _, by rw [e], (hmem h4).2 h2⟩

end Pyl
