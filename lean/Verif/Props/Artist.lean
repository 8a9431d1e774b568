import Verif.Spec.Viz
import Verif.Props.ResultAnalyzer
/-
C74, C75, C85: colour maps, legends, colours of cells.
-/
set_option autoImplicit false
set_option linter.unusedSectionVars false

namespace Pyl
open SimState Spec Analyzer SimResult ResultAnalyzer

/-! ### C74 -/

theorem lastAt_snoc {α : Type} {l : List α} {a p : α} {i : ℕ} : LastAt (l ++ [a]) p i ↔ (p = a ∧ i = l.length) ∨ (p ≠ a ∧ LastAt l p i) := by
  have hlen : (l ++ [a])[l.length]? = some a := by simp
  unfold LastAt
  constructor
  · rintro ⟨h1, h2⟩
    by_cases e : p = a
    · subst e
      refine .inl ⟨rfl, ?_⟩
      rcases lt_trichotomy i l.length with h | h | h
      · exact absurd hlen (h2 _ h)
      · exact h
      · rw [List.getElem?_eq_none (by simp; omega)] at h1; cases h1
    · refine .inr ⟨e, ?_, fun j hj hc => ?_⟩
      · rcases lt_trichotomy i l.length with h | h | h
        · rwa [List.getElem?_append_left h] at h1
        · subst h; rw [hlen] at h1; injection h1 with h1; exact absurd h1.symm e
        · rw [List.getElem?_eq_none (by simp; omega)] at h1; cases h1
      · have hj' : j < l.length := (List.getElem?_eq_some_iff.1 hc).1
        exact h2 j hj (by rw [List.getElem?_append_left hj']; exact hc)
  · rintro (⟨rfl, rfl⟩ | ⟨e, h1, h2⟩)
    · refine ⟨hlen, fun j hj => ?_⟩
      rw [List.getElem?_eq_none (by simp; omega)]; simp
    · have hi : i < l.length := (List.getElem?_eq_some_iff.1 h1).1
      refine ⟨by rw [List.getElem?_append_left hi]; exact h1, fun j hj hc => ?_⟩
      rcases lt_trichotomy j l.length with h | h | h
      · exact h2 j hj (by rwa [List.getElem?_append_left h] at hc)
      · subst h; rw [hlen] at hc; injection hc with hc; exact e hc.symm
      · rw [List.getElem?_eq_none (by simp; omega)] at hc; cases hc

theorem exists_lastAt {α : Type} {l : List α} {p : α} (h : p ∈ l) : ∃ i, i < l.length ∧ LastAt l p i := by
  induction l using List.reverseRecOn with
  | nil => simp at h
  | append_singleton l a ih =>
    by_cases e : p = a
    · exact ⟨l.length, by simp, lastAt_snoc.2 (.inl ⟨e, rfl⟩)⟩
    · obtain ⟨i, hi, h2⟩ := ih (by simpa [e] using h)
      exact ⟨i, by simp; omega, lastAt_snoc.2 (.inr ⟨e, h2⟩)⟩

theorem Spec.LastAt.unique {α : Type} {l : List α} {p q : α} {i j : ℕ} (h : LastAt l p i) (h' : LastAt l q j) : i = j ↔ p = q := by
  constructor
  · rintro rfl
    have := h.1.symm.trans h'.1
    injection this
  · rintro rfl
    by_contra hne
    rcases lt_or_gt_of_ne hne with hlt | hlt
    · exact h.2 j hlt h'.1
    · exact h'.2 i hlt h.1

/-- Going through a list and giving the entries the colours `g 0`, `g 1`, ... -/
theorem foldlM_colors (pal : ℕ → Py Color) (g : ℕ → Color) (l : List Val) (hl : ∀ p ∈ l, p.hashable = true) (hp : ∀ i < l.length, pal i = .ok (g i)) :
    ∃ m, l.foldlM (fun (x : Dict Val Color × ℕ) p => do
        let c ← pal x.2
        let m ← setHashed x.1 p c
        pure (m, x.2 + 1)) ([], 0) = Except.ok (m, l.length) ∧ Dict.WF m ∧ (∀ p, p ∈ Dict.keys m ↔ p ∈ l) ∧
      ∀ p i, LastAt l p i → Dict.get? m p = some (g i) := by
  induction l using List.reverseRecOn with
  | nil => exact ⟨[], rfl, Dict.WF.nil, by simp [Dict.keys], by intro p i h; simp [LastAt] at h⟩
  | append_singleton l a ih =>
    obtain ⟨m, h1, h2, h3, h4⟩ := ih (fun p h => hl p (by simp [h])) fun i hi => hp i (by simp; omega)
    refine ⟨Dict.set m a (g l.length), ?_, h2.set _ _, fun p => ?_, fun p i h => ?_⟩
    · rw [List.foldlM_append, h1, ok_bind, List.foldlM_cons]
      simp only [hp l.length (by simp), ok_bind, setHashed, hl a (by simp), if_true, pure, Except.pure, List.foldlM_nil, List.length_append,
        List.length_singleton]
    · rw [Dict.mem_keys_set, h3]; simp [or_comm]
    · rw [Dict.get?_set]
      rcases lastAt_snoc.1 h with ⟨rfl, rfl⟩ | ⟨hne, h⟩
      · rw [if_pos rfl]
      · rw [if_neg (Ne.symm hne)]; exact h4 p i h

/-- C74: every listed phase gets a colour, the palette colour with the number of its (last) place in the list, modulo 70. -/
theorem C74_map (phases : List Val) (h : ∀ p ∈ phases, p.hashable = true) :
    ∃ m, buildColorMap phases = .ok m ∧ (∀ p, p ∈ Dict.keys m ↔ p ∈ phases) ∧
      ∀ p i, LastAt phases p i → ∃ c, Dict.get? m p = some c ∧ COLORS[i % 70]? = some c := by
  have hpal : ∀ i, paletteAt (i % COLORS.length) = .ok ((COLORS[i % 70]?).getD (0, 0, 0)) := by
    intro i
    have hi : i % 70 < COLORS.length := Nat.mod_lt _ (by decide)
    show paletteAt (i % 70) = _
    unfold paletteAt
    rw [List.getElem?_eq_getElem hi]; rfl
  obtain ⟨m, h1, -, h2, h3⟩ := foldlM_colors (fun i => paletteAt (i % COLORS.length)) (fun i => (COLORS[i % 70]?).getD (0, 0, 0)) phases h fun i _ => hpal i
  refine ⟨m, ?_, h2, fun p i hi => ⟨_, h3 p i hi, ?_⟩⟩
  · unfold buildColorMap; rw [h1]; rfl
  · have hi : i % 70 < COLORS.length := Nat.mod_lt _ (by decide)
    rw [List.getElem?_eq_getElem hi]; rfl

/-- C74: the same for `helpers.color_map`, up to 70 phases; longer lists raise IndexError. -/
theorem C74_helper (phases : List Val) (h : ∀ p ∈ phases, p.hashable = true) :
    (phases.length ≤ 70 → ∃ m, colorMap phases = .ok m ∧ (∀ p, p ∈ Dict.keys m ↔ p ∈ phases) ∧
      ∀ p i, LastAt phases p i → ∃ c, Dict.get? m p = some c ∧ COLORS[i]? = some c) ∧
    (70 < phases.length → colorMap phases = .error .indexError) := by
  have hpal : ∀ i < 70, paletteAt i = .ok ((COLORS[i]?).getD (0, 0, 0)) := by
    intro i hi
    have hi : i < COLORS.length := hi
    unfold paletteAt
    rw [List.getElem?_eq_getElem hi]; rfl
  constructor
  · intro hlen
    obtain ⟨m, h1, -, h2, h3⟩ := foldlM_colors paletteAt (fun i => (COLORS[i]?).getD (0, 0, 0)) phases h fun i hi => hpal i (by omega)
    refine ⟨m, ?_, h2, fun p i hi => ⟨_, h3 p i hi, ?_⟩⟩
    · unfold colorMap; rw [h1]; rfl
    · have hi : i < COLORS.length := lt_of_lt_of_le (List.getElem?_eq_some_iff.1 hi.1).1 hlen
      rw [List.getElem?_eq_getElem hi]; rfl
  · intro hlen
    obtain ⟨m, h1, -, -, -⟩ := foldlM_colors paletteAt (fun i => (COLORS[i]?).getD (0, 0, 0)) (phases.take 70) (fun p hp => h p (List.mem_of_mem_take hp))
      fun i hi => hpal i (by simp at hi; omega)
    obtain ⟨a, rest, e⟩ : ∃ a rest, phases.drop 70 = a :: rest := by
      cases hd : phases.drop 70 with
      | nil => have := congrArg List.length hd; simp at this; omega
      | cons a rest => exact ⟨a, rest, rfl⟩
    unfold colorMap
    conv_lhs => rw [← List.take_append_drop 70 phases, List.foldlM_append, h1, ok_bind, e, List.foldlM_cons]
    have : (phases.take 70).length = 70 := by simp; omega
    rw [this]
    rfl

/-- C74: a phase that cannot be a dict key raises TypeError (`color_map` only if the palette reaches that far). -/
theorem C74_unhashable (before after : List Val) (p : Val) (h : ∀ q ∈ before, q.hashable = true) (hp : p.hashable = false) :
    buildColorMap (before ++ p :: after) = .error .typeError ∧ (before.length < 70 → colorMap (before ++ p :: after) = .error .typeError) := by
  have hpal : ∀ i, i < COLORS.length → paletteAt i = .ok ((COLORS[i]?).getD (0, 0, 0)) := by
    intro i hi
    unfold paletteAt
    rw [List.getElem?_eq_getElem hi]; rfl
  constructor
  · have hm : ∀ i, i % COLORS.length < COLORS.length := fun i => Nat.mod_lt _ (by decide)
    obtain ⟨m, h1, -⟩ := foldlM_colors (fun i => paletteAt (i % COLORS.length)) (fun i => (COLORS[i % COLORS.length]?).getD (0, 0, 0)) before h
      fun i _ => hpal _ (hm i)
    unfold buildColorMap
    rw [List.foldlM_append, h1, ok_bind, List.foldlM_cons]
    simp only [hpal _ (hm before.length), ok_bind, setHashed, hp]
    rfl
  · intro hlen
    have hlen : before.length < COLORS.length := hlen
    obtain ⟨m, h1, -⟩ := foldlM_colors paletteAt (fun i => (COLORS[i]?).getD (0, 0, 0)) before h fun i hi => hpal i (by omega)
    unfold colorMap
    rw [List.foldlM_append, h1, ok_bind, List.foldlM_cons]
    simp only [hpal _ hlen, ok_bind, setHashed, hp]
    rfl

example : (Val.list [Val.str "A"]).hashable = false ∧ ∀ q ∈ [Val.str "A", Val.str "B"], q.hashable = true := by decide

theorem palette_distinct : ∀ i < 22, ∀ j < 22, COLORS[i]? = COLORS[j]? → i = j := by decide +kernel

/-- C74 (partial): with at most 22 entries, different phases get different colours.  The palette repeats a colour at its 23rd place
(`C74_collision`). -/
theorem C74_distinct_partial (phases : List Val) (h : ∀ p ∈ phases, p.hashable = true) (hlen : phases.length ≤ 22) :
    ∃ m, buildColorMap phases = .ok m ∧ ∀ p ∈ phases, ∀ q ∈ phases, p ≠ q → Dict.get? m p ≠ Dict.get? m q := by
  obtain ⟨m, h1, -, h3⟩ := C74_map phases h
  refine ⟨m, h1, fun p hp q hq hne e => hne ?_⟩
  obtain ⟨i, hi, hli⟩ := exists_lastAt hp
  obtain ⟨j, hj, hlj⟩ := exists_lastAt hq
  obtain ⟨c, hc, hc'⟩ := h3 p i hli
  obtain ⟨c2, hd, hd'⟩ := h3 q j hlj
  rw [hc, hd] at e
  injection e with e
  subst e
  rw [Nat.mod_eq_of_lt (by omega)] at hc' hd'
  exact (hli.unique hlj).1 (palette_distinct i (by omega) j (by omega) (hc'.trans hd'.symm))

/-- C74 is false beyond: any 23 or more different phases have two with the same colour. -/
theorem C74_collision (phases : List Val) (h : ∀ p ∈ phases, p.hashable = true) (hn : phases.Nodup) (hlen : 23 ≤ phases.length) :
    ∃ m, buildColorMap phases = .ok m ∧ ∃ p ∈ phases, ∃ q ∈ phases, p ≠ q ∧ Dict.get? m p = Dict.get? m q := by
  obtain ⟨m, h1, -, h3⟩ := C74_map phases h
  have hlast : ∀ i (hi : i < phases.length), LastAt phases phases[i] i := by
    intro i hi
    refine ⟨List.getElem?_eq_getElem hi, fun j hj hc => ?_⟩
    obtain ⟨hj', hc⟩ := List.getElem?_eq_some_iff.1 hc
    have := (List.Nodup.getElem_inj_iff hn).1 hc
    omega
  refine ⟨m, h1, phases[15], List.getElem_mem _, phases[22], List.getElem_mem _, ?_, ?_⟩
  · intro e
    have := (List.Nodup.getElem_inj_iff hn).1 e
    omega
  · obtain ⟨c, hc, hc'⟩ := h3 _ 15 (hlast 15 (by omega))
    obtain ⟨c2, hd, hd'⟩ := h3 _ 22 (hlast 22 (by omega))
    have : COLORS[15 % 70]? = COLORS[22 % 70]? := by decide
    rw [hc', hd'] at this
    rw [hc, hd]; exact this

/-- 23 different phases. -/
example : ∃ phases : List Val, (∀ p ∈ phases, p.hashable = true) ∧ phases.Nodup ∧ phases.length = 23 :=
  ⟨(List.range 23).map fun i : ℕ => .num i, by simp [Val.hashable], by
    refine List.Nodup.map (fun a b e => ?_) List.nodup_range
    injection e with e; exact_mod_cast e, by simp⟩

example : ∃ m, buildColorMap [.str "A", .str "B", .str "A"] = .ok m ∧ Dict.get? m (.str "A") = some (47, 79, 79) ∧ Dict.get? m (.str "B") = some (0, 255, 127) :=
  ⟨_, rfl, rfl, rfl⟩

/-! ### C75 -/

theorem firstWith_snoc {α : Type} {l : List α} {a b : α} {P : α → Prop} {i : ℕ} :
    FirstWith (l ++ [a]) P i b ↔ FirstWith l P i b ∨ (b = a ∧ i = l.length ∧ P a ∧ ∀ c ∈ l, ¬ P c) := by
  unfold FirstWith
  constructor
  · rintro ⟨h1, h2, h3⟩
    rcases lt_trichotomy i l.length with h | h | h
    · rw [List.getElem?_append_left h] at h1
      refine .inl ⟨h1, h2, fun j c hj hc => h3 j c hj ?_⟩
      rw [List.getElem?_append_left (by omega)]; exact hc
    · subst h
      have h4 : b = a := by simpa [eq_comm] using h1
      subst h4
      refine .inr ⟨rfl, rfl, h2, fun c hc => ?_⟩
      obtain ⟨j, hj, rfl⟩ := List.getElem_of_mem hc
      exact h3 j _ hj (by rw [List.getElem?_append_left hj, List.getElem?_eq_getElem hj])
    · rw [List.getElem?_eq_none (by simp; omega)] at h1; cases h1
  · rintro (⟨h1, h2, h3⟩ | ⟨rfl, rfl, h2, h3⟩)
    · have hi : i < l.length := (List.getElem?_eq_some_iff.1 h1).1
      refine ⟨by rw [List.getElem?_append_left hi]; exact h1, h2, fun j c hj hc => h3 j c hj ?_⟩
      rwa [List.getElem?_append_left (by omega)] at hc
    · refine ⟨by simp, h2, fun j c hj hc => h3 c ?_⟩
      rw [List.getElem?_append_left hj] at hc
      exact List.mem_of_getElem? hc

/-- C75: the legend has exactly the labels that occur in the state, each with the colour of the first site that carries it, in the order of first occurrence.
Stated for every artist whose two methods do not raise on the sites of the state. -/
theorem C75_legend (A : CellArtist) (hA : A.legend = none) (s : SimState) (lab : Props → String) (col : Props → Color)
    (h : ∀ p ∈ s.allSiteStates, A.label (some p) = .ok (lab p) ∧ A.color (some p) = .ok (col p)) :
    ∃ L, A.getLegend s = .ok L ∧ (Dict.keys L).Nodup ∧
      (∀ l, l ∈ Dict.keys L ↔ ∃ p ∈ s.allSiteStates, lab p = l) ∧
      ∀ l c, Dict.get? L l = some c ↔ ∃ i p, FirstWith s.allSiteStates (fun q => lab q = l) i p ∧ col p = c := by
  unfold CellArtist.getLegend
  rw [hA]
  simp only
  generalize s.allSiteStates = ps at h
  induction ps using List.reverseRecOn with
  | nil => exact ⟨[], rfl, by simp [Dict.keys], by simp [Dict.keys], by simp [Dict.get?, FirstWith]⟩
  | append_singleton ps a ih =>
    obtain ⟨L, h1, h2, h3, h4⟩ := ih fun p hp => h p (by simp [hp])
    obtain ⟨ha, hc⟩ := h a (by simp)
    by_cases hm : lab a ∈ Dict.keys L
    · refine ⟨L, ?_, h2, fun l => ?_, fun l c => ?_⟩
      · rw [List.foldlM_append, h1, ok_bind, List.foldlM_cons]
        simp only [CellArtist.addLegend, ha, ok_bind, if_pos hm, pure, Except.pure, List.foldlM_nil]
      · rw [h3]
        constructor
        · rintro ⟨p, hp, e⟩; exact ⟨p, by simp [hp], e⟩
        · rintro ⟨p, hp, rfl⟩
          rcases List.mem_append.1 hp with hp | hp
          · exact ⟨p, hp, rfl⟩
          · rw [List.mem_singleton.1 hp]; exact (h3 _).1 hm
      · rw [h4]
        simp only [firstWith_snoc]
        constructor
        · rintro ⟨i, p, hf, e⟩; exact ⟨i, p, .inl hf, e⟩
        · rintro ⟨i, p, hf | ⟨rfl, rfl, rfl, hf⟩, e⟩
          · exact ⟨i, p, hf, e⟩
          · obtain ⟨q, hq, e'⟩ := (h3 _).1 hm
            exact absurd e' (hf q hq)
    · refine ⟨Dict.set L (lab a) (col a), ?_, Dict.WF.set h2 _ _, fun l => ?_, fun l c => ?_⟩
      · rw [List.foldlM_append, h1, ok_bind, List.foldlM_cons]
        simp only [CellArtist.addLegend, ha, hc, ok_bind, if_neg hm, pure, Except.pure, List.foldlM_nil]
      · rw [Dict.mem_keys_set, h3]
        simp only [List.mem_append, List.mem_singleton]
        constructor
        · rintro (rfl | ⟨p, hp, e⟩)
          · exact ⟨a, .inr rfl, rfl⟩
          · exact ⟨p, .inl hp, e⟩
        · rintro ⟨p, hp | rfl, e⟩
          · exact .inr ⟨p, hp, e⟩
          · exact .inl e.symm
      · rw [Dict.get?_set]
        simp only [firstWith_snoc]
        have hno : ∀ q ∈ ps, ¬ lab q = lab a := fun q hq e => hm ((h3 _).2 ⟨q, hq, e⟩)
        by_cases e : lab a = l
        · subst e
          rw [if_pos rfl]
          constructor
          · intro hc; injection hc with hc
            exact ⟨ps.length, a, .inr ⟨rfl, rfl, rfl, hno⟩, hc⟩
          · rintro ⟨i, p, ⟨hp, hl, -⟩ | ⟨rfl, -⟩, rfl⟩
            · exact absurd hl (hno p (List.mem_of_getElem? hp))
            · rfl
        · rw [if_neg e, h4]
          constructor
          · rintro ⟨i, p, hf, e⟩; exact ⟨i, p, .inl hf, e⟩
          · rintro ⟨i, p, hf | ⟨rfl, -, e', -⟩, hc⟩
            · exact ⟨i, p, hf, hc⟩
            · exact absurd e' e

/-- C75: a legend given to the constructor is returned as it is. -/
theorem C75_given (str : Val → String) (cmap : Option (Dict Val Color)) (key : Key) (L : Dict String Color) (s : SimState) :
    (discreteArtist str cmap key (some L)).getLegend s = .ok L := rfl

/-- C75 for discrete artists: the labels are the texts of the values under the given `state_key`, the colours those of the colour map, black for a value
that the map does not have. -/
theorem C75_state_key (str : Val → String) (m : Dict Val Color) (key : Key) (s : SimState) (ph : Props → Val)
    (h : ∀ p ∈ s.allSiteStates, Dict.get? p key = some (ph p) ∧ (ph p).hashable = true) :
    ∃ L, (discreteArtist str (some m) key none).getLegend s = .ok L ∧ (∀ l, l ∈ Dict.keys L ↔ ∃ p ∈ s.allSiteStates, str (ph p) = l) ∧
      ∀ l c, Dict.get? L l = some c ↔ ∃ i p, FirstWith s.allSiteStates (fun q => str (ph q) = l) i p ∧ (Dict.get? m (ph p)).getD (0, 0, 0) = c := by
  obtain ⟨L, h1, -, h2, h3⟩ := C75_legend (discreteArtist str (some m) key none) rfl s (fun p => str (ph p))
    (fun p => (Dict.get? m (ph p)).getD (0, 0, 0)) fun p hp => by
      obtain ⟨e1, e2⟩ := h p hp
      simp only [discreteArtist, cellValue, e1, ok_bind, phaseColor, e2, if_true]
      refine ⟨rfl, ?_⟩
      cases Dict.get? m (ph p) <;> rfl
  exact ⟨L, h1, h2, h3⟩

/-- Non-vacuity of `C75_state_key`: a state with two properties per site, drawn by the second one. -/
example : ∃ (s : SimState) (ph : Props → Val), (∀ p ∈ s.allSiteStates, Dict.get? p (.str "age") = some (ph p) ∧ (ph p).hashable = true) ∧
    (discreteArtist (fun v => match v with | .num x => if x = 1 then "1" else "2" | _ => "") (some [(.num 1, (1, 1, 1))]) (.str "age") none).getLegend s =
      .ok [("2", (0, 0, 0)), ("1", (1, 1, 1))] := by
  refine ⟨⟨[(.int 0, [(DISCRETE_OCCUPANCY, .str "A"), (.str "age", .num 2)]), (.int 1, [(DISCRETE_OCCUPANCY, .str "A"), (.str "age", .num 1)])], some []⟩,
    fun p => if p = [(DISCRETE_OCCUPANCY, .str "A"), (.str "age", .num 2)] then .num 2 else .num 1, ?_, by decide +kernel⟩
  intro p hp
  simp only [SimState.allSiteStates, Dict.values, List.map_cons, List.map_nil, List.mem_cons, List.not_mem_nil, or_false] at hp
  rcases hp with rfl | rfl <;> decide +kernel

/-- Non-vacuity of `C75_legend`: three sites A, B, A with a discrete artist. -/
example : ∃ (s : SimState) (A : CellArtist) (lab : Props → String) (col : Props → Color), s.size = 3 ∧ A.legend = none ∧
    (∀ p ∈ s.allSiteStates, A.label (some p) = .ok (lab p) ∧ A.color (some p) = .ok (col p)) ∧
    A.getLegend s = .ok [("A", (1, 1, 1)), ("B", (2, 2, 2))] := by
  refine ⟨⟨[(.int 0, [(DISCRETE_OCCUPANCY, .str "A")]), (.int 1, [(DISCRETE_OCCUPANCY, .str "B")]), (.int 2, [(DISCRETE_OCCUPANCY, .str "A")])], some []⟩,
    discreteArtist (fun v => match v with | .str x => x | _ => "") (some [(.str "A", (1, 1, 1)), (.str "B", (2, 2, 2))]) DISCRETE_OCCUPANCY none,
    fun p => if p = [(DISCRETE_OCCUPANCY, .str "A")] then "A" else "B", fun p => if p = [(DISCRETE_OCCUPANCY, .str "A")] then (1, 1, 1) else (2, 2, 2), rfl, rfl, ?_, by decide +kernel⟩
  intro p hp
  simp only [SimState.allSiteStates, Dict.values, List.map_cons, List.map_nil, List.mem_cons, List.not_mem_nil, or_false] at hp
  rcases hp with rfl | rfl | rfl <;> decide +kernel

/-! ### C85 -/

theorem palette_not_black : ∀ c ∈ COLORS, c ≠ (0, 0, 0) := by decide +kernel

/-- The colours an artist made from a list of phases gives. -/
theorem artist_colors (str : Val → String) (phases : List Val) (h : ∀ p ∈ phases, p.hashable = true) :
    ∃ A, ∃ f : Val → Color, artistFromPhases str phases = .ok A ∧ A.legend = none ∧
      (∀ p v, Dict.get? p DISCRETE_OCCUPANCY = some v → v.hashable = true → A.color (some p) = .ok (f v) ∧ A.label (some p) = .ok (str v)) ∧
      (∀ v ∈ phases, f v ∈ COLORS) ∧ (∀ v, v ∉ phases → f v = (0, 0, 0)) ∧
      (phases.length ≤ 22 → ∀ v ∈ phases, ∀ w ∈ phases, f v = f w → v = w) := by
  obtain ⟨m, h1, h2, h3⟩ := C74_map phases h
  have hget : ∀ v ∈ phases, ∃ c, Dict.get? m v = some c ∧ c ∈ COLORS := by
    intro v hv
    obtain ⟨i, -, hi⟩ := exists_lastAt hv
    obtain ⟨c, hc, hc'⟩ := h3 v i hi
    exact ⟨c, hc, List.mem_of_getElem? hc'⟩
  refine ⟨discreteArtist str (some m) DISCRETE_OCCUPANCY none, fun v => (Dict.get? m v).getD (0, 0, 0), ?_, rfl, ?_, ?_, ?_, ?_⟩
  · unfold artistFromPhases; rw [h1]; rfl
  · intro p v hp hh
    constructor
    · simp only [discreteArtist, cellValue, hp, ok_bind, phaseColor, hh, if_true]
      cases Dict.get? m v <;> rfl
    · simp only [discreteArtist, cellValue, hp, ok_bind]; rfl
  · intro v hv
    obtain ⟨c, hc, hc'⟩ := hget v hv
    simpa [hc] using hc'
  · intro v hv
    have : Dict.get? m v = none := by rw [Dict.get?_eq_none_iff, h2]; exact hv
    simp [this]
  · intro hlen v hv w hw e
    by_contra hne
    obtain ⟨m', h4, h5⟩ := C74_distinct_partial phases h hlen
    rw [h1] at h4; injection h4 with h4; subst h4
    obtain ⟨c, hc, -⟩ := hget v hv
    obtain ⟨c', hc', -⟩ := hget w hw
    simp only [hc, hc', Option.getD_some] at e
    exact h5 v hv w hw hne (by rw [hc, hc', e])

/-- C85 for `from_discrete_state`: every site of the state gets the colour of its phase, a palette colour (none of which is black); up to 22 phases,
sites with different phases get different colours. -/
theorem C85_state (str : Val → String) (s : SimState) (h : Analyzable s) (order : List Val → List Val) (hord : ∀ l, (order l).Perm l) :
    ∃ A, ∃ f : Val → Color, artistFromState str order s = .ok A ∧
      (∀ k v, occ? s k = some v → A.color (s.getSiteState k) = .ok (f v) ∧ f v ∈ COLORS ∧ f v ≠ (0, 0, 0)) ∧
      ((∃ l : List Val, l.length ≤ 22 ∧ ∀ k v, occ? s k = some v → v ∈ l) → ∀ k v k' w, occ? s k = some v → occ? s k' = some w → f v = f w → v = w) := by
  obtain ⟨ph, h1, hn, h2⟩ := phasesPresent_eq h.1 h.2.2 order hord
  have hh : ∀ v ∈ ph, v.hashable = true := by
    intro v hv
    obtain ⟨k, hk⟩ := (h2 v).1 hv
    exact hashable_of_occ h.2.2 hk
  obtain ⟨A, f, h3, -, h4, h5, -, h6⟩ := artist_colors str ph hh
  refine ⟨A, f, ?_, fun k v hk => ?_, ?_⟩
  · unfold artistFromState; rw [h1, ok_bind, h3]
  · obtain ⟨p, hp, hv⟩ := occ?_eq.1 hk
    have hm := (h2 v).2 ⟨k, hk⟩
    rw [hp]
    exact ⟨(h4 p v hv (hh v hm)).1, h5 v hm, palette_not_black _ (h5 v hm)⟩
  · rintro ⟨l, hl, hl'⟩ k v k' w hk hk'
    have hsub : ph ⊆ l := fun v hv => by
      obtain ⟨k, hk⟩ := (h2 v).1 hv
      exact hl' k v hk
    exact h6 ((hn.length_le_of_subset hsub).trans hl) v ((h2 v).2 ⟨k, hk⟩) w ((h2 w).2 ⟨k', hk'⟩)

/-- C85 (partial) for `from_discrete_result`: at every step, a site whose phase occurs at some step except the last gets the palette colour of its phase, and a
site with another phase is drawn black. -/
theorem C85_result_partial (str : Val → String) (s0 : SimState) (ops : List ROp) (h : StepsAnalyzable (resultAfter s0 ops)) (order : ℕ → List Val → List Val)
    (hord : ∀ t l, (order t l).Perm l) (order' : List Val → List Val) (hord' : ∀ l, (order' l).Perm l) :
    ∃ A, ∃ f : Val → Color, artistFromResult str order order' (resultAfter s0 ops) = .ok A ∧
      ∀ k : ℕ, k < (resultAfter s0 ops).len → ∃ s, (resultAfter s0 ops).getStep k = .ok s ∧ ∀ key v, occ? s key = some v → A.color (s.getSiteState key) = .ok (f v) ∧
        ((∃ j, j + 1 < (resultAfter s0 ops).len ∧ PhaseAt (resultAfter s0 ops) j v) → f v ∈ COLORS) ∧
        ((¬ ∃ j, j + 1 < (resultAfter s0 ops).len ∧ PhaseAt (resultAfter s0 ops) j v) → f v = (0, 0, 0)) := by
  obtain ⟨l, h1, -, h2, h3⟩ := allPhases_eq s0 ops h order hord
  obtain ⟨A, f, h4, -, h5, h6, h7, -⟩ := artist_colors str (order' l) fun v hv => h3 v ((hord' l).mem_iff.1 hv)
  refine ⟨A, f, ?_, fun k hk => ?_⟩
  · unfold artistFromResult; rw [h1, ok_bind]; exact h4
  · obtain ⟨s, hs, ha, -⟩ := h k hk
    refine ⟨s, hs, fun key v hv => ?_⟩
    obtain ⟨p, hp, hv'⟩ := occ?_eq.1 hv
    rw [hp]
    refine ⟨(h5 p v hv' (hashable_of_occ ha.2.2 hv)).1, fun hj => h6 v ?_, fun hj => h7 v ?_⟩
    · rw [(hord' l).mem_iff, h2]; exact hj
    · rw [(hord' l).mem_iff, h2]; exact hj

/-- C85 is false for `from_discrete_result`: in the run in which the only site goes from A to B, the site is drawn black at step 1. -/
theorem C85_false (str : Val → String) (order : ℕ → List Val → List Val) (hord : ∀ t l, (order t l).Perm l) (order' : List Val → List Val)
    (hord' : ∀ l, (order' l).Perm l) :
    ∃ A s, artistFromResult str order order' (resultAfter (oneSite (.str "A")) aToB) = .ok A ∧ (resultAfter (oneSite (.str "A")) aToB).getStep 1 = .ok s ∧
      occ? s (.int 0) = some (.str "B") ∧ A.color (s.getSiteState (.int 0)) = .ok (0, 0, 0) := by
  obtain ⟨A, f, h1, h2⟩ := C85_result_partial str _ _ aToB_analyzable order hord order' hord'
  obtain ⟨s, h3, h4⟩ := h2 1 (by rw [aToB_steps.2.2]; omega)
  have h5 := aToB_steps.2.1
  have h6 : s = oneSite (.str "B") := by
    have := h3.symm.trans h5
    injection this
  subst h6
  obtain ⟨h7, -, h8⟩ := h4 (.int 0) (.str "B") (oneSite_occ.2 ⟨rfl, rfl⟩)
  refine ⟨A, _, h1, h5, oneSite_occ.2 ⟨rfl, rfl⟩, ?_⟩
  rw [h7, h8]
  rw [aToB_phases]; simp

end Pyl
