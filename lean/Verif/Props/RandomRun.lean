import Verif.Lemmas.AsyncWalk
import Verif.Props.AsyncModels
import Mathlib.Analysis.SpecificLimits.Basic
/-
C124, C125: asynchronous runs with sites drawn at random.
-/
set_option autoImplicit false
set_option linter.unusedSectionVars false

namespace Pyl
open SimState Spec
open Pyl.Lattice Pyl.Structure
variable {σ : Type}
variable {K : Type} [Field K] [LinearOrder K] [FloorRing K] [IsStrictOrderedRing K] {d : ℕ}

theorem outcome_mod {m k : ℕ} (hm : 0 < m) (f : Fin k → Fin m) : (fun t => outcome f t % m) = outcome f :=
  funext fun t => Nat.mod_eq_of_lt (outcome_lt hm f t)

/-- C124: an asynchronous run with the inherited `get_random_site` is a random walk: whatever happened before, the next state arises by visiting one of the
`m` sites, each with probability 1 / m.  (A run of `n` steps draws `n + 1` times; the last draw is not used.) -/
theorem C124_chain (c : Controller σ) (m : ℕ) (hm : 0 < m) (visit : ℕ → σ × SimState → σ × SimState) (Inv : σ × SimState → Prop)
    (hc : Closed c m visit Inv) (st0 st1 : σ) (s0 : SimState) (hp : c.preRun st0 s0 = .ok (st1, s0)) (hI : Inv (st1, s0)) (n : ℕ)
    (A : ℕ → Set SimState) :
    chance m (n + 1) (fun f => ∃ a, runAsync (c.inherit (outcome f)) (st0, 0) s0 n = .ok a ∧ ∀ k : ℕ, k ≤ n → ∃ s, a.res.getStep k = .ok s ∧ s ∈ A k) =
      walkChance m visit n (fun k => {x | x.2 ∈ A k}) (st1, s0) := by
  refine (chance_congr fun f => ?_).trans ((chance_init hm fun f => ∀ k, k ≤ n → walk visit (outcome f) (st1, s0) k ∈ {x : σ × SimState | x.2 ∈ A k}).trans
    (chance_walk visit hm n (fun k => {x : σ × SimState | x.2 ∈ A k}) (st1, s0)))
  obtain ⟨a, h1, -, -, -, -, -, h2⟩ := runAsync_visit hc (outcome f) hm n hp hI
  rw [outcome_mod hm] at h2
  have e : ∀ k, k ≤ n → walk visit (outcome (Fin.init f)) (st1, s0) k = walk visit (outcome f) (st1, s0) k := fun k hk =>
    walk_congr visit _ fun t ht => outcome_init f (by omega)
  constructor
  · rintro ⟨a', h3, h4⟩ k hk
    rw [h1] at h3; injection h3 with h3; subst h3
    obtain ⟨s, h5, h6⟩ := h4 k hk
    rw [h2 k hk rfl] at h5; injection h5 with h5; subst h5
    rw [e k hk]
    exact h6
  · intro h
    refine ⟨a, h1, fun k hk => ⟨_, h2 k hk rfl, ?_⟩⟩
    have := h k hk
    rwa [e k hk] at this

/-- C124 for rules whose `pre_run` changes the state: the output of the run. -/
theorem C124_output (c : Controller σ) (m : ℕ) (hm : 0 < m) (visit : ℕ → σ × SimState → σ × SimState) (Inv : σ × SimState → Prop)
    (hc : Closed c m visit Inv) (st0 st1 : σ) (s0 s1 : SimState) (hp : c.preRun st0 s0 = .ok (st1, s1)) (hI : Inv (st1, s1)) (n : ℕ) (A : Set SimState) :
    chance m (n + 1) (fun f => ∃ a s, runAsync (c.inherit (outcome f)) (st0, 0) s0 n = .ok a ∧ a.res.output = some s ∧ s ∈ A) =
      walkChance m visit n (fun k => {x | k = n → x.2 ∈ A}) (st1, s1) := by
  refine (chance_congr fun f => ?_).trans
    ((chance_init hm fun f => ∀ k, k ≤ n → walk visit (outcome f) (st1, s1) k ∈ {x : σ × SimState | k = n → x.2 ∈ A}).trans
      (chance_walk visit hm n (fun k => {x : σ × SimState | k = n → x.2 ∈ A}) (st1, s1)))
  obtain ⟨a, h1, -, -, -, -, h2, -⟩ := runAsync_visit hc (outcome f) hm n hp hI
  rw [outcome_mod hm] at h2
  have e : walk visit (outcome (Fin.init f)) (st1, s1) n = walk visit (outcome f) (st1, s1) n :=
    walk_congr visit _ fun t ht => outcome_init f ht
  constructor
  · rintro ⟨a', s, h3, h4, h5⟩ k hk rfl
    rw [h1] at h3; injection h3 with h3; subst h3
    rw [h2] at h4; injection h4 with h4; subst h4
    rw [e]; exact h5
  · intro h
    refine ⟨a, _, h1, h2, ?_⟩
    have := h n le_rfl rfl
    rwa [e] at this

/-- C124: every sequence of sites is equally likely to be visited.  The rule is given a notebook in which it writes down the sites it is asked about. -/
theorem C124_visits (c : Controller σ) (m : ℕ) (hm : 0 < m) (visit : ℕ → σ × SimState → σ × SimState) (Inv : σ × SimState → Prop)
    (hc : Closed c m visit Inv) (st0 st1 : σ) (s0 s1 : SimState) (hp : c.preRun st0 s0 = .ok (st1, s1)) (hI : Inv (st1, s1)) (n : ℕ)
    (sites : Fin n → Fin m) :
    chance m (n + 1) (fun f => ∃ a, runAsync ((logged c).inherit (outcome f)) ((st0, []), 0) s0 n = .ok a ∧
      a.st.1.2.map Prod.fst = List.ofFn fun t => Key.int (sites t : ℕ)) = 1 / (m : ℝ) ^ n := by
  let visit' : ℕ → (σ × List (Key × SimState)) × SimState → (σ × List (Key × SimState)) × SimState := fun i x =>
    (((visit i (x.1.1, x.2)).1, x.1.2 ++ [(.int i, x.2)]), (visit i (x.1.1, x.2)).2)
  have hc' : Closed (logged c) m visit' (fun x => Inv (x.1.1, x.2)) := by
    intro x hx
    refine ⟨(hc _ hx).1, fun i hi => ?_⟩
    obtain ⟨⟨r, ss, gs, h1, h2⟩, h3⟩ := (hc _ hx).2 i hi
    refine ⟨⟨r, ss, gs, ?_, h2⟩, h3⟩
    simp only [logged]
    simp only at h1
    rw [h1]
    rfl
  have hp' : (logged c).preRun (st0, []) s0 = .ok ((st1, []), s1) := by
    simp only [logged]
    rw [hp]
    rfl
  have hw : ∀ (g : ℕ → ℕ) (k : ℕ), (walk visit' g ((st1, []), s1) k).1.2.map Prod.fst = (List.range k).map fun t => Key.int (g t : ℕ) := by
    intro g k
    induction k with
    | zero => rfl
    | succ k ih =>
      rw [List.range_succ, List.map_append, ← ih]
      simp [walk, visit']
  refine (chance_congr fun f => ?_).trans ((chance_init hm fun f => f = sites).trans (chance_eq sites))
  obtain ⟨a, h1, -, -, -, h2, -, -⟩ := runAsync_visit hc' (outcome f) hm n hp' hI
  rw [outcome_mod hm] at h2
  have e : (List.range n).map (fun t => Key.int (outcome f t : ℕ)) = List.ofFn fun t => Key.int (Fin.init f t : ℕ) := by
    refine List.ext_getElem (by simp) fun t h3 h4 => ?_
    have ht : t < n := by simpa using h3
    rw [List.getElem_map, List.getElem_range, List.getElem_ofFn, outcome_of_lt f (by omega : t < n + 1)]
    rfl
  constructor
  · rintro ⟨a', h3, h4⟩
    rw [h1] at h3; injection h3 with h3; subst h3
    rw [h2, hw, e] at h4
    funext t
    have := congrFun (List.ofFn_injective h4) t
    injection this with this
    exact Fin.ext (by exact_mod_cast this)
  · rintro rfl
    exact ⟨a, h1, by rw [h2, hw, e]⟩

/-- C124 for the Game of Life: a visit gives the drawn cell, and only it, its state in the next generation.  The probability that the recorded steps show the
patterns `P 0`, ..., `P n` (on the cells of the grid) is that of the random walk on patterns. -/
theorem C124_life {S : Structure K 2} {N : Fin 2 → ℤ} (hS : SquareGrid 2 N S) (b sv : List (Fin 10)) (s0 : SimState) (hs : s0.WF)
    (hg : s0.getGeneralState ≠ none) (hsites : SameSites S s0) (L : Set (Fin 2 → ℤ)) (hL : ShowsLife S s0 L) (n : ℕ) (cell : ℕ → Fin 2 → ℤ)
    (hcell : ∀ i ∈ S.siteIds, SiteHas S i (cell i)) (P : ℕ → Set (Fin 2 → ℤ)) :
    ∃ c, Life.init none S (variantText b sv) = .ok c ∧
      chance S.siteIds.length (n + 1) (fun f => ∃ a, runAsync (Life.controller.inherit (outcome f)) (c, 0) s0 n = .ok a ∧
        ∀ k : ℕ, k ≤ n → ∃ s, a.res.getStep k = .ok s ∧ ShowsLife S s (P k)) =
      walkChance S.siteIds.length
        (fun i (Q : Set (Fin 2 → ℤ)) => {x | x ≠ cell i ∧ x ∈ Q ∨ x = cell i ∧ x ∈ generation N (digitValues b) (digitValues sv) Q}) n
        (fun k => {Q | ∀ i ∈ S.siteIds, cell i ∈ Q ↔ cell i ∈ P k}) L := by
  have h := hS.isTorus
  have hpos : 0 < S.siteIds.length := List.length_pos_of_ne_nil h.ids_ne
  have hmem : ∀ i, i < S.siteIds.length → i ∈ S.siteIds := fun i hi => by rw [siteIds_eq h.reachable] at hi ⊢; simpa using hi
  obtain ⟨c, hc⟩ : ∃ c, Life.init none S (variantText b sv) = .ok c :=
    ⟨_, (C96_life hS b sv s0 hs hg hsites L hL n (fun _ => 0) (fun _ => cell 0) fun k => hcell 0 (hmem 0 hpos)).choose_spec.choose_spec.1⟩
  refine ⟨c, hc, ?_⟩
  refine (chance_congr fun f => ?_).trans ((chance_init hpos _).trans (chance_walk _ hpos n _ L))
  obtain ⟨c', a, h1, h2, -, h3⟩ := C96_life hS b sv s0 hs hg hsites L hL n (outcome f) (fun k => cell (outcome f k)) fun k => by
    rw [Nat.mod_eq_of_lt (outcome_lt hpos f k)]
    exact hcell _ (hmem _ (outcome_lt hpos f k))
  rw [hc] at h1; injection h1 with h1; subst h1
  have e : ∀ k, k ≤ n → walk (fun i (Q : Set (Fin 2 → ℤ)) => {x | x ≠ cell i ∧ x ∈ Q ∨ x = cell i ∧ x ∈ generation N (digitValues b) (digitValues sv) Q})
      (outcome (Fin.init f)) L k = oneByOne N (digitValues b) (digitValues sv) (fun k => cell (outcome f k)) L k := by
    intro k
    induction k with
    | zero => intro _; rfl
    | succ k ih =>
      intro hk
      simp only [walk, oneByOne]
      rw [ih (by omega), outcome_init f (by omega)]
  have hshow : ∀ s Q Q', ShowsLife S s Q → (ShowsLife S s Q' ↔ ∀ i ∈ S.siteIds, cell i ∈ Q ↔ cell i ∈ Q') := by
    intro s Q Q' hQ
    constructor
    · intro hQ' i hi
      obtain ⟨p, h4, h5, h6⟩ := hQ i _ (hcell i hi)
      obtain ⟨p', h7, h8, h9⟩ := hQ' i _ (hcell i hi)
      rw [h4] at h7; injection h7 with h7; subst h7
      constructor
      · intro hq
        by_contra hq'
        have := h5 hq
        rw [h9 hq'] at this
        simp at this
      · intro hq'
        by_contra hq
        have := h6 hq
        rw [h8 hq'] at this
        simp at this
    · intro hiff i x hx
      have hi : i ∈ S.siteIds := h.mem_ids h.reachable hx
      have : x = cell i := IsTorus.has_unique_coord hx (hcell i hi)
      subst this
      obtain ⟨p, h4, h5, h6⟩ := hQ i _ hx
      exact ⟨p, h4, fun h7 => h5 ((hiff i hi).2 h7), fun h7 => h6 fun h8 => h7 ((hiff i hi).1 h8)⟩
  constructor
  · rintro ⟨a', h4, h5⟩ k hk
    rw [h2] at h4; injection h4 with h4; subst h4
    obtain ⟨s, h6, h7⟩ := h5 k hk
    obtain ⟨s', h8, -, h9⟩ := h3 k hk
    rw [h6] at h8; injection h8 with h8; subst h8
    rw [e k hk]
    exact (hshow _ _ _ h9).1 h7
  · intro h4
    refine ⟨a, h2, fun k hk => ?_⟩
    obtain ⟨s', h8, -, h9⟩ := h3 k hk
    refine ⟨s', h8, (hshow _ _ _ h9).2 ?_⟩
    have := h4 k hk
    rwa [e k hk] at this

end Pyl
