import Verif.Lemmas.DoubleAxis
import Verif.Props.SquareGrid
/-
Square grids in double precision and in exact arithmetic.
-/
set_option autoImplicit false
set_option linter.unusedSectionVars false

namespace Pyl
open Pyl.Lattice Structure
variable {d : ℕ}

namespace Dbl

theorem foldl_zero (t : Fin d → ℚ) (l : List (Fin d)) (h : ∀ i ∈ l, t i = 0) (acc : ℚ) (ha : fl acc = acc) :
    l.foldl (fun acc i => fl (acc + fl (t i))) acc = acc := by
  induction l with
  | nil => rfl
  | cons i l ih =>
    rw [List.foldl_cons, h i List.mem_cons_self, fl_zero, add_zero, ha]
    exact ih fun i hi => h i (List.mem_cons_of_mem _ hi)

theorem foldl_single (t : Fin d → ℚ) (i0 : Fin d) (l : List (Fin d)) (hl : l.Nodup) (hm : i0 ∈ l) (h : ∀ i, i ≠ i0 → t i = 0) :
    l.foldl (fun acc i => fl (acc + fl (t i))) 0 = fl (t i0) := by
  induction l with
  | nil => cases hm
  | cons i l ih =>
    rw [List.nodup_cons] at hl
    rw [List.foldl_cons, zero_add, fl_fl]
    by_cases hi : i = i0
    · subst hi
      exact foldl_zero t l (fun j hj => h j fun e => hl.1 (e ▸ hj)) _ (fl_fl _)
    · rw [h i hi, fl_zero]
      exact ih hl.2 ((List.mem_cons.1 hm).resolve_left (Ne.symm hi))

/-- A scalar product with at most one non-zero term. -/
theorem dot_single {v w : Fin d → ℚ} (i0 : Fin d) (h : ∀ i, i ≠ i0 → v i * w i = 0) : dot v w = fl (v i0 * w i0) :=
  foldl_single (fun i => v i * w i) i0 _ (List.nodup_finRange d) (List.mem_finRange i0) h

section
variable {L : Lattice ℚ d} {σ : Fin d → Fin d} (h : IsGrid L σ) {n : Fin d → ℤ} (hn : ∀ i, 0 < n i ∧ n i ≤ 2 ^ 30)
include h hn

theorem scaled_grid : scaled L n = L.scaled n := by
  unfold scaled Lattice.scaled
  congr
  funext i j
  rw [h.mat]
  split_ifs
  · rw [one_mul]
    exact fl_int (by have := hn i; rw [abs_le]; constructor <;> linarith [this.1, this.2])
  · simp

theorem mat_scaled (i j : Fin d) : (L.scaled n).mat i j = if j = σ i then (n i : ℚ) else 0 := by
  simp only [Lattice.scaled, h.mat]
  split_ifs <;> simp

theorem toFrac_grid (x : Fin d → ℤ) (j : Fin d) : toFrac (L.scaled n) (intPoint x) j = axisFrac (n j) (x (σ j)) := by
  have hne : (n j : ℚ) ≠ 0 := by exact_mod_cast (hn j).1.ne'
  rw [toFrac, dot_single (σ j)]
  · simp only [inv, mat_scaled h hn, if_true, if_neg hne, intPoint, axisFrac]
  · intro i hi
    simp only [inv, mat_scaled h hn, if_neg hi, if_true, mul_zero]

theorem periodized_grid {x : Fin d → ℤ} (hx : ∀ j, |x j| ≤ 2 ^ 32) (j : Fin d) :
    periodized (L.scaled n) (intPoint x) j = axisIn (n (σ j)) (x j) := by
  have e : ∀ i, periodizeFrac (L.scaled n).periodic (toFrac (L.scaled n) (intPoint x)) i =
      fl (axisFrac (n i) (x (σ i)) - ⌊axisFrac (n i) (x (σ i))⌋) := by
    intro i
    have hp : (L.scaled n).periodic i = true := h.per i
    simp only [periodizeFrac, toFrac_grid h hn, hp, if_true, mul_one]
    rw [fl_int]
    have hN := hn i
    have hN' : (1 : ℚ) ≤ n i := by exact_mod_cast hN.1
    have e0 := abs_le.1 (axisFrac_err hN.1 (hx (σ i)))
    have e1 : |(x (σ i) : ℚ)| ≤ 2 ^ 32 := by exact_mod_cast hx (σ i)
    have e2 := abs_le.1 e1
    set f := axisFrac (n i) (x (σ i))
    have f1 : f ≤ 2 ^ 33 := by
      by_contra hc
      rw [not_le] at hc
      have : (2 : ℚ) ^ 33 * 1 < f * n i := by nlinarith
      linarith [e0.2, e2.2]
    have f2 : -2 ^ 33 ≤ f := by
      by_contra hc
      rw [not_le] at hc
      have : f * n i < -2 ^ 33 * 1 := by nlinarith
      linarith [e0.1, e2.1]
    have g1 : ⌊f⌋ ≤ 2 ^ 33 := by
      have : (⌊f⌋ : ℚ) ≤ 2 ^ 33 := (Int.floor_le f).trans f1
      exact_mod_cast this
    have g2 : -2 ^ 33 ≤ ⌊f⌋ := Int.le_floor.2 (by push_cast; exact f2)
    rw [abs_le]; constructor <;> linarith
  rw [periodized, toCart, dot_single (σ j)]
  · rw [e, mat_scaled h hn, h.inv, if_pos rfl]
    rfl
  · intro i hi
    rw [mat_scaled h hn, if_neg (fun e => hi (by rw [e, h.inv])), mul_zero]

/-- The key of an integer location. -/
theorem transformed_grid {x : Fin d → ℤ} (hx : ∀ j, |x j| ≤ 2 ^ 32) (j : Fin d) :
    (Wraps (n (σ j)) (x j) → rounded (periodized (L.scaled n) (intPoint x)) j = (x j % n (σ j) : ℤ) ∧
      transformed (L.scaled n) (intPoint x) j = axisKey (x j % n (σ j))) ∧
    (¬ Wraps (n (σ j)) (x j) → transformed (L.scaled n) (intPoint x) j = axisKey (n (σ j))) := by
  obtain ⟨h0, h1⟩ := hn (σ j)
  have hm0 := Int.emod_nonneg (x j) h0.ne'
  have hm1 := Int.emod_lt_of_pos (x j) h0
  simp only [transformed, withOffset, rounded, periodized_grid h hn hx]
  rcases axisIn_err h0 h1 (hx j) with ⟨hw, he⟩ | ⟨hw, -, -, he⟩
  · exact ⟨fun _ => round3_near hm0 (by omega) he, fun h' => absurd hw h'⟩
  · exact ⟨fun h' => absurd h' hw, fun _ => (round3_near h0.le h1 he).2⟩

/-- The exact key of an integer location. -/
theorem keyOf_grid (x : Fin d → ℤ) :
    (L.scaled n).periodized (intPoint x) = intPoint (fun j => x j % n (σ j)) ∧
    keyOf (L.scaled n) (intPoint x) = fun j => ((1000 * (x j % n (σ j)) + 1 : ℤ) : ℚ) / 1000 := by
  have hr : (L.scaled n).Regular := (C38_scaled L n).2.2.2.1 h.regular fun i => (hn i).1.ne'
  have hp : (L.scaled n).periodized (intPoint x) = (intPoint (fun j => x j % n (σ j)) : Fin d → ℚ) := by
    refine ((image_inCell_iff hr).1 ⟨(h.image_iff _ _).2 fun j => ?_, fun i => ((x (σ i) % n i : ℤ) : ℚ) / n i, ?_, fun i _ => ?_⟩).symm
    · exact ⟨-(x j / n (σ j)), by have := Int.mul_ediv_add_emod (x j) (n (σ j)); linarith⟩
    · funext j
      rw [h.point_scaled, h.inv]
      have : (n (σ j) : ℚ) ≠ 0 := by exact_mod_cast (hn (σ j)).1.ne'
      simp only [intPoint]
      field_simp
    · have h0 : (0 : ℚ) < n i := by exact_mod_cast (hn i).1
      have h1 : (0 : ℚ) ≤ (x (σ i) % n i : ℤ) := by exact_mod_cast Int.emod_nonneg _ (hn i).1.ne'
      have h2 : ((x (σ i) % n i : ℤ) : ℚ) < n i := by exact_mod_cast Int.emod_lt_of_pos _ (hn i).1
      exact ⟨div_nonneg h1 h0.le, (div_lt_one h0).2 h2⟩
  refine ⟨hp, ?_⟩
  funext j
  rw [keyOf_apply, hp]
  have : (1000 * (intPoint (fun j => x j % n (σ j)) : Fin d → ℚ) j + 1) = ((1000 * (x j % n (σ j)) + 1 : ℤ) : ℚ) := by
    simp [intPoint]
  rw [this, roundHalfEven_int]

/-- Where all coordinates are wrapped correctly, the key is the rounded exact key. -/
theorem transformed_eq {x : Fin d → ℤ} (hx : ∀ j, |x j| ≤ 2 ^ 32) (hw : ∀ j, Wraps (n (σ j)) (x j)) :
    transformed (L.scaled n) (intPoint x) = (fun j => fl (keyOf (L.scaled n) (intPoint x) j)) ∧
    rounded (periodized (L.scaled n) (intPoint x)) = Structure.rounded ((L.scaled n).periodized (intPoint x)) := by
  obtain ⟨h1, h2⟩ := keyOf_grid h hn x
  constructor
  · funext j
    rw [h2, ((transformed_grid h hn hx j).1 (hw j)).2]
    rfl
  · funext j
    rw [h1, aligned_rounded (aligned_int _), ((transformed_grid h hn hx j).1 (hw j)).1]
    rfl

end

/-- The structure with the lookup keys rounded to doubles. -/
def ofExact (s : Structure ℚ d) : Structure ℚ d := { s with lookup := s.lookup.map fun e => (fun j => fl (e.1 j), e.2) }

/-- The lookup keys are those of integer locations of the box. -/
def GridKeys (N : Fin d → ℤ) (s : Structure ℚ d) : Prop :=
  ∀ k ∈ Dict.keys s.lookup, ∃ c, InBox N c ∧ k = fun j => ((1000 * c j + 1 : ℤ) : ℚ) / 1000

theorem get?_map_key {κ ν : Type} [DecidableEq κ] (φ : κ → κ) (D : Dict κ ν) (k : κ) (hi : ∀ k' ∈ Dict.keys D, φ k' = φ k → k' = k) :
    Dict.get? (D.map fun e => (φ e.1, e.2)) (φ k) = Dict.get? D k := by
  induction D with
  | nil => rfl
  | cons p D ih =>
    obtain ⟨k', v⟩ := p
    rw [List.map_cons, Dict.get?_cons, Dict.get?_cons, ih fun k' hk' => hi k' (by simp [hk'])]
    by_cases e : k' = k
    · simp [e]
    · rw [if_neg e, if_neg fun e' => e (hi k' (by simp) e')]

theorem get?_map_none {κ ν : Type} [DecidableEq κ] (φ : κ → κ) (D : Dict κ ν) (k : κ) (hi : ∀ k' ∈ Dict.keys D, φ k' ≠ k) :
    Dict.get? (D.map fun e => (φ e.1, e.2)) k = none := by
  rw [Dict.get?_eq_none_iff]
  intro hk
  obtain ⟨e, he, rfl⟩ := List.mem_map.1 hk
  obtain ⟨e', he', rfl⟩ := List.mem_map.1 he
  exact hi e'.1 (List.mem_map.2 ⟨e', he', rfl⟩) rfl

/-- Lookup keys of the box stay different when rounded. -/
theorem key_inj {N : Fin d → ℤ} (hN : ∀ j, N j ≤ 2 ^ 30) {c c' : Fin d → ℤ} (hc : InBox N c) (hc' : InBox N c')
    (e : (fun j => fl (((1000 * c j + 1 : ℤ) : ℚ) / 1000)) = fun j => fl (((1000 * c' j + 1 : ℤ) : ℚ) / 1000)) : c = c' := by
  funext j
  have h1 := hc j; have h2 := hc' j; have h3 := hN j
  exact axisKey_inj h1.1 (by omega) h2.1 (by omega) (congrFun e j)

section
variable {L : Lattice ℚ d} {σ : Fin d → Fin d} (h : IsGrid L σ) {n : Fin d → ℤ} (hn : ∀ i, 0 < n i ∧ n i ≤ 2 ^ 30)
  {s : Structure ℚ d} (hL : s.lattice = L.scaled n) (hk : GridKeys (fun j => n (σ j)) s)
include h hn hL hk

/-- Lookups agree where all coordinates are wrapped correctly. -/
theorem get?_ofExact {x : Fin d → ℤ} (hx : ∀ j, |x j| ≤ 2 ^ 32) (hw : ∀ j, Wraps (n (σ j)) (x j)) :
    Dict.get? (ofExact s).lookup (transformed (ofExact s).lattice (intPoint x)) = Dict.get? s.lookup (s.transformed (intPoint x)) := by
  have e1 : (ofExact s).lattice = L.scaled n := hL
  have e2 : s.transformed (intPoint x) = keyOf (L.scaled n) (intPoint x) := by rw [← hL]; rfl
  rw [e1, e2, (transformed_eq h hn hx hw).1]
  refine get?_map_key (fun k j => fl (k j)) s.lookup _ fun k' hk' e => ?_
  obtain ⟨c, hc, rfl⟩ := hk k' hk'
  rw [(keyOf_grid h hn x).2] at e ⊢
  have hb : InBox (fun j => n (σ j)) fun j => x j % n (σ j) :=
    fun j => ⟨Int.emod_nonneg _ (hn _).1.ne', Int.emod_lt_of_pos _ (hn _).1⟩
  rw [key_inj (fun j => (hn (σ j)).2) hc hb e]

/-- Where a coordinate is not wrapped, nothing is found. -/
theorem get?_none {x : Fin d → ℤ} (hx : ∀ j, |x j| ≤ 2 ^ 32) (hw : ∃ j, ¬ Wraps (n (σ j)) (x j)) :
    Dict.get? (ofExact s).lookup (transformed (ofExact s).lattice (intPoint x)) = none := by
  have e1 : (ofExact s).lattice = L.scaled n := hL
  rw [e1]
  refine get?_map_none (fun k j => fl (k j)) s.lookup _ fun k' hk' e => ?_
  obtain ⟨c, hc, rfl⟩ := hk k' hk'
  obtain ⟨j, hj⟩ := hw
  have e' := congrFun e j
  rw [(transformed_grid h hn hx j).2 hj] at e'
  have h1 := hc j; have h2 := hn (σ j)
  simp only at h1
  have : c j = n (σ j) := axisKey_inj h1.1 (by omega) h2.1.le h2.2 e'
  omega

theorem siteAt_ofExact {x : Fin d → ℤ} (hx : ∀ j, |x j| ≤ 2 ^ 32) :
    ((∀ j, Wraps (n (σ j)) (x j)) → siteAt (ofExact s) (intPoint x) = s.siteAt (intPoint x)) ∧
    ((∃ j, ¬ Wraps (n (σ j)) (x j)) → siteAt (ofExact s) (intPoint x) = none) := by
  constructor
  · intro hw
    rw [siteAt, Structure.siteAt, get?_ofExact h hn hL hk hx hw]
    rfl
  · intro hw
    rw [siteAt, get?_none h hn hL hk hx hw]

theorem wraps_inBox {c : Fin d → ℤ} (hc : InBox (fun j => n (σ j)) c) (j : Fin d) : Wraps (n (σ j)) (c j) := by
  have h1 := hc j; have h2 := hn (σ j)
  simp only at h1
  by_cases h0 : c j = 0
  · rw [h0]; exact wraps_zero
  · exact wraps_of_not_dvd h2.1 h2.2 (by rw [abs_le]; constructor <;> linarith) fun hd => by
      have := Int.le_of_dvd (by omega) hd
      omega

theorem addOrRaise_ofExact {c : Fin d → ℤ} (hc : InBox (fun j => n (σ j)) c) (cls : String) :
    (∀ s', Structure.addOrRaise s (cls, intPoint c) = .ok s' →
      addOrRaise (ofExact s) (cls, intPoint c) = .ok (ofExact s') ∧ s'.lattice = L.scaled n ∧ GridKeys (fun j => n (σ j)) s') := by
  intro s' hs
  have hx : ∀ j, |c j| ≤ 2 ^ 32 := fun j => by
    have h1 := hc j; have h2 := hn (σ j)
    simp only at h1
    rw [abs_le]; constructor <;> linarith
  have hw := wraps_inBox h hn hL hk hc
  have hg := get?_ofExact h hn hL hk hx hw
  have e1 : (ofExact s).lattice = L.scaled n := hL
  have e2 : s.transformed (intPoint c) = keyOf (L.scaled n) (intPoint c) := by rw [← hL]; rfl
  have e3 : ((ofExact s).sites) = s.sites := rfl
  have e4 : ((ofExact s).siteIds) = s.siteIds := rfl
  unfold Structure.addOrRaise Structure.addSite at hs
  unfold addOrRaise addSite
  simp only [hg, e3, e4] at hs ⊢
  by_cases hf : Dict.get? s.lookup (s.transformed (intPoint c)) = none
  · rw [if_pos hf] at hs
    rw [if_pos hf]
    simp only [Except.ok.injEq] at hs ⊢
    have hnone := Dict.get?_eq_none_iff.1 hf
    rw [hf, Dict.get?_eq_none_iff] at hg
    rw [e1, (transformed_eq h hn hx hw).1] at hg
    subst hs
    refine ⟨?_, hL, ?_⟩
    · rw [e1, (transformed_eq h hn hx hw).2, (transformed_eq h hn hx hw).1, set_fresh (ofExact s).lookup _ _ hg]
      rw [e2] at hnone
      simp only [ofExact, e2, hL, set_fresh s.lookup _ _ hnone, List.map_append, List.map_cons, List.map_nil]
    · intro k hk'
      rw [Dict.mem_keys_set] at hk'
      rcases hk' with rfl | hk'
      · rw [e2, (keyOf_grid h hn c).2]
        refine ⟨c, hc, ?_⟩
        funext j
        rw [Int.emod_eq_of_lt (hc j).1 (hc j).2]
      · exact hk k hk'
  · rw [if_neg hf] at hs
    cases hs

end

section
variable {L : Lattice ℚ d} {σ : Fin d → Fin d} (h : IsGrid L σ) {n : Fin d → ℤ} (hn : ∀ i, 0 < n i ∧ n i ≤ 2 ^ 30)
include h hn

theorem cellSites_grid {p : List ℤ} (hp : p ∈ cells n) :
    cellSites L gridMotif.toDict (vecOf p) = [("_A", intPoint fun j => cellVec d p (σ j))] ∧
    Structure.cellSites L gridMotif.toDict false (vecOf p) = [("_A", (intPoint fun j => cellVec d p (σ j) : Fin d → ℚ))] := by
  constructor
  · simp only [cellSites, gridMotif, Motif.toDict, List.flatMap_cons, List.flatMap_nil, List.map_cons, List.map_nil, List.append_nil,
      List.cons.injEq, Prod.mk.injEq, true_and, and_true]
    funext i
    rw [dot_single (σ i) fun j hj => by rw [h.mat, if_neg hj, zero_mul], h.mat, if_pos rfl, one_mul]
    have hc := (mem_cells.1 hp).2 (σ i)
    have hb := hn (σ i)
    have e : fl ((cellVec d p (σ i) : ℤ) : ℚ) = (cellVec d p (σ i) : ℤ) := fl_int (by rw [abs_le]; constructor <;> linarith [hc.1, hc.2])
    rw [vecOf_eq, Pi.zero_apply, add_zero, e, e]
    rfl
  · rw [vecOf_eq, cellSites_eq (.inr h.symm), IsGrid.entries_gridMotif]
    simp only [List.map_cons, List.map_nil, h.siteIn_grid]

/-- The grid built in double precision is the exact one, with rounded lookup keys. -/
theorem buildFrom_grid {s : Structure ℚ d} (hs : Structure.buildFrom L n gridMotif false = .ok s) :
    buildFrom L n gridMotif = .ok (ofExact s) ∧ s.lattice = L.scaled n ∧ GridKeys (fun j => n (σ j)) s := by
  have key : ∀ (ps : List (List ℤ)) (s0 s1 : Structure ℚ d), (∀ p ∈ ps, p ∈ cells n) → s0.lattice = L.scaled n →
      GridKeys (fun j => n (σ j)) s0 →
      ps.foldlM (fun s c => (Structure.cellSites L gridMotif.toDict false (vecOf c)).foldlM Structure.addOrRaise s) s0 = .ok s1 →
      ps.foldlM (fun s c => (cellSites L gridMotif.toDict (vecOf c)).foldlM addOrRaise s) (ofExact s0) = .ok (ofExact s1) ∧
        s1.lattice = L.scaled n ∧ GridKeys (fun j => n (σ j)) s1 := by
    intro ps
    induction ps with
    | nil =>
      intro s0 s1 _ h1 h2 h3
      simp only [List.foldlM_nil, pure, Except.pure, Except.ok.injEq] at h3
      subst h3
      exact ⟨rfl, h1, h2⟩
    | cons p ps ih =>
      intro s0 s1 hm h1 h2 h3
      obtain ⟨c1, c2⟩ := cellSites_grid h hn (hm p List.mem_cons_self)
      have hc : InBox (fun j => n (σ j)) fun j => cellVec d p (σ j) := fun j => (mem_cells.1 (hm p List.mem_cons_self)).2 (σ j)
      rw [List.foldlM_cons] at h3 ⊢
      rw [c1]
      rw [c2] at h3
      simp only [List.foldlM_cons, List.foldlM_nil] at h3 ⊢
      cases hq : Structure.addOrRaise s0 ("_A", (intPoint fun j => cellVec d p (σ j) : Fin d → ℚ)) with
      | error e => rw [hq] at h3; cases h3
      | ok s' =>
        rw [hq] at h3
        obtain ⟨q1, q2, q3⟩ := addOrRaise_ofExact h hn h1 h2 hc "_A" s' hq
        rw [q1]
        exact ih s' s1 (fun p hp => hm p (List.mem_cons_of_mem _ hp)) q2 q3 h3
  have := key (cells n) (Structure.new (L.scaled n)) s (fun p hp => hp) rfl (by intro k hk; cases hk) hs
  rw [buildFrom, scaled_grid h hn]
  exact this

end

end Dbl
end Pyl
