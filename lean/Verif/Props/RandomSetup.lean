import Verif.Lemmas.RandomPlace
import Mathlib.Logic.Equiv.Fintype
import Mathlib.Data.Fintype.Fin
import Mathlib.Data.Finset.Powerset
import Mathlib.Data.Int.Interval
/-
C126: `setup_noise` when every draw is uniform and independent.
-/
set_option autoImplicit false
set_option linter.unusedSectionVars false

namespace Pyl
open SimState Spec GridSetup
open Pyl.Lattice Pyl.Structure
variable {K : Type} [Field K] [LinearOrder K] [FloorRing K] [IsStrictOrderedRing K] {d : ℕ}

/-! ### setup_noise -/

/-- The loop of `setup_noise`: the site with id `i` gets the phase of draw `i`. -/
theorem noise_loop {S : Structure K d} (hS : S.Reachable) (phases : List Val) (hp : ∀ p ∈ phases, p.WF) (hne : phases ≠ []) (draw : ℕ → ℕ) :
    ∀ (l : ℕ) (k : ℕ), k + l = (S.sitesOf none).length → ∀ (s : SimState) (f : Site K d → Val), Painted S s f →
      ∃ s', ((S.sitesOf none).drop k).foldlM (fun (sk : SimState × ℕ) t => do
        let phase ← choice phases (draw sk.2)
        pure (setOcc sk.1 t.id phase, sk.2 + 1)) (s, k) = (.ok (s', k + l) : Py (SimState × ℕ)) ∧
        Painted S s' (fun u => if k ≤ u.id then (phases[draw u.id % phases.length]?).getD .pyNone else f u) := by
  have hpos : 0 < phases.length := List.length_pos_of_ne_nil hne
  intro l
  induction l with
  | zero =>
    intro k hk s f h
    refine ⟨s, by rw [List.drop_eq_nil_of_le (by omega)]; rfl, h.congr fun t ht => ?_⟩
    have : t.id < (S.sitesOf none).length := by
      have := (mem_siteIds_lt hS).1 ((mem_siteIds_iff hS).2 ⟨t, ht, rfl⟩)
      rwa [length_siteIds hS] at this
    rw [if_neg (by omega)]
  | succ l ih =>
    intro k hk s f h
    have hkl : k < (S.sitesOf none).length := by omega
    have hget := List.getElem?_eq_getElem hkl
    have hid := sitesOf_index hS hget
    have hlt : draw k % phases.length < phases.length := Nat.mod_lt _ hpos
    have hph := List.getElem?_eq_getElem hlt
    have hc : choice phases (draw k) = .ok phases[draw k % phases.length] := by
      unfold choice
      rw [hph]
    obtain ⟨s', h1, h2⟩ := ih (k + 1) (by omega) _ _ (h.set hS (List.getElem_mem hkl) (hp _ (List.getElem_mem hlt)))
    refine ⟨s', ?_, h2.congr fun t ht => ?_⟩
    · rw [List.drop_eq_getElem_cons hkl, List.foldlM_cons, hc]
      simp only [ok_bind, pure, Except.pure]
      rw [show k + (l + 1) = k + 1 + l by ring]
      exact h1
    · rw [hid]
      by_cases e : t.id = k
      · rw [if_neg (by omega), if_pos e, if_pos (by omega), e, hph]
        rfl
      · by_cases e' : k + 1 ≤ t.id
        · rw [if_pos e', if_pos (by omega)]
        · rw [if_neg e', if_neg e, if_neg (by omega)]

/-- C126: what `setup_noise` returns, draw by draw. -/
theorem noise_result {G : GridSetup K d} {n : ℤ} {S : Structure K d} (hb : G.builder (.int n) = .ok S) (hS : S.Reachable) (phases : List Val)
    (hp : ∀ p ∈ phases, p.WF) (hne : phases ≠ []) (draw : ℕ → ℕ) :
    ∃ s, G.noise (.int n) phases draw = .ok ⟨s, S⟩ ∧ StartState S s ∧
      ∀ i ∈ S.siteIds, occ? s (.int i) = phases[draw i % phases.length]? := by
  obtain ⟨s', h1, h2⟩ := noise_loop hS phases hp hne draw _ 0 (Nat.zero_add _) _ _ (painted_blank hS (v := .pyNone) .pyNone)
  refine ⟨s', ?_, h2.startState hS, fun i hi => ?_⟩
  · unfold GridSetup.noise
    rw [hb, ok_bind]
    rw [List.drop_zero] at h1
    rw [h1]
    rfl
  · obtain ⟨t, ht, rfl⟩ := (mem_siteIds_iff hS).1 hi
    rw [h2.occ t ht, if_pos (Nat.zero_le _)]
    have hlt : draw t.id % phases.length < phases.length := Nat.mod_lt _ (List.length_pos_of_ne_nil hne)
    rw [List.getElem?_eq_getElem hlt]
    rfl

theorem card_countP {α : Type} (l : List α) (P : α → Prop) [DecidablePred P] :
    (Finset.univ.filter fun i : Fin l.length => P l[i]).card = l.countP fun a => decide (P a) := by
  induction l with
  | nil => rfl
  | cons a l ih =>
    have h := Fin.card_filter_univ_succ (n := l.length) fun i : Fin (l.length + 1) => P (a :: l)[i]
    refine h.trans ?_
    show (if P a then _ else _) = _
    have e : (Finset.univ.filter fun i : Fin l.length => P (a :: l)[i.succ]) = Finset.univ.filter fun i : Fin l.length => P l[i] := by
      refine Finset.filter_congr fun i _ => ?_
      exact Iff.rfl
    by_cases hp : P a
    · rw [if_pos hp, List.countP_cons_of_pos (by simpa using hp), ← ih]
      exact congrArg (fun s => s.card + 1) e
    · rw [if_neg hp, List.countP_cons_of_neg (by simpa using hp), ← ih]
      exact congrArg Finset.card e

open Classical in
/-- C126: `setup_noise` chooses the phases of the sites independently, and each of them uniformly from `phases` (with repetitions counted): the probability
that every site `i` has a phase in `A i` is the product of the fractions of `phases` in `A i`. -/
theorem C126_noise {G : GridSetup K d} (hG : StdSetup d G) (n : ℤ) (hn : 0 < n) (phases : List Val) (hp : ∀ p ∈ phases, p.WF) (hne : phases ≠ []) :
    ∃ S, G.builder (.int n) = .ok S ∧ SquareGrid d (fun _ => n) S ∧ ∀ A : ℕ → Set Val,
      chance phases.length S.siteIds.length (fun f => ∃ s, G.noise (.int n) phases (outcome f) = .ok ⟨s, S⟩ ∧
        ∀ i ∈ S.siteIds, ∃ p, occ? s (.int i) = some p ∧ p ∈ A i) =
      ∏ i : Fin S.siteIds.length, ((phases.countP fun p => decide (p ∈ A i) : ℕ) : ℝ) / phases.length := by
  obtain ⟨S, hb, hsq, -⟩ := setup_builds hG hn
  have hS := hsq.isTorus.reachable
  have hpos : 0 < phases.length := List.length_pos_of_ne_nil hne
  refine ⟨S, hb, hsq, fun A => ?_⟩
  have h1 : ∀ f : Fin S.siteIds.length → Fin phases.length, (∃ s, G.noise (.int n) phases (outcome f) = .ok ⟨s, S⟩ ∧
      ∀ i ∈ S.siteIds, ∃ p, occ? s (.int i) = some p ∧ p ∈ A i) ↔ ∀ i : Fin S.siteIds.length, phases[(f i : ℕ)] ∈ A i := by
    intro f
    obtain ⟨s, h2, -, h3⟩ := noise_result hb hS phases hp hne (outcome f)
    have h4 : ∀ i : Fin S.siteIds.length, occ? s (.int (i : ℕ)) = some phases[(f i : ℕ)] := by
      intro i
      rw [h3 i ((mem_siteIds_lt hS).2 i.isLt), Nat.mod_eq_of_lt (outcome_lt hpos f i), outcome_of_lt f i.isLt]
      exact List.getElem?_eq_getElem _
    constructor
    · rintro ⟨s', h5, h6⟩ i
      rw [h2] at h5; injection h5 with h5; injection h5 with h5; subst h5
      obtain ⟨p, h7, h8⟩ := h6 i ((mem_siteIds_lt hS).2 i.isLt)
      rw [h4] at h7; injection h7 with h7; subst h7
      exact h8
    · intro h5
      exact ⟨s, h2, fun i hi => ⟨_, h4 ⟨i, (mem_siteIds_lt hS).1 hi⟩, h5 ⟨i, (mem_siteIds_lt hS).1 hi⟩⟩⟩
  refine (chance_congr h1).trans ((chance_prod fun i a => phases[(a : ℕ)] ∈ A i).trans (Finset.prod_congr rfl fun i _ => ?_))
  rw [chance_one fun a : Fin phases.length => phases[(a : ℕ)] ∈ A i, ← card_countP phases fun p => p ∈ A i]
  rfl

/-- C126: with different phases every assignment of phases to the sites has the same probability. -/
theorem C126_uniform {G : GridSetup K d} (hG : StdSetup d G) (n : ℤ) (hn : 0 < n) (phases : List Val) (hp : ∀ p ∈ phases, p.WF) (hne : phases ≠ [])
    (hnd : phases.Nodup) :
    ∃ S, G.builder (.int n) = .ok S ∧ SquareGrid d (fun _ => n) S ∧ ∀ g : ℕ → Val, (∀ i ∈ S.siteIds, g i ∈ phases) →
      chance phases.length S.siteIds.length (fun f => ∃ s, G.noise (.int n) phases (outcome f) = .ok ⟨s, S⟩ ∧ ∀ i ∈ S.siteIds, occ? s (.int i) = some (g i)) =
        1 / (phases.length : ℝ) ^ S.siteIds.length := by
  classical
  obtain ⟨S, hb, hsq, h⟩ := C126_noise hG n hn phases hp hne
  have hS := hsq.isTorus.reachable
  refine ⟨S, hb, hsq, fun g hg => ?_⟩
  have := h fun i => {g i}
  refine Eq.trans (chance_congr fun f => ?_) (this.trans ?_)
  · constructor
    · rintro ⟨s, h1, h2⟩
      exact ⟨s, h1, fun i hi => ⟨_, h2 i hi, rfl⟩⟩
    · rintro ⟨s, h1, h2⟩
      refine ⟨s, h1, fun i hi => ?_⟩
      obtain ⟨p, h3, h4⟩ := h2 i hi
      rw [h3, Set.mem_singleton_iff.1 h4]
  · have e : ∀ i : Fin S.siteIds.length, (phases.countP fun p => decide (p ∈ ({g i} : Set Val))) = 1 := by
      intro i
      have : (phases.countP fun p => decide (p ∈ ({g i} : Set Val))) = phases.count (g i) := by
        unfold List.count
        refine List.countP_congr fun p _ => ?_
        simp
      rw [this]
      exact List.count_eq_one_of_mem hnd (hg i ((mem_siteIds_lt hS).2 i.isLt))
    have e' : ∀ i : Fin S.siteIds.length, ((phases.countP fun p => @decide (p ∈ ({g i} : Set Val)) (Classical.propDecidable _) : ℕ) : ℝ) / phases.length =
        1 / phases.length := by
      intro i
      have h1 : (phases.countP fun p => @decide (p ∈ ({g i} : Set Val)) (Classical.propDecidable _)) = 1 := by
        rw [← e i]
        congr!
      rw [h1, Nat.cast_one]
    refine (Finset.prod_congr rfl fun i _ => e' i).trans ?_
    simp

/-- A case that meets the hypotheses: on a 3 x 3 grid with two phases every one of the 512 assignments has probability 1 / 512. -/
example (g : ℕ → Val) (hg : ∀ i, g i = .str "A" ∨ g i = .str "B") : ∃ S, gridSetup2.builder (K := ℚ) (.int 3) = .ok S ∧
    chance 2 9 (fun f => ∃ s, gridSetup2.noise (.int 3) [.str "A", .str "B"] (outcome f) = .ok ⟨s, S⟩ ∧ ∀ i ∈ S.siteIds, occ? s (.int i) = some (g i)) =
      1 / 512 := by
  obtain ⟨S, hb, hsq, h⟩ := C126_uniform (K := ℚ) .two 3 (by norm_num) [.str "A", .str "B"]
    (by intro p hp; simp at hp; rcases hp with rfl | rfl <;> exact .str _) (by simp) (by simp)
  have hlen : S.siteIds.length = 9 := by
    rw [hsq.isTorus.count]
    simp
  refine ⟨S, hb, ?_⟩
  have h1 := h g fun i _ => by simpa using hg i
  rw [hlen] at h1
  refine h1.trans ?_
  norm_num

end Pyl
