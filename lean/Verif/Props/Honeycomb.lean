import Verif.Model.Honeycomb
import Verif.Spec.Honeycomb
import Verif.Lemmas.SquareGrid
import Verif.Props.Neighborhood
import Mathlib.Tactic.FinCases
import Mathlib.Tactic.Linarith
import Mathlib.Tactic.NormNum
import Mathlib.Analysis.Real.Sqrt
/-
C78: the honeycomb tiling.
-/
set_option autoImplicit false
set_option linter.unusedSectionVars false

namespace Pyl
open Pyl.Lattice Pyl.Structure
variable {K : Type} [Field K] [LinearOrder K] [IsStrictOrderedRing K] [FloorRing K]

theorem honey_regular {r : K} (hr : r ≠ 0) : (honeyLattice r).Regular := by
  refine regular_of_isUnit ?_
  rw [isUnit_iff_ne_zero, honeyLattice, Matrix.det_fin_two_of]
  simpa using hr

theorem honey_point (r : K) (f : Fin 2 → K) : (honeyLattice r).point f = ![f 0 + f 1 / 2, f 1 * r / 2] := by
  funext j
  fin_cases j <;> simp [point, honeyLattice, Fin.sum_univ_two] <;> ring

theorem honey_scaled_point (r : K) (n : Fin 2 → ℤ) (f : Fin 2 → K) :
    ((honeyLattice r).scaled n).point f = ![f 0 * n 0 + f 1 * n 1 / 2, f 1 * n 1 * r / 2] := by
  funext j
  fin_cases j <;> simp [point, honeyLattice, scaled, Fin.sum_univ_two] <;> ring

theorem honey_siteIn (r : K) (c : Fin 2 → ℤ) : siteIn (honeyLattice r) true c ("A", ![1 / 2, 1 / 2]) = ("A", hexCentre r c) := by
  simp only [siteIn, if_true, honey_point, hexCentre]
  congr 1
  funext j
  fin_cases j <;> simp <;> ring

theorem hexCentre_inCell (r : K) (n c : Fin 2 → ℤ) (hc : ∀ i, 0 ≤ c i ∧ c i < n i) :
    ((honeyLattice r).scaled n).InCell (hexCentre r c) := by
  have hn : ∀ i, (0 : K) < n i := fun i => by exact_mod_cast (hc i).1.trans_lt (hc i).2
  refine ⟨fun i => ((c i : K) + 1 / 2) / n i, ?_, fun i _ => ⟨?_, ?_⟩⟩
  · rw [honey_scaled_point, hexCentre]
    rw [div_mul_cancel₀ _ (hn 0).ne', div_mul_cancel₀ _ (hn 1).ne']
    funext j
    fin_cases j <;> simp <;> ring
  · have : (0 : K) ≤ c i := by exact_mod_cast (hc i).1
    exact div_nonneg (by linarith) (hn i).le
  · have : (c i : K) + 1 ≤ n i := by exact_mod_cast (hc i).2
    rw [div_lt_one (hn i)]; linarith

/-- Cells that differ by multiples of the size have the same hexagons. -/
theorem hexCentre_image (r : K) (n c c' : Fin 2 → ℤ) (h : ∀ k, n k ∣ c' k - c k) :
    ((honeyLattice r).scaled n).Image (hexCentre r c') (hexCentre r c) := by
  choose t ht using h
  refine ⟨t, fun i hi => by simp [honeyLattice, scaled] at hi, ?_⟩
  rw [honey_scaled_point]
  have e : ∀ k, (c' k : K) = c k + n k * t k := fun k => by
    have : c' k = c k + n k * t k := by linarith [ht k]
    rw [this]; push_cast; ring
  funext j
  fin_cases j <;> simp [hexCentre, e 0, e 1] <;> ring

theorem hexCentre_stored {r : K} (hr : r ≠ 0) {n c : Fin 2 → ℤ} (hc : ∀ i, 0 ≤ c i ∧ c i < n i) {y : Fin 2 → K}
    (hy : ((honeyLattice r).scaled n).Stored (hexCentre r c) y) :
    y 0 = hexCentre r c 0 ∧ |y 1 - hexCentre r c 1| ≤ 1 / 2000 := by
  have hR : ((honeyLattice r).scaled n).Regular :=
    (C38_scaled _ n).2.2.2.1 (honey_regular hr) fun i => by have := hc i; omega
  rw [stored_iff hR, (hexCentre_inCell r n c hc).periodized hR] at hy
  subst hy
  simp only [rounded, roundTo, PRECISION]
  constructor
  · have : hexCentre r c 0 * ((1000 : ℕ) : K) = ((1000 * c 0 + 500 * c 1 + 750 : ℤ) : K) := by
      simp only [hexCentre, Matrix.cons_val_zero]; push_cast; ring
    rw [this, roundHalfEven_int, ← this, mul_div_assoc, div_self (by norm_num), mul_one]
  · have := abs_sub_roundHalfEven (hexCentre r c 1 * ((1000 : ℕ) : K))
    rw [abs_le] at this ⊢
    push_cast at this ⊢
    constructor
    · rw [le_sub_iff_add_le, le_div_iff₀ (by norm_num)]; linarith
    · rw [sub_le_iff_le_add, div_le_iff₀ (by norm_num)]; linarith

theorem small_int {r : K} (z : ℤ) (h : |(z : K)| < 1) (_ : r = r) : z = 0 := by
  rw [← Int.cast_abs] at h
  have : |z| < 1 := by exact_mod_cast h
  exact Int.abs_lt_one_iff.1 this

/-- Different hexagons are stored at different places. -/
theorem hexCentre_place {r : K} (hr : 1 ≤ r) {n c c' : Fin 2 → ℤ} (hc : ∀ i, 0 ≤ c i ∧ c i < n i)
    (hc' : ∀ i, 0 ≤ c' i ∧ c' i < n i)
    (h : ((honeyLattice r).scaled n).SamePlace (hexCentre r c) (hexCentre r c')) : c = c' := by
  have hR : ((honeyLattice r).scaled n).Regular :=
    (C38_scaled _ n).2.2.2.1 (honey_regular (by linarith)) fun i => by have := hc i; omega
  have key : ∀ {c m : Fin 2 → ℤ}, (∀ i, 0 ≤ c i ∧ c i < n i) → ((honeyLattice r).scaled n).Place (hexCentre r c) m →
      ∀ i, |2 * (1000 * hexCentre r c i - m i)| ≤ 1 := by
    rintro c m hc ⟨y, h1, h2, h3⟩ i
    have e := (image_inCell_iff hR).1 ⟨h1, h2⟩
    rw [(hexCentre_inCell r n c hc).periodized hR] at e
    subst e
    rcases h3 i with h | h
    · exact h.le
    · exact h.1.le
  obtain ⟨m, h1, h2⟩ := h
  have k1 := key hc h1
  have k2 := key hc' h2
  have hb : ∀ i, |hexCentre r c i - hexCentre r c' i| ≤ 1 / 1000 := fun i => by
    have a := abs_le.1 (k1 i)
    have b := abs_le.1 (k2 i)
    rw [abs_le]; constructor <;> linarith
  have e1 : c 1 = c' 1 := by
    have := hb 1
    simp only [hexCentre, Matrix.cons_val_one, Matrix.cons_val_fin_one] at this
    by_contra hne
    have hz : (1 : K) ≤ |((c 1 - c' 1 : ℤ) : K)| := by
      rw [← Int.cast_abs]
      have : 1 ≤ |c 1 - c' 1| := Int.one_le_abs (sub_ne_zero.2 hne)
      exact_mod_cast this
    have e : (2 * (c 1 : K) + 1) / 4 * r - (2 * (c' 1 : K) + 1) / 4 * r = ((c 1 - c' 1 : ℤ) : K) * (r / 2) := by push_cast; ring
    rw [e, abs_mul, abs_of_nonneg (by linarith : 0 ≤ r / 2)] at this
    have : 1 * (r / 2) ≤ |((c 1 - c' 1 : ℤ) : K)| * (r / 2) := mul_le_mul_of_nonneg_right hz (by linarith)
    linarith
  have e0 : c 0 = c' 0 := by
    have := hb 0
    simp only [hexCentre, Matrix.cons_val_zero, e1] at this
    refine sub_eq_zero.1 (small_int (r := r) _ ?_ rfl)
    have e : ((c 0 - c' 0 : ℤ) : K) = (c 0 : K) + c' 1 / 2 + 3 / 4 - (c' 0 + c' 1 / 2 + 3 / 4) := by push_cast; ring
    rw [e]; linarith
  funext i
  fin_cases i
  · exact e0
  · exact e1

theorem buildFrom_reachable {d : ℕ} {L : Lattice K d} (h : L.Regular) {n : Fin d → ℤ} (hn : ∀ i, n i ≠ 0) {m : Motif K d} {frac : Bool}
    {s : Structure K d} (hs : buildFrom L n m frac = .ok s) : s.Reachable := by
  have hD : Distinct (L.scaled n) (tiling L n m frac) := by
    by_contra hD
    rw [(buildFrom_eq L n m frac).2 hD] at hs
    cases hs
  rw [(buildFrom_eq L n m frac).1 hD] at hs
  injection hs with hs
  subst hs
  exact reachable_built ((C38_scaled L n).2.2.2.1 h hn) hD

theorem mem_hexSteps {p q : ℤ} : ![p, q] ∈ hexSteps ↔ (p = 1 ∧ q = 0) ∨ (p = -1 ∧ q = 0) ∨ (p = 0 ∧ q = 1) ∨ (p = 0 ∧ q = -1) ∨
    (p = 1 ∧ q = -1) ∨ (p = -1 ∧ q = 1) := by
  simp [hexSteps, funext_iff, Fin.forall_fin_two]

theorem sq_ge_of {a b : K} (hb : 0 ≤ b) (h : a ≤ -b ∨ b ≤ a) : b ^ 2 ≤ a ^ 2 := by
  rcases h with h | h
  · have : b ^ 2 ≤ (-a) ^ 2 := sq_le_sq' (by linarith) (by linarith)
    rwa [neg_sq] at this
  · exact sq_le_sq' (by linarith) h

/-- Steps to other hexagons are long. -/
theorem hex_far {r δ : K} (h1 : 173 / 100 ≤ r) (hδ : |δ| ≤ 1 / 1000) (p q : ℤ) (h0 : ¬ (p = 0 ∧ q = 0)) (hno : ![p, q] ∉ hexSteps) :
    2 ≤ ((p : K) + q / 2) ^ 2 + (q * r / 2 + δ) ^ 2 := by
  rw [mem_hexSteps] at hno
  have hδ' := abs_le.1 hδ
  have s1 := sq_nonneg ((p : K) + q / 2)
  have s2 := sq_nonneg ((q : K) * r / 2 + δ)
  have cast : ∀ (a b : ℤ), a ≤ b → (a : K) ≤ b := fun a b h => by exact_mod_cast h
  have big : (q ≤ -2 ∨ 2 ≤ q) ∨ q = -1 ∨ q = 0 ∨ q = 1 := by omega
  rcases big with h | rfl | rfl | rfl
  · have : (3 / 2 : K) ^ 2 ≤ ((q : K) * r / 2 + δ) ^ 2 := by
      refine sq_ge_of (by norm_num) ?_
      rcases h with h | h
      · have := mul_le_mul_of_nonneg_right (cast _ _ h) (by linarith : 0 ≤ r)
        push_cast at this
        left; linarith
      · have := mul_le_mul_of_nonneg_right (cast _ _ h) (by linarith : 0 ≤ r)
        push_cast at this
        right; linarith
    norm_num at this
    linarith
  · have : (3 / 2 : K) ^ 2 ≤ ((p : K) + ((-1 : ℤ) : K) / 2) ^ 2 := by
      refine sq_ge_of (by norm_num) ?_
      rcases (by omega : p ≤ -1 ∨ 2 ≤ p) with h | h
      · have := cast _ _ h
        push_cast at this ⊢
        left; linarith
      · have := cast _ _ h
        push_cast at this ⊢
        right; linarith
    norm_num at this s2 ⊢
    linarith
  · have : (2 : K) ^ 2 ≤ ((p : K) + ((0 : ℤ) : K) / 2) ^ 2 := by
      refine sq_ge_of (by norm_num) ?_
      rcases (by omega : p ≤ -2 ∨ 2 ≤ p) with h | h
      · have := cast _ _ h
        push_cast at this ⊢
        left; linarith
      · have := cast _ _ h
        push_cast at this ⊢
        right; linarith
    linarith
  · have : (3 / 2 : K) ^ 2 ≤ ((p : K) + ((1 : ℤ) : K) / 2) ^ 2 := by
      refine sq_ge_of (by norm_num) ?_
      rcases (by omega : p ≤ -2 ∨ 1 ≤ p) with h | h
      · have := cast _ _ h
        push_cast at this ⊢
        left; linarith
      · have := cast _ _ h
        push_cast at this ⊢
        right; linarith
    norm_num at this s2 ⊢
    linarith

/-- Steps to touching hexagons are short. -/
theorem hex_close {r δ : K} (h1 : 173 / 100 ≤ r) (h2 : r ≤ 174 / 100) (hδ : |δ| ≤ 1 / 1000) (p q : ℤ)
    (h : (p = 0 ∧ q = 0) ∨ ![p, q] ∈ hexSteps) : ((p : K) + q / 2) ^ 2 + (q * r / 2 + δ) ^ 2 ≤ 101 / 100 := by
  rw [mem_hexSteps] at h
  have hδ' := abs_le.1 hδ
  have hδ2 : δ ^ 2 ≤ 1 / 1000000 := by
    have := sq_le_sq' hδ'.1 hδ'.2
    norm_num at this; linarith
  have hy1 : (r / 2 + δ) ^ 2 ≤ 759 / 1000 := by
    have : (r / 2 + δ) ^ 2 ≤ (871 / 1000) ^ 2 := sq_le_sq' (by linarith) (by linarith)
    have e : ((871 : K) / 1000) ^ 2 ≤ 759 / 1000 := by norm_num
    exact this.trans e
  have hy2 : (-r / 2 + δ) ^ 2 ≤ 759 / 1000 := by
    have : (-r / 2 + δ) ^ 2 ≤ (871 / 1000) ^ 2 := sq_le_sq' (by linarith) (by linarith)
    have e : ((871 : K) / 1000) ^ 2 ≤ 759 / 1000 := by norm_num
    exact this.trans e
  rcases h with ⟨rfl, rfl⟩ | ⟨rfl, rfl⟩ | ⟨rfl, rfl⟩ | ⟨rfl, rfl⟩ | ⟨rfl, rfl⟩ | ⟨rfl, rfl⟩ | ⟨rfl, rfl⟩ <;> push_cast
  · calc _ = δ ^ 2 := by ring
      _ ≤ _ := by linarith
  · calc _ = 1 + δ ^ 2 := by ring
      _ ≤ _ := by linarith
  · calc _ = 1 + δ ^ 2 := by ring
      _ ≤ _ := by linarith
  · calc _ = 1 / 4 + (r / 2 + δ) ^ 2 := by ring
      _ ≤ _ := by linarith
  · calc _ = 1 / 4 + (-r / 2 + δ) ^ 2 := by ring
      _ ≤ _ := by linarith
  · calc _ = 1 / 4 + (-r / 2 + δ) ^ 2 := by ring
      _ ≤ _ := by linarith
  · calc _ = 1 / 4 + (r / 2 + δ) ^ 2 := by ring
      _ ≤ _ := by linarith

/-- Which whole steps `(p, q)` are measured as shorter than the cutoff. -/
theorem hex_near {r δ : K} (h1 : 173 / 100 ≤ r) (h2 : r ≤ 174 / 100) (hδ : |δ| ≤ 1 / 1000) (p q : ℤ) :
    roundSqrt PRECISION (((p : K) + q / 2) ^ 2 + (q * r / 2 + δ) ^ 2) < 1 + 1 / 100 ↔ (p = 0 ∧ q = 0) ∨ ![p, q] ∈ hexSteps := by
  have far := hex_far h1 hδ p q
  have near := hex_close h1 h2 hδ p q
  obtain ⟨k, e, lo, hi⟩ := roundSqrt_bounds PRECISION (q := ((p : K) + q / 2) ^ 2 + (q * r / 2 + δ) ^ 2) (by positivity)
  rw [e]
  generalize ((p : K) + q / 2) ^ 2 + (q * r / 2 + δ) ^ 2 = D at lo hi far near
  have hk : ((k : K) / (PRECISION : ℕ) < 1 + 1 / 100) ↔ k ≤ 1009 := by
    rw [PRECISION, div_lt_iff₀ (by norm_num)]
    have : ((1 : K) + 1 / 100) * ((1000 : ℕ) : K) = ((1010 : ℕ) : K) := by push_cast; norm_num
    rw [this, Nat.cast_lt]; omega
  rw [hk]
  simp only [PRECISION] at lo hi
  push_cast at lo hi
  constructor
  · intro hk
    by_contra hno
    rw [not_or] at hno
    have hD := far hno.1 hno.2
    have : (k : K) ≤ 1009 := by exact_mod_cast hk
    have k0 : (0 : K) ≤ k := Nat.cast_nonneg k
    have : (2 * (k : K) + 1) ^ 2 ≤ 2019 ^ 2 := sq_le_sq' (by linarith) (by linarith)
    linarith
  · intro h
    have hD := near h
    by_contra hk
    have : (1010 : K) ≤ k := by exact_mod_cast (by omega : 1010 ≤ k)
    rcases lo with lo | lo
    · linarith
    · have : (2019 : K) ^ 2 ≤ (2 * (k : K) - 1) ^ 2 := sq_le_sq' (by linarith) (by linarith)
      linarith

/-- The distance between two stored hexagons. -/
theorem hex_dist {r : K} (h1 : 173 / 100 ≤ r) (h2 : r ≤ 174 / 100) {n c c' : Fin 2 → ℤ} (hn : ∀ k, 3 ≤ n k)
    (hc : ∀ i, 0 ≤ c i ∧ c i < n i) (hc' : ∀ i, 0 ≤ c' i ∧ c' i < n i) (hne : c ≠ c') {x y : Fin 2 → K}
    (hx : ((honeyLattice r).scaled n).Stored (hexCentre r c) x) (hy : ((honeyLattice r).scaled n).Stored (hexCentre r c') y) :
    ((honeyLattice r).scaled n).dist x y < 1 + 1 / 100 ↔ ∃ v ∈ hexSteps, ∀ k, n k ∣ c' k - c k - v k := by
  have hr : r ≠ 0 := by linarith
  have hR : ((honeyLattice r).scaled n).Regular :=
    (C38_scaled _ n).2.2.2.1 (honey_regular hr) fun i => by have := hc i; omega
  obtain ⟨x0, x1⟩ := hexCentre_stored hr hc hx
  obtain ⟨y0, y1⟩ := hexCentre_stored hr hc' hy
  have hn0 : ∀ k, (n k : K) ≠ 0 := fun k => by
    have := hn k
    exact_mod_cast (by omega : n k ≠ 0)
  -- the difference of the stored locations
  obtain ⟨δ, hδ⟩ : ∃ δ, δ = (x 1 - hexCentre r c 1) - (y 1 - hexCentre r c' 1) := ⟨_, rfl⟩
  have hδ1 : |δ| ≤ 1 / 1000 := by
    have a := abs_le.1 x1
    have b := abs_le.1 y1
    rw [hδ, abs_le]; constructor <;> linarith
  set f : Fin 2 → K := ![((c 0 - c' 0 : ℤ) - δ / r) / n 0, ((c 1 - c' 1 : ℤ) + 2 * δ / r) / n 1] with hf
  have hxy : x - y = ((honeyLattice r).scaled n).point f := by
    rw [honey_scaled_point]
    funext j
    fin_cases j
    · simp [hf, x0, y0, hexCentre, div_mul_cancel₀ _ (hn0 _)]; ring
    · have e : x 1 - y 1 = hexCentre r c 1 - hexCentre r c' 1 + δ := by rw [hδ]; ring
      simp only [hf, Fin.mk_one, Pi.sub_apply, e, hexCentre, Matrix.cons_val_one, Matrix.cons_val_fin_one, div_mul_cancel₀ _ (hn0 _)]
      push_cast
      field_simp
      ring
  have hff : ∀ i, ((honeyLattice r).scaled n).toFrac x i - ((honeyLattice r).scaled n).toFrac y i = f i := fun i => by
    rw [← Pi.sub_apply, ← toFrac_sub, hxy, toFrac_point hR]
  obtain ⟨t, ht⟩ : ∃ t : Fin 2 → ℤ, t = fun i => roundHalfEven (f i) := ⟨_, rfl⟩
  obtain ⟨p, hp⟩ : ∃ p : ℤ, p = c 0 - c' 0 - t 0 * n 0 := ⟨_, rfl⟩
  obtain ⟨q, hq⟩ : ∃ q : ℤ, q = c 1 - c' 1 - t 1 * n 1 := ⟨_, rfl⟩
  have hvec : ((honeyLattice r).scaled n).pbcVec x y = ![(p : K) + q / 2, q * r / 2 + δ] := by
    have e : pbcDiffFrac ((honeyLattice r).scaled n).periodic (((honeyLattice r).scaled n).toFrac x) (((honeyLattice r).scaled n).toFrac y)
        = fun i => f i - t i := by
      funext i
      simp only [pbcDiffFrac, hff, ht]
      simp [honeyLattice, scaled]
    rw [pbcVec, e, toCart_eq_point, honey_scaled_point]
    funext j
    fin_cases j
    · simp only [hf, hp, hq, sub_mul, Matrix.cons_val_zero, Matrix.cons_val_one, Matrix.cons_val_fin_one, div_mul_cancel₀ _ (hn0 _), Fin.zero_eta]
      push_cast; ring
    · simp only [hf, hq, sub_mul, Matrix.cons_val_one, Matrix.cons_val_fin_one, div_mul_cancel₀ _ (hn0 _), Fin.mk_one]
      push_cast
      field_simp
      ring
  have hdist : ((honeyLattice r).scaled n).dist x y = roundSqrt PRECISION (((p : K) + q / 2) ^ 2 + (q * r / 2 + δ) ^ 2) := by
    rw [Lattice.dist, hvec]; simp [Fin.sum_univ_two]
  rw [hdist, hex_near h1 h2 hδ1]
  -- how large the reduced steps can be
  have hdr : |δ / r| ≤ 1 / 1000 := by
    rw [abs_div, abs_of_pos (by linarith : 0 < r), div_le_iff₀ (by linarith)]
    linarith
  have small : ∀ (z : ℤ) (N : ℤ) (ε : K), |ε| ≤ 1 / 500 → |2 * ((z : K) + ε)| ≤ N → |2 * z| ≤ N := by
    intro z N ε hε hz
    have a := abs_le.1 hε
    have b := abs_le.1 hz
    rw [abs_le]
    constructor
    · have : ((-N - 1 : ℤ) : K) < ((2 * z : ℤ) : K) := by push_cast; linarith
      have := Int.cast_lt.1 this
      omega
    · have : ((2 * z : ℤ) : K) < ((N + 1 : ℤ) : K) := by push_cast; linarith
      have := Int.cast_lt.1 this
      omega
  have hround : ∀ (i : Fin 2) (z : ℤ) (ε : K), f i = ((z : K) + ε) / n i → |2 * (((z - t i * n i : ℤ) : K) + ε)| ≤ n i := by
    intro i z ε e
    have h3 := abs_sub_roundHalfEven (f i)
    have hpos : (0 : K) < n i := by
      have := hn i
      exact_mod_cast (by omega : 0 < n i)
    have e2 : 2 * (((z - t i * n i : ℤ) : K) + ε) = 2 * (f i - roundHalfEven (f i)) * n i := by
      have e3 : f i * n i = z + ε := by rw [e, div_mul_cancel₀ _ hpos.ne']
      have e4 : 2 * (f i - roundHalfEven (f i)) * (n i : K) = 2 * (f i * n i - roundHalfEven (f i) * n i) := by ring
      rw [e4, e3, ht]; push_cast; ring
    rw [e2, abs_mul, abs_of_pos hpos]
    have := mul_le_mul_of_nonneg_right h3 hpos.le
    linarith
  have bp : |2 * p| ≤ n 0 := by
    rw [hp]
    refine small _ _ (-(δ / r)) (by rw [abs_neg]; linarith) ?_
    refine hround 0 (c 0 - c' 0) _ ?_
    simp [hf, sub_eq_add_neg]
  have bq : |2 * q| ≤ n 1 := by
    rw [hq]
    refine small _ _ (2 * δ / r) (by rw [mul_div_assoc, abs_mul, abs_two]; linarith) ?_
    refine hround 1 (c 1 - c' 1) _ ?_
    simp [hf]
  have uniq : ∀ (z w N : ℤ), 3 ≤ N → |2 * z| ≤ N → |w| ≤ 1 → N ∣ z - w → z = w := by
    intro z w N hN hz hw hd
    have a := abs_le.1 hz
    have b := abs_le.1 hw
    refine sub_eq_zero.1 (Int.eq_zero_of_abs_lt_dvd hd ?_)
    rw [abs_lt]; omega
  have bound : ∀ v ∈ hexSteps, |v 0| ≤ 1 ∧ |v 1| ≤ 1 := by decide
  have neg : ∀ v ∈ hexSteps, ![- v 0, - v 1] ∈ hexSteps := by decide
  constructor
  · rintro (⟨hp0, hq0⟩ | hm)
    · exfalso
      apply hne
      have z0 : c 0 - c' 0 = 0 := Int.eq_zero_of_abs_lt_dvd (m := n 0) ⟨t 0, by linarith⟩
        (by have a := hc 0; have b := hc' 0; rw [abs_lt]; omega)
      have z1 : c 1 - c' 1 = 0 := Int.eq_zero_of_abs_lt_dvd (m := n 1) ⟨t 1, by linarith⟩
        (by have a := hc 1; have b := hc' 1; rw [abs_lt]; omega)
      funext i
      fin_cases i
      · exact sub_eq_zero.1 z0
      · exact sub_eq_zero.1 z1
    · refine ⟨_, neg _ hm, fun k => ?_⟩
      fin_cases k
      · refine ⟨-t 0, ?_⟩
        simp [hp]; ring
      · refine ⟨-t 1, ?_⟩
        simp [hq]; ring
  · rintro ⟨v, hv, hd⟩
    right
    have b := bound v hv
    have e0 : p = - v 0 := by
      refine uniq p (- v 0) (n 0) (hn 0) bp (by rw [abs_neg]; exact b.1) ?_
      obtain ⟨u, hu⟩ := hd 0
      refine ⟨-u - t 0, ?_⟩
      rw [hp]; linarith
    have e1 : q = - v 1 := by
      refine uniq q (- v 1) (n 1) (hn 1) bq (by rw [abs_neg]; exact b.2) ?_
      obtain ⟨u, hu⟩ := hd 1
      refine ⟨-u - t 1, ?_⟩
      rw [hq]; linarith
    rw [e0, e1]
    exact neg v hv

/-- C78: for sizes of at least three in both directions the honeycomb tiling can be built; it has one site in the middle of every
hexagon (and no others), every site has exactly six neighbours, and they are the sites of the six hexagons that touch its hexagon,
across the edges of the box.  `root` is any number within half a hundredth of the square root of three. -/
theorem C78_honeycomb (root : K) (h1 : 173 / 100 ≤ root) (h2 : root ≤ 174 / 100) (n : Fin 2 → ℤ) (hn : ∀ k, 3 ≤ n k) :
    ∃ S g, buildHoneycomb root (.tup [n 0, n 1]) = .ok S ∧ honeycombNbhd.get S none = .ok g ∧
      S.siteIds = List.range ((n 0).toNat * (n 1).toNat) ∧
      (∀ c, ∃ i ∈ S.siteIds, S.idAt (hexCentre root c) = some i ∧ S.siteClass i = .ok "A") ∧
      (∀ i ∈ S.siteIds, ∃ c, (∀ k, 0 ≤ c k ∧ c k < n k) ∧ S.idAt (hexCentre root c) = some i) ∧
      (∀ c c' i, S.idAt (hexCentre root c) = some i → S.idAt (hexCentre root c') = some i → ∀ k, n k ∣ c' k - c k) ∧
      (∀ c c' i j, S.idAt (hexCentre root c) = some i → S.idAt (hexCentre root c') = some j →
        (j ∈ g.neighborsOf i ↔ ∃ v ∈ hexSteps, ∀ k, n k ∣ c' k - c k - v k)) ∧
      (∀ i ∈ S.siteIds, (g.neighborsOf i).length = 6) := by
  have hr : root ≠ 0 := by linarith
  have hreg := honey_regular hr
  obtain ⟨cs, hcs, hlex, hbuild, -⟩ := C49_tiling_partial (honeyLattice root) hreg n (fun i => by have := hn i; omega) honeyMotif true (.inl rfl)
  have hent : (honeyMotif (K := K)).entries = [("A", ![1 / 2, 1 / 2])] := rfl
  obtain ⟨S, hS, hL, hids, hsites⟩ := hbuild (by
    intro c hc c' hc' e e' a a' he he' hp
    rw [hent] at he he'
    have l1 := (List.getElem?_eq_some_iff.1 he).1
    have l2 := (List.getElem?_eq_some_iff.1 he').1
    simp only [List.length_singleton] at l1 l2
    have z1 : e = 0 := by omega
    have z2 : e' = 0 := by omega
    subst z1; subst z2
    simp only [List.getElem?_cons_zero, Option.some.injEq] at he he'
    subst he; subst he'
    rw [honey_siteIn, honey_siteIn] at hp
    exact ⟨hexCentre_place (by linarith) ((hcs c).1 hc) ((hcs c').1 hc') hp, rfl⟩)
  have hreach := buildFrom_reachable hreg (fun i => by have := hn i; omega) hS
  obtain ⟨g, hg, hnb⟩ := C56_distance hreach (honeycombNbhd (K := K)) _ (.distance _)
  -- what is known about the site of a cell
  have site : ∀ c : Fin 2 → ℤ, ∃ (q : ℕ) (b : Fin 2 → ℤ) (y : Fin 2 → K), (∀ k, 0 ≤ b k ∧ b k < n k) ∧ (∀ k, n k ∣ c k - b k) ∧ cs[q]? = some b ∧
      ((honeyLattice root).scaled n).Stored (hexCentre root b) y ∧ S.getSite q = some ⟨"A", y, q⟩ ∧
      S.idAt (hexCentre root b) = some q ∧ S.idAt (hexCentre root c) = some q := by
    intro c
    have hb : ∀ k, 0 ≤ c k % n k ∧ c k % n k < n k := fun k =>
      ⟨Int.emod_nonneg _ (by have := hn k; omega), Int.emod_lt_of_pos _ (by have := hn k; omega)⟩
    obtain ⟨q, hq⟩ := List.mem_iff_getElem?.1 ((hcs fun k => c k % n k).2 hb)
    obtain ⟨y, hy, hget, him⟩ := hsites q 0 _ ("A", ![1 / 2, 1 / 2]) hq rfl
    have hd : ∀ k, n k ∣ c k - c k % n k := fun k => Int.dvd_self_sub_emod
    rw [honey_siteIn] at hy him
    rw [hent] at hget him
    simp only [List.length_singleton, Nat.mul_one, Nat.add_zero] at hget him
    exact ⟨q, _, y, hb, hd, hq, hy, hget, him _ (hexCentre_image root n _ _ fun k => by simp), him _ (hexCentre_image root n _ c hd)⟩
  have hids' : S.siteIds = List.range ((n 0).toNat * (n 1).toNat) := by
    rw [hids, hent, List.length_singleton, Nat.mul_one, Fin.prod_univ_two]
  have memids : ∀ {i : ℕ} {t : Site K 2}, S.getSite i = some t → i ∈ S.siteIds := fun {i t} ht => by
    rw [siteIds_eq hreach, List.mem_range]; exact (getSite_isSome_iff hreach).1 ⟨t, ht⟩
  -- two cells with the same site differ by multiples of the size
  have same : ∀ c c' i, S.idAt (hexCentre root c) = some i → S.idAt (hexCentre root c') = some i → ∀ k, n k ∣ c' k - c k := by
    intro c c' i hi hi' k
    obtain ⟨q, b, y, -, h1, h2, -, -, -, h3⟩ := site c
    obtain ⟨q', b', y', -, h1', h2', -, -, -, h3'⟩ := site c'
    rw [hi] at h3; injection h3 with h3
    rw [hi'] at h3'; injection h3' with h3'
    subst h3; subst h3'
    rw [h2] at h2'; injection h2' with h2'
    subst h2'
    have := dvd_sub (h1' k) (h1 k)
    rwa [sub_sub_sub_cancel_right] at this
  have nbr : ∀ c c' i j, S.idAt (hexCentre root c) = some i → S.idAt (hexCentre root c') = some j →
      (j ∈ g.neighborsOf i ↔ ∃ v ∈ hexSteps, ∀ k, n k ∣ c' k - c k - v k) := by
    intro c c' i j hi hj
    obtain ⟨q, b, y, hb, h1c, h2c, h4, h5, h6, h3⟩ := site c
    obtain ⟨q', b', y', hb', h1c', h2c', h4', h5', h6', h3'⟩ := site c'
    rw [hi] at h3; injection h3 with h3
    rw [hj] at h3'; injection h3' with h3'
    subst h3; subst h3'
    have hmem : j ∈ g.neighborsOf i ↔ i ≠ j ∧ ((honeyLattice root).scaled n).dist y y' < 1 + 1 / 100 := by
      rw [← C55_weighted, List.mem_map]
      constructor
      · rintro ⟨⟨j', w⟩, hm, rfl⟩
        obtain ⟨hne, x1, x2, r, l1, l2, e, hlt, -⟩ := (hnb _ _ _).1 hm
        obtain ⟨t1, g1, rfl⟩ := siteLocation_iff.1 l1
        obtain ⟨t2, g2, rfl⟩ := siteLocation_iff.1 l2
        rw [h5] at g1; injection g1 with g1
        rw [h5'] at g2; injection g2 with g2
        subst g1; subst g2; subst e
        rw [hL] at hlt
        exact ⟨hne, hlt⟩
      · rintro ⟨hne, hlt⟩
        exact ⟨(j, _), (hnb _ _ _).2 ⟨hne, y, y', _, siteLocation_iff.2 ⟨_, h5, rfl⟩, siteLocation_iff.2 ⟨_, h5', rfl⟩, rfl,
          by rw [hL]; exact hlt, rfl⟩, rfl⟩
    have shift : ∀ v : Fin 2 → ℤ, (∀ k, n k ∣ c' k - c k - v k) ↔ ∀ k, n k ∣ b' k - b k - v k := by
      intro v
      refine forall_congr' fun k => ?_
      have e : c' k - c k - v k = (b' k - b k - v k) + ((c' k - b' k) - (c k - b k)) := by ring
      rw [e]
      exact dvd_add_left (dvd_sub (h1c' k) (h1c k))
    simp only [shift]
    rw [hmem]
    by_cases hbb : b = b'
    · subst hbb
      rw [h6] at h6'; injection h6' with h6'
      refine ⟨fun h => absurd h6' h.1, ?_⟩
      rintro ⟨v, hv, hd⟩
      exfalso
      have hz : ∀ k, v k = 0 := fun k => by
        have := hd k
        rw [sub_self, zero_sub, dvd_neg] at this
        refine Int.eq_zero_of_abs_lt_dvd this ?_
        have := (by decide : ∀ v ∈ hexSteps, ∀ k, |v k| ≤ 1) v hv k
        have := hn k
        omega
      exact (by decide : ∀ v ∈ hexSteps, ¬ (v 0 = 0 ∧ v 1 = 0)) v hv ⟨hz 0, hz 1⟩
    · rw [hex_dist h1 h2 hn hb hb' hbb h4 h4']
      refine ⟨fun h => h.2, fun h => ⟨?_, h⟩⟩
      rintro rfl
      rw [h2c] at h2c'
      injection h2c' with h2c'
      exact hbb h2c'
  have cell : ∀ i ∈ S.siteIds, ∃ c, (∀ k, 0 ≤ c k ∧ c k < n k) ∧ S.idAt (hexCentre root c) = some i := by
    intro i hi
    have hnd : cs.Nodup := hlex.imp fun {a b} h e => by
      rw [e] at h
      exact List.lt_irrefl _ h
    have hlen : cs.length = (n 0).toNat * (n 1).toNat := by
      rw [← List.toFinset_card_of_nodup hnd]
      have : cs.toFinset = Fintype.piFinset fun k => Finset.Ico 0 (n k) := by
        ext c; simp [hcs]
      rw [this, Fintype.card_piFinset, Fin.prod_univ_two]; simp
    rw [hids', List.mem_range, ← hlen] at hi
    obtain ⟨q, b, y, hb, hd, hq, -, -, -, h3⟩ := site cs[i]
    have hci := (hcs cs[i]).1 (List.getElem_mem hi)
    have hbc : b = cs[i] := by
      funext k
      have := hci k
      have := hb k
      exact (sub_eq_zero.1 (Int.eq_zero_of_abs_lt_dvd (hd k) (by rw [abs_lt]; omega))).symm
    have hqi : q = i := by
      obtain ⟨hq1, hq2⟩ := List.getElem?_eq_some_iff.1 hq
      exact (List.Nodup.getElem_inj_iff hnd).1 (hq2.trans hbc)
    exact ⟨cs[i], hci, by rw [h3, hqi]⟩
  refine ⟨S, g, ?_, hg, hids', fun c => ?_, cell, same, nbr, fun i hi => ?_⟩
  · rw [buildHoneycomb, ← hS, ← (C50_size (honeyLattice root) honeyMotif true).2.1 n]
    simp [List.ofFn_succ]
  · obtain ⟨q, b, y, -, -, -, -, h5, -, h3⟩ := site c
    exact ⟨q, memids h5, h3, by rw [siteClass, h5]⟩
  · obtain ⟨c, hc, hci⟩ := cell i hi
    choose f hf using fun v : Fin 2 → ℤ => (site fun k => c k + v k)
    choose b y hb hd hcsf hst hget hidb hid using hf
    have hinj : ∀ v ∈ hexSteps, ∀ w ∈ hexSteps, f v = f w → v = w := by
      intro v hv w hw e
      have := hid v
      rw [e] at this
      have hdd := same _ _ _ this (hid w)
      funext k
      have h3 := hdd k
      rw [add_sub_add_left_eq_sub] at h3
      have bv := abs_le.1 ((by decide : ∀ v ∈ hexSteps, ∀ k, |v k| ≤ 1) v hv k)
      have bw := abs_le.1 ((by decide : ∀ v ∈ hexSteps, ∀ k, |v k| ≤ 1) w hw k)
      have := hn k
      exact (sub_eq_zero.1 (Int.eq_zero_of_abs_lt_dvd h3 (by rw [abs_lt]; omega))).symm
    have hperm : (g.neighborsOf i).Perm (hexSteps.map f) := by
      rw [List.perm_ext_iff_of_nodup (g.nodup_neighbors i)]
      · intro j
        rw [List.mem_map]
        constructor
        · intro hj
          obtain ⟨c', -, hcj⟩ := cell j ((C55_known_and_other hreach _ none g hg i).1 j hj).1
          obtain ⟨v, hv, hdv⟩ := (nbr c c' i j hci hcj).1 hj
          refine ⟨v, hv, ?_⟩
          have him := hexCentre_image root n (fun k => c k + v k) c' fun k => by
            rw [← sub_sub]; exact hdv k
          have e : S.idAt (hexCentre root c') = S.idAt (hexCentre root fun k => c k + v k) := by
            simp only [idAt, siteAt, transformed, hL, periodized_image (hL ▸ hreach.1) him]
          rw [hcj, hid v] at e
          injection e with e
          exact e.symm
        · rintro ⟨v, hv, rfl⟩
          exact (nbr _ _ i _ hci (hid v)).2 ⟨v, hv, fun k => by simp⟩
      · exact List.Nodup.map_on (fun v hv w hw e => hinj v hv w hw e) (by decide)
    rw [hperm.length_eq]; rfl

/-- C78 for `build(n)` with one number. -/
theorem C78_honeycomb_int (root : K) (h1 : 173 / 100 ≤ root) (h2 : root ≤ 174 / 100) (n : ℤ) (hn : 3 ≤ n) :
    ∃ S g, buildHoneycomb root (.int n) = .ok S ∧ honeycombNbhd.get S none = .ok g ∧ S.siteIds.length = n.toNat ^ 2 ∧
      ∀ i ∈ S.siteIds, (g.neighborsOf i).length = 6 := by
  obtain ⟨S, g, hS, hg, hids, -, -, -, -, h6⟩ := C78_honeycomb root h1 h2 (fun _ => n) fun _ => hn
  refine ⟨S, g, ?_, hg, by rw [hids, List.length_range, sq], h6⟩
  rw [buildHoneycomb, (C50_size (honeyLattice root) honeyMotif true).1 n]
  exact hS

/-- The hypotheses hold for the real square root of three ... -/
example : (173 / 100 : ℝ) ≤ √3 ∧ √3 ≤ (174 / 100 : ℝ) :=
  ⟨Real.le_sqrt_of_sq_le (by norm_num), Real.sqrt_le_iff.2 (by norm_num)⟩

/-- ... and for the double that `math.sqrt(3)` returns, `0x1.bb67ae8584caap+0`. -/
example : (173 / 100 : ℚ) ≤ 3900231685776981 / 2251799813685248 ∧ (3900231685776981 / 2251799813685248 : ℚ) ≤ 174 / 100 := by norm_num

end Pyl
