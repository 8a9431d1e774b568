import Verif.Spec.DoubleAny
import Verif.Props.DoubleJson
/-
C115: on square grids nothing depends on what numpy leaves open.
-/
set_option autoImplicit false
set_option linter.unusedSectionVars false

namespace Pyl
open Pyl.Lattice Pyl.Structure
variable {d : ℕ}

/-! ### sums of products with at most one product that is not zero -/

/-- The products that are not zero. -/
def nonzero (l : List (ℚ × ℚ)) : List (ℚ × ℚ) := l.filter fun p => decide (p.1 * p.2 ≠ 0)

theorem nonzero_cons (p : ℚ × ℚ) (l : List (ℚ × ℚ)) : nonzero (p :: l) = if p.1 * p.2 = 0 then nonzero l else p :: nonzero l := by
  rw [nonzero, List.filter_cons]
  by_cases e : p.1 * p.2 = 0
  · rw [if_pos e, if_neg (by rw [e]; decide)]; rfl
  · rw [if_neg e, if_pos (decide_eq_true e)]; rfl

theorem nonzero_of_zero {l : List (ℚ × ℚ)} (h : ∀ p ∈ l, p.1 * p.2 = 0) : nonzero l = [] :=
  List.filter_eq_nil_iff.2 fun p hp => by rw [h p hp]; decide

theorem DotOf.sparse {l : List (ℚ × ℚ)} {a : ℚ} (h : DotOf l a) : (nonzero l = [] → a = 0) ∧ ∀ p, nonzero l = [p] → a = fl (p.1 * p.2) := by
  have fl0 : fl 0 = 0 := rfl
  have idem : ∀ x, fl (fl x) = fl x := fun x => (C99_rounding _).2.1 (C99_rounding x).1
  induction h with
  | nil => exact ⟨fun _ => rfl, fun p hp => by simp [nonzero] at hp⟩
  | mul x y =>
    rw [nonzero_cons]
    by_cases e : x * y = 0
    · rw [if_pos e]; exact ⟨fun _ => by rw [e, fl0], fun p hp => by simp [nonzero] at hp⟩
    · rw [if_neg e]; exact ⟨fun hp => by simp at hp, fun p hp => by injection hp with h1 h2; rw [← h1]⟩
  | @add l₁ l₂ a b h₁ h₂ ih₁ ih₂ =>
    have e : nonzero (l₁ ++ l₂) = nonzero l₁ ++ nonzero l₂ := List.filter_append ..
    rw [e]
    constructor
    · intro hp
      obtain ⟨e1, e2⟩ := List.append_eq_nil_iff.1 hp
      rw [ih₁.1 e1, ih₂.1 e2, add_zero, fl0]
    · intro p hp
      rcases List.append_eq_singleton_iff.1 hp with ⟨e1, e2⟩ | ⟨e1, e2⟩
      · rw [ih₁.1 e1, ih₂.2 p e2, zero_add, idem]
      · rw [ih₁.2 p e1, ih₂.1 e2, add_zero, idem]
  | @fma l a x y h ih =>
    by_cases e : x * y = 0
    · rw [nonzero_cons, if_pos e, e, add_zero]
      exact ⟨fun hp => by rw [ih.1 hp, fl0], fun p hp => by rw [ih.2 p hp, idem]⟩
    · rw [nonzero_cons, if_neg e]
      refine ⟨fun hp => by simp at hp, fun p hp => ?_⟩
      injection hp with h1 h2
      rw [ih.1 h2, zero_add, ← h1]
  | @perm l₁ l₂ a hp _ ih =>
    have := hp.filter fun p => decide (p.1 * p.2 ≠ 0)
    constructor
    · intro h0
      refine ih.1 ?_
      rw [nonzero] at h0 ⊢
      rw [h0] at this
      exact this.eq_nil
    · intro p h0
      refine ih.2 p ?_
      rw [nonzero] at h0 ⊢
      rw [h0] at this
      exact List.perm_singleton.1 this

/-- If all products but one are zero, every order of the summation gives that product, rounded. -/
theorem DotOf.single {v w : Fin d → ℚ} {a : ℚ} (h : DotOf (List.ofFn fun i => (v i, w i)) a) (k : Fin d) (hk : ∀ i, i ≠ k → v i * w i = 0) :
    a = fl (v k * w k) := by
  have hl : (List.ofFn fun i => (v i, w i)) = (List.finRange d).map fun i => (v i, w i) := List.ofFn_eq_map
  have key : ∀ l : List (Fin d), l.Nodup → nonzero (l.map fun i => (v i, w i)) = if k ∈ l ∧ v k * w k ≠ 0 then [(v k, w k)] else [] := by
    intro l
    induction l with
    | nil => intro _; simp [nonzero]
    | cons i l ih =>
      intro hn
      obtain ⟨hi, hn⟩ := List.nodup_cons.1 hn
      rw [List.map_cons, nonzero_cons, ih hn]
      by_cases e : i = k
      · subst e
        by_cases h0 : v i * w i = 0
        · rw [if_pos h0, if_neg (by tauto), if_neg (by tauto)]
        · rw [if_neg h0, if_neg (by tauto), if_pos ⟨List.mem_cons_self, h0⟩]
      · rw [if_pos (hk i e)]
        simp [Ne.symm e]
  have e := key _ (List.nodup_finRange d)
  rw [← hl] at e
  by_cases h0 : v k * w k = 0
  · rw [if_neg (by tauto)] at e
    rw [h.sparse.1 e, h0]; rfl
  · rw [if_pos ⟨List.mem_finRange k, h0⟩] at e
    exact h.sparse.2 _ e

theorem DotOf.exists (l : List (ℚ × ℚ)) : ∃ a, DotOf l a := by
  induction l with
  | nil => exact ⟨_, .nil⟩
  | cons p l ih => obtain ⟨a, h⟩ := ih; exact ⟨_, .fma p.1 p.2 h⟩

/-! ### the inverse -/

theorem MinusDot.eq_of_zero {a r : ℚ} {l : List (ℚ × ℚ)} (h : MinusDot a l r) (hl : ∀ p ∈ l, p.1 * p.2 = 0) : r = fl a := by
  have hz : nonzero (l.map fun p => (-p.1, p.2)) = [] := nonzero_of_zero fun p hp => by
    obtain ⟨q, hq, rfl⟩ := List.mem_map.1 hp
    rw [neg_mul, hl q hq, neg_zero]
  by_cases e : a = 0
  · have := h.sparse.1 (by rw [nonzero_cons, if_pos (by rw [e, zero_mul]), hz])
    rw [this, e]; rfl
  · have := h.sparse.2 (a, 1) (by rw [nonzero_cons, if_neg (by simpa using e), hz])
    rw [this, mul_one]

theorem QuotOf.zero {b q : ℚ} (h : QuotOf 0 b q) : q = 0 := by
  rcases h with rfl | rfl
  · rw [zero_div]; rfl
  · rw [zero_mul]; rfl

theorem QuotOf.one {b q : ℚ} (h : QuotOf 1 b q) : q = fl (1 / b) := by
  rcases h with rfl | rfl
  · rfl
  · rw [one_mul]; exact (C99_rounding _).2.1 (C99_rounding _).1

/-- C115: for a matrix with one entry that is not zero in every row and column, an LU decomposition in double arithmetic returns the matrix of the
rounded reciprocals. -/
theorem C115_inverse (M N : Matrix (Fin d) (Fin d) ℚ) (ρ : Fin d → Fin d) (hρ : Function.Injective ρ) (hM : ∀ r c, M r c ≠ 0 ↔ c = ρ r)
    (hD : ∀ r c, IsDouble (M r c)) (h : LUInverse M N) : ∀ i j, N i j = if M j i = 0 then 0 else fl (1 / M j i) := by
  obtain ⟨π, L, U, Y, hU, hp, hL, hY, hN⟩ := h
  have fl0 : fl 0 = 0 := rfl
  have hfl : ∀ r c, fl (M r c) = M r c := fun r c => (C99_rounding _).2.1 (hD r c)
  -- the multipliers vanish, column by column
  have hL0 : ∀ (m : ℕ) (j : Fin d), (j : ℕ) = m → ∀ i, j < i → L i j = 0 := by
    intro m
    induction m using Nat.strong_induction_on with
    | _ m ih =>
      intro j hj i hi
      have hz : ∀ i', j ≤ i' → ∀ c, ∀ p ∈ ((List.finRange d).filter fun k => k < j).map (fun k => (L i' k, U k c)), p.1 * p.2 = 0 := by
        intro i' hi' c p hp
        obtain ⟨k, hk, rfl⟩ := List.mem_map.1 hp
        have hk' : k < j := by simpa using (List.mem_filter.1 hk).2
        simp only
        rw [ih k (by omega) k rfl i' (lt_of_lt_of_le hk' hi'), zero_mul]
      have hu : U j j = M (π j) j := by rw [(hU j j le_rfl).eq_of_zero (hz j le_rfl j), hfl]
      have hc : j = ρ (π j) := (hM _ _).1 (by rw [← hu]; exact hp j)
      obtain ⟨z, hz1, hz2⟩ := hL i j hi
      have e : M (π i) j = 0 := by
        by_contra hne
        have := (hM _ _).1 hne
        rw [hc] at this
        have : π j = π i := hρ (hc ▸ this)
        exact hi.ne (π.injective this)
      rw [hz1.eq_of_zero (hz i hi.le j), e, fl0] at hz2
      exact hz2.zero
  have hz : ∀ i (V : Matrix (Fin d) (Fin d) ℚ) c, ∀ p ∈ ((List.finRange d).filter fun k => k < i).map (fun k => (L i k, V k c)), p.1 * p.2 = 0 := by
    intro i V c p hp
    obtain ⟨k, hk, rfl⟩ := List.mem_map.1 hp
    have hk' : k < i := by simpa using (List.mem_filter.1 hk).2
    simp only
    rw [hL0 k k rfl i hk', zero_mul]
  have hUM : ∀ i j, i ≤ j → U i j = M (π i) j := fun i j hij => by rw [(hU i j hij).eq_of_zero (hz i U j), hfl]
  have hπ : ∀ i, i = ρ (π i) := fun i => (hM _ _).1 (by rw [← hUM i i le_rfl]; exact hp i)
  have hU0 : ∀ i k, i < k → U i k = 0 := by
    intro i k hik
    rw [hUM i k hik.le]
    by_contra hne
    have := (hM _ _).1 hne
    rw [← hπ i] at this
    exact hik.ne' this
  intro i j
  obtain ⟨z, hz1, hz2⟩ := hN i j
  have hy : Y i j = (1 : Matrix (Fin d) (Fin d) ℚ) (π i) j := by
    rw [(hY i j).eq_of_zero (hz i Y j), Matrix.one_apply]
    split_ifs
    · decide +kernel
    · rfl
  have hz' : z = (1 : Matrix (Fin d) (Fin d) ℚ) (π i) j := by
    rw [hz1.eq_of_zero fun p hp => by
      obtain ⟨k, hk, rfl⟩ := List.mem_map.1 hp
      have hk' : i < k := by simpa using (List.mem_filter.1 hk).2
      simp only
      rw [hU0 i k hk', zero_mul], hy, Matrix.one_apply]
    split_ifs
    · decide +kernel
    · rfl
  rw [hz', hUM i i le_rfl, Matrix.one_apply] at hz2
  by_cases e : π i = j
  · subst e
    rw [if_pos rfl] at hz2
    rw [if_neg (by rw [← hUM i i le_rfl]; exact hp i), hz2.one]
  · rw [if_neg e] at hz2
    rw [if_pos, hz2.zero]
    by_contra hne
    have := (hM _ _).1 hne
    rw [hπ i] at this
    exact e (hρ this)

theorem MinusDot.exists (a : ℚ) {l : List (ℚ × ℚ)} (hl : ∀ p ∈ l, p.1 * p.2 = 0) : MinusDot a l (fl a) := by
  obtain ⟨r, hr⟩ := DotOf.exists ((a, 1) :: l.map fun p => (-p.1, p.2))
  rw [← MinusDot.eq_of_zero hr hl]
  exact hr

/-- Such a matrix has an LU decomposition in double arithmetic. -/
theorem lu_exists (M : Matrix (Fin d) (Fin d) ℚ) (ρ : Fin d → Fin d) (hρ : Function.Bijective ρ) (hM : ∀ r c, M r c ≠ 0 ↔ c = ρ r)
    (hD : ∀ r c, IsDouble (M r c)) : ∃ N, LUInverse M N := by
  have hfl : ∀ r c, fl (M r c) = M r c := fun r c => (C99_rounding _).2.1 (hD r c)
  have fl1 : ∀ i j, fl ((1 : Matrix (Fin d) (Fin d) ℚ) i j) = (1 : Matrix (Fin d) (Fin d) ℚ) i j := by
    intro i j
    rw [Matrix.one_apply]
    split_ifs
    · decide +kernel
    · rfl
  set π := (Equiv.ofBijective ρ hρ).symm with hπ
  have hr : ∀ i, ρ (π i) = i := fun i => (Equiv.ofBijective ρ hρ).apply_symm_apply i
  refine ⟨fun i j => fl ((1 : Matrix (Fin d) (Fin d) ℚ) (π i) j / M (π i) i), π, 0, fun i j => M (π i) j, fun i j => (1 : Matrix (Fin d) (Fin d) ℚ) (π i) j, ?_, ?_, ?_, ?_, ?_⟩
  · intro i j _
    have := MinusDot.exists (M (π i) j) (l := ((List.finRange d).filter fun k => k < i).map fun k => ((0 : Matrix (Fin d) (Fin d) ℚ) i k, M (π k) j))
      (by simp)
    rwa [hfl] at this
  · exact fun i => (hM _ _).2 (hr i).symm
  · intro i j hij
    refine ⟨_, MinusDot.exists _ (by simp), ?_⟩
    have : M (π i) j = 0 := by
      by_contra hne
      have := (hM _ _).1 hne
      rw [hr] at this
      exact hij.ne this
    rw [hfl, this, QuotOf, zero_div]
    exact .inl rfl
  · intro i j
    have := MinusDot.exists ((1 : Matrix (Fin d) (Fin d) ℚ) (π i) j)
      (l := ((List.finRange d).filter fun k => k < i).map fun k => ((0 : Matrix (Fin d) (Fin d) ℚ) i k, (1 : Matrix (Fin d) (Fin d) ℚ) (π k) j)) (by simp)
    rwa [fl1] at this
  · intro i j
    refine ⟨_, MinusDot.exists _ ?_, by rw [fl1]; exact .inl rfl⟩
    intro p hp
    obtain ⟨k, hk, rfl⟩ := List.mem_map.1 hp
    have hk' : i < k := by simpa using (List.mem_filter.1 hk).2
    have : M (π i) k = 0 := by
      by_contra hne
      have := (hM _ _).1 hne
      rw [hr] at this
      exact hk'.ne' this
    simp only [this, zero_mul]

/-! ### the grids -/

section
variable {A : Dbl.Arith d} {mv : Matrix (Fin d) (Fin d) ℚ → (Fin d → ℚ) → Fin d → ℚ} (hA : A.Numpy mv)
variable {L : Lattice ℚ d} {σ : Fin d → Fin d} (h : IsGrid L σ) {n : Fin d → ℤ} (hn : ∀ i, 0 < n i ∧ n i ≤ 2 ^ 30)
include hA h hn

theorem any_inv : A.inv (L.scaled n).mat = Dbl.inv (L.scaled n).mat := by
  have hbij : Function.Bijective σ := ⟨fun a b e => by rw [← h.inv a, e, h.inv], fun a => ⟨σ a, h.inv a⟩⟩
  have hM : ∀ r c, (L.scaled n).mat r c ≠ 0 ↔ c = σ r := by
    intro r c
    rw [Dbl.mat_scaled h hn]
    have : (n r : ℚ) ≠ 0 := by exact_mod_cast (hn r).1.ne'
    split_ifs with e
    · simp [this, e]
    · simp [e]
  have hD : ∀ r c, IsDouble ((L.scaled n).mat r c) := by
    intro r c
    rw [Dbl.mat_scaled h hn]
    split_ifs
    · exact ⟨n r, 0, by have := hn r; rw [abs_le]; omega, by simp⟩
    · exact ⟨0, 0, by norm_num, by simp⟩
  funext i j
  exact C115_inverse _ _ σ hbij.1 hM hD (hA.inv _ (lu_exists _ σ hbij hM hD)) i j

theorem any_toCart (f : Fin d → ℚ) : A.toCart (L.scaled n) f = Dbl.toCart (L.scaled n) f := by
  funext j
  have hz : ∀ i, i ≠ σ j → f i * (L.scaled n).mat i j = 0 := by
    intro i hi
    rw [Dbl.mat_scaled h hn, if_neg, mul_zero]
    rintro rfl
    exact hi (h.inv i).symm
  rw [Dbl.Arith.toCart, (hA.prod.vecMul f _ j).single (σ j) hz, Dbl.toCart, Dbl.dot_single (σ j) hz]

theorem any_toFrac (x : Fin d → ℚ) : A.toFrac (L.scaled n) x = Dbl.toFrac (L.scaled n) x := by
  funext j
  have hz : ∀ i, i ≠ σ j → x i * Dbl.inv (L.scaled n).mat i j = 0 := by
    intro i hi
    rw [Dbl.inv, Dbl.mat_scaled h hn, if_neg hi, if_pos rfl, mul_zero]
  have := hA.prod.vecMul x (A.inv (L.scaled n).mat) j
  rw [any_inv hA h hn] at this
  rw [Dbl.Arith.toFrac, any_inv hA h hn, this.single (σ j) hz, Dbl.toFrac, Dbl.dot_single (σ j) hz]

theorem any_periodized (x : Fin d → ℚ) : A.periodized (L.scaled n) x = (gridArith d).periodized (L.scaled n) x := by
  rw [Dbl.Arith.periodized, any_toFrac hA h hn, any_toCart hA h hn]
  rfl

theorem any_transformed (x : Fin d → ℚ) : A.transformed (L.scaled n) x = (gridArith d).transformed (L.scaled n) x := by
  rw [Dbl.Arith.transformed, any_periodized hA h hn]
  rfl

theorem any_built (acc : List (String × (Fin d → ℚ))) : A.built (L.scaled n) acc = (gridArith d).built (L.scaled n) acc := by
  simp only [Dbl.Arith.built, any_periodized hA h hn, any_transformed hA h hn]

theorem any_distinct (acc : List (String × (Fin d → ℚ))) : A.Distinct (L.scaled n) acc ↔ (gridArith d).Distinct (L.scaled n) acc := by
  simp only [Dbl.Arith.Distinct, any_transformed hA h hn]

theorem any_buildFrom : A.buildFromCart mv L n gridMotif = Dbl.buildFrom L n gridMotif := by
  have e0 : ∀ c, Dbl.Arith.cellSitesCart mv L gridMotif.toDict c = Dbl.cellSites L gridMotif.toDict c := by
    intro c
    have : mv L.mat c = fun i => Dbl.dot (L.mat i) c := by
      funext i
      have hz : ∀ j, j ≠ σ i → L.mat i j * c j = 0 := fun j hj => by rw [h.mat, if_neg hj, zero_mul]
      rw [(hA.mv L.mat c i).single (σ i) hz, Dbl.dot_single (σ i) hz]
    simp only [Dbl.Arith.cellSitesCart, Dbl.cellSites, this]
  rw [Dbl.Arith.buildFromCart, Dbl.buildFrom]
  simp only [e0]
  rw [← foldlM_flatMap', ← foldlM_flatMap', Dbl.scaled_grid h hn]
  generalize List.flatMap _ _ = l
  have h1 := A.foldlM_addOrRaise (L.scaled n) l [] (by simp [Dbl.Arith.Distinct])
  have h2 := (gridArith d).foldlM_addOrRaise (L.scaled n) l [] (by simp [Dbl.Arith.Distinct])
  rw [List.nil_append] at h1 h2
  have n1 : A.built (L.scaled n) [] = new (L.scaled n) := rfl
  have n2 : (gridArith d).built (L.scaled n) [] = new (L.scaled n) := rfl
  rw [n1] at h1
  rw [n2, gridArith_addOrRaise] at h2
  by_cases hD : (gridArith d).Distinct (L.scaled n) l
  · rw [h2.1 hD, h1.1 ((any_distinct hA h hn l).2 hD), any_built hA h hn]
  · rw [h2.2 hD, h1.2 fun hd => hD ((any_distinct hA h hn l).1 hd)]

end

/-- C50 for the builders in double precision: an int means that many cells along every axis, and a tuple needs one count per axis. -/
theorem C50_size_double {d : ℕ} (A : Dbl.Arith d) (mv : Matrix (Fin d) (Fin d) ℚ → (Fin d → ℚ) → Fin d → ℚ) (L : Lattice ℚ d) (m : Motif ℚ d) :
    (∀ k, A.build L m (.int k) = A.build L m (.tup (List.replicate d k)) ∧ A.buildCart mv L m (.int k) = A.buildCart mv L m (.tup (List.replicate d k)) ∧
      Dbl.build L m (.int k) = Dbl.build L m (.tup (List.replicate d k))) ∧
    (∀ l : List ℤ, l.length ≠ d → A.build L m (.tup l) = .error .valueError ∧ A.buildCart mv L m (.tup l) = .error .valueError ∧
      Dbl.build L m (.tup l) = .error .valueError) := by
  refine ⟨fun k => ?_, fun l hl => ⟨dif_neg hl, dif_neg hl, dif_neg hl⟩⟩
  have hlen : (List.replicate d k).length = d := by simp
  have e : (fun i : Fin d => (List.replicate d k).get (i.cast hlen.symm)) = fun _ => k := by funext i; simp
  refine ⟨?_, ?_, ?_⟩
  · simp only [Dbl.Arith.build]; rw [dif_pos hlen, e]
  · simp only [Dbl.Arith.buildCart]; rw [dif_pos hlen, e]
  · simp only [Dbl.build]; rw [dif_pos hlen, e]

/-- C115: the grid builders return the same structures, whatever numpy does where IEEE 754 leaves a choice. -/
theorem C115_square2 {A : Dbl.Arith 2} {mv : Matrix (Fin 2) (Fin 2) ℚ → (Fin 2 → ℚ) → Fin 2 → ℚ} (hA : A.Numpy mv) (n a b : ℤ) (hn : 0 < n ∧ n ≤ 2 ^ 30)
    (ha : 0 < a ∧ a ≤ 2 ^ 30) (hb : 0 < b ∧ b ≤ 2 ^ 30) :
    A.buildSquare2 mv (.int n) = Dbl.buildSquare2 (.int n) ∧ A.buildSquare2 mv (.tup [a, b]) = Dbl.buildSquare2 (.tup [a, b]) := by
  constructor
  · exact any_buildFrom hA isGrid2 fun _ => hn
  · rw [Dbl.Arith.buildSquare2, Dbl.Arith.buildCart, Dbl.buildSquare2, Dbl.build, dif_pos (by rfl), dif_pos (by rfl)]
    exact any_buildFrom hA isGrid2 fun i => by fin_cases i <;> assumption

/-- C115 in three dimensions. -/
theorem C115_square3 {A : Dbl.Arith 3} {mv : Matrix (Fin 3) (Fin 3) ℚ → (Fin 3 → ℚ) → Fin 3 → ℚ} (hA : A.Numpy mv) (n a b c : ℤ) (hn : 0 < n ∧ n ≤ 2 ^ 30)
    (ha : 0 < a ∧ a ≤ 2 ^ 30) (hb : 0 < b ∧ b ≤ 2 ^ 30) (hc : 0 < c ∧ c ≤ 2 ^ 30) :
    A.buildSquare3 mv (.int n) = Dbl.buildSquare3 (.int n) ∧ A.buildSquare3 mv (.tup [a, b, c]) = Dbl.buildSquare3 (.tup [a, b, c]) := by
  constructor
  · exact any_buildFrom hA isGrid3 fun _ => hn
  · rw [Dbl.Arith.buildSquare3, Dbl.Arith.buildCart, Dbl.buildSquare3, Dbl.build, dif_pos (by rfl), dif_pos (by rfl)]
    exact any_buildFrom hA isGrid3 fun i => by fin_cases i <;> assumption

theorem DoubleGrid.lattice {N : Fin d → ℤ} {s : Structure ℚ d} (h : DoubleGrid d N s) :
    ∃ (L : Lattice ℚ d) (σ : Fin d → Fin d) (n : Fin d → ℤ), IsGrid L σ ∧ (∀ i, 0 < n i ∧ n i ≤ 2 ^ 30) ∧ s.lattice = L.scaled n := by
  obtain ⟨L, σ, n, hg, hn, hb⟩ := h.buildFrom
  exact ⟨L, σ, n, hg, hn, by rw [(grid_built hg hn hb).1]; rfl⟩

section
variable {A : Dbl.Arith d} {mv : Matrix (Fin d) (Fin d) ℚ → (Fin d → ℚ) → Fin d → ℚ} (hA : A.Numpy mv) {N : Fin d → ℤ} {s : Structure ℚ d}
  (hs : DoubleGrid d N s)
include hA hs

/-- C115: lookups, at any location, and distances, between any locations. -/
theorem C115_lookup (x y : Fin d → ℚ) : A.siteAt s x = Dbl.siteAt s x ∧ A.idAt s x = Dbl.idAt s x ∧ A.dist s.lattice x y = Dbl.dist A.sq s.lattice x y := by
  obtain ⟨L, σ, n, hg, hn, hL⟩ := hs.lattice
  have e : A.siteAt s x = Dbl.siteAt s x := by
    rw [Dbl.Arith.siteAt, Dbl.siteAt, hL, any_transformed hA hg hn]
    rfl
  refine ⟨e, by rw [Dbl.Arith.idAt, Dbl.idAt, e], ?_⟩
  rw [hL, Dbl.Arith.dist, Dbl.dist, any_toFrac hA hg hn, any_toFrac hA hg hn, any_toCart hA hg hn]

/-- C115: neighbourhoods by offsets, by distance and by rings. -/
theorem C115_neighbours (offsets : List (Fin d → ℚ)) (cutoff inner outer : ℚ) :
    A.motifGet offsets s = Dbl.motifGet offsets s ∧ A.distanceGet cutoff s = Dbl.distanceGet A.sq cutoff s ∧
      A.annularGet inner outer s = Dbl.annularGet A.sq inner outer s := by
  have h1 : ∀ x, A.idAt s x = Dbl.idAt s x := fun x => (C115_lookup hA hs x x).2.1
  have h2 : ∀ x y, A.dist s.lattice x y = Dbl.dist A.sq s.lattice x y := fun x y => (C115_lookup hA hs x y).2.2
  refine ⟨?_, ?_, ?_⟩
  · simp only [Dbl.Arith.motifGet, Dbl.getWith, Dbl.motifGet, Dbl.Arith.motifNeighbors, Dbl.motifNeighbors, h1]
  · simp only [Dbl.Arith.distanceGet, Dbl.distanceGet, Dbl.getWith, Dbl.Arith.distanceNeighbors, Dbl.distanceNeighbors, h2]
  · simp only [Dbl.Arith.annularGet, Dbl.annularGet, Dbl.getWith, Dbl.Arith.annularNeighbors, Dbl.annularNeighbors, h2]

end

/-- C115: reading back from a dict or from JSON. -/
theorem C115_reload {N : Fin d → ℤ} {s : Structure ℚ d} (hs : DoubleGrid d N s) (A : ∀ d, Dbl.Arith d)
    (mv : Matrix (Fin d) (Fin d) ℚ → (Fin d → ℚ) → Fin d → ℚ) (hA : (A d).Numpy mv) : Survives (Dbl.Arith.fromDict A) s := by
  have hd : d ≠ 0 := by cases hs <;> simp
  obtain ⟨L, σ, n, h, hn, hb⟩ := hs.buildFrom
  obtain ⟨rfl, hD⟩ := grid_built h hn hb
  rw [← any_built hA h hn]
  refine survives_of _ hd _ ((A d).wf_built _ _) ((A d).refold (L.scaled n) ((any_distinct hA h hn _).2 hD) fun c hc => ?_)
  obtain ⟨p, hp, rfl⟩ := List.mem_map.1 hc
  simp only [any_periodized hA h hn]
  rw [grid_stored h hn fun j => (mem_cells.1 hp).2 (σ j)]
  exact ⟨grid_stored h hn fun j => (mem_cells.1 hp).2 (σ j), rfl⟩

/-! ### non-vacuity -/

theorem dot_dotOf (v w : Fin d → ℚ) : DotOf (List.ofFn fun i => (v i, w i)) (Dbl.dot v w) := by
  have hl : (List.ofFn fun i => (v i, w i)) = (List.finRange d).map fun i => (v i, w i) := List.ofFn_eq_map
  rw [hl, Dbl.dot]
  have key : ∀ (l : List (Fin d)) (l0 : List (ℚ × ℚ)) (a : ℚ), DotOf l0 a →
      DotOf (l0 ++ l.map fun i => (v i, w i)) (l.foldl (fun acc i => fl (acc + fl (v i * w i))) a) := by
    intro l
    induction l with
    | nil => intro l0 a h; simpa using h
    | cons i l ih =>
      intro l0 a h
      have := ih (l0 ++ [(v i, w i)]) _ (h.add (.mul (v i) (w i)))
      simpa using this
  exact key _ [] 0 .nil

open Classical in
/-- An arithmetic as required: sums from left to right, and some LU decomposition where there is one. -/
noncomputable def anyArith (d : ℕ) : Dbl.Arith d where
  vecMul v M := fun j => Dbl.dot v fun i => M i j
  inv M := if h : ∃ N, LUInverse M N then h.choose else 0
  sq v := Dbl.dot v v

theorem anyArith_numpy (d : ℕ) : (anyArith d).Numpy fun M v i => Dbl.dot (M i) v where
  prod := ⟨fun v M j => dot_dotOf v fun i => M i j, fun v => dot_dotOf v v⟩
  mv := fun M v i => dot_dotOf (M i) v
  inv := fun M hM => by
    simp only [anyArith, dif_pos hM]
    exact hM.choose_spec

/-- There is an arithmetic as required, so the theorems say something: the 49 x 7 grid is built, and read back. -/
example : ∃ s, (anyArith 2).buildSquare2 (fun M v i => Dbl.dot (M i) v) (.tup [49, 7]) = .ok s ∧ s.siteIds.length = 343 ∧
    Survives (Dbl.Arith.fromDict anyArith) s := by
  obtain ⟨s, h1, h2, h3⟩ := (C99_square2 1 49 7 (by norm_num) (by norm_num) (by norm_num)).2
  refine ⟨s, ?_, ?_, C115_reload h2 anyArith _ (anyArith_numpy 2)⟩
  · rw [(C115_square2 (anyArith_numpy 2) 1 49 7 (by norm_num) (by norm_num) (by norm_num)).2, h1]
  · rw [h3.2.2.1]; rfl

end Pyl
