import Verif.Props.LifeNoise
/-
C160: Life from noise: all cells have the same chances, cells far apart are independent, and densities concentrate.
-/
set_option autoImplicit false
set_option linter.unusedSectionVars false

namespace Pyl
open SimState Spec GridSetup
open Pyl.Lattice Pyl.Structure
variable {K : Type} [Field K] [LinearOrder K] [FloorRing K] [IsStrictOrderedRing K]

/-! ### Chances -/

section
variable {m k : ℕ}

/-- Events about different draws are independent. -/
theorem chance_indep (hm : 0 < m) (U : Set (Fin k)) {P Q : (Fin k → Fin m) → Prop} (hP : ∀ f g, (∀ j ∈ U, f j = g j) → (P f ↔ P g))
    (hQ : ∀ f g, (∀ j, j ∉ U → f j = g j) → (Q f ↔ Q g)) : chance m k (fun f => P f ∧ Q f) = chance m k P * chance m k Q := by
  classical
  have hmR : (m : ℝ) ^ k ≠ 0 := by positivity
  have hcard : ((Finset.univ.filter fun f : Fin k → Fin m => P f ∧ Q f) ×ˢ (Finset.univ : Finset (Fin k → Fin m))).card =
      ((Finset.univ.filter P) ×ˢ (Finset.univ.filter Q)).card := by
    let mix : (Fin k → Fin m) → (Fin k → Fin m) → Fin k → Fin m := fun f g j => if j ∈ U then f j else g j
    have hin : ∀ f g j, j ∈ U → mix f g j = f j := fun f g j h => if_pos h
    have hout : ∀ f g j, j ∉ U → mix f g j = g j := fun f g j h => if_neg h
    have hmm : ∀ f g, mix (mix f g) (mix g f) = f := by
      intro f g
      funext j
      by_cases h : j ∈ U
      · rw [hin _ _ _ h, hin _ _ _ h]
      · rw [hout _ _ _ h, hout _ _ _ h]
    have h1 : ∀ f g, P (mix f g) ↔ P f := fun f g => hP _ _ fun j hj => hin f g j hj
    have h2 : ∀ f g, Q (mix f g) ↔ Q g := fun f g => hQ _ _ fun j hj => hout f g j hj
    refine Finset.card_bij' (fun p _ => (mix p.1 p.2, mix p.2 p.1)) (fun p _ => (mix p.1 p.2, mix p.2 p.1)) ?_ ?_ ?_ ?_
    · rintro ⟨f, g⟩ h
      simp only [Finset.mem_product, Finset.mem_filter, Finset.mem_univ, true_and, and_true] at h ⊢
      exact ⟨(h1 _ _).2 h.1, (h2 _ _).2 h.2⟩
    · rintro ⟨f, g⟩ h
      simp only [Finset.mem_product, Finset.mem_filter, Finset.mem_univ, true_and, and_true] at h ⊢
      exact ⟨(h1 _ _).2 h.1, (h2 _ _).2 h.2⟩
    · rintro ⟨f, g⟩ _
      simp only [hmm]
    · rintro ⟨f, g⟩ _
      simp only [hmm]
  rw [Finset.card_product, Finset.card_product, Finset.card_univ, Fintype.card_fun, Fintype.card_fin, Fintype.card_fin] at hcard
  have h : ((Finset.univ.filter fun f : Fin k → Fin m => P f ∧ Q f).card : ℝ) * (m : ℝ) ^ k = (Finset.univ.filter P).card * (Finset.univ.filter Q).card := by
    exact_mod_cast hcard
  unfold chance
  rw [div_mul_div_comm, ← h, mul_div_mul_right _ _ hmR]
  congr 2
  refine congrArg Finset.card ?_
  ext f; simp

/-- The order of the draws does not matter. -/
theorem chance_reindex (σ : Equiv.Perm (Fin k)) (P : (Fin k → Fin m) → Prop) : chance m k (fun f => P fun t => f (σ t)) = chance m k P := by
  classical
  unfold chance
  congr 2
  refine Finset.card_bij (fun f _ t => f (σ t)) (fun f hf => by simpa using hf) (fun f _ g _ e => ?_) fun g hg => ⟨fun t => g (σ.symm t), by simpa using hg, ?_⟩
  · funext t
    have := congrFun e (σ.symm t)
    simpa using this
  · funext t
    simp

theorem chance_le_one (hm : 0 < m) (P : (Fin k → Fin m) → Prop) : chance m k P ≤ 1 := by
  rw [← chance_true (m := m) (k := k) hm]
  exact chance_mono fun _ _ => trivial

theorem mean_add (X Y : (Fin k → Fin m) → ℝ) : mean m k (fun f => X f + Y f) = mean m k X + mean m k Y := by
  unfold mean
  rw [Finset.sum_add_distrib, add_div]

theorem mean_mul (a : ℝ) (X : (Fin k → Fin m) → ℝ) : mean m k (fun f => a * X f) = a * mean m k X := by
  unfold mean
  rw [← Finset.mul_sum, mul_div_assoc]

theorem mean_const (hm : 0 < m) (a : ℝ) : mean m k (fun _ => a) = a := by
  unfold mean
  have : ((m : ℝ) ^ k) ≠ 0 := by positivity
  rw [Finset.sum_const, Finset.card_univ, Fintype.card_fun, Fintype.card_fin, Fintype.card_fin, nsmul_eq_mul]
  push_cast
  field_simp

theorem mean_sum {ι : Type} (T : Finset ι) (X : ι → (Fin k → Fin m) → ℝ) : mean m k (fun f => ∑ c ∈ T, X c f) = ∑ c ∈ T, mean m k (X c) := by
  unfold mean
  rw [Finset.sum_comm, Finset.sum_div]

theorem mean_indicator (P : (Fin k → Fin m) → Prop) [DecidablePred P] : mean m k (fun f => if P f then 1 else 0) = chance m k P := by
  classical
  unfold mean chance
  congr 1
  rw [← Finset.sum_filter, Finset.sum_const, nsmul_eq_mul, mul_one]
  congr 2
  ext f; simp

/-- Chebyshev's inequality. -/
theorem chance_deviation (X : (Fin k → Fin m) → ℝ) (a t : ℝ) (ht : 0 < t) :
    chance m k (fun f => t ≤ |X f - a|) ≤ mean m k (fun f => (X f - a) ^ 2) / t ^ 2 := by
  classical
  rw [le_div_iff₀ (by positivity), ← mean_indicator, mul_comm, ← mean_mul]
  unfold mean
  refine div_le_div_of_nonneg_right (Finset.sum_le_sum fun f _ => ?_) (by positivity)
  by_cases h : t ≤ |X f - a|
  · rw [if_pos h, mul_one, ← sq_abs (X f - a)]
    exact pow_le_pow_left₀ ht.le h 2
  · rw [if_neg h, mul_zero]
    positivity

/-- The variance of a number of events, each of which is independent of all but `r` of them. -/
theorem variance_le {ι : Type} (hm : 0 < m) (T : Finset ι) (P : (Fin k → Fin m) → ι → Prop) [∀ f, DecidablePred (P f)] (R : ι → ι → Prop)
    [∀ c, DecidablePred (R c)] (r : ℕ)
    (hR : ∀ c ∈ T, ∀ c' ∈ T, ¬ R c c' → chance m k (fun f => P f c ∧ P f c') = chance m k (fun f => P f c) * chance m k (fun f => P f c'))
    (hr : ∀ c ∈ T, (T.filter (R c)).card ≤ r) :
    mean m k (fun f => (((T.filter (P f)).card : ℝ) - mean m k fun f => ((T.filter (P f)).card : ℝ)) ^ 2) ≤ T.card * r := by
  classical
  set p : ι → ℝ := fun c => chance m k fun f => P f c with hp
  set I : ι → (Fin k → Fin m) → ℝ := fun c f => if P f c then 1 else 0 with hI
  have hcard : ∀ f, ((T.filter (P f)).card : ℝ) = ∑ c ∈ T, I c f := fun f => by
    rw [Finset.card_filter]; push_cast; rfl
  have hmean : mean m k (fun f => ((T.filter (P f)).card : ℝ)) = ∑ c ∈ T, p c := mean_count T P
  have hsq : ∀ f, (((T.filter (P f)).card : ℝ) - mean m k fun f => ((T.filter (P f)).card : ℝ)) ^ 2 = ∑ c ∈ T, ∑ c' ∈ T, (I c f - p c) * (I c' f - p c') := by
    intro f
    rw [hmean, hcard, ← Finset.sum_sub_distrib, sq, Finset.sum_mul_sum]
  have hcov : ∀ c c', mean m k (fun f => (I c f - p c) * (I c' f - p c')) = chance m k (fun f => P f c ∧ P f c') - p c * p c' := by
    intro c c'
    have e : (fun f => (I c f - p c) * (I c' f - p c')) = fun f => ((if P f c ∧ P f c' then (1 : ℝ) else 0) + (-p c') * I c f) + ((-p c) * I c' f + p c * p c') := by
      funext f
      have : (if P f c ∧ P f c' then (1 : ℝ) else 0) = I c f * I c' f := by
        by_cases h1 : P f c <;> by_cases h2 : P f c' <;> simp [hI, h1, h2]
      rw [this]; ring
    have h1 : mean m k (I c) = p c := mean_indicator _
    have h2 : mean m k (I c') = p c' := mean_indicator _
    rw [e, mean_add, mean_add, mean_add, mean_mul, mean_mul, mean_indicator, mean_const hm, h1, h2]
    ring
  rw [show (fun f => (((T.filter (P f)).card : ℝ) - mean m k fun f => ((T.filter (P f)).card : ℝ)) ^ 2) = fun f => ∑ c ∈ T, ∑ c' ∈ T, (I c f - p c) * (I c' f - p c')
    from funext hsq, mean_sum]
  have hrow : ∀ c ∈ T, mean m k (fun f => ∑ c' ∈ T, (I c f - p c) * (I c' f - p c')) ≤ r := by
    intro c hc
    rw [mean_sum T fun c' f => (I c f - p c) * (I c' f - p c')]
    calc ∑ c' ∈ T, mean m k (fun f => (I c f - p c) * (I c' f - p c')) ≤ ∑ c' ∈ T, (if R c c' then (1 : ℝ) else 0) := by
          refine Finset.sum_le_sum fun c' hc' => ?_
          rw [hcov]
          by_cases h : R c c'
          · rw [if_pos h]
            have h1 := chance_le_one hm fun f : Fin k → Fin m => P f c ∧ P f c'
            have h2 : 0 ≤ p c * p c' := mul_nonneg (chance_nonneg _) (chance_nonneg _)
            linarith
          · rw [if_neg h, hR c hc c' hc' h, sub_self]
      _ = ((T.filter (R c)).card : ℝ) := by rw [Finset.card_filter]; push_cast; rfl
      _ ≤ r := by exact_mod_cast hr c hc
  refine (Finset.sum_le_sum hrow).trans ?_
  rw [Finset.sum_const, nsmul_eq_mul]

end

/-! ### Soups -/

section
variable {G : GridSetup K 2} {n : ℤ} {S : Structure K 2}

/-- The cell is alive after `k` steps from the noise with the draws `f`. -/
def SoupAlive (G : GridSetup K 2) (n : ℤ) (phases : List Val) (variant : String) (S : Structure K 2) (k : ℕ)
    (f : Fin S.siteIds.length → Fin phases.length) (c : Fin 2 → ℤ) : Prop :=
  ∃ s, NoiseThenLife G (.int n) phases variant S (outcome f) k s ∧ CellIs S s c "alive"

theorem soup_iff (hb : G.builder (.int n) = .ok S) (hsq : SquareGrid 2 (fun _ => n) S) (phases : List Val)
    (hne : phases ≠ []) (hp : ∀ p ∈ phases, p = .str "alive" ∨ p = .str "dead") (b sv : List (Fin 10)) (k : ℕ) (f : Fin S.siteIds.length → Fin phases.length)
    {c : Fin 2 → ℤ} (hc : InBox (fun _ => n) c) :
    SoupAlive G n phases (variantText b sv) S k f c ↔ c ∈ (generation (fun _ => n) (digitValues b) (digitValues sv))^[k]
      {x | ∃ j : Fin S.siteIds.length, SiteHas S j x ∧ phases[(f j : ℕ)] = .str "alive"} := by
  have ht := hsq.isTorus
  obtain ⟨⟨s, hs⟩, L, hL, hshow⟩ := noise_life hb hsq phases hne hp b sv k f
  obtain ⟨i, -, hi⟩ := ht.ex c hc
  have h1 : SoupAlive G n phases (variantText b sv) S k f c ↔ c ∈ (generation (fun _ => n) (digitValues b) (digitValues sv))^[k] L :=
    ⟨fun ⟨s', hs', h⟩ => (cellIs_iff (hshow s' hs') hi).1.1 h, fun h => ⟨s, hs, (cellIs_iff (hshow s hs) hi).1.2 h⟩⟩
  rw [h1]
  refine iterate_local _ _ ht.pos k c hc fun x hx _ => ?_
  obtain ⟨j, hj, hjx⟩ := ht.ex x hx
  have hj' := (mem_siteIds_lt ht.reachable).1 hj
  refine (hL ⟨j, hj'⟩ x hjx).trans ⟨fun h => ⟨⟨j, hj'⟩, hjx, h⟩, ?_⟩
  rintro ⟨j', hj'', h⟩
  have : (⟨j, hj'⟩ : Fin S.siteIds.length) = j' := Fin.ext (ht.site_unique hjx hj'')
  rw [this]; exact h

/-- A soup looks at the draws of the cells at most `k` away only. -/
theorem soup_local (hb : G.builder (.int n) = .ok S) (hsq : SquareGrid 2 (fun _ => n) S) (phases : List Val)
    (hne : phases ≠ []) (hp : ∀ p ∈ phases, p = .str "alive" ∨ p = .str "dead") (b sv : List (Fin 10)) (k : ℕ) (f g : Fin S.siteIds.length → Fin phases.length)
    {c : Fin 2 → ℤ} (hc : InBox (fun _ => n) c) (h : ∀ (j : Fin S.siteIds.length) x, SiteHas S j x → ChebyshevLE (fun _ => n) c x k → f j = g j) :
    SoupAlive G n phases (variantText b sv) S k f c ↔ SoupAlive G n phases (variantText b sv) S k g c := by
  rw [soup_iff hb hsq phases hne hp b sv k f hc, soup_iff hb hsq phases hne hp b sv k g hc]
  refine iterate_local _ _ hsq.isTorus.pos k c hc fun x _ hx => ?_
  constructor <;> rintro ⟨j, hj, h1⟩ <;> refine ⟨j, hj, ?_⟩
  · have e := h j x hj hx
    simpa only [e] using h1
  · have e := h j x hj hx
    simpa only [e] using h1

theorem card_cheb_le {N : Fin 2 → ℤ} (hN : ∀ j, 0 < N j) (c : Fin 2 → ℤ) (r : ℕ) [DecidablePred fun x => ChebyshevLE N c x r] :
    ((boxCells N).filter fun x => ChebyshevLE N c x r).card ≤ (2 * r + 1) ^ 2 := by
  classical
  have hsub : ((boxCells N).filter fun x => ChebyshevLE N c x r) ⊆
      (Fintype.piFinset fun _ : Fin 2 => Finset.Icc (-(r : ℤ)) r).image fun v j => (c j - v j) % N j := by
    intro x hx
    obtain ⟨h1, h2⟩ := Finset.mem_filter.1 hx
    have h1 := mem_boxCells.1 h1
    choose q hq using fun j => (circ_le_iff (hN j) _ _).1 (h2 j)
    refine Finset.mem_image.2 ⟨fun j => c j - x j + q j * N j, ?_, ?_⟩
    · rw [Fintype.mem_piFinset]
      intro j
      rw [Finset.mem_Icc]
      exact abs_le.1 (hq j)
    · funext j
      rw [show c j - (c j - x j + q j * N j) = x j + (-q j) * N j by ring, Int.add_mul_emod_self_right]
      exact Int.emod_eq_of_lt (h1 j).1 (h1 j).2
  refine (Finset.card_le_card hsub).trans (Finset.card_image_le.trans (le_of_eq ?_))
  rw [Fintype.card_piFinset_const, Int.card_Icc]
  congr 1
  omega

end

/-- C160: from noise, after any number of steps of any variant, all cells are alive with the same probability. -/
theorem C160_everywhere {G : GridSetup K 2} (hG : StdSetup 2 G) (n : ℤ) (hn : 0 < n) (phases : List Val) (hne : phases ≠ [])
    (hp : ∀ p ∈ phases, p = .str "alive" ∨ p = .str "dead") (b sv : List (Fin 10)) (k : ℕ) :
    ∃ S, G.builder (.int n) = .ok S ∧ SquareGrid 2 (fun _ => n) S ∧ ∀ c c', InBox (fun _ => n) c → InBox (fun _ => n) c' →
      chance phases.length S.siteIds.length (fun f => ∃ s, NoiseThenLife G (.int n) phases (variantText b sv) S (outcome f) k s ∧ CellIs S s c "alive") =
      chance phases.length S.siteIds.length (fun f => ∃ s, NoiseThenLife G (.int n) phases (variantText b sv) S (outcome f) k s ∧ CellIs S s c' "alive") := by
  obtain ⟨S, hb, hsq, -⟩ := setup_builds hG hn
  refine ⟨S, hb, hsq, fun c c' hc hc' => ?_⟩
  have ht := hsq.isTorus
  have hlt : ∀ i, i ∈ S.siteIds ↔ i < S.siteIds.length := fun i => mem_siteIds_lt ht.reachable
  let mv : TorusMove (fun _ => n) := ⟨Equiv.refl _, fun _ => 1, fun j => c' j - c j, fun _ => .inl rfl, fun _ => rfl⟩
  have hmv : mv.apply c = c' := by
    funext j
    show (1 * c j + (c' j - c j)) % n = c' j
    rw [show 1 * c j + (c' j - c j) = c' j by ring]
    exact Int.emod_eq_of_lt (hc' j).1 (hc' j).2
  -- the site that a site moves to
  have hex : ∀ j : Fin S.siteIds.length, ∃ j' : Fin S.siteIds.length, ∃ x, SiteHas S j x ∧ SiteHas S j' (mv.apply x) := by
    intro j
    obtain ⟨x, -, hjx⟩ := ht.site j ((hlt j).2 j.2)
    obtain ⟨i, hi, hix⟩ := ht.ex (mv.apply x) (mv.inBox ht.pos x)
    exact ⟨⟨i, (hlt i).1 hi⟩, x, hjx, hix⟩
  choose σ x hx hσ using hex
  have hinj : Function.Injective σ := by
    intro a a' e
    have h1 := hσ a
    rw [e] at h1
    have h2 := mv.inj ht.pos (ht.inBox_of_has (hx a)) (ht.inBox_of_has (hx a')) (IsTorus.has_unique_coord h1 (hσ a'))
    have h3 := hx a
    rw [h2] at h3
    exact Fin.ext (ht.site_unique h3 (hx a'))
  let σ' : Equiv.Perm (Fin S.siteIds.length) := Equiv.ofBijective σ ((Finite.injective_iff_bijective).1 hinj)
  show chance _ _ (fun f => SoupAlive G n phases (variantText b sv) S k f c) = chance _ _ fun f => SoupAlive G n phases (variantText b sv) S k f c'
  rw [← chance_reindex σ' fun f => SoupAlive G n phases (variantText b sv) S k f c]
  refine chance_congr fun f => ?_
  rw [soup_iff hb hsq phases hne hp b sv k _ hc, soup_iff hb hsq phases hne hp b sv k _ hc', ← hmv]
  refine (iterate_move ht.pos mv _ _ (fun y hy => ?_) k c hc).symm
  obtain ⟨i, hi, hiy⟩ := ht.ex y hy
  have hi' := (hlt i).1 hi
  have hy1 : x ⟨i, hi'⟩ = y := IsTorus.has_unique_coord (hx ⟨i, hi'⟩) hiy
  constructor
  · rintro ⟨j, hj, h⟩
    refine ⟨⟨i, hi'⟩, hiy, ?_⟩
    have h1 := hσ ⟨i, hi'⟩
    rw [hy1] at h1
    have : σ ⟨i, hi'⟩ = j := Fin.ext (ht.site_unique h1 hj)
    subst this
    exact h
  · rintro ⟨j, hj, h⟩
    have e : x j = y := IsTorus.has_unique_coord (hx j) hj
    exact ⟨σ j, e ▸ hσ j, h⟩

/-- C160: cells more than `2 k` apart are independent after `k` steps. -/
theorem C160_independent {G : GridSetup K 2} (hG : StdSetup 2 G) (n : ℤ) (hn : 0 < n) (phases : List Val) (hne : phases ≠ [])
    (hp : ∀ p ∈ phases, p = .str "alive" ∨ p = .str "dead") (b sv : List (Fin 10)) (k : ℕ) :
    ∃ S, G.builder (.int n) = .ok S ∧ SquareGrid 2 (fun _ => n) S ∧ ∀ c c', InBox (fun _ => n) c → InBox (fun _ => n) c' →
      ¬ ChebyshevLE (fun _ => n) c c' (2 * k) →
      chance phases.length S.siteIds.length (fun f => ∃ s, NoiseThenLife G (.int n) phases (variantText b sv) S (outcome f) k s ∧ CellIs S s c "alive" ∧ CellIs S s c' "alive") =
      chance phases.length S.siteIds.length (fun f => ∃ s, NoiseThenLife G (.int n) phases (variantText b sv) S (outcome f) k s ∧ CellIs S s c "alive") *
      chance phases.length S.siteIds.length (fun f => ∃ s, NoiseThenLife G (.int n) phases (variantText b sv) S (outcome f) k s ∧ CellIs S s c' "alive") := by
  obtain ⟨S, hb, hsq, -⟩ := setup_builds hG hn
  refine ⟨S, hb, hsq, fun c c' hc hc' hfar => ?_⟩
  have ht := hsq.isTorus
  have h1 := chance_indep (m := phases.length) (k := S.siteIds.length) (List.length_pos_of_ne_nil hne)
    {j | ∃ x, SiteHas S j x ∧ ChebyshevLE (fun _ => n) c x k}
    (P := fun f => SoupAlive G n phases (variantText b sv) S k f c) (Q := fun f => SoupAlive G n phases (variantText b sv) S k f c')
    (fun f g h => soup_local hb hsq phases hne hp b sv k f g hc fun j x hj hx => h j ⟨x, hj, hx⟩)
    (fun f g h => soup_local hb hsq phases hne hp b sv k f g hc' fun j x hj hx => h j (by
      rintro ⟨x', hj', hx'⟩
      obtain rfl := IsTorus.has_unique_coord hj' hj
      refine hfar fun l => ?_
      have h2 := circ_triangle hn (c l) (x' l) (c' l) k k (hx' l) (by rw [← neg_sub]; exact circ_neg hn (hx l))
      linarith))
  refine Eq.trans (chance_congr fun f => ?_) h1
  constructor
  · rintro ⟨s, hs, h2, h3⟩
    exact ⟨⟨s, hs, h2⟩, s, hs, h3⟩
  · rintro ⟨⟨s, hs, h2⟩, s', hs', h3⟩
    obtain ⟨-, L, -, hshow⟩ := noise_life hb hsq phases hne hp b sv k f
    obtain ⟨i, -, hi⟩ := ht.ex c' hc'
    exact ⟨s, hs, h2, (cellIs_iff (hshow s hs) hi).1.2 ((cellIs_iff (hshow s' hs') hi).1.1 h3)⟩

/-- C160: after `k` steps from noise the number of live cells is near its mean: it differs from it by `ε n²` or more with probability at most
`(4 k + 1)² / (ε n)²`. -/
theorem C160_concentrates {G : GridSetup K 2} (hG : StdSetup 2 G) (n : ℤ) (hn : 0 < n) (phases : List Val) (hne : phases ≠ [])
    (hp : ∀ p ∈ phases, p = .str "alive" ∨ p = .str "dead") (b sv : List (Fin 10)) (k : ℕ) (ε : ℝ) (hε : 0 < ε) :
    ∃ S, G.builder (.int n) = .ok S ∧ SquareGrid 2 (fun _ => n) S ∧ ∀ X : (Fin S.siteIds.length → Fin phases.length) → ℕ,
      (∀ f s, NoiseThenLife G (.int n) phases (variantText b sv) S (outcome f) k s → X f = cellCount (fun _ => n) fun c => CellIs S s c "alive") →
      chance phases.length S.siteIds.length (fun f => ε * (n : ℝ) ^ 2 ≤ |(X f : ℝ) - mean phases.length S.siteIds.length fun f => (X f : ℝ)|) ≤
        ((4 * k + 1 : ℝ) / (ε * n)) ^ 2 := by
  classical
  obtain ⟨S, hb, hsq, hind⟩ := C160_independent hG n hn phases hne hp b sv k
  refine ⟨S, hb, hsq, fun X hX => ?_⟩
  have ht := hsq.isTorus
  have hnR : (0 : ℝ) < n := by exact_mod_cast hn
  have hX' : ∀ f, (X f : ℝ) = (((boxCells fun _ => n).filter fun c => SoupAlive G n phases (variantText b sv) S k f c).card : ℝ) := by
    intro f
    obtain ⟨⟨s, hs⟩, L, hL, hshow⟩ := noise_life hb hsq phases hne hp b sv k f
    rw [hX f s hs]
    unfold Spec.cellCount
    rw [← Set.ncard_coe_finset]
    congr 2
    ext c
    simp only [Finset.coe_filter, mem_boxCells]
    refine and_congr_right fun hc => ?_
    obtain ⟨i, -, hi⟩ := ht.ex c hc
    refine ⟨fun h => ⟨s, hs, h⟩, ?_⟩
    rintro ⟨s', hs', h⟩
    exact (cellIs_iff (hshow s hs) hi).1.2 ((cellIs_iff (hshow s' hs') hi).1.1 h)
  have hvar := variance_le (m := phases.length) (k := S.siteIds.length) (List.length_pos_of_ne_nil hne) (boxCells fun _ => n)
    (fun f c => SoupAlive G n phases (variantText b sv) S k f c) (fun c c' => ChebyshevLE (fun _ => n) c c' ((2 * k : ℕ) : ℤ)) ((2 * (2 * k) + 1) ^ 2)
    (fun c hc c' hc' h => by
      refine Eq.trans (chance_congr fun f => ?_) (hind c c' (mem_boxCells.1 hc) (mem_boxCells.1 hc') (by push_cast at h; exact h))
      constructor
      · rintro ⟨⟨s, hs, h2⟩, s', hs', h3⟩
        obtain ⟨-, L, -, hshow⟩ := noise_life hb hsq phases hne hp b sv k f
        obtain ⟨i, -, hi⟩ := ht.ex c' (mem_boxCells.1 hc')
        exact ⟨s, hs, h2, (cellIs_iff (hshow s hs) hi).1.2 ((cellIs_iff (hshow s' hs') hi).1.1 h3)⟩
      · rintro ⟨s, hs, h2, h3⟩
        exact ⟨⟨s, hs, h2⟩, s, hs, h3⟩)
    (fun c _ => card_cheb_le ht.pos c (2 * k))
  rw [card_boxCells ht.pos] at hvar
  have hcard : (((n * n).toNat : ℕ) : ℝ) = (n : ℝ) ^ 2 := by
    have h1 : ((n * n).toNat : ℤ) = n ^ 2 := by rw [Int.toNat_of_nonneg (by positivity)]; ring
    exact_mod_cast congrArg (fun z : ℤ => (z : ℝ)) h1
  rw [hcard] at hvar
  refine (chance_deviation (fun f => (X f : ℝ)) _ (ε * (n : ℝ) ^ 2) (by positivity)).trans ?_
  rw [show (fun f => (X f : ℝ)) = fun f => (((boxCells fun _ => n).filter fun c => SoupAlive G n phases (variantText b sv) S k f c).card : ℝ) from funext hX']
  rw [div_le_iff₀ (by positivity)]
  simp only [hX']
  refine hvar.trans (le_of_eq ?_)
  push_cast
  field_simp
  ring

/-- C160: the Game of Life from `setup_noise` with the phases "alive" and "dead": after one step the fraction of live cells is within `ε` of 35/128 except with
probability at most `(5 / (ε n))²`. -/
theorem C160_life {G : GridSetup K 2} (hG : StdSetup 2 G) (n : ℤ) (hn : 3 ≤ n) (ε : ℝ) (hε : 0 < ε) :
    ∃ S, G.builder (.int n) = .ok S ∧ SquareGrid 2 (fun _ => n) S ∧ ∀ X : (Fin S.siteIds.length → Fin 2) → ℕ,
      (∀ f s, NoiseThenLife G (.int n) [.str "alive", .str "dead"] Life.life S (outcome f) 1 s → X f = cellCount (fun _ => n) fun c => CellIs S s c "alive") →
      chance 2 S.siteIds.length (fun f => ε ≤ |(X f : ℝ) / (n : ℝ) ^ 2 - 35 / 128|) ≤ (5 / (ε * n)) ^ 2 := by
  obtain ⟨S, hb, -, hpop⟩ := C159_population hG n hn [.str "alive", .str "dead"] (by simp) (by simp) [3] [2, 3]
  obtain ⟨S', hb', hsq, hdev⟩ := C160_concentrates hG n (by omega) [.str "alive", .str "dead"] (by simp) (by simp) [3] [2, 3] 1 ε hε
  obtain rfl : S = S' := by rw [hb] at hb'; exact Except.ok.inj hb'
  refine ⟨S, hb, hsq, fun X hX => ?_⟩
  have e : Life.life = variantText [3] [2, 3] := by decide +kernel
  rw [e] at hX
  have hnR : (0 : ℝ) < n := by exact_mod_cast (by omega : 0 < n)
  have h1 := hpop X hX
  have h2 := hdev X hX
  have hcount : List.count (Val.str "alive") [Val.str "alive", Val.str "dead"] = 1 := by decide +kernel
  rw [hcount] at h1
  have hq : aliveNext [3] [2, 3] (((1 : ℕ) : ℝ) / (([Val.str "alive", Val.str "dead"] : List Val).length : ℝ)) = 35 / 128 := by
    simp [aliveNext, Finset.sum_range_succ, Nat.choose]
    norm_num
  rw [hq] at h1
  refine le_trans (le_of_eq (chance_congr fun f => ?_)) (h2.trans (le_of_eq (by norm_num)))
  rw [h1, show (X f : ℝ) - (n : ℝ) ^ 2 * (35 / 128) = ((X f : ℝ) / (n : ℝ) ^ 2 - 35 / 128) * (n : ℝ) ^ 2 by field_simp, abs_mul,
    abs_of_pos (by positivity : (0 : ℝ) < (n : ℝ) ^ 2)]
  exact (mul_le_mul_iff_left₀ (by positivity : (0 : ℝ) < (n : ℝ) ^ 2)).symm

end Pyl
