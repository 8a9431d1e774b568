import Verif.Lemmas.DoubleSum
import Verif.Props.Double
import Verif.Props.RandomSites
/-
C104, C105: randomly placed sites in double precision.
-/
set_option autoImplicit false
set_option linter.unusedSectionVars false

namespace Pyl
open Pyl.Lattice Structure SimState Spec GridSetup
variable {d : ℕ}

/-- The structure that a setup builds in double precision for an int size. -/
theorem doubleSetup_builds {G : GridSetup ℚ d} (hG : DoubleSetup d G) {n : ℤ} (hn : 0 < n ∧ n ≤ 2 ^ 30) :
    ∃ S s0, G.builder (.int n) = .ok S ∧ DoubleGrid d (fun _ => n) S ∧ Behind (fun _ => n) S s0 := by
  cases hG with
  | two =>
    obtain ⟨S, h1, h2, -⟩ := (C99_square2 n 1 1 hn (by norm_num) (by norm_num)).1
    rw [show ![n, n] = fun _ : Fin 2 => n by funext j; fin_cases j <;> rfl] at h2
    obtain ⟨s0, h3⟩ := h2.behind
    exact ⟨S, s0, h1, h2, h3⟩
  | three =>
    obtain ⟨S, h1, h2, -⟩ := (C99_square3 n 1 1 1 hn (by norm_num) (by norm_num) (by norm_num)).1
    rw [show ![n, n, n] = fun _ : Fin 3 => n by funext j; fin_cases j <;> rfl] at h2
    obtain ⟨s0, h3⟩ := h2.behind
    exact ⟨S, s0, h1, h2, h3⟩

theorem DoubleSetup.dim {G : GridSetup ℚ d} (hG : DoubleSetup d G) : 0 < d := by cases hG <;> norm_num

/-- On the structure with the rounded keys the two loops do the same. -/
theorem plantSites_behind {N : Fin d → ℤ} {S s0 : Structure ℚ d} (h : Behind N S s0) (nbs : Option (ℕ → ℕ → List ℕ)) (num : ℤ) (bg : Val)
    (nucAmts ideal : Dict Val ℚ) (draw : ℕ → ℕ) (fuel : ℕ) :
    plantSites S nbs num bg nucAmts ideal draw fuel =
      (plantSites s0 nbs num bg nucAmts ideal draw fuel).map (Except.map fun sim => ⟨sim.state, S⟩) := by
  have e1 : S.sitesOf none = s0.sitesOf none := by rw [h.eq]; rfl
  have e2 : blank S bg = blank s0 bg := by unfold blank; rw [e1]
  unfold plantSites
  rw [e1, e2]
  cases quotaLoop (Dict.keys nucAmts) ideal num fuel ⟨[], zeroSites nucAmts, 0⟩ with
  | none => rfl
  | some r =>
    cases r with
    | error e => rfl
    | ok q =>
      simp only
      cases placeLoop (s0.sitesOf none) nbs bg q.ids num draw fuel ⟨blank s0 bg, 0, 0⟩ with
      | none => rfl
      | some r => cases r <;> rfl

/-- The quotas in double precision. -/
theorem get?_dblIdeal (sum : List ℚ → ℚ) {nucAmts : Dict Val ℚ} (hw : Dict.WF nucAmts) (m : ℤ) (p : Val) :
    Dict.get? (Dbl.idealSites sum nucAmts m) p = (Dict.get? nucAmts p).map fun a => fl (fl (a / sum (Dict.values nucAmts)) * m) :=
  foldl_set_get? nucAmts hw (fun sa => fl (fl (sa.2 / sum (Dict.values nucAmts)) * m)) p

theorem hasQuotas_dblIdeal (sum : List ℚ → ℚ) {nucAmts : Dict Val ℚ} (hw : Dict.WF nucAmts) (m : ℤ) :
    HasQuotas (Dict.keys nucAmts) (Dbl.idealSites sum nucAmts m) := by
  intro p hp
  obtain ⟨v, hv⟩ := Option.isSome_iff_exists.1 (Dict.get?_isSome_iff.2 hp)
  exact ⟨_, by rw [get?_dblIdeal sum hw, hv]; rfl⟩

/-- The parts of a call that does not fail on the neighbourhood. -/
theorem dblSites_parts {G : GridSetup ℚ d} (hG : DoubleSetup d G) {n : ℤ} (hn : 0 < n ∧ n ≤ 2 ^ 30) (sum : List ℚ → ℚ) (num : ℚ) (bg : Val)
    (nucAmts : Dict Val ℚ) (buffer : Option ℤ) (hbuf : ∀ r, buffer = some r → 1 ≤ r ∧ r ≤ n) (order : ℕ → List ℕ → List ℕ)
    (hord : ∀ t l, (order t l).Perm l) :
    ∃ S s0, DoubleGrid d (fun _ => n) S ∧ Behind (fun _ => n) S s0 ∧
      ((buffer = none ∨ ReciprocalExact n) → ∃ nbs, NbsOK s0 nbs (nearBy s0 n buffer) ∧ ∀ draw fuel,
        Dbl.randomSites G sum (.int n) num bg nucAmts buffer order draw fuel =
          (plantSites s0 nbs (roundHalfEven num) bg nucAmts (Dbl.idealSites sum nucAmts (roundHalfEven num)) draw fuel).map
            (Except.map fun sim => ⟨sim.state, S⟩)) ∧
      (¬ (buffer = none ∨ ReciprocalExact n) → ∀ draw fuel,
        Dbl.randomSites G sum (.int n) num bg nucAmts buffer order draw fuel = some (.error .typeError)) := by
  obtain ⟨S, s0, hb, hg, hB⟩ := doubleSetup_builds hG hn
  refine ⟨S, s0, hg, hB, ?_, ?_⟩
  · cases buffer with
    | none =>
      intro _
      refine ⟨none, nbsOK_none hn.1, fun draw fuel => ?_⟩
      rw [← plantSites_behind hB]
      unfold Dbl.randomSites
      rw [hb]
    | some r =>
      rintro (h | h)
      · cases h
      · obtain ⟨hr1, hrn⟩ := hbuf r rfl
        have e0 : getPointsInCube (-r) (r + 1) d = (getPointsInCube (-r) (r + 1) d).filter fun _ => true := by simp
        have hm := (hB.motif ((getPointsInCube (-r) (r + 1) d).map (cellVec d)) (by rw [e0]; exact cube_le fun _ => hrn)).1 fun _ => h
        obtain ⟨g, hg', -⟩ := torus_moore hB.torus r
        have hD : Dbl.mooreGet r S = .ok g := by
          rw [Dbl.mooreGet, ← hg', moore_eq, ← hm, List.map_map]; rfl
        refine ⟨some fun t i => order t (g.neighborsOf i), nbsOK_moore hn.1 hB.torus hg' hord, fun draw fuel => ?_⟩
        rw [← plantSites_behind hB]
        unfold Dbl.randomSites
        rw [hb]
        simp only [hD]
        rfl
  · intro h draw fuel
    push Not at h
    obtain ⟨r, hr⟩ := Option.ne_none_iff_exists'.1 h.1
    subst hr
    obtain ⟨hr1, hrn⟩ := hbuf r rfl
    have hD := (C100_moore_partial hg r hr1 fun j => hrn).2 ⟨⟨0, hG.dim⟩, h.2⟩
    unfold Dbl.randomSites
    rw [hb]
    simp only [hD]
    rfl

/-- What it means that both loops end on the structure behind. -/
theorem dblSites_ok {S : Structure ℚ d} {r : Option (Py (Simulation ℚ d))} {sim : Simulation ℚ d}
    (h : r.map (Except.map fun sim => (⟨sim.state, S⟩ : Simulation ℚ d)) = some (.ok sim)) :
    ∃ sim0, r = some (.ok sim0) ∧ sim = ⟨sim0.state, S⟩ := by
  cases r with
  | none => cases h
  | some r =>
    cases r with
    | error e => cases h
    | ok sim0 => exact ⟨sim0, rfl, by injection h with h; injection h with h; exact h.symm⟩

/-- C104: when `setup_random_sites` returns in double precision, exactly the desired number of sites does not have the background phase; with a buffer (at least 1
and not wider than the grid), any two of them are more than the buffer apart along some axis of the torus; and the state fits the structure. -/
theorem C104_random_sites_partial {G : GridSetup ℚ d} (hG : DoubleSetup d G) (n : ℤ) (hn : 0 < n ∧ n ≤ 2 ^ 30) (sum : List ℚ → ℚ) (num : ℚ) (m : ℤ)
    (hm : NearestEven num m) (bg : Val) (hbgw : bg.WF)
    (nucAmts : Dict Val ℚ) (hw : Dict.WF nucAmts) (hph : ∀ p ∈ Dict.keys nucAmts, p.WF) (hbg : bg ∉ Dict.keys nucAmts) (buffer : Option ℤ)
    (hbuf : ∀ r, buffer = some r → 1 ≤ r ∧ r ≤ n)
    (order : ℕ → List ℕ → List ℕ) (hord : ∀ t l, (order t l).Perm l) (draw : ℕ → ℕ) (fuel : ℕ) (sim : Simulation ℚ d)
    (h : Dbl.randomSites G sum (.int n) num bg nucAmts buffer order draw fuel = some (.ok sim)) :
    DoubleGrid d (fun _ => n) sim.struct ∧ StartState sim.struct sim.state ∧ (nuclei sim.struct sim.state bg).length = m.toNat ∧
      ∀ r, buffer = some r → ∀ i ∈ nuclei sim.struct sim.state bg, ∀ j ∈ nuclei sim.struct sim.state bg, i ≠ j →
        ∀ a b, SiteHas sim.struct i a → SiteHas sim.struct j b → ¬ ChebyshevLE (fun _ => n) a b r := by
  rw [nearestEven_iff] at hm
  subst hm
  obtain ⟨S, s0, hg, hB, h1, h2⟩ := dblSites_parts hG hn sum num bg nucAmts buffer hbuf order hord
  by_cases hc : buffer = none ∨ ReciprocalExact n
  swap
  · rw [h2 hc] at h; injection h with h; cases h
  obtain ⟨nbs, hnb, heq⟩ := h1 hc
  rw [heq] at h
  obtain ⟨sim0, h0, rfl⟩ := dblSites_ok h
  obtain ⟨-, i1, i2, i3⟩ := plantSites_sites hB.torus.reachable hB.torus.sites_ne hnb (hasQuotas_dblIdeal sum hw _) hbgw hw hph hbg h0
  have e1 : StartState S = StartState s0 := by rw [hB.eq]; rfl
  have e2 : nuclei S = nuclei s0 := by rw [hB.eq]; rfl
  simp only [e1, e2]
  refine ⟨hg, i1, i2, ?_⟩
  intro r hr i hi j hj hij a b ha hb hab
  exact i3 i hi j hj hij ⟨r, hr, a, b, hB.siteHas.1 ha, hB.siteHas.1 hb, hab⟩

/-- C104: with a buffer, on a grid whose size has no exact reciprocal, every call raises TypeError. -/
theorem C104_type_error {G : GridSetup ℚ d} (hG : DoubleSetup d G) (n : ℤ) (hn : 0 < n ∧ n ≤ 2 ^ 30) (hr : ¬ ReciprocalExact n) (sum : List ℚ → ℚ) (num : ℚ)
    (bg : Val) (nucAmts : Dict Val ℚ) (r : ℤ) (hr1 : 1 ≤ r) (hrn : r ≤ n)
    (order : ℕ → List ℕ → List ℕ) (hord : ∀ t l, (order t l).Perm l) (draw : ℕ → ℕ) (fuel : ℕ) :
    Dbl.randomSites G sum (.int n) num bg nucAmts (some r) order draw fuel = some (.error .typeError) := by
  obtain ⟨S, s0, hg, hB, h1, h2⟩ := dblSites_parts hG hn sum num bg nucAmts (some r) (by rintro _ ⟨⟩; exact ⟨hr1, hrn⟩) order hord
  exact h2 (by rintro (h | h); · cases h
               · exact hr h) draw fuel

/-- C104: so the unrestricted claim is false: with the default buffer 2 no sites can be placed on a grid of size 49, whatever is asked for and drawn. -/
theorem C104_false {G : GridSetup ℚ d} (hG : DoubleSetup d G) (sum : List ℚ → ℚ) (num : ℚ) (bg : Val) (nucAmts : Dict Val ℚ)
    (order : ℕ → List ℕ → List ℕ) (hord : ∀ t l, (order t l).Perm l) (draw : ℕ → ℕ) (fuel : ℕ) :
    Dbl.randomSites G sum (.int 49) num bg nucAmts (some 2) order draw fuel = some (.error .typeError) :=
  C104_type_error hG 49 (by norm_num) C100_sizes.2.1 sum num bg nucAmts 2 (by norm_num) (by norm_num) order hord draw fuel

/-! ### the quotas -/

/-- The bounds for one quota. -/
theorem quota_bounds {a T T' : ℚ} {m : ℤ} {k : ℕ} (ha : 0 < a) (hT : 0 < T) (hm : 0 < m) (h1 : (1 - ulp) ^ k * T ≤ T') (h2 : T' ≤ (1 + ulp) ^ k * T)
    (hk : ((k : ℚ) + 2) * ulp ≤ 1 / 2) :
    a / T * m * (1 - (k + 2) * ulp) ≤ fl (fl (a / T') * m) ∧ fl (fl (a / T') * m) ≤ a / T * m * (1 + 2 * ((k + 2) * ulp)) := by
  have hu0 := ulp_pos
  have hu1 : 0 < 1 - ulp := by linarith [ulp_lt_one]
  have hm' : (0 : ℚ) < m := by exact_mod_cast hm
  have hT' : 0 < T' := lt_of_lt_of_le (mul_pos (pow_pos hu1 k) hT) h1
  have hx : 0 < a / T' := div_pos ha hT'
  have hs : 0 < a / T * m := mul_pos (div_pos ha hT) hm'
  obtain ⟨f1, f2⟩ := fl_nonneg_bounds hx.le
  have hf : 0 ≤ fl (a / T') := le_trans (mul_nonneg hu1.le hx.le) f1
  obtain ⟨g1, g2⟩ := fl_nonneg_bounds (mul_nonneg hf hm'.le)
  have bern : 1 - ((k : ℚ) + 2) * ulp ≤ (1 - ulp) ^ (k + 2) := by
    have := one_add_mul_le_pow (a := -ulp) (by linarith [ulp_lt_one]) (k + 2)
    push_cast at this
    rw [← sub_eq_add_neg 1 ulp] at this
    linarith
  constructor
  · have l1 : a / T * (1 - ulp) ^ k ≤ a / T' := by
      rw [div_mul_eq_mul_div, div_le_div_iff₀ hT hT', mul_assoc]
      refine mul_le_mul_of_nonneg_left ?_ ha.le
      calc (1 - ulp) ^ k * T' ≤ (1 - ulp) ^ k * ((1 + ulp) ^ k * T) := mul_le_mul_of_nonneg_left h2 (pow_nonneg hu1.le _)
        _ = ((1 - ulp) * (1 + ulp)) ^ k * T := by rw [mul_pow]; ring
        _ ≤ 1 * T := mul_le_mul_of_nonneg_right (pow_le_one₀ (mul_nonneg hu1.le (by linarith)) (by nlinarith)) hT.le
        _ = T := one_mul T
    calc a / T * m * (1 - (k + 2) * ulp) ≤ a / T * m * (1 - ulp) ^ (k + 2) := mul_le_mul_of_nonneg_left bern hs.le
      _ = (1 - ulp) * ((1 - ulp) * (a / T * (1 - ulp) ^ k) * m) := by ring
      _ ≤ (1 - ulp) * ((1 - ulp) * (a / T') * m) := by gcongr
      _ ≤ (1 - ulp) * (fl (a / T') * m) := by gcongr
      _ ≤ _ := g1
  · have l1 : a / T' * (1 - ulp) ^ k ≤ a / T := by
      rw [div_mul_eq_mul_div, div_le_div_iff₀ hT' hT, mul_assoc]
      exact mul_le_mul_of_nonneg_left h1 ha.le
    have l2 : (1 + ulp) ^ 2 * (1 - ulp) ^ 2 ≤ 1 := by
      rw [← mul_pow]
      exact pow_le_one₀ (mul_nonneg (by linarith) hu1.le) (by nlinarith)
    have up : fl (fl (a / T') * m) ≤ (1 + ulp) ^ 2 * (a / T' * m) := by
      calc fl (fl (a / T') * m) ≤ (1 + ulp) * (fl (a / T') * m) := g2
        _ ≤ (1 + ulp) * ((1 + ulp) * (a / T') * m) := by gcongr
        _ = _ := by ring
    have hp : 0 < (1 - ulp) ^ (k + 2) := pow_pos hu1 _
    have up2 : fl (fl (a / T') * m) * (1 - ulp) ^ (k + 2) ≤ a / T * m := by
      calc fl (fl (a / T') * m) * (1 - ulp) ^ (k + 2) ≤ (1 + ulp) ^ 2 * (a / T' * m) * (1 - ulp) ^ (k + 2) := by gcongr
        _ = ((1 + ulp) ^ 2 * (1 - ulp) ^ 2) * (a / T' * (1 - ulp) ^ k * m) := by ring
        _ ≤ 1 * (a / T * m) := by gcongr
        _ = _ := one_mul _
    have hfx : 0 ≤ fl (fl (a / T') * m) := le_trans (mul_nonneg hu1.le (mul_nonneg hf hm'.le)) g1
    set y := fl (fl (a / T') * m)
    set s := a / T * m
    set t := ((k : ℚ) + 2) * ulp
    have ht0 : 0 ≤ t := by positivity
    have h3 : y * (1 - t) ≤ s := le_trans (mul_le_mul_of_nonneg_left bern hfx) up2
    have h4 : 1 ≤ (1 - t) * (1 + 2 * t) := by nlinarith
    calc y = y * 1 := (mul_one y).symm
      _ ≤ y * ((1 - t) * (1 + 2 * t)) := mul_le_mul_of_nonneg_left h4 hfx
      _ = y * (1 - t) * (1 + 2 * t) := by ring
      _ ≤ s * (1 + 2 * t) := mul_le_mul_of_nonneg_right h3 (by linarith)

section
variable {nucAmts : Dict Val ℚ} {sum : List ℚ → ℚ}

theorem amounts_sum_pos (hpos : ∀ pa ∈ nucAmts, 0 < pa.2) (hne : nucAmts ≠ []) : 0 < (Dict.values nucAmts).sum := by
  refine List.sum_pos _ (fun x hx => ?_) (by simpa [Dict.values] using hne)
  obtain ⟨pa, hpa, rfl⟩ := List.mem_map.1 hx
  exact hpos pa hpa

theorem dblQuota_bounds (hsum : ∀ l, SumOf l (sum l)) (hpos : ∀ pa ∈ nucAmts, 0 < pa.2) (hdbl : ∀ pa ∈ nucAmts, IsDouble pa.2)
    {m : ℤ} (hm : 0 < m) (hsize : m * (nucAmts.length + 2) ≤ 2 ^ 52) {p : Val} {a : ℚ} (hpa : (p, a) ∈ nucAmts) :
    a / (Dict.values nucAmts).sum * m * (1 - (nucAmts.length + 2) * ulp) ≤ fl (fl (a / sum (Dict.values nucAmts)) * m) ∧
    fl (fl (a / sum (Dict.values nucAmts)) * m) ≤ a / (Dict.values nucAmts).sum * m * (1 + 2 * ((nucAmts.length + 2) * ulp)) := by
  have hne : nucAmts ≠ [] := by rintro rfl; cases hpa
  have hv : ∀ x ∈ Dict.values nucAmts, 0 < x ∧ IsDouble x := by
    intro x hx
    obtain ⟨pa, hpa, rfl⟩ := List.mem_map.1 hx
    exact ⟨hpos pa hpa, hdbl pa hpa⟩
  obtain ⟨-, h1, h2⟩ := (hsum (Dict.values nucAmts)).bounds (fun x hx => (hv x hx).1.le) (fun x hx => (hv x hx).2)
  rw [show (Dict.values nucAmts).length = nucAmts.length from List.length_map _] at h1 h2
  refine quota_bounds (hpos _ hpa) (amounts_sum_pos hpos hne) hm h1 h2 ?_
  have h3 : ((nucAmts.length : ℤ) + 2) ≤ 2 ^ 52 :=
    le_trans (le_mul_of_one_le_left (by positivity) hm) hsize
  have h4 : ((nucAmts.length : ℚ) + 2) ≤ 2 ^ 52 := by exact_mod_cast h3
  unfold ulp
  linarith

theorem sub_one_lt_dblQuotaSum (hw : Dict.WF nucAmts) (hsum : ∀ l, SumOf l (sum l)) (hpos : ∀ pa ∈ nucAmts, 0 < pa.2)
    (hdbl : ∀ pa ∈ nucAmts, IsDouble pa.2) (hne : nucAmts ≠ []) {m : ℤ} (hsize : m * (nucAmts.length + 2) ≤ 2 ^ 52) :
    (m : ℚ) - 1 < quotaSum (Dict.keys nucAmts) (Dbl.idealSites sum nucAmts m) ∨ m ≤ 0 := by
  by_cases hm : 0 < m
  swap
  · exact .inr (not_lt.1 hm)
  left
  rw [quotaSum_eq hw _ (get?_dblIdeal sum hw m)]
  have h1 : ((Dict.values nucAmts).map fun a => a / (Dict.values nucAmts).sum * m * (1 - (nucAmts.length + 2) * ulp)).sum ≤
      ((Dict.values nucAmts).map fun a => fl (fl (a / sum (Dict.values nucAmts)) * m)).sum := by
    refine List.sum_le_sum fun a ha => ?_
    obtain ⟨pa, hpa, rfl⟩ := List.mem_map.1 ha
    exact (dblQuota_bounds hsum hpos hdbl hm hsize (p := pa.1) (a := pa.2) hpa).1
  have h2 : ((Dict.values nucAmts).map fun a => a / (Dict.values nucAmts).sum * m * (1 - (nucAmts.length + 2) * ulp)).sum =
      m * (1 - (nucAmts.length + 2) * ulp) := by
    have hs := sum_share (nucAmts := nucAmts) m (amounts_sum_pos hpos hne).ne'
    unfold share at hs
    rw [List.sum_map_mul_right, hs]
  refine lt_of_lt_of_le ?_ h1
  rw [h2]
  have h3 : (m : ℚ) * (nucAmts.length + 2) ≤ 2 ^ 52 := by exact_mod_cast hsize
  unfold ulp
  linarith

end

/-- C104 (termination): if the amounts are positive doubles and there are fewer than `2 ^ 52` pairs of sites and phases, both loops end in double precision too, and
the call returns or raises RuntimeError (unless the neighbourhood fails, see `C104_type_error`). -/
theorem C104_terminates {G : GridSetup ℚ d} (hG : DoubleSetup d G) (n : ℤ) (hn : 0 < n ∧ n ≤ 2 ^ 30) (sum : List ℚ → ℚ) (hsum : ∀ l, SumOf l (sum l)) (num : ℚ)
    (m : ℤ) (hm : NearestEven num m) (bg : Val) (hbgw : bg.WF)
    (nucAmts : Dict Val ℚ) (hw : Dict.WF nucAmts) (hph : ∀ p ∈ Dict.keys nucAmts, p.WF) (hbg : bg ∉ Dict.keys nucAmts) (hne : nucAmts ≠ [])
    (hpos : ∀ pa ∈ nucAmts, 0 < pa.2) (hdbl : ∀ pa ∈ nucAmts, IsDouble pa.2) (hsize : m * (nucAmts.length + 2) ≤ 2 ^ 52) (buffer : Option ℤ)
    (hbuf : ∀ r, buffer = some r → 1 ≤ r ∧ r ≤ n) (hex : buffer = none ∨ ReciprocalExact n)
    (order : ℕ → List ℕ → List ℕ) (hord : ∀ t l, (order t l).Perm l) (draw : ℕ → ℕ) (fuel : ℕ)
    (h1 : m.toNat * nucAmts.length ≤ fuel) (h2 : 1000 * m + 2 ≤ fuel) :
    (∃ sim, Dbl.randomSites G sum (.int n) num bg nucAmts buffer order draw fuel = some (.ok sim)) ∨
      Dbl.randomSites G sum (.int n) num bg nucAmts buffer order draw fuel = some (.error .runtimeError) := by
  rw [nearestEven_iff] at hm
  subst hm
  obtain ⟨S, s0, hg, hB, h3, -⟩ := dblSites_parts hG hn sum num bg nucAmts buffer hbuf order hord
  obtain ⟨nbs, hnb, heq⟩ := h3 hex
  rw [heq]
  rcases sub_one_lt_dblQuotaSum hw hsum hpos hdbl hne hsize with hq | hq
  · rcases plantSites_terminates hB.torus.reachable hB.torus.sites_ne hnb (hasQuotas_dblIdeal sum hw _) hq hbgw hw hph hbg draw fuel h1 h2 with ⟨sim, h⟩ | h
    · left; rw [h]; exact ⟨_, rfl⟩
    · right; rw [h]; rfl
  · left
    unfold plantSites
    rw [quotaLoop_done (by simpa using hq)]
    simp only
    rw [placeLoop_done (by simpa using hq)]
    exact ⟨_, rfl⟩

/-- C105: when `setup_random_sites` returns in double precision, the nuclei have phases of `nuc_amts`, their numbers add up to the desired number, and no phase has
more than its share times `1 + (phases + 2) / 2 ^ 52`, rounded up; so at most one more than its share rounded up. -/
theorem C105_quotas_partial {G : GridSetup ℚ d} (hG : DoubleSetup d G) (n : ℤ) (hn : 0 < n ∧ n ≤ 2 ^ 30) (sum : List ℚ → ℚ) (hsum : ∀ l, SumOf l (sum l)) (num : ℚ)
    (m : ℤ) (hm : NearestEven num m) (bg : Val) (hbgw : bg.WF)
    (nucAmts : Dict Val ℚ) (hw : Dict.WF nucAmts) (hph : ∀ p ∈ Dict.keys nucAmts, p.WF) (hbg : bg ∉ Dict.keys nucAmts)
    (hpos : ∀ pa ∈ nucAmts, 0 < pa.2) (hdbl : ∀ pa ∈ nucAmts, IsDouble pa.2) (hsize : m * (nucAmts.length + 2) ≤ 2 ^ 52) (buffer : Option ℤ)
    (hbuf : ∀ r, buffer = some r → 1 ≤ r ∧ r ≤ n)
    (order : ℕ → List ℕ → List ℕ) (hord : ∀ t l, (order t l).Perm l) (draw : ℕ → ℕ) (fuel : ℕ) (sim : Simulation ℚ d)
    (h : Dbl.randomSites G sum (.int n) num bg nucAmts buffer order draw fuel = some (.ok sim)) :
    ((Dict.keys nucAmts).map fun p => phaseCount sim.struct sim.state p).sum = m.toNat ∧
    (∀ p a, (p, a) ∈ nucAmts →
      (phaseCount sim.struct sim.state p : ℤ) ≤ ⌈a / (nucAmts.map Prod.snd).sum * m.toNat * (1 + (nucAmts.length + 2) / 2 ^ 52)⌉ ∧
      (phaseCount sim.struct sim.state p : ℤ) ≤ ⌈a / (nucAmts.map Prod.snd).sum * m.toNat⌉ + 1) ∧
    ∀ i ∈ nuclei sim.struct sim.state bg, ∃ p ∈ Dict.keys nucAmts, occ? sim.state (.int i) = some p := by
  rw [nearestEven_iff] at hm
  subst hm
  obtain ⟨S, s0, hg, hB, h1, h2⟩ := dblSites_parts hG hn sum num bg nucAmts buffer hbuf order hord
  by_cases hc : buffer = none ∨ ReciprocalExact n
  swap
  · rw [h2 hc] at h; injection h with h; cases h
  obtain ⟨nbs, hnb, heq⟩ := h1 hc
  rw [heq] at h
  obtain ⟨sim0, h0, rfl⟩ := dblSites_ok h
  obtain ⟨i1, i2, i3⟩ := plantSites_phases hB.torus.reachable hB.torus.sites_ne hnb (hasQuotas_dblIdeal sum hw _) hbgw hw hph hbg h0
  have e1 : phaseCount S = phaseCount s0 := by rw [hB.eq]; rfl
  have e2 : nuclei S = nuclei s0 := by rw [hB.eq]; rfl
  simp only [e1, e2]
  refine ⟨i1, fun p a hpa => ?_, i3⟩
  have hp : p ∈ Dict.keys nucAmts := List.mem_map.2 ⟨_, hpa, rfl⟩
  have hne : nucAmts ≠ [] := by rintro rfl; cases hpa
  set m := roundHalfEven num with hmdef
  have hTpos : 0 < (nucAmts.map Prod.snd).sum := amounts_sum_pos hpos hne
  have hs0 : 0 ≤ a / (nucAmts.map Prod.snd).sum * (m.toNat : ℚ) := mul_nonneg (div_nonneg (hpos _ hpa).le hTpos.le) (by positivity)
  have hf0 : (0 : ℚ) ≤ 1 + ((nucAmts.length : ℚ) + 2) / 2 ^ 52 := by positivity
  have hzero : phaseCount s0 sim0.state p = 0 → (phaseCount s0 sim0.state p : ℤ) ≤ ⌈a / (nucAmts.map Prod.snd).sum * m.toNat * (1 + (nucAmts.length + 2) / 2 ^ 52)⌉ ∧
      (phaseCount s0 sim0.state p : ℤ) ≤ ⌈a / (nucAmts.map Prod.snd).sum * m.toNat⌉ + 1 := by
    intro hz
    rw [hz]
    have c1 := Int.ceil_nonneg hs0
    have c2 := Int.ceil_nonneg (mul_nonneg hs0 hf0)
    exact ⟨by exact_mod_cast c2, by push_cast; omega⟩
  by_cases hmp : 0 < m
  swap
  · apply hzero
    have hz : m.toNat = 0 := by omega
    rw [hz] at i1
    exact List.sum_eq_zero_iff.1 i1 _ (List.mem_map.2 ⟨p, hp, rfl⟩)
  rcases i2 p hp _ (by rw [get?_dblIdeal sum hw, Dict.get?_of_mem hw hpa]; rfl) with hz | hlt
  · exact hzero hz
  have hb := (dblQuota_bounds hsum hpos hdbl hmp hsize hpa).2
  have e : (m.toNat : ℚ) = (m : ℚ) := by
    have := Int.toNat_of_nonneg hmp.le
    exact_mod_cast congrArg (Int.cast : ℤ → ℚ) this
  rw [e]
  have hsh : a / (nucAmts.map Prod.snd).sum * m ≤ m := by
    have ha : a ≤ (nucAmts.map Prod.snd).sum := List.single_le_sum (fun x hx => by
      obtain ⟨pa, hpa, rfl⟩ := List.mem_map.1 hx
      exact (hpos pa hpa).le) _ (List.mem_map.2 ⟨_, hpa, rfl⟩)
    have : a / (nucAmts.map Prod.snd).sum ≤ 1 := (div_le_one hTpos).2 ha
    have hm0 : (0 : ℚ) ≤ m := by exact_mod_cast hmp.le
    nlinarith
  have hb' : (phaseCount s0 sim0.state p : ℚ) - 1 < a / (nucAmts.map Prod.snd).sum * m * (1 + (nucAmts.length + 2) / 2 ^ 52) := by
    refine lt_of_lt_of_le hlt (le_trans hb (le_of_eq ?_))
    unfold ulp
    rw [Dict.values]
    ring
  constructor
  · have : (phaseCount s0 sim0.state p : ℤ) - 1 < ⌈a / (nucAmts.map Prod.snd).sum * m * (1 + (nucAmts.length + 2) / 2 ^ 52)⌉ := by
      rw [Int.lt_ceil]
      push_cast
      exact hb'
    omega
  · have h3 : (m : ℚ) * (nucAmts.length + 2) ≤ 2 ^ 52 := by exact_mod_cast hsize
    have h4 : a / (nucAmts.map Prod.snd).sum * m * ((nucAmts.length + 2) / 2 ^ 52) ≤ 1 := by
      have := mul_le_mul_of_nonneg_right hsh (by positivity : (0 : ℚ) ≤ (nucAmts.length + 2) / 2 ^ 52)
      have h5 : (m : ℚ) * ((nucAmts.length + 2) / 2 ^ 52) ≤ 1 := by
        rw [← mul_div_assoc, div_le_one (by positivity)]; exact h3
      linarith
    have h6 : (phaseCount s0 sim0.state p : ℚ) < (⌈a / (nucAmts.map Prod.snd).sum * m⌉ : ℚ) + 2 := by
      have := Int.le_ceil (a / (nucAmts.map Prod.snd).sum * (m : ℚ))
      linarith
    have h7 : (phaseCount s0 sim0.state p : ℤ) < ⌈a / (nucAmts.map Prod.snd).sum * (m : ℚ)⌉ + 2 := by exact_mod_cast h6
    omega

/-- C104: every arrangement of the right number of sites that keeps the buffer can be drawn. -/
theorem C104_reachable {G : GridSetup ℚ d} (hG : DoubleSetup d G) (n : ℤ) (hn : 0 < n ∧ n ≤ 2 ^ 30) (sum : List ℚ → ℚ) (hsum : ∀ l, SumOf l (sum l)) (num : ℚ)
    (m : ℤ) (hm : NearestEven num m) (hm0 : 0 < m) (bg : Val) (hbgw : bg.WF)
    (nucAmts : Dict Val ℚ) (hw : Dict.WF nucAmts) (hph : ∀ p ∈ Dict.keys nucAmts, p.WF) (hbg : bg ∉ Dict.keys nucAmts) (hne : nucAmts ≠ [])
    (hpos : ∀ pa ∈ nucAmts, 0 < pa.2) (hdbl : ∀ pa ∈ nucAmts, IsDouble pa.2) (hsize : m * (nucAmts.length + 2) ≤ 2 ^ 52) (buffer : Option ℤ)
    (hbuf : ∀ r, buffer = some r → 1 ≤ r ∧ r ≤ n) (hex : buffer = none ∨ ReciprocalExact n) (order : ℕ → List ℕ → List ℕ) (hord : ∀ t l, (order t l).Perm l)
    (cells : List (Fin d → ℤ)) (hnd : cells.Nodup) (hlen : (cells.length : ℤ) = m) (hbox : ∀ c ∈ cells, InBox (fun _ => n) c)
    (hfar : ∀ r, buffer = some r → ∀ a ∈ cells, ∀ b ∈ cells, a ≠ b → ¬ ChebyshevLE (fun _ => n) a b r) :
    ∃ draw fuel sim, Dbl.randomSites G sum (.int n) num bg nucAmts buffer order draw fuel = some (.ok sim) ∧
      ∀ i c, SiteHas sim.struct i c → (i ∈ nuclei sim.struct sim.state bg ↔ c ∈ cells) := by
  rw [nearestEven_iff] at hm
  subst hm
  obtain ⟨S, s0, hg, hB, h3, -⟩ := dblSites_parts hG hn sum num bg nucAmts buffer hbuf order hord
  obtain ⟨nbs, hnb, heq⟩ := h3 hex
  have hq := (sub_one_lt_dblQuotaSum hw hsum hpos hdbl hne hsize).resolve_right (by omega)
  obtain ⟨draw, fuel, sim, h, hnuc⟩ := plantSites_reachable hB.torus hB.torus.sites_ne hnb (hasQuotas_dblIdeal sum hw _) hq hbgw hw hph hbg
    cells hnd hlen hbox (by
      rintro a ha b hb hab i j hi hj ⟨r, hr, a', b', ha', hb', hle⟩
      rw [IsTorus.has_unique_coord ha' hi, IsTorus.has_unique_coord hb' hj] at hle
      exact hfar r hr a ha b hb hab hle)
  have e2 : nuclei S = nuclei s0 := by rw [hB.eq]; rfl
  refine ⟨draw, fuel, ⟨sim.state, S⟩, by rw [heq, h]; rfl, fun i c hc => ?_⟩
  simp only [e2]
  exact hnuc i c (hB.siteHas.1 hc)

/-- Two phases with the amounts 7 and 93. -/
def sevenOfHundred : Dict Val ℚ := [(.str "A", 7), (.str "B", 93)]

theorem sevenOfHundred_ok : Dict.WF sevenOfHundred ∧ (∀ p ∈ Dict.keys sevenOfHundred, p.WF) ∧ Val.str "bg" ∉ Dict.keys sevenOfHundred ∧
    (∀ pa ∈ sevenOfHundred, 0 < pa.2) ∧ ∀ pa ∈ sevenOfHundred, IsDouble pa.2 := by
  refine ⟨by simp [Dict.WF, Dict.keys, sevenOfHundred], ?_, by simp [Dict.keys, sevenOfHundred], by simp [sevenOfHundred], ?_⟩
  · intro p hp
    simp [Dict.keys, sevenOfHundred] at hp
    rcases hp with rfl | rfl <;> exact .str _
  · intro pa hpa
    simp [sevenOfHundred] at hpa
    rcases hpa with rfl | rfl
    · exact ⟨7, 0, by norm_num, by norm_num⟩
    · exact ⟨93, 0, by norm_num, by norm_num⟩

/-- What the quota loop gives for these amounts and 100 sites. -/
def sevenCount : Option ℕ :=
  (quotaLoop (Dict.keys sevenOfHundred) (Dbl.idealSites (fun _ => 100) sevenOfHundred 100) 100 200 ⟨[], zeroSites sevenOfHundred, 0⟩).map fun r =>
    match r with
    | .ok q => q.ids.count (.str "A")
    | .error _ => 0

theorem sevenCount_eq : sevenCount = some 8 := by decide +kernel

/-- C105: that no phase has more than its share rounded up is false in double precision.  100 sites with amounts 7 and 93: the share of the first phase is exactly
7, but `7 / 100 * 100` is more than 7 in double arithmetic, and whenever the call returns, 8 sites have that phase. -/
theorem C105_false {G : GridSetup ℚ d} (hG : DoubleSetup d G) (n : ℤ) (hn : 0 < n ∧ n ≤ 2 ^ 30) (sum : List ℚ → ℚ) (hsum : ∀ l, SumOf l (sum l)) (buffer : Option ℤ)
    (hbuf : ∀ r, buffer = some r → 1 ≤ r ∧ r ≤ n) (order : ℕ → List ℕ → List ℕ) (hord : ∀ t l, (order t l).Perm l) (draw : ℕ → ℕ) (fuel : ℕ)
    (sim : Simulation ℚ d) (h : Dbl.randomSites G sum (.int n) 100 (.str "bg") sevenOfHundred buffer order draw fuel = some (.ok sim)) :
    phaseCount sim.struct sim.state (.str "A") = 8 ∧ (7 : ℚ) / (sevenOfHundred.map Prod.snd).sum * 100 = 7 := by
  refine ⟨?_, by norm_num [sevenOfHundred]⟩
  obtain ⟨hw, hph, hbg, -, -⟩ := sevenOfHundred_ok
  obtain ⟨S, s0, hg, hB, h1, h2⟩ := dblSites_parts hG hn sum 100 (.str "bg") sevenOfHundred buffer hbuf order hord
  by_cases hc : buffer = none ∨ ReciprocalExact n
  swap
  · rw [h2 hc] at h; injection h with h; cases h
  obtain ⟨nbs, hnb, heq⟩ := h1 hc
  rw [heq] at h
  obtain ⟨sim0, h0, rfl⟩ := dblSites_ok h
  have e1 : phaseCount S = phaseCount s0 := by rw [hB.eq]; rfl
  have e100 : roundHalfEven (100 : ℚ) = 100 := by decide +kernel
  have hs : sum (Dict.values sevenOfHundred) = 100 := by
    have := (hsum (Dict.values sevenOfHundred)).exact 0 (by
      intro x hx
      simp [Dict.values, sevenOfHundred] at hx
      rcases hx with rfl | rfl
      · exact ⟨7, by norm_num⟩
      · exact ⟨93, by norm_num⟩) (by norm_num [Dict.values, sevenOfHundred])
    rw [this]
    norm_num [Dict.values, sevenOfHundred]
  have hid : Dbl.idealSites sum sevenOfHundred 100 = Dbl.idealSites (fun _ => 100) sevenOfHundred 100 := by
    unfold Dbl.idealSites
    rw [hs]
  rw [e100] at h0
  obtain ⟨-, q, p, hq, hql, hp, hpl, hst, hloop⟩ := plantSites_ok hB.torus.reachable hB.torus.sites_ne hnb (hasQuotas_dblIdeal sum hw _) (.str _) hw hph hbg h0
  simp only [e1]
  rw [← hst, hp.pc (.str "A") (by simp), List.take_of_length_le (by omega)]
  rw [hid] at hloop
  have h8 := sevenCount_eq
  unfold sevenCount at h8
  cases hl : quotaLoop (Dict.keys sevenOfHundred) (Dbl.idealSites (fun _ => 100) sevenOfHundred 100) 100 200 ⟨[], zeroSites sevenOfHundred, 0⟩ with
  | none => rw [hl] at h8; cases h8
  | some r =>
    have m1 := quotaLoop_mono hl (max fuel 200) (le_max_right _ _)
    have m2 := quotaLoop_mono hloop (max fuel 200) (le_max_left _ _)
    rw [m1] at m2
    injection m2 with m2
    subst m2
    rw [hl] at h8
    injection h8 with h8

/-- Left to right summation is one of the admitted orders. -/
theorem C105_left_to_right (l : List ℚ) : SumOf l (l.foldl (fun acc x => fl (acc + x)) 0) := by
  have key : ∀ (l' l : List ℚ) (a : ℚ), SumOf l a → SumOf (l ++ l') (l'.foldl (fun acc x => fl (acc + x)) a) := by
    intro l'
    induction l' with
    | nil => intro l a h; simpa using h
    | cons x l' ih =>
      intro l a h
      have := ih (l ++ [x]) (fl (a + x)) (.add h (.one x))
      simpa using this
  simpa using key l [] 0 .nil

/-- Non-vacuity: summing from left to right is admitted, sites are placed on a 20 x 20 grid, and 8 of the 100 sites get the phase whose share is 7. -/
example : ∃ (sum : List ℚ → ℚ) (draw : ℕ → ℕ) (fuel : ℕ) (sim : Simulation ℚ 2), (∀ l, SumOf l (sum l)) ∧
    Dbl.randomSites Dbl.gridSetup2 sum (.int 20) 100 (.str "bg") sevenOfHundred none (fun _ l => l) draw fuel = some (.ok sim) ∧
    (nuclei sim.struct sim.state (.str "bg")).length = 100 ∧ phaseCount sim.struct sim.state (.str "A") = 8 := by
  have hs := C105_left_to_right
  have hm : NearestEven (100 : ℚ) 100 := by left; norm_num
  obtain ⟨hw, hph, hbg, hpos, hdbl⟩ := sevenOfHundred_ok
  have hinj : Function.Injective fun k : ℕ => (![(k : ℤ) % 20, k / 20] : Fin 2 → ℤ) := by
    intro a b h
    have h0 := congrFun h 0
    have h1 := congrFun h 1
    simp at h0 h1
    omega
  obtain ⟨draw, fuel, sim, h, -⟩ := C104_reachable (d := 2) .two 20 (by norm_num) _ hs 100 100 hm (by norm_num) (.str "bg") (.str _) sevenOfHundred hw hph hbg
    (by simp [sevenOfHundred]) hpos hdbl (by simp [sevenOfHundred]) none (by rintro r ⟨⟩) (.inl rfl) (fun _ l => l) (fun _ _ => .refl _)
    ((List.range 100).map fun k : ℕ => ![(k : ℤ) % 20, k / 20]) (List.nodup_range.map hinj) (by simp) (by
      intro c hc
      obtain ⟨k, hk, rfl⟩ := List.mem_map.1 hc
      have := List.mem_range.1 hk
      intro j
      fin_cases j <;> simp <;> omega) (by rintro r ⟨⟩)
  exact ⟨_, draw, fuel, sim, hs, h,
    (C104_random_sites_partial .two 20 (by norm_num) _ 100 100 hm (.str "bg") (.str _) sevenOfHundred hw hph hbg none (by rintro r ⟨⟩) (fun _ l => l)
      (fun _ _ => .refl _) draw fuel sim h).2.2.1,
    (C105_false .two 20 (by norm_num) _ hs none (by rintro r ⟨⟩) (fun _ l => l) (fun _ _ => .refl _) draw fuel sim h).1⟩

end Pyl
