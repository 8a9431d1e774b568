import Verif.Lemmas.RandomPlace
import Mathlib.Logic.Equiv.Fintype
import Mathlib.Data.Finset.Powerset
import Mathlib.Data.Int.Interval
import Mathlib.Combinatorics.Enumerative.DoubleCounting
import Mathlib.Order.Interval.Finset.Nat
/-
C127: the law of `setup_random_sites`.
-/
set_option autoImplicit false
set_option linter.unusedSectionVars false

namespace Pyl
open SimState Spec GridSetup
open Pyl.Lattice Pyl.Structure
variable {K : Type} [Field K] [LinearOrder K] [FloorRing K] [IsStrictOrderedRing K] {d : ℕ}

/-- C127: what `setup_random_sites` returns, draw by draw.  Sites are taken in the order in which they are drawn, skipping those that are taken or within the
buffer of a taken site; the `k`-th site taken gets the `k`-th of a list of phases that does not depend on the draws.  If the first 1000 m + 1 draws do not
admit `m` sites the call raises RuntimeError. -/
theorem C127_draws {G : GridSetup K d} (hG : StdSetup d G) (n : ℤ) (hn : 0 < n) (num : K) (m : ℤ) (hm : NearestEven num m) (bg : Val) (hbgw : bg.WF)
    (nucAmts : Dict Val K) (hw : Dict.WF nucAmts) (hph : ∀ p ∈ Dict.keys nucAmts, p.WF) (hbg : bg ∉ Dict.keys nucAmts)
    (hsum : (nucAmts.map Prod.snd).sum ≠ 0) (buffer : Option ℤ) (order : ℕ → List ℕ → List ℕ) (hord : ∀ t l, (order t l).Perm l) :
    ∃ (S : Structure K d) (phases : List Val), SquareGrid d (fun _ => n) S ∧ phases.length = m.toNat ∧ (∀ p ∈ phases, p ∈ Dict.keys nucAmts) ∧
      ∀ draw fuel, m.toNat * nucAmts.length ≤ fuel → 1000 * m + 2 ≤ fuel → ∀ taken : List ℕ,
        taken = walk (admit (nearBy S n buffer)) (fun t => draw t % S.siteIds.length) [] (1000 * m + 1).toNat →
        (m.toNat ≤ taken.length → ∃ s, G.randomSites (.int n) num bg nucAmts buffer order draw fuel = some (.ok ⟨s, S⟩) ∧ StartState S s ∧
          (∀ (k i : ℕ) v, taken[k]? = some i → phases[k]? = some v → occ? s (.int i) = some v) ∧
          ∀ i ∈ S.siteIds, i ∉ taken.take m.toNat → occ? s (.int i) = some bg) ∧
        (taken.length < m.toNat → G.randomSites (.int n) num bg nucAmts buffer order draw fuel = some (.error .runtimeError)) := by
  rw [nearestEven_iff] at hm
  subst hm
  set m := roundHalfEven num with hmdef
  obtain ⟨S, nbs, hsq, hne, hnb, heq⟩ := randomSites_parts hG n hn num bg nucAmts buffer order hord
  simp only [← hmdef] at heq
  have hS := hsq.isTorus.reachable
  have hid := hasQuotas_idealSites hw m
  obtain ⟨q, hq⟩ := quotaLoop_terminates hid hw (sub_one_lt_quotaSum hw m hsum) m.toNat (qInv_start hw _) (by simp) _ le_rfl
  obtain ⟨hqi, hql⟩ := quotaLoop_spec hid _ (qInv_start hw _) (by simp) hq
  have hids : ∀ v ∈ q.ids, v ≠ bg ∧ v.WF := fun v hv => ⟨fun e : v = bg => hbg (e ▸ hqi.mem v hv), hph v (hqi.mem v hv)⟩
  refine ⟨S, q.ids, hsq, hql, hqi.mem, fun draw fuel hf1 hf2 taken htaken => ?_⟩
  have hq' := quotaLoop_mono hq fuel (by rw [Dict.keys, List.length_map]; exact hf1)
  obtain ⟨h1, h2⟩ := placeLoop_taken hS hne hnb hids hql draw fuel (p := ⟨blank S bg, 0, 0⟩) (taken_start hS hbgw _ _) (by simp) (.inr rfl) (by simpa using hf2)
  rw [← htaken] at h1 h2
  rw [heq]
  unfold plantSites
  rw [hq']
  constructor
  · intro h
    obtain ⟨p, hp, ht⟩ := h1 h
    simp only [hp]
    obtain ⟨f, hf⟩ := ht.inv.painted
    refine ⟨p.state, rfl, hf.startState hS, fun k i v hk hv => ht.phase k i v ?_ hv, ht.rest⟩
    have hkm : k < m.toNat := by
      have := (List.getElem?_eq_some_iff.1 hv).1
      omega
    rw [List.getElem?_take, if_pos hkm]
    exact hk
  · intro h
    simp only [h2 h]

theorem count_cells {S : Structure K d} {n : ℤ} (hT : IsTorus S fun _ => n) : S.siteIds.length = n.toNat ^ d := by
  rw [hT.count]
  simp

/-- Taking sites after renaming them. -/
theorem walk_admit_map {near : ℕ → ℕ → Prop} {σ : ℕ → ℕ} {N : ℕ} (hσ : Function.Injective σ)
    (hnear : ∀ i j, i < N → j < N → (near (σ i) (σ j) ↔ near i j)) {x : ℕ → ℕ} (hx : ∀ t, x t < N) (k : ℕ) :
    walk (admit near) (fun t => σ (x t)) [] k = (walk (admit near) x [] k).map σ := by
  induction k with
  | zero => rfl
  | succ k ih =>
    show admit near (σ (x k)) (walk (admit near) (fun t => σ (x t)) [] k) = (admit near (x k) (walk (admit near) x [] k)).map σ
    rw [ih]
    have hiff : (σ (x k) ∈ (walk (admit near) x [] k).map σ ∨ ∃ j ∈ (walk (admit near) x [] k).map σ, near (σ (x k)) j) ↔
        (x k ∈ walk (admit near) x [] k ∨ ∃ j ∈ walk (admit near) x [] k, near (x k) j) := by
      have hlt : ∀ j ∈ walk (admit near) x [] k, j < N := fun j hj => by
        obtain ⟨t, -, e⟩ := walk_admit_mem near x k hj
        rw [← e]; exact hx t
      constructor
      · rintro (h | ⟨j, hj, h⟩)
        · left
          obtain ⟨j, hj, e⟩ := List.mem_map.1 h
          rw [← hσ e]; exact hj
        · obtain ⟨i, hi, rfl⟩ := List.mem_map.1 hj
          exact .inr ⟨i, hi, (hnear _ _ (hx k) (hlt i hi)).1 h⟩
      · rintro (h | ⟨j, hj, h⟩)
        · exact .inl (List.mem_map.2 ⟨_, h, rfl⟩)
        · exact .inr ⟨_, List.mem_map.2 ⟨j, hj, rfl⟩, (hnear _ _ (hx k) (hlt j hj)).2 h⟩
    generalize walk (admit near) x [] k = l at hiff
    unfold admit
    by_cases h : x k ∈ l ∨ ∃ j ∈ l, near (x k) j
    · rw [if_pos (hiff.2 h), if_pos h]
    · rw [if_neg (fun h' => h (hiff.1 h')), if_neg h, List.map_append]
      rfl

/-- A permutation of the first `N` numbers as a function on all of them. -/
def extend {N : ℕ} (σ : Equiv.Perm (Fin N)) (i : ℕ) : ℕ := if h : i < N then σ ⟨i, h⟩ else i

theorem extend_lt {N : ℕ} (σ : Equiv.Perm (Fin N)) {i : ℕ} (h : i < N) : extend σ i = σ ⟨i, h⟩ := by unfold extend; rw [dif_pos h]

theorem extend_injective {N : ℕ} (σ : Equiv.Perm (Fin N)) : Function.Injective (extend σ) := by
  intro i j e
  unfold extend at e
  split_ifs at e with h1 h2 h2
  · have := σ.injective (Fin.ext e)
    exact congrArg Fin.val this
  · have := (σ ⟨i, h1⟩).isLt
    omega
  · have := (σ ⟨j, h2⟩).isLt
    omega
  · exact e

/-- C127: the symmetry of the law.  A permutation of the sites that respects the buffer, applied to the draws, is applied to the result. -/
theorem randomSites_perm {G : GridSetup K d} (hG : StdSetup d G) (n : ℤ) (hn : 0 < n) (num : K) (m : ℤ) (hm : NearestEven num m) (bg : Val) (hbgw : bg.WF)
    (nucAmts : Dict Val K) (hw : Dict.WF nucAmts) (hph : ∀ p ∈ Dict.keys nucAmts, p.WF) (hbg : bg ∉ Dict.keys nucAmts)
    (hsum : (nucAmts.map Prod.snd).sum ≠ 0) (buffer : Option ℤ) (order : ℕ → List ℕ → List ℕ) (hord : ∀ t l, (order t l).Perm l) (fuel : ℕ)
    (hf1 : m.toNat * nucAmts.length ≤ fuel) (hf2 : 1000 * m + 2 ≤ fuel) :
    ∃ S, SquareGrid d (fun _ => n) S ∧
      (∀ draw sim, G.randomSites (.int n) num bg nucAmts buffer order draw fuel = some (.ok sim) → sim.struct = S ∧ StartState S sim.state) ∧
      ∀ σ : Equiv.Perm (Fin (n.toNat ^ d)),
        (∀ i j : Fin (n.toNat ^ d), nearBy S n buffer (σ i) (σ j) ↔ nearBy S n buffer i j) → ∀ Q : (Fin (n.toNat ^ d) → Option Val) → Prop,
        chance (n.toNat ^ d) (1000 * m + 1).toNat (fun f => ∃ sim, G.randomSites (.int n) num bg nucAmts buffer order (outcome f) fuel = some (.ok sim) ∧
          Q fun i => occ? sim.state (.int (i : ℕ))) =
        chance (n.toNat ^ d) (1000 * m + 1).toNat (fun f => ∃ sim, G.randomSites (.int n) num bg nucAmts buffer order (outcome f) fuel = some (.ok sim) ∧
          Q fun i => occ? sim.state (.int (σ.symm i : ℕ))) := by
  obtain ⟨S, phases, hsq, hlen, -, hall⟩ := C127_draws hG n hn num m hm bg hbgw nucAmts hw hph hbg hsum buffer order hord
  have hT := hsq.isTorus
  have hS := hT.reachable
  have hN : S.siteIds.length = n.toNat ^ d := count_cells hT
  have hpos : 0 < n.toNat ^ d := by rw [← hN]; exact List.length_pos_of_ne_nil hT.ids_ne
  refine ⟨S, hsq, fun draw sim h => ?_, fun σ hσ Q => ?_⟩
  · obtain ⟨h1, h2⟩ := hall draw fuel hf1 hf2 _ rfl
    rcases Nat.lt_or_ge (walk (admit (nearBy S n buffer)) (fun t => draw t % S.siteIds.length) [] (1000 * m + 1).toNat).length m.toNat with h3 | h3
    · rw [h2 h3] at h; cases h
    · obtain ⟨s, h4, h5, -⟩ := h1 h3
      rw [h4] at h; injection h with h; injection h with h; subst h
      exact ⟨rfl, h5⟩
  rw [← chance_perm σ]
  refine chance_congr fun f => ?_
  set near := nearBy S n buffer with hnear
  let x : ℕ → ℕ := outcome f
  have hx : ∀ t, x t < n.toNat ^ d := outcome_lt hpos f
  have e1 : walk (admit near) (fun t => outcome f t % S.siteIds.length) [] (1000 * m + 1).toNat = walk (admit near) x [] (1000 * m + 1).toNat :=
    walk_congr _ _ fun t _ => by rw [hN]; exact Nat.mod_eq_of_lt (hx t)
  have e2 : walk (admit near) (fun t => outcome (fun t => σ (f t)) t % S.siteIds.length) [] (1000 * m + 1).toNat =
      (walk (admit near) x [] (1000 * m + 1).toNat).map (extend σ) := by
    rw [← walk_admit_map (N := n.toNat ^ d) (extend_injective σ) (fun i j hi hj => by
      rw [extend_lt σ hi, extend_lt σ hj]; exact hσ ⟨i, hi⟩ ⟨j, hj⟩) hx]
    refine walk_congr _ _ fun t ht => ?_
    rw [hN, Nat.mod_eq_of_lt (outcome_lt hpos _ t), outcome_of_lt _ ht, extend_lt σ (hx t)]
    congr 2
    exact Fin.ext (outcome_of_lt f ht).symm
  obtain ⟨a1, a2⟩ := hall (outcome f) fuel hf1 hf2 _ rfl
  obtain ⟨b1, b2⟩ := hall (outcome fun t => σ (f t)) fuel hf1 hf2 _ rfl
  rw [e1] at a1 a2
  rw [e2] at b1 b2
  set taken := walk (admit near) x [] (1000 * m + 1).toNat with htaken
  rw [List.length_map] at b1 b2
  rcases Nat.lt_or_ge taken.length m.toNat with h3 | h3
  · rw [a2 h3, b2 h3]
    constructor <;> rintro ⟨sim, h, -⟩ <;> cases h
  obtain ⟨s, c1, -, c2, c3⟩ := a1 h3
  obtain ⟨s', d1, -, d2, d3⟩ := b1 h3
  have hocc : ∀ i : Fin (n.toNat ^ d), occ? s' (.int (σ i : ℕ)) = occ? s (.int (i : ℕ)) := by
    intro i
    have hext : extend σ (i : ℕ) = (σ i : ℕ) := extend_lt σ i.isLt
    by_cases hin : (i : ℕ) ∈ taken.take m.toNat
    · obtain ⟨k, hk⟩ := List.mem_iff_getElem?.1 hin
      rw [List.getElem?_take] at hk
      split_ifs at hk with hkm
      have hv : phases[k]? = some phases[k] := List.getElem?_eq_getElem (by omega)
      rw [c2 k i _ hk hv, d2 k (σ i) _ (by rw [List.getElem?_map, hk, Option.map_some, hext]) hv]
    · rw [c3 i ((mem_siteIds_lt hS).2 (by rw [hN]; exact i.isLt)) hin]
      refine d3 _ ((mem_siteIds_lt hS).2 (by rw [hN]; exact (σ i).isLt)) ?_
      rw [← List.map_take, ← hext]
      intro h
      obtain ⟨j, hj, e⟩ := List.mem_map.1 h
      rw [extend_injective σ e] at hj
      exact hin hj
  have hfun : (fun i : Fin (n.toNat ^ d) => occ? s' (.int (i : ℕ))) = fun i : Fin (n.toNat ^ d) => occ? s (.int (σ.symm i : ℕ)) := by
    funext i
    have := hocc (σ.symm i)
    rwa [Equiv.apply_symm_apply] at this
  constructor
  · rintro ⟨sim, h4, h5⟩
    rw [d1] at h4; injection h4 with h4; injection h4 with h4; subst h4
    exact ⟨_, c1, by rw [← hfun]; exact h5⟩
  · rintro ⟨sim, h4, h5⟩
    rw [c1] at h4; injection h4 with h4; injection h4 with h4; subst h4
    exact ⟨_, d1, by rw [hfun]; exact h5⟩

/-- C127: the result of `setup_random_sites` is as likely as its image under any map of the cells onto themselves that respects the buffer: any
permutation of the cells without buffer; translations, reflections and exchanges of axes of the torus with a buffer. -/
theorem C127_symmetric {G : GridSetup K d} (hG : StdSetup d G) (n : ℤ) (hn : 0 < n) (num : K) (m : ℤ) (hm : NearestEven num m) (bg : Val) (hbgw : bg.WF)
    (nucAmts : Dict Val K) (hw : Dict.WF nucAmts) (hph : ∀ p ∈ Dict.keys nucAmts, p.WF) (hbg : bg ∉ Dict.keys nucAmts)
    (hsum : (nucAmts.map Prod.snd).sum ≠ 0) (buffer : Option ℤ) (order : ℕ → List ℕ → List ℕ) (hord : ∀ t l, (order t l).Perm l) (fuel : ℕ)
    (hf1 : m.toNat * nucAmts.length ≤ fuel) (hf2 : 1000 * m + 2 ≤ fuel) (π : (Fin d → ℤ) → Fin d → ℤ)
    (hbox : ∀ c, InBox (fun _ => n) c → InBox (fun _ => n) (π c)) (hinj : ∀ a b, InBox (fun _ => n) a → InBox (fun _ => n) b → π a = π b → a = b)
    (hbuf : ∀ r, buffer = some r → ∀ a b, InBox (fun _ => n) a → InBox (fun _ => n) b →
      (ChebyshevLE (fun _ => n) (π a) (π b) r ↔ ChebyshevLE (fun _ => n) a b r)) (g : (Fin d → ℤ) → Val) :
    chance (n.toNat ^ d) (1000 * m + 1).toNat (fun f => ∃ sim, G.randomSites (.int n) num bg nucAmts buffer order (outcome f) fuel = some (.ok sim) ∧
      Shows sim.struct sim.state g) =
    chance (n.toNat ^ d) (1000 * m + 1).toNat (fun f => ∃ sim, G.randomSites (.int n) num bg nucAmts buffer order (outcome f) fuel = some (.ok sim) ∧
      Shows sim.struct sim.state fun c => g (π c)) := by
  obtain ⟨S, hsq, hstruct, hlaw⟩ := randomSites_perm hG n hn num m hm bg hbgw nucAmts hw hph hbg hsum buffer order hord fuel hf1 hf2
  have hT := hsq.isTorus
  have hS := hT.reachable
  have hN : S.siteIds.length = n.toNat ^ d := count_cells hT
  have hmem : ∀ i : Fin (n.toNat ^ d), (i : ℕ) ∈ S.siteIds := fun i => (mem_siteIds_lt hS).2 (by rw [hN]; exact i.isLt)
  choose cell hcb hcell using fun i : Fin (n.toNat ^ d) => hT.site i (hmem i)
  have hex : ∀ i : Fin (n.toNat ^ d), ∃ j : Fin (n.toNat ^ d), SiteHas S j (π (cell i)) := by
    intro i
    obtain ⟨j, hj, h⟩ := hT.ex (π (cell i)) (hbox _ (hcb i))
    exact ⟨⟨j, by rw [← hN]; exact (mem_siteIds_lt hS).1 hj⟩, h⟩
  choose img himg using hex
  have himg_inj : Function.Injective img := by
    intro i j e
    have h1 := himg i
    rw [e] at h1
    have h2 := hinj _ _ (hcb i) (hcb j) (IsTorus.has_unique_coord h1 (himg j))
    have h3 := hcell i
    rw [h2] at h3
    exact Fin.ext (hT.site_unique h3 (hcell j))
  let σ : Equiv.Perm (Fin (n.toNat ^ d)) := Equiv.ofBijective img (Finite.injective_iff_bijective.1 himg_inj)
  have hσ : ∀ i, SiteHas S (σ i) (π (cell i)) := himg
  have hnear : ∀ i j : Fin (n.toNat ^ d), nearBy S n buffer (σ i) (σ j) ↔ nearBy S n buffer i j := by
    intro i j
    constructor
    · rintro ⟨r, hr, a, b, ha, hb, h⟩
      have ea := IsTorus.has_unique_coord ha (hσ i)
      have eb := IsTorus.has_unique_coord hb (hσ j)
      subst ea eb
      exact ⟨r, hr, _, _, hcell i, hcell j, (hbuf r hr _ _ (hcb i) (hcb j)).1 h⟩
    · rintro ⟨r, hr, a, b, ha, hb, h⟩
      have ea := IsTorus.has_unique_coord ha (hcell i)
      have eb := IsTorus.has_unique_coord hb (hcell j)
      subst ea eb
      exact ⟨r, hr, _, _, hσ i, hσ j, (hbuf r hr _ _ (hcb i) (hcb j)).2 h⟩
  have hshow : ∀ (s : SimState) (g : (Fin d → ℤ) → Val), Shows S s g ↔ ∀ i : Fin (n.toNat ^ d), occ? s (.int (i : ℕ)) = some (g (cell i)) := by
    intro s g
    constructor
    · exact fun h i => h i _ (hcell i)
    · intro h i c hc
      have hi : i < n.toNat ^ d := by rw [← hN]; exact (mem_siteIds_lt hS).1 (hT.mem_ids hS hc)
      have := IsTorus.has_unique_coord hc (hcell ⟨i, hi⟩)
      rw [this]
      exact h ⟨i, hi⟩
  refine Eq.trans (chance_congr fun f => ?_) ((hlaw σ hnear fun o => ∀ i, o i = some (g (cell i))).trans (chance_congr fun f => ?_))
  · constructor <;> rintro ⟨sim, h1, h2⟩ <;> refine ⟨sim, h1, ?_⟩
    · rw [(hstruct _ _ h1).1] at h2
      exact (hshow _ _).1 h2
    · rw [(hstruct _ _ h1).1]
      exact (hshow _ _).2 h2
  · have hg : ∀ i, g (cell (σ i)) = g (π (cell i)) := fun i => by rw [IsTorus.has_unique_coord (hcell (σ i)) (hσ i)]
    constructor <;> rintro ⟨sim, h1, h2⟩ <;> refine ⟨sim, h1, ?_⟩
    · rw [(hstruct _ _ h1).1]
      refine (hshow _ _).2 fun i => ?_
      have := h2 (σ i)
      beta_reduce at this
      rw [Equiv.symm_apply_apply] at this
      rw [this, hg]
    · rw [(hstruct _ _ h1).1] at h2
      intro i
      have := (hshow _ _).1 h2 (σ.symm i)
      beta_reduce
      rw [this, ← hg, Equiv.apply_symm_apply]

/-- Events that exclude each other. -/
theorem chance_sum {m k : ℕ} {ι : Type} (s : Finset ι) (P : ι → (Fin k → Fin m) → Prop) (hdis : ∀ f, ∀ a ∈ s, ∀ b ∈ s, P a f → P b f → a = b) :
    chance m k (fun f => ∃ a ∈ s, P a f) = ∑ a ∈ s, chance m k (P a) := by
  classical
  unfold chance
  rw [← Finset.sum_div, ← Nat.cast_sum, ← Finset.card_biUnion]
  · congr 3
    ext f
    simp
  · intro a ha b hb hab
    rw [Function.onFun, Finset.disjoint_left]
    intro f h1 h2
    exact hab (hdis f a ha b hb (by simpa using h1) (by simpa using h2))

theorem mem_nuclei {S : Structure K d} {s : SimState} {bg : Val} {i : ℕ} (hi : i ∈ S.siteIds) : i ∈ nuclei S s bg ↔ occ? s (.int i) ≠ some bg := by
  unfold nuclei
  simp [hi]

/-- C127: without buffer every set of `m` cells is equally likely to be the set of nucleation sites. -/
theorem C127_subsets {G : GridSetup K d} (hG : StdSetup d G) (n : ℤ) (hn : 0 < n) (num : K) (m : ℤ) (hm : NearestEven num m) (bg : Val) (hbgw : bg.WF)
    (nucAmts : Dict Val K) (hw : Dict.WF nucAmts) (hph : ∀ p ∈ Dict.keys nucAmts, p.WF) (hbg : bg ∉ Dict.keys nucAmts)
    (hsum : (nucAmts.map Prod.snd).sum ≠ 0) (order : ℕ → List ℕ → List ℕ) (hord : ∀ t l, (order t l).Perm l) (fuel : ℕ)
    (hf1 : m.toNat * nucAmts.length ≤ fuel) (hf2 : 1000 * m + 2 ≤ fuel) (A : Finset (Fin d → ℤ)) (hA : ∀ c ∈ A, InBox (fun _ => n) c)
    (hcard : A.card = m.toNat) :
    chance (n.toNat ^ d) (1000 * m + 1).toNat (fun f => ∃ sim, G.randomSites (.int n) num bg nucAmts none order (outcome f) fuel = some (.ok sim) ∧
      ∀ i c, SiteHas sim.struct i c → (i ∈ nuclei sim.struct sim.state bg ↔ c ∈ A)) =
    chance (n.toNat ^ d) (1000 * m + 1).toNat (fun f => ∃ sim, G.randomSites (.int n) num bg nucAmts none order (outcome f) fuel = some (.ok sim)) /
      (n.toNat ^ d).choose m.toNat := by
  classical
  obtain ⟨S, hsq, hstruct, hlaw⟩ := randomSites_perm hG n hn num m hm bg hbgw nucAmts hw hph hbg hsum none order hord fuel hf1 hf2
  have hC67 := fun draw sim => C67_random_sites hG n hn num m hm bg hbgw nucAmts hw hph hbg none order hord draw fuel sim
  have hT := hsq.isTorus
  have hS := hT.reachable
  have hN : S.siteIds.length = n.toNat ^ d := count_cells hT
  set N := n.toNat ^ d with hNdef
  clear_value N
  have hmem : ∀ i : Fin N, (i : ℕ) ∈ S.siteIds := fun i => (mem_siteIds_lt hS).2 (by rw [hN]; exact i.isLt)
  choose cell hcb hcell using fun i : Fin N => hT.site i (hmem i)
  have hinj : Function.Injective cell := fun i j e => by
    have := hcell i
    rw [e] at this
    exact Fin.ext (hT.site_unique this (hcell j))
  -- the event that the nucleation sites are those of `B`
  let E : Finset (Fin N) → (Fin (1000 * m + 1).toNat → Fin N) → Prop := fun B f =>
    ∃ sim, G.randomSites (.int n) num bg nucAmts none order (outcome f) fuel = some (.ok sim) ∧ ∀ i : Fin N, occ? sim.state (.int (i : ℕ)) ≠ some bg ↔ i ∈ B
  have hE : ∀ B B' : Finset (Fin N), B.card = B'.card → chance N (1000 * m + 1).toNat (E B') = chance N (1000 * m + 1).toNat (E B) := by
    intro B B' e
    let σ : Equiv.Perm (Fin N) := (Finset.equivOfCardEq e).extendSubtype
    have hσ : ∀ i, σ i ∈ B' ↔ i ∈ B := fun i => ⟨fun h => by
      by_contra h'
      exact (Finset.equivOfCardEq e).extendSubtype_not_mem i h' h, fun h => (Finset.equivOfCardEq e).extendSubtype_mem i h⟩
    refine (hlaw σ (fun i j => ?_) fun o => ∀ i, o i ≠ some bg ↔ i ∈ B').trans (chance_congr fun f => ?_)
    · constructor <;> rintro ⟨r, hr, -⟩ <;> cases hr
    · constructor <;> rintro ⟨sim, h1, h2⟩ <;> refine ⟨sim, h1, fun i => ?_⟩
      · have := h2 (σ i)
        beta_reduce at this
        rw [Equiv.symm_apply_apply, hσ] at this
        exact this
      · have := h2 (σ.symm i)
        rw [← hσ, Equiv.apply_symm_apply] at this
        exact this
  let B : Finset (Fin N) := Finset.univ.filter fun i => cell i ∈ A
  have hB : B.card = m.toNat := by
    rw [← hcard]
    refine Finset.card_bij (fun i _ => cell i) (fun i hi => by simpa [B] using hi) (fun i _ j _ e => hinj e) fun c hc => ?_
    obtain ⟨i, hi, h⟩ := hT.ex c (hA c hc)
    have hlt : i < N := by rw [← hN]; exact (mem_siteIds_lt hS).1 hi
    have e : cell ⟨i, hlt⟩ = c := IsTorus.has_unique_coord (hcell ⟨i, hlt⟩) h
    exact ⟨⟨i, hlt⟩, by simpa [B, e] using hc, e⟩
  have h1 : chance N (1000 * m + 1).toNat (fun f => ∃ sim, G.randomSites (.int n) num bg nucAmts none order (outcome f) fuel = some (.ok sim)) =
      ∑ B' ∈ Finset.powersetCard m.toNat (Finset.univ : Finset (Fin N)), chance N (1000 * m + 1).toNat (E B') := by
    rw [← chance_sum]
    · refine chance_congr fun f => ⟨?_, fun ⟨_, _, sim, h, _⟩ => ⟨sim, h⟩⟩
      rintro ⟨sim, h⟩
      refine ⟨Finset.univ.filter fun i : Fin N => occ? sim.state (.int (i : ℕ)) ≠ some bg, ?_, sim, h, fun i => by simp⟩
      rw [Finset.mem_powersetCard_univ, ← (hC67 _ _ h).2.2.1]
      have hnd : (nuclei sim.struct sim.state bg).Nodup := by
        rw [(hstruct _ _ h).1]
        refine List.Nodup.filter _ ?_
        rw [siteIds_eq hS]
        exact List.nodup_range
      rw [← List.toFinset_card_of_nodup hnd, (hstruct _ _ h).1]
      refine Finset.card_bij (fun i _ => (i : ℕ)) (fun i hi => ?_) (fun i _ j _ e => Fin.ext e) fun i hi => ?_
      · rw [List.mem_toFinset, mem_nuclei (hmem i)]
        simpa using hi
      · rw [List.mem_toFinset] at hi
        have hi' : i ∈ S.siteIds := List.mem_of_mem_filter hi
        rw [mem_nuclei hi'] at hi
        exact ⟨⟨i, by rw [← hN]; exact (mem_siteIds_lt hS).1 hi'⟩, by simpa using hi, rfl⟩
    · rintro f a - b - ⟨sim, e1, e2⟩ ⟨sim', e3, e4⟩
      rw [e1] at e3; injection e3 with e3; injection e3 with e3; subst e3
      ext i
      rw [← e2, e4]
  have h2 : ∀ B' ∈ Finset.powersetCard m.toNat (Finset.univ : Finset (Fin N)), chance N (1000 * m + 1).toNat (E B') = chance N (1000 * m + 1).toNat (E B) :=
    fun B' hB' => hE B B' (by rw [hB, Finset.mem_powersetCard_univ.1 hB'])
  rw [h1, Finset.sum_congr rfl h2, Finset.sum_const, Finset.card_powersetCard, Finset.card_univ, Fintype.card_fin, nsmul_eq_mul]
  have hch : ((N.choose m.toNat : ℕ) : ℝ) ≠ 0 := by
    have : m.toNat ≤ N := by
      rw [← hB]
      simpa using Finset.card_le_univ B
    exact_mod_cast (Nat.choose_pos this).ne'
  rw [mul_div_cancel_left₀ _ hch]
  refine chance_congr fun f => ?_
  constructor <;> rintro ⟨sim, h3, h4⟩ <;> refine ⟨sim, h3, ?_⟩
  · intro i
    rw [(hstruct _ _ h3).1] at h4
    rw [← mem_nuclei (hmem i), h4 i _ (hcell i)]
    simp [B]
  · rw [(hstruct _ _ h3).1]
    intro i c hc
    have hi := hT.mem_ids hS hc
    have hlt : i < N := by rw [← hN]; exact (mem_siteIds_lt hS).1 hi
    have e : cell ⟨i, hlt⟩ = c := IsTorus.has_unique_coord (hcell ⟨i, hlt⟩) hc
    rw [mem_nuclei hi, h4 ⟨i, hlt⟩]
    simp [B, e]

/-- At most `(2 R + 1) ^ d` sites are within the buffer `R` of a site. -/
theorem card_near {S : Structure K d} {n : ℤ} (hn : 0 < n) (hT : IsTorus S fun _ => n) (buffer : Option ℤ) {j : ℕ} (hj : j ∈ S.siteIds) (l : Finset ℕ)
    (hl : ∀ i ∈ l, i ∈ S.siteIds ∧ (i = j ∨ nearBy S n buffer i j)) : l.card ≤ (2 * (buffer.getD 0).toNat + 1) ^ d := by
  classical
  set R : ℤ := ((buffer.getD 0).toNat : ℤ) with hR
  obtain ⟨b, hbb, hb⟩ := hT.site j hj
  have hex : ∀ i : l, ∃ o : Fin d → ℤ, (∀ a, o a ∈ Finset.Icc (-R) R) ∧ ∃ c, InBox (fun _ => n) c ∧ SiteHas S i c ∧ ∀ a, ∃ k, c a - b a + k * n = o a := by
    rintro ⟨i, hi⟩
    obtain ⟨hi1, hi2⟩ := hl i hi
    obtain ⟨c, hcb, hc⟩ := hT.site i hi1
    rcases hi2 with rfl | ⟨r, hr, a', b', ha', hb', h⟩
    · refine ⟨fun _ => 0, fun _ => by rw [Finset.mem_Icc]; show -R ≤ 0 ∧ 0 ≤ R; omega, c, hcb, hc, fun a => ⟨0, ?_⟩⟩
      rw [IsTorus.has_unique_coord hc hb]
      ring
    · have h1 : ∀ a, ∃ k, |c a - b a + k * n| ≤ R := by
        intro a
        rw [IsTorus.has_unique_coord ha' hc, IsTorus.has_unique_coord hb' hb] at h
        obtain ⟨k, hk⟩ := (circ_le_iff hn _ _).1 (h a)
        refine ⟨k, hk.trans ?_⟩
        rw [hR, hr]
        exact Int.self_le_toNat r
      choose k hk using h1
      exact ⟨fun a => c a - b a + k a * n, fun a => Finset.mem_Icc.2 (abs_le.1 (hk a)), c, hcb, hc, fun a => ⟨k a, rfl⟩⟩
  choose o ho c hcb hc hk using hex
  have hinj : Function.Injective o := by
    intro i i' e
    have h1 : c i = c i' := by
      funext a
      obtain ⟨k, hk1⟩ := hk i a
      obtain ⟨k', hk2⟩ := hk i' a
      rw [e, ← hk2] at hk1
      have h2 : c i a % n = c i' a % n := by
        have : c i a = c i' a + (k' - k) * n := by linarith
        rw [this, Int.add_mul_emod_self_right]
      rwa [Int.emod_eq_of_lt (hcb i a).1 (hcb i a).2, Int.emod_eq_of_lt (hcb i' a).1 (hcb i' a).2] at h2
    have h3 := hc i
    rw [h1] at h3
    exact Subtype.ext (hT.site_unique h3 (hc i'))
  have h1 : l.card ≤ (Fintype.piFinset fun _ : Fin d => Finset.Icc (-R) R).card := by
    rw [← Finset.card_attach]
    exact Finset.card_le_card_of_injOn o (fun i _ => by rw [Finset.mem_coe, Fintype.mem_piFinset]; exact ho i) fun i _ i' _ e => hinj e
  rw [Fintype.card_piFinset, Finset.prod_const, Finset.card_univ, Fintype.card_fin, Int.card_Icc] at h1
  have : (R + 1 - -R).toNat = 2 * (buffer.getD 0).toNat + 1 := by omega
  rwa [this] at h1

/-- C127: how likely `setup_random_sites` is to give up.  A site blocks at most `(2 r + 1) ^ d` cells; if at least `w` cells are free as long as fewer than
`m` sites are planted, the probability of RuntimeError is at most `2 ^ m (1 - w / (2 n ^ d)) ^ (1000 m + 1)`. -/
theorem C127_fails {G : GridSetup K d} (hG : StdSetup d G) (n : ℤ) (hn : 0 < n) (num : K) (m : ℤ) (hm : NearestEven num m) (bg : Val) (hbgw : bg.WF)
    (nucAmts : Dict Val K) (hw : Dict.WF nucAmts) (hph : ∀ p ∈ Dict.keys nucAmts, p.WF) (hbg : bg ∉ Dict.keys nucAmts)
    (hsum : (nucAmts.map Prod.snd).sum ≠ 0) (buffer : Option ℤ) (order : ℕ → List ℕ → List ℕ) (hord : ∀ t l, (order t l).Perm l) (fuel : ℕ)
    (hf1 : m.toNat * nucAmts.length ≤ fuel) (hf2 : 1000 * m + 2 ≤ fuel) (w : ℕ)
    (hfree : w + (m.toNat - 1) * (2 * (buffer.getD 0).toNat + 1) ^ d ≤ n.toNat ^ d) :
    chance (n.toNat ^ d) (1000 * m + 1).toNat (fun f => G.randomSites (.int n) num bg nucAmts buffer order (outcome f) fuel = some (.error .runtimeError)) ≤
      2 ^ m.toNat * (1 - w / (2 * (n.toNat : ℝ) ^ d)) ^ (1000 * m + 1).toNat := by
  classical
  obtain ⟨S, phases, hsq, -, -, hall⟩ := C127_draws hG n hn num m hm bg hbgw nucAmts hw hph hbg hsum buffer order hord
  have hT := hsq.isTorus
  have hS := hT.reachable
  have hN : S.siteIds.length = n.toNat ^ d := count_cells hT
  have hpos : 0 < n.toNat ^ d := by rw [← hN]; exact List.length_pos_of_ne_nil hT.ids_ne
  have hcast : (n.toNat : ℝ) ^ d = ((n.toNat ^ d : ℕ) : ℝ) := by push_cast; rfl
  rw [hcast]
  set N := n.toNat ^ d with hNdef
  clear_value N
  set near := nearBy S n buffer with hnear
  have hkey := chance_settle_many (step := admit near) (m := N) hpos (Inv := fun acc : List ℕ => ∀ i ∈ acc, i < N) (μ := fun acc : List ℕ => m.toNat - acc.length)
    (fun acc hacc i hi => by
      unfold admit
      split
      · exact ⟨hacc, le_rfl⟩
      · refine ⟨fun j hj => ?_, by simp only [List.length_append]; omega⟩
        rcases List.mem_append.1 hj with h | h
        · exact hacc j h
        · rw [List.mem_singleton.1 h]; exact hi) (w := w) (by omega)
    (fun acc hacc hlt => by
      have hlen : acc.length < m.toNat := by omega
      have hblock : ((Finset.range N).filter fun i => i ∈ acc ∨ ∃ j ∈ acc, near i j).card ≤ acc.length * (2 * (buffer.getD 0).toNat + 1) ^ d := by
        have hsub : ((Finset.range N).filter fun i => i ∈ acc ∨ ∃ j ∈ acc, near i j) ⊆
            acc.toFinset.biUnion fun j => (Finset.range N).filter fun i => i = j ∨ near i j := by
          intro i hi
          simp only [Finset.mem_filter, Finset.mem_range] at hi
          simp only [Finset.mem_biUnion, List.mem_toFinset, Finset.mem_filter, Finset.mem_range]
          rcases hi.2 with h | ⟨j, hj, h⟩
          · exact ⟨i, h, hi.1, .inl rfl⟩
          · exact ⟨j, hj, hi.1, .inr h⟩
        refine (Finset.card_le_card hsub).trans (Finset.card_biUnion_le.trans ?_)
        refine (Finset.sum_le_card_nsmul _ _ _ fun j hj => card_near hn hT buffer (j := j) ?_ _ fun i hi => ?_).trans ?_
        · exact (mem_siteIds_lt hS).2 (by rw [hN]; exact hacc j (List.mem_toFinset.1 hj))
        · simp only [Finset.mem_filter, Finset.mem_range] at hi
          exact ⟨(mem_siteIds_lt hS).2 (by rw [hN]; exact hi.1), hi.2⟩
        · rw [smul_eq_mul]
          exact Nat.mul_le_mul_right _ (List.toFinset_card_le _)
      have hsplit := Finset.card_filter_add_card_filter_not (s := Finset.range N) fun i => i ∈ acc ∨ ∃ j ∈ acc, near i j
      rw [Finset.card_range] at hsplit
      have h1 : acc.length * (2 * (buffer.getD 0).toNat + 1) ^ d ≤ (m.toNat - 1) * (2 * (buffer.getD 0).toNat + 1) ^ d := Nat.mul_le_mul_right _ (by omega)
      have h2 : ((Finset.range N).filter fun i => ¬ (i ∈ acc ∨ ∃ j ∈ acc, near i j)).card ≤
          ((Finset.range N).filter fun i => m.toNat - (admit near i acc).length < m.toNat - acc.length).card := by
        refine Finset.card_le_card fun i hi => ?_
        simp only [Finset.mem_filter] at hi ⊢
        refine ⟨hi.1, ?_⟩
        unfold admit
        rw [if_neg hi.2, List.length_append, List.length_singleton]
        omega
      omega) (1000 * m + 1).toNat [] (by simp)
  refine le_trans (chance_mono fun f h => ?_) hkey
  obtain ⟨h1, -⟩ := hall (outcome f) fuel hf1 hf2 _ rfl
  rw [walk_congr (admit near) (g := outcome f) [] fun t _ => by rw [hN]; exact Nat.mod_eq_of_lt (outcome_lt hpos f t)] at h1
  by_contra hge
  obtain ⟨s, h2, -⟩ := h1 (by omega)
  rw [h2] at h
  cases h

/-- C127: if the cells blocked by the sites are at most half of the grid, the call practically never gives up. -/
theorem C127_rarely_fails {G : GridSetup K d} (hG : StdSetup d G) (n : ℤ) (hn : 0 < n) (num : K) (m : ℤ) (hm : NearestEven num m) (bg : Val) (hbgw : bg.WF)
    (nucAmts : Dict Val K) (hw : Dict.WF nucAmts) (hph : ∀ p ∈ Dict.keys nucAmts, p.WF) (hbg : bg ∉ Dict.keys nucAmts)
    (hsum : (nucAmts.map Prod.snd).sum ≠ 0) (buffer : Option ℤ) (order : ℕ → List ℕ → List ℕ) (hord : ∀ t l, (order t l).Perm l) (fuel : ℕ)
    (hf1 : m.toNat * nucAmts.length ≤ fuel) (hf2 : 1000 * m + 2 ≤ fuel)
    (hfree : 2 * (m.toNat * (2 * (buffer.getD 0).toNat + 1) ^ d) ≤ n.toNat ^ d) :
    chance (n.toNat ^ d) (1000 * m + 1).toNat (fun f => G.randomSites (.int n) num bg nucAmts buffer order (outcome f) fuel = some (.error .runtimeError)) ≤
      (1 / 10 ^ 120) ^ m.toNat := by
  have hle : (m.toNat - 1) * (2 * (buffer.getD 0).toNat + 1) ^ d ≤ m.toNat * (2 * (buffer.getD 0).toNat + 1) ^ d := Nat.mul_le_mul_right _ (by omega)
  have h := C127_fails hG n hn num m hm bg hbgw nucAmts hw hph hbg hsum buffer order hord fuel hf1 hf2
    (n.toNat ^ d - m.toNat * (2 * (buffer.getD 0).toNat + 1) ^ d) (by omega)
  refine h.trans ?_
  have hNpos : 0 < n.toNat ^ d := Nat.pow_pos (by omega)
  have hNR : (0 : ℝ) < (n.toNat : ℝ) ^ d := by exact_mod_cast hNpos
  set w := n.toNat ^ d - m.toNat * (2 * (buffer.getD 0).toNat + 1) ^ d with hwdef
  have hw1 : (n.toNat : ℝ) ^ d ≤ 2 * (w : ℝ) := by
    have : n.toNat ^ d ≤ 2 * w := by omega
    exact_mod_cast this
  have hw2 : (w : ℝ) ≤ (n.toNat : ℝ) ^ d := by
    have : w ≤ n.toNat ^ d := Nat.sub_le _ _
    exact_mod_cast this
  have h1 : 1 - (w : ℝ) / (2 * (n.toNat : ℝ) ^ d) ≤ 3 / 4 := by
    have : 1 / 4 ≤ (w : ℝ) / (2 * (n.toNat : ℝ) ^ d) := by rw [le_div_iff₀ (by linarith)]; linarith
    linarith
  have h0 : 0 ≤ 1 - (w : ℝ) / (2 * (n.toNat : ℝ) ^ d) := by
    have : (w : ℝ) / (2 * (n.toNat : ℝ) ^ d) ≤ 1 := by rw [div_le_one (by linarith)]; linarith
    linarith
  have h2 : 1000 * m.toNat ≤ (1000 * m + 1).toNat ∨ m.toNat = 0 := by omega
  have h3 : (1 - (w : ℝ) / (2 * (n.toNat : ℝ) ^ d)) ^ (1000 * m + 1).toNat ≤ (3 / 4 : ℝ) ^ (1000 * m.toNat) := by
    refine (pow_le_pow_left₀ h0 h1 _).trans ?_
    rcases h2 with h2 | h2
    · exact pow_le_pow_of_le_one (by norm_num) (by norm_num) h2
    · rw [h2]
      simpa using pow_le_one₀ (n := (1000 * m + 1).toNat) (by norm_num : (0 : ℝ) ≤ 3 / 4) (by norm_num)
  calc _ ≤ (2 : ℝ) ^ m.toNat * (3 / 4 : ℝ) ^ (1000 * m.toNat) := mul_le_mul_of_nonneg_left h3 (by positivity)
    _ = (2 * (3 / 4 : ℝ) ^ 1000) ^ m.toNat := by rw [pow_mul, ← mul_pow]
    _ ≤ _ := by
      refine pow_le_pow_left₀ (by positivity) ?_ _
      have e : (3 / 4 : ℝ) ^ 1000 = ((3 / 4) ^ 10) ^ 100 := by rw [← pow_mul]
      have e' : ((3 / 4 : ℝ) ^ 10) ^ 100 ≤ (57 / 1000) ^ 100 := pow_le_pow_left₀ (by positivity) (by norm_num) _
      have e'' : 2 * (57 / 1000 : ℝ) ^ 100 ≤ 1 / 10 ^ 120 := by norm_num
      rw [e]
      linarith

/-- Events counted twice: if exactly `r` of the events happen when `P` does and none otherwise, their probabilities sum to `r` times that of `P`. -/
theorem chance_double {m k : ℕ} {ι : Type} (s : Finset ι) (P : (Fin k → Fin m) → Prop) (E : ι → (Fin k → Fin m) → Prop) (r : ℕ)
    (h1 : ∀ f, P f → ∃ t : Finset ι, t.card = r ∧ ∀ a, a ∈ t ↔ a ∈ s ∧ E a f) (h2 : ∀ f a, E a f → P f) : ∑ a ∈ s, chance m k (E a) = r * chance m k P := by
  classical
  unfold chance
  rw [← Finset.sum_div, ← Nat.cast_sum, ← mul_div_assoc, ← Nat.cast_mul]
  congr 2
  have h := Finset.sum_card_bipartiteAbove_eq_sum_card_bipartiteBelow (s := s) (t := (Finset.univ : Finset (Fin k → Fin m))) E
  have h3 : ∀ a, (Finset.univ.filter (E a)).card = ((Finset.univ : Finset (Fin k → Fin m)).bipartiteAbove E a).card := fun a => by
    unfold Finset.bipartiteAbove; congr!
  rw [Finset.sum_congr rfl fun a _ => h3 a, h]
  have h4 : ∀ f, (s.bipartiteBelow E f).card = if P f then r else 0 := by
    intro f
    unfold Finset.bipartiteBelow
    split_ifs with hp
    · obtain ⟨t, e, ht⟩ := h1 f hp
      rw [← e]
      congr 1
      ext a
      rw [ht, Finset.mem_filter]
    · rw [Finset.card_eq_zero, Finset.filter_eq_empty_iff]
      exact fun a _ ha => hp (h2 f a ha)
  rw [Finset.sum_congr rfl fun f _ => h4 f, ← Finset.sum_filter, Finset.sum_const, smul_eq_mul, mul_comm]

/-- C127: every cell is equally likely to become a nucleation site, with or without buffer: with probability `m / n ^ d` if the call succeeds. -/
theorem C127_cell {G : GridSetup K d} (hG : StdSetup d G) (n : ℤ) (hn : 0 < n) (num : K) (m : ℤ) (hm : NearestEven num m) (bg : Val) (hbgw : bg.WF)
    (nucAmts : Dict Val K) (hw : Dict.WF nucAmts) (hph : ∀ p ∈ Dict.keys nucAmts, p.WF) (hbg : bg ∉ Dict.keys nucAmts)
    (hsum : (nucAmts.map Prod.snd).sum ≠ 0) (buffer : Option ℤ) (order : ℕ → List ℕ → List ℕ) (hord : ∀ t l, (order t l).Perm l) (fuel : ℕ)
    (hf1 : m.toNat * nucAmts.length ≤ fuel) (hf2 : 1000 * m + 2 ≤ fuel) (c : Fin d → ℤ) (hc : InBox (fun _ => n) c) :
    chance (n.toNat ^ d) (1000 * m + 1).toNat (fun f => ∃ sim, G.randomSites (.int n) num bg nucAmts buffer order (outcome f) fuel = some (.ok sim) ∧
      ∀ i, SiteHas sim.struct i c → i ∈ nuclei sim.struct sim.state bg) =
    m.toNat / (n.toNat : ℝ) ^ d *
      chance (n.toNat ^ d) (1000 * m + 1).toNat (fun f => ∃ sim, G.randomSites (.int n) num bg nucAmts buffer order (outcome f) fuel = some (.ok sim)) := by
  classical
  obtain ⟨S, hsq, hstruct, hlaw⟩ := randomSites_perm hG n hn num m hm bg hbgw nucAmts hw hph hbg hsum buffer order hord fuel hf1 hf2
  have hC67 := fun draw sim => C67_random_sites hG n hn num m hm bg hbgw nucAmts hw hph hbg buffer order hord draw fuel sim
  have hT := hsq.isTorus
  have hS := hT.reachable
  have hN : S.siteIds.length = n.toNat ^ d := count_cells hT
  have hpos : 0 < n.toNat ^ d := by rw [← hN]; exact List.length_pos_of_ne_nil hT.ids_ne
  have hcast : (n.toNat : ℝ) ^ d = ((n.toNat ^ d : ℕ) : ℝ) := by push_cast; rfl
  rw [hcast]
  set N := n.toNat ^ d with hNdef
  clear_value N
  have hmem : ∀ i : Fin N, (i : ℕ) ∈ S.siteIds := fun i => (mem_siteIds_lt hS).2 (by rw [hN]; exact i.isLt)
  choose cell hcb hcell using fun i : Fin N => hT.site i (hmem i)
  have hsite : ∀ a, InBox (fun _ => n) a → ∃ i : Fin N, cell i = a := fun a ha => by
    obtain ⟨i, hi, h⟩ := hT.ex a ha
    have hlt : i < N := by rw [← hN]; exact (mem_siteIds_lt hS).1 hi
    exact ⟨⟨i, hlt⟩, IsTorus.has_unique_coord (hcell ⟨i, hlt⟩) h⟩
  have hinj : Function.Injective cell := fun i j e => by
    have := hcell i
    rw [e] at this
    exact Fin.ext (hT.site_unique this (hcell j))
  let E : Fin N → (Fin (1000 * m + 1).toNat → Fin N) → Prop := fun j f =>
    ∃ sim, G.randomSites (.int n) num bg nucAmts buffer order (outcome f) fuel = some (.ok sim) ∧ occ? sim.state (.int (j : ℕ)) ≠ some bg
  -- all sites are equally likely, by translation
  have hE : ∀ i j : Fin N, chance N (1000 * m + 1).toNat (E j) = chance N (1000 * m + 1).toNat (E i) := by
    intro i j
    let π : (Fin d → ℤ) → Fin d → ℤ := fun a x => (a x + (cell j x - cell i x)) % n
    have hbox : ∀ a, InBox (fun _ => n) (π a) := fun a x => ⟨Int.emod_nonneg _ hn.ne', Int.emod_lt_of_pos _ hn⟩
    choose img himg using fun k : Fin N => hsite (π (cell k)) (hbox _)
    have himg_inj : Function.Injective img := by
      intro k l e
      have h1 : π (cell k) = π (cell l) := by rw [← himg, ← himg, e]
      refine hinj (funext fun x => ?_)
      have h2 : (cell k x + (cell j x - cell i x)) % n = (cell l x + (cell j x - cell i x)) % n := congrFun h1 x
      have h3 : cell k x % n = cell l x % n := (Int.emod_add_cancel_right _).1 h2
      rwa [Int.emod_eq_of_lt (hcb k x).1 (hcb k x).2, Int.emod_eq_of_lt (hcb l x).1 (hcb l x).2] at h3
    let σ : Equiv.Perm (Fin N) := Equiv.ofBijective img (Finite.injective_iff_bijective.1 himg_inj)
    have hσ : ∀ k, cell (σ k) = π (cell k) := himg
    have hij : σ i = j := hinj (by
      rw [hσ]
      funext x
      show (cell i x + (cell j x - cell i x)) % n = cell j x
      rw [add_sub_cancel, Int.emod_eq_of_lt (hcb j x).1 (hcb j x).2])
    have hdist : ∀ k l r, ChebyshevLE (fun _ => n) (cell (σ k)) (cell (σ l)) r ↔ ChebyshevLE (fun _ => n) (cell k) (cell l) r := by
      intro k l r
      refine forall_congr' fun x => ?_
      rw [hσ, hσ]
      show circ n ((cell k x + (cell j x - cell i x)) % n - (cell l x + (cell j x - cell i x)) % n) ≤ r ↔ _
      have e : ∀ a b : ℤ, circ n (a % n - b % n) = circ n (a - b) := fun a b => by
        unfold circ
        rw [← Int.sub_emod]
      rw [e, add_sub_add_right_eq_sub]
    have hnear : ∀ k l : Fin N, nearBy S n buffer (σ k) (σ l) ↔ nearBy S n buffer k l := by
      intro k l
      constructor
      · rintro ⟨r, hr, a, b, ha, hb, h⟩
        rw [IsTorus.has_unique_coord ha (hcell _), IsTorus.has_unique_coord hb (hcell _)] at h
        exact ⟨r, hr, _, _, hcell k, hcell l, (hdist k l r).1 h⟩
      · rintro ⟨r, hr, a, b, ha, hb, h⟩
        rw [IsTorus.has_unique_coord ha (hcell _), IsTorus.has_unique_coord hb (hcell _)] at h
        exact ⟨r, hr, _, _, hcell (σ k), hcell (σ l), (hdist k l r).2 h⟩
    refine (hlaw σ hnear fun o => o j ≠ some bg).trans (chance_congr fun f => ?_)
    have : σ.symm j = i := by rw [← hij, Equiv.symm_apply_apply]
    beta_reduce
    rw [this]
  have hdouble : ∑ j : Fin N, chance N (1000 * m + 1).toNat (E j) = m.toNat *
      chance N (1000 * m + 1).toNat (fun f => ∃ sim, G.randomSites (.int n) num bg nucAmts buffer order (outcome f) fuel = some (.ok sim)) := by
    refine chance_double _ _ _ _ ?_ fun f a ⟨sim, h, _⟩ => ⟨sim, h⟩
    rintro f ⟨sim, h⟩
    refine ⟨Finset.univ.filter fun i : Fin N => occ? sim.state (.int (i : ℕ)) ≠ some bg, ?_, fun a => ?_⟩
    · rw [← (hC67 _ _ h).2.2.1]
      have hnd : (nuclei sim.struct sim.state bg).Nodup := by
        rw [(hstruct _ _ h).1]
        refine List.Nodup.filter _ ?_
        rw [siteIds_eq hS]
        exact List.nodup_range
      rw [← List.toFinset_card_of_nodup hnd, (hstruct _ _ h).1]
      refine Finset.card_bij (fun i _ => (i : ℕ)) (fun i hi => ?_) (fun i _ j _ e => Fin.ext e) fun i hi => ?_
      · rw [List.mem_toFinset, mem_nuclei (hmem i)]
        simpa using hi
      · rw [List.mem_toFinset] at hi
        have hi' : i ∈ S.siteIds := List.mem_of_mem_filter hi
        rw [mem_nuclei hi'] at hi
        exact ⟨⟨i, by rw [← hN]; exact (mem_siteIds_lt hS).1 hi'⟩, by simpa using hi, rfl⟩
    · simp only [Finset.mem_filter, Finset.mem_univ, true_and]
      constructor
      · exact fun h1 => ⟨sim, h, h1⟩
      · rintro ⟨sim', h1, h2⟩
        rw [h] at h1; injection h1 with h1; injection h1 with h1; subst h1
        exact h2
  obtain ⟨i, hi⟩ := hsite c hc
  rw [Finset.sum_congr rfl fun j _ => hE i j, Finset.sum_const, Finset.card_univ, Fintype.card_fin, nsmul_eq_mul] at hdouble
  have hNR : (N : ℝ) ≠ 0 := by exact_mod_cast hpos.ne'
  rw [div_mul_eq_mul_div, ← hdouble, mul_div_cancel_left₀ _ hNR]
  refine chance_congr fun f => ?_
  constructor <;> rintro ⟨sim, h1, h2⟩ <;> refine ⟨sim, h1, ?_⟩
  · rw [(hstruct _ _ h1).1] at h2
    exact (mem_nuclei (hmem i)).1 (h2 i (by rw [← hi]; exact hcell i))
  · rw [(hstruct _ _ h1).1]
    intro j hj
    have e := hcell i
    rw [hi] at e
    rw [hT.site_unique hj e, mem_nuclei (hmem i)]
    exact h2

/-! A case that meets the hypotheses: 2 sites of two phases on a 7 x 7 grid, at Chebyshev distance more than 1.  Every cell is a nucleation site with
probability 2 / 49 (times the probability of success, which is practically 1), and the probability of failure is below 10 ^ -240. -/

example : (∀ c : Fin 2 → ℤ, InBox (fun _ => 7) c →
      chance 49 2001 (fun f => ∃ sim, gridSetup2.randomSites (K := ℚ) (.int 7) 2 (.str "bg") [(.str "A", 1), (.str "B", 3)] (some 1) (fun _ l => l) (outcome f) 2002 =
        some (.ok sim) ∧ ∀ i, SiteHas sim.struct i c → i ∈ nuclei sim.struct sim.state (.str "bg")) =
      2 / 49 * chance 49 2001 (fun f => ∃ sim, gridSetup2.randomSites (K := ℚ) (.int 7) 2 (.str "bg") [(.str "A", 1), (.str "B", 3)] (some 1) (fun _ l => l)
        (outcome f) 2002 = some (.ok sim))) ∧
    chance 49 2001 (fun f => gridSetup2.randomSites (K := ℚ) (.int 7) 2 (.str "bg") [(.str "A", 1), (.str "B", 3)] (some 1) (fun _ l => l) (outcome f) 2002 =
      some (.error .runtimeError)) ≤ 1 / 10 ^ 240 := by
  have hm : NearestEven (2 : ℚ) 2 := by left; norm_num
  have hw : Dict.WF [(Val.str "A", (1 : ℚ)), (.str "B", 3)] := by simp [Dict.WF, Dict.keys]
  have hph : ∀ p ∈ Dict.keys [(Val.str "A", (1 : ℚ)), (.str "B", 3)], p.WF := by
    intro p hp
    simp [Dict.keys] at hp
    rcases hp with rfl | rfl <;> exact .str _
  have hbg : Val.str "bg" ∉ Dict.keys [(Val.str "A", (1 : ℚ)), (.str "B", 3)] := by simp [Dict.keys]
  constructor
  · intro c hc
    have h := C127_cell (K := ℚ) .two 7 (by norm_num) 2 2 hm (.str "bg") (.str _) _ hw hph hbg (by norm_num) (some 1) (fun _ l => l) (fun _ _ => .refl _) 2002
      (by decide) (by norm_num) c hc
    have e : (((2 : ℤ).toNat : ℝ) / ((7 : ℤ).toNat : ℝ) ^ 2) = 2 / 49 := by
      rw [show (2 : ℤ).toNat = 2 from rfl, show (7 : ℤ).toNat = 7 from rfl]
      norm_num
    rw [e] at h
    exact h
  · have h := C127_rarely_fails (K := ℚ) .two 7 (by norm_num) 2 2 hm (.str "bg") (.str _) _ hw hph hbg (by norm_num) (some 1) (fun _ l => l)
      (fun _ _ => .refl _) 2002 (by decide) (by norm_num) (by decide)
    refine h.trans ?_
    show (1 / 10 ^ 120 : ℝ) ^ 2 ≤ _
    norm_num

/-- Without buffer each of the 1176 pairs of cells of that grid is equally likely. -/
example : chance 49 2001 (fun f => ∃ sim, gridSetup2.randomSites (K := ℚ) (.int 7) 2 (.str "bg") [(.str "A", 1), (.str "B", 3)] none (fun _ l => l) (outcome f) 2002 =
      some (.ok sim) ∧ ∀ i c, SiteHas sim.struct i c → (i ∈ nuclei sim.struct sim.state (.str "bg") ↔ c ∈ ({![0, 0], ![3, 6]} : Finset (Fin 2 → ℤ)))) =
    chance 49 2001 (fun f => ∃ sim, gridSetup2.randomSites (K := ℚ) (.int 7) 2 (.str "bg") [(.str "A", 1), (.str "B", 3)] none (fun _ l => l) (outcome f) 2002 =
      some (.ok sim)) / 1176 := by
  have hm : NearestEven (2 : ℚ) 2 := by left; norm_num
  have hw : Dict.WF [(Val.str "A", (1 : ℚ)), (.str "B", 3)] := by simp [Dict.WF, Dict.keys]
  have hph : ∀ p ∈ Dict.keys [(Val.str "A", (1 : ℚ)), (.str "B", 3)], p.WF := by
    intro p hp
    simp [Dict.keys] at hp
    rcases hp with rfl | rfl <;> exact .str _
  have hbg : Val.str "bg" ∉ Dict.keys [(Val.str "A", (1 : ℚ)), (.str "B", 3)] := by simp [Dict.keys]
  have h := C127_subsets (K := ℚ) .two 7 (by norm_num) 2 2 hm (.str "bg") (.str _) _ hw hph hbg (by norm_num) (fun _ l => l) (fun _ _ => .refl _) 2002
    (by decide) (by norm_num) {![0, 0], ![3, 6]} (by intro c hc j; simp at hc; rcases hc with rfl | rfl <;> fin_cases j <;> simp) (by decide)
  have e : (((Int.toNat 7 ^ 2).choose (Int.toNat 2) : ℕ) : ℝ) = 1176 := by
    rw [show (Int.toNat 7 ^ 2).choose (Int.toNat 2) = 1176 by decide]
    norm_num
  rw [e] at h
  exact h

/-- Exchanging the two axes respects the buffer. -/
example (g : (Fin 2 → ℤ) → Val) :
    chance 49 2001 (fun f => ∃ sim, gridSetup2.randomSites (K := ℚ) (.int 7) 2 (.str "bg") [(.str "A", 1), (.str "B", 3)] (some 1) (fun _ l => l) (outcome f) 2002 =
      some (.ok sim) ∧ Shows sim.struct sim.state g) =
    chance 49 2001 (fun f => ∃ sim, gridSetup2.randomSites (K := ℚ) (.int 7) 2 (.str "bg") [(.str "A", 1), (.str "B", 3)] (some 1) (fun _ l => l) (outcome f) 2002 =
      some (.ok sim) ∧ Shows sim.struct sim.state fun c => g ![c 1, c 0]) := by
  have hm : NearestEven (2 : ℚ) 2 := by left; norm_num
  have hw : Dict.WF [(Val.str "A", (1 : ℚ)), (.str "B", 3)] := by simp [Dict.WF, Dict.keys]
  have hph : ∀ p ∈ Dict.keys [(Val.str "A", (1 : ℚ)), (.str "B", 3)], p.WF := by
    intro p hp
    simp [Dict.keys] at hp
    rcases hp with rfl | rfl <;> exact .str _
  have hbg : Val.str "bg" ∉ Dict.keys [(Val.str "A", (1 : ℚ)), (.str "B", 3)] := by simp [Dict.keys]
  exact C127_symmetric (K := ℚ) .two 7 (by norm_num) 2 2 hm (.str "bg") (.str _) _ hw hph hbg (by norm_num) (some 1) (fun _ l => l) (fun _ _ => .refl _) 2002
    (by decide) (by norm_num) (fun c => ![c 1, c 0]) (fun c hc j => by fin_cases j <;> [exact hc 1; exact hc 0])
    (fun a b _ _ e => by
      have h0 := congrFun e 0
      have h1 := congrFun e 1
      simp at h0 h1
      funext j
      fin_cases j
      · exact h1
      · exact h0)
    (fun r _ a b _ _ => by
      constructor
      · intro h j
        fin_cases j
        · exact h 1
        · exact h 0
      · intro h j
        fin_cases j
        · exact h 1
        · exact h 0) g

end Pyl
