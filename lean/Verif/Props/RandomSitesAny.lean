import Verif.Model.RandomSitesAny
import Verif.Spec.RandomSitesAny
import Verif.Props.RandomSites
/-
C140: how `setup_random_sites` shares the sites among the phases, for amounts of every kind.
-/
set_option autoImplicit false
set_option linter.unusedSectionVars false

namespace Pyl
open Pyl.Lattice Structure SimState Spec GridSetup
variable {K : Type} [Field K] [LinearOrder K] [IsStrictOrderedRing K] [FloorRing K] {d : ℕ}

/-! ### going round -/

/-- How often the `j`-th of `k` phases had its turn in the first `c` calls. -/
def turns (k c j : ℕ) : ℕ := c / k + if j < c % k then 1 else 0

theorem turns_zero (k j : ℕ) : turns k 0 j = 0 := by simp [turns]

theorem turns_succ {k : ℕ} (hk : 0 < k) (c j : ℕ) (hj : j < k) : turns k (c + 1) j = turns k c j + if j = c % k then 1 else 0 := by
  unfold turns
  have h1 := Nat.div_add_mod c k
  have h2 := Nat.mod_lt c hk
  set q := c / k
  set r := c % k
  by_cases h : r + 1 < k
  · have e : c + 1 = k * q + (r + 1) := by omega
    have e1 : (c + 1) / k = q := by rw [e, Nat.mul_add_div hk, Nat.div_eq_of_lt h, Nat.add_zero]
    have e2 : (c + 1) % k = r + 1 := by rw [e, Nat.mul_add_mod, Nat.mod_eq_of_lt h]
    rw [e1, e2]
    split_ifs <;> omega
  · have e : c + 1 = k * (q + 1) + 0 := by rw [Nat.mul_add]; omega
    have e1 : (c + 1) / k = q + 1 := by rw [e, Nat.mul_add_div hk, Nat.zero_div, Nat.add_zero]
    have e2 : (c + 1) % k = 0 := by rw [e, Nat.mul_add_mod, Nat.zero_mod]
    rw [e1, e2]
    split_ifs <;> omega

/-! ### quotas -/

/-- The most a phase can get with the quota `x`. -/
def capOf : Ext K → ℕ∞
  | .fin x => ((⌈x⌉.toNat : ℕ) : ℕ∞)
  | .inf => ⊤
  | .ninf => 0
  | .nan => 0

theorem above_iff (x : Ext K) (n : ℕ) : x.above (n : ℤ) ↔ (n : ℕ∞) < capOf x := by
  cases x with
  | fin x =>
    show ((n : ℤ) : K) < x ↔ _
    rw [← Int.lt_ceil]
    show _ ↔ (n : ℕ∞) < ((⌈x⌉.toNat : ℕ) : ℕ∞)
    rw [Nat.cast_lt]
    omega
  | inf => exact ⟨fun _ => ENat.natCast_lt_top n, fun _ => trivial⟩
  | ninf => exact ⟨False.elim, fun h => absurd h (by simp [capOf])⟩
  | nan => exact ⟨False.elim, fun h => absurd h (by simp [capOf])⟩

theorem capOf_ideal (total a : K) {m : ℤ} (hm : 0 < m) : capOf ((Ext.div a total).mulInt m) = limit total m a := by
  unfold Ext.div limit
  split_ifs with h1 h2 h3 h4
  · exact absurd h3 (by simp [h2])
  · rfl
  · simp only [Ext.mulInt]
    rw [if_neg hm.ne', if_pos hm]; rfl
  · simp only [Ext.mulInt]
    rw [if_neg hm.ne', if_pos hm]; rfl
  · rfl

theorem get?_idealSitesAny {nucAmts : Dict Val K} (hw : Dict.WF nucAmts) (num : ℤ) (p : Val) :
    Dict.get? (idealSitesAny nucAmts num) p = (Dict.get? nucAmts p).map fun a => (Ext.div a (Dict.values nucAmts).sum).mulInt num :=
  foldl_set_get? nucAmts hw (fun sa => (Ext.div sa.2 (Dict.values nucAmts).sum).mulInt num) p

/-! ### the quota loop -/

/-- What the quota loop keeps. -/
structure TInv (species : List Val) (ideal : Dict Val (Ext K)) (q : Quota) : Prop where
  real : ∀ p ∈ species, Dict.get? q.real p = some (q.ids.count p : ℤ)
  mem : ∀ p ∈ q.ids, p ∈ species
  count : ∀ j p x, species[j]? = some p → Dict.get? ideal p = some x → (q.ids.count p : ℕ∞) = min (capOf x) (turns species.length q.calls j : ℕ)

theorem tInv_start {nucAmts : Dict Val K} (hw : Dict.WF nucAmts) (ideal : Dict Val (Ext K)) : TInv (Dict.keys nucAmts) ideal ⟨[], zeroSites nucAmts, 0⟩ := by
  refine ⟨fun p hp => ?_, by simp, fun j p x _ _ => by simp [turns_zero]⟩
  rw [get?_zeroSites hw]
  obtain ⟨v, hv⟩ := Option.isSome_iff_exists.1 (Dict.get?_isSome_iff.2 hp)
  rw [hv]; rfl

theorem quotaRoundAny_spec {species : List Val} {ideal : Dict Val (Ext K)} (hid : ∀ p ∈ species, ∃ x, Dict.get? ideal p = some x) (hnd : species.Nodup)
    (hne : species ≠ []) {q : Quota} (h : TInv species ideal q) :
    ∃ q', quotaRoundAny species ideal q = .ok q' ∧ TInv species ideal q' ∧ q'.calls = q.calls + 1 ∧ q'.ids.length ≤ q.ids.length + 1 := by
  have hpos : 0 < species.length := List.length_pos_iff.2 hne
  have hlt := Nat.mod_lt q.calls hpos
  have hg : species[q.calls % species.length]? = some _ := List.getElem?_eq_getElem hlt
  set p := species[q.calls % species.length] with hp
  have hps : p ∈ species := List.getElem_mem hlt
  obtain ⟨x, hx⟩ := hid p hps
  have hr := h.real p hps
  have hcnt := h.count _ p x hg hx
  have hidx : ∀ j p', species[j]? = some p' → (j = q.calls % species.length ↔ p' = p) := by
    intro j p' hj
    constructor
    · rintro rfl; rw [hg] at hj; injection hj with hj; exact hj.symm
    · rintro rfl
      have hjl : j < species.length := by
        by_contra hh; rw [List.getElem?_eq_none (by omega)] at hj; cases hj
      rw [List.getElem?_eq_getElem hjl] at hj; injection hj with hj
      exact (List.Nodup.getElem_inj_iff hnd).1 (hj.trans hp)
  have hjl : ∀ j p', species[j]? = some p' → j < species.length := by
    intro j p' hj
    by_contra hh; rw [List.getElem?_eq_none (by omega)] at hj; cases hj
  unfold quotaRoundAny
  rw [hg]
  simp only [hr, hx]
  by_cases hab : x.above (q.ids.count p : ℤ)
  · rw [if_pos hab]
    rw [above_iff] at hab
    refine ⟨_, rfl, ⟨fun p' hp' => ?_, fun p' hp' => ?_, fun j p' x' hj hx' => ?_⟩, rfl, by simp⟩
    · simp only [Dict.get?_set]
      rw [List.count_append, List.count_singleton]
      by_cases e : p' = p
      · subst e; simp
      · rw [if_neg (fun e' => e e'.symm), h.real p' hp', if_neg (by simpa using fun e' => e e'.symm)]; rfl
    · simp only at hp'
      rcases List.mem_append.1 hp' with hp' | hp'
      · exact h.mem p' hp'
      · rw [List.mem_singleton.1 hp']; exact hps
    · simp only
      rw [turns_succ hpos _ _ (hjl j p' hj), List.count_append, List.count_singleton]
      by_cases e : p' = p
      · subst e
        rw [hx] at hx'; injection hx' with hx'; subst hx'
        have ej := (hidx j _ hj).2 rfl
        subst ej
        rw [if_pos (by simp), if_pos rfl]
        rw [hcnt] at hab
        have hv : ((turns species.length q.calls (q.calls % species.length) : ℕ) : ℕ∞) < capOf x := by
          rcases min_lt_iff.1 hab with hh | hh
          · exact absurd hh (lt_irrefl _)
          · exact hh
        rw [min_eq_right hv.le] at hcnt
        have hcnt' : q.ids.count p = turns species.length q.calls (q.calls % species.length) := by exact_mod_cast hcnt
        rw [hcnt', min_eq_right]
        have := Order.add_one_le_of_lt hv
        exact_mod_cast this
      · rw [if_neg (by simpa using fun e' => e e'.symm), if_neg (fun ej => e ((hidx j p' hj).1 ej)), Nat.add_zero, Nat.add_zero]
        exact h.count j p' x' hj hx'
  · rw [if_neg hab]
    rw [above_iff] at hab
    refine ⟨_, rfl, ⟨h.real, h.mem, fun j p' x' hj hx' => ?_⟩, rfl, by simp⟩
    simp only
    rw [turns_succ hpos _ _ (hjl j p' hj)]
    by_cases e : p' = p
    · subst e
      rw [hx] at hx'; injection hx' with hx'; subst hx'
      have ej := (hidx j _ hj).2 rfl
      subst ej
      rw [hcnt] at hab
      have hv : capOf x ≤ ((turns species.length q.calls (q.calls % species.length) : ℕ) : ℕ∞) := by
        by_contra hh
        push Not at hh
        exact hab (by rw [min_eq_right hh.le]; exact hh)
      rw [hcnt, min_eq_left hv, min_eq_left (hv.trans (by exact_mod_cast Nat.le_add_right _ _))]
    · rw [if_neg (fun ej => e ((hidx j p' hj).1 ej)), Nat.add_zero]
      exact h.count j p' x' hj hx'

/-- The quota loop ends with the right number of identities, or is still running. -/
theorem quotaLoopAny_spec {species : List Val} {ideal : Dict Val (Ext K)} (hid : ∀ p ∈ species, ∃ x, Dict.get? ideal p = some x) (hnd : species.Nodup)
    (hne : species ≠ []) {num : ℤ} (fuel : ℕ) {q : Quota} (h : TInv species ideal q) (hl : q.ids.length ≤ num.toNat) :
    (∃ q', quotaLoopAny species ideal num fuel q = some (.ok q') ∧ TInv species ideal q' ∧ q'.ids.length = num.toNat) ∨
    (quotaLoopAny species ideal num fuel q = none ∧ ∃ q', TInv species ideal q' ∧ q'.calls = q.calls + fuel ∧ (q'.ids.length : ℤ) < num) := by
  induction fuel generalizing q with
  | zero =>
    unfold quotaLoopAny
    by_cases hc : (q.ids.length : ℤ) < num
    · rw [if_pos hc]; exact .inr ⟨rfl, q, h, rfl, hc⟩
    · rw [if_neg hc]; exact .inl ⟨q, rfl, h, by omega⟩
  | succ fuel ih =>
    unfold quotaLoopAny
    by_cases hc : (q.ids.length : ℤ) < num
    · rw [if_pos hc]
      obtain ⟨q1, h1, h2, h3, h4⟩ := quotaRoundAny_spec hid hnd hne h
      rw [h1]
      rcases ih h2 (by omega) with h5 | ⟨h5, q', h6, h7, h8⟩
      · exact .inl h5
      · exact .inr ⟨h5, q', h6, by omega, h8⟩
    · rw [if_neg hc]; exact .inl ⟨q, rfl, h, by omega⟩

/-! ### placing the sites, the background allowed among the phases -/

/-- What the placement loop keeps. -/
structure PInvAny (S : Structure K d) (bg : Val) (ids : List Val) (near : ℕ → ℕ → Prop) (p : Place) : Prop where
  painted : ∃ f, Painted S p.state f
  pc : ∀ v, v ≠ bg → phaseCount S p.state v = (ids.take p.planted).count v
  nuc : (nuclei S p.state bg).length = (ids.take p.planted).countP fun v => decide (v ≠ bg)
  apart : ∀ i ∈ nuclei S p.state bg, ∀ j ∈ nuclei S p.state bg, i ≠ j → ¬ near i j

theorem pInvAny_start {S : Structure K d} (hS : S.Reachable) {bg : Val} (hbg : bg.WF) (ids : List Val) (near : ℕ → ℕ → Prop) :
    PInvAny S bg ids near ⟨blank S bg, 0, 0⟩ := by
  obtain ⟨h1, h2, h3, h4⟩ := pInv_start hS hbg ids near
  exact ⟨h1, h2, by rw [h3]; simp, h4⟩

/-- One round of the placement loop. -/
theorem placeRound_any {S : Structure K d} (hS : S.Reachable) (hne : S.sitesOf none ≠ []) {nbs : Option (ℕ → ℕ → List ℕ)} {near : ℕ → ℕ → Prop}
    (hnb : NbsOK S nbs near) {bg : Val} {ids : List Val} (hids : ∀ v ∈ ids, v.WF) {num : ℤ} (hlen : ids.length = num.toNat) (draw : ℕ → ℕ)
    {p : Place} (h : PInvAny S bg ids near p) (hlt : (p.planted : ℤ) < num) :
    ((p.attempts : ℤ) > 1000 * num ∧ placeRound (S.sitesOf none) nbs bg ids num draw p = .error .runtimeError) ∨
    ((p.attempts : ℤ) ≤ 1000 * num ∧ ∃ p', placeRound (S.sitesOf none) nbs bg ids num draw p = .ok p' ∧ PInvAny S bg ids near p' ∧
      p'.attempts = p.attempts + 1 ∧ p'.planted ≤ p.planted + 1) := by
  by_cases ha : (p.attempts : ℤ) > 1000 * num
  · exact .inl ⟨ha, by unfold placeRound; rw [if_pos ha]⟩
  refine .inr ⟨not_lt.1 ha, ?_⟩
  unfold placeRound
  rw [if_neg ha]
  obtain ⟨t, ht, hc⟩ := choice_mem hne (draw p.attempts)
  have hti : t.id ∈ S.siteIds := (mem_siteIds_iff hS).2 ⟨t, ht, rfl⟩
  rw [hc, ok_bind]
  obtain ⟨v, hv⟩ := occ_of_painted hS h.painted hti
  rw [occupancy_eq hv, ok_bind]
  by_cases hvb : v = bg
  swap
  · rw [if_pos hvb]
    exact ⟨_, rfl, ⟨h.painted, h.pc, h.nuc, h.apart⟩, rfl, Nat.le_succ _⟩
  rw [if_neg (by simp [hvb])]
  subst hvb
  have hfound : ∃ b : Bool, buffered nbs v p t.id = .ok b ∧
      (b = false → ∀ j ∈ nuclei S p.state v, j ≠ t.id → ¬ near t.id j) := by
    cases nbs with
    | none => exact ⟨false, rfl, fun _ j _ _ => hnb.2 _ _⟩
    | some nb =>
      obtain ⟨h1, h2⟩ := hnb.2 p.attempts t.id hti
      refine ⟨_, foldlM_found _ (fun j hj => occ_of_painted hS h.painted (h1 j hj).1) _, fun hb j hj hjt hn => ?_⟩
      simp only [Bool.false_or, List.any_eq_false] at hb
      have := List.mem_filter.1 hj
      exact hb j (h2 j this.1 hjt hn) this.2
  obtain ⟨b, hb, hb'⟩ := hfound
  rw [hb, ok_bind]
  cases b with
  | true => exact ⟨_, rfl, ⟨h.painted, h.pc, h.nuc, h.apart⟩, rfl, Nat.le_succ _⟩
  | false =>
    have hlt' : p.planted < ids.length := by omega
    have hg : ids[p.planted]? = some ids[p.planted] := List.getElem?_eq_getElem hlt'
    set spec := ids[p.planted] with hspec
    have hsw := hids spec (List.getElem_mem hlt')
    simp only [Bool.false_eq_true, if_false, hg]
    have hnd := nodup_siteIds hS
    have hocc : ∀ j : ℕ, occ? (setOcc p.state t.id spec) (.int j) = if j = t.id then some spec else occ? p.state (.int j) := by
      intro j
      rw [occ?_setOcc]
      by_cases e : j = t.id
      · simp [e]
      · have : ¬ (j : ℤ) = t.id := by exact_mod_cast e
        simp [e]
    have hpaint : ∃ f, Painted S (setOcc p.state t.id spec) f := by
      obtain ⟨f, hf⟩ := h.painted
      exact ⟨_, hf.set hS ht hsw⟩
    by_cases hsb : spec = v
    · have hsame : ∀ j : ℕ, occ? (setOcc p.state t.id spec) (.int j) = occ? p.state (.int j) := by
        intro j
        rw [hocc]
        split_ifs with e
        · rw [e, hv, hsb]
        · rfl
      have hnuc : nuclei S (setOcc p.state t.id spec) v = nuclei S p.state v := by
        unfold nuclei; simp only [hsame]
      refine ⟨_, rfl, ⟨hpaint, fun w hw => ?_, ?_, ?_⟩, rfl, le_rfl⟩
      · simp only
        rw [List.take_add_one, hg, Option.toList_some, List.count_append, ← h.pc w hw, List.count_singleton,
          if_neg (by rw [hsb]; simpa using fun e : v = w => hw e.symm), Nat.add_zero]
        unfold phaseCount; simp only [hsame]
      · simp only
        rw [hnuc, List.take_add_one, hg, Option.toList_some, List.countP_append, ← h.nuc]
        simp [hsb]
      · simp only
        rw [hnuc]
        exact h.apart
    have hmem : ∀ j, j ∈ nuclei S (setOcc p.state t.id spec) v ↔ j = t.id ∨ j ∈ nuclei S p.state v := by
      intro j
      unfold nuclei
      rw [List.mem_filter, List.mem_filter, hocc]
      by_cases e : j = t.id
      · subst e; simp [hti, hsb]
      · simp [e]
    refine ⟨_, rfl, ⟨hpaint, fun w hw => ?_, ?_, ?_⟩, rfl, le_rfl⟩
    · simp only
      rw [List.take_add_one, hg, Option.toList_some, List.count_append, ← h.pc w hw, List.count_singleton]
      by_cases e : spec = w
      · subst e
        rw [if_pos (by simp)]
        refine length_filter_succ hnd hti _ _ ?_ ?_ fun j hj => ?_
        · rw [hv]; simpa using fun e => hsb e.symm
        · rw [hocc]; simp
        · rw [hocc, if_neg hj]
      · rw [if_neg (by simpa using e), Nat.add_zero]
        unfold phaseCount
        congr 1
        refine List.filter_congr fun j _ => ?_
        rw [hocc]
        by_cases ej : j = t.id
        · subst ej
          rw [if_pos rfl, hv]
          have : ¬ v = w := fun x => hw x.symm
          simp [e, this]
        · rw [if_neg ej]
    · simp only
      rw [List.take_add_one, hg, Option.toList_some, List.countP_append, ← h.nuc, List.countP_singleton, if_pos (by simpa using hsb)]
      refine length_filter_succ hnd hti _ _ ?_ ?_ fun j hj => ?_
      · rw [hv]; simp
      · rw [hocc]; simpa using hsb
      · rw [hocc, if_neg hj]
    · simp only
      intro i hi j hj hij
      rw [hmem] at hi hj
      rcases hi with rfl | hi
      · rcases hj with rfl | hj
        · exact absurd rfl hij
        · exact hb' rfl j hj (Ne.symm hij)
      · rcases hj with rfl | hj
        · exact fun hn => hb' rfl i hi hij (hnb.1 _ _ hn)
        · exact h.apart i hi j hj hij

/-- The placement loop: when it ends normally everything is planted; the only exception is RuntimeError; and it ends within `1000 * num + 2` rounds. -/
theorem placeLoop_any {S : Structure K d} (hS : S.Reachable) (hne : S.sitesOf none ≠ []) {nbs : Option (ℕ → ℕ → List ℕ)} {near : ℕ → ℕ → Prop}
    (hnb : NbsOK S nbs near) {bg : Val} {ids : List Val} (hids : ∀ v ∈ ids, v.WF) {num : ℤ} (hlen : ids.length = num.toNat) (draw : ℕ → ℕ)
    (fuel : ℕ) {p : Place} (h : PInvAny S bg ids near p) (hle : p.planted ≤ num.toNat) :
    (∀ p', placeLoop (S.sitesOf none) nbs bg ids num draw fuel p = some (.ok p') → PInvAny S bg ids near p' ∧ p'.planted = num.toNat) ∧
    (∀ e, placeLoop (S.sitesOf none) nbs bg ids num draw fuel p = some (.error e) → e = .runtimeError) ∧
    ((p.attempts : ℤ) ≤ 1000 * num + 1 → 1000 * num + 2 ≤ fuel + p.attempts → placeLoop (S.sitesOf none) nbs bg ids num draw fuel p ≠ none) := by
  induction fuel generalizing p with
  | zero =>
    by_cases hlt : (p.planted : ℤ) < num
    · rw [placeLoop, if_pos hlt]
      refine ⟨by simp, by simp, fun ha hf => ?_⟩
      push_cast at hf
      omega
    · rw [placeLoop_done hlt]
      refine ⟨?_, by simp, by simp⟩
      intro p' e
      injection e with e; injection e with e; subst e
      exact ⟨h, by omega⟩
  | succ fuel ih =>
    by_cases hlt : (p.planted : ℤ) < num
    · rw [placeLoop, if_pos hlt]
      rcases placeRound_any hS hne hnb hids hlen draw h hlt with ⟨-, hr⟩ | ⟨ha, p1, hr, h1, h2, h3⟩
      · rw [hr]
        refine ⟨by simp, ?_, by simp⟩
        intro e he
        injection he with he; injection he with he; exact he.symm
      · rw [hr]
        obtain ⟨i1, i2, i3⟩ := ih h1 (by omega)
        exact ⟨i1, i2, fun _ hf => i3 (by rw [h2]; push_cast; omega) (by rw [h2]; push_cast at hf ⊢; omega)⟩
    · rw [placeLoop_done hlt]
      refine ⟨?_, by simp, by simp⟩
      intro p' e
      injection e with e; injection e with e; subst e
      exact ⟨h, by omega⟩

/-! ### the calls -/

/-- The parts of a call, for any reachable structure of the right shape. -/
theorem randomSitesAny_parts {G : GridSetup K d} (hG : StdSetup d G) (n : ℤ) (hn : 0 < n) (num : K) (bg : Val) (nucAmts : Dict Val K)
    (buffer : Option ℤ) (order : ℕ → List ℕ → List ℕ) (hord : ∀ t l, (order t l).Perm l) :
    ∃ S nbs, G.builder (.int n) = .ok S ∧ SquareGrid d (fun _ => n) S ∧ S.sitesOf none ≠ [] ∧ NbsOK S nbs (nearBy S n buffer) ∧ ∀ draw fuel,
      G.randomSitesAny (.int n) num bg nucAmts buffer order draw fuel = plantSitesAny S nbs (roundHalfEven num) bg nucAmts draw fuel := by
  obtain ⟨S, hb, hsq, -⟩ := setup_builds hG hn
  have hT := hsq.isTorus
  cases buffer with
  | none =>
    refine ⟨S, none, hb, hsq, hT.sites_ne, nbsOK_none hn, fun draw fuel => ?_⟩
    unfold GridSetup.randomSitesAny
    rw [hb]
  | some r =>
    obtain ⟨g, hg, -⟩ := C53_moore hsq r
    refine ⟨S, some fun t i => order t (g.neighborsOf i), hb, hsq, hT.sites_ne, nbsOK_moore hn hT hg hord, fun draw fuel => ?_⟩
    unfold GridSetup.randomSitesAny
    rw [hb]
    simp only [hg]
    rfl

/-- C140: for amounts that do not add up to 0 (numpy then divides without nan or infinities), the call is the one of the properties C67, C68 and C127. -/
theorem C140_same (G : GridSetup K d) (size : SizeArg) (num : K) (bg : Val) (nucAmts : Dict Val K) (hw : Dict.WF nucAmts)
    (hsum : (nucAmts.map Prod.snd).sum ≠ 0) (buffer : Option ℤ) (order : ℕ → List ℕ → List ℕ) (draw : ℕ → ℕ) (fuel : ℕ) :
    G.randomSitesAny size num bg nucAmts buffer order draw fuel = G.randomSites size num bg nucAmts buffer order draw fuel := by
  have hround : ∀ (num : ℤ) q, quotaRoundAny (Dict.keys nucAmts) (idealSitesAny nucAmts num) q = quotaRound (Dict.keys nucAmts) (idealSites nucAmts num) q := by
    intro num q
    unfold quotaRoundAny quotaRound
    cases (Dict.keys nucAmts)[q.calls % (Dict.keys nucAmts).length]? with
    | none => rfl
    | some p =>
      simp only [get?_idealSitesAny hw, get?_idealSites hw]
      cases Dict.get? nucAmts p with
      | none => cases Dict.get? q.real p <;> rfl
      | some a =>
        cases Dict.get? q.real p with
        | none => rfl
        | some r =>
          simp only [Option.map_some]
          have hd : Ext.div a (Dict.values nucAmts).sum = .fin (a / (Dict.values nucAmts).sum) := if_neg hsum
          rw [hd]
          by_cases hc : (r : K) < share nucAmts num a
          · have hc' : ((Ext.fin (a / (Dict.values nucAmts).sum)).mulInt num).above r := hc
            rw [if_pos hc, if_pos hc']
          · have hc' : ¬ ((Ext.fin (a / (Dict.values nucAmts).sum)).mulInt num).above r := hc
            rw [if_neg hc, if_neg hc']
  have hloop : ∀ (num : ℤ) fuel q, quotaLoopAny (Dict.keys nucAmts) (idealSitesAny nucAmts num) num fuel q =
      quotaLoop (Dict.keys nucAmts) (idealSites nucAmts num) num fuel q := by
    intro num fuel
    induction fuel with
    | zero => intro q; rfl
    | succ fuel ih =>
      intro q
      unfold quotaLoopAny quotaLoop
      rw [hround]
      split_ifs
      · cases quotaRound (Dict.keys nucAmts) (idealSites nucAmts num) q with
        | error e => rfl
        | ok q' => exact ih q'
      · rfl
  have hplant : ∀ (S : Structure K d) nbs (num : ℤ), plantSitesAny S nbs num bg nucAmts draw fuel =
      plantSites S nbs num bg nucAmts (idealSites nucAmts num) draw fuel := by
    intro S nbs num
    unfold plantSitesAny plantSites
    rw [hloop]
    rfl
  unfold randomSitesAny randomSites
  cases G.builder size with
  | error e => rfl
  | ok S =>
    simp only [hplant]
    cases buffer <;> rfl

section
variable {S : Structure K d} {nbs : Option (ℕ → ℕ → List ℕ)} {near : ℕ → ℕ → Prop} {num : ℤ} {bg : Val} {nucAmts : Dict Val K}

theorem hasQuotasAny (hw : Dict.WF nucAmts) (num : ℤ) : ∀ p ∈ Dict.keys nucAmts, ∃ x, Dict.get? (idealSitesAny nucAmts num) p = some x := by
  intro p hp
  obtain ⟨v, hv⟩ := Option.isSome_iff_exists.1 (Dict.get?_isSome_iff.2 hp)
  exact ⟨_, by rw [get?_idealSitesAny hw, hv]; rfl⟩

/-- What is known when both loops have ended. -/
theorem plantSitesAny_ok (hS : S.Reachable) (hne : S.sitesOf none ≠ []) (hnb : NbsOK S nbs near)
    (hbgw : bg.WF) (hw : Dict.WF nucAmts) (hph : ∀ p ∈ Dict.keys nucAmts, p.WF) (hnn : nucAmts ≠ []) {draw : ℕ → ℕ} {fuel : ℕ}
    {sim : Simulation K d} (h : plantSitesAny S nbs num bg nucAmts draw fuel = some (.ok sim)) :
    sim.struct = S ∧ ∃ q p, TInv (Dict.keys nucAmts) (idealSitesAny nucAmts num) q ∧ q.ids.length = num.toNat ∧
      PInvAny S bg q.ids near p ∧ p.planted = num.toNat ∧ p.state = sim.state := by
  have hkn : Dict.keys nucAmts ≠ [] := by simpa [Dict.keys] using hnn
  unfold plantSitesAny at h
  rcases quotaLoopAny_spec (hasQuotasAny hw num) hw hkn (num := num) fuel (tInv_start hw _) (by simp) with ⟨q, hq, hqi, hql⟩ | ⟨hq, -⟩
  · rw [hq] at h
    simp only at h
    cases hp : placeLoop (S.sitesOf none) nbs bg q.ids num draw fuel ⟨blank S bg, 0, 0⟩ with
    | none => rw [hp] at h; cases h
    | some r =>
      rw [hp] at h
      cases r with
      | error e => cases h
      | ok p =>
        injection h with h; injection h with h; subst h
        obtain ⟨h1, h2⟩ := (placeLoop_any hS hne hnb (fun v hv => hph v (hqi.mem v hv)) hql draw fuel (pInvAny_start hS hbgw _ _) (by simp)).1 p hp
        exact ⟨rfl, q, p, hqi, hql, h1, h2, rfl⟩
  · rw [hq] at h; cases h

end

/-- C140: what the phases get.  There are numbers `got`, one for every phase, that add up to the number of sites wanted: the phases take turns, each takes one site per turn
while it is below its limit.  Every phase other than the background has that many sites; the others are background. -/
theorem C140_in_turn {G : GridSetup K d} (hG : StdSetup d G) (n : ℤ) (hn : 0 < n) (num : K) (m : ℤ) (hm : NearestEven num m) (hpos : 0 < m) (bg : Val) (hbgw : bg.WF)
    (nucAmts : Dict Val K) (hw : Dict.WF nucAmts) (hne : nucAmts ≠ []) (hph : ∀ p ∈ Dict.keys nucAmts, p.WF) (buffer : Option ℤ)
    (order : ℕ → List ℕ → List ℕ) (hord : ∀ t l, (order t l).Perm l) (draw : ℕ → ℕ) (fuel : ℕ) (sim : Simulation K d)
    (h : G.randomSitesAny (.int n) num bg nucAmts buffer order draw fuel = some (.ok sim)) :
    ∃ (got : List ℕ) (rounds last : ℕ), got.sum = m.toNat ∧ InTurn (nucAmts.map fun pa => limit (nucAmts.map Prod.snd).sum m pa.2) got rounds last ∧
      (∀ (j : ℕ) p a g, nucAmts[j]? = some (p, a) → got[j]? = some g → p ≠ bg → phaseCount sim.struct sim.state p = g) ∧
      (∀ i ∈ sim.struct.siteIds, ∃ v, occ? sim.state (.int i) = some v ∧ (v = bg ∨ v ∈ Dict.keys nucAmts)) ∧
      StartState sim.struct sim.state ∧ SquareGrid d (fun _ => n) sim.struct ∧
      ∀ r, buffer = some r → ∀ i ∈ nuclei sim.struct sim.state bg, ∀ j ∈ nuclei sim.struct sim.state bg, i ≠ j →
        ∀ a b, SiteHas sim.struct i a → SiteHas sim.struct j b → ¬ ChebyshevLE (fun _ => n) a b r := by
  rw [nearestEven_iff] at hm
  subst hm
  obtain ⟨S, nbs, -, hsq, hne', hnb, heq⟩ := randomSitesAny_parts hG n hn num bg nucAmts buffer order hord
  rw [heq] at h
  have hS := hsq.isTorus.reachable
  obtain ⟨rfl, q, p, hq, hql, hp, hpl, hst⟩ := plantSitesAny_ok hS hne' hnb hbgw hw hph hne h
  have htake : q.ids.take p.planted = q.ids := List.take_of_length_le (by omega)
  have hcount : ∀ (j : ℕ) p a, nucAmts[j]? = some (p, a) → (q.ids.count p : ℕ∞) =
      min (limit (nucAmts.map Prod.snd).sum (roundHalfEven num) a) (turns nucAmts.length q.calls j : ℕ) := by
    intro j p a hj
    have hmem := List.mem_of_getElem? hj
    have := hq.count j p _ (by rw [Dict.keys, List.getElem?_map, hj]; rfl) (by rw [get?_idealSitesAny hw, Dict.get?_of_mem hw hmem]; rfl)
    rw [this, capOf_ideal _ _ hpos, Dict.keys, List.length_map]
    rfl
  refine ⟨(Dict.keys nucAmts).map fun p => q.ids.count p, q.calls / nucAmts.length, q.calls % nucAmts.length, ?_, ⟨by simp [Dict.keys], ?_⟩, ?_, ?_, ?_, hsq, ?_⟩
  · rw [sum_count hw hq.mem, hql]
  · intro j l g hl hg
    rw [List.getElem?_map] at hl
    rw [Dict.keys, List.map_map, List.getElem?_map] at hg
    cases hj : nucAmts[j]? with
    | none => rw [hj] at hl; cases hl
    | some pa =>
      rw [hj] at hl hg
      simp only [Option.map_some, Option.some.injEq, Function.comp] at hl hg
      subst hl hg
      exact hcount j pa.1 pa.2 hj
  · intro j p' a g hj hg hpb
    rw [Dict.keys, List.map_map, List.getElem?_map, hj] at hg
    simp only [Option.map_some, Option.some.injEq, Function.comp] at hg
    rw [← hg, ← hst, hp.pc p' hpb, htake]
  · intro i hi
    obtain ⟨v, hv⟩ := occ_of_painted hS hp.painted hi
    refine ⟨v, hst ▸ hv, ?_⟩
    by_cases hvb : v = bg
    · exact .inl hvb
    · right
      have hc : 0 < phaseCount sim.struct p.state v := by
        refine List.length_pos_of_mem (a := i) ?_
        rw [List.mem_filter]
        exact ⟨hi, by simpa using hv⟩
      rw [hp.pc v hvb, htake] at hc
      exact hq.mem v (List.count_pos_iff.1 hc)
  · obtain ⟨f, hf⟩ := hp.painted
    rw [← hst]
    exact hf.startState hS
  · intro r hr i hi j hj hij a b ha hb hle
    rw [← hst] at hi hj
    exact hp.apart i hi j hj hij ⟨r, hr, a, b, ha, hb, hle⟩

/-- C140: which calls return.  Without sites to plant the call returns the background at once, whatever the amounts; without phases it raises StopIteration; with amounts that
add up to 0 and none of which is positive it never returns; otherwise it returns or raises RuntimeError, after at most (number of sites) x (number of phases) rounds of
its first and `1000 m + 2` rounds of its second loop. -/
theorem C140_returns {G : GridSetup K d} (hG : StdSetup d G) (n : ℤ) (hn : 0 < n) (num : K) (m : ℤ) (hm : NearestEven num m) (bg : Val) (hbgw : bg.WF)
    (nucAmts : Dict Val K) (hw : Dict.WF nucAmts) (hph : ∀ p ∈ Dict.keys nucAmts, p.WF) (buffer : Option ℤ)
    (order : ℕ → List ℕ → List ℕ) (hord : ∀ t l, (order t l).Perm l) (draw : ℕ → ℕ) :
    (m ≤ 0 → ∃ S, G.builder (.int n) = .ok S ∧ ∃ s, (∀ fuel, G.randomSitesAny (.int n) num bg nucAmts buffer order draw fuel = some (.ok ⟨s, S⟩)) ∧
      ∀ i ∈ S.siteIds, occ? s (.int i) = some bg) ∧
    (0 < m → nucAmts = [] → ∀ fuel, 0 < fuel → G.randomSitesAny (.int n) num bg nucAmts buffer order draw fuel = some (.error .stopIteration)) ∧
    (0 < m → nucAmts ≠ [] → (nucAmts.map Prod.snd).sum = 0 → (∀ pa ∈ nucAmts, pa.2 ≤ 0) → ∀ fuel,
      G.randomSitesAny (.int n) num bg nucAmts buffer order draw fuel = none) ∧
    (0 < m → nucAmts ≠ [] → ((nucAmts.map Prod.snd).sum ≠ 0 ∨ ∃ pa ∈ nucAmts, 0 < pa.2) → ∀ fuel : ℕ, m.toNat * nucAmts.length ≤ fuel → 1000 * m + 2 ≤ fuel →
      (∃ sim, G.randomSitesAny (.int n) num bg nucAmts buffer order draw fuel = some (.ok sim)) ∨
        G.randomSitesAny (.int n) num bg nucAmts buffer order draw fuel = some (.error .runtimeError)) := by
  rw [nearestEven_iff] at hm
  subst hm
  obtain ⟨S, nbs, hb, hsq, hne', hnb, heq⟩ := randomSitesAny_parts hG n hn num bg nucAmts buffer order hord
  have hS := hsq.isTorus.reachable
  set m := roundHalfEven num with hmdef
  have hcap : 0 < m → ∀ (q : Quota), TInv (Dict.keys nucAmts) (idealSitesAny nucAmts m) q → ∀ (j : ℕ) p a, nucAmts[j]? = some (p, a) → (q.ids.count p : ℕ∞) =
      min (limit (nucAmts.map Prod.snd).sum m a) (turns nucAmts.length q.calls j : ℕ) := by
    intro hpos q hq j p a hj
    have hmem := List.mem_of_getElem? hj
    have := hq.count j p _ (by rw [Dict.keys, List.getElem?_map, hj]; rfl) (by rw [get?_idealSitesAny hw, Dict.get?_of_mem hw hmem]; rfl)
    rw [this, capOf_ideal _ _ hpos, Dict.keys, List.length_map]
    rfl
  refine ⟨fun h0 => ?_, fun h0 hnil fuel hf => ?_, fun h0 hnn hz hle fuel => ?_, fun h0 hnn hor fuel h1 h2 => ?_⟩
  · refine ⟨S, hb, blank S bg, fun fuel => ?_, fun i hi => ?_⟩
    · rw [heq]
      unfold plantSitesAny
      have e : quotaLoopAny (Dict.keys nucAmts) (idealSitesAny nucAmts m) m fuel ⟨[], zeroSites nucAmts, 0⟩ = some (.ok ⟨[], zeroSites nucAmts, 0⟩) := by
        have : ¬ ((([] : List Val).length : ℕ) : ℤ) < m := by simpa using h0
        cases fuel <;> simp only [quotaLoopAny, if_neg this]
      rw [e]
      simp only
      rw [placeLoop_done (by simpa using h0)]
    · obtain ⟨t, ht, rfl⟩ := (mem_siteIds_iff hS).1 hi
      exact (painted_blank hS hbgw).occ t ht
  · subst hnil
    obtain ⟨f, rfl⟩ : ∃ f, fuel = f + 1 := ⟨fuel - 1, by omega⟩
    rw [heq]
    unfold plantSitesAny quotaLoopAny
    rw [if_pos (by simpa using h0)]
    rfl
  · have hkn : Dict.keys nucAmts ≠ [] := by simpa [Dict.keys] using hnn
    rw [heq]
    unfold plantSitesAny
    rcases quotaLoopAny_spec (hasQuotasAny hw m) hw hkn (num := m) fuel (tInv_start hw _) (by simp) with ⟨q, hq, hqi, hql⟩ | ⟨hq, -⟩
    · exfalso
      have : q.ids = [] := by
        rw [List.eq_nil_iff_forall_not_mem]
        intro p hp
        have hpk := hqi.mem p hp
        obtain ⟨j, hj⟩ := List.mem_iff_getElem?.1 hpk
        rw [Dict.keys, List.getElem?_map] at hj
        cases hja : nucAmts[j]? with
        | none => rw [hja] at hj; cases hj
        | some pa =>
          rw [hja] at hj; injection hj with hj
          have h3 := hcap h0 q hqi j pa.1 pa.2 hja
          rw [limit, if_pos hz, if_neg (not_lt.2 (hle pa (List.mem_of_getElem? hja)))] at h3
          simp only [zero_le, inf_of_le_left, Nat.cast_eq_zero] at h3
          rw [hj, List.count_eq_zero] at h3
          exact h3 hp
      rw [this] at hql
      simp at hql
      omega
    · rw [hq]
  · have hkn : Dict.keys nucAmts ≠ [] := by simpa [Dict.keys] using hnn
    have hkl : (Dict.keys nucAmts).length = nucAmts.length := by simp [Dict.keys]
    rw [heq]
    unfold plantSitesAny
    rcases quotaLoopAny_spec (hasQuotasAny hw m) hw hkn (num := m) fuel (tInv_start hw _) (by simp) with ⟨q, hq, hqi, hql⟩ | ⟨hq, q, hqi, hqc, hql⟩
    · rw [hq]
      obtain ⟨-, i2, i3⟩ := placeLoop_any hS hne' hnb (fun v hv => hph v (hqi.mem v hv)) hql draw fuel (pInvAny_start hS hbgw _ _) (by simp)
      simp only
      cases hp : placeLoop (S.sitesOf none) nbs bg q.ids m draw fuel ⟨blank S bg, 0, 0⟩ with
      | none => exact absurd hp (i3 (by push_cast; omega) (by push_cast; omega))
      | some r =>
        cases r with
        | error e => right; rw [i2 e hp]
        | ok p => left; exact ⟨_, rfl⟩
    · exfalso
      have hlen : 0 < nucAmts.length := List.length_pos_iff.2 hnn
      have hturn : ∀ j, m.toNat ≤ turns nucAmts.length q.calls j := by
        intro j
        unfold turns
        have : m.toNat ≤ q.calls / nucAmts.length := by
          rw [Nat.le_div_iff_mul_le hlen, hqc]
          simpa using h1
        omega
      have hsmall : ∀ p, (q.ids.count p : ℤ) < m := fun p => lt_of_le_of_lt (by exact_mod_cast List.count_le_length) hql
      -- every phase is at its limit
      have hat : ∀ (j : ℕ) p a, nucAmts[j]? = some (p, a) → (q.ids.count p : ℕ∞) = limit (nucAmts.map Prod.snd).sum m a := by
        intro j p a hj
        have h3 := hcap h0 q hqi j p a hj
        rcases min_choice (limit (nucAmts.map Prod.snd).sum m a) (turns nucAmts.length q.calls j : ℕ) with h4 | h4
        · rw [h3, h4]
        · rw [h4] at h3
          have h5 : q.ids.count p = turns nucAmts.length q.calls j := by exact_mod_cast h3
          have h6 := hturn j
          have h7 := hsmall p
          omega
      by_cases hz : (nucAmts.map Prod.snd).sum = 0
      · rcases hor with hor | ⟨pa, hpa, hp0⟩
        · exact hor hz
        · obtain ⟨j, hj⟩ := List.mem_iff_getElem?.1 hpa
          have h3 := hat j pa.1 pa.2 hj
          rw [limit, if_pos hz, if_pos hp0] at h3
          exact ENat.natCast_ne_top _ h3
      · have h3 : ((Dict.values nucAmts).map (share nucAmts m)).sum ≤ (((Dict.keys nucAmts).map fun p => q.ids.count p).sum : ℕ) := by
          rw [Dict.values, Dict.keys, List.map_map, List.map_map, Nat.cast_list_sum, List.map_map]
          refine List.sum_le_sum fun pa hpa => ?_
          obtain ⟨j, hj⟩ := List.mem_iff_getElem?.1 hpa
          have h4 := hat j pa.1 pa.2 hj
          rw [limit, if_neg hz] at h4
          have h5 : q.ids.count pa.1 = ⌈pa.2 / (nucAmts.map Prod.snd).sum * m⌉.toNat := by exact_mod_cast h4
          simp only [Function.comp]
          rw [h5]
          refine le_trans (Int.le_ceil _) ?_
          show ((⌈pa.2 / (nucAmts.map Prod.snd).sum * m⌉ : ℤ) : K) ≤ ((⌈pa.2 / (nucAmts.map Prod.snd).sum * m⌉.toNat : ℕ) : K)
          have := Int.self_le_toNat ⌈pa.2 / (nucAmts.map Prod.snd).sum * m⌉
          exact_mod_cast this
        rw [sum_share m hz, sum_count hw hqi.mem] at h3
        have h4 : (m : K) ≤ ((q.ids.length : ℤ) : K) := by exact_mod_cast h3
        have := Int.cast_le.1 h4
        omega

/-- C140: with positive amounts every phase gets less than one site more than its share, and at most (number of phases - 1) sites less. -/
theorem C140_close {G : GridSetup K d} (hG : StdSetup d G) (n : ℤ) (hn : 0 < n) (num : K) (m : ℤ) (hm : NearestEven num m) (hm0 : 0 ≤ m) (bg : Val) (hbgw : bg.WF)
    (nucAmts : Dict Val K) (hw : Dict.WF nucAmts) (hph : ∀ p ∈ Dict.keys nucAmts, p.WF) (hbg : bg ∉ Dict.keys nucAmts)
    (hpos : ∀ pa ∈ nucAmts, 0 < pa.2) (hne : nucAmts ≠ []) (buffer : Option ℤ)
    (order : ℕ → List ℕ → List ℕ) (hord : ∀ t l, (order t l).Perm l) (draw : ℕ → ℕ) (fuel : ℕ) (sim : Simulation K d)
    (h : G.randomSitesAny (.int n) num bg nucAmts buffer order draw fuel = some (.ok sim)) :
    ∀ p a, (p, a) ∈ nucAmts → (phaseCount sim.struct sim.state p : K) < a / (nucAmts.map Prod.snd).sum * m + 1 ∧
      a / (nucAmts.map Prod.snd).sum * m - (nucAmts.length - 1) ≤ (phaseCount sim.struct sim.state p : K) := by
  have hsum : 0 < (nucAmts.map Prod.snd).sum := by
    refine List.sum_pos _ (fun a ha => ?_) (by simpa using hne)
    obtain ⟨pa, hpa, rfl⟩ := List.mem_map.1 ha
    exact hpos pa hpa
  rw [C140_same G _ num bg nucAmts hw hsum.ne'] at h
  obtain ⟨h1, h2, -⟩ := C68_quotas hG n hn num m hm bg hbgw nucAmts hw hph hbg hpos buffer order hord draw fuel sim h
  have hmt : ((m.toNat : ℕ) : K) = m := by
    have : ((m.toNat : ℕ) : ℤ) = m := Int.toNat_of_nonneg hm0
    exact_mod_cast congrArg (Int.cast (R := K)) this
  have hup : ∀ pa ∈ nucAmts, (phaseCount sim.struct sim.state pa.1 : K) < pa.2 / (nucAmts.map Prod.snd).sum * m + 1 := by
    intro pa hpa
    have h3 := h2 pa.1 pa.2 hpa
    rw [hmt] at h3
    have h4 : (((phaseCount sim.struct sim.state pa.1 : ℕ) : ℤ) : K) ≤ ((⌈pa.2 / (nucAmts.map Prod.snd).sum * m⌉ : ℤ) : K) := Int.cast_le.2 h3
    have h5 := Int.ceil_lt_add_one (pa.2 / (nucAmts.map Prod.snd).sum * m)
    exact lt_of_le_of_lt (by exact_mod_cast h4) h5
  intro p a hpa
  refine ⟨hup (p, a) hpa, ?_⟩
  have key : (nucAmts.map fun pa => pa.2 / (nucAmts.map Prod.snd).sum * (m : K) + 1 - (phaseCount sim.struct sim.state pa.1 : K)).sum = nucAmts.length := by
    have e1 : (nucAmts.map fun pa => pa.2 / (nucAmts.map Prod.snd).sum * (m : K)).sum = m := by
      have := sum_share (nucAmts := nucAmts) m hsum.ne'
      rwa [Dict.values, List.map_map] at this
    have e2 : (nucAmts.map fun pa => (phaseCount sim.struct sim.state pa.1 : K)).sum = m := by
      rw [← hmt, ← h1, Nat.cast_list_sum, Dict.keys, List.map_map, List.map_map]
      rfl
    have e3 : ∀ l : List (Val × K), (l.map fun pa => pa.2 / (nucAmts.map Prod.snd).sum * (m : K) + 1 - (phaseCount sim.struct sim.state pa.1 : K)).sum =
        (l.map fun pa => pa.2 / (nucAmts.map Prod.snd).sum * (m : K)).sum + l.length - (l.map fun pa => (phaseCount sim.struct sim.state pa.1 : K)).sum := by
      intro l
      induction l with
      | nil => simp
      | cons a l ih => simp only [List.map_cons, List.sum_cons, List.length_cons, ih]; push_cast; ring
    rw [e3, e1, e2]; ring
  have hle := List.single_le_sum (l := nucAmts.map fun pa => pa.2 / (nucAmts.map Prod.snd).sum * (m : K) + 1 - (phaseCount sim.struct sim.state pa.1 : K))
    (fun x hx => by
      obtain ⟨pa, hpa, rfl⟩ := List.mem_map.1 hx
      exact (sub_pos.2 (hup pa hpa)).le) _ (List.mem_map.2 ⟨(p, a), hpa, rfl⟩)
  rw [key] at hle
  simp only at hle
  linarith

theorem natMin {a k x : ℕ} (h : (a : ℕ∞) = min (k : ℕ∞) (x : ℕ∞)) : a = min k x := by
  rcases le_total k x with hk | hk
  · rw [min_eq_left (by exact_mod_cast hk)] at h
    rw [min_eq_left hk]; exact_mod_cast h
  · rw [min_eq_right (by exact_mod_cast hk)] at h
    rw [min_eq_right hk]; exact_mod_cast h

/-- C140: so a phase can miss its share by more than one site.  Of 10 sites shared 1 : 1 : 98 the third phase gets 8 (its share is 9.8), and such calls do return. -/
theorem C140_off : ∃ (draw : ℕ → ℕ) (fuel : ℕ) (sim : Simulation ℚ 2),
    gridSetup2.randomSitesAny (.int 7) 10 (.str "bg") [(.str "A", 1), (.str "B", 1), (.str "C", 98)] none (fun _ l => l) draw fuel = some (.ok sim) ∧
      phaseCount sim.struct sim.state (.str "C") = 8 := by
  have hm : NearestEven (10 : ℚ) 10 := by left; norm_num
  have hw : Dict.WF [(Val.str "A", (1 : ℚ)), (.str "B", 1), (.str "C", 98)] := by simp [Dict.WF, Dict.keys]
  have hph : ∀ p ∈ Dict.keys [(Val.str "A", (1 : ℚ)), (.str "B", 1), (.str "C", 98)], p.WF := by
    intro p hp
    simp [Dict.keys] at hp
    rcases hp with rfl | rfl | rfl <;> exact .str _
  have hbg : Val.str "bg" ∉ Dict.keys [(Val.str "A", (1 : ℚ)), (.str "B", 1), (.str "C", 98)] := by simp [Dict.keys]
  obtain ⟨draw, fuel, sim, h, -⟩ := C67_reachable (K := ℚ) .two 7 (by norm_num) 10 10 hm (.str "bg") (.str _) _ hw hph hbg (by norm_num) none
    (fun _ l => l) (fun _ _ => .refl _) [![0, 0], ![0, 1], ![0, 2], ![0, 3], ![0, 4], ![1, 0], ![1, 1], ![1, 2], ![1, 3], ![1, 4]] (by decide) rfl
    (by
      intro c hc j
      simp only [List.mem_cons, List.not_mem_nil, or_false] at hc
      rcases hc with rfl | rfl | rfl | rfl | rfl | rfl | rfl | rfl | rfl | rfl <;> fin_cases j <;> simp)
    (by intro r hr; cases hr)
  rw [← C140_same gridSetup2 _ 10 _ _ hw (by norm_num)] at h
  refine ⟨draw, fuel, sim, h, ?_⟩
  obtain ⟨got, rounds, last, h1, ⟨h2, h3⟩, h4, -⟩ := C140_in_turn (K := ℚ) .two 7 (by norm_num) 10 10 hm (by norm_num) (.str "bg") (.str _) _ hw (by simp) hph none
    (fun _ l => l) (fun _ _ => .refl _) draw fuel sim h
  have e1 : limit (List.map Prod.snd [(Val.str "A", (1 : ℚ)), (.str "B", 1), (.str "C", 98)]).sum 10 1 = 1 := by
    rw [limit, if_neg (by norm_num)]
    norm_num [show ⌈(1 / 10 : ℚ)⌉ = 1 by rw [Int.ceil_eq_iff]; norm_num]
  have e2 : limit (List.map Prod.snd [(Val.str "A", (1 : ℚ)), (.str "B", 1), (.str "C", 98)]).sum 10 98 = 10 := by
    rw [limit, if_neg (by norm_num)]
    norm_num [show ⌈(49 / 5 : ℚ)⌉ = 10 by rw [Int.ceil_eq_iff]; norm_num]
    rfl
  obtain ⟨a, b, c, rfl⟩ : ∃ a b c, got = [a, b, c] := by
    match got, h2 with
    | [a, b, c], _ => exact ⟨a, b, c, rfl⟩
  have ha := h3 0 _ a rfl rfl
  have hb := h3 1 _ b rfl rfl
  have hc := h3 2 _ c rfl rfl
  simp only [e1] at ha hb
  simp only [e2] at hc
  rw [h4 2 (.str "C") 98 c rfl rfl (by simp)]
  have ha' : a = min 1 (rounds + if 0 < last then 1 else 0) := natMin (k := 1) ha
  have hb' : b = min 1 (rounds + if 1 < last then 1 else 0) := natMin (k := 1) hb
  have hc' : c = min 10 (rounds + if 2 < last then 1 else 0) := natMin (k := 10) hc
  simp only [List.sum_cons, List.sum_nil] at h1
  have h5 : (10 : ℤ).toNat = 10 := rfl
  split_ifs at ha' hb' hc' <;> omega

/-- A call with amounts that add up to 0 and a positive one among them: it returns or raises RuntimeError, and on return the positive phases share the sites evenly. -/
example (draw : ℕ → ℕ) (sim : Simulation ℚ 2)
    (h : gridSetup2.randomSitesAny (.int 7) 4 (.str "bg") [(.str "A", 1), (.str "B", -2), (.str "C", 1)] none (fun _ l => l) draw 5000 = some (.ok sim)) :
    phaseCount sim.struct sim.state (.str "B") = 0 := by
  have hm : NearestEven (4 : ℚ) 4 := by left; norm_num
  have hw : Dict.WF [(Val.str "A", (1 : ℚ)), (.str "B", -2), (.str "C", 1)] := by simp [Dict.WF, Dict.keys]
  have hph : ∀ p ∈ Dict.keys [(Val.str "A", (1 : ℚ)), (.str "B", -2), (.str "C", 1)], p.WF := by
    intro p hp
    simp [Dict.keys] at hp
    rcases hp with rfl | rfl | rfl <;> exact .str _
  obtain ⟨got, rounds, last, h1, ⟨h2, h3⟩, h4, -⟩ := C140_in_turn (K := ℚ) .two 7 (by norm_num) 4 4 hm (by norm_num) (.str "bg") (.str _) _ hw (by simp) hph none
    (fun _ l => l) (fun _ _ => .refl _) draw 5000 sim h
  obtain ⟨a, b, c, rfl⟩ : ∃ a b c, got = [a, b, c] := by
    match got, h2 with
    | [a, b, c], _ => exact ⟨a, b, c, rfl⟩
  have hb := h3 1 _ b rfl rfl
  simp only [limit] at hb
  rw [if_pos (by norm_num), if_neg (by norm_num)] at hb
  rw [h4 1 (.str "B") (-2) b rfl rfl (by simp)]
  simpa using hb

end Pyl
