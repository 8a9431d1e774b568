import Verif.Lemmas.RandomSites
import Verif.Props.GridSetup
import Verif.Props.SquareGrid
/-
C67, C68: randomly placed sites.
-/
set_option autoImplicit false
set_option linter.unusedSectionVars false

namespace Pyl
open Pyl.Lattice Structure SimState Spec GridSetup
variable {K : Type} [Field K] [LinearOrder K] [IsStrictOrderedRing K] [FloorRing K] {d : ℕ}

/-! ### the placement loop -/

/-- Changing a predicate at one element from false to true makes one more element satisfy it. -/
theorem length_filter_succ {l : List ℕ} (hl : l.Nodup) {i : ℕ} (hi : i ∈ l) (P Q : ℕ → Bool) (h1 : P i = false) (h2 : Q i = true)
    (h : ∀ j, j ≠ i → Q j = P j) : (l.filter Q).length = (l.filter P).length + 1 := by
  induction l with
  | nil => simp at hi
  | cons a l ih =>
    rw [List.nodup_cons] at hl
    by_cases e : a = i
    · subst e
      rw [List.filter_cons_of_pos h2, List.filter_cons_of_neg (by rw [h1]; simp), List.length_cons]
      congr 2
      exact List.filter_congr fun j hj => h j (by rintro rfl; exact hl.1 hj)
    · have hi' : i ∈ l := by simpa [Ne.symm e] using hi
      rw [List.filter_cons, List.filter_cons, h a e]
      split_ifs
      · rw [List.length_cons, List.length_cons, ih hl.2 hi']
      · exact ih hl.2 hi'

/-- What the loop over the neighbours finds out. -/
theorem foldlM_found {s : SimState} {bg : Val} (l : List ℕ) (h : ∀ j ∈ l, ∃ v, occ? s (.int j) = some v) (b : Bool) :
    l.foldlM (m := Except Err) (fun (found : Bool) (j : ℕ) => do
      let o ← occupancy s (.int j)
      pure (if o ≠ bg then true else found)) b = .ok (b || l.any fun j => decide (occ? s (.int j) ≠ some bg)) := by
  induction l generalizing b with
  | nil => simp [pure, Except.pure]
  | cons j l ih =>
    obtain ⟨v, hv⟩ := h j (by simp)
    have ho : occupancy s (.int j) = .ok v := occupancy_eq hv
    rw [List.foldlM_cons, ho]
    simp only [pure, Except.pure, ok_bind]
    have := ih (fun j hj => h j (by simp [hj])) (if v ≠ bg then true else b)
    simp only [pure, Except.pure] at this
    rw [this, List.any_cons, hv]
    by_cases e : v = bg <;> simp [e]

/-- What the placement loop needs to know about the neighbours: they are sites, and every other site that is near is one of them. -/
def NbsOK (S : Structure K d) (nbs : Option (ℕ → ℕ → List ℕ)) (near : ℕ → ℕ → Prop) : Prop :=
  (∀ i j, near i j → near j i) ∧
  match nbs with
  | none => ∀ i j, ¬ near i j
  | some nb => ∀ t i, i ∈ S.siteIds → (∀ j ∈ nb t i, j ∈ S.siteIds ∧ j ≠ i ∧ near i j) ∧ ∀ j ∈ S.siteIds, j ≠ i → near i j → j ∈ nb t i

/-- What the placement loop keeps. -/
structure PInv (S : Structure K d) (bg : Val) (ids : List Val) (near : ℕ → ℕ → Prop) (p : Place) : Prop where
  painted : ∃ f, Painted S p.state f
  pc : ∀ v, v ≠ bg → phaseCount S p.state v = (ids.take p.planted).count v
  nuc : (nuclei S p.state bg).length = p.planted
  apart : ∀ i ∈ nuclei S p.state bg, ∀ j ∈ nuclei S p.state bg, i ≠ j → ¬ near i j

theorem occ_of_painted {S : Structure K d} (hS : S.Reachable) {s : SimState} (h : ∃ f, Painted S s f) {i : ℕ} (hi : i ∈ S.siteIds) :
    ∃ v, occ? s (.int i) = some v := by
  obtain ⟨f, hf⟩ := h
  obtain ⟨t, ht, rfl⟩ := (mem_siteIds_iff hS).1 hi
  exact ⟨_, hf.occ t ht⟩

theorem nodup_siteIds {S : Structure K d} (hS : S.Reachable) : S.siteIds.Nodup := by
  rw [siteIds_eq hS]
  exact List.nodup_range

theorem pInv_start {S : Structure K d} (hS : S.Reachable) {bg : Val} (hbg : bg.WF) (ids : List Val) (near : ℕ → ℕ → Prop) :
    PInv S bg ids near ⟨blank S bg, 0, 0⟩ := by
  have hp := painted_blank hS hbg
  have ho : ∀ i ∈ S.siteIds, occ? (blank S bg) (.int i) = some bg := by
    intro i hi
    obtain ⟨t, ht, rfl⟩ := (mem_siteIds_iff hS).1 hi
    exact hp.occ t ht
  have hn : nuclei S (blank S bg) bg = [] := by
    unfold nuclei
    rw [List.filter_eq_nil_iff]
    intro i hi
    simp [ho i hi]
  refine ⟨⟨_, hp⟩, fun v hv => ?_, by simp [hn], by simp [hn]⟩
  simp only [List.take_zero, List.count_nil, phaseCount, List.length_eq_zero_iff, List.filter_eq_nil_iff]
  intro i hi
  rw [ho i hi]
  simpa using fun e => hv e.symm

/-- One round of the placement loop. -/
theorem placeRound_spec {S : Structure K d} (hS : S.Reachable) (hne : S.sitesOf none ≠ []) {nbs : Option (ℕ → ℕ → List ℕ)} {near : ℕ → ℕ → Prop}
    (hnb : NbsOK S nbs near) {bg : Val} {ids : List Val} (hids : ∀ v ∈ ids, v ≠ bg ∧ v.WF) {num : ℤ} (hlen : ids.length = num.toNat) (draw : ℕ → ℕ)
    {p : Place} (h : PInv S bg ids near p) (hlt : (p.planted : ℤ) < num) :
    ((p.attempts : ℤ) > 1000 * num ∧ placeRound (S.sitesOf none) nbs bg ids num draw p = .error .runtimeError) ∨
    ((p.attempts : ℤ) ≤ 1000 * num ∧ ∃ p', placeRound (S.sitesOf none) nbs bg ids num draw p = .ok p' ∧ PInv S bg ids near p' ∧
      p'.attempts = p.attempts + 1 ∧ p'.planted ≤ p.planted + 1) := by
  by_cases ha : (p.attempts : ℤ) > 1000 * num
  · exact .inl ⟨ha, by unfold placeRound; rw [if_pos ha]⟩
  refine .inr ⟨not_lt.1 ha, ?_⟩
  unfold placeRound
  rw [if_neg ha]
  obtain ⟨t, ht, hc⟩ := choice_mem hne (draw p.attempts)
  have hti : t.id ∈ S.siteIds := (mem_siteIds_iff hS).2 ⟨t, ht, rfl⟩
  rw [hc, ok_bind]
  obtain ⟨v, hv⟩ := occ_of_painted hS h.painted hti
  rw [occupancy_eq hv, ok_bind]
  by_cases hvb : v = bg
  swap
  · rw [if_pos hvb]
    exact ⟨_, rfl, ⟨h.painted, h.pc, h.nuc, h.apart⟩, rfl, Nat.le_succ _⟩
  rw [if_neg (by simp [hvb])]
  subst hvb
  have hfound : ∃ b : Bool, buffered nbs v p t.id = .ok b ∧
      (b = false → ∀ j ∈ nuclei S p.state v, j ≠ t.id → ¬ near t.id j) := by
    cases nbs with
    | none => exact ⟨false, rfl, fun _ j _ _ => hnb.2 _ _⟩
    | some nb =>
      obtain ⟨h1, h2⟩ := hnb.2 p.attempts t.id hti
      refine ⟨_, foldlM_found _ (fun j hj => occ_of_painted hS h.painted (h1 j hj).1) _, fun hb j hj hjt hn => ?_⟩
      simp only [Bool.false_or, List.any_eq_false] at hb
      have := List.mem_filter.1 hj
      exact hb j (h2 j this.1 hjt hn) this.2
  obtain ⟨b, hb, hb'⟩ := hfound
  rw [hb, ok_bind]
  cases b with
  | true => exact ⟨_, rfl, ⟨h.painted, h.pc, h.nuc, h.apart⟩, rfl, Nat.le_succ _⟩
  | false =>
    have hlt' : p.planted < ids.length := by omega
    have hg : ids[p.planted]? = some ids[p.planted] := List.getElem?_eq_getElem hlt'
    set spec := ids[p.planted] with hspec
    obtain ⟨hsb, hsw⟩ := hids spec (List.getElem_mem hlt')
    simp only [Bool.false_eq_true, if_false, hg]
    have hnd := nodup_siteIds hS
    have hocc : ∀ j : ℕ, occ? (setOcc p.state t.id spec) (.int j) = if j = t.id then some spec else occ? p.state (.int j) := by
      intro j
      rw [occ?_setOcc]
      by_cases e : j = t.id
      · simp [e]
      · have : ¬ (j : ℤ) = t.id := by exact_mod_cast e
        simp [e]
    have hmem : ∀ j, j ∈ nuclei S (setOcc p.state t.id spec) v ↔ j = t.id ∨ j ∈ nuclei S p.state v := by
      intro j
      unfold nuclei
      rw [List.mem_filter, List.mem_filter, hocc]
      by_cases e : j = t.id
      · subst e; simp [hti, hsb]
      · simp [e]
    refine ⟨_, rfl, ⟨?_, fun w hw => ?_, ?_, ?_⟩, rfl, le_rfl⟩
    · obtain ⟨f, hf⟩ := h.painted
      exact ⟨_, hf.set hS ht hsw⟩
    · simp only
      rw [List.take_add_one, hg, Option.toList_some, List.count_append, ← h.pc w hw, List.count_singleton]
      by_cases e : spec = w
      · subst e
        rw [if_pos (by simp)]
        refine length_filter_succ hnd hti _ _ ?_ ?_ fun j hj => ?_
        · rw [hv]; simpa using fun e => hsb e.symm
        · rw [hocc]; simp
        · rw [hocc, if_neg hj]
      · rw [if_neg (by simpa using e), Nat.add_zero]
        unfold phaseCount
        congr 1
        refine List.filter_congr fun j _ => ?_
        rw [hocc]
        by_cases ej : j = t.id
        · subst ej
          rw [if_pos rfl, hv]
          have : ¬ v = w := fun x => hw x.symm
          simp [e, this]
        · rw [if_neg ej]
    · simp only
      rw [← h.nuc]
      refine length_filter_succ hnd hti _ _ ?_ ?_ fun j hj => ?_
      · rw [hv]; simp
      · rw [hocc]; simpa using hsb
      · rw [hocc, if_neg hj]
    · simp only
      intro i hi j hj hij
      rw [hmem] at hi hj
      rcases hi with rfl | hi
      · rcases hj with rfl | hj
        · exact absurd rfl hij
        · exact hb' rfl j hj (Ne.symm hij)
      · rcases hj with rfl | hj
        · exact fun hn => hb' rfl i hi hij (hnb.1 _ _ hn)
        · exact h.apart i hi j hj hij

/-- If the site drawn has the background phase and no nucleus is near, it becomes a nucleus. -/
theorem placeRound_plants {S : Structure K d} (hS : S.Reachable) {nbs : Option (ℕ → ℕ → List ℕ)} {near : ℕ → ℕ → Prop}
    (hnb : NbsOK S nbs near) {bg : Val} {ids : List Val} {num : ℤ} {draw : ℕ → ℕ}
    {p : Place} (h : PInv S bg ids near p) (ha : (p.attempts : ℤ) ≤ 1000 * num) {t : Site K d} (ht : t ∈ S.sitesOf none)
    (hc : choice (S.sitesOf none) (draw p.attempts) = .ok t) (hbg : occ? p.state (.int t.id) = some bg)
    (hfree : ∀ j ∈ nuclei S p.state bg, ¬ near t.id j) {spec : Val} (hspec : ids[p.planted]? = some spec) :
    placeRound (S.sitesOf none) nbs bg ids num draw p = .ok ⟨setOcc p.state t.id spec, p.planted + 1, p.attempts + 1⟩ := by
  have hti : t.id ∈ S.siteIds := (mem_siteIds_iff hS).2 ⟨t, ht, rfl⟩
  unfold placeRound
  rw [if_neg (not_lt.2 ha), hc, ok_bind, occupancy_eq hbg, ok_bind, if_neg (by simp)]
  have hb : buffered nbs bg p t.id = .ok false := by
    cases nbs with
    | none => rfl
    | some nb =>
      obtain ⟨h1, -⟩ := hnb.2 p.attempts t.id hti
      refine (foldlM_found _ (fun j hj => occ_of_painted hS h.painted (h1 j hj).1) _).trans ?_
      congr 1
      rw [Bool.false_or, List.any_eq_false]
      intro j hj hd
      exact hfree j (List.mem_filter.2 ⟨(h1 j hj).1, hd⟩) (h1 j hj).2.2
  rw [hb, ok_bind]
  simp only [Bool.false_eq_true, if_false, hspec]
  rfl

theorem placeLoop_done {sites : List (Site K d)} {nbs : Option (ℕ → ℕ → List ℕ)} {bg : Val} {ids : List Val} {num : ℤ} {draw : ℕ → ℕ} {p : Place}
    (h : ¬ (p.planted : ℤ) < num) (fuel : ℕ) : placeLoop sites nbs bg ids num draw fuel p = some (.ok p) := by
  cases fuel <;> simp [placeLoop, h]

/-- The placement loop: when it ends normally everything is planted; the only exception is RuntimeError; and it ends within `1000 * num + 2` rounds. -/
theorem placeLoop_spec {S : Structure K d} (hS : S.Reachable) (hne : S.sitesOf none ≠ []) {nbs : Option (ℕ → ℕ → List ℕ)} {near : ℕ → ℕ → Prop}
    (hnb : NbsOK S nbs near) {bg : Val} {ids : List Val} (hids : ∀ v ∈ ids, v ≠ bg ∧ v.WF) {num : ℤ} (hlen : ids.length = num.toNat) (draw : ℕ → ℕ)
    (fuel : ℕ) {p : Place} (h : PInv S bg ids near p) (hle : p.planted ≤ num.toNat) :
    (∀ p', placeLoop (S.sitesOf none) nbs bg ids num draw fuel p = some (.ok p') → PInv S bg ids near p' ∧ p'.planted = num.toNat) ∧
    (∀ e, placeLoop (S.sitesOf none) nbs bg ids num draw fuel p = some (.error e) → e = .runtimeError) ∧
    ((p.attempts : ℤ) ≤ 1000 * num + 1 → 1000 * num + 2 ≤ fuel + p.attempts → placeLoop (S.sitesOf none) nbs bg ids num draw fuel p ≠ none) := by
  induction fuel generalizing p with
  | zero =>
    by_cases hlt : (p.planted : ℤ) < num
    · rw [placeLoop, if_pos hlt]
      refine ⟨by simp, by simp, fun ha hf => ?_⟩
      push_cast at hf
      omega
    · rw [placeLoop_done hlt]
      refine ⟨?_, by simp, by simp⟩
      intro p' e
      injection e with e; injection e with e; subst e
      exact ⟨h, by omega⟩
  | succ fuel ih =>
    by_cases hlt : (p.planted : ℤ) < num
    · rw [placeLoop, if_pos hlt]
      rcases placeRound_spec hS hne hnb hids hlen draw h hlt with ⟨-, hr⟩ | ⟨ha, p1, hr, h1, h2, h3⟩
      · rw [hr]
        refine ⟨by simp, ?_, by simp⟩
        intro e he
        injection he with he; injection he with he; exact he.symm
      · rw [hr]
        obtain ⟨i1, i2, i3⟩ := ih h1 (by omega)
        exact ⟨i1, i2, fun _ hf => i3 (by rw [h2]; push_cast; omega) (by rw [h2]; push_cast at hf ⊢; omega)⟩
    · rw [placeLoop_done hlt]
      refine ⟨?_, by simp, by simp⟩
      intro p' e
      injection e with e; injection e with e; subst e
      exact ⟨h, by omega⟩

theorem placeLoop_mono {sites : List (Site K d)} {nbs : Option (ℕ → ℕ → List ℕ)} {bg : Val} {ids : List Val} {num : ℤ} {draw : ℕ → ℕ} {fuel : ℕ}
    {p : Place} {r : Py Place} (h : placeLoop sites nbs bg ids num draw fuel p = some r) (fuel' : ℕ) (hf : fuel ≤ fuel') :
    placeLoop sites nbs bg ids num draw fuel' p = some r := by
  induction fuel generalizing p fuel' with
  | zero =>
    unfold placeLoop at h
    split_ifs at h with hc
    rw [placeLoop_done hc, h]
  | succ fuel ih =>
    by_cases hc : (p.planted : ℤ) < num
    · obtain ⟨m, rfl⟩ : ∃ m, fuel' = m + 1 := ⟨fuel' - 1, by omega⟩
      rw [placeLoop, if_pos hc] at h ⊢
      cases hr : placeRound sites nbs bg ids num draw p with
      | error e => rw [hr] at h; exact h
      | ok q' => rw [hr] at h; exact ih h m (by omega)
    · rw [placeLoop_done hc] at h ⊢; exact h

/-- Only the draws of the first `1000 * num + 1` rounds are used. -/
theorem placeLoop_draws {sites : List (Site K d)} {nbs : Option (ℕ → ℕ → List ℕ)} {bg : Val} {ids : List Val} {num : ℤ} {draw draw' : ℕ → ℕ}
    (hd : ∀ t : ℕ, (t : ℤ) ≤ 1000 * num → draw t = draw' t) (fuel : ℕ) (p : Place) :
    placeLoop sites nbs bg ids num draw fuel p = placeLoop sites nbs bg ids num draw' fuel p := by
  have hr : ∀ p, placeRound sites nbs bg ids num draw p = placeRound sites nbs bg ids num draw' p := by
    intro p
    unfold placeRound
    by_cases ha : (p.attempts : ℤ) > 1000 * num
    · rw [if_pos ha, if_pos ha]
    · rw [if_neg ha, if_neg ha, hd p.attempts (not_lt.1 ha)]
  induction fuel generalizing p with
  | zero => rfl
  | succ fuel ih =>
    rw [placeLoop, placeLoop, hr p]
    congr 1
    cases placeRound sites nbs bg ids num draw' p with
    | error e => rfl
    | ok p' => exact ih p'

/-! ### both loops, for any neighbours and quotas -/

section
variable {S : Structure K d} {nbs : Option (ℕ → ℕ → List ℕ)} {near : ℕ → ℕ → Prop} {num : ℤ} {bg : Val} {nucAmts ideal : Dict Val K}

/-- What is known when both loops have ended. -/
theorem plantSites_ok (hS : S.Reachable) (hne : S.sitesOf none ≠ []) (hnb : NbsOK S nbs near) (hid : HasQuotas (Dict.keys nucAmts) ideal)
    (hbgw : bg.WF) (hw : Dict.WF nucAmts) (hph : ∀ p ∈ Dict.keys nucAmts, p.WF) (hbg : bg ∉ Dict.keys nucAmts) {draw : ℕ → ℕ} {fuel : ℕ}
    {sim : Simulation K d} (h : plantSites S nbs num bg nucAmts ideal draw fuel = some (.ok sim)) :
    sim.struct = S ∧ ∃ q p, QInv (Dict.keys nucAmts) ideal q ∧ q.ids.length = num.toNat ∧
      PInv S bg q.ids near p ∧ p.planted = num.toNat ∧ p.state = sim.state ∧
      quotaLoop (Dict.keys nucAmts) ideal num fuel ⟨[], zeroSites nucAmts, 0⟩ = some (.ok q) := by
  unfold plantSites at h
  cases hq : quotaLoop (Dict.keys nucAmts) ideal num fuel ⟨[], zeroSites nucAmts, 0⟩ with
  | none => rw [hq] at h; cases h
  | some r =>
    rw [hq] at h
    cases r with
    | error e => cases h
    | ok q =>
      obtain ⟨hqi, hql⟩ := quotaLoop_spec hid fuel (qInv_start hw _) (by simp) hq
      simp only at h
      cases hp : placeLoop (S.sitesOf none) nbs bg q.ids num draw fuel ⟨blank S bg, 0, 0⟩ with
      | none => rw [hp] at h; cases h
      | some r =>
        rw [hp] at h
        cases r with
        | error e => cases h
        | ok p =>
          injection h with h; injection h with h; subst h
          obtain ⟨h1, h2⟩ := (placeLoop_spec hS hne hnb (fun v hv => ⟨fun e : v = bg => hbg (e ▸ hqi.mem v hv), hph v (hqi.mem v hv)⟩) hql draw fuel
            (pInv_start hS hbgw _ _) (by simp)).1 p hp
          exact ⟨rfl, q, p, hqi, hql, h1, h2, rfl, rfl⟩

/-- The planted sites. -/
theorem plantSites_sites (hS : S.Reachable) (hne : S.sitesOf none ≠ []) (hnb : NbsOK S nbs near) (hid : HasQuotas (Dict.keys nucAmts) ideal)
    (hbgw : bg.WF) (hw : Dict.WF nucAmts) (hph : ∀ p ∈ Dict.keys nucAmts, p.WF) (hbg : bg ∉ Dict.keys nucAmts) {draw : ℕ → ℕ} {fuel : ℕ}
    {sim : Simulation K d} (h : plantSites S nbs num bg nucAmts ideal draw fuel = some (.ok sim)) :
    sim.struct = S ∧ StartState S sim.state ∧ (nuclei S sim.state bg).length = num.toNat ∧
      ∀ i ∈ nuclei S sim.state bg, ∀ j ∈ nuclei S sim.state bg, i ≠ j → ¬ near i j := by
  obtain ⟨h0, q, p, -, -, hp, hpl, hst, -⟩ := plantSites_ok hS hne hnb hid hbgw hw hph hbg h
  rw [← hst]
  obtain ⟨f, hf⟩ := hp.painted
  exact ⟨h0, hf.startState hS, by rw [hp.nuc, hpl], hp.apart⟩

/-- The phases of the planted sites. -/
theorem plantSites_phases (hS : S.Reachable) (hne : S.sitesOf none ≠ []) (hnb : NbsOK S nbs near) (hid : HasQuotas (Dict.keys nucAmts) ideal)
    (hbgw : bg.WF) (hw : Dict.WF nucAmts) (hph : ∀ p ∈ Dict.keys nucAmts, p.WF) (hbg : bg ∉ Dict.keys nucAmts) {draw : ℕ → ℕ} {fuel : ℕ}
    {sim : Simulation K d} (h : plantSites S nbs num bg nucAmts ideal draw fuel = some (.ok sim)) :
    ((Dict.keys nucAmts).map fun p => phaseCount S sim.state p).sum = num.toNat ∧
    (∀ p ∈ Dict.keys nucAmts, ∀ x, Dict.get? ideal p = some x →
      phaseCount S sim.state p = 0 ∨ (phaseCount S sim.state p : K) - 1 < x) ∧
    ∀ i ∈ nuclei S sim.state bg, ∃ p ∈ Dict.keys nucAmts, occ? sim.state (.int i) = some p := by
  obtain ⟨-, q, p, hq, hql, hp, hpl, hst, -⟩ := plantSites_ok hS hne hnb hid hbgw hw hph hbg h
  rw [← hst]
  have htake : q.ids.take p.planted = q.ids := List.take_of_length_le (by omega)
  have hpc : ∀ v ∈ Dict.keys nucAmts, phaseCount S p.state v = q.ids.count v := by
    intro v hv
    rw [hp.pc v (by rintro rfl; exact hbg hv), htake]
  refine ⟨?_, fun v hv x hx => ?_, fun i hi => ?_⟩
  · rw [List.map_congr_left hpc, sum_count hw hq.mem, hql]
  · rw [hpc v hv]
    exact hq.le v x hx
  · have hmem := List.mem_filter.1 hi
    obtain ⟨v, hv⟩ := occ_of_painted hS hp.painted hmem.1
    refine ⟨v, ?_, hv⟩
    have hvb : v ≠ bg := by
      rintro rfl
      have := hmem.2
      rw [hv] at this; simp at this
    have hcount : 0 < phaseCount S p.state v := by
      refine List.length_pos_of_mem (a := i) ?_
      rw [List.mem_filter]
      exact ⟨hmem.1, by simpa using hv⟩
    rw [hp.pc v hvb, htake] at hcount
    exact hq.mem v (List.count_pos_iff.1 hcount)

/-- Both loops end. -/
theorem plantSites_terminates (hS : S.Reachable) (hne : S.sitesOf none ≠ []) (hnb : NbsOK S nbs near) (hid : HasQuotas (Dict.keys nucAmts) ideal)
    (hsum : (num : K) - 1 < quotaSum (Dict.keys nucAmts) ideal)
    (hbgw : bg.WF) (hw : Dict.WF nucAmts) (hph : ∀ p ∈ Dict.keys nucAmts, p.WF) (hbg : bg ∉ Dict.keys nucAmts) (draw : ℕ → ℕ) (fuel : ℕ)
    (h1 : num.toNat * nucAmts.length ≤ fuel) (h2 : 1000 * num + 2 ≤ fuel) :
    (∃ sim, plantSites S nbs num bg nucAmts ideal draw fuel = some (.ok sim)) ∨
      plantSites S nbs num bg nucAmts ideal draw fuel = some (.error .runtimeError) := by
  unfold plantSites
  obtain ⟨q, hq⟩ := quotaLoop_terminates hid hw hsum num.toNat (qInv_start hw ideal) (by simp) fuel (by rw [Dict.keys, List.length_map]; exact h1)
  rw [hq]
  obtain ⟨hqi, hql⟩ := quotaLoop_spec hid fuel (qInv_start hw _) (by simp) hq
  obtain ⟨-, i2, i3⟩ := placeLoop_spec hS hne hnb (fun v hv => ⟨fun e : v = bg => hbg (e ▸ hqi.mem v hv), hph v (hqi.mem v hv)⟩) hql draw fuel
    (pInv_start hS hbgw _ _) (by simp)
  simp only
  cases hp : placeLoop (S.sitesOf none) nbs bg q.ids num draw fuel ⟨blank S bg, 0, 0⟩ with
  | none =>
    by_cases h0 : 0 < num
    · exact absurd hp (i3 (by push_cast; omega) (by push_cast; omega))
    · rw [placeLoop_done (by push_cast; omega)] at hp; cases hp
  | some r =>
    cases r with
    | error e => right; rw [i2 e hp]
    | ok p => left; exact ⟨_, rfl⟩

theorem plantSites_mono {draw : ℕ → ℕ} {fuel : ℕ} {r : Py (Simulation K d)} (h : plantSites S nbs num bg nucAmts ideal draw fuel = some r) (fuel' : ℕ)
    (hf : fuel ≤ fuel') : plantSites S nbs num bg nucAmts ideal draw fuel' = some r := by
  unfold plantSites at h ⊢
  cases hq : quotaLoop (Dict.keys nucAmts) ideal num fuel ⟨[], zeroSites nucAmts, 0⟩ with
  | none => rw [hq] at h; cases h
  | some rq =>
    rw [hq] at h
    rw [quotaLoop_mono hq fuel' hf]
    cases rq with
    | error e => exact h
    | ok q =>
      simp only at h ⊢
      cases hp : placeLoop (S.sitesOf none) nbs bg q.ids num draw fuel ⟨blank S bg, 0, 0⟩ with
      | none => rw [hp] at h; cases h
      | some rp => rw [hp] at h; rw [placeLoop_mono hp fuel' hf]; exact h

theorem plantSites_draws {draw draw' : ℕ → ℕ} (hd : ∀ t : ℕ, (t : ℤ) ≤ 1000 * num → draw t = draw' t) (fuel : ℕ) :
    plantSites S nbs num bg nucAmts ideal draw fuel = plantSites S nbs num bg nucAmts ideal draw' fuel := by
  unfold plantSites
  simp only [placeLoop_draws (draw := draw) (draw' := draw') hd]

/-- Every arrangement of sites that are not near each other can be drawn. -/
theorem plantSites_reachable {N : Fin d → ℤ} (hT : IsTorus S N) (hne : S.sitesOf none ≠ []) (hnb : NbsOK S nbs near)
    (hid : HasQuotas (Dict.keys nucAmts) ideal) (hsum : (num : K) - 1 < quotaSum (Dict.keys nucAmts) ideal)
    (hbgw : bg.WF) (hw : Dict.WF nucAmts) (hph : ∀ p ∈ Dict.keys nucAmts, p.WF) (hbg : bg ∉ Dict.keys nucAmts)
    (cells : List (Fin d → ℤ)) (hnd : cells.Nodup) (hlen : (cells.length : ℤ) = num) (hbox : ∀ c ∈ cells, InBox N c)
    (hfar : ∀ a ∈ cells, ∀ b ∈ cells, a ≠ b → ∀ i j, SiteHas S i a → SiteHas S j b → ¬ near i j) :
    ∃ draw fuel sim, plantSites S nbs num bg nucAmts ideal draw fuel = some (.ok sim) ∧
      ∀ i c, SiteHas S i c → (i ∈ nuclei S sim.state bg ↔ c ∈ cells) := by
  have hS := hT.reachable
  obtain ⟨q, hq⟩ := quotaLoop_terminates hid hw hsum num.toNat (qInv_start hw ideal) (by simp) _ le_rfl
  obtain ⟨hqi, hql⟩ := quotaLoop_spec hid _ (qInv_start hw _) (by simp) hq
  have hids : ∀ v ∈ q.ids, v ≠ bg ∧ v.WF := fun v hv => ⟨fun e : v = bg => hbg (e ▸ hqi.mem v hv), hph v (hqi.mem v hv)⟩
  -- the site of a cell and its place in the list of sites
  have hsite : ∀ k : ℕ, ∃ x : ℕ, ∀ c, cells[k]? = some c → ∃ t, (S.sitesOf none)[x]? = some t ∧ SiteHas S t.id c := by
    intro k
    cases hk : cells[k]? with
    | none => exact ⟨0, by simp⟩
    | some c =>
      obtain ⟨i, -, hi⟩ := hT.ex c (hbox c (List.mem_of_getElem? hk))
      obtain ⟨t, ht, rfl, -⟩ := site_of_has hS hi
      obtain ⟨x, hx⟩ := List.mem_iff_getElem?.1 ht
      refine ⟨x, fun c' hc' => ?_⟩
      injection hc' with hc'; subst hc'
      exact ⟨t, hx, hi⟩
  choose draw hdraw using hsite
  have key : ∀ k : ℕ, k ≤ cells.length → ∀ p : Place, PInv S bg q.ids near p → p.planted + k = cells.length → p.attempts = p.planted →
      (∀ i c, SiteHas S i c → (i ∈ nuclei S p.state bg ↔ c ∈ cells.take p.planted)) →
      ∃ p', placeLoop (S.sitesOf none) nbs bg q.ids num draw k p = some (.ok p') ∧
        ∀ i c, SiteHas S i c → (i ∈ nuclei S p'.state bg ↔ c ∈ cells) := by
    intro k
    induction k with
    | zero =>
      intro _ p _ hpk _ hnuc
      refine ⟨p, placeLoop_done (by omega) 0, fun i c hc => ?_⟩
      rw [hnuc i c hc, List.take_of_length_le (by omega)]
    | succ k ih =>
      intro hk p hp hpk hat hnuc
      have hlt : p.planted < cells.length := by omega
      have hc : cells[p.planted]? = some cells[p.planted] := List.getElem?_eq_getElem hlt
      obtain ⟨t, htx, hti⟩ := hdraw p.planted _ hc
      have ht : t ∈ S.sitesOf none := List.mem_of_getElem? htx
      have htm : t.id ∈ S.siteIds := (mem_siteIds_iff hS).2 ⟨t, ht, rfl⟩
      have hnotin : cells[p.planted] ∉ cells.take p.planted := by
        intro hmem
        obtain ⟨x, hx⟩ := List.mem_iff_getElem?.1 hmem
        rw [List.getElem?_take] at hx
        split_ifs at hx with hxl
        obtain ⟨hx1, hx2⟩ := List.getElem?_eq_some_iff.1 hx
        have := (List.Nodup.getElem_inj_iff hnd).1 hx2
        omega
      have hbgt : occ? p.state (.int t.id) = some bg := by
        by_contra hcon
        exact hnotin ((hnuc t.id _ hti).1 (List.mem_filter.2 ⟨htm, by simpa using hcon⟩))
      have hfree : ∀ j ∈ nuclei S p.state bg, ¬ near t.id j := by
        intro j hj
        obtain ⟨b, -, hb⟩ := hT.site j (List.mem_filter.1 hj).1
        have hb' := (hnuc j b hb).1 hj
        exact hfar _ (List.getElem_mem hlt) b (List.mem_of_mem_take hb') (by rintro rfl; exact hnotin hb') _ _ hti hb
      obtain ⟨spec, hspec⟩ : ∃ v, q.ids[p.planted]? = some v := ⟨_, List.getElem?_eq_getElem (by omega)⟩
      have hpl : (p.planted : ℤ) < num := by omega
      have hround := placeRound_plants (draw := draw) (num := num) hS hnb hp (by omega) ht (by rw [hat]; exact choice_index htx) hbgt hfree hspec
      rcases placeRound_spec hS hne hnb hids hql draw hp hpl with ⟨h', -⟩ | ⟨-, p1, hr, h1, -, -⟩
      · omega
      · rw [hround] at hr
        injection hr with hr; subst hr
        rw [placeLoop, if_pos hpl, hround]
        refine ih (by omega) _ h1 (by simp only; omega) (by simp only; omega) ?_
        intro i c hic
        simp only
        rw [List.take_add_one, hc, Option.toList_some, List.mem_append, List.mem_singleton, ← hnuc i c hic]
        unfold nuclei
        rw [List.mem_filter, List.mem_filter, occ?_setOcc]
        have hspecb := (hids spec (List.mem_of_getElem? hspec)).1
        by_cases e : i = t.id
        · subst e
          have := IsTorus.has_unique_coord hic hti
          simp [htm, hspecb, this]
        · have e' : c ≠ cells[p.planted] := by
            rintro rfl
            exact e (hT.site_unique hic hti)
          have : ¬ (i : ℤ) = t.id := by exact_mod_cast e
          simp [e, e']
  obtain ⟨p, hp, hnuc⟩ := key cells.length le_rfl ⟨blank S bg, 0, 0⟩ (pInv_start hS hbgw _ _) (by simp) rfl (by
    intro i c hic
    have : nuclei S (blank S bg) bg = [] := List.length_eq_zero_iff.1 (pInv_start hS hbgw q.ids near).nuc
    simp [this])
  refine ⟨draw, max (num.toNat * (Dict.keys nucAmts).length) cells.length, ⟨p.state, S⟩, ?_, hnuc⟩
  unfold plantSites
  rw [quotaLoop_mono hq _ (le_max_left _ _)]
  simp only
  rw [placeLoop_mono hp _ (le_max_right _ _)]

end

/-! ### the whole call -/

theorem circ_neg {n : ℤ} (hn : 0 < n) {a r : ℤ} (h : circ n a ≤ r) : circ n (-a) ≤ r := by
  rw [circ_le_iff hn] at h ⊢
  obtain ⟨k, hk⟩ := h
  exact ⟨-k, by rw [← abs_neg]; rw [show -(-a + -k * n) = a + k * n by ring]; exact hk⟩

/-- Two sites that are at most `r` apart along every axis of the torus. -/
def nearBy (S : Structure K d) (n : ℤ) (buffer : Option ℤ) (i j : ℕ) : Prop :=
  ∃ r, buffer = some r ∧ ∃ a b, SiteHas S i a ∧ SiteHas S j b ∧ ChebyshevLE (fun _ => n) a b r

theorem nearBy_symm {S : Structure K d} {n : ℤ} (hn : 0 < n) {buffer : Option ℤ} (i j : ℕ) (h : nearBy S n buffer i j) : nearBy S n buffer j i := by
  obtain ⟨r, hr, a, b, ha, hb, h⟩ := h
  refine ⟨r, hr, b, a, hb, ha, fun k => ?_⟩
  have := circ_neg hn (h k)
  rwa [neg_sub] at this

/-- The neighbours that a Moore graph of the torus lists. -/
theorem nbsOK_moore {S : Structure K d} {n : ℤ} (hn : 0 < n) (hT : IsTorus S fun _ => n) {r : ℤ} {g : Graph K} (hg : (moore r).get S none = .ok g)
    {order : ℕ → List ℕ → List ℕ} (hord : ∀ t l, (order t l).Perm l) :
    NbsOK S (some fun t i => order t (g.neighborsOf i)) (nearBy S n (some r)) := by
  have hS := hT.reachable
  obtain ⟨g', hg', hm⟩ := torus_moore hT r
  rw [hg] at hg'; injection hg' with hg'; subst hg'
  refine ⟨nearBy_symm hn, fun t i hi => ⟨fun j hj => ?_, fun j hj hji hnear => ?_⟩⟩
  · have hj' := (hord t _).mem_iff.1 hj
    have hk := (C55_known_and_other hS _ _ g hg i).1 j hj'
    obtain ⟨a, -, ha⟩ := hT.site i hi
    obtain ⟨b, -, hb⟩ := hT.site j hk.1
    exact ⟨hk.1, hk.2.1, r, rfl, a, b, ha, hb, ((hm i j a b ha hb).1 hj').2⟩
  · obtain ⟨r', hr', a, b, ha, hb, h⟩ := hnear
    cases hr'
    exact (hord t _).mem_iff.2 ((hm i j a b ha hb).2 ⟨hji, h⟩)

theorem nbsOK_none {S : Structure K d} {n : ℤ} (hn : 0 < n) : NbsOK S none (nearBy S n none) :=
  ⟨nearBy_symm hn, fun _ _ h => by obtain ⟨r, hr, -⟩ := h; cases hr⟩

theorem IsTorus.sites_ne {S : Structure K d} {N : Fin d → ℤ} (hT : IsTorus S N) : S.sitesOf none ≠ [] := by
  intro e
  obtain ⟨i, hi⟩ := List.exists_mem_of_ne_nil _ hT.ids_ne
  obtain ⟨t, ht, -⟩ := (mem_siteIds_iff hT.reachable).1 hi
  rw [e] at ht; simp at ht

/-- The parts of a call, for any reachable structure of the right shape. -/
theorem randomSites_parts {G : GridSetup K d} (hG : StdSetup d G) (n : ℤ) (hn : 0 < n) (num : K) (bg : Val) (nucAmts : Dict Val K)
    (buffer : Option ℤ) (order : ℕ → List ℕ → List ℕ) (hord : ∀ t l, (order t l).Perm l) :
    ∃ S nbs, SquareGrid d (fun _ => n) S ∧ S.sitesOf none ≠ [] ∧ NbsOK S nbs (nearBy S n buffer) ∧ ∀ draw fuel,
      G.randomSites (.int n) num bg nucAmts buffer order draw fuel =
        plantSites S nbs (roundHalfEven num) bg nucAmts (idealSites nucAmts (roundHalfEven num)) draw fuel := by
  obtain ⟨S, hb, hsq, -⟩ := setup_builds hG hn
  have hT := hsq.isTorus
  cases buffer with
  | none =>
    refine ⟨S, none, hsq, hT.sites_ne, nbsOK_none hn, fun draw fuel => ?_⟩
    unfold GridSetup.randomSites
    rw [hb]
  | some r =>
    obtain ⟨g, hg, -⟩ := C53_moore hsq r
    refine ⟨S, some fun t i => order t (g.neighborsOf i), hsq, hT.sites_ne, nbsOK_moore hn hT hg hord, fun draw fuel => ?_⟩
    unfold GridSetup.randomSites
    rw [hb]
    simp only [hg]
    rfl

/-- C67: when `setup_random_sites` returns, exactly the desired number of sites (rounded, half to even) does not have the background phase; with a
buffer, any two of them are more than the buffer apart along some axis of the torus; and the state fits the structure. -/
theorem C67_random_sites {G : GridSetup K d} (hG : StdSetup d G) (n : ℤ) (hn : 0 < n) (num : K) (m : ℤ) (hm : NearestEven num m) (bg : Val) (hbgw : bg.WF)
    (nucAmts : Dict Val K) (hw : Dict.WF nucAmts) (hph : ∀ p ∈ Dict.keys nucAmts, p.WF) (hbg : bg ∉ Dict.keys nucAmts) (buffer : Option ℤ)
    (order : ℕ → List ℕ → List ℕ) (hord : ∀ t l, (order t l).Perm l) (draw : ℕ → ℕ) (fuel : ℕ) (sim : Simulation K d)
    (h : G.randomSites (.int n) num bg nucAmts buffer order draw fuel = some (.ok sim)) :
    SquareGrid d (fun _ => n) sim.struct ∧ StartState sim.struct sim.state ∧ (nuclei sim.struct sim.state bg).length = m.toNat ∧
      ∀ r, buffer = some r → ∀ i ∈ nuclei sim.struct sim.state bg, ∀ j ∈ nuclei sim.struct sim.state bg, i ≠ j →
        ∀ a b, SiteHas sim.struct i a → SiteHas sim.struct j b → ¬ ChebyshevLE (fun _ => n) a b r := by
  rw [nearestEven_iff] at hm
  subst hm
  obtain ⟨S, nbs, hsq, hne, hnb, heq⟩ := randomSites_parts hG n hn num bg nucAmts buffer order hord
  rw [heq] at h
  obtain ⟨rfl, h1, h2, h3⟩ := plantSites_sites hsq.isTorus.reachable hne hnb (hasQuotas_idealSites hw _) hbgw hw hph hbg h
  refine ⟨hsq, h1, h2, ?_⟩
  intro r hr i hi j hj hij a b ha hb hab
  exact h3 i hi j hj hij ⟨r, hr, a, b, ha, hb, hab⟩

/-- C68 (quotas): when `setup_random_sites` returns, the nuclei have phases of `nuc_amts`, the numbers of nuclei of the phases add up to the desired number, and no
phase has more than its share of the desired number, rounded up. -/
theorem C68_quotas {G : GridSetup K d} (hG : StdSetup d G) (n : ℤ) (hn : 0 < n) (num : K) (m : ℤ) (hm : NearestEven num m) (bg : Val) (hbgw : bg.WF)
    (nucAmts : Dict Val K) (hw : Dict.WF nucAmts) (hph : ∀ p ∈ Dict.keys nucAmts, p.WF) (hbg : bg ∉ Dict.keys nucAmts)
    (hpos : ∀ pa ∈ nucAmts, 0 < pa.2) (buffer : Option ℤ)
    (order : ℕ → List ℕ → List ℕ) (hord : ∀ t l, (order t l).Perm l) (draw : ℕ → ℕ) (fuel : ℕ) (sim : Simulation K d)
    (h : G.randomSites (.int n) num bg nucAmts buffer order draw fuel = some (.ok sim)) :
    ((Dict.keys nucAmts).map fun p => phaseCount sim.struct sim.state p).sum = m.toNat ∧
    (∀ p a, (p, a) ∈ nucAmts → (phaseCount sim.struct sim.state p : ℤ) ≤ ⌈a / (nucAmts.map Prod.snd).sum * m.toNat⌉) ∧
    ∀ i ∈ nuclei sim.struct sim.state bg, ∃ p ∈ Dict.keys nucAmts, occ? sim.state (.int i) = some p := by
  rw [nearestEven_iff] at hm
  subst hm
  obtain ⟨S, nbs, hsq, hne, hnb, heq⟩ := randomSites_parts hG n hn num bg nucAmts buffer order hord
  rw [heq] at h
  have hS := hsq.isTorus.reachable
  obtain ⟨rfl, -⟩ := plantSites_ok hS hne hnb (hasQuotas_idealSites hw _) hbgw hw hph hbg h
  obtain ⟨h1, h2, h3⟩ := plantSites_phases hS hne hnb (hasQuotas_idealSites hw _) hbgw hw hph hbg h
  refine ⟨h1, fun v a hva => ?_, h3⟩
  have hv : v ∈ Dict.keys nucAmts := List.mem_map.2 ⟨_, hva, rfl⟩
  have hT : 0 ≤ (nucAmts.map Prod.snd).sum := List.sum_nonneg fun x hx => by
    obtain ⟨pa, hpa, rfl⟩ := List.mem_map.1 hx
    exact (hpos pa hpa).le
  have hs0 : 0 ≤ a / (nucAmts.map Prod.snd).sum * ((roundHalfEven num).toNat : K) :=
    mul_nonneg (div_nonneg (hpos _ hva).le hT) (by positivity)
  rcases h2 v hv _ (by rw [get?_idealSites hw, Dict.get?_of_mem hw hva]; rfl) with h0 | h0
  · rw [h0]; exact_mod_cast Int.ceil_nonneg hs0
  · have hnum : (0 : ℤ) ≤ roundHalfEven num ∨ phaseCount sim.struct sim.state v = 0 := by
      by_cases hh : 0 ≤ roundHalfEven num
      · exact .inl hh
      · right
        have hz : (roundHalfEven num).toNat = 0 := by omega
        rw [hz] at h1
        exact List.sum_eq_zero_iff.1 h1 _ (List.mem_map.2 ⟨v, hv, rfl⟩)
    rcases hnum with hnum | h0'
    · have e : ((roundHalfEven num).toNat : K) = ((roundHalfEven num : ℤ) : K) := by
        have := Int.toNat_of_nonneg hnum
        exact_mod_cast congrArg (Int.cast : ℤ → K) this
      rw [e]
      have : (phaseCount sim.struct sim.state v : ℤ) - 1 < ⌈a / (nucAmts.map Prod.snd).sum * ((roundHalfEven num : ℤ) : K)⌉ := by
        rw [Int.lt_ceil]
        push_cast
        exact h0
      omega
    · rw [h0']; exact_mod_cast Int.ceil_nonneg hs0

theorem sub_one_lt_quotaSum {nucAmts : Dict Val K} (hw : Dict.WF nucAmts) (m : ℤ) (hsum : (nucAmts.map Prod.snd).sum ≠ 0) :
    (m : K) - 1 < quotaSum (Dict.keys nucAmts) (idealSites nucAmts m) := by
  rw [quotaSum_idealSites hw m hsum]
  exact sub_one_lt _

/-- C68 (termination): if the amounts do not add up to 0 (for instance, if they are positive), both loops end - the first within (desired number) x (number of
phases) rounds, the second within `1000 * desired + 2` rounds - and the call returns or raises RuntimeError. -/
theorem C68_terminates {G : GridSetup K d} (hG : StdSetup d G) (n : ℤ) (hn : 0 < n) (num : K) (m : ℤ) (hm : NearestEven num m) (bg : Val) (hbgw : bg.WF)
    (nucAmts : Dict Val K) (hw : Dict.WF nucAmts) (hph : ∀ p ∈ Dict.keys nucAmts, p.WF) (hbg : bg ∉ Dict.keys nucAmts)
    (hsum : (nucAmts.map Prod.snd).sum ≠ 0) (buffer : Option ℤ)
    (order : ℕ → List ℕ → List ℕ) (hord : ∀ t l, (order t l).Perm l) (draw : ℕ → ℕ) (fuel : ℕ)
    (h1 : m.toNat * nucAmts.length ≤ fuel) (h2 : 1000 * m + 2 ≤ fuel) :
    (∃ sim, G.randomSites (.int n) num bg nucAmts buffer order draw fuel = some (.ok sim)) ∨
      G.randomSites (.int n) num bg nucAmts buffer order draw fuel = some (.error .runtimeError) := by
  rw [nearestEven_iff] at hm
  subst hm
  obtain ⟨S, nbs, hsq, hne, hnb, heq⟩ := randomSites_parts hG n hn num bg nucAmts buffer order hord
  rw [heq]
  exact plantSites_terminates hsq.isTorus.reachable hne hnb (hasQuotas_idealSites hw _) (sub_one_lt_quotaSum hw _ hsum) hbgw hw hph hbg draw fuel h1 h2

/-- Running longer does not change the outcome. -/
theorem C68_fuel {G : GridSetup K d} (size : SizeArg) (num : K) (bg : Val) (nucAmts : Dict Val K) (buffer : Option ℤ) (order : ℕ → List ℕ → List ℕ)
    (draw : ℕ → ℕ) (fuel fuel' : ℕ) (hf : fuel ≤ fuel') (r : Py (Simulation K d))
    (h : G.randomSites size num bg nucAmts buffer order draw fuel = some r) : G.randomSites size num bg nucAmts buffer order draw fuel' = some r := by
  unfold GridSetup.randomSites at h ⊢
  cases hb : G.builder size with
  | error e => rw [hb] at h; exact h
  | ok S =>
    rw [hb] at h
    simp only at h ⊢
    split at h
    · exact h
    · exact plantSites_mono h fuel' hf

/-- C68 (attempts): at most `1000 * desired + 1` sites are drawn: the outcome does not depend on any later draw. -/
theorem C68_attempts {G : GridSetup K d} (hG : StdSetup d G) (n : ℤ) (hn : 0 < n) (num : K) (m : ℤ) (hm : NearestEven num m) (bg : Val)
    (nucAmts : Dict Val K) (buffer : Option ℤ) (order : ℕ → List ℕ → List ℕ) (hord : ∀ t l, (order t l).Perm l) (draw draw' : ℕ → ℕ)
    (hd : ∀ t : ℕ, (t : ℤ) < 1000 * m + 1 → draw t = draw' t) (fuel : ℕ) :
    G.randomSites (.int n) num bg nucAmts buffer order draw fuel = G.randomSites (.int n) num bg nucAmts buffer order draw' fuel := by
  rw [nearestEven_iff] at hm
  subst hm
  obtain ⟨S, nbs, -, -, -, heq⟩ := randomSites_parts hG n hn num bg nucAmts buffer order hord
  rw [heq, heq]
  exact plantSites_draws (fun t ht => hd t (by omega)) fuel

/-- If more sites are wanted than the grid has, the call raises RuntimeError whatever is drawn. -/
theorem C68_too_many {G : GridSetup K d} (hG : StdSetup d G) (n : ℤ) (hn : 0 < n) (num : K) (m : ℤ) (hm : NearestEven num m) (hmany : n ^ d < m)
    (bg : Val) (hbgw : bg.WF) (nucAmts : Dict Val K) (hw : Dict.WF nucAmts) (hph : ∀ p ∈ Dict.keys nucAmts, p.WF) (hbg : bg ∉ Dict.keys nucAmts)
    (hsum : (nucAmts.map Prod.snd).sum ≠ 0) (buffer : Option ℤ) (order : ℕ → List ℕ → List ℕ) (hord : ∀ t l, (order t l).Perm l) (draw : ℕ → ℕ) (fuel : ℕ)
    (h1 : m.toNat * nucAmts.length ≤ fuel) (h2 : 1000 * m + 2 ≤ fuel) :
    G.randomSites (.int n) num bg nucAmts buffer order draw fuel = some (.error .runtimeError) := by
  rcases C68_terminates hG n hn num m hm bg hbgw nucAmts hw hph hbg hsum buffer order hord draw fuel h1 h2 with ⟨sim, h⟩ | h
  · exfalso
    obtain ⟨hsq, -, hc, -⟩ := C67_random_sites hG n hn num m hm bg hbgw nucAmts hw hph hbg buffer order hord draw fuel sim h
    have hle : (nuclei sim.struct sim.state bg).length ≤ sim.struct.siteIds.length := List.length_filter_le _ _
    have hcnt := hsq.isTorus.count
    rw [Finset.prod_const, Finset.card_univ, Fintype.card_fin] at hcnt
    rw [hc, hcnt] at hle
    have : ((n.toNat ^ d : ℕ) : ℤ) = n ^ d := by push_cast; rw [Int.toNat_of_nonneg hn.le]
    omega
  · exact h

/-- With amounts that are all 0 the call never ends (if a site is wanted at all). -/
theorem C68_zero_amounts {G : GridSetup K d} (hG : StdSetup d G) (n : ℤ) (hn : 0 < n) (num : K) (m : ℤ) (hm : NearestEven num m) (hpos : 0 < m)
    (bg : Val) (nucAmts : Dict Val K) (hw : Dict.WF nucAmts) (hne : nucAmts ≠ []) (hz : ∀ pa ∈ nucAmts, pa.2 = 0) (buffer : Option ℤ)
    (order : ℕ → List ℕ → List ℕ) (hord : ∀ t l, (order t l).Perm l) (draw : ℕ → ℕ) (fuel : ℕ) :
    G.randomSites (.int n) num bg nucAmts buffer order draw fuel = none := by
  rw [nearestEven_iff] at hm
  subst hm
  obtain ⟨S, nbs, -, -, -, heq⟩ := randomSites_parts hG n hn num bg nucAmts buffer order hord
  have hid := hasQuotas_idealSites hw (roundHalfEven num)
  rw [heq, plantSites, quotaLoop_hangs hid (by simpa [Dict.keys] using hne) (fun p x hx => ?_) (qInv_start hw _) (by simpa using hpos)]
  rw [get?_idealSites hw] at hx
  cases ha : Dict.get? nucAmts p with
  | none => rw [ha] at hx; cases hx
  | some a =>
    have h0 : a = 0 := hz _ (Dict.mem_of_get? ha)
    rw [ha, Option.map_some, h0, share, zero_div, zero_mul] at hx
    injection hx with hx
    exact hx.ge

/-! ### every arrangement can be drawn -/

/-- Every arrangement of the right number of sites that keeps the buffer can be drawn; so C67 and C68 are about calls that do return. -/
theorem C67_reachable {G : GridSetup K d} (hG : StdSetup d G) (n : ℤ) (hn : 0 < n) (num : K) (m : ℤ) (hm : NearestEven num m) (bg : Val) (hbgw : bg.WF)
    (nucAmts : Dict Val K) (hw : Dict.WF nucAmts) (hph : ∀ p ∈ Dict.keys nucAmts, p.WF) (hbg : bg ∉ Dict.keys nucAmts)
    (hsum : (nucAmts.map Prod.snd).sum ≠ 0) (buffer : Option ℤ) (order : ℕ → List ℕ → List ℕ) (hord : ∀ t l, (order t l).Perm l)
    (cells : List (Fin d → ℤ)) (hnd : cells.Nodup) (hlen : (cells.length : ℤ) = m) (hbox : ∀ c ∈ cells, InBox (fun _ => n) c)
    (hfar : ∀ r, buffer = some r → ∀ a ∈ cells, ∀ b ∈ cells, a ≠ b → ¬ ChebyshevLE (fun _ => n) a b r) :
    ∃ draw fuel sim, G.randomSites (.int n) num bg nucAmts buffer order draw fuel = some (.ok sim) ∧
      ∀ i c, SiteHas sim.struct i c → (i ∈ nuclei sim.struct sim.state bg ↔ c ∈ cells) := by
  rw [nearestEven_iff] at hm
  subst hm
  obtain ⟨S, nbs, hsq, hne, hnb, heq⟩ := randomSites_parts hG n hn num bg nucAmts buffer order hord
  obtain ⟨draw, fuel, sim, h, hnuc⟩ := plantSites_reachable hsq.isTorus hne hnb (hasQuotas_idealSites hw _) (sub_one_lt_quotaSum hw _ hsum) hbgw hw hph hbg
    cells hnd hlen hbox (by
      rintro a ha b hb hab i j hi hj ⟨r, hr, a', b', ha', hb', hle⟩
      rw [IsTorus.has_unique_coord ha' hi, IsTorus.has_unique_coord hb' hj] at hle
      exact hfar r hr a ha b hb hab hle)
  obtain ⟨rfl, -⟩ := plantSites_ok hsq.isTorus.reachable hne hnb (hasQuotas_idealSites hw _) hbgw hw hph hbg h
  exact ⟨draw, fuel, sim, by rw [heq]; exact h, hnuc⟩

/-- The hypotheses can be met: two nuclei of phases A and B on a 7 x 7 grid with buffer 2. -/
example : ∃ draw fuel sim, gridSetup2.randomSites (K := ℚ) (.int 7) 2 (.str "bg") [(.str "A", 1), (.str "B", 3)] (some 2) (fun _ l => l) draw fuel =
    some (.ok sim) ∧ (nuclei sim.struct sim.state (.str "bg")).length = 2 := by
  have hm : NearestEven (2 : ℚ) 2 := by left; norm_num
  have hw : Dict.WF [(Val.str "A", (1 : ℚ)), (.str "B", 3)] := by simp [Dict.WF, Dict.keys]
  have hph : ∀ p ∈ Dict.keys [(Val.str "A", (1 : ℚ)), (.str "B", 3)], p.WF := by
    intro p hp
    simp [Dict.keys] at hp
    rcases hp with rfl | rfl <;> exact .str _
  have hbg : Val.str "bg" ∉ Dict.keys [(Val.str "A", (1 : ℚ)), (.str "B", 3)] := by simp [Dict.keys]
  obtain ⟨draw, fuel, sim, h, -⟩ := C67_reachable (K := ℚ) .two 7 (by norm_num) 2 2 hm (.str "bg") (.str _) _ hw hph hbg (by norm_num) (some 2)
    (fun _ l => l) (fun _ _ => .refl _) [![0, 0], ![3, 6]] (by decide) rfl
    (by intro c hc j; simp at hc; rcases hc with rfl | rfl <;> fin_cases j <;> simp)
    (by
      intro r hr a ha b hb hab
      cases hr
      simp at ha hb
      rcases ha with rfl | rfl <;> rcases hb with rfl | rfl
      · exact absurd rfl hab
      · exact fun h => absurd (h 0) (by decide)
      · exact fun h => absurd (h 0) (by decide)
      · exact absurd rfl hab)
  exact ⟨draw, fuel, sim, h, (C67_random_sites .two 7 (by norm_num) 2 2 hm (.str "bg") (.str _) _ hw hph hbg (some 2) _ (fun _ _ => .refl _) draw fuel sim h).2.2.1⟩

end Pyl
