import Verif.Lemmas.GridSetup
import Mathlib.Analysis.SpecialFunctions.Sqrt
/-
C64, C65, C66, C69, C83: interfaces, particles, listed coordinates, noise.
-/
set_option autoImplicit false
set_option linter.unusedSectionVars false

namespace Pyl
open Pyl.Lattice Structure SimState Spec
variable {K : Type} [Field K] [LinearOrder K] [IsStrictOrderedRing K] [FloorRing K] {d : ℕ}

theorem Painted.shows {S : Structure K d} (hS : S.Reachable) {s : SimState} {f : Site K d → Val} (h : Painted S s f) {g : (Fin d → ℤ) → Val}
    (e : ∀ t ∈ S.sitesOf none, ∀ c, SiteHas S t.id c → t.loc = intPoint c → f t = g c) : Shows S s g := by
  intro i c hc
  obtain ⟨t, ht, rfl, hl⟩ := site_of_has hS hc
  rw [h.occ t ht, e t ht c hc hl]

theorem pyInt_half {n : ℤ} (hn : 0 < n) : pyInt ((n : K) / 2) = n / 2 := by
  unfold pyInt
  have h0 : (0 : K) ≤ (n : K) / 2 := div_nonneg (by exact_mod_cast hn.le) (by norm_num)
  rw [if_pos h0, Int.floor_eq_iff]
  have h1 : 2 * (n / 2) ≤ n := by omega
  have h2 : n < 2 * (n / 2) + 2 := by omega
  have h1' : (2 : K) * ((n / 2 : ℤ) : K) ≤ n := by exact_mod_cast h1
  have h2' : (n : K) < 2 * ((n / 2 : ℤ) : K) + 2 := by exact_mod_cast h2
  constructor <;> linarith

/-- C64: `setup_interface(n, p1, p2)` gives `p1` to the sites whose first coordinate is below `n // 2` and `p2` to all others. -/
theorem C64_interface {G : GridSetup K d} (hG : StdSetup d G) (n : ℤ) (hn : 0 < n) (p1 p2 : Val) (h1 : p1.WF) (h2 : p2.WF) :
    ∃ S s, G.interface (.int n) p1 p2 = .ok ⟨s, S⟩ ∧ SquareGrid d (fun _ => n) S ∧ StartState S s ∧
      Shows S s fun c => if c ⟨0, StdSetup.dim hG⟩ < n / 2 then p1 else p2 := by
  have hd := StdSetup.dim hG
  obtain ⟨S, hb, hsq, hlen, -⟩ := setup_builds hG hn
  have hS := hsq.isTorus.reachable
  let g : Site K d → Option Val := fun t => some (if t.loc ⟨0, hd⟩ < ((n / 2 : ℤ) : K) then p1 else p2)
  have hp := (painted_blank hS (v := .pyNone) .pyNone).paint hS g (by
    intro t _ v e
    injection e with e
    rw [← e]; split_ifs <;> assumption)
  have e : G.interface (.int n) p1 p2 =
      .ok ⟨(S.sitesOf none).foldl (fun s t => match g t with | some v => setOcc s t.id v | none => s) (GridSetup.blank S .pyNone), S⟩ := by
    unfold GridSetup.interface
    rw [hb, ok_bind, hlen, ok_bind, pyInt_half hn]
    simp only [pure, Except.pure, dif_pos hd, g]
    congr 3
    funext s t
    split_ifs <;> rfl
  refine ⟨S, _, e, hsq, hp.startState hS, hp.shows hS fun t _ c _ hl => ?_⟩
  simp only [g, Option.getD_some, hl, intPoint, Int.cast_lt]

/-! ### particles -/

theorem Painted.addParticle {S : Structure K d} (hS : S.Reachable) {s : SimState} {f : Site K d → Val} (h : Painted S s f) (center : Fin d → K) (r : K)
    {v : Val} (hv : v.WF) : Painted S (GridSetup.addParticle S s center r v) (fun t => if closerThan t.loc center r then v else f t) := by
  have hp := h.paint hS (fun t => if closerThan t.loc center r then some v else none) (by
    intro t _ w e
    split_ifs at e
    injection e with e; rwa [← e])
  have e : GridSetup.addParticle S s center r v = (S.sitesOf none).foldl (fun s t =>
      match (if closerThan t.loc center r then some v else none) with | some v => setOcc s t.id v | none => s) s := by
    unfold GridSetup.addParticle
    congr 1
    funext s t
    split_ifs <;> rfl
  rw [e]
  refine hp.congr fun t _ => ?_
  split_ifs <;> rfl

/-- C65: `setup_particle` gives the particle phase exactly to the sites closer than `radius` to the point with all coordinates `n / 2`, without
wrapping, and the bulk phase to all others (distances compared by their squares). -/
theorem C65_particle {G : GridSetup K d} (hG : StdSetup d G) (n : ℤ) (hn : 0 < n) (r : K) (bulk phase : Val) (h1 : bulk.WF) (h2 : phase.WF) :
    ∃ S s, G.particle (.int n) r bulk phase = .ok ⟨s, S⟩ ∧ SquareGrid d (fun _ => n) S ∧ StartState S s ∧
      Shows S s fun c => if 0 < r ∧ ∑ j, ((c j : K) - n / 2) ^ 2 < r ^ 2 then phase else bulk := by
  obtain ⟨S, hb, hsq, hlen, -⟩ := setup_builds hG hn
  have hS := hsq.isTorus.reachable
  have hp := (painted_blank hS h1).addParticle hS (fun _ => (n : K) / 2) r h2
  refine ⟨S, _, ?_, hsq, hp.startState hS, hp.shows hS fun t _ c _ hl => ?_⟩
  · unfold GridSetup.particle
    rw [hb, ok_bind, hlen, ok_bind]; rfl
  · simp only [closerThan, hl, intPoint, sq]

/-- C65 over the reals, with the Euclidean distance itself. -/
theorem C65_real {G : GridSetup ℝ d} (hG : StdSetup d G) (n : ℤ) (hn : 0 < n) (r : ℝ) (bulk phase : Val) (h1 : bulk.WF) (h2 : phase.WF) :
    ∃ S s, G.particle (.int n) r bulk phase = .ok ⟨s, S⟩ ∧ SquareGrid d (fun _ => n) S ∧ StartState S s ∧ ∀ i c, SiteHas S i c →
      (Real.sqrt (∑ j, ((c j : ℝ) - n / 2) ^ 2) < r → occ? s (.int i) = some phase) ∧
      (¬ Real.sqrt (∑ j, ((c j : ℝ) - n / 2) ^ 2) < r → occ? s (.int i) = some bulk) := by
  obtain ⟨S, s, h3, h4, h5, h6⟩ := C65_particle hG n hn r bulk phase h1 h2
  refine ⟨S, s, h3, h4, h5, fun i c hc => ?_⟩
  have key : (0 < r ∧ ∑ j, ((c j : ℝ) - n / 2) ^ 2 < r ^ 2) ↔ Real.sqrt (∑ j, ((c j : ℝ) - n / 2) ^ 2) < r := by
    constructor
    · rintro ⟨h0, h⟩
      exact (Real.sqrt_lt' h0).2 h
    · intro h
      have h0 : 0 < r := lt_of_le_of_lt (Real.sqrt_nonneg _) h
      exact ⟨h0, (Real.sqrt_lt' h0).1 h⟩
  rw [h6 i c hc]
  exact ⟨fun h => congrArg some (if_pos (key.2 h)), fun h => congrArg some (if_neg fun h' => h (key.1 h'))⟩

/-! ### listed coordinates -/

theorem sameCell_iff {S : Structure K d} {n : ℤ} (h : IsTorus S (fun _ => n)) {x c : Fin d → ℤ} {t : Site K d}
    (ht : S.siteAt (intPoint x) = some t) {i : ℕ} (hc : SiteHas S i c) : i = t.id ↔ SameCell n x c := by
  have hi : S.idAt (intPoint x) = some t.id := by rw [idAt, ht]; rfl
  constructor
  · rintro rfl
    obtain ⟨c', hc', hdiv⟩ := h.idAt_iff.1 hi
    rw [IsTorus.has_unique_coord hc hc']
    intro j
    have := hdiv j
    rwa [← dvd_neg, neg_sub] at this
  · intro hs
    have : S.idAt (intPoint x) = some i := h.idAt_iff.2 ⟨c, hc, fun j => by have := hs j; rwa [← dvd_neg, neg_sub] at this⟩
    rw [hi] at this
    injection this with this; exact this.symm

theorem mem_of_siteAt {S : Structure K d} (hS : S.Reachable) {x : Fin d → K} {t : Site K d} (h : S.siteAt x = some t) : t ∈ S.sitesOf none := by
  unfold siteAt at h
  split at h
  · rename_i i hi
    have := id_of_getSite hS h
    subst this
    exact (mem_sitesOf hS).2 h
  · cases h

/-- One pair after the other. -/
noncomputable def putAll (S : Structure K d) (l : List (Val × (Fin d → K))) (s : SimState) : Py SimState :=
  l.foldlM (fun s pc => match S.siteAt pc.2 with
    | none => .error .typeError
    | some t => .ok (setOcc s t.id pc.1)) s

theorem coords_eq (S : Structure K d) (m : Dict Val (List (Fin d → K))) (s : SimState) :
    m.foldlM (fun s pl => pl.2.foldlM (fun s c => match S.siteAt c with
      | none => .error .typeError
      | some t => .ok (setOcc s t.id pl.1)) s) s = putAll S (listed m) s := by
  unfold putAll listed
  induction m generalizing s with
  | nil => rfl
  | cons a m ih =>
    rw [List.foldlM_cons, List.flatMap_cons, List.foldlM_append, List.foldlM_map]
    congr 1
    funext s'
    exact ih s'

theorem coords_unfold {G : GridSetup K d} {size : SizeArg} {S : Structure K d} (hb : G.builder size = .ok S) (bg : Val)
    (m : Dict Val (List (Fin d → K))) :
    G.coords size bg m = (do let st ← putAll S (listed m) (GridSetup.blank S bg); pure ⟨st, S⟩) := by
  unfold GridSetup.coords
  rw [hb, ok_bind, ← coords_eq]
  rfl

theorem lastListed_append {n : ℤ} {l : List (Val × (Fin d → ℤ))} {bg : Val} {c x : Fin d → ℤ} {p v : Val} (h : LastListed n l bg c v) :
    LastListed n (l ++ [(p, x)]) bg c (open Classical in if SameCell n x c then p else v) := by
  classical
  by_cases hx : SameCell n x c
  · rw [if_pos hx]
    exact .inl ⟨l, p, x, [], rfl, hx, by simp, rfl⟩
  · rw [if_neg hx]
    rcases h with ⟨l1, q, y, l2, rfl, h1, h2, h3⟩ | ⟨h1, h2⟩
    · refine .inl ⟨l1, q, y, l2 ++ [(p, x)], by simp, h1, fun r hr => ?_, h3⟩
      rcases List.mem_append.1 hr with hr | hr
      · exact h2 r hr
      · rw [List.mem_singleton.1 hr]; exact hx
    · refine .inr ⟨fun r hr => ?_, h2⟩
      rcases List.mem_append.1 hr with hr | hr
      · exact h1 r hr
      · rw [List.mem_singleton.1 hr]; exact hx

theorem putAll_spec {S : Structure K d} {n : ℤ} (h : IsTorus S (fun _ => n)) (bg : Val) (hbg : bg.WF) (l : List (Val × (Fin d → ℤ)))
    (hl : ∀ q ∈ l, q.1.WF) :
    ∃ s f, putAll S (l.map fun q => (q.1, intPoint q.2)) (GridSetup.blank S bg) = .ok s ∧ Painted S s f ∧
      ∀ t ∈ S.sitesOf none, ∀ c, SiteHas S t.id c → LastListed n l bg c (f t) := by
  classical
  induction l using List.reverseRecOn with
  | nil => exact ⟨_, _, rfl, painted_blank h.reachable hbg, fun t _ c _ => .inr ⟨by simp, rfl⟩⟩
  | append_singleton l q ih =>
    obtain ⟨s, f, h1, h2, h3⟩ := ih fun r hr => hl r (by simp [hr])
    obtain ⟨t, ht, -⟩ := IsTorus.siteAt S _ h q.2
    have htm := mem_of_siteAt h.reachable ht
    refine ⟨setOcc s t.id q.1, _, ?_, h2.set h.reachable htm (hl q (by simp)), fun u hu c hc => ?_⟩
    · unfold putAll at h1 ⊢
      rw [List.map_append, List.foldlM_append, h1, ok_bind]
      simp only [List.map_cons, List.map_nil, List.foldlM_cons, List.foldlM_nil, ht]
      rfl
    · have := lastListed_append (p := q.1) (x := q.2) (h3 u hu c hc)
      have e := sameCell_iff h ht hc
      by_cases hx : SameCell n q.2 c
      · rw [if_pos hx] at this
        simpa only [if_pos (e.2 hx)] using this
      · rw [if_neg hx] at this
        have hne : ¬ u.id = t.id := fun h' => hx (e.1 h')
        simpa only [if_neg hne] using this

/-- C66: integer coordinates wrap, the last listed phase wins, and everything else is background. -/
theorem C66_coords {G : GridSetup K d} (hG : StdSetup d G) (n : ℤ) (hn : 0 < n) (bg : Val) (hbg : bg.WF) (m : Dict Val (List (Fin d → ℤ)))
    (hm : ∀ pl ∈ m, pl.1.WF) :
    ∃ S s, G.coords (.int n) bg (m.map fun pl => (pl.1, pl.2.map intPoint)) = .ok ⟨s, S⟩ ∧ SquareGrid d (fun _ => n) S ∧ StartState S s ∧
      ∀ i c, SiteHas S i c → ∃ v, occ? s (.int i) = some v ∧ LastListed n (listed m) bg c v := by
  obtain ⟨S, hb, hsq, -⟩ := setup_builds hG hn
  have hS := hsq.isTorus.reachable
  obtain ⟨s, f, h1, h2, h3⟩ := putAll_spec hsq.isTorus bg hbg (listed m) (by
    intro q hq
    obtain ⟨pl, hpl, hq⟩ := List.mem_flatMap.1 hq
    obtain ⟨c, -, rfl⟩ := List.mem_map.1 hq
    exact hm pl hpl)
  refine ⟨S, s, ?_, hsq, h2.startState hS, fun i c hc => ?_⟩
  · rw [coords_unfold hb]
    have e : listed (m.map fun pl => (pl.1, pl.2.map (intPoint : (Fin d → ℤ) → Fin d → K))) = (listed m).map fun q => (q.1, intPoint q.2) := by
      unfold listed
      rw [List.flatMap_map, List.map_flatMap]
      simp [List.map_map, Function.comp_def]
    rw [e, h1]; rfl
  · obtain ⟨t, ht, rfl, -⟩ := site_of_has hS hc
    exact ⟨f t, h2.occ t ht, h3 t ht c hc⟩


/-- A location whose rounded coordinates name a site is close to integers. -/
theorem siteAt_offGrid {S : Structure K d} {N : Fin d → ℤ} (h : IsTorus S N)
    (hint : ∀ (m : Fin d → ℤ) (j : Fin d), ∃ z : ℤ, S.lattice.point (fun i => (m i : K)) j = z) {x : Fin d → K} (hx : OffGrid x) :
    S.siteAt x = none := by
  cases hs : S.siteAt x with
  | none => rfl
  | some t =>
    exfalso
    have htm := mem_of_siteAt h.reachable hs
    obtain ⟨c, -, hc⟩ := h.site t.id ((mem_siteIds_iff h.reachable).2 ⟨t, htm, rfl⟩)
    obtain ⟨hr, hL, ops, hops, e⟩ := h.reach
    rw [e] at hs
    obtain ⟨-, j, cl, y, hj, hk, m, hy, hxp⟩ := ((C45_site_at hr ops x).1 t).1 hs
    obtain ⟨y', hloc, him, hin, -⟩ := C46_aligned_partial hr hL ops hops j t.id cl y hj hk
    rw [← e] at hloc
    unfold SiteHas at hc
    rw [hc] at hloc
    injection hloc with hloc
    obtain ⟨z, hz1, hz2, hz3⟩ := hy
    have hzy : z = y' := by rw [(image_inCell_iff hr).1 ⟨hz1, hz2⟩, (image_inCell_iff hr).1 ⟨him, hin⟩]
    have le1 : ∀ {a : K} {b : ℤ}, NearestOdd a b → |2 * (a - b)| ≤ 1 := by
      rintro a b (h | h)
      · exact h.le
      · exact h.1.le
    have hm : ∀ i, m i = 1000 * c i := by
      intro i
      have h1 := le1 (hz3 i)
      rw [hzy, ← hloc] at h1
      simp only [intPoint] at h1
      have h2 : |2 * (1000 * c i - m i)| ≤ 1 := by exact_mod_cast h1
      rw [abs_le] at h2
      omega
    obtain ⟨w, ⟨q, -, hq⟩, -, hw⟩ := hxp
    obtain ⟨i, hi⟩ := hx
    obtain ⟨zi, hzi⟩ := hint q i
    have hwx : w i - x i = zi := by rw [← hzi, ← hq]; rfl
    have h1 := le1 (hw i)
    rw [hm i] at h1
    have h2 := hi (c i - zi)
    have e3 : x i - ((c i - zi : ℤ) : K) = w i - c i := by push_cast; rw [← hwx]; ring
    rw [e3] at h2
    have e4 : 2 * (1000 * w i - ((1000 * c i : ℤ) : K)) = 2000 * (w i - c i) := by push_cast; ring
    rw [e4, abs_mul, abs_of_pos (by norm_num : (0:K) < 2000)] at h1
    linarith

/-- C66: a coordinate that is not on the grid makes the call raise TypeError, wherever it is listed. -/
theorem C66_off_grid {G : GridSetup K d} (hG : StdSetup d G) (n : ℤ) (hn : 0 < n) (bg : Val) (m : Dict Val (List (Fin d → K)))
    (hx : ∃ pl ∈ m, ∃ x ∈ pl.2, OffGrid x) : G.coords (.int n) bg m = .error .typeError := by
  obtain ⟨S, hb, hsq, -, hint⟩ := setup_builds hG hn
  rw [coords_unfold hb]
  have key : ∀ (l : List (Val × (Fin d → K))) (s : SimState), (∃ q ∈ l, OffGrid q.2) → putAll S l s = .error .typeError := by
    intro l
    induction l with
    | nil => rintro s ⟨q, hq, -⟩; cases hq
    | cons a l ih =>
      rintro s ⟨q, hq, ho⟩
      unfold putAll at ih ⊢
      rw [List.foldlM_cons]
      cases ha : S.siteAt a.2 with
      | none => rfl
      | some t =>
        simp only [ok_bind]
        rcases List.mem_cons.1 hq with rfl | hq
        · rw [siteAt_offGrid hsq.isTorus hint ho] at ha; cases ha
        · exact ih _ ⟨q, hq, ho⟩
  obtain ⟨pl, hpl, x, hxm, ho⟩ := hx
  rw [key (listed m) _ ⟨(pl.1, x), List.mem_flatMap.2 ⟨pl, hpl, List.mem_map.2 ⟨x, hxm, rfl⟩⟩, ho⟩]
  rfl

/-! ### noise -/

theorem choice_mem {α : Type} {l : List α} (h : l ≠ []) (r : ℕ) : ∃ a ∈ l, choice l r = .ok a := by
  have hlt := Nat.mod_lt r (List.length_pos_iff.2 h)
  have hg : l[r % l.length]? = some l[r % l.length] := List.getElem?_eq_getElem hlt
  exact ⟨_, List.getElem_mem hlt, by unfold choice; rw [hg]⟩

theorem choice_nil {α : Type} (r : ℕ) : choice ([] : List α) r = .error .indexError := rfl

/-- C69: with at least one phase, `setup_noise` succeeds and every site holds one of the phases; without phases it raises IndexError. -/
theorem C69_noise {G : GridSetup K d} (hG : StdSetup d G) (n : ℤ) (hn : 0 < n) (phases : List Val) (hp : ∀ p ∈ phases, p.WF) (draw : ℕ → ℕ) :
    (phases ≠ [] → ∃ S s, G.noise (.int n) phases draw = .ok ⟨s, S⟩ ∧ SquareGrid d (fun _ => n) S ∧ StartState S s ∧
      ∀ i ∈ S.siteIds, ∃ p ∈ phases, occ? s (.int i) = some p) ∧
    (phases = [] → G.noise (.int n) phases draw = .error .indexError) := by
  obtain ⟨S, hb, hsq, -⟩ := setup_builds hG hn
  have hS := hsq.isTorus.reachable
  constructor
  · intro hne
    have key : ∀ (l : List (Site K d)), (∀ t ∈ l, t ∈ S.sitesOf none) → ∀ (s : SimState) (f : Site K d → Val) (k : ℕ), Painted S s f →
        ∃ (s' : SimState) (g : Site K d → Val) (k' : ℕ), l.foldlM (fun (sk : SimState × ℕ) t => do
          let phase ← choice phases (draw sk.2)
          pure (setOcc sk.1 t.id phase, sk.2 + 1)) (s, k) = (.ok (s', k') : Py (SimState × ℕ)) ∧ Painted S s' g ∧
          ∀ u ∈ S.sitesOf none, (f u ∈ phases ∨ u ∈ l) → g u ∈ phases := by
      intro l
      induction l with
      | nil =>
        intro _ s f k h
        exact ⟨s, f, k, rfl, h, fun u _ hu => by simpa using hu⟩
      | cons a l ih =>
        intro hl s f k h
        obtain ⟨p, hpm, hc⟩ := choice_mem hne (draw k)
        obtain ⟨s', g, k', h1, h2, h3⟩ := ih (fun t ht => hl t (by simp [ht])) _ _ (k + 1) (h.set hS (hl a (by simp)) (hp p hpm))
        refine ⟨s', g, k', ?_, h2, fun u hu hor => h3 u hu ?_⟩
        · rw [List.foldlM_cons, hc]
          simp only [ok_bind, pure, Except.pure]
          exact h1
        · by_cases e : u.id = a.id
          · exact .inl (by simpa [e] using hpm)
          · rcases hor with h' | h'
            · exact .inl (by simpa [e] using h')
            · rcases List.mem_cons.1 h' with rfl | h'
              · exact absurd rfl e
              · exact .inr h'
    obtain ⟨s', g, k', h1, h2, h3⟩ := key (S.sitesOf none) (fun _ h => h) _ _ 0 (painted_blank hS (v := .pyNone) .pyNone)
    refine ⟨S, s', ?_, hsq, h2.startState hS, fun i hi => ?_⟩
    · unfold GridSetup.noise
      rw [hb, ok_bind, h1]; rfl
    · obtain ⟨t, ht, rfl⟩ := (mem_siteIds_iff hS).1 hi
      exact ⟨g t, h3 t ht (.inr ht), h2.occ t ht⟩
  · rintro rfl
    unfold GridSetup.noise
    rw [hb, ok_bind]
    cases hl : S.sitesOf none with
    | nil =>
      have := hsq.isTorus.ids_ne
      rw [siteIds_eq hS, hl] at this
      exact absurd rfl this
    | cons t l =>
      rw [List.foldlM_cons, choice_nil]; rfl

theorem choice_index {α : Type} {l : List α} {k : ℕ} {a : α} (h : l[k]? = some a) : choice l k = .ok a := by
  obtain ⟨hk, -⟩ := List.getElem?_eq_some_iff.1 h
  unfold choice
  rw [Nat.mod_eq_of_lt hk, h]

/-- C69: every way of filling the grid with the phases can come out. -/
theorem C69_every_filling {G : GridSetup K d} (hG : StdSetup d G) (n : ℤ) (hn : 0 < n) (phases : List Val) (hp : ∀ p ∈ phases, p.WF)
    (f : (Fin d → ℤ) → Val) (hf : ∀ c, f c ∈ phases) : ∃ draw S s, G.noise (.int n) phases draw = .ok ⟨s, S⟩ ∧ Shows S s f := by
  obtain ⟨S, hb, hsq, -⟩ := setup_builds hG hn
  have hS := hsq.isTorus.reachable
  choose x hx using fun c => List.mem_iff_getElem?.1 (hf c)
  have hcoord : ∀ t ∈ S.sitesOf none, ∃ c, SiteHas S t.id c := fun t ht => by
    obtain ⟨c, -, hc⟩ := hsq.isTorus.site t.id ((mem_siteIds_iff hS).2 ⟨t, ht, rfl⟩)
    exact ⟨c, hc⟩
  choose! cc hcc using hcoord
  have key : ∀ (l : List (Site K d)), (∀ t ∈ l, t ∈ S.sitesOf none) → ∀ (s : SimState) (g : Site K d → Val) (k : ℕ) (draw : ℕ → ℕ), Painted S s g →
      (∀ y t, l[y]? = some t → draw (k + y) = x (cc t)) →
      ∃ (s' : SimState) (g' : Site K d → Val) (k' : ℕ), l.foldlM (fun (sk : SimState × ℕ) t => do
        let phase ← choice phases (draw sk.2)
        pure (setOcc sk.1 t.id phase, sk.2 + 1)) (s, k) = (.ok (s', k') : Py (SimState × ℕ)) ∧ Painted S s' g' ∧
        ∀ u ∈ S.sitesOf none, (g u = f (cc u) ∨ u ∈ l) → g' u = f (cc u) := by
    intro l
    induction l with
    | nil =>
      intro _ s g k draw h _
      exact ⟨s, g, k, rfl, h, fun u _ hu => by simpa using hu⟩
    | cons a l ih =>
      intro hl s g k draw h hd
      have hc : choice phases (draw k) = .ok (f (cc a)) := by
        have := hd 0 a rfl
        rw [Nat.add_zero] at this
        rw [this]; exact choice_index (hx _)
      obtain ⟨s', g', k', h1, h2, h3⟩ := ih (fun t ht => hl t (by simp [ht])) _ _ (k + 1) draw (h.set hS (hl a (by simp)) (hp _ (hf (cc a))))
        (fun y t hy => by rw [show k + 1 + y = k + (y + 1) by ring]; exact hd (y + 1) t (by simpa using hy))
      refine ⟨s', g', k', ?_, h2, fun u hu hor => h3 u hu ?_⟩
      · rw [List.foldlM_cons, hc]
        simp only [ok_bind, pure, Except.pure]
        exact h1
      · by_cases e : u.id = a.id
        · have hau : cc u = cc a := by
            have h1 := hcc u hu
            rw [e] at h1
            exact IsTorus.has_unique_coord h1 (hcc a (hl a (by simp)))
          exact .inl (by simp [e, hau])
        · rcases hor with h' | h'
          · exact .inl (by simpa [e] using h')
          · rcases List.mem_cons.1 h' with rfl | h'
            · exact absurd rfl e
            · exact .inr h'
  obtain ⟨draw, hdraw⟩ : ∃ draw : ℕ → ℕ, ∀ y t, (S.sitesOf none)[y]? = some t → draw y = x (cc t) :=
    ⟨fun y => match (S.sitesOf none)[y]? with | some t => x (cc t) | none => 0, fun y t hy => by simp only [hy]⟩
  obtain ⟨s', g', k', h1, h2, h3⟩ := key (S.sitesOf none) (fun _ h => h) _ _ 0 draw (painted_blank hS (v := .pyNone) .pyNone)
    (fun y t hy => by rw [Nat.zero_add]; exact hdraw y t hy)
  refine ⟨draw, S, s', ?_, h2.shows hS fun t ht c hc _ => ?_⟩
  · unfold GridSetup.noise
    rw [hb, ok_bind, h1]; rfl
  · rw [h3 t ht (.inr ht), IsTorus.has_unique_coord (hcc t ht) hc]

/-! ### random particles -/

theorem closer_iff {a b : Fin d → ℤ} {r : K} : closerThan (intPoint a) (fun j => ((b j : ℤ) : K)) r ↔ Closer a b r := by
  unfold closerThan Closer intPoint
  rw [sq r]
  push_cast
  rfl

theorem lastDropped_succ {r : K} {centre : ℕ → Fin d → ℤ} {phase : ℕ → Val} {num : ℕ} {bulk : Val} {c : Fin d → ℤ} {v : Val}
    (h : LastDropped r centre phase num bulk c v) :
    LastDropped r centre phase (num + 1) bulk c (open Classical in if Closer c (centre num) r then phase num else v) := by
  classical
  by_cases hc : Closer c (centre num) r
  · rw [if_pos hc]
    exact .inl ⟨num, by omega, hc, fun q h1 h2 => by omega, rfl⟩
  · rw [if_neg hc]
    rcases h with ⟨p, h1, h2, h3, h4⟩ | ⟨h1, h2⟩
    · refine .inl ⟨p, by omega, h2, fun q h5 h6 => ?_, h4⟩
      by_cases e : q = num
      · rw [e]; exact hc
      · exact h3 q h5 (by omega)
    · refine .inr ⟨fun p hp => ?_, h2⟩
      by_cases e : p = num
      · rw [e]; exact hc
      · exact h1 p (by omega)

theorem pyInt_cast {n : ℤ} (hn : 0 < n) : pyInt (n : K) = n := by
  unfold pyInt
  rw [if_pos (by exact_mod_cast hn.le), Int.floor_intCast]

/-- C83 for whatever `random.choice` picks from (so that every centre and every choice can come out): particles cover the balls of the given radius around grid points; where they overlap the last one
wins; everything else is bulk. -/
theorem C83_particles_partial {G : GridSetup K d} (hG : StdSetup d G) (n : ℤ) (hn : 0 < n) (r : K) (num : ℕ) (bulk : Val) (hbulk : bulk.WF)
    (phases : GridSetup.PhasesArg) (hne : phases.seq ≠ []) (hp : ∀ p ∈ phases.seq, p.WF) (coord : ℕ → Fin d → ℕ) (draw : ℕ → ℕ) :
    ∃ S s centre phase, G.randomParticles (.int n) r num bulk phases coord draw = .ok ⟨s, S⟩ ∧ SquareGrid d (fun _ => n) S ∧ StartState S s ∧
      (∀ p, InBox (fun _ => n) (centre p) ∧ phase p ∈ phases.seq) ∧
      (∀ p j, centre p j = coord p j % n) ∧ (∀ p, phases.seq[draw p % phases.seq.length]? = some (phase p)) ∧
      ∀ i c, SiteHas S i c → ∃ v, occ? s (.int i) = some v ∧ LastDropped r centre phase num bulk c v := by
  classical
  obtain ⟨S, hb, hsq, hlen, -⟩ := setup_builds hG hn
  have hS := hsq.isTorus.reachable
  have : Nonempty Val := ⟨.pyNone⟩
  choose phase hph1 hph2 using fun p => choice_mem hne (draw p)
  let centre : ℕ → Fin d → ℤ := fun p j => (coord p j : ℤ) % n
  have key : ∀ num : ℕ, ∃ (s : SimState) (f : Site K d → Val), (List.range num).foldlM (fun s p => do
      if pyInt (n : K) ≤ 0 then .error .valueError
      else do
        let phase ← choice phases.seq (draw p)
        pure (GridSetup.addParticle S s (fun j => (((coord p j : ℤ) % pyInt (n : K) : ℤ) : K)) r phase)) (GridSetup.blank S bulk) = (.ok s : Py SimState) ∧
      Painted S s f ∧ ∀ t ∈ S.sitesOf none, ∀ c, t.loc = intPoint c → LastDropped r centre phase num bulk c (f t) := by
    intro num
    induction num with
    | zero => exact ⟨_, _, rfl, painted_blank hS hbulk, fun t _ c _ => .inr ⟨by simp, rfl⟩⟩
    | succ num ih =>
      obtain ⟨s, f, h1, h2, h3⟩ := ih
      refine ⟨_, _, ?_, h2.addParticle hS (fun j => ((centre num j : ℤ) : K)) r (hp _ (hph1 num)), fun t ht c hl => ?_⟩
      · rw [List.range_succ, List.foldlM_append, h1, ok_bind, List.foldlM_cons, pyInt_cast hn, if_neg (by omega), hph2 num]
        rfl
      · have := lastDropped_succ (h3 t ht c hl)
        have e : closerThan t.loc (fun j => ((centre num j : ℤ) : K)) r ↔ Closer c (centre num) r := by rw [hl]; exact closer_iff
        by_cases hc : Closer c (centre num) r
        · rw [if_pos hc] at this
          simpa only [if_pos (e.2 hc)] using this
        · rw [if_neg hc] at this
          have hn' : ¬ closerThan t.loc (fun j => ((centre num j : ℤ) : K)) r := fun h' => hc (e.1 h')
          simpa only [if_neg hn'] using this
  obtain ⟨s, f, h1, h2, h3⟩ := key num
  refine ⟨S, s, centre, phase, ?_, hsq, h2.startState hS, fun p => ⟨fun j => ⟨Int.emod_nonneg _ hn.ne', Int.emod_lt_of_pos _ hn⟩, hph1 p⟩,
    fun _ _ => rfl, fun p => ?_, fun i c hc => ?_⟩
  · unfold GridSetup.randomParticles
    rw [hb, ok_bind, hlen, ok_bind, h1]
    rfl
  · have := hph2 p
    unfold choice at this
    split at this
    · rename_i a ha
      injection this with this
      rw [ha, this]
    · cases this
  · obtain ⟨t, ht, rfl, hl⟩ := site_of_has hS hc
    exact ⟨f t, h2.occ t ht, h3 t ht c hl⟩

/-- C83 is false for the documented argument, the name of a phase: unless the name has exactly one character, no site ever gets that phase (the
particles are filled with single letters of the name). -/
theorem C83_false {G : GridSetup K d} (hG : StdSetup d G) (n : ℤ) (hn : 0 < n) (r : K) (num : ℕ) (bulk : Val) (hbulk : bulk.WF) (name : String)
    (hlen : 2 ≤ name.toList.length) (hb : bulk ≠ .str name) (coord : ℕ → Fin d → ℕ) (draw : ℕ → ℕ) :
    ∃ S s, G.randomParticles (.int n) r num bulk (.name name) coord draw = .ok ⟨s, S⟩ ∧ ∀ i ∈ S.siteIds, occ? s (.int i) ≠ some (.str name) := by
  have hseq : ∀ p ∈ (GridSetup.PhasesArg.name name).seq, p.WF ∧ p ≠ .str name := by
    intro p hp
    obtain ⟨c, -, rfl⟩ := List.mem_map.1 hp
    refine ⟨.str _, fun e => ?_⟩
    injection e with e
    rw [← e] at hlen
    simp at hlen
  obtain ⟨S, s, centre, phase, h1, h2, -, h3, -, -, h4⟩ := C83_particles_partial hG n hn r num bulk hbulk (.name name)
    (by intro e; have := congrArg List.length e; simp [GridSetup.PhasesArg.seq] at this; rw [this] at hlen; simp at hlen) (fun p hp => (hseq p hp).1) coord draw
  refine ⟨S, s, h1, fun i hi => ?_⟩
  obtain ⟨c, -, hc⟩ := h2.isTorus.site i hi
  obtain ⟨v, hv, hl⟩ := h4 i c hc
  rw [hv]
  rintro e
  injection e with e
  subst e
  rcases hl with ⟨p, -, -, -, e⟩ | ⟨-, e⟩
  · exact (hseq _ (h3 p).2).2 e.symm
  · exact hb e.symm

/-! ### the hypotheses can be met -/

/-- A 4 x 4 interface: (1, 3) is on the left, (2, 0) on the right. -/
example : ∃ (S : Structure ℚ 2) (s : SimState), gridSetup2.interface (.int 4) (.str "A") (.str "B") = .ok ⟨s, S⟩ ∧
    (∀ i, SiteHas S i ![1, 3] → occ? s (.int i) = some (.str "A")) ∧ (∀ i, SiteHas S i ![2, 0] → occ? s (.int i) = some (.str "B")) := by
  obtain ⟨S, s, h1, -, -, h2⟩ := C64_interface (K := ℚ) .two 4 (by norm_num) (.str "A") (.str "B") (.str _) (.str _)
  exact ⟨S, s, h1, fun i hi => h2 i _ hi, fun i hi => h2 i _ hi⟩

/-- On a grid of side 5 a coordinate listed as (6, -1) fills (1, 4); (0.5, 0) raises. -/
example : (∃ (S : Structure ℚ 2) (s : SimState), gridSetup2.coords (.int 5) (.str "A") [(.str "B", [![(6 : ℚ), -1]])] = .ok ⟨s, S⟩ ∧
    ∀ i, SiteHas S i ![1, 4] → occ? s (.int i) = some (.str "B")) ∧
    gridSetup2.coords (.int 5) (.str "A") [(.str "B", [![(1 : ℚ) / 2, 0]])] = .error .typeError := by
  constructor
  · obtain ⟨S, s, h1, -, -, h2⟩ := C66_coords (K := ℚ) .two 5 (by norm_num) (.str "A") (.str _) [(.str "B", [![6, -1]])] (by simp; exact .str _)
    refine ⟨S, s, ?_, fun i hi => ?_⟩
    · rw [← h1]
      have e : (intPoint ![6, -1] : Fin 2 → ℚ) = ![6, -1] := by funext j; fin_cases j <;> simp [intPoint]
      simp only [List.map_cons, List.map_nil, e]
    · obtain ⟨v, hv, h3⟩ := h2 i _ hi
      rw [hv]
      rcases h3 with ⟨l1, p, x, l2, e, -, -, rfl⟩ | ⟨h3, -⟩
      · have : (v, x) ∈ listed [(Val.str "B", [![(6 : ℤ), -1]])] := by rw [e]; simp
        simp [listed] at this
        rw [this.1]
      · exact absurd (by intro j; fin_cases j <;> simp) (h3 (.str "B", ![6, -1]) (by simp [listed]))
  · refine C66_off_grid .two 5 (by norm_num) _ _ ⟨_, List.mem_singleton.2 rfl, _, List.mem_singleton.2 rfl, 0, fun m => ?_⟩
    simp only [Matrix.cons_val_zero]
    rcases le_or_gt m 0 with h | h
    · have : (m : ℚ) ≤ 0 := by exact_mod_cast h
      rw [lt_abs]; left; linarith
    · have : (1 : ℚ) ≤ m := by exact_mod_cast h
      rw [lt_abs]; right; linarith

end Pyl
