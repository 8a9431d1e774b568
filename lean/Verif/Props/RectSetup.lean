import Verif.Props.RandomSites
import Verif.Spec.RectSetup
/-
C149: the grid setups for sizes given as tuples (rectangular grids).
-/
set_option autoImplicit false
set_option linter.unusedSectionVars false

namespace Pyl
open Pyl.Lattice Structure SimState Spec GridSetup
variable {K : Type} [Field K] [LinearOrder K] [IsStrictOrderedRing K] [FloorRing K] {d : ℕ}

/-! ### the structures -/

theorem Spec.SetupSize.first_pos {size : SizeArg} {N : Fin d → ℤ} {a : ℤ} (h : SetupSize d size N a) : 0 < a := by cases h <;> assumption

theorem Spec.SetupSize.pos {size : SizeArg} {N : Fin d → ℤ} {a : ℤ} (h : SetupSize d size N a) (j : Fin d) : 0 < N j := by
  cases h with
  | int _ _ hn => exact hn
  | two a b ha hb => fin_cases j <;> assumption
  | three a b c ha hb hc => fin_cases j <;> assumption

theorem vecLength0_rect {L : Lattice K d} {σ : Fin d → Fin d} (h : IsGrid L σ) (hd : 0 < d) {n : Fin d → ℤ} (hn : 0 < n ⟨0, hd⟩) :
    vecLength0 (L.scaled n) = .ok ((n ⟨0, hd⟩ : ℤ) : K) := by
  unfold vecLength0
  rw [dif_pos hd, rootOf_sq (r := ((n ⟨0, hd⟩ : ℤ) : K)) (by exact_mod_cast hn.le)]
  rw [Finset.sum_eq_single (σ ⟨0, hd⟩)]
  · simp [scaled, h.mat, sq]
  · intro b _ hb
    simp [scaled, h.mat, hb]
  · simp

/-- The structure a setup builds. -/
theorem setup_builds_rect {G : GridSetup K d} (hG : StdSetup d G) {size : SizeArg} {N : Fin d → ℤ} {a : ℤ} (hs : SetupSize d size N a) :
    ∃ S, G.builder size = .ok S ∧ SquareGrid d N S ∧ vecLength0 S.lattice = .ok (a : K) ∧
      ∀ (m : Fin d → ℤ) (j : Fin d), ∃ z : ℤ, S.lattice.point (fun i => (m i : K)) j = z := by
  cases hs with
  | int _ n hn => exact setup_builds hG hn
  | two a b ha hb =>
    cases hG
    obtain ⟨S, h1, h2, -⟩ := (isGrid2 (K := K)).build_grid ![a, b] fun i => by fin_cases i <;> assumption
    have e : buildSquare2 (K := K) (.tup [a, b]) = .ok S := by
      rw [← h1, buildSquare2, build, dif_pos (by rfl)]
      congr 1
      funext i; fin_cases i <;> rfl
    refine ⟨S, e, .two _ S b a hb ha (.inl rfl) e, ?_, ?_⟩
    · rw [h2]; exact vecLength0_rect (n := ![a, b]) isGrid2 two_pos ha
    · intro m j
      rw [h2, isGrid2.point_scaled]
      exact ⟨_, (Int.cast_mul _ _).symm⟩
  | three a b c ha hb hc =>
    cases hG
    obtain ⟨S, h1, h2, -⟩ := (isGrid3 (K := K)).build_grid ![a, b, c] fun i => by fin_cases i <;> assumption
    have e : buildSquare3 (K := K) (.tup [a, b, c]) = .ok S := by
      rw [← h1, buildSquare3, build, dif_pos (by rfl)]
      congr 1
      funext i; fin_cases i <;> rfl
    refine ⟨S, e, .three _ S b a c hb ha hc (.inl rfl) e, ?_, ?_⟩
    · rw [h2]; exact vecLength0_rect (n := ![a, b, c]) isGrid3 three_pos ha
    · intro m j
      rw [h2, isGrid3.point_scaled]
      exact ⟨_, (Int.cast_mul _ _).symm⟩

/-! ### interfaces and particles -/

/-- C149: `setup_interface` splits the FIRST axis at half the FIRST entry of the size, which is the extent of the second axis. -/
theorem C149_interface {G : GridSetup K d} (hG : StdSetup d G) {size : SizeArg} {N : Fin d → ℤ} {a : ℤ} (hs : SetupSize d size N a)
    (p1 p2 : Val) (h1 : p1.WF) (h2 : p2.WF) :
    ∃ S s, G.interface size p1 p2 = .ok ⟨s, S⟩ ∧ SquareGrid d N S ∧ StartState S s ∧
      Shows S s fun c => if c ⟨0, StdSetup.dim hG⟩ < a / 2 then p1 else p2 := by
  have hd := StdSetup.dim hG
  obtain ⟨S, hb, hsq, hlen, -⟩ := setup_builds_rect hG hs
  have hS := hsq.isTorus.reachable
  let g : Site K d → Option Val := fun t => some (if t.loc ⟨0, hd⟩ < ((a / 2 : ℤ) : K) then p1 else p2)
  have hp := (painted_blank hS (v := .pyNone) .pyNone).paint hS g (by
    intro t _ v e
    injection e with e
    rw [← e]; split_ifs <;> assumption)
  have e : G.interface size p1 p2 =
      .ok ⟨(S.sitesOf none).foldl (fun s t => match g t with | some v => setOcc s t.id v | none => s) (GridSetup.blank S .pyNone), S⟩ := by
    unfold GridSetup.interface
    rw [hb, ok_bind, hlen, ok_bind, pyInt_half hs.first_pos]
    simp only [pure, Except.pure, dif_pos hd, g]
    congr 3
    funext s t
    split_ifs <;> rfl
  refine ⟨S, _, e, hsq, hp.startState hS, hp.shows hS fun t _ c _ hl => ?_⟩
  simp only [g, Option.getD_some, hl, intPoint, Int.cast_lt]

/-- C149: on a grid that is at most half as wide as it is high (along the second axis) there is no interface: every site has the first phase. -/
theorem C149_no_interface {G : GridSetup K d} (hG : StdSetup d G) {size : SizeArg} {N : Fin d → ℤ} {a : ℤ} (hs : SetupSize d size N a)
    (hflat : N ⟨0, StdSetup.dim hG⟩ ≤ a / 2) (p1 p2 : Val) (h1 : p1.WF) (h2 : p2.WF) :
    ∃ S s, G.interface size p1 p2 = .ok ⟨s, S⟩ ∧ ∀ i ∈ S.siteIds, occ? s (.int i) = some p1 := by
  obtain ⟨S, s, h3, hsq, -, h4⟩ := C149_interface hG hs p1 p2 h1 h2
  refine ⟨S, s, h3, fun i hi => ?_⟩
  obtain ⟨c, hbox, hc⟩ := hsq.isTorus.site i hi
  rw [h4 i c hc]
  exact congrArg some (if_pos (lt_of_lt_of_le (hbox _).2 hflat))

/-- C149: `setup_particle` puts the particle around the point all of whose coordinates are half the first entry of the size. -/
theorem C149_particle {G : GridSetup K d} (hG : StdSetup d G) {size : SizeArg} {N : Fin d → ℤ} {a : ℤ} (hs : SetupSize d size N a) (r : K)
    (bulk phase : Val) (h1 : bulk.WF) (h2 : phase.WF) :
    ∃ S s, G.particle size r bulk phase = .ok ⟨s, S⟩ ∧ SquareGrid d N S ∧ StartState S s ∧
      Shows S s fun c => if 0 < r ∧ ∑ j, ((c j : K) - a / 2) ^ 2 < r ^ 2 then phase else bulk := by
  obtain ⟨S, hb, hsq, hlen, -⟩ := setup_builds_rect hG hs
  have hS := hsq.isTorus.reachable
  have hp := (painted_blank hS h1).addParticle hS (fun _ => (a : K) / 2) r h2
  refine ⟨S, _, ?_, hsq, hp.startState hS, hp.shows hS fun t _ c _ hl => ?_⟩
  · unfold GridSetup.particle
    rw [hb, ok_bind, hlen, ok_bind]; rfl
  · simp only [closerThan, hl, intPoint, sq]

/-- C149: on a grid too narrow for that point there is no particle at all. -/
theorem C149_no_particle {G : GridSetup K d} (hG : StdSetup d G) {size : SizeArg} {N : Fin d → ℤ} {a : ℤ} (hs : SetupSize d size N a) (r : K)
    (j : Fin d) (hflat : (N j : K) - 1 + r ≤ a / 2) (bulk phase : Val) (h1 : bulk.WF) (h2 : phase.WF) :
    ∃ S s, G.particle size r bulk phase = .ok ⟨s, S⟩ ∧ ∀ i ∈ S.siteIds, occ? s (.int i) = some bulk := by
  obtain ⟨S, s, h3, hsq, -, h4⟩ := C149_particle hG hs r bulk phase h1 h2
  refine ⟨S, s, h3, fun i hi => ?_⟩
  obtain ⟨c, hbox, hc⟩ := hsq.isTorus.site i hi
  rw [h4 i c hc]
  refine congrArg some (if_neg ?_)
  rintro ⟨hr, hlt⟩
  have hcj : (c j : K) ≤ N j - 1 := by
    have := (hbox j).2
    have : c j ≤ N j - 1 := by omega
    exact_mod_cast this
  have hle : ((c j : K) - a / 2) ^ 2 ≤ ∑ j, ((c j : K) - a / 2) ^ 2 :=
    Finset.single_le_sum (f := fun j => ((c j : K) - a / 2) ^ 2) (fun _ _ => sq_nonneg _) (Finset.mem_univ j)
  nlinarith

/-- C149: `setup_random_particles` draws every coordinate of a centre from `0, ..., a - 1` for the first entry `a` of the size, whatever the extent of
that axis; the last particle that covers a site wins. -/
theorem C149_random_particles {G : GridSetup K d} (hG : StdSetup d G) {size : SizeArg} {N : Fin d → ℤ} {a : ℤ} (hs : SetupSize d size N a) (r : K) (num : ℕ)
    (bulk : Val) (hbulk : bulk.WF) (phases : GridSetup.PhasesArg) (hne : phases.seq ≠ []) (hp : ∀ p ∈ phases.seq, p.WF) (coord : ℕ → Fin d → ℕ)
    (draw : ℕ → ℕ) :
    ∃ S s phase, G.randomParticles size r num bulk phases coord draw = .ok ⟨s, S⟩ ∧ SquareGrid d N S ∧ StartState S s ∧
      (∀ p, phases.seq[draw p % phases.seq.length]? = some (phase p)) ∧
      ∀ i c, SiteHas S i c → ∃ v, occ? s (.int i) = some v ∧ LastDropped r (fun p j => (coord p j : ℤ) % a) phase num bulk c v := by
  classical
  obtain ⟨S, hb, hsq, hlen, -⟩ := setup_builds_rect hG hs
  have hn := hs.first_pos
  have hS := hsq.isTorus.reachable
  have : Nonempty Val := ⟨.pyNone⟩
  choose phase hph1 hph2 using fun p => choice_mem hne (draw p)
  let centre : ℕ → Fin d → ℤ := fun p j => (coord p j : ℤ) % a
  have key : ∀ num : ℕ, ∃ (s : SimState) (f : Site K d → Val), (List.range num).foldlM (fun s p => do
      if pyInt (a : K) ≤ 0 then .error .valueError
      else do
        let phase ← choice phases.seq (draw p)
        pure (GridSetup.addParticle S s (fun j => (((coord p j : ℤ) % pyInt (a : K) : ℤ) : K)) r phase)) (GridSetup.blank S bulk) = (.ok s : Py SimState) ∧
      Painted S s f ∧ ∀ t ∈ S.sitesOf none, ∀ c, t.loc = intPoint c → LastDropped r centre phase num bulk c (f t) := by
    intro num
    induction num with
    | zero => exact ⟨_, _, rfl, painted_blank hS hbulk, fun t _ c _ => .inr ⟨by simp, rfl⟩⟩
    | succ num ih =>
      obtain ⟨s, f, h1, h2, h3⟩ := ih
      refine ⟨_, _, ?_, h2.addParticle hS (fun j => ((centre num j : ℤ) : K)) r (hp _ (hph1 num)), fun t ht c hl => ?_⟩
      · rw [List.range_succ, List.foldlM_append, h1, ok_bind, List.foldlM_cons, pyInt_cast hn, if_neg (by omega), hph2 num]
        rfl
      · have := lastDropped_succ (h3 t ht c hl)
        have e : closerThan t.loc (fun j => ((centre num j : ℤ) : K)) r ↔ Closer c (centre num) r := by rw [hl]; exact closer_iff
        by_cases hc : Closer c (centre num) r
        · rw [if_pos hc] at this
          simpa only [if_pos (e.2 hc)] using this
        · rw [if_neg hc] at this
          have hn' : ¬ closerThan t.loc (fun j => ((centre num j : ℤ) : K)) r := fun h' => hc (e.1 h')
          simpa only [if_neg hn'] using this
  obtain ⟨s, f, h1, h2, h3⟩ := key num
  refine ⟨S, s, phase, ?_, hsq, h2.startState hS, fun p => ?_, fun i c hc => ?_⟩
  · unfold GridSetup.randomParticles
    rw [hb, ok_bind, hlen, ok_bind, h1]
    rfl
  · have := hph2 p
    unfold choice at this
    split at this
    · rename_i v hv
      injection this with this
      rw [← this]; exact hv
    · cases this
  · obtain ⟨t, ht, rfl, hl⟩ := site_of_has hS hc
    exact ⟨f t, h2.occ t ht, h3 t ht c hl⟩

/-! ### listed coordinates -/

theorem sameCellIn_iff {S : Structure K d} {N : Fin d → ℤ} (h : IsTorus S N) {x c : Fin d → ℤ} {t : Site K d}
    (ht : S.siteAt (intPoint x) = some t) {i : ℕ} (hc : SiteHas S i c) : i = t.id ↔ SameCellIn N x c := by
  have hi : S.idAt (intPoint x) = some t.id := by rw [idAt, ht]; rfl
  constructor
  · rintro rfl
    obtain ⟨c', hc', hdiv⟩ := h.idAt_iff.1 hi
    rw [IsTorus.has_unique_coord hc hc']
    intro j
    have := hdiv j
    rwa [← dvd_neg, neg_sub] at this
  · intro hs
    have : S.idAt (intPoint x) = some i := h.idAt_iff.2 ⟨c, hc, fun j => by have := hs j; rwa [← dvd_neg, neg_sub] at this⟩
    rw [hi] at this
    injection this with this; exact this.symm

theorem lastListedIn_append {N : Fin d → ℤ} {l : List (Val × (Fin d → ℤ))} {bg : Val} {c x : Fin d → ℤ} {p v : Val} (h : LastListedIn N l bg c v) :
    LastListedIn N (l ++ [(p, x)]) bg c (open Classical in if SameCellIn N x c then p else v) := by
  classical
  by_cases hx : SameCellIn N x c
  · rw [if_pos hx]
    exact .inl ⟨l, p, x, [], rfl, hx, by simp, rfl⟩
  · rw [if_neg hx]
    rcases h with ⟨l1, q, y, l2, rfl, h1, h2, h3⟩ | ⟨h1, h2⟩
    · refine .inl ⟨l1, q, y, l2 ++ [(p, x)], by simp, h1, fun r hr => ?_, h3⟩
      rcases List.mem_append.1 hr with hr | hr
      · exact h2 r hr
      · rw [List.mem_singleton.1 hr]; exact hx
    · refine .inr ⟨fun r hr => ?_, h2⟩
      rcases List.mem_append.1 hr with hr | hr
      · exact h1 r hr
      · rw [List.mem_singleton.1 hr]; exact hx

theorem putAll_rect {S : Structure K d} {N : Fin d → ℤ} (h : IsTorus S N) (bg : Val) (hbg : bg.WF) (l : List (Val × (Fin d → ℤ)))
    (hl : ∀ q ∈ l, q.1.WF) :
    ∃ s f, putAll S (l.map fun q => (q.1, intPoint q.2)) (GridSetup.blank S bg) = .ok s ∧ Painted S s f ∧
      ∀ t ∈ S.sitesOf none, ∀ c, SiteHas S t.id c → LastListedIn N l bg c (f t) := by
  classical
  induction l using List.reverseRecOn with
  | nil => exact ⟨_, _, rfl, painted_blank h.reachable hbg, fun t _ c _ => .inr ⟨by simp, rfl⟩⟩
  | append_singleton l q ih =>
    obtain ⟨s, f, h1, h2, h3⟩ := ih fun r hr => hl r (by simp [hr])
    obtain ⟨t, ht, -⟩ := IsTorus.siteAt S _ h q.2
    have htm := mem_of_siteAt h.reachable ht
    refine ⟨setOcc s t.id q.1, _, ?_, h2.set h.reachable htm (hl q (by simp)), fun u hu c hc => ?_⟩
    · unfold putAll at h1 ⊢
      rw [List.map_append, List.foldlM_append, h1, ok_bind]
      simp only [List.map_cons, List.map_nil, List.foldlM_cons, List.foldlM_nil, ht]
      rfl
    · have := lastListedIn_append (p := q.1) (x := q.2) (h3 u hu c hc)
      have e := sameCellIn_iff h ht hc
      by_cases hx : SameCellIn N q.2 c
      · rw [if_pos hx] at this
        simpa only [if_pos (e.2 hx)] using this
      · rw [if_neg hx] at this
        have hne : ¬ u.id = t.id := fun h' => hx (e.1 h')
        simpa only [if_neg hne] using this

/-- C149: in `setup_coords` coordinates wrap along every axis with the extent of that axis, the last listed phase wins, and everything else is background. -/
theorem C149_coords {G : GridSetup K d} (hG : StdSetup d G) {size : SizeArg} {N : Fin d → ℤ} {a : ℤ} (hs : SetupSize d size N a) (bg : Val) (hbg : bg.WF)
    (m : Dict Val (List (Fin d → ℤ))) (hm : ∀ pl ∈ m, pl.1.WF) :
    ∃ S s, G.coords size bg (m.map fun pl => (pl.1, pl.2.map intPoint)) = .ok ⟨s, S⟩ ∧ SquareGrid d N S ∧ StartState S s ∧
      ∀ i c, SiteHas S i c → ∃ v, occ? s (.int i) = some v ∧ LastListedIn N (listed m) bg c v := by
  obtain ⟨S, hb, hsq, -⟩ := setup_builds_rect hG hs
  have hS := hsq.isTorus.reachable
  obtain ⟨s, f, h1, h2, h3⟩ := putAll_rect hsq.isTorus bg hbg (listed m) (by
    intro q hq
    obtain ⟨pl, hpl, hq⟩ := List.mem_flatMap.1 hq
    obtain ⟨c, -, rfl⟩ := List.mem_map.1 hq
    exact hm pl hpl)
  refine ⟨S, s, ?_, hsq, h2.startState hS, fun i c hc => ?_⟩
  · rw [coords_unfold hb]
    have e : listed (m.map fun pl => (pl.1, pl.2.map (intPoint : (Fin d → ℤ) → Fin d → K))) = (listed m).map fun q => (q.1, intPoint q.2) := by
      unfold listed
      rw [List.flatMap_map, List.map_flatMap]
      simp [List.map_map, Function.comp_def]
    rw [e, h1]; rfl
  · obtain ⟨t, ht, rfl, -⟩ := site_of_has hS hc
    exact ⟨f t, h2.occ t ht, h3 t ht c hc⟩

/-! ### noise -/

/-- C149: with at least one phase, `setup_noise` gives every site one of the phases. -/
theorem C149_noise {G : GridSetup K d} (hG : StdSetup d G) {size : SizeArg} {N : Fin d → ℤ} {a : ℤ} (hs : SetupSize d size N a) (phases : List Val)
    (hne : phases ≠ []) (hp : ∀ p ∈ phases, p.WF) (draw : ℕ → ℕ) :
    ∃ S s, G.noise size phases draw = .ok ⟨s, S⟩ ∧ SquareGrid d N S ∧ StartState S s ∧ ∀ i ∈ S.siteIds, ∃ p ∈ phases, occ? s (.int i) = some p := by
  obtain ⟨S, hb, hsq, -⟩ := setup_builds_rect hG hs
  have hS := hsq.isTorus.reachable
  have key : ∀ (l : List (Site K d)), (∀ t ∈ l, t ∈ S.sitesOf none) → ∀ (s : SimState) (f : Site K d → Val) (k : ℕ), Painted S s f →
      ∃ (s' : SimState) (g : Site K d → Val) (k' : ℕ), l.foldlM (fun (sk : SimState × ℕ) t => do
        let phase ← choice phases (draw sk.2)
        pure (setOcc sk.1 t.id phase, sk.2 + 1)) (s, k) = (.ok (s', k') : Py (SimState × ℕ)) ∧ Painted S s' g ∧
        ∀ u ∈ S.sitesOf none, (f u ∈ phases ∨ u ∈ l) → g u ∈ phases := by
    intro l
    induction l with
    | nil =>
      intro _ s f k h
      exact ⟨s, f, k, rfl, h, fun u _ hu => by simpa using hu⟩
    | cons t l ih =>
      intro hl s f k h
      obtain ⟨p, hpm, hc⟩ := choice_mem hne (draw k)
      obtain ⟨s', g, k', h1, h2, h3⟩ := ih (fun t ht => hl t (by simp [ht])) _ _ (k + 1) (h.set hS (hl t (by simp)) (hp p hpm))
      refine ⟨s', g, k', ?_, h2, fun u hu hor => h3 u hu ?_⟩
      · rw [List.foldlM_cons, hc]
        simp only [ok_bind, pure, Except.pure]
        exact h1
      · by_cases e : u.id = t.id
        · exact .inl (by simpa [e] using hpm)
        · rcases hor with h' | h'
          · exact .inl (by simpa [e] using h')
          · rcases List.mem_cons.1 h' with rfl | h'
            · exact absurd rfl e
            · exact .inr h'
  obtain ⟨s', g, k', h1, h2, h3⟩ := key (S.sitesOf none) (fun _ h => h) _ _ 0 (painted_blank hS (v := .pyNone) .pyNone)
  refine ⟨S, s', ?_, hsq, h2.startState hS, fun i hi => ?_⟩
  · unfold GridSetup.noise
    rw [hb, ok_bind, h1]; rfl
  · obtain ⟨t, ht, rfl⟩ := (mem_siteIds_iff hS).1 hi
    exact ⟨g t, h3 t ht (.inr ht), h2.occ t ht⟩

/-! ### random sites -/

/-- Two sites that are at most `r` apart along every axis of the torus. -/
def nearIn (S : Structure K d) (N : Fin d → ℤ) (buffer : Option ℤ) (i j : ℕ) : Prop :=
  ∃ r, buffer = some r ∧ ∃ a b, SiteHas S i a ∧ SiteHas S j b ∧ ChebyshevLE N a b r

theorem nearIn_symm {S : Structure K d} {N : Fin d → ℤ} (hN : ∀ j, 0 < N j) {buffer : Option ℤ} (i j : ℕ) (h : nearIn S N buffer i j) :
    nearIn S N buffer j i := by
  obtain ⟨r, hr, a, b, ha, hb, h⟩ := h
  refine ⟨r, hr, b, a, hb, ha, fun k => ?_⟩
  have := circ_neg (hN k) (h k)
  rwa [neg_sub] at this

theorem nbsOK_rect {S : Structure K d} {N : Fin d → ℤ} (hN : ∀ j, 0 < N j) (hT : IsTorus S N) {r : ℤ} {g : Graph K} (hg : (moore r).get S none = .ok g)
    {order : ℕ → List ℕ → List ℕ} (hord : ∀ t l, (order t l).Perm l) :
    NbsOK S (some fun t i => order t (g.neighborsOf i)) (nearIn S N (some r)) := by
  have hS := hT.reachable
  obtain ⟨g', hg', hm⟩ := torus_moore hT r
  rw [hg] at hg'; injection hg' with hg'; subst hg'
  refine ⟨nearIn_symm hN, fun t i hi => ⟨fun j hj => ?_, fun j hj hji hnear => ?_⟩⟩
  · have hj' := (hord t _).mem_iff.1 hj
    have hk := (C55_known_and_other hS _ _ g hg i).1 j hj'
    obtain ⟨a, -, ha⟩ := hT.site i hi
    obtain ⟨b, -, hb⟩ := hT.site j hk.1
    exact ⟨hk.1, hk.2.1, r, rfl, a, b, ha, hb, ((hm i j a b ha hb).1 hj').2⟩
  · obtain ⟨r', hr', a, b, ha, hb, h⟩ := hnear
    cases hr'
    exact (hord t _).mem_iff.2 ((hm i j a b ha hb).2 ⟨hji, h⟩)

theorem randomSites_rect {G : GridSetup K d} (hG : StdSetup d G) {size : SizeArg} {N : Fin d → ℤ} {a : ℤ} (hs : SetupSize d size N a) (num : K) (bg : Val)
    (nucAmts : Dict Val K) (buffer : Option ℤ) (order : ℕ → List ℕ → List ℕ) (hord : ∀ t l, (order t l).Perm l) :
    ∃ S nbs, SquareGrid d N S ∧ S.sitesOf none ≠ [] ∧ NbsOK S nbs (nearIn S N buffer) ∧ ∀ draw fuel,
      G.randomSites size num bg nucAmts buffer order draw fuel =
        plantSites S nbs (roundHalfEven num) bg nucAmts (idealSites nucAmts (roundHalfEven num)) draw fuel := by
  obtain ⟨S, hb, hsq, -⟩ := setup_builds_rect hG hs
  have hT := hsq.isTorus
  cases buffer with
  | none =>
    refine ⟨S, none, hsq, hT.sites_ne, ⟨nearIn_symm hs.pos, fun _ _ h => by obtain ⟨r, hr, -⟩ := h; cases hr⟩, fun draw fuel => ?_⟩
    unfold GridSetup.randomSites
    rw [hb]
  | some r =>
    obtain ⟨g, hg, -⟩ := C53_moore hsq r
    refine ⟨S, some fun t i => order t (g.neighborsOf i), hsq, hT.sites_ne, nbsOK_rect hs.pos hT hg hord, fun draw fuel => ?_⟩
    unfold GridSetup.randomSites
    rw [hb]
    simp only [hg]
    rfl

/-- C149: when `setup_random_sites` returns, exactly the desired number of sites has another phase than the background; with a buffer, any two of them are
more than the buffer apart along some axis of the rectangular torus. -/
theorem C149_random_sites {G : GridSetup K d} (hG : StdSetup d G) {size : SizeArg} {N : Fin d → ℤ} {a : ℤ} (hs : SetupSize d size N a) (num : K) (m : ℤ)
    (hm : NearestEven num m) (bg : Val) (hbgw : bg.WF) (nucAmts : Dict Val K) (hw : Dict.WF nucAmts) (hph : ∀ p ∈ Dict.keys nucAmts, p.WF)
    (hbg : bg ∉ Dict.keys nucAmts) (buffer : Option ℤ) (order : ℕ → List ℕ → List ℕ) (hord : ∀ t l, (order t l).Perm l) (draw : ℕ → ℕ) (fuel : ℕ)
    (sim : Simulation K d) (h : G.randomSites size num bg nucAmts buffer order draw fuel = some (.ok sim)) :
    SquareGrid d N sim.struct ∧ StartState sim.struct sim.state ∧ (nuclei sim.struct sim.state bg).length = m.toNat ∧
      ∀ r, buffer = some r → ∀ i ∈ nuclei sim.struct sim.state bg, ∀ j ∈ nuclei sim.struct sim.state bg, i ≠ j →
        ∀ x y, SiteHas sim.struct i x → SiteHas sim.struct j y → ¬ ChebyshevLE N x y r := by
  rw [nearestEven_iff] at hm
  subst hm
  obtain ⟨S, nbs, hsq, hne, hnb, heq⟩ := randomSites_rect hG hs num bg nucAmts buffer order hord
  rw [heq] at h
  obtain ⟨rfl, h1, h2, h3⟩ := plantSites_sites hsq.isTorus.reachable hne hnb (hasQuotas_idealSites hw _) hbgw hw hph hbg h
  refine ⟨hsq, h1, h2, ?_⟩
  intro r hr i hi j hj hij x y hx hy hxy
  exact h3 i hi j hj hij ⟨r, hr, x, y, hx, hy, hxy⟩

/-- C149: every set of cells that are far enough apart on the rectangular torus can come out, and the call never runs for ever. -/
theorem C149_reachable {G : GridSetup K d} (hG : StdSetup d G) {size : SizeArg} {N : Fin d → ℤ} {a : ℤ} (hs : SetupSize d size N a) (num : K) (m : ℤ)
    (hm : NearestEven num m) (bg : Val) (hbgw : bg.WF) (nucAmts : Dict Val K) (hw : Dict.WF nucAmts) (hph : ∀ p ∈ Dict.keys nucAmts, p.WF)
    (hbg : bg ∉ Dict.keys nucAmts) (hsum : (nucAmts.map Prod.snd).sum ≠ 0) (buffer : Option ℤ) (order : ℕ → List ℕ → List ℕ)
    (hord : ∀ t l, (order t l).Perm l) :
    (∀ draw fuel, m.toNat * nucAmts.length ≤ fuel → 1000 * m + 2 ≤ fuel →
      (∃ sim, G.randomSites size num bg nucAmts buffer order draw fuel = some (.ok sim)) ∨
        G.randomSites size num bg nucAmts buffer order draw fuel = some (.error .runtimeError)) ∧
    ∀ cells : List (Fin d → ℤ), cells.Nodup → (cells.length : ℤ) = m → (∀ c ∈ cells, InBox N c) →
      (∀ r, buffer = some r → ∀ x ∈ cells, ∀ y ∈ cells, x ≠ y → ¬ ChebyshevLE N x y r) →
      ∃ draw fuel sim, G.randomSites size num bg nucAmts buffer order draw fuel = some (.ok sim) ∧
        ∀ i c, SiteHas sim.struct i c → (i ∈ nuclei sim.struct sim.state bg ↔ c ∈ cells) := by
  rw [nearestEven_iff] at hm
  subst hm
  obtain ⟨S, nbs, hsq, hne, hnb, heq⟩ := randomSites_rect hG hs num bg nucAmts buffer order hord
  refine ⟨fun draw fuel h1 h2 => ?_, fun cells hnd hlen hbox hfar => ?_⟩
  · rw [heq]
    exact plantSites_terminates hsq.isTorus.reachable hne hnb (hasQuotas_idealSites hw _) (sub_one_lt_quotaSum hw _ hsum) hbgw hw hph hbg draw fuel h1 h2
  · obtain ⟨draw, fuel, sim, h, hnuc⟩ := plantSites_reachable hsq.isTorus hne hnb (hasQuotas_idealSites hw _) (sub_one_lt_quotaSum hw _ hsum) hbgw hw hph hbg
      cells hnd hlen hbox (by
        rintro x hx y hy hxy i j hi hj ⟨r, hr, x', y', hx', hy', hle⟩
        rw [IsTorus.has_unique_coord hx' hi, IsTorus.has_unique_coord hy' hj] at hle
        exact hfar r hr x hx y hy hxy hle)
    obtain ⟨rfl, -⟩ := plantSites_ok hsq.isTorus.reachable hne hnb (hasQuotas_idealSites hw _) hbgw hw hph hbg h
    exact ⟨draw, fuel, sim, by rw [heq]; exact h, hnuc⟩

/-! ### the hypotheses can be met -/

/-- A grid of size (8, 3), that is 3 wide and 8 high: `setup_interface` gives every site the first phase and a particle of radius 2 does not show. -/
example : (∃ (S : Structure ℚ 2) (s : SimState), gridSetup2.interface (.tup [8, 3]) (.str "A") (.str "B") = .ok ⟨s, S⟩ ∧
      ∀ i ∈ S.siteIds, occ? s (.int i) = some (.str "A")) ∧
    ∃ (S : Structure ℚ 2) (s : SimState), gridSetup2.particle (.tup [8, 3]) 2 (.str "A") (.str "B") = .ok ⟨s, S⟩ ∧
      ∀ i ∈ S.siteIds, occ? s (.int i) = some (.str "A") :=
  ⟨C149_no_interface .two (.two 8 3 (by norm_num) (by norm_num)) (by decide) _ _ (.str _) (.str _),
    C149_no_particle .two (.two 8 3 (by norm_num) (by norm_num)) 2 0 (by norm_num) _ _ (.str _) (.str _)⟩

/-- A grid of size (3, 8), that is 8 wide and 3 high: the interface is after the first column. -/
example : ∃ (S : Structure ℚ 2) (s : SimState), gridSetup2.interface (.tup [3, 8]) (.str "A") (.str "B") = .ok ⟨s, S⟩ ∧
    (∀ i, SiteHas S i ![0, 2] → occ? s (.int i) = some (.str "A")) ∧ (∀ i, SiteHas S i ![1, 0] → occ? s (.int i) = some (.str "B")) := by
  obtain ⟨S, s, h1, -, -, h2⟩ := C149_interface (K := ℚ) .two (.two 3 8 (by norm_num) (by norm_num)) (.str "A") (.str "B") (.str _) (.str _)
  exact ⟨S, s, h1, fun i hi => h2 i _ hi, fun i hi => h2 i _ hi⟩

end Pyl
