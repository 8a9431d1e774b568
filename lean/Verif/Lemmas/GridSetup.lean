import Verif.Spec.GridSetup
import Verif.Props.Growth
/-
Lemmas on states that are filled site by site.
-/
set_option autoImplicit false
set_option linter.unusedSectionVars false

namespace Pyl
open Pyl.Lattice Structure SimState Spec
variable {K : Type} [Field K] [LinearOrder K] [IsStrictOrderedRing K] [FloorRing K] {d : ℕ}

theorem occ?_setOcc (s : SimState) (i : ℕ) (v : Val) (k : Key) : occ? (setOcc s i v) k = if k = .int i then some v else occ? s k := by
  unfold occ? setOcc getSiteState
  rw [get?_setSiteState]
  by_cases h : k = .int i
  · subst h
    simp
  · have : Key.int (i : ℤ) ≠ k := fun e => h e.symm
    simp [h, this]

theorem siteId_setOcc (s : SimState) (i : ℕ) (v : Val) (k : Key) (p : Props) (h : (setOcc s i v).getSiteState k = some p) :
    (s.getSiteState k = none → k = .int i ∧ Dict.get? p SITE_ID = some (.num i)) ∧
    (∀ p0, s.getSiteState k = some p0 → Dict.get? p SITE_ID = Dict.get? p0 SITE_ID) := by
  unfold setOcc getSiteState at h
  rw [get?_setSiteState] at h
  unfold getSiteState
  have hne : DISCRETE_OCCUPANCY ≠ SITE_ID := by decide
  by_cases hk : Key.int (i : ℤ) = k
  · subst hk
    simp only [if_true] at h
    injection h with h
    subst h
    refine ⟨fun hn => ⟨rfl, ?_⟩, fun p0 hp => ?_⟩
    · simp [oldOf, hn, Dict.get?_set, hne, Dict.get?_cons, Key.toVal]
    · simp [oldOf, hp, Dict.get?_set, hne]
  · rw [if_neg hk] at h
    refine ⟨fun hn => ?_, fun p0 hp => ?_⟩
    · rw [hn] at h; cases h
    · rw [hp] at h; injection h with h; rw [h]

theorem mem_siteIds_setOcc (s : SimState) (i : ℕ) (v : Val) (k : Key) : k ∈ (setOcc s i v).siteIds ↔ k = .int i ∨ k ∈ s.siteIds := by
  unfold SimState.siteIds setOcc
  rw [← Dict.get?_isSome_iff, ← Dict.get?_isSome_iff, get?_setSiteState]
  by_cases h : Key.int (i : ℤ) = k
  · simp [h]
  · have : ¬ k = .int i := fun e => h e.symm
    simp [h, this]

/-- The state has an own id in every site dict. -/
def IdOK (s : SimState) : Prop := ∀ (i : ℕ) p, s.getSiteState (.int i) = some p → Dict.get? p SITE_ID = some (.num i)

/-- What filling keeps. -/
structure Filling (s : SimState) : Prop where
  wf : s.WF
  gen : s.general = some []
  idok : IdOK s

theorem Filling.empty : Filling .empty :=
  ⟨⟨Dict.WF.nil, by simp [SimState.empty], by rintro g ⟨⟩; exact .dict Dict.WF.nil (by simp)⟩, rfl, by intro i p h; cases h⟩

theorem wf_occ' {v : Val} (h : v.WF) : (Val.dict [(DISCRETE_OCCUPANCY, v)]).WF := .dict (by simp [Dict.WF]) (by simpa using h)

theorem Filling.setOcc {s : SimState} (h : Filling s) (i : ℕ) {v : Val} (hv : v.WF) : Filling (setOcc s i v) := by
  refine ⟨h.wf.setSiteState _ (wf_occ' hv), h.gen, fun j p hp => ?_⟩
  obtain ⟨h1, h2⟩ := siteId_setOcc s i v _ p hp
  cases hs : s.getSiteState (.int j) with
  | none =>
    obtain ⟨e, h3⟩ := h1 hs
    injection e with e
    have e : j = i := by exact_mod_cast e
    subst e; exact h3
  | some p0 => rw [h2 p0 hs]; exact h.idok j p0 hs

/-- Going through the sites and giving each `t` a phase `f t` unless `f t` is `none`. -/
theorem foldl_paint (l : List (Site K d)) (hl : (l.map Site.id).Nodup) (f : Site K d → Option Val) (hf : ∀ t ∈ l, ∀ v, f t = some v → v.WF)
    (s : SimState) (hs : Filling s) :
    let s' := l.foldl (fun s t => match f t with | some v => setOcc s t.id v | none => s) s
    Filling s' ∧ (∀ k, k ∈ s'.siteIds ↔ k ∈ s.siteIds ∨ ∃ t ∈ l, f t ≠ none ∧ k = .int t.id) ∧
    (∀ t ∈ l, occ? s' (.int t.id) = match f t with | some v => some v | none => occ? s (.int t.id)) ∧
    (∀ k, (∀ t ∈ l, k ≠ .int t.id) → occ? s' k = occ? s k) := by
  induction l generalizing s with
  | nil => exact ⟨hs, by simp, by simp, by simp⟩
  | cons a l ih =>
    rw [List.map_cons, List.nodup_cons] at hl
    let s1 := match f a with | some v => setOcc s a.id v | none => s
    have h1 : Filling s1 := by
      show Filling (match f a with | some v => setOcc s a.id v | none => s)
      cases h : f a with
      | none => exact hs
      | some v => exact hs.setOcc _ (hf a (by simp) v h)
    have h2 : ∀ k, k ∈ s1.siteIds ↔ k ∈ s.siteIds ∨ f a ≠ none ∧ k = .int a.id := by
      intro k
      show k ∈ (match f a with | some v => setOcc s a.id v | none => s).siteIds ↔ _
      cases h : f a with
      | none => simp
      | some v => simp only [mem_siteIds_setOcc]; simp [or_comm]
    have h3 : ∀ k, occ? s1 k = if k = .int a.id then (match f a with | some v => some v | none => occ? s k) else occ? s k := by
      intro k
      show occ? (match f a with | some v => setOcc s a.id v | none => s) k = _
      cases h : f a with
      | none => simp
      | some v => simp only [occ?_setOcc]
    obtain ⟨i1, i2, i3, i4⟩ := ih hl.2 (fun t ht => hf t (by simp [ht])) s1 h1
    have hne : ∀ t ∈ l, Key.int (a.id : ℤ) ≠ .int t.id := by
      intro t ht e
      injection e with e
      exact hl.1 (List.mem_map.2 ⟨t, ht, by exact_mod_cast e.symm⟩)
    refine ⟨i1, fun k => ?_, fun t ht => ?_, fun k hk => ?_⟩
    · refine (i2 k).trans ?_
      rw [h2]
      simp only [List.mem_cons, exists_eq_or_imp]
      tauto
    · rcases List.mem_cons.1 ht with rfl | ht'
      · refine (i4 _ hne).trans ?_
        rw [h3, if_pos rfl]
      · refine (i3 t ht').trans ?_
        rw [h3, if_neg (Ne.symm (hne t ht'))]
    · refine (i4 k fun t ht => hk t (by simp [ht])).trans ?_
      rw [h3, if_neg (hk a (by simp))]

/-- The sites listed by `sites()` are the sites of the structure. -/
theorem mem_siteIds_iff {S : Structure K d} (h : S.Reachable) {i : ℕ} : i ∈ S.siteIds ↔ ∃ t ∈ S.sitesOf none, t.id = i := by
  rw [siteIds_eq h, List.mem_range, ← getSite_isSome_iff h]
  constructor
  · rintro ⟨t, ht⟩
    have : t.id = i := id_of_getSite h ht
    subst this
    exact ⟨t, (mem_sitesOf h).2 ht, rfl⟩
  · rintro ⟨t, ht, rfl⟩
    exact ⟨t, (mem_sitesOf h).1 ht⟩


/-- The state holds exactly the sites of the structure, and site `t` has the phase `f t`. -/
structure Painted (S : Structure K d) (s : SimState) (f : Site K d → Val) : Prop where
  fill : Filling s
  same : SameSites S s
  occ : ∀ t ∈ S.sitesOf none, occ? s (.int t.id) = some (f t)

theorem Painted.congr {S : Structure K d} {s : SimState} {f g : Site K d → Val} (h : Painted S s f) (e : ∀ t ∈ S.sitesOf none, f t = g t) : Painted S s g :=
  ⟨h.fill, h.same, fun t ht => by rw [h.occ t ht, e t ht]⟩

theorem painted_blank {S : Structure K d} (hS : S.Reachable) {v : Val} (hv : v.WF) : Painted S (GridSetup.blank S v) (fun _ => v) := by
  obtain ⟨h1, h2, h3, -⟩ := foldl_paint (S.sitesOf none) (nodup_ids hS) (fun _ => some v) (fun t _ w e => by injection e with e; rwa [← e]) .empty .empty
  refine ⟨h1, fun k => ?_, h3⟩
  refine (h2 k).trans ?_
  constructor
  · rintro (h | ⟨t, ht, -, rfl⟩)
    · cases h
    · exact ⟨t.id, (mem_siteIds_iff hS).2 ⟨t, ht, rfl⟩, rfl⟩
  · rintro ⟨i, hi, rfl⟩
    obtain ⟨t, ht, rfl⟩ := (mem_siteIds_iff hS).1 hi
    exact .inr ⟨t, ht, by simp, rfl⟩

theorem Painted.paint {S : Structure K d} (hS : S.Reachable) {s : SimState} {f : Site K d → Val} (h : Painted S s f) (g : Site K d → Option Val)
    (hg : ∀ t ∈ S.sitesOf none, ∀ v, g t = some v → v.WF) :
    Painted S ((S.sitesOf none).foldl (fun s t => match g t with | some v => setOcc s t.id v | none => s) s) (fun t => (g t).getD (f t)) := by
  obtain ⟨h1, h2, h3, -⟩ := foldl_paint (S.sitesOf none) (nodup_ids hS) g hg s h.fill
  refine ⟨h1, fun k => ?_, fun t ht => ?_⟩
  · rw [← h.same k]
    refine (h2 k).trans ?_
    constructor
    · rintro (h' | ⟨t, ht, -, rfl⟩)
      · exact h'
      · exact (h.same _).2 ⟨t.id, (mem_siteIds_iff hS).2 ⟨t, ht, rfl⟩, rfl⟩
    · exact .inl
  · refine (h3 t ht).trans ?_
    cases hgt : g t with
    | none => exact h.occ t ht
    | some v => rfl

theorem Painted.set {S : Structure K d} (hS : S.Reachable) {s : SimState} {f : Site K d → Val} (h : Painted S s f) {t : Site K d} (ht : t ∈ S.sitesOf none)
    {v : Val} (hv : v.WF) : Painted S (setOcc s t.id v) (fun u => if u.id = t.id then v else f u) := by
  refine ⟨h.fill.setOcc _ hv, fun k => ?_, fun u hu => ?_⟩
  · rw [mem_siteIds_setOcc, ← h.same k]
    constructor
    · rintro (rfl | h')
      · exact (h.same _).2 ⟨t.id, (mem_siteIds_iff hS).2 ⟨t, ht, rfl⟩, rfl⟩
      · exact h'
    · exact .inr
  · rw [occ?_setOcc]
    by_cases e : u.id = t.id
    · simp [e]
    · have : ¬ (u.id : ℤ) = t.id := by exact_mod_cast e
      simp only [Key.int.injEq, this, if_false, e]
      exact h.occ u hu

theorem site_of_has {S : Structure K d} (hS : S.Reachable) {i : ℕ} {c : Fin d → ℤ} (h : SiteHas S i c) :
    ∃ t ∈ S.sitesOf none, t.id = i ∧ t.loc = intPoint c := by
  obtain ⟨t, ht, e⟩ := siteLocation_iff.1 h
  have := id_of_getSite hS ht
  subst this
  exact ⟨t, (mem_sitesOf hS).2 ht, rfl, e⟩

theorem Painted.startState {S : Structure K d} (hS : S.Reachable) {s : SimState} {f : Site K d → Val} (h : Painted S s f) : StartState S s := by
  refine ⟨h.fill.wf, h.fill.gen, h.same, fun k hk => ?_, fun i hi => ?_⟩
  · obtain ⟨i, hi, rfl⟩ := (h.same k).1 hk
    obtain ⟨t, ht, rfl⟩ := (mem_siteIds_iff hS).1 hi
    exact ⟨_, h.occ t ht⟩
  · obtain ⟨t, ht, rfl⟩ := (mem_siteIds_iff hS).1 hi
    obtain ⟨p, hp, -⟩ := occ?_eq.1 (h.occ t ht)
    exact ⟨p, hp, h.fill.idok _ p hp⟩

/-! ### the structures the setups build -/

theorem rootOf_sq {x r : K} (hr : 0 ≤ r) (h : x = r * r) : rootOf x = r := by
  unfold rootOf
  have hex : ∃ r, 0 ≤ r ∧ r * r = x := ⟨r, hr, h.symm⟩
  rw [dif_pos hex]
  obtain ⟨h1, h2⟩ := hex.choose_spec
  exact (mul_self_inj h1 hr).1 (h2.trans h)

theorem vecLength0_grid {L : Lattice K d} {σ : Fin d → Fin d} (h : IsGrid L σ) (hd : 0 < d) {n : ℤ} (hn : 0 < n) :
    vecLength0 (L.scaled fun _ => n) = .ok (n : K) := by
  unfold vecLength0
  rw [dif_pos hd, rootOf_sq (r := (n : K)) (by exact_mod_cast hn.le)]
  rw [Finset.sum_eq_single (σ ⟨0, hd⟩)]
  · simp [scaled, h.mat, sq]
  · intro b _ hb
    simp [scaled, h.mat, hb]
  · simp

theorem StdSetup.dim {G : GridSetup K d} (hG : StdSetup d G) : 0 < d := by cases hG <;> norm_num

/-- The structure a setup builds for an int size. -/
theorem setup_builds {G : GridSetup K d} (hG : StdSetup d G) {n : ℤ} (hn : 0 < n) :
    ∃ S, G.builder (.int n) = .ok S ∧ SquareGrid d (fun _ => n) S ∧ vecLength0 S.lattice = .ok (n : K) ∧
      ∀ (m : Fin d → ℤ) (j : Fin d), ∃ z : ℤ, S.lattice.point (fun i => (m i : K)) j = z := by
  cases hG with
  | two =>
    obtain ⟨S, h1, h2, -⟩ := (isGrid2 (K := K)).build_grid (fun _ => n) fun _ => hn
    refine ⟨S, h1, ?_, ?_, ?_⟩
    · have := SquareGrid.two (.int n) S n n hn hn (.inr ⟨rfl, rfl⟩) h1
      rwa [show ![n, n] = fun _ : Fin 2 => n by funext j; fin_cases j <;> rfl] at this
    · rw [h2]; exact vecLength0_grid isGrid2 (by norm_num) hn
    · intro m j
      rw [h2, isGrid2.point_scaled]
      exact ⟨_, (Int.cast_mul _ _).symm⟩
  | three =>
    obtain ⟨S, h1, h2, -⟩ := (isGrid3 (K := K)).build_grid (fun _ => n) fun _ => hn
    refine ⟨S, h1, ?_, ?_, ?_⟩
    · have := SquareGrid.three (.int n) S n n n hn hn hn (.inr ⟨rfl, rfl, rfl⟩) h1
      rwa [show ![n, n, n] = fun _ : Fin 3 => n by funext j; fin_cases j <;> rfl] at this
    · rw [h2]; exact vecLength0_grid isGrid3 (by norm_num) hn
    · intro m j
      rw [h2, isGrid3.point_scaled]
      exact ⟨_, (Int.cast_mul _ _).symm⟩

end Pyl
