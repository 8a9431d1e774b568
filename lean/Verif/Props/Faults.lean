import Verif.Props.ResultAnalyzer
import Verif.Props.Lattice
import Verif.Props.Life
/-
C110: malformed sites are reported.  Also: phase sets (C71), the fraction of a phase at a step (C72), lattices given by tuples (C42).
-/
set_option autoImplicit false
set_option linter.unusedSectionVars false

namespace Pyl
open SimState Spec Analyzer SimResult ResultAnalyzer
variable {K : Type} [Field K] [LinearOrder K] [IsStrictOrderedRing K] [FloorRing K] {d : ℕ}

theorem foldlM_err {α β : Type} {f : β → α → Py β} {e : Err} (l : List α) (b : β)
    (h : ∀ a ∈ l, (∀ b, ∃ b', f b a = .ok b') ∨ ∀ b, f b a = .error e) (hb : ∃ a ∈ l, ∀ b, f b a = .error e) : l.foldlM f b = .error e := by
  induction l generalizing b with
  | nil => simp at hb
  | cons a l ih =>
    rw [List.foldlM_cons]
    rcases h a (by simp) with h1 | h1
    · obtain ⟨b', hb'⟩ := h1 b
      rw [hb', ok_bind]
      refine ih b' (fun a ha => h a (by simp [ha])) ?_
      obtain ⟨a', ha', h2⟩ := hb
      rcases List.mem_cons.1 ha' with rfl | ha'
      · rw [h2] at hb'; cases hb'
      · exact ⟨a', ha', h2⟩
    · rw [h1]; rfl

theorem foldlM_prefix {α β : Type} {f : β → α → Py β} {e : Err} (pre : List α) (a : α) (post : List α) (b : β) {b' : β}
    (h : pre.foldlM f b = .ok b') (ha : ∀ b, f b a = .error e) : (pre ++ a :: post).foldlM f b = .error e := by
  rw [List.foldlM_append, h, ok_bind, List.foldlM_cons, ha]; rfl

/-! ### C110: the analyzers -/

/-- A site whose dict has lost its id. -/
def Spec.NoId (s : SimState) (k : Key) : Prop := ∃ p, s.getSiteState k = some p ∧ Dict.get? p SITE_ID = none

/-- A site whose dict holds its own id. -/
def Spec.OwnId (s : SimState) (k : Key) : Prop := ∃ p, s.getSiteState k = some p ∧ Dict.get? p SITE_ID = some k.toVal

theorem keep_ok {s : SimState} {crits : List Criterion} (ht : Total crits s) {k : Key} (hk : OwnId s k) (acc : List Val) :
    ∃ acc', keep s crits acc (s.getSiteState k) = .ok acc' := by
  obtain ⟨p, hp, hi⟩ := hk
  have h1 : siteIdOf (some p) = .ok k.toVal := by simp only [siteIdOf, hi]
  classical
  refine ⟨acc ++ if Accepts crits p then [k.toVal] else [], ?_⟩
  unfold keep
  rw [hp, h1, ok_bind, getSiteStateV_toVal, ok_bind, hp, meets_total fun c hc => ht c hc k p hp, ok_bind]
  by_cases ha : Accepts crits p <;> simp [ha, pure, Except.pure]

theorem candidates_mem (A : Option (Structure K d)) (s : SimState) (hs : s.WF) (hA : Fits A s) :
    ∃ l : List Key, candidates A s none = l.map (fun k => s.getSiteState k) ∧ ∀ k, k ∈ l ↔ k ∈ s.siteIds := by
  cases A with
  | none => exact ⟨s.siteIds, candidates_none hs none, fun _ => Iff.rfl⟩
  | some S =>
    obtain ⟨hr, hsame⟩ := hA S rfl
    refine ⟨_, candidates_some S s none, fun k => ?_⟩
    rw [hsame k, ← map_id_sitesOf hr]
    simp only [List.mem_map]
    constructor
    · rintro ⟨t, ht, rfl⟩; exact ⟨_, ⟨t, ht, rfl⟩, rfl⟩
    · rintro ⟨_, ⟨t, ht, rfl⟩, rfl⟩; exact ⟨t, ht, rfl⟩

/-- If every site either holds its id or makes `keep` raise `e`, and one does the latter, then `get_sites` raises `e`. -/
theorem getSites_err (A : Option (Structure K d)) (s : SimState) (hs : s.WF) (hA : Fits A s) (crits : List Criterion) (ht : Total crits s) {e : Err}
    {Bad : Key → Prop} (h : ∀ k ∈ s.siteIds, OwnId s k ∨ Bad k) (hbad : ∃ k ∈ s.siteIds, Bad k)
    (he : ∀ k, Bad k → ∀ acc, keep s crits acc (s.getSiteState k) = .error e) : getSites A s none crits = .error e := by
  obtain ⟨l, hl, hmem⟩ := candidates_mem A s hs hA
  unfold getSites
  rw [hl]
  refine foldlM_err _ _ ?_ ?_
  · intro c hc
    obtain ⟨k, hk, rfl⟩ := List.mem_map.1 hc
    rcases h k ((hmem k).1 hk) with h1 | h1
    · exact .inl (keep_ok ht h1)
    · exact .inr (he k h1)
  · obtain ⟨k, hk, hb⟩ := hbad
    exact ⟨_, List.mem_map.2 ⟨k, (hmem k).2 hk, rfl⟩, he k hb⟩

/-- C110: `get_sites` does not skip a site whose dict has no id: it raises KeyError (without a structure, and with one that has the state's sites). -/
theorem C110_no_id (A : Option (Structure K d)) (s : SimState) (hs : s.WF) (hA : Fits A s) (crits : List Criterion) (ht : Total crits s)
    (h : ∀ k ∈ s.siteIds, OwnId s k ∨ NoId s k) (hbad : ∃ k, NoId s k) : getSites A s none crits = .error .keyError := by
  obtain ⟨k, hk⟩ := hbad
  refine getSites_err A s hs hA crits ht h ⟨k, ?_, hk⟩ ?_
  · obtain ⟨p, hp, -⟩ := hk
    exact mem_of_siteState hp
  · rintro k ⟨p, hp, hi⟩ acc
    unfold keep
    rw [hp]
    simp only [siteIdOf, hi]; rfl

/-- A value that is the id of no site of any state: None or a number that is no integer. -/
def Spec.NoSitesId : Val → Prop
  | .pyNone => True
  | .num q => ∀ n : ℤ, q ≠ n
  | _ => False

/-- C110: a site whose dict holds None or a fraction as its id is looked up in vain, and `get_sites_where_equal` raises AttributeError.  (It is not confused
with the site of a nearby id.) -/
theorem C110_wrong_id (A : Option (Structure K d)) (s : SimState) (hs : s.WF) (hA : Fits A s) (pairs : Props)
    (h : ∀ k ∈ s.siteIds, OwnId s k ∨ ∃ p v, s.getSiteState k = some p ∧ Dict.get? p SITE_ID = some v ∧ NoSitesId v)
    (hbad : ∃ k p v, s.getSiteState k = some p ∧ Dict.get? p SITE_ID = some v ∧ NoSitesId v) :
    getSitesWhereEqual A s pairs none = .error .attributeError := by
  obtain ⟨k, p, v, hp, hv⟩ := hbad
  refine getSites_err A s hs hA _ (total_equalTo pairs s) h ⟨k, mem_of_siteState hp, p, v, hp, hv⟩ ?_
  rintro k ⟨p, v, hp, hi, hv⟩ acc
  have h1 : siteIdOf (some p) = .ok v := by simp only [siteIdOf, hi]
  have h2 : s.getSiteStateV v = .ok none := by
    cases v with
    | pyNone => rfl
    | num q =>
      have hq : q.den ≠ 1 := fun hd => hv q.num ((Rat.den_eq_one_iff q).1 hd).symm
      simp only [getSiteStateV, Val.toKey, if_neg hq, ok_bind]; rfl
    | str _ => exact hv.elim
    | list _ => exact hv.elim
    | tup _ => exact hv.elim
    | dict _ => exact hv.elim
  unfold keep
  rw [hp, h1, ok_bind, h2, ok_bind]
  rfl

/-- C110: a site whose dict holds a list or a dict as its id makes every query raise TypeError. -/
theorem C110_unhashable_id (A : Option (Structure K d)) (s : SimState) (hs : s.WF) (hA : Fits A s) (crits : List Criterion) (ht : Total crits s)
    (h : ∀ k ∈ s.siteIds, OwnId s k ∨ ∃ p l, s.getSiteState k = some p ∧ Dict.get? p SITE_ID = some (.list l))
    (hbad : ∃ k p l, s.getSiteState k = some p ∧ Dict.get? p SITE_ID = some (.list l)) :
    getSites A s none crits = .error .typeError := by
  obtain ⟨k, p, l, hp, hv⟩ := hbad
  refine getSites_err A s hs hA crits ht h ⟨k, mem_of_siteState hp, p, l, hp, hv⟩ ?_
  rintro k ⟨p, l, hp, hi⟩ acc
  have h1 : siteIdOf (some p) = .ok (.list l) := by simp only [siteIdOf, hi]
  unfold keep
  rw [hp, h1, ok_bind]
  rfl

/-- A site whose dict has no occupancy. -/
def Spec.NoOcc (s : SimState) (k : Key) : Prop := ∃ p, s.getSiteState k = some p ∧ Dict.get? p DISCRETE_OCCUPANCY = none

/-- C110: `phases_present` and `phase_count` raise KeyError if a site has no occupancy (and the others can be put into a set). -/
theorem C110_phases (order : List Val → List Val) (s : SimState) (hs : s.WF)
    (h : ∀ k ∈ s.siteIds, NoOcc s k ∨ ∃ v, occ? s k = some v ∧ v.hashable = true) (hbad : ∃ k, NoOcc s k) :
    phasesPresent order s = .error .keyError ∧ Analyzer.phaseCount order s = .error .keyError := by
  have h1 : phasesPresent order s = .error .keyError := by
    unfold phasesPresent allSiteStates
    rw [foldlM_err (e := .keyError)]
    · rfl
    · intro p hp
      obtain ⟨kv, hkv, rfl⟩ := List.mem_map.1 hp
      have hg : s.getSiteState kv.1 = some kv.2 := Dict.get?_of_mem hs.sites hkv
      rcases h kv.1 (mem_of_siteState hg) with ⟨p, hp, hn⟩ | ⟨v, hv, hh⟩
      · right
        intro b
        rw [hg] at hp; injection hp with hp
        unfold addPhase; rw [hp, hn]
      · left
        intro b
        obtain ⟨p, hp, hv⟩ := occ?_eq.1 hv
        rw [hg] at hp; injection hp with hp
        refine ⟨if v ∈ b then b else b ++ [v], ?_⟩
        unfold addPhase; rw [hp, hv]
        simp only [addToSet, hh, if_true]
    · obtain ⟨k, p, hp, hn⟩ := hbad
      refine ⟨p, List.mem_map.2 ⟨(k, p), Dict.mem_of_get? hp, rfl⟩, fun b => ?_⟩
      unfold addPhase; rw [hn]
  exact ⟨h1, by unfold Analyzer.phaseCount; rw [h1]; rfl⟩

/-! ### C110: the controllers -/

theorem occupancy_cases (s : SimState) (k : Key) : (NoOcc s k ∧ occupancy s k = .error .keyError) ∨ (s.getSiteState k = none ∧ occupancy s k = .error .typeError) ∨
    ∃ v, occ? s k = some v ∧ occupancy s k = .ok v := by
  unfold occupancy
  cases hp : s.getSiteState k with
  | none => exact .inr (.inl ⟨rfl, rfl⟩)
  | some p =>
    cases hv : Dict.get? p DISCRETE_OCCUPANCY with
    | none => exact .inl ⟨⟨p, hp, hv⟩, by simp only [hv]⟩
    | some v => exact .inr (.inr ⟨v, occ?_eq.2 ⟨p, hp, hv⟩, by simp only [hv]⟩)

theorem occupancy_noOcc {s : SimState} {k : Key} (h : NoOcc s k) : occupancy s k = .error .keyError := by
  obtain ⟨p, hp, hn⟩ := h
  unfold occupancy; rw [hp]; simp only [hn]

theorem occupancy_none {s : SimState} {k : Key} (h : s.getSiteState k = none) : occupancy s k = .error .typeError := by
  unfold occupancy; rw [h]

theorem occupancy_some {s : SimState} {k : Key} {v : Val} (h : occ? s k = some v) : occupancy s k = .ok v := by
  obtain ⟨p, hp, hn⟩ := occ?_eq.1 h
  unfold occupancy; rw [hp]; simp only [hn]

/-- The cells the game of life reads for site `i`: its neighbours and the site itself. -/
def Spec.Reads (g : Graph K) (i j : ℕ) : Prop := j ∈ g.neighborsOf i ∨ j = i

theorem life_err (c : Life.Ctl K) (g : Graph K) (hg : c.neighborhood = some g) (i : ℕ) (s : SimState) {e : Err}
    (h : ∀ j, Reads g i j → (∃ v, occupancy s (.int j) = .ok v) ∨ occupancy s (.int j) = .error e)
    (hbad : ∃ j, Reads g i j ∧ occupancy s (.int j) = .error e) : Life.update c (.int i) s = .error e := by
  have hn : neighborsOfKey g (.int i) = .ok (g.neighborsOf i) := by simp [neighborsOfKey]
  unfold Life.update
  simp only [hg, ok_bind, hn]
  by_cases hb : ∃ j ∈ g.neighborsOf i, occupancy s (.int j) = .error e
  · rw [foldlM_err (e := e)]
    · rfl
    · intro j hj
      rcases h j (.inl hj) with ⟨v, hv⟩ | he
      · left; intro b; rw [hv]; exact ⟨_, rfl⟩
      · right; intro b; rw [he]; rfl
    · obtain ⟨j, hj, he⟩ := hb
      exact ⟨j, hj, fun b => by rw [he]; rfl⟩
  · have hi : occupancy s (.int i) = .error e := by
      obtain ⟨j, hj | rfl, he⟩ := hbad
      · exact absurd ⟨j, hj, he⟩ hb
      · exact he
    have hok : ∀ (l : List ℕ) (n : ℤ), (∀ j ∈ l, ∃ v, occupancy s (.int j) = .ok v) → ∃ m, l.foldlM (fun (n : ℤ) (nb : ℕ) => do
        let o ← occupancy s (.int nb)
        pure (if o = .str "alive" then n + 1 else n)) n = Except.ok m := by
      intro l
      induction l with
      | nil => intro n _; exact ⟨n, rfl⟩
      | cons j l ih =>
        intro n hl
        obtain ⟨v, hv⟩ := hl j (by simp)
        rw [List.foldlM_cons, hv]
        exact ih _ fun j hj => hl j (by simp [hj])
    obtain ⟨m, hm⟩ := hok (g.neighborsOf i) 0 (by
      intro j hj
      rcases h j (.inl hj) with hv | he
      · exact hv
      · exact absurd ⟨j, hj, he⟩ hb)
    rw [hm, ok_bind, hi]; rfl

/-- C110: the game of life raises KeyError if the visited site or one of its neighbours has no occupancy (all of them being sites of the state). -/
theorem C110_life (c : Life.Ctl K) (g : Graph K) (hg : c.neighborhood = some g) (i : ℕ) (s : SimState)
    (hin : ∀ j, Reads g i j → s.getSiteState (.int j) ≠ none) (hbad : ∃ j, Reads g i j ∧ NoOcc s (.int j)) :
    Life.update c (.int i) s = .error .keyError := by
  refine life_err c g hg i s ?_ ?_
  · intro j hj
    rcases occupancy_cases s (.int j) with h | h | ⟨v, -, h⟩
    · exact .inr h.2
    · exact absurd h.1 (hin j hj)
    · exact .inl ⟨v, h⟩
  · obtain ⟨j, hj, h⟩ := hbad
    exact ⟨j, hj, occupancy_noOcc h⟩

/-- C110: the game of life raises TypeError if the visited site or one of its neighbours is missing from the state (the others having an occupancy). -/
theorem C110_life_missing (c : Life.Ctl K) (g : Graph K) (hg : c.neighborhood = some g) (i : ℕ) (s : SimState)
    (hin : ∀ j, Reads g i j → ¬ NoOcc s (.int j)) (hbad : ∃ j, Reads g i j ∧ s.getSiteState (.int j) = none) :
    Life.update c (.int i) s = .error .typeError := by
  refine life_err c g hg i s ?_ ?_
  · intro j hj
    rcases occupancy_cases s (.int j) with h | h | ⟨v, -, h⟩
    · exact absurd h.1 (hin j hj)
    · exact .inr h.2
    · exact .inl ⟨v, h⟩
  · obtain ⟨j, hj, h⟩ := hbad
    exact ⟨j, hj, occupancy_none h⟩

/-- C110: the growth rule raises KeyError if the visited site has no occupancy, or if it is empty and one of its neighbours has none; an occupied site is left
alone whatever its neighbours hold. -/
theorem C110_growth (c : Growth.Ctl) (i : ℕ) (s : SimState) (nbs : List ℕ) (hnbs : c.nbs c.calls (.int i) = .ok nbs) :
    (NoOcc s (.int i) → Growth.update c (.int i) s = .error .keyError) ∧
    (occ? s (.int i) = some c.background → (∀ j ∈ nbs, s.getSiteState (.int j) ≠ none) → (∃ j ∈ nbs, NoOcc s (.int j)) →
      Growth.update c (.int i) s = .error .keyError) ∧
    ∀ v, occ? s (.int i) = some v → v ≠ c.background → Growth.update c (.int i) s = .ok (c, .dict []) := by
  refine ⟨fun h => ?_, fun h hin hbad => ?_, fun v h hv => ?_⟩
  · unfold Growth.update; rw [occupancy_noOcc h]; rfl
  · unfold Growth.update
    rw [occupancy_some h, ok_bind, if_pos rfl, hnbs, ok_bind, foldlM_err (e := .keyError)]
    · rfl
    · intro j hj
      rcases occupancy_cases s (.int j) with h | h | ⟨v, -, h⟩
      · right; intro b; rw [h.2]; rfl
      · exact absurd h.1 (hin j hj)
      · left; intro b; rw [h]; exact ⟨_, rfl⟩
    · obtain ⟨j, hj, h⟩ := hbad
      exact ⟨j, hj, fun b => by rw [occupancy_noOcc h]; rfl⟩
  · unfold Growth.update
    rw [occupancy_some h, ok_bind, if_neg hv]; rfl

/-! ### Phase sets, fractions at a step, tuples -/

/-- C71: `PhaseSet(phases).phases` lists each of the given phases exactly once and nothing else; a phase that cannot be hashed raises TypeError. -/
theorem C71_phase_set (order : List Val → List Val) (hord : ∀ l, (order l).Perm l) (phases : List Val) :
    ((∀ v ∈ phases, v.hashable = true) → ∃ l, phaseSet order phases = .ok l ∧ l.Nodup ∧ ∀ v, v ∈ l ↔ v ∈ phases) ∧
    ((∃ v ∈ phases, v.hashable = false) → phaseSet order phases = .error .typeError) := by
  refine ⟨fun h => ?_, fun h => ?_⟩
  · obtain ⟨r, h1, h2, h3⟩ := foldlM_addToSet phases h [] (by simp)
    refine ⟨order r, ?_, (hord r).nodup_iff.2 h2, fun v => ?_⟩
    · unfold phaseSet; rw [h1]; rfl
    · rw [(hord r).mem_iff, h3]; simp
  · unfold phaseSet
    rw [foldlM_err (e := .typeError)]
    · rfl
    · intro v _
      cases hv : v.hashable with
      | true => left; intro b; simp only [addToSet, hv, if_true]; exact ⟨_, rfl⟩
      | false => right; intro b; simp [addToSet, hv]
    · obtain ⟨v, hv, hh⟩ := h
      exact ⟨v, hv, fun b => by simp [addToSet, hh]⟩

/-- C72 (part): `phase_fraction_at(k, v)` is the part of the sites of step `k` that have the phase `v`. -/
theorem C72_fraction_at (s0 : SimState) (ops : List ROp) (h : StepsAnalyzable (resultAfter s0 ops)) (k : ℕ) (hk : k < (resultAfter s0 ops).len)
    (v : Val) (hv : v.hashable = true) :
    ∃ s, (resultAfter s0 ops).getStep k = .ok s ∧ phaseFractionAt (resultAfter s0 ops) k v = .ok ((sitesWith s v : ℚ) / s.size) := by
  obtain ⟨s, h1, h2, h3⟩ := h k hk
  refine ⟨s, h1, ?_⟩
  unfold phaseFractionAt
  rw [h1, ok_bind]
  exact cellFraction_none h2 h3 hv

theorem mapM_rows (rows : List (List Val)) (f : List Val → Val) (hf : ∀ l, f l = .list l ∨ f l = .tup l) :
    (rows.map f).mapM (fun r => do (← r.toItems).mapM Val.toNum) = rows.mapM fun r => r.mapM Val.toNum := by
  induction rows with
  | nil => rfl
  | cons r rows ih =>
    have hr : (f r).toItems = .ok r := by rcases hf r with h | h <;> rw [h] <;> rfl
    rw [List.map_cons, List.mapM_cons, List.mapM_cons, hr, ok_bind, ih]

/-- C42: whether the vectors are written as lists or as tuples makes no difference to `Lattice.from_dict`. -/
theorem C42_tuples (rows : List (List Val)) (f : List Val → Val) (hf : ∀ l, f l = .list l ∨ f l = .tup l) (p : Val) (v : Val)
    (hv : v = .list (rows.map f) ∨ v = .tup (rows.map f)) :
    Lattice.fromDict [(.str "vectors", v), (.str "periodic", p)] =
      Lattice.fromDict [(.str "vectors", .list (rows.map .list)), (.str "periodic", p)] := by
  have hi : v.toItems = .ok (rows.map f) := by rcases hv with h | h <;> rw [h] <;> rfl
  have g : ∀ v : Val, Lattice.fromDict [(.str "vectors", v), (.str "periodic", p)] = (do
      let rows ← v.toItems
      let vecs ← rows.mapM fun r => do (← r.toItems).mapM Val.toNum
      Lattice.init vecs (← p.toPeriodicArg)) := by
    intro v
    unfold Lattice.fromDict
    rw [Dict.get?_cons, if_pos rfl, Dict.get?_cons, if_neg (by decide), Dict.get?_cons, if_pos rfl]
  rw [g, g, hi, show ∀ l, (Val.list l).toItems = .ok l from fun _ => rfl, ok_bind, ok_bind, mapM_rows rows f hf, mapM_rows rows .list fun l => .inl rfl]

/-! ### The hypotheses can be met -/

/-- Two sites; the first is as it should be, the second has the dict `p`. -/
def twoSites (p : Props) : SimState := ⟨[(.int 0, [(SITE_ID, .num 0), (DISCRETE_OCCUPANCY, .str "alive")]), (.int 1, p)], some []⟩

theorem twoSites_wf {p : Props} (hp : (Val.dict p).WF) : (twoSites p).WF := by
  refine ⟨by simp [twoSites, Dict.WF, Dict.keys], ?_, fun g hg => by injection hg with hg; subst hg; exact .dict Dict.WF.nil (by simp)⟩
  intro kv hkv
  simp only [twoSites, List.mem_cons, List.not_mem_nil, or_false] at hkv
  rcases hkv with rfl | rfl
  · refine .dict (by simp [Dict.WF, Dict.keys, SITE_ID, DISCRETE_OCCUPANCY]) ?_
    simp only [List.mem_cons, List.not_mem_nil, or_false, forall_eq_or_imp, forall_eq]
    exact ⟨.num _, .str _⟩
  · exact hp

theorem twoSites_ids {p : Props} {k : Key} (hk : k ∈ (twoSites p).siteIds) : k = .int 0 ∨ k = .int 1 := by
  simpa [SimState.siteIds, twoSites, Dict.keys] using hk

theorem twoSites_own (p : Props) : OwnId (twoSites p) (.int 0) := ⟨_, rfl, by simp [Key.toVal, Dict.get?]⟩

/-- The second site has lost its id. -/
example : getSites (K := ℚ) (d := 2) none (twoSites []) none [] = .error .keyError := by
  refine C110_no_id none _ (twoSites_wf (.dict Dict.WF.nil (by simp))) (by intro S h; cases h) [] (by intro c hc; cases hc) ?_ ⟨.int 1, [], rfl, rfl⟩
  intro k hk
  rcases twoSites_ids hk with rfl | rfl
  · exact .inl (twoSites_own _)
  · exact .inr ⟨_, rfl, rfl⟩

/-- The second site's id is 1/2. -/
example : getSitesWhereEqual (K := ℚ) (d := 2) none (twoSites [(SITE_ID, .num (1/2))]) [] none = .error .attributeError := by
  have hq : NoSitesId (.num (1/2)) := by
    intro n hn
    have h2 : (1 : ℚ) = ((2 * n : ℤ) : ℚ) := by push_cast; linarith
    have : (1 : ℤ) = 2 * n := by exact_mod_cast h2
    omega
  refine C110_wrong_id none _ (twoSites_wf (.dict (by simp [Dict.WF, Dict.keys]) (by simpa using .num _))) (by intro S h; cases h) [] ?_
    ⟨.int 1, _, _, rfl, rfl, hq⟩
  intro k hk
  rcases twoSites_ids hk with rfl | rfl
  · exact .inl (twoSites_own _)
  · exact .inr ⟨_, _, rfl, rfl, hq⟩

/-- The second site's id is a list. -/
example : getSites (K := ℚ) (d := 2) none (twoSites [(SITE_ID, .list [])]) none [] = .error .typeError := by
  refine C110_unhashable_id none _ (twoSites_wf (.dict (by simp [Dict.WF, Dict.keys]) (by simpa using .list (by simp)))) (by intro S h; cases h) []
    (by intro c hc; cases hc) ?_ ⟨.int 1, _, _, rfl, rfl⟩
  intro k hk
  rcases twoSites_ids hk with rfl | rfl
  · exact .inl (twoSites_own _)
  · exact .inr ⟨_, _, rfl, rfl⟩

/-- The second site has no occupancy. -/
example : phasesPresent id (twoSites []) = .error .keyError := by
  refine (C110_phases id _ (twoSites_wf (.dict Dict.WF.nil (by simp))) ?_ ⟨.int 1, [], rfl, rfl⟩).1
  intro k hk
  rcases twoSites_ids hk with rfl | rfl
  · exact .inr ⟨.str "alive", rfl, rfl⟩
  · exact .inl ⟨_, rfl, rfl⟩

/-- The neighbour of site 0 has no occupancy; the growth rule reads it only if site 0 is empty. -/
example (S : Structure ℚ 2) : Life.update ⟨[3], [2, 3], S, some ⟨2, [(0, 1, none)]⟩⟩ (.int 0) (twoSites []) = .error .keyError := by
  refine C110_life _ ⟨2, [(0, 1, none)]⟩ rfl 0 _ ?_ ⟨1, .inl (by decide), [], rfl, rfl⟩
  rintro j (hj | rfl)
  · have : j = 1 := by simpa [Graph.neighborsOf, Graph.neighbors] using hj
    subst this; intro h; cases h
  · intro h; cases h
example (S : Structure ℚ 2) : Life.update ⟨[3], [2, 3], S, some ⟨3, [(0, 2, none)]⟩⟩ (.int 0) (twoSites []) = .error .typeError := by
  refine C110_life_missing _ ⟨3, [(0, 2, none)]⟩ rfl 0 _ ?_ ⟨2, .inl (by decide), rfl⟩
  rintro j (hj | rfl) ⟨p, hp, hn⟩
  · have : j = 2 := by simpa [Graph.neighborsOf, Graph.neighbors] using hj
    subst this; cases hp
  · injection hp with hp; subst hp; cases hn
example : Growth.update ⟨.str "alive", fun _ _ => .ok [1], 0⟩ (.int 0) (twoSites []) = .error .keyError :=
  (C110_growth ⟨.str "alive", fun _ _ => .ok [1], 0⟩ 0 _ [1] rfl).2.1 rfl (by simp [twoSites, getSiteState, Dict.get?]) ⟨1, by simp, [], rfl, rfl⟩
example : Growth.update ⟨VACANT, fun _ _ => .ok [1], 0⟩ (.int 0) (twoSites []) = .ok (⟨VACANT, fun _ _ => .ok [1], 0⟩, .dict []) :=
  (C110_growth ⟨VACANT, fun _ _ => .ok [1], 0⟩ 0 _ [1] rfl).2.2 (.str "alive") rfl (by simp [VACANT])

example : ∃ l, phaseSet id [.str "A", .str "B", .str "A"] = .ok l ∧ l.Nodup ∧ ∀ v, v ∈ l ↔ v ∈ [Val.str "A", .str "B", .str "A"] :=
  (C71_phase_set id (fun _ => .refl _) _).1 (by simp [Val.hashable])

example : ∃ s, (resultAfter (oneSite (.str "A")) aToB).getStep 1 = .ok s ∧
    phaseFractionAt (resultAfter (oneSite (.str "A")) aToB) 1 (.str "B") = .ok ((sitesWith s (.str "B") : ℚ) / s.size) :=
  C72_fraction_at _ _ aToB_analyzable 1 (by decide) _ rfl

end Pyl
