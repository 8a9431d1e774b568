import Verif.Spec.Analyzer
import Verif.Lemmas.GridSetup
import Verif.Props.Result
import Verif.Props.Structure
/-
C70: queries on states.
-/
set_option autoImplicit false
set_option linter.unusedSectionVars false

namespace Pyl
open Pyl.Lattice Structure SimState Spec Analyzer
variable {K : Type} [Field K] [LinearOrder K] [IsStrictOrderedRing K] [FloorRing K] {d : ℕ}

theorem toKey_toVal (k : Key) : k.toVal.toKey = .ok (some k) := by
  cases k with
  | int i => simp [Key.toVal, Val.toKey]
  | str s => rfl

theorem toVal_inj {k k' : Key} (h : k.toVal = k'.toVal) : k = k' := by
  have := toKey_toVal k
  rw [h, toKey_toVal] at this
  injection this with this; injection this with this; exact this.symm

theorem getSiteStateV_toVal (s : SimState) (k : Key) : s.getSiteStateV k.toVal = .ok (s.getSiteState k) := by
  unfold getSiteStateV
  rw [toKey_toVal]; rfl

open Classical in
theorem meets_total {crits : List Criterion} {p : Props} (h : ∀ c ∈ crits, ∃ b, c (some p) = .ok b) :
    meets crits (some p) = .ok (decide (Accepts crits p)) := by
  induction crits with
  | nil => simp [meets, Accepts]
  | cons c cs ih =>
    obtain ⟨b, hb⟩ := h c (by simp)
    have ih := ih fun c hc => h c (by simp [hc])
    unfold meets
    rw [hb, ok_bind]
    cases b with
    | true =>
      simp only [if_true, ih]
      congr 1
      refine decide_eq_decide.2 ?_
      simp [Accepts, hb]
    | false =>
      simp only [Bool.false_eq_true, if_false, pure, Except.pure]
      congr 1
      simp [Accepts, hb]

open Classical in
theorem foldlM_keep {s : SimState} {crits : List Criterion} (hid : KnowsIds s) (ht : Total crits s) (l : List Key)
    (hl : ∀ k ∈ l, ∃ p, s.getSiteState k = some p) (acc : List Val) :
    (l.map fun k => s.getSiteState k).foldlM (keep s crits) acc =
      .ok (acc ++ (l.filter fun k => decide (∃ p, s.getSiteState k = some p ∧ Accepts crits p)).map Key.toVal) := by
  induction l generalizing acc with
  | nil => simp [pure, Except.pure]
  | cons k l ih =>
    obtain ⟨p, hp⟩ := hl k (by simp)
    have ih := fun acc => ih (fun k hk => hl k (by simp [hk])) acc
    have h1 : siteIdOf (some p) = .ok k.toVal := by simp only [siteIdOf, hid k p hp]
    rw [List.map_cons, List.foldlM_cons]
    have h2 : keep s crits acc (s.getSiteState k) = .ok (acc ++ if Accepts crits p then [k.toVal] else []) := by
      unfold keep
      rw [hp, h1, ok_bind, getSiteStateV_toVal, ok_bind, hp, meets_total fun c hc => ht c hc k p hp, ok_bind]
      by_cases ha : Accepts crits p <;> simp [ha, pure, Except.pure]
    rw [h2, ok_bind, ih]
    congr 1
    rw [List.append_assoc, List.filter_cons]
    congr 1
    by_cases ha : Accepts crits p <;> simp [ha, hp]

theorem siteState_of_mem {s : SimState} (k : Key) (h : k ∈ s.siteIds) : ∃ p, s.getSiteState k = some p :=
  Option.isSome_iff_exists.1 (Dict.get?_isSome_iff.2 h)

theorem mem_of_siteState {s : SimState} {k : Key} {p : Props} (h : s.getSiteState k = some p) : k ∈ s.siteIds :=
  Dict.get?_isSome_iff.1 (by rw [show Dict.get? s.sites k = some p from h]; rfl)

theorem candidates_none {s : SimState} (hs : s.WF) (cls : Option String) :
    candidates (K := K) (d := d) none s cls = s.siteIds.map fun k => s.getSiteState k := by
  unfold candidates allSiteStates SimState.siteIds Dict.values Dict.keys
  simp only [List.map_map]
  refine List.map_congr_left fun kv hkv => ?_
  exact (Dict.get?_of_mem hs.sites hkv).symm

theorem candidates_some (S : Structure K d) (s : SimState) (cls : Option String) :
    candidates (some S) s cls = ((S.sitesOf cls).map fun t => Key.int t.id).map fun k => s.getSiteState k := by
  unfold candidates
  rw [List.map_map]; rfl

/-- C70 without a structure: `get_sites` lists the ids of exactly the sites that meet the criteria, in the order of the state and without repetition.  (The
class is ignored; see `C70_class_ignored`.) -/
theorem C70_get_sites (s : SimState) (hs : s.WF) (hid : KnowsIds s) (cls : Option String) (crits : List Criterion) (ht : Total crits s) :
    ∃ l : List Key, getSites (K := K) (d := d) none s cls crits = .ok (l.map Key.toVal) ∧ l.Sublist s.siteIds ∧ l.Nodup ∧
      ∀ k, k ∈ l ↔ ∃ p, s.getSiteState k = some p ∧ Accepts crits p := by
  classical
  unfold getSites
  rw [candidates_none hs, foldlM_keep hid ht _ siteState_of_mem]
  refine ⟨_, rfl, List.filter_sublist, hs.sites.filter _, fun k => ?_⟩
  rw [List.mem_filter]
  simp only [decide_eq_true_eq, and_iff_right_iff_imp]
  rintro ⟨p, hp, -⟩
  exact mem_of_siteState hp

theorem map_id_sitesOf {S : Structure K d} (hS : S.Reachable) : (S.sitesOf none).map Site.id = S.siteIds := by
  obtain ⟨acc, e, -⟩ := hS.built
  rw [e, ids_built]
  rw [siteIds_eq (e ▸ hS), length_sitesOf_built]

/-- C70 with a structure: `get_sites` lists the ids of exactly the sites of the structure that belong to the class (if one is given) and meet the criteria, in
the order of the structure and without repetition; if the state lacks one of the sites of the class, it raises TypeError. -/
theorem C70_structure (S : Structure K d) (hS : S.Reachable) (s : SimState) (hid : KnowsIds s) (cls : Option String) (crits : List Criterion)
    (ht : Total crits s) (hall : ∀ i t, S.getSite i = some t → (∀ c, cls = some c → t.cls = c) → ∃ p, s.getSiteState (.int i) = some p) :
    ∃ l : List ℕ, getSites (some S) s cls crits = .ok (l.map fun i : ℕ => .num i) ∧ l.Sublist S.siteIds ∧ l.Nodup ∧
      ∀ i, i ∈ l ↔ ∃ t p, S.getSite i = some t ∧ (∀ c, cls = some c → t.cls = c) ∧ s.getSiteState (.int i) = some p ∧ Accepts crits p := by
  classical
  unfold getSites
  rw [candidates_some]
  have hsub : ((S.sitesOf cls).map Site.id).Sublist S.siteIds := by
    rw [← map_id_sitesOf hS]
    refine List.Sublist.map _ ?_
    cases cls with
    | none => exact List.Sublist.refl _
    | some c => exact List.filter_sublist
  have hsub2 := (List.filter_sublist (p := fun i : ℕ => decide (∃ p, s.getSiteState (.int i) = some p ∧ Accepts crits p)) (l := (S.sitesOf cls).map Site.id)).trans hsub
  refine ⟨_, (foldlM_keep hid ht _ ?_ []).trans ?_, hsub2, ?_, fun i => ?_⟩
  · intro k hk
    obtain ⟨t, htm, rfl⟩ := List.mem_map.1 hk
    obtain ⟨h1, h2⟩ := (mem_sitesOf_class hS).1 htm
    exact hall _ t h1 h2
  · rw [List.nil_append, show ((S.sitesOf cls).map fun t => Key.int t.id) = ((S.sitesOf cls).map Site.id).map fun i : ℕ => Key.int i by rw [List.map_map]; rfl,
      List.filter_map, List.map_map]
    rfl
  · refine hsub2.nodup ?_
    rw [← map_id_sitesOf hS]; exact nodup_ids hS
  · rw [List.mem_filter, List.mem_map]
    simp only [decide_eq_true_eq]
    constructor
    · rintro ⟨⟨t, htm, rfl⟩, p, hp, ha⟩
      obtain ⟨h1, h2⟩ := (mem_sitesOf_class hS).1 htm
      exact ⟨t, p, h1, h2, hp, ha⟩
    · rintro ⟨t, p, h1, h2, hp, ha⟩
      have := id_of_getSite hS h1
      subst this
      exact ⟨⟨t, (mem_sitesOf_class hS).2 ⟨h1, h2⟩, rfl⟩, p, hp, ha⟩

/-- C70: a site of the structure that the state does not have makes the query raise TypeError (provided that nothing raises before). -/
theorem C70_missing_site (S : Structure K d) (hS : S.Reachable) (s : SimState) (hid : KnowsIds s) (cls : Option String) (crits : List Criterion)
    (ht : Total crits s) (i : ℕ) (t : Site K d) (hi : S.getSite i = some t) (hc : ∀ c, cls = some c → t.cls = c) (hmiss : s.getSiteState (.int i) = none) :
    getSites (some S) s cls crits = .error .typeError := by
  classical
  unfold getSites
  rw [candidates_some]
  have := id_of_getSite hS hi
  subst this
  have hmem : Key.int t.id ∈ (S.sitesOf cls).map fun t => Key.int t.id := List.mem_map.2 ⟨t, (mem_sitesOf_class hS).2 ⟨hi, hc⟩, rfl⟩
  generalize ((S.sitesOf cls).map fun t => Key.int t.id) = l at hmem
  obtain ⟨l1, k, l2, rfl, hk, hl1⟩ : ∃ l1 k l2, l = l1 ++ k :: l2 ∧ s.getSiteState k = none ∧ ∀ k ∈ l1, ∃ p, s.getSiteState k = some p := by
    clear hi hc
    induction l with
    | nil => simp at hmem
    | cons a l ih =>
      cases ha : s.getSiteState a with
      | none => exact ⟨[], a, l, rfl, ha, by simp⟩
      | some p =>
        rcases List.mem_cons.1 hmem with h | h
        · rw [← h, hmiss] at ha; cases ha
        · obtain ⟨l1, k, l2, rfl, hk, hl1⟩ := ih h
          refine ⟨a :: l1, k, l2, rfl, hk, ?_⟩
          intro k' hk'
          rcases List.mem_cons.1 hk' with rfl | hk'
          · exact ⟨p, ha⟩
          · exact hl1 k' hk'
  rw [List.map_append, List.foldlM_append, foldlM_keep hid ht l1 hl1, ok_bind, List.map_cons, List.foldlM_cons, hk]
  rfl

/-- C70: the count is the length of the list. -/
theorem C70_count (A : Option (Structure K d)) (s : SimState) (cls : Option String) (crits : List Criterion) (pairs : Props) :
    getSiteCount A s cls crits = (getSites A s cls crits).map List.length ∧
    getSiteCountWhereEqual A s pairs cls = (getSitesWhereEqual A s pairs cls).map List.length := by
  unfold getSiteCount getSiteCountWhereEqual
  constructor
  · cases getSites A s cls crits <;> rfl
  · cases getSitesWhereEqual A s pairs cls <;> rfl

theorem total_equalTo (pairs : Props) (s : SimState) : Total [equalTo pairs] s := by
  intro c hc k p _
  rw [List.mem_singleton.1 hc]
  exact ⟨_, rfl⟩

theorem accepts_equalTo {pairs p : Props} :
    Accepts [equalTo pairs] p ↔ ∀ k v, (k, v) ∈ pairs → Val.PyEq ((Dict.get? p k).getD .pyNone) v := by
  classical
  unfold Accepts
  simp only [List.mem_singleton, forall_eq, equalTo, Except.ok.injEq, List.all_eq_true, decide_eq_true_eq]
  constructor
  · intro h k v hkv; exact h (k, v) hkv
  · intro h kv hkv; exact h kv.1 kv.2 hkv

theorem pyEq_none {v : Val} (h : Val.PyEq .pyNone v) : v = .pyNone := by cases h; rfl

theorem accepts_hasAll {pairs : Props} (hn : ∀ k, (k, Val.pyNone) ∉ pairs) (p : Props) : Accepts [equalTo pairs] p ↔ HasAll pairs p := by
  rw [accepts_equalTo]
  refine forall_congr' fun k => forall_congr' fun v => imp_congr_right fun hkv => ?_
  cases hp : Dict.get? p k with
  | none =>
    simp only [Option.getD_none, reduceCtorEq, false_and, exists_false, iff_false]
    intro h
    rw [pyEq_none h] at hkv
    exact hn k hkv
  | some w => simp

/-- C70 (partial): `get_sites_where_equal` lists the sites whose dict has all listed keys with the listed values.  Missing: the listed values are not None (a
site without the key then counts as having it, `C70_none_matches_absent`). -/
theorem C70_where_equal_partial (s : SimState) (hs : s.WF) (hid : KnowsIds s) (cls : Option String) (pairs : Props) (hn : ∀ k, (k, Val.pyNone) ∉ pairs) :
    ∃ l : List Key, getSitesWhereEqual (K := K) (d := d) none s pairs cls = .ok (l.map Key.toVal) ∧ l.Sublist s.siteIds ∧ l.Nodup ∧
      ∀ k, k ∈ l ↔ ∃ p, s.getSiteState k = some p ∧ HasAll pairs p := by
  obtain ⟨l, h1, h2, h3, h4⟩ := C70_get_sites (K := K) (d := d) s hs hid cls [equalTo pairs] (total_equalTo pairs s)
  refine ⟨l, h1, h2, h3, fun k => ?_⟩
  rw [h4]
  simp only [accepts_hasAll hn]

/-- C70 (partial), with a structure. -/
theorem C70_where_equal_structure_partial (S : Structure K d) (hS : S.Reachable) (s : SimState) (hid : KnowsIds s) (cls : Option String) (pairs : Props)
    (hn : ∀ k, (k, Val.pyNone) ∉ pairs) (hsame : SameSites S s) :
    ∃ l : List ℕ, getSitesWhereEqual (some S) s pairs cls = .ok (l.map fun i : ℕ => .num i) ∧ l.Sublist S.siteIds ∧ l.Nodup ∧
      ∀ i, i ∈ l ↔ ∃ t p, S.getSite i = some t ∧ (∀ c, cls = some c → t.cls = c) ∧ s.getSiteState (.int i) = some p ∧ HasAll pairs p := by
  obtain ⟨l, h1, h2, h3, h4⟩ := C70_structure S hS s hid cls [equalTo pairs] (total_equalTo pairs s) (by
    intro i t ht _
    have := id_of_getSite hS ht
    subst this
    exact siteState_of_mem _ ((hsame _).2 ⟨t.id, (mem_siteIds_iff hS).2 ⟨t, (mem_sitesOf hS).2 ht, rfl⟩, rfl⟩))
  refine ⟨l, h1, h2, h3, fun i => ?_⟩
  rw [h4]
  simp only [accepts_hasAll hn]

/-- C70 is false for the value None: the site 0 has no key "x", but is found by `{"x": None}`. -/
theorem C70_none_matches_absent : ∃ (s : SimState) (pairs : Props), s.WF ∧ KnowsIds s ∧
    getSitesWhereEqual (K := ℚ) (d := 2) none s pairs none = .ok [.num 0] ∧ ∀ k p, s.getSiteState k = some p → ¬ HasAll pairs p := by
  have hg : ∀ k p, SimState.getSiteState ⟨[(.int 0, [(SITE_ID, .num 0)])], some []⟩ k = some p → k = .int 0 ∧ p = [(SITE_ID, .num 0)] := by
    intro k p h
    simp only [getSiteState, Dict.get?] at h
    split_ifs at h with hk
    injection h with h
    exact ⟨hk.symm, h.symm⟩
  have hw : SimState.WF ⟨[(.int 0, [(SITE_ID, .num 0)])], some []⟩ := by
    refine ⟨by simp [Dict.WF, Dict.keys], ?_, ?_⟩
    · intro kv hkv
      rw [List.mem_singleton.1 hkv]
      exact .dict (by simp [Dict.WF, Dict.keys]) (by intro kv h; rw [List.mem_singleton.1 h]; exact .num _)
    · intro g hg
      injection hg with hg; subst hg
      exact .dict (by simp [Dict.WF, Dict.keys]) (by simp)
  have hk : KnowsIds ⟨[(.int 0, [(SITE_ID, .num 0)])], some []⟩ := by
    intro k p h
    obtain ⟨rfl, rfl⟩ := hg k p h
    rfl
  refine ⟨⟨[(.int 0, [(SITE_ID, .num 0)])], some []⟩, [(.str "x", .pyNone)], hw, hk, ?_, ?_⟩
  · obtain ⟨l, h1, h2, h3, h4⟩ := C70_get_sites (K := ℚ) (d := 2) _ hw hk none [equalTo [(.str "x", .pyNone)]] (total_equalTo _ _)
    have hmem : Key.int 0 ∈ l := by
      rw [h4]
      refine ⟨_, rfl, accepts_equalTo.2 ?_⟩
      intro k v hkv
      simp only [List.mem_singleton, Prod.mk.injEq] at hkv
      obtain ⟨rfl, rfl⟩ := hkv
      exact .refl _
    have : l = [.int 0] := by
      have hl : l.length ≤ 1 := h2.length_le
      match l, hmem, hl with
      | [a], hmem, _ => rw [List.mem_singleton.1 hmem]
    subst this
    exact h1
  · intro k p h hcon
    obtain ⟨rfl, rfl⟩ := hg k p h
    obtain ⟨w, hw, -⟩ := hcon (.str "x") .pyNone (by simp)
    simp [Dict.get?, SITE_ID] at hw

/-- Without a structure the class argument makes no difference. -/
theorem C70_class_ignored (s : SimState) (cls cls' : Option String) (crits : List Criterion) :
    getSites (K := K) (d := d) none s cls crits = getSites (K := K) (d := d) none s cls' crits := rfl

end Pyl
