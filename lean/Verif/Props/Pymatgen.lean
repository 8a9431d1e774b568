import Verif.Model.Pymatgen
import Verif.Props.Honeycomb
import Verif.Props.State
/-
C79: conversion from and to pymatgen.
-/
set_option autoImplicit false
set_option linter.unusedSectionVars false

namespace Pyl
open Pyl.Lattice Pyl.Structure Pyl.Converter
variable {K : Type} [Field K] [LinearOrder K] [IsStrictOrderedRing K] [FloorRing K] {d : ℕ}

/-! ### The motif -/

theorem wf_addToMotif {m : Dict String (List (Fin d → K))} (h : Dict.WF m) (s : PmgSite K d) : Dict.WF (addToMotif m s) := by
  unfold addToMotif
  split <;> exact h.set _ _

theorem entries_set_new (m : Dict String (List (Fin d → K))) (k : String) (x : Fin d → K) (h : k ∉ Dict.keys m) :
    (Motif.byClass (Dict.set m k [x])).entries = (Motif.byClass m).entries ++ [(k, x)] := by
  induction m with
  | nil => simp [Dict.set, Motif.entries]
  | cons e m ih =>
    simp only [Dict.keys_cons, List.mem_cons, not_or] at h
    have := ih h.2
    simp only [Motif.entries] at this
    simp only [Dict.set, if_neg (Ne.symm h.1), Motif.entries, List.flatMap_cons, this, List.append_assoc]

theorem filter_entries_none (m : Dict String (List (Fin d → K))) (k : String) (h : k ∉ Dict.keys m) :
    (Motif.byClass m).entries.filter (fun a => a.1 = k) = [] := by
  rw [List.filter_eq_nil_iff]
  intro a ha
  simp only [Motif.entries, List.mem_flatMap, List.mem_map] at ha
  obtain ⟨cv, h1, v, -, rfl⟩ := ha
  simp only [decide_eq_true_eq]
  rintro rfl
  exact h (List.mem_map.2 ⟨cv, h1, rfl⟩)

theorem filter_entries_set (m : Dict String (List (Fin d → K))) (hm : Dict.WF m) (k c : String) (l : List (Fin d → K)) (x : Fin d → K)
    (h : Dict.get? m k = some l) : (Motif.byClass (Dict.set m k (l ++ [x]))).entries.filter (fun a => a.1 = c) =
      (Motif.byClass m).entries.filter (fun a => a.1 = c) ++ [(k, x)].filter (fun a => a.1 = c) := by
  induction m with
  | nil => cases h
  | cons e m ih =>
    obtain ⟨k', l'⟩ := e
    rw [Dict.get?_cons] at h
    simp only [Dict.set]
    by_cases hk : k' = k
    · subst hk
      rw [if_pos rfl] at h
      injection h with h; subst h
      rw [if_pos rfl]
      simp only [Motif.entries, List.flatMap_cons, List.map_append, List.filter_append, List.map_cons, List.map_nil, List.append_assoc]
      congr 1
      by_cases hc : k' = c
      · subst hc
        have := filter_entries_none m k' hm.head
        simp only [Motif.entries] at this
        rw [this]; simp
      · simp [hc]
    · rw [if_neg hk] at h
      rw [if_neg hk]
      have := ih hm.tail h
      simp only [Motif.entries] at this
      simp only [Motif.entries, List.flatMap_cons, List.filter_append, this, List.append_assoc]

/-- What a site contributes to the motif. -/
def PmgSite.entry (s : PmgSite K d) : String × (Fin d → K) := (s.species, s.frac)

theorem filter_addToMotif {m : Dict String (List (Fin d → K))} (hm : Dict.WF m) (s : PmgSite K d) (c : String) :
    (Motif.byClass (addToMotif m s)).entries.filter (fun a => a.1 = c) =
      (Motif.byClass m).entries.filter (fun a => a.1 = c) ++ [s.entry].filter (fun a => a.1 = c) := by
  unfold addToMotif
  split
  · rename_i l hl
    exact filter_entries_set m hm s.species c l s.frac hl
  · rename_i hl
    rw [entries_set_new m _ _ (Dict.get?_eq_none_iff.1 hl), List.filter_append]; rfl

theorem filter_motif (P : PmgStructure K d) (c : String) :
    (Motif.byClass (motif P)).entries.filter (fun a => a.1 = c) = (P.sites.map PmgSite.entry).filter (fun a => a.1 = c) := by
  have key : ∀ (l : List (PmgSite K d)) (m : Dict String (List (Fin d → K))), Dict.WF m →
      (Motif.byClass (l.foldl addToMotif m)).entries.filter (fun a => a.1 = c) =
        (Motif.byClass m).entries.filter (fun a => a.1 = c) ++ (l.map PmgSite.entry).filter (fun a => a.1 = c) := by
    intro l
    induction l with
    | nil => intro m _; simp
    | cons s l ih =>
      intro m hm
      rw [List.foldl_cons, ih _ (wf_addToMotif hm s), filter_addToMotif hm, List.append_assoc, List.map_cons,
        ← List.filter_append]; rfl
  rw [motif, key _ _ Dict.WF.nil]; simp [Motif.entries]

/-- Lists whose parts with the same first component agree are permutations of each other. -/
theorem perm_of_filter {β : Type} {l l' : List (String × β)} (h : ∀ c, l.filter (fun a => a.1 = c) = l'.filter (fun a => a.1 = c)) :
    l.Perm l' := by
  classical
  rw [List.perm_iff_count]
  intro a
  have e : ∀ l : List (String × β), l.count a = (l.filter (fun b => b.1 = a.1)).count a := by
    intro l
    rw [List.count_filter (by simp)]
  rw [e l, e l', h]

/-- The input sites in the order of the motif. -/
def ordered (P : PmgStructure K d) : List (PmgSite K d) := (Motif.byClass (motif P)).entries.map fun a => ⟨a.1, a.2⟩

theorem ordered_filter (P : PmgStructure K d) (c : String) :
    (ordered P).filter (fun s => s.species = c) = P.sites.filter (fun s => s.species = c) := by
  have := congrArg (List.map fun a : String × (Fin d → K) => (⟨a.1, a.2⟩ : PmgSite K d)) (filter_motif P c)
  rw [ordered, List.filter_map]
  refine Eq.trans this ?_
  rw [List.filter_map, List.map_map]
  exact (List.map_id'' (fun _ => rfl) _)

theorem ordered_perm (P : PmgStructure K d) : (ordered P).Perm P.sites := by
  have := (perm_of_filter (filter_motif P)).map (fun a : String × (Fin d → K) => (⟨a.1, a.2⟩ : PmgSite K d))
  rw [List.map_map] at this
  refine this.trans (List.Perm.of_eq ?_)
  exact (List.map_id'' (fun _ => rfl) _)

/-! ### One cell -/

theorem scaled_one (L : Lattice K d) : L.scaled (fun _ => 1) = L := by
  cases L; simp [scaled]

theorem siteIn_zero (L : Lattice K d) (a : String × (Fin d → K)) : siteIn L true 0 a = (a.1, L.point a.2) := by
  have : (L.point fun i => (((0 : Fin d → ℤ) i : ℤ) : K)) = 0 := by
    funext j; simp [point]
  simp only [siteIn, if_true, this, add_zero]

/-- `build(1)` with a motif in fractional coordinates. -/
theorem build_one (L : Lattice K d) (h : L.Regular) (m : Motif K d) :
    ((∀ (e e' : ℕ) (a a' : String × (Fin d → K)), m.entries[e]? = some a → m.entries[e']? = some a' →
        L.SamePlace (L.point a.2) (L.point a'.2) → e = e') →
      ∃ S, build L m true (.int 1) = .ok S ∧ S.Reachable ∧ S.lattice = L ∧ S.siteIds = List.range m.entries.length ∧
        ∀ (e : ℕ) (a : String × (Fin d → K)), m.entries[e]? = some a → ∃ y, L.Stored (L.point a.2) y ∧
          S.getSite e = some ⟨a.1, y, e⟩ ∧ ∀ x, L.Image x (L.point a.2) → S.idAt x = some e) ∧
    (∀ (e e' : ℕ) (a a' : String × (Fin d → K)), m.entries[e]? = some a → m.entries[e']? = some a' →
        L.SamePlace (L.point a.2) (L.point a'.2) → e ≠ e' → build L m true (.int 1) = .error .assertionError) := by
  obtain ⟨cs, hcs, hlex, h1, h2⟩ := C49_tiling_partial L h (fun _ => 1) (fun _ => one_pos) m true (.inl rfl)
  have hz : ∀ c ∈ cs, c = 0 := fun c hc => by
    funext i
    have := (hcs c).1 hc i
    simp only [Pi.zero_apply]; omega
  have hcs0 : cs = [0] := by
    match cs, hcs, hlex, hz with
    | [], hcs, _, _ => exact absurd ((hcs 0).2 fun i => by simp) (by simp)
    | [a], _, _, hz => rw [hz a (by simp)]
    | a :: b :: l, _, hlex, hz =>
      have ha := hz a (by simp)
      have hb := hz b (by simp)
      have := List.rel_of_pairwise_cons hlex (List.mem_cons_self (a := b) (l := l))
      rw [ha, hb] at this
      exact absurd this (List.lt_irrefl _)
  subst hcs0
  have hb : build L m true (.int 1) = buildFrom L (fun _ => 1) m true := rfl
  rw [scaled_one] at h1 h2
  rw [hb]
  refine ⟨fun hd => ?_, fun e e' a a' he he' hp hne => ?_⟩
  · obtain ⟨S, hS, hL, hids, hs⟩ := h1 fun c hc c' hc' e e' a a' he he' hp => by
      rw [hz c hc, hz c' hc', siteIn_zero, siteIn_zero] at hp
      exact ⟨by rw [hz c hc, hz c' hc'], hd e e' a a' he he' hp⟩
    refine ⟨S, hS, buildFrom_reachable h (fun _ => one_ne_zero) hS, hL, by rw [hids]; simp, fun e a he => ?_⟩
    obtain ⟨y, hy, hg, hi⟩ := hs 0 e 0 a rfl he
    rw [siteIn_zero] at hy hi
    simp only [Nat.zero_mul, Nat.zero_add] at hg hi
    exact ⟨y, hy, hg, hi⟩
  · exact h2 0 (by simp) 0 (by simp) e e' a a' he he' (by rw [siteIn_zero, siteIn_zero]; exact hp) (.inr hne)

/-! ### The state -/

/-- The state of an occupied site. -/
def occupied (i : ℕ) (c : String) : Props := [(Pyl.SITE_ID, .num i), (DISCRETE_OCCUPANCY, .str c)]

theorem setSiteState_occ (st : SimState) (i : ℕ) (c : String)
    (h : st.getSiteState (.int i) = some [(Pyl.SITE_ID, .num i)] ∨ st.getSiteState (.int i) = some (occupied i c)) :
    (∀ k, (st.setSiteState (.int i) [(DISCRETE_OCCUPANCY, .str c)]).getSiteState k =
      if k = .int i then some (occupied i c) else st.getSiteState k) ∧
    (st.setSiteState (.int i) [(DISCRETE_OCCUPANCY, .str c)]).siteIds = st.siteIds := by
  constructor
  · intro k
    simp only [SimState.getSiteState] at h ⊢
    rw [SimState.get?_setSiteState]
    by_cases hk : k = .int i
    · subst hk
      simp only [if_true]
      rcases h with h | h <;>
        simp [SimState.oldOf, h, Dict.update, Dict.set, occupied, Pyl.SITE_ID, DISCRETE_OCCUPANCY]
    · simp [hk, Ne.symm hk]
  · rw [SimState.siteIds, SimState.setSiteState_sites, Dict.keys_set_of_mem]; rfl
    rcases h with h | h <;> exact Dict.mem_keys_of_get? h

theorem foldlM_occupy (P : PmgStructure K d) (S : Structure K d) (l : List (PmgSite K d)) (at_ : PmgSite K d → ℕ) (cls : ℕ → String)
    (hl : ∀ s ∈ l, ∃ t, S.siteAt (P.coords s) = some t ∧ t.id = at_ s ∧ s.species = cls (at_ s))
    (st : SimState) (hst : ∀ s ∈ l, st.getSiteState (.int (at_ s)) = some [(Pyl.SITE_ID, .num (at_ s))] ∨
      st.getSiteState (.int (at_ s)) = some (occupied (at_ s) (cls (at_ s)))) :
    ∃ st', l.foldlM (occupy P S) st = .ok st' ∧ st'.siteIds = st.siteIds ∧ st'.general = st.general ∧
      (∀ s ∈ l, st'.getSiteState (.int (at_ s)) = some (occupied (at_ s) s.species)) := by
  suffices H : ∀ (l : List (PmgSite K d)), (∀ s ∈ l, ∃ t, S.siteAt (P.coords s) = some t ∧ t.id = at_ s ∧ s.species = cls (at_ s)) →
      ∀ st : SimState, (∀ s ∈ l, st.getSiteState (.int (at_ s)) = some [(Pyl.SITE_ID, .num (at_ s))] ∨
      st.getSiteState (.int (at_ s)) = some (occupied (at_ s) (cls (at_ s)))) →
      ∃ st', l.foldlM (occupy P S) st = .ok st' ∧ st'.siteIds = st.siteIds ∧ st'.general = st.general ∧
      (∀ s ∈ l, st'.getSiteState (.int (at_ s)) = some (occupied (at_ s) s.species)) ∧
      (∀ i c, c = cls i → st.getSiteState (.int i) = some (occupied i c) → st'.getSiteState (.int i) = some (occupied i c)) by
    obtain ⟨st', a, b, c, e, -⟩ := H l hl st hst
    exact ⟨st', a, b, c, e⟩
  intro l
  induction l with
  | nil => intro _ st _; exact ⟨st, rfl, rfl, rfl, by simp, fun _ _ _ h => h⟩
  | cons s l ih =>
    intro hl st hst
    obtain ⟨t, ht, hid, hsp⟩ := hl s (by simp)
    obtain ⟨h1, h2⟩ := setSiteState_occ st (at_ s) s.species (by rw [hsp]; exact hst s (by simp))
    obtain ⟨st', a, b, c, e, f⟩ := ih (fun s hs => hl s (by simp [hs]))
      (st.setSiteState (.int (at_ s)) [(DISCRETE_OCCUPANCY, .str s.species)]) (fun s' hs' => by
        rw [h1]
        split_ifs with hk
        · right
          simp only [Key.int.injEq, Nat.cast_inj] at hk
          rw [hk, hsp]
        · exact hst s' (by simp [hs']))
    refine ⟨st', ?_, b.trans h2, c, fun s' hs' => ?_, fun i c' hc' hi => f i c' hc' ?_⟩
    · rw [List.foldlM_cons, occupy, ht]
      simp only [hid]
      exact a
    · rcases List.mem_cons.1 hs' with rfl | hs'
      · exact f _ _ hsp (by rw [h1, if_pos rfl])
      · exact e s' hs'
    · rw [h1]
      split_ifs with hk
      · simp only [Key.int.injEq, Nat.cast_inj] at hk
        rw [hk, hc', hk, ← hsp]
      · exact hi

theorem mapM_toPmg (S : Structure K d) (l : List ℕ) (f : ℕ → PmgSite K d) (h : ∀ i ∈ l, toPmgSite S i = .ok (f i)) :
    l.mapM (toPmgSite S) = .ok (l.map f) := by
  induction l with
  | nil => rfl
  | cons i l ih =>
    rw [List.mapM_cons, h i (by simp), ih fun j hj => h j (by simp [hj])]; rfl

theorem toPmgSite_ok {S : Structure K d} {i : ℕ} {t : Site K d} (h : S.getSite i = some t) :
    toPmgSite S i = .ok ⟨t.cls, S.lattice.toFrac t.loc⟩ := by
  have h1 : S.siteClass i = .ok t.cls := by rw [siteClass, h]
  have h2 : S.siteLocation i = .ok t.loc := by rw [siteLocation, h]
  rw [toPmgSite, h1, h2]; rfl

/-- C79: if the positions of the sites of a pymatgen structure differ (by more than the stored precision), it is converted; there is one
pylattica site for every input site, with its species as class and as occupancy, at its coordinates; same species are kept in order.
Converting the structure back gives the same lattice vectors and, site by site, the same species and coordinates (brought into the cell and
rounded to thousandths). -/
theorem C79_round_trip (P : PmgStructure K d) (h : (toPylLattice P.lattice).Regular)
    (hd : ∀ (i j : ℕ) (s t : PmgSite K d), P.sites[i]? = some s → P.sites[j]? = some t →
      (toPylLattice P.lattice).SamePlace (P.coords s) (P.coords t) → i = j) :
    ∃ (S : Structure K d) (st : SimState) (ord : List (PmgSite K d)) (back : PmgStructure K d),
      toPyl P = .ok (S, st) ∧ S.lattice = toPylLattice P.lattice ∧
      ord.Perm P.sites ∧ (∀ c, ord.filter (fun s => s.species = c) = P.sites.filter (fun s => s.species = c)) ∧
      S.siteIds = List.range P.sites.length ∧ st.siteIds = S.siteIds.map (fun i : ℕ => Key.int i) ∧ st.getGeneralState = some [] ∧
      (∀ (k : ℕ) (s : PmgSite K d), ord[k]? = some s → ∃ y, (toPylLattice P.lattice).Stored (P.coords s) y ∧
        S.getSite k = some ⟨s.species, y, k⟩ ∧ S.idAt (P.coords s) = some k ∧
        st.getSiteState (.int k) = some [(Pyl.SITE_ID, .num k), (DISCRETE_OCCUPANCY, .str s.species)]) ∧
      toPmg S = .ok back ∧ back.lattice.mat = P.lattice.mat ∧
      List.Forall₂ (fun s t => t.species = s.species ∧ (toPylLattice P.lattice).Stored (P.coords s) (back.coords t)) ord back.sites := by
  classical
  set L := toPylLattice P.lattice with hL
  have hcoords : ∀ s : PmgSite K d, P.coords s = L.point s.frac := fun s => rfl
  have hperm := ordered_perm P
  -- distinct positions in the order of the motif
  have hidx : ∀ (e e' : ℕ) (s s' : PmgSite K d), (ordered P)[e]? = some s → (ordered P)[e']? = some s' →
      L.SamePlace (L.point s.frac) (L.point s'.frac) → e = e' := by
    have hsymm : ∀ {s t : PmgSite K d}, ¬ L.SamePlace (P.coords s) (P.coords t) → ¬ L.SamePlace (P.coords t) (P.coords s) :=
      fun hn hp => hn hp.symm
    have hp1 : P.sites.Pairwise fun s t => ¬ L.SamePlace (P.coords s) (P.coords t) := by
      rw [List.pairwise_iff_getElem]
      intro i j hi hj hij hp
      exact hij.ne (hd i j _ _ (List.getElem?_eq_getElem hi) (List.getElem?_eq_getElem hj) hp)
    have hp2 := (hperm.pairwise_iff hsymm).2 hp1
    rw [List.pairwise_iff_getElem] at hp2
    intro e e' s s' he he' hp
    obtain ⟨l1, rfl⟩ := List.getElem?_eq_some_iff.1 he
    obtain ⟨l2, rfl⟩ := List.getElem?_eq_some_iff.1 he'
    rcases lt_trichotomy e e' with hlt | heq | hlt
    · exact absurd hp (hp2 e e' l1 l2 hlt)
    · exact heq
    · exact absurd hp.symm (hp2 e' e l2 l1 hlt)
  have hent : ∀ (e : ℕ) (a : String × (Fin d → K)), (Motif.byClass (motif P)).entries[e]? = some a ↔ (ordered P)[e]? = some ⟨a.1, a.2⟩ := by
    intro e a
    rw [ordered, List.getElem?_map]
    cases (Motif.byClass (motif P)).entries[e]? with
    | none => simp
    | some b => obtain ⟨b1, b2⟩ := b; obtain ⟨a1, a2⟩ := a; simp
  obtain ⟨S, hS, hreach, hSL, hids, hsites⟩ := (build_one L h (.byClass (motif P))).1 fun e e' a a' he he' hp =>
    hidx e e' _ _ ((hent e a).1 he) ((hent e' a').1 he') hp
  have hlen : (Motif.byClass (motif P)).entries.length = (ordered P).length := by rw [ordered, List.length_map]
  have hids' : S.siteIds = List.range P.sites.length := by rw [hids, hlen, hperm.length_eq]
  have hsite : ∀ (k : ℕ) (s : PmgSite K d), (ordered P)[k]? = some s → ∃ y, L.Stored (P.coords s) y ∧ S.getSite k = some ⟨s.species, y, k⟩ ∧
      S.idAt (P.coords s) = some k := by
    intro k s hs
    obtain ⟨y, h1, h2, h3⟩ := hsites k (s.species, s.frac) ((hent k _).2 hs)
    refine ⟨y, h1, h2, h3 _ ⟨0, by simp, ?_⟩⟩
    rw [hcoords, sub_self]; funext j; simp [point]
  -- the state
  have hat : ∀ s : PmgSite K d, ∃ k, s ∈ P.sites → (ordered P)[k]? = some s := fun s => by
    by_cases hs : s ∈ P.sites
    · obtain ⟨k, hk⟩ := List.mem_iff_getElem?.1 (hperm.mem_iff.2 hs)
      exact ⟨k, fun _ => hk⟩
    · exact ⟨0, fun h => absurd h hs⟩
  choose at_ hat using hat
  have hnd : (S.siteIds.map fun i : ℕ => Key.int i).Nodup := by
    rw [hids']
    exact List.nodup_range.map fun a b hab => by simpa using hab
  obtain ⟨f1, f2, f3⟩ := C81_from_struct _ hnd
  obtain ⟨st, hst, g1, g2, g3⟩ := foldlM_occupy P S P.sites at_ (fun i => ((ordered P)[i]?.map PmgSite.species).getD "") (fun s hs => by
      obtain ⟨y, -, h2, h3⟩ := hsite _ s (hat s hs)
      rw [idAt, Option.map_eq_some_iff] at h3
      obtain ⟨t, h3, h4⟩ := h3
      exact ⟨t, h3, h4, by rw [hat s hs]; rfl⟩) (SimState.fromStruct (S.siteIds.map fun i : ℕ => Key.int i)) (fun s hs => by
      left
      refine f2 _ (List.mem_map.2 ⟨_, ?_, rfl⟩)
      rw [hids', List.mem_range, ← hperm.length_eq]
      exact (List.getElem?_eq_some_iff.1 (hat s hs)).1)
  have hstk : ∀ (k : ℕ) (s : PmgSite K d), (ordered P)[k]? = some s → st.getSiteState (.int k) = some (occupied k s.species) := by
    intro k s hs
    have hm : s ∈ P.sites := hperm.mem_iff.1 (List.mem_of_getElem? hs)
    have e : at_ s = k := by
      obtain ⟨y, -, -, h3⟩ := hsite k s hs
      obtain ⟨y', -, -, h3'⟩ := hsite _ s (hat s hm)
      rw [h3] at h3'; injection h3' with h3'; exact h3'.symm
    rw [← e]
    exact g3 s hm
  have hpyl : toPyl P = .ok (S, st) := by
    rw [toPyl, buildPmg, hS]
    simp only [ok_bind, hst]; rfl
  -- back
  choose! y hy1 hy2 using fun (k : ℕ) (hk : k < (ordered P).length) => hsite k _ (List.getElem?_eq_getElem hk)
  have hback : toPmg S = .ok ⟨toPmgLattice L, (List.range (ordered P).length).map fun k =>
      ⟨((ordered P)[k]?.map PmgSite.species).getD "", L.toFrac (y k)⟩⟩ := by
    rw [toPmg, mapM_toPmg S S.siteIds (fun k => ⟨((ordered P)[k]?.map PmgSite.species).getD "", L.toFrac (y k)⟩), hids', hSL,
      hperm.length_eq]
    · rfl
    · intro k hk
      rw [hids', List.mem_range, ← hperm.length_eq] at hk
      rw [toPmgSite_ok (hy2 k hk).1, hSL, List.getElem?_eq_getElem hk]; rfl
  refine ⟨S, st, ordered P, _, hpyl, hSL, hperm, ordered_filter P, hids', g1.trans f1, g2.trans f3, fun k s hk => ?_, hback, rfl, ?_⟩
  · obtain ⟨y, h1, h2, h3⟩ := hsite k s hk
    exact ⟨y, h1, h2, h3, hstk k s hk⟩
  · rw [List.forall₂_iff_get]
    refine ⟨by simp, fun k h1 h2 => ?_⟩
    simp only [List.get_eq_getElem, List.getElem_map, List.getElem_range, List.getElem?_eq_getElem h1, Option.map_some, Option.getD_some,
      true_and]
    have : PmgStructure.coords ⟨toPmgLattice L, (List.range (ordered P).length).map fun k =>
      ⟨((ordered P)[k]?.map PmgSite.species).getD "", L.toFrac (y k)⟩⟩ ⟨(ordered P)[k].species, L.toFrac (y k)⟩ = y k :=
      toCart_toFrac h (y k)
    rw [this]
    exact hy1 k h1

/-- C79: two input sites at the same place are refused. -/
theorem C79_same_place (P : PmgStructure K d) (h : (toPylLattice P.lattice).Regular) (i j : ℕ) (s t : PmgSite K d)
    (hi : P.sites[i]? = some s) (hj : P.sites[j]? = some t) (hij : i ≠ j)
    (hp : (toPylLattice P.lattice).SamePlace (P.coords s) (P.coords t)) : toPyl P = .error .assertionError := by
  by_contra hne
  have hno : ∀ (e e' : ℕ) (a a' : String × (Fin d → K)), (Motif.byClass (motif P)).entries[e]? = some a →
      (Motif.byClass (motif P)).entries[e']? = some a' →
      (toPylLattice P.lattice).SamePlace ((toPylLattice P.lattice).point a.2) ((toPylLattice P.lattice).point a'.2) → e = e' := by
    intro e e' a a' he he' hs
    by_contra hee
    apply hne
    rw [toPyl, buildPmg, (build_one _ h _).2 e e' a a' he he' hs hee]; rfl
  have hsymm : ∀ {s t : PmgSite K d}, ¬ (toPylLattice P.lattice).SamePlace (P.coords s) (P.coords t) →
      ¬ (toPylLattice P.lattice).SamePlace (P.coords t) (P.coords s) := fun hn hp => hn hp.symm
  have hp1 : (ordered P).Pairwise fun s t => ¬ (toPylLattice P.lattice).SamePlace (P.coords s) (P.coords t) := by
    rw [List.pairwise_iff_getElem]
    intro e e' l1 l2 hlt hs
    have l1' := l1
    have l2' := l2
    rw [ordered, List.length_map] at l1' l2'
    refine hlt.ne (hno e e' _ _ (List.getElem?_eq_getElem l1') (List.getElem?_eq_getElem l2') ?_)
    simp only [ordered, List.getElem_map] at hs
    exact hs
  have hp2 := ((ordered_perm P).pairwise_iff hsymm).1 hp1
  rw [List.pairwise_iff_getElem] at hp2
  obtain ⟨l1, rfl⟩ := List.getElem?_eq_some_iff.1 hi
  obtain ⟨l2, rfl⟩ := List.getElem?_eq_some_iff.1 hj
  rcases lt_or_gt_of_ne hij with hlt | hlt
  · exact hp2 i j l1 l2 hlt hp
  · exact hp2 j i l2 l1 hlt hp.symm

/-- C79: for coordinates in the cell that are whole thousandths the round trip changes nothing but the order. -/
theorem C79_exact (P : PmgStructure K d) (h : (toPylLattice P.lattice).Regular)
    (hd : ∀ (i j : ℕ) (s t : PmgSite K d), P.sites[i]? = some s → P.sites[j]? = some t →
      (toPylLattice P.lattice).SamePlace (P.coords s) (P.coords t) → i = j)
    (hal : ∀ s ∈ P.sites, Aligned (P.coords s)) (hin : ∀ s ∈ P.sites, ∀ k, 0 ≤ s.frac k ∧ s.frac k < 1) :
    ∃ S st back, toPyl P = .ok (S, st) ∧ toPmg S = .ok back ∧ back.lattice.mat = P.lattice.mat ∧ back.sites.Perm P.sites := by
  obtain ⟨S, st, ord, back, h1, h2, h3, -, -, -, -, -, h4, h5, h6⟩ := C79_round_trip P h hd
  refine ⟨S, st, back, h1, h4, h5, ?_⟩
  suffices ord = back.sites by rw [← this]; exact h3
  rw [List.forall₂_iff_get] at h6
  refine List.ext_get h6.1 fun k hk hk' => ?_
  obtain ⟨e1, e2⟩ := h6.2 k hk hk'
  have hm : ord.get ⟨k, hk⟩ ∈ P.sites := h3.mem_iff.1 (List.get_mem _ _)
  generalize ord.get ⟨k, hk⟩ = s at e1 e2 hm
  generalize back.sites.get ⟨k, hk'⟩ = t at e1 e2
  have hc : (toPylLattice P.lattice).InCell (P.coords s) := ⟨s.frac, rfl, fun i _ => hin s hm i⟩
  rw [stored_iff h, hc.periodized h, aligned_rounded (hal s hm)] at e2
  have e3 : (toPylLattice P.lattice).toCart t.frac = (toPylLattice P.lattice).toCart s.frac := by
    have : back.coords t = Matrix.vecMul t.frac P.lattice.mat := by rw [PmgStructure.coords, h5]
    rw [this] at e2; exact e2
  have e4 : t.frac = s.frac := by rw [← toFrac_toCart h t.frac, e3, toFrac_toCart h]
  cases s; cases t
  simp only at e1 e4
  rw [e1, e4]

/-- C79: the periodicity flags of the pymatgen lattice are not looked at: a slab or a molecule (`pbc` with False) becomes a fully periodic
structure, and comes back fully periodic. -/
theorem C79_pbc (P : PmgStructure K d) (pbc : Fin d → Bool) :
    toPyl ⟨⟨P.lattice.mat, pbc⟩, P.sites⟩ = toPyl P ∧ ∀ (S : Structure K d) back, toPmg S = .ok back → ∀ i, back.lattice.pbc i = true := by
  refine ⟨rfl, fun S back hb i => ?_⟩
  rw [toPmg] at hb
  cases hm : S.siteIds.mapM (toPmgSite S) with
  | error e => rw [hm] at hb; cases hb
  | ok l => rw [hm] at hb; injection hb with hb; subst hb; rfl

/-- Zinc blende. -/
def zincBlende : PmgStructure ℚ 3 :=
  ⟨⟨!![0, 2, 2; 2, 0, 2; 2, 2, 0], fun _ => true⟩, [⟨"Zn", 0⟩, ⟨"S", fun _ => 1 / 4⟩]⟩

/-- It meets the hypotheses. -/
example : (toPylLattice zincBlende.lattice).Regular ∧
    (∀ (i j : ℕ) (s t : PmgSite ℚ 3), zincBlende.sites[i]? = some s → zincBlende.sites[j]? = some t →
      (toPylLattice zincBlende.lattice).SamePlace (zincBlende.coords s) (zincBlende.coords t) → i = j) ∧
    (∀ s ∈ zincBlende.sites, Aligned (zincBlende.coords s)) ∧ (∀ s ∈ zincBlende.sites, ∀ k, 0 ≤ s.frac k ∧ s.frac k < 1) := by
  have hreg : (toPylLattice zincBlende.lattice).Regular := by
    refine regular_of_isUnit ?_
    rw [isUnit_iff_ne_zero, toPylLattice, zincBlende, Matrix.det_fin_three]
    simp
  have hal : ∀ s ∈ zincBlende.sites, Aligned (zincBlende.coords s) := by
    intro s hs
    simp only [zincBlende, List.mem_cons, List.not_mem_nil, or_false] at hs
    rcases hs with rfl | rfl
    · intro i; exact ⟨0, by simp [PmgStructure.coords]⟩
    · intro i
      refine ⟨1000, ?_⟩
      fin_cases i <;> simp [PmgStructure.coords, zincBlende, Matrix.vecMul, dotProduct, Fin.sum_univ_three] <;> norm_num
  have hL : ∀ i, Aligned ((toPylLattice zincBlende.lattice).mat i) := by
    intro i j
    have : ∀ i j : Fin 3, (toPylLattice zincBlende.lattice).mat i j = ((if i = j then 0 else 2 : ℤ) : ℚ) := by
      intro i j
      fin_cases i <;> fin_cases j <;> simp [toPylLattice, zincBlende]
    exact ⟨1000 * (if i = j then 0 else 2), by rw [this]; push_cast; rfl⟩
  have hno : ¬ (toPylLattice zincBlende.lattice).Image (zincBlende.coords ⟨"S", fun _ => 1 / 4⟩) (zincBlende.coords ⟨"Zn", 0⟩) := by
    intro hi
    obtain ⟨n, -, hn⟩ := hi.frac hreg
    have h0 := hn 0
    have e1 : (toPylLattice zincBlende.lattice).toFrac (zincBlende.coords ⟨"S", fun _ => 1 / 4⟩) = fun _ => 1 / 4 := toFrac_toCart hreg _
    have e2 : (toPylLattice zincBlende.lattice).toFrac (zincBlende.coords ⟨"Zn", 0⟩) = 0 := toFrac_toCart hreg _
    rw [e1, e2] at h0
    simp only [Pi.zero_apply, zero_add] at h0
    have : (4 * n 0 : ℤ) = 1 := by
      have : (4 * (n 0 : ℚ)) = 1 := by rw [← h0]; norm_num
      exact_mod_cast this
    omega
  refine ⟨hreg, fun i j s t hi hj hp => ?_, hal, ?_⟩
  · rw [samePlace_iff_image hreg hL (hal s (List.mem_of_getElem? hi)) (hal t (List.mem_of_getElem? hj))] at hp
    match i, j, hi, hj with
    | 0, 0, _, _ => rfl
    | 1, 1, _, _ => rfl
    | 1, 0, hi, hj =>
      simp only [zincBlende, List.getElem?_cons_zero, List.getElem?_cons_succ, Option.some.injEq] at hi hj
      subst hi; subst hj
      exact absurd hp hno
    | 0, 1, hi, hj =>
      simp only [zincBlende, List.getElem?_cons_zero, List.getElem?_cons_succ, Option.some.injEq] at hi hj
      subst hi; subst hj
      exact absurd hp.symm hno
    | i + 2, _, hi, _ => simp [zincBlende] at hi
    | _, j + 2, _, hj => simp [zincBlende] at hj
  · intro s hs k
    simp only [zincBlende, List.mem_cons, List.not_mem_nil, or_false] at hs
    rcases hs with rfl | rfl <;> norm_num

/-! ### C88 -/

/-- What `to_pymatgen_structure` returns. -/
theorem toPmg_ok {S : Structure K d} (hS : S.Reachable) : ∃ P, toPmg S = .ok P ∧ P.lattice.mat = S.lattice.mat ∧
    P.sites.length = S.siteIds.length ∧
    ∀ (i : ℕ) (t : Site K d), S.getSite i = some t → P.sites[i]? = some ⟨t.cls, S.lattice.toFrac t.loc⟩ := by
  have hget : ∀ i ∈ S.siteIds, ∃ t, S.getSite i = some t := fun i hi => by
    rw [siteIds_eq hS, List.mem_range] at hi
    exact (getSite_isSome_iff hS).2 hi
  refine ⟨⟨toPmgLattice S.lattice, S.siteIds.map fun i => match S.getSite i with
    | some t => ⟨t.cls, S.lattice.toFrac t.loc⟩
    | none => ⟨"", 0⟩⟩, ?_, rfl, by simp, fun i t ht => ?_⟩
  · rw [toPmg, mapM_toPmg S S.siteIds (fun i => match S.getSite i with
      | some t => ⟨t.cls, S.lattice.toFrac t.loc⟩
      | none => ⟨"", 0⟩) fun i hi => ?_]
    · rfl
    · obtain ⟨t, ht⟩ := hget i hi
      rw [toPmgSite_ok ht, ht]
  · have hi : i < S.siteIds.length := by
      have := (getSite_isSome_iff hS).1 ⟨t, ht⟩
      rw [siteIds_eq hS, List.length_range]; exact this
    have e : S.siteIds[i]? = some i := by
      rw [List.getElem?_eq_getElem hi]
      simp [siteIds_eq hS]
    simp [List.getElem?_map, e, ht]

theorem toPylLattice_of {S : Structure K d} {P : PmgStructure K d} (hm : P.lattice.mat = S.lattice.mat) (hp : ∀ i, S.lattice.periodic i = true) :
    toPylLattice P.lattice = S.lattice := by
  rw [toPylLattice, hm]
  cases hL : S.lattice with
  | mk mat per =>
    rw [hL] at hp
    congr 1
    funext i
    exact (hp i).symm

/-- C88 (the part that holds): converting a fully periodic structure whose stored locations are at different places to pymatgen and back gives
a structure on the same lattice with as many sites, and at every stored location a site of the same class.  Missing: structures in which two
sites have stored locations at the same place (`C88_collision`, `C88_false`), and lattices with a direction that is not periodic
(`C79_pbc`). -/
theorem C88_round_trip_partial {S : Structure K d} (hS : S.Reachable) (hp : ∀ i, S.lattice.periodic i = true)
    (hd : ∀ i j t u, S.getSite i = some t → S.getSite j = some u → S.lattice.SamePlace t.loc u.loc → i = j) :
    ∃ P S' st, toPmg S = .ok P ∧ toPyl P = .ok (S', st) ∧ S'.lattice = S.lattice ∧ S'.siteIds = S.siteIds ∧
      (∀ i t, S.getSite i = some t → ∃ k y, S'.siteAt t.loc = some ⟨t.cls, y, k⟩ ∧ S.lattice.Stored t.loc y ∧
        st.getSiteState (.int k) = some [(Pyl.SITE_ID, .num k), (DISCRETE_OCCUPANCY, .str t.cls)]) := by
  obtain ⟨P, hP, hm, hlen, hsites⟩ := toPmg_ok hS
  have hL := toPylLattice_of hm hp
  have hc : ∀ t : Site K d, P.coords ⟨t.cls, S.lattice.toFrac t.loc⟩ = t.loc := fun t => by
    rw [PmgStructure.coords, hm]; exact toCart_toFrac hS.1 t.loc
  have hback : ∀ (i : ℕ) (s : PmgSite K d), P.sites[i]? = some s → ∃ t, S.getSite i = some t ∧ s = ⟨t.cls, S.lattice.toFrac t.loc⟩ := by
    intro i s hs
    have hi := (List.getElem?_eq_some_iff.1 hs).1
    rw [hlen, siteIds_eq hS, List.length_range] at hi
    obtain ⟨t, ht⟩ := (getSite_isSome_iff hS).2 hi
    have := hsites i t ht
    rw [hs] at this; injection this with this
    exact ⟨t, ht, this⟩
  obtain ⟨S', st, ord, back, h1, h2, h3, -, h4, h5, -, h6, -, -, -⟩ := C79_round_trip P (hL ▸ hS.1) fun i j s s' hi hj hs => by
    obtain ⟨t, ht, rfl⟩ := hback i s hi
    obtain ⟨u, hu, rfl⟩ := hback j s' hj
    rw [hc, hc, hL] at hs
    exact hd i j t u ht hu hs
  refine ⟨P, S', st, hP, h1, h2.trans hL, by rw [h4, hlen, siteIds_eq hS, List.length_range], fun i t ht => ?_⟩
  obtain ⟨k, hk⟩ := List.mem_iff_getElem?.1 (h3.mem_iff.2 (List.mem_of_getElem? (hsites i t ht)))
  obtain ⟨y, e1, e2, e3, e4⟩ := h6 k _ hk
  rw [hc, hL] at e1
  rw [hc, idAt, Option.map_eq_some_iff] at e3
  obtain ⟨u, e3, e5⟩ := e3
  have hS' : S'.Reachable := by
    rw [toPyl, buildPmg] at h1
    cases hb : build (toPylLattice P.lattice) (.byClass (motif P)) true (.int 1) with
    | error e => rw [hb] at h1; cases h1
    | ok S'' =>
      rw [hb] at h1
      simp only [ok_bind] at h1
      cases hf : List.foldlM (occupy P S'') (SimState.fromStruct (S''.siteIds.map fun i : ℕ => Key.int i)) P.sites with
      | error e => rw [hf] at h1; cases h1
      | ok st' =>
        rw [hf] at h1
        injection h1 with h1
        injection h1 with h1 _
        subst h1
        exact buildFrom_reachable (hL ▸ hS.1) (fun _ => one_ne_zero) hb
  have e6 : S'.getSite k = some u := by
    have := getSite_of_siteAt hS' e3
    rwa [e5] at this
  rw [e2] at e6
  injection e6 with e6
  subst e6
  exact ⟨k, y, e3, e1, e4⟩

/-- C88: if two sites have stored locations at the same place, the structure can be converted to pymatgen but not back. -/
theorem C88_collision {S : Structure K d} (hS : S.Reachable) (hp : ∀ i, S.lattice.periodic i = true) (i j : ℕ) (t u : Site K d)
    (hi : S.getSite i = some t) (hj : S.getSite j = some u) (hij : i ≠ j) (hs : S.lattice.SamePlace t.loc u.loc) :
    ∃ P, toPmg S = .ok P ∧ toPyl P = .error .assertionError := by
  obtain ⟨P, hP, hm, hlen, hsites⟩ := toPmg_ok hS
  have hL := toPylLattice_of hm hp
  have hc : ∀ t : Site K d, P.coords ⟨t.cls, S.lattice.toFrac t.loc⟩ = t.loc := fun t => by
    rw [PmgStructure.coords, hm]; exact toCart_toFrac hS.1 t.loc
  refine ⟨P, hP, C79_same_place P (hL ▸ hS.1) i j _ _ (hsites i t hi) (hsites j u hj) hij ?_⟩
  rw [hc, hc, hL]; exact hs

/-- C88 is false: the structure with sites added at 0 and 0.0005 (both accepted). -/
theorem C88_false : ∃ S : Structure ℚ 1, S.Reachable ∧ (∀ i, S.lattice.periodic i = true) ∧ S.siteIds = [0, 1] ∧
    ∃ P, toPmg S = .ok P ∧ toPyl P = .error .assertionError := by
  obtain ⟨hreg, e1, e2, e3⟩ := C44_false
  set r := history (new unitCell) [("A", ![0]), ("A", ![1/2000])] with hr
  obtain ⟨-, c2, c3, -, -⟩ := C43_ids unitCell_regular [("A", ![0]), ("A", ![1/2000])]
  rw [← hr] at c2 c3
  have hlen : r.1.siteIds.length = 2 := by
    rw [e1] at c2
    have := congrArg List.length c2
    rw [List.length_range] at this
    exact this.symm
  have hL : r.1.lattice = unitCell := by
    obtain ⟨acc, h1, -⟩ := history_new unitCell [("A", ![0]), ("A", ![1/2000])]
    rw [hr, h1]; rfl
  have hR : r.1.Reachable := ⟨by rw [hL]; exact unitCell_regular, [("A", ![0]), ("A", ![1/2000])], by rw [hL]⟩
  have hper : ∀ i, r.1.lattice.periodic i = true := fun i => by rw [hL]; rfl
  refine ⟨r.1, hR, hper, by rw [c3, hlen]; rfl, ?_⟩
  obtain ⟨t, ht, htl⟩ := siteLocation_iff.1 e2
  obtain ⟨u, hu, hul⟩ := siteLocation_iff.1 e3
  exact C88_collision hR hper 0 1 t u ht hu (by decide) (by rw [htl, hul]; exact SamePlace.refl hR.1 _)

end Pyl
