import Verif.Props.Structure
/-
C47: structures survive serialisation.
-/
set_option autoImplicit false
set_option linter.unusedSectionVars false

namespace Pyl
namespace Structure
open Pyl.Lattice
section
variable {K : Type} [Field K] [LinearOrder K] [IsStrictOrderedRing K] [FloorRing K] {d : ℕ} {L : Lattice K d}

theorem addOrRaise_built (L : Lattice K d) (acc : List (String × (Fin d → K))) (op : String × (Fin d → K)) :
    addOrRaise (built L acc) op = if keyOf L op.2 ∈ acc.map (fun c => keyOf L c.2) then .error .assertionError
      else .ok (built L (acc ++ [op])) := by
  unfold addOrRaise
  rw [addSite_built]
  by_cases h : keyOf L op.2 ∈ acc.map (fun c => keyOf L c.2)
  · rw [if_pos h, if_pos h]
  · rw [if_neg h, if_neg h]

/-- Adding a list of sites succeeds iff the keys are pairwise different. -/
theorem foldlM_addOrRaise (ops acc : List (String × (Fin d → K))) (ha : Distinct L acc) :
    (Distinct L (acc ++ ops) → ops.foldlM addOrRaise (built L acc) = .ok (built L (acc ++ ops))) ∧
    (¬ Distinct L (acc ++ ops) → ops.foldlM addOrRaise (built L acc) = .error .assertionError) := by
  induction ops generalizing acc with
  | nil => exact ⟨fun _ => by simp [pure, Except.pure], fun h => absurd (by simpa using ha) h⟩
  | cons op ops ih =>
    rw [List.foldlM_cons, addOrRaise_built]
    have e : acc ++ op :: ops = acc ++ [op] ++ ops := by simp
    have hd : Distinct L (acc ++ [op]) ↔ keyOf L op.2 ∉ acc.map (fun c => keyOf L c.2) := by
      rw [Distinct, List.map_append, List.nodup_append]
      constructor
      · rintro ⟨-, -, h⟩ hm
        exact h _ hm _ (by simp) rfl
      · intro h
        refine ⟨ha, by simp, ?_⟩
        intro a h1 b h2 hab
        rw [List.map_cons, List.map_nil, List.mem_singleton] at h2
        exact h (h2 ▸ hab ▸ h1)
    by_cases h : keyOf L op.2 ∈ acc.map (fun c => keyOf L c.2)
    · rw [if_pos h]
      have hn : ¬ Distinct L (acc ++ op :: ops) := by
        intro hh
        rw [e, Distinct, List.map_append] at hh
        exact hd.1 (hh.of_append_left) h
      exact ⟨fun hh => absurd hh hn, fun _ => rfl⟩
    · rw [if_neg h, ok_bind, e]
      exact ih _ (hd.2 h)

/-- Where the stored locations are good, adding them again gives the same structure. -/
theorem built_stored (h : L.Regular) (acc : List (String × (Fin d → K)))
    (hu : ∀ c ∈ acc, Untied L c.2 ∧ L.InCell (rounded (L.periodized c.2))) :
    built L (acc.map fun c => (c.1, rounded (L.periodized c.2))) = built L acc := by
  have h1 : ∀ c ∈ acc, rounded (L.periodized (rounded (L.periodized c.2))) = rounded (L.periodized c.2) := by
    intro c hc
    rw [(hu c hc).2.periodized h]
    funext i
    exact roundTo_roundTo _ (by decide) _
  have h2 : ∀ c ∈ acc, keyOf L (rounded (L.periodized c.2)) = keyOf L c.2 := by
    intro c hc
    rw [keyOf_of_untied (hu c hc).1, keyOf_of_untied ?_, h1 c hc]
    intro i
    rw [(hu c hc).2.periodized h, not_tie_iff]
    have : 1000 * rounded (L.periodized c.2) i = (roundHalfEven (L.periodized c.2 i * 1000) : K) := by
      rw [rounded, roundTo, PRECISION]
      push_cast
      rw [mul_div_cancel₀ _ (by norm_num)]
    rw [this]; simp
  simp only [built, List.length_map]
  congr 1
  · rw [List.zipIdx_map, List.map_map]
    refine List.map_congr_left fun ck hck => ?_
    have hc : ck.1 ∈ acc := List.mem_of_getElem? (List.mem_zipIdx_iff_getElem?.1 hck)
    simp [Prod.map, h1 _ hc]
  · rw [List.zipIdx_map, List.map_map]
    refine List.map_congr_left fun ck hck => ?_
    have hc : ck.1 ∈ acc := List.mem_of_getElem? (List.mem_zipIdx_iff_getElem?.1 hck)
    simp [Prod.map, h2 _ hc]

end

variable {d : ℕ} {L : Lattice ℚ d}

theorem readSite_siteDict (t : Site ℚ d) : readSite d (.dict (siteDict t)) = .ok (t.cls, t.loc) := by
  have g1 : Dict.get? (siteDict t) SITE_CLASS = some (.str t.cls) := by
    rw [siteDict, Dict.get?_cons, if_pos rfl]
  have g2 : Dict.get? (siteDict t) LOCATION = some (.list (List.ofFn fun i => .num (t.loc i))) := by
    rw [siteDict, Dict.get?_cons, if_neg (by decide), Dict.get?_cons, if_pos rfl]
  simp only [readSite, g1, g2]
  rw [show ∀ l, (Val.list l).toItems = .ok l from fun _ => rfl, ok_bind,
    mapM_ofFn Val.toNum (fun i => Val.num (t.loc i)) t.loc (fun i => rfl), ok_bind, dif_pos (by simp)]
  simp only [pure, Except.pure, Except.ok.injEq, Prod.mk.injEq, true_and]
  funext i
  simp [Fin.cast]

/-- The `_sites` entry of a structure. -/
def sitesDict (s : Structure ℚ d) : Props := s.sites.map fun kt => (.int kt.1, .dict (siteDict kt.2))

theorem sitesDict_wf (acc : List (String × (Fin d → ℚ))) : Dict.WF (sitesDict (built L acc)) := by
  have : Dict.keys (sitesDict (built L acc)) = (Dict.keys (built L acc).sites).map fun k : ℕ => Key.int k := by
    simp [sitesDict, Dict.keys, Function.comp_def]
  rw [Dict.WF, this, keys_built_sites]
  refine List.Nodup.map_on ?_ List.nodup_range
  intro a _ b _ e
  simpa using e

theorem sitesDict_int (s : Structure ℚ d) : ∀ kv ∈ sitesDict s, ∃ i, kv.1 = .int i := by
  intro kv hkv
  obtain ⟨kt, -, rfl⟩ := List.mem_map.1 hkv
  exact ⟨_, rfl⟩

theorem siteDict_native (t : Site ℚ d) : (Val.dict (siteDict t)).JsonNative ∧ (Val.dict (siteDict t)).WF := by
  constructor
  · refine .dict ?_ ?_
    · intro kv hkv
      simp only [siteDict, List.mem_cons, List.not_mem_nil, or_false] at hkv
      rcases hkv with rfl | rfl | rfl <;> exact ⟨_, rfl⟩
    · intro kv hkv
      simp only [siteDict, List.mem_cons, List.not_mem_nil, or_false] at hkv
      rcases hkv with rfl | rfl | rfl
      · exact .str _
      · refine .list fun a ha => ?_
        obtain ⟨i, rfl⟩ := List.mem_ofFn.1 ha
        exact .num _
      · exact .num _
  · refine .dict (by simp [siteDict, Dict.WF, SITE_CLASS, LOCATION, SITE_ID]) ?_
    · intro kv hkv
      simp only [siteDict, List.mem_cons, List.not_mem_nil, or_false] at hkv
      rcases hkv with rfl | rfl | rfl
      · exact .str _
      · refine .list fun a ha => ?_
        obtain ⟨i, rfl⟩ := List.mem_ofFn.1 ha
        exact .num _
      · exact .num _

/-- What `from_dict` does with the dict of a structure: it adds the stored locations again. -/
theorem fromDict_of (acc : List (String × (Fin d → ℚ))) (l sd : Props) (hl : Lattice.fromDict l = .ok ⟨d, L⟩)
    (hs : intKeys sd = .ok (sitesDict (built L acc))) :
    fromDict [(.str "lattice", .dict l), (.str "_sites", .dict sd)] =
      match (acc.map fun c => (c.1, rounded (L.periodized c.2))).foldlM addOrRaise (new L) with
      | .ok s => .ok ⟨d, s⟩
      | .error e => .error e := by
  have g1 : Dict.get? [((.str "lattice" : Key), Val.dict l), (.str "_sites", .dict sd)] (.str "lattice") = some (.dict l) := by
    rw [Dict.get?_cons, if_pos rfl]
  have g2 : Dict.get? [((.str "lattice" : Key), Val.dict l), (.str "_sites", .dict sd)] (.str "_sites") = some (.dict sd) := by
    rw [Dict.get?_cons, if_neg (by decide), Dict.get?_cons, if_pos rfl]
  simp only [fromDict, g1, g2, hl, hs, ok_bind]
  have hf : (sitesDict (built L acc)).foldlM (fun s kv => do addOrRaise s (← readSite d kv.2)) (new L) =
      (acc.map fun c => (c.1, rounded (L.periodized c.2))).foldlM addOrRaise (new L) := by
    simp only [sitesDict, built, List.map_map, List.foldlM_map, Function.comp_def, readSite_siteDict, ok_bind]
    conv_rhs => rw [← List.zipIdx_map_fst 0 acc, List.foldlM_map]
  rw [hf]
  cases (acc.map fun c => (c.1, rounded (L.periodized c.2))).foldlM addOrRaise (new L) <;> rfl

theorem intKeys_int {dd : Props} (hwf : Dict.WF dd) (hk : ∀ kv ∈ dd, ∃ i, kv.1 = .int i) : intKeys dd = .ok dd := by
  have h : dd.mapM (fun kv => do pure (Key.int (← kv.1.toInt), kv.2)) = (.ok dd : Py _) := by
    have := mapM_ok (f := fun kv : Key × Val => (do pure (Key.int (← kv.1.toInt), kv.2) : Py (Key × Val))) (g := id) dd (by
      intro kv hkv
      obtain ⟨i, hi⟩ := hk kv hkv
      obtain ⟨k, v⟩ := kv
      simp only at hi; subst hi
      rfl)
    rw [List.map_id] at this
    exact this
  rw [intKeys, h]
  simp only [ok_bind]
  rw [ofPairs_of_nodup dd hwf]; rfl

/-- Both the dict and its JSON image are read as adding the stored locations again. -/
theorem fromDict_asDict (hd : d ≠ 0) (acc : List (String × (Fin d → ℚ))) :
    (fromDict (built L acc).asDict = match (acc.map fun c => (c.1, rounded (L.periodized c.2))).foldlM addOrRaise (new L) with
      | .ok s => .ok ⟨d, s⟩
      | .error e => .error e) ∧
    ∃ j, (Val.dict (built L acc).asDict).json = .dict j ∧
      fromDict j = fromDict (built L acc).asDict := by
  have h1 := fromDict_of acc L.asDict (sitesDict (built L acc)) (C42_round_trip hd L).1
    (intKeys_int (sitesDict_wf acc) (sitesDict_int _))
  have hval : ∀ kv ∈ sitesDict (built L acc), kv.2.JsonNative ∧ kv.2.WF := by
    intro kv hkv
    obtain ⟨kt, -, rfl⟩ := List.mem_map.1 hkv
    exact siteDict_native _
  obtain ⟨j, hj, hj'⟩ := (C42_round_trip hd L).2
  refine ⟨h1, [(.str "lattice", .dict j), (.str "_sites", .dict ((sitesDict (built L acc)).map fun kv => (kv.1.json, kv.2)))], ?_, ?_⟩
  · have hs := json_int_dict (sitesDict_wf acc) (sitesDict_int (built L acc)) (fun kv hkv => (hval kv hkv).2) (fun kv hkv => (hval kv hkv).1)
    rw [asDict, Val.json, Val.jsonPairs, Val.jsonPairs, Val.jsonPairs, ofPairs_of_nodup _ (by simp [Dict.WF, Dict.keys, Key.json])]
    rw [built_lattice, hj]
    rw [← sitesDict, hs]
    rfl
  · rw [fromDict_of acc j _ hj' (intKeys_json (sitesDict_wf acc) (sitesDict_int _))]
    exact h1.symm

/-- C47 (the part that holds): if no site was added half-way between thousandths and all stored locations are in the cell,
`from_dict(as_dict())` is the same structure: same lattice, sites, ids, classes, locations, and the same lookups; also after a
trip through JSON.  Missing: `C47_false`. -/
theorem C47_round_trip_partial (hd : d ≠ 0) (h : L.Regular) (ops : List (String × (Fin d → ℚ)))
    (hu : ∀ op ∈ ops, Untied L op.2 ∧ ∀ y, L.Stored op.2 y → L.InCell y) :
    let s := (history (new L) ops).1
    fromDict s.asDict = .ok ⟨d, s⟩ ∧ ∃ j, (Val.dict s.asDict).json = .dict j ∧ fromDict j = .ok ⟨d, s⟩ := by
  obtain ⟨acc, h1, h2, h3, h4, h5, h6, h7, h8⟩ := history_new L ops
  simp only
  rw [h1]
  have hacc : ∀ c ∈ acc, Untied L c.2 ∧ L.InCell (rounded (L.periodized c.2)) := by
    intro c hc
    obtain ⟨k, hk⟩ := List.mem_iff_getElem?.1 hc
    obtain ⟨j, -, hj⟩ := h7 k c hk
    have := hu c (List.mem_of_getElem? hj)
    exact ⟨this.1, this.2 _ ((stored_iff h).2 rfl)⟩
  have hb := built_stored h acc hacc
  have hD : Distinct L (acc.map fun c => (c.1, rounded (L.periodized c.2))) := by
    have := keys_built_lookup L (acc.map fun c => (c.1, rounded (L.periodized c.2)))
    rw [hb, keys_built_lookup] at this
    rw [Distinct, ← this]
    exact h2
  have hf : (acc.map fun c => (c.1, rounded (L.periodized c.2))).foldlM addOrRaise (new L) = .ok (built L acc) := by
    have := (foldlM_addOrRaise (L := L) (acc.map fun c => (c.1, rounded (L.periodized c.2))) [] (by simp [Distinct])).1 (by simpa using hD)
    rw [built_nil, List.nil_append, hb] at this
    exact this
  obtain ⟨e1, j, e2, e3⟩ := fromDict_asDict (L := L) hd acc
  rw [hf] at e1
  exact ⟨e1, j, e2, e3.trans e1⟩

/-- C47 on the grid of thousandths. -/
theorem C47_aligned_partial (hd : d ≠ 0) (h : L.Regular) (hL : ∀ i, Aligned (L.mat i)) (ops : List (String × (Fin d → ℚ)))
    (hops : ∀ op ∈ ops, Aligned op.2) :
    let s := (history (new L) ops).1
    fromDict s.asDict = .ok ⟨d, s⟩ ∧ ∃ j, (Val.dict s.asDict).json = .dict j ∧ fromDict j = .ok ⟨d, s⟩ := by
  refine C47_round_trip_partial hd h ops fun op hop => ⟨aligned_untied h hL (hops op hop), fun y hy => ?_⟩
  rw [stored_iff h, aligned_rounded (aligned_periodized h hL (hops op hop))] at hy
  exact hy ▸ inCell_periodized h _

/-- C47: in all cases `from_dict` either raises AssertionError or gives a structure with the same ids and classes on the same
lattice. -/
theorem C47_classes (hd : d ≠ 0) (L : Lattice ℚ d) (ops : List (String × (Fin d → ℚ))) :
    let s := (history (new L) ops).1
    fromDict s.asDict = .error .assertionError ∨
      ∃ s' : Structure ℚ d, fromDict s.asDict = .ok ⟨d, s'⟩ ∧ s'.lattice = L ∧ s'.siteIds = s.siteIds ∧ ∀ i, s'.siteClass i = s.siteClass i := by
  obtain ⟨acc, h1, h2, -⟩ := history_new L ops
  simp only
  rw [h1]
  obtain ⟨e1, -⟩ := fromDict_asDict (L := L) hd acc
  have hf := foldlM_addOrRaise (L := L) (acc.map fun c => (c.1, rounded (L.periodized c.2))) [] (by simp [Distinct])
  rw [built_nil, List.nil_append] at hf
  by_cases hD : Distinct L (acc.map fun c => (c.1, rounded (L.periodized c.2)))
  · rw [hf.1 hD] at e1
    refine .inr ⟨_, e1, rfl, by simp [built], fun i => ?_⟩
    rw [siteClass, siteClass, getSite_built, getSite_built, List.getElem?_map]
    cases acc[i]? <;> rfl
  · rw [hf.2 hD] at e1
    exact .inl e1

/-- C47: what `as_dict` writes.  Under `_sites` there is one entry per id, a dict with the class, the location as a list and the id of the site; under
`lattice` the dict of the lattice. -/
theorem C47_written (L : Lattice ℚ d) (ops : List (String × (Fin d → ℚ))) :
    let s := (history (new L) ops).1
    Dict.get? s.asDict (.str "lattice") = some (.dict L.asDict) ∧
    ∃ D, Dict.get? s.asDict (.str "_sites") = some (.dict D) ∧ Dict.keys D = s.siteIds.map (fun i : ℕ => Key.int i) ∧
      ∀ i t, s.getSite i = some t → ∃ e, Dict.get? D (.int i) = some (.dict e) ∧ Dict.get? e (.str "_site_class") = some (.str t.cls) ∧
        Dict.get? e (.str "_location") = some (.list (List.ofFn fun k => .num (t.loc k))) ∧ Dict.get? e (.str "_site_id") = some (.num i) := by
  obtain ⟨acc, h1, -⟩ := history_new L ops
  simp only
  rw [h1]
  have hk : Dict.keys (sitesDict (built L acc)) = (built L acc).siteIds.map fun i : ℕ => Key.int i := by
    have : Dict.keys (sitesDict (built L acc)) = (Dict.keys (built L acc).sites).map fun k : ℕ => Key.int k := by
      simp [sitesDict, Dict.keys, Function.comp_def]
    rw [this, keys_built_sites]; rfl
  refine ⟨rfl, sitesDict (built L acc), ?_, hk, fun i t ht => ?_⟩
  · rw [asDict, Dict.get?_cons, if_neg (by decide), Dict.get?_cons, if_pos rfl]; rfl
  · have hid : t.id = i := by
      rw [getSite_built] at ht
      obtain ⟨c, -, rfl⟩ := Option.map_eq_some_iff.1 ht
      rfl
    have hwf : Dict.WF (built L acc).sites := by rw [Dict.WF, keys_built_sites]; exact List.nodup_range
    have hm : (i, t) ∈ (built L acc).sites := (Dict.mem_iff_get? hwf).2 ht
    refine ⟨siteDict t, Dict.get?_of_mem (sitesDict_wf acc) (List.mem_map.2 ⟨(i, t), hm, rfl⟩), ?_, ?_, ?_⟩
    · rfl
    · rfl
    · rw [siteDict, hid]; rfl

/-- C47 is false: a structure with sites at 0 and 0.9996 is written as 0.0 and 1.0 and cannot be read back. -/
theorem C47_false : unitCell.Regular ∧
    let r := history (new unitCell) [("A", ![0]), ("B", ![9996/10000])]
    r.2 = [.ok 0, .ok 1] ∧ fromDict r.1.asDict = .error .assertionError := by
  refine ⟨unitCell_regular, ?_⟩
  have r1 : roundHalfEven (1000 * (9996/10000) + 1 : ℚ) = 1001 := roundHalfEven_of (.inl (by norm_num [abs_lt]))
  have r3 : roundHalfEven (1000 * (9996/10000) : ℚ) = 1000 := roundHalfEven_of (.inl (by norm_num [abs_lt]))
  have r4 : roundHalfEven (1000 * 0 : ℚ) = 0 := roundHalfEven_of (.inl (by norm_num))
  have r0 : roundHalfEven (1000 * 0 + 1 : ℚ) = 1 := roundHalfEven_of (.inl (by norm_num))
  have k0 : keyOf unitCell ![0] = ![1/1000] := by rw [unitCell_keyOf (by norm_num) (by norm_num), r0]; norm_num
  have k1 : keyOf unitCell ![9996/10000] = ![1001/1000] := by rw [unitCell_keyOf (by norm_num) (by norm_num), r1]; norm_num
  have k2 : keyOf unitCell ![1] = ![1/1000] := by
    funext i; rw [keyOf_apply, unitCell_periodized_one]; fin_cases i
    simp only [Matrix.cons_val_fin_one]
    rw [r0]; norm_num
  have s0 : rounded (unitCell.periodized ![0]) = ![0] := by rw [unitCell_stored (by norm_num) (by norm_num), r4]; norm_num
  have s1 : rounded (unitCell.periodized ![9996/10000]) = ![1] := by
    rw [unitCell_stored (by norm_num) (by norm_num), r3]; norm_num
  have hne : (![1001/1000] : Fin 1 → ℚ) ≠ ![1/1000] := by
    intro e; have := congrFun e 0; norm_num at this
  have hb : history (new unitCell) [("A", ![0]), ("B", ![9996/10000])] =
      (built unitCell [("A", ![0]), ("B", ![9996/10000])], [.ok 0, .ok 1]) := by
    simp only [history]
    rw [← built_nil, addSite_built]
    simp only [List.map_nil, List.not_mem_nil, if_false, List.nil_append]
    rw [addSite_built]
    simp only [List.map_cons, List.map_nil, List.mem_singleton, k0, k1, if_neg hne, List.cons_append, List.nil_append]
    rfl
  simp only
  rw [hb]
  refine ⟨rfl, ?_⟩
  rw [(fromDict_asDict (by decide) _).1]
  have hf := (foldlM_addOrRaise (L := unitCell) [("A", ![0]), ("B", ![1])] [] (by simp [Distinct])).2 (by
    simp [Distinct, k0, k2])
  rw [built_nil] at hf
  simp only [List.map_cons, List.map_nil, s0, s1]
  rw [hf]

end Structure
end Pyl
