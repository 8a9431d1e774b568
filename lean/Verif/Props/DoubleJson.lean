import Verif.Model.DoubleJson
import Verif.Props.Simulation
import Verif.Props.DoubleHoneycomb
import Verif.Props.Double
/-
C114: structures and simulations survive serialisation in double precision.
-/
set_option autoImplicit false
set_option linter.unusedSectionVars false

namespace Pyl
open Pyl.Lattice Pyl.Structure
variable {d : ℕ}

/-! ### reading back any structure -/

theorem sitesDict_wf' (s : Structure ℚ d) (hw : Dict.WF s.sites) : Dict.WF (sitesDict s) := by
  have : Dict.keys (sitesDict s) = (Dict.keys s.sites).map fun k : ℕ => Key.int k := by
    simp [sitesDict, Dict.keys, Function.comp_def]
  rw [Dict.WF, this]
  refine List.Nodup.map_on ?_ hw
  intro a _ b _ e
  simpa using e

/-- The classes and stored locations, in the order of the dict. -/
def siteList (s : Structure ℚ d) : List (String × (Fin d → ℚ)) := s.sites.map fun kt => (kt.2.cls, kt.2.loc)

variable (add : ∀ d, Structure ℚ d → String × (Fin d → ℚ) → Py (Structure ℚ d))

theorem fromDictWith_of (s : Structure ℚ d) (l sd : Props) (hl : Lattice.fromDict l = .ok ⟨d, s.lattice⟩) (hs : intKeys sd = .ok (sitesDict s)) :
    Dbl.fromDictWith add [(.str "lattice", .dict l), (.str "_sites", .dict sd)] =
      match (siteList s).foldlM (add d) (new s.lattice) with
      | .ok s => .ok ⟨d, s⟩
      | .error e => .error e := by
  have g1 : Dict.get? [((.str "lattice" : Key), Val.dict l), (.str "_sites", .dict sd)] (.str "lattice") = some (.dict l) := by
    rw [Dict.get?_cons, if_pos rfl]
  have g2 : Dict.get? [((.str "lattice" : Key), Val.dict l), (.str "_sites", .dict sd)] (.str "_sites") = some (.dict sd) := by
    rw [Dict.get?_cons, if_neg (by decide), Dict.get?_cons, if_pos rfl]
  simp only [Dbl.fromDictWith, g1, g2, hl, hs, ok_bind]
  have hf : (sitesDict s).foldlM (fun s kv => do add d s (← readSite d kv.2)) (new s.lattice) =
      (siteList s).foldlM (add d) (new s.lattice) := by
    simp only [sitesDict, siteList, List.foldlM_map, readSite_siteDict, ok_bind]
  rw [hf]
  cases (siteList s).foldlM (add d) (new s.lattice) <;> rfl

/-- Both the dict and its JSON image are read as adding the stored locations again. -/
theorem fromDictWith_asDict (hd : d ≠ 0) (s : Structure ℚ d) (hw : Dict.WF s.sites) :
    (Dbl.fromDictWith add s.asDict = match (siteList s).foldlM (add d) (new s.lattice) with
      | .ok s => .ok ⟨d, s⟩
      | .error e => .error e) ∧
    ∃ j, (Val.dict s.asDict).json = .dict j ∧ Dbl.fromDictWith add j = Dbl.fromDictWith add s.asDict := by
  have hw' := sitesDict_wf' s hw
  have h1 := fromDictWith_of add s s.lattice.asDict (sitesDict s) (C42_round_trip hd s.lattice).1 (Structure.intKeys_int hw' (sitesDict_int _))
  have hval : ∀ kv ∈ sitesDict s, kv.2.JsonNative ∧ kv.2.WF := by
    intro kv hkv
    obtain ⟨kt, -, rfl⟩ := List.mem_map.1 hkv
    exact siteDict_native _
  obtain ⟨j, hj, hj'⟩ := (C42_round_trip hd s.lattice).2
  refine ⟨h1, [(.str "lattice", .dict j), (.str "_sites", .dict ((sitesDict s).map fun kv => (kv.1.json, kv.2)))], ?_, ?_⟩
  · have hs := json_int_dict hw' (sitesDict_int s) (fun kv hkv => (hval kv hkv).2) (fun kv hkv => (hval kv hkv).1)
    rw [Structure.asDict, Val.json, Val.jsonPairs, Val.jsonPairs, Val.jsonPairs, ofPairs_of_nodup _ (by simp [Dict.WF, Dict.keys, Key.json])]
    rw [hj]
    rw [← sitesDict, hs]
    rfl
  · rw [fromDictWith_of add s j _ hj' (intKeys_json hw' (sitesDict_int _))]
    exact h1.symm

/-- What a structure survives: reading back the dict, and its JSON image. -/
def Survives (read : Props → Py (Σ d, Structure ℚ d)) (s : Structure ℚ d) : Prop :=
  read s.asDict = .ok ⟨d, s⟩ ∧ ∃ j, (Val.dict s.asDict).json = .dict j ∧ read j = .ok ⟨d, s⟩

theorem survives_of (hd : d ≠ 0) (s : Structure ℚ d) (hw : Dict.WF s.sites) (h : (siteList s).foldlM (add d) (new s.lattice) = .ok s) :
    Survives (Dbl.fromDictWith add) s := by
  obtain ⟨e1, j, e2, e3⟩ := fromDictWith_asDict add hd s hw
  rw [h] at e1
  exact ⟨e1, j, e2, e3.trans e1⟩

/-! ### the arithmetic of Model/Double.lean as an instance -/

/-- The operations of Model/Double.lean. -/
def gridArith (d : ℕ) : Dbl.Arith d where
  vecMul v M := fun j => Dbl.dot v fun i => M i j
  inv := Dbl.inv
  sq v := Dbl.dot v v

theorem gridArith_addOrRaise : (gridArith d).addOrRaise = Dbl.addOrRaise := rfl

namespace Dbl.Arith
variable (A : Arith d) (L : Lattice ℚ d)

theorem siteList_built (acc : List (String × (Fin d → ℚ))) :
    siteList (A.built L acc) = acc.map fun c => (c.1, rounded (A.periodized L c.2)) := by
  simp only [siteList, built, List.map_map, Function.comp_def]
  conv_rhs => rw [← List.zipIdx_map_fst 0 acc, List.map_map]
  rfl

theorem wf_built (acc : List (String × (Fin d → ℚ))) : Dict.WF (A.built L acc).sites := by
  rw [Dict.WF, keys_built_sites]; exact List.nodup_range

theorem built_congr {acc acc' : List (String × (Fin d → ℚ))} (f : String × (Fin d → ℚ) → String × (Fin d → ℚ)) (e : acc' = acc.map f)
    (h : ∀ c ∈ acc, (f c).1 = c.1 ∧ rounded (A.periodized L (f c).2) = rounded (A.periodized L c.2) ∧ A.transformed L (f c).2 = A.transformed L c.2) :
    A.built L acc' = A.built L acc := by
  subst e
  simp only [built, List.length_map]
  congr 1
  · rw [List.zipIdx_map, List.map_map]
    refine List.map_congr_left fun ck hck => ?_
    have hc : ck.1 ∈ acc := List.mem_of_getElem? (List.mem_zipIdx_iff_getElem?.1 hck)
    obtain ⟨h1, h2, -⟩ := h _ hc
    simp [Prod.map, h1, h2]
  · rw [List.zipIdx_map, List.map_map]
    refine List.map_congr_left fun ck hck => ?_
    have hc : ck.1 ∈ acc := List.mem_of_getElem? (List.mem_zipIdx_iff_getElem?.1 hck)
    simp [Prod.map, (h _ hc).2.2]

/-- If every stored location has the key of its site and is stored unchanged, the stored locations give the structure again. -/
theorem refold {acc : List (String × (Fin d → ℚ))} (ha : A.Distinct L acc)
    (h : ∀ c ∈ acc, rounded (A.periodized L (rounded (A.periodized L c.2))) = rounded (A.periodized L c.2) ∧
      A.transformed L (rounded (A.periodized L c.2)) = A.transformed L c.2) :
    (siteList (A.built L acc)).foldlM A.addOrRaise (new L) = .ok (A.built L acc) := by
  have hb := A.built_congr L (acc := acc) (fun c => (c.1, rounded (A.periodized L c.2))) rfl fun c hc => ⟨rfl, h c hc⟩
  have hD : A.Distinct L (acc.map fun c => (c.1, rounded (A.periodized L c.2))) := by
    have := A.keys_built_lookup L (acc.map fun c => (c.1, rounded (A.periodized L c.2)))
    rw [hb, keys_built_lookup] at this
    rw [Distinct, ← this]
    exact ha
  have := (A.foldlM_addOrRaise L (acc.map fun c => (c.1, rounded (A.periodized L c.2))) [] (by simp [Distinct])).1 (by simpa using hD)
  rw [List.nil_append, hb] at this
  rw [siteList_built]
  exact this

end Dbl.Arith

/-! ### square grids -/

theorem DoubleGrid.buildFrom {N : Fin d → ℤ} {s : Structure ℚ d} (h : DoubleGrid d N s) :
    ∃ (L : Lattice ℚ d) (σ : Fin d → Fin d) (n : Fin d → ℤ), IsGrid L σ ∧ (∀ i, 0 < n i ∧ n i ≤ 2 ^ 30) ∧ Dbl.buildFrom L n gridMotif = .ok s := by
  cases h with
  | two size s a b ha hb hsz h =>
    rcases hsz with rfl | ⟨rfl, rfl⟩
    · refine ⟨_, _, ![b, a], isGrid2, fun i => by fin_cases i <;> assumption, ?_⟩
      rw [← h, Dbl.buildSquare2, Dbl.build, dif_pos (by rfl)]
      congr 1
      funext i; fin_cases i <;> rfl
    · exact ⟨_, _, fun _ => a, isGrid2, fun _ => ha, h⟩
  | three size s a b c ha hb hc hsz h =>
    rcases hsz with rfl | ⟨rfl, rfl, rfl⟩
    · refine ⟨_, _, ![b, a, c], isGrid3, fun i => by fin_cases i <;> assumption, ?_⟩
      rw [← h, Dbl.buildSquare3, Dbl.build, dif_pos (by rfl)]
      congr 1
      funext i; fin_cases i <;> rfl
    · exact ⟨_, _, fun _ => a, isGrid3, fun _ => ha, h⟩

/-- The sites that the grid builders add. -/
def gridSites (d : ℕ) (σ : Fin d → Fin d) (n : Fin d → ℤ) : List (String × (Fin d → ℚ)) :=
  (cells n).map fun p => ("_A", intPoint fun j => cellVec d p (σ j))

theorem grid_built {L : Lattice ℚ d} {σ : Fin d → Fin d} (h : IsGrid L σ) {n : Fin d → ℤ} (hn : ∀ i, 0 < n i ∧ n i ≤ 2 ^ 30) {s : Structure ℚ d}
    (hs : Dbl.buildFrom L n gridMotif = .ok s) :
    s = (gridArith d).built (L.scaled n) (gridSites d σ n) ∧ (gridArith d).Distinct (L.scaled n) (gridSites d σ n) := by
  have e : Dbl.buildFrom L n gridMotif = (gridSites d σ n).foldlM (gridArith d).addOrRaise ((gridArith d).built (L.scaled n) []) := by
    have e1 : gridSites d σ n = (cells n).flatMap fun p => Dbl.cellSites L gridMotif.toDict (vecOf p) := by
      rw [gridSites, ← List.flatMap_pure_eq_map]
      exact List.flatMap_congr fun p hp => (Dbl.cellSites_grid h hn hp).1.symm
    rw [e1, foldlM_flatMap', Dbl.buildFrom, Dbl.scaled_grid h hn]
    rfl
  have hf := (gridArith d).foldlM_addOrRaise (L.scaled n) (gridSites d σ n) [] (by simp [Dbl.Arith.Distinct])
  rw [List.nil_append, ← e, hs] at hf
  by_cases hD : (gridArith d).Distinct (L.scaled n) (gridSites d σ n)
  · have := hf.1 hD
    injection this with this
    exact ⟨this, hD⟩
  · cases hf.2 hD

/-- The stored location of a site of the grid is where it was added. -/
theorem grid_stored {L : Lattice ℚ d} {σ : Fin d → Fin d} (h : IsGrid L σ) {n : Fin d → ℤ} (hn : ∀ i, 0 < n i ∧ n i ≤ 2 ^ 30)
    {c : Fin d → ℤ} (hc : InBox (fun j => n (σ j)) c) : Dbl.rounded ((gridArith d).periodized (L.scaled n) (intPoint c)) = intPoint c := by
  have hx : ∀ j, |c j| ≤ 2 ^ 32 := fun j => by
    have h1 := hc j; have h2 := hn (σ j)
    simp only at h1
    rw [abs_le]; constructor <;> linarith
  have hw : ∀ j, Wraps (n (σ j)) (c j) :=
    Dbl.wraps_inBox h hn (s := new (L.scaled n)) rfl (by intro k hk; cases hk) hc
  have e : (gridArith d).periodized (L.scaled n) (intPoint c) = Dbl.periodized (L.scaled n) (intPoint c) := rfl
  rw [e, (Dbl.transformed_eq h hn hx hw).2, (Dbl.keyOf_grid h hn c).1, aligned_rounded (aligned_int _)]
  funext j
  simp only [intPoint]
  rw [Int.emod_eq_of_lt (hc j).1 (hc j).2]

/-- C114: in double precision, every square grid with up to `2 ^ 30` sites per axis (also those on which lookups fail, C100) is read back unchanged from
its dict and from JSON. -/
theorem C114_grid {N : Fin d → ℤ} {s : Structure ℚ d} (hs : DoubleGrid d N s) : Survives Dbl.fromDict s := by
  have hd : d ≠ 0 := by cases hs <;> simp
  obtain ⟨L, σ, n, h, hn, hb⟩ := hs.buildFrom
  obtain ⟨rfl, hD⟩ := grid_built h hn hb
  refine survives_of _ hd _ ((gridArith d).wf_built _ _) ((gridArith d).refold (L.scaled n) hD fun c hc => ?_)
  obtain ⟨p, hp, rfl⟩ := List.mem_map.1 hc
  simp only
  rw [grid_stored h hn fun j => (mem_cells.1 hp).2 (σ j)]
  exact ⟨grid_stored h hn fun j => (mem_cells.1 hp).2 (σ j), rfl⟩

/-! ### the honeycomb tiling -/

/-- C114: so is every honeycomb tiling with 3 to 1024 hexagons per direction, for every arithmetic admitted in C111. -/
theorem C114_honeycomb (A : ∀ d, Dbl.Arith d) (hA : (A 2).Products) (n : Fin 2 → ℤ) (hn : ∀ k, 3 ≤ n k ∧ n k ≤ 2 ^ 10)
    (hinv : InverseOf (Dbl.scaled Dbl.honeyLattice n).mat ((A 2).inv (Dbl.scaled Dbl.honeyLattice n).mat))
    (S : Structure ℚ 2) (hS : Dbl.buildHoneycomb (A 2) (.tup [n 0, n 1]) = .ok S) : Survives (Dbl.Arith.fromDict A) S := by
  have h : HoneyArith (A 2) n := ⟨hn, hA, hinv⟩
  rw [h.build] at hS
  injection hS with hS
  subst hS
  refine survives_of _ (by decide) _ ((A 2).wf_built _ _) ((A 2).refold (Dbl.scaled Dbl.honeyLattice n) h.distinct fun c hc => ?_)
  obtain ⟨p, hp, rfl⟩ := List.mem_map.1 hc
  have hb := (mem_cells.1 hp).2
  simp only
  rw [(h.cellKey hb).1, (h.cellKey hb).2, hexStored_eq]
  refine h.key (c := cellVec 2 p) (k := hexMil (cellVec 2 p)) (inBox_near hb) (fun i => by rw [wrapCell_of_inBox hb]; exact hexMil_half _ i) fun i => ?_
  rw [wrapCell_of_inBox hb, sub_add_cancel]
  refine (hexStored_near (fun k => (hn k).2) hb i).trans ?_
  norm_num

/-! ### any structure -/

/-- The structures that calls of `add_site` make from an empty one, those that raise being ignored. -/
def Dbl.Arith.addAll (A : Dbl.Arith d) (L : Lattice ℚ d) (ops : List (String × (Fin d → ℚ))) : Structure ℚ d :=
  ops.foldl (fun s op => (A.addSite s op.1 op.2).1) (new L)

theorem Dbl.Arith.addAll_built (A : Dbl.Arith d) (L : Lattice ℚ d) (ops : List (String × (Fin d → ℚ))) :
    ∃ acc, A.addAll L ops = A.built L acc ∧ A.Distinct L acc := by
  have key : ∀ (ops acc : List (String × (Fin d → ℚ))), A.Distinct L acc →
      ∃ acc', ops.foldl (fun s op => (A.addSite s op.1 op.2).1) (A.built L acc) = A.built L acc' ∧ A.Distinct L acc' := by
    intro ops
    induction ops with
    | nil => exact fun acc ha => ⟨acc, rfl, ha⟩
    | cons op ops ih =>
      intro acc ha
      rw [List.foldl_cons, addSite_built]
      by_cases hm : A.transformed L op.2 ∈ acc.map (fun c => A.transformed L c.2)
      · rw [if_pos hm]; exact ih acc ha
      · rw [if_neg hm]
        refine ih (acc ++ [(op.1, op.2)]) ?_
        rw [Distinct, List.map_append, List.nodup_append]
        refine ⟨ha, by simp, ?_⟩
        intro a h1 b h2 hab
        simp only [List.map_cons, List.map_nil, List.mem_singleton] at h2
        subst h2; subst hab
        exact hm h1
  exact key ops [] (by simp [Distinct])

/-- C114: in all cases `from_dict` either raises AssertionError or gives a structure with the same ids and classes on the same lattice, and reading
the JSON image does the same. -/
theorem C114_classes (hd : d ≠ 0) (A : ∀ d, Dbl.Arith d) (L : Lattice ℚ d) (ops : List (String × (Fin d → ℚ))) :
    let s := (A d).addAll L ops
    (Dbl.Arith.fromDict A s.asDict = .error .assertionError ∨
      ∃ s' : Structure ℚ d, Dbl.Arith.fromDict A s.asDict = .ok ⟨d, s'⟩ ∧ s'.lattice = L ∧ s'.siteIds = s.siteIds ∧ ∀ i, s'.siteClass i = s.siteClass i) ∧
    ∃ j, (Val.dict s.asDict).json = .dict j ∧ Dbl.Arith.fromDict A j = Dbl.Arith.fromDict A s.asDict := by
  obtain ⟨acc, h1, h2⟩ := (A d).addAll_built L ops
  simp only
  rw [h1]
  obtain ⟨e1, e2⟩ := fromDictWith_asDict (fun d => (A d).addOrRaise) hd ((A d).built L acc) ((A d).wf_built _ _)
  refine ⟨?_, e2⟩
  have hf := (A d).foldlM_addOrRaise L (siteList ((A d).built L acc)) [] (by simp [Dbl.Arith.Distinct])
  rw [List.nil_append] at hf
  by_cases hD : (A d).Distinct L (siteList ((A d).built L acc))
  · have e3 := hf.1 hD
    change _ = match (siteList ((A d).built L acc)).foldlM (A d).addOrRaise ((A d).built L []) with | .ok s => _ | .error e => _ at e1
    rw [e3] at e1
    refine .inr ⟨_, e1, rfl, ?_, fun i => ?_⟩
    · rw [(A d).siteList_built]; simp [Dbl.Arith.built]
    · rw [siteClass, siteClass, (A d).getSite_built, (A d).getSite_built, (A d).siteList_built, List.getElem?_map]
      cases acc[i]? <;> rfl
  · have e3 := hf.2 hD
    change _ = match (siteList ((A d).built L acc)).foldlM (A d).addOrRaise ((A d).built L []) with | .ok s => _ | .error e => _ at e1
    rw [e3] at e1
    exact .inl e1

/-- The unit cell in one dimension. -/
def unitCell1 : Lattice ℚ 1 := ⟨!![1], fun _ => true⟩

/-- C114 is false for structures in general: sites at 0 and 0.9996 in a cell of length 1 are written as 0.0 and 1.0 and cannot be read back. -/
theorem C114_false :
    ((gridArith 1).addAll unitCell1 [("A", ![0]), ("B", ![fl (9996 / 10000)])]).siteIds = [0, 1] ∧
    Dbl.fromDict ((gridArith 1).addAll unitCell1 [("A", ![0]), ("B", ![fl (9996 / 10000)])]).asDict = .error .assertionError := by
  have k1 : (gridArith 1).transformed unitCell1 ![0] = ![fl (1 / 1000)] := by decide +kernel
  have k2 : (gridArith 1).transformed unitCell1 ![fl (9996 / 10000)] = ![fl (1001 / 1000)] := by decide +kernel
  have k3 : (gridArith 1).transformed unitCell1 ![1] = ![fl (1 / 1000)] := by decide +kernel
  have s1 : Dbl.rounded ((gridArith 1).periodized unitCell1 ![0]) = ![0] := by decide +kernel
  have s2 : Dbl.rounded ((gridArith 1).periodized unitCell1 ![fl (9996 / 10000)]) = ![1] := by decide +kernel
  have hne : (![fl (1001 / 1000)] : Fin 1 → ℚ) ≠ ![fl (1 / 1000)] := by decide +kernel
  have hb : (gridArith 1).addAll unitCell1 [("A", ![0]), ("B", ![fl (9996 / 10000)])] =
      (gridArith 1).built unitCell1 [("A", ![0]), ("B", ![fl (9996 / 10000)])] := by
    have e0 : new unitCell1 = (gridArith 1).built unitCell1 [] := rfl
    rw [Dbl.Arith.addAll, e0, List.foldl_cons, Dbl.Arith.addSite_built, if_neg (by simp), List.foldl_cons, Dbl.Arith.addSite_built,
      if_neg (by rw [List.nil_append, List.map_cons, List.map_nil, List.mem_singleton, k1, k2]; exact hne), List.foldl_nil]
    rfl
  rw [hb]
  refine ⟨rfl, ?_⟩
  obtain ⟨e1, -⟩ := fromDictWith_asDict (fun d => (gridArith d).addOrRaise) (by decide : 1 ≠ 0)
    ((gridArith 1).built unitCell1 [("A", ![0]), ("B", ![fl (9996 / 10000)])]) ((gridArith 1).wf_built _ _)
  have hf := ((gridArith 1).foldlM_addOrRaise unitCell1 [("A", ![0]), ("B", ![1])] [] (by simp [Dbl.Arith.Distinct])).2 (by
    simp [Dbl.Arith.Distinct, k1, k3])
  rw [(gridArith 1).siteList_built] at e1
  simp only [List.map_cons, List.map_nil, s1, s2] at e1
  have e0 : new ((gridArith 1).built unitCell1 [("A", ![0]), ("B", ![fl (9996 / 10000)])]).lattice = (gridArith 1).built unitCell1 [] := rfl
  rw [e0, hf] at e1
  exact e1

/-! ### simulations -/

theorem simFromDict_of {read : Props → Py (Σ d, Structure ℚ d)} {state : SimState} {st sd : Props} {r : Py (Σ d, Structure ℚ d)}
    (h1 : SimState.fromDict st = .ok state) (h2 : read sd = r) :
    Dbl.simFromDict read [(.str "state", .dict st), (.str "structure", .dict sd)] =
      match r with
      | .ok s => .ok ⟨s.1, state, s.2⟩
      | .error e => .error e := by
  have g1 : Dict.get? [((.str "state" : Key), Val.dict st), (.str "structure", .dict sd)] (.str "state") = some (.dict st) := by
    rw [Dict.get?_cons, if_pos rfl]
  have g2 : Dict.get? [((.str "state" : Key), Val.dict st), (.str "structure", .dict sd)] (.str "structure") = some (.dict sd) := by
    rw [Dict.get?_cons, if_neg (by decide), Dict.get?_cons, if_pos rfl]
  simp only [Dbl.simFromDict, g1, g2, h1, h2, ok_bind]
  cases r <;> rfl

/-- C114: if the structure survives, a simulation on it is read back from its dict with the same state, and from its file if JSON can represent the
state. -/
theorem C114_simulation (read : Props → Py (Σ d, Structure ℚ d)) (sim : Simulation ℚ d) (hs : Survives read sim.struct) (hw : sim.state.WF)
    (hids : ∀ k ∈ sim.state.siteIds, ∃ i, k = .int i) :
    Dbl.simFromDict read sim.asDict = .ok ⟨d, sim⟩ ∧ (sim.state.JsonNative → Dbl.simFromFile read sim.toFile = .ok ⟨d, sim⟩) := by
  obtain ⟨h1, j, hj, h2⟩ := hs
  constructor
  · exact simFromDict_of (state_fromDict_asDict hw hids) h1
  · intro hn
    obtain ⟨j', hj', h3⟩ := C10_round_trip sim.state hw hn
    rw [toFile_of hj' hj]
    exact simFromDict_of h3 h2

/-- Non-vacuity: the 49 x 49 grid, on which `site_at((49, 0))` fails, is read back unchanged, and so is a simulation on it. -/
example : ∃ s, Dbl.buildSquare2 (.int 49) = .ok s ∧ Survives Dbl.fromDict s ∧
    Dbl.simFromFile Dbl.fromDict (Simulation.toFile ⟨SimState.empty, s⟩) = .ok ⟨2, SimState.empty, s⟩ := by
  obtain ⟨s, hs, hg, -⟩ := C100_false
  have hw : SimState.empty.WF := ⟨by simp [SimState.empty, Dict.WF, Dict.keys], by simp [SimState.empty], fun g hg => by
    simp only [SimState.empty, Option.some.injEq] at hg
    subst hg
    exact .dict (by simp [Dict.WF, Dict.keys]) (by simp)⟩
  have hn : SimState.empty.JsonNative := ⟨by simp [SimState.empty, SimState.siteIds, Dict.keys], fun k p hp => by
    simp [SimState.empty, SimState.getSiteState] at hp, fun g hg => by
    simp only [SimState.empty, SimState.getGeneralState, Option.some.injEq] at hg
    subst hg
    exact .dict (by simp) (by simp)⟩
  exact ⟨s, hs, C114_grid hg, (C114_simulation Dbl.fromDict ⟨SimState.empty, s⟩ (C114_grid hg) hw hn.ids).2 hn⟩

/-- Non-vacuity: a honeycomb tiling with the plain arithmetic of C111. -/
example : ∃ (A : ∀ d, Dbl.Arith d) (S : Structure ℚ 2), Dbl.buildHoneycomb (A 2) (.tup [1024, 3]) = .ok S ∧ Survives (Dbl.Arith.fromDict A) S := by
  let A : ∀ d, Dbl.Arith d := fun d => match d with
    | 2 => plainArith
    | d => gridArith d
  have hn : ∀ k, 3 ≤ (![1024, 3] : Fin 2 → ℤ) k ∧ (![1024, 3] : Fin 2 → ℤ) k ≤ 2 ^ 10 := vec2 (by norm_num) (by norm_num)
  have hinv := C111_inverse ![1024, 3] hn _ (plainArith_gauss _)
  obtain ⟨S, hS, -⟩ := C111_sites (A 2) plainArith_products ![1024, 3] hn hinv
  exact ⟨A, S, hS, C114_honeycomb A plainArith_products ![1024, 3] hn hinv S hS⟩

end Pyl
