import Verif.Model.Simulation
import Verif.Props.Json
import Verif.Props.StructureJson
import Verif.Props.GridSetup
/-
C93: simulations survive serialisation.  C94: `state_at`.
-/
set_option autoImplicit false
set_option linter.unusedSectionVars false

namespace Pyl
open Pyl.Lattice Pyl.Structure

/-! ### C93 -/

/-- The dict of a state, without a trip through JSON. -/
theorem state_fromDict_asDict {s : SimState} (hw : s.WF) (hids : ∀ k ∈ s.siteIds, ∃ i, k = .int i) :
    SimState.fromDict s.asDict = .ok s := by
  have h0 : Dict.get? s.asDict (.str "state") = some (.dict s.stateDict) := by
    rw [SimState.asDict, Dict.get?_cons, if_pos rfl]
  have hs : Dict.get? s.stateDict SITES = some (.dict (s.sites.map fun kp => (kp.1, Val.dict kp.2))) := by
    rw [SimState.stateDict, Dict.get?_cons, if_pos rfl]
  have hg : Dict.get? s.stateDict GENERAL = s.general.map Val.dict := by
    rw [SimState.stateDict, Dict.get?_cons, if_neg (by decide)]
    cases s.general with
    | none => rfl
    | some g => simp [Dict.get?_cons]
  have h1 : intKeys (s.sites.map fun kp => (kp.1, Val.dict kp.2)) = .ok (s.sites.map fun kp => (kp.1, Val.dict kp.2)) := by
    refine Structure.intKeys_int ?_ ?_
    · have : Dict.keys (s.sites.map fun kp => (kp.1, Val.dict kp.2)) = Dict.keys s.sites := by
        simp [Dict.keys, Function.comp_def]
      rw [Dict.WF, this]; exact hw.sites
    · intro kv h
      obtain ⟨p, hp, -⟩ := mem_stateSites h
      exact hids _ (List.mem_map.2 ⟨_, hp, rfl⟩)
  have h2 : (s.sites.map fun kp => (kp.1, Val.dict kp.2)).mapM (fun kv => do pure (kv.1, ← SimState.asProps kv.2)) =
      (.ok s.sites : Py _) := by
    rw [List.mapM_map]
    have := mapM_ok (f := fun kp : Key × Props => (do pure (kp.1, ← SimState.asProps (.dict kp.2)) : Py (Key × Props)))
      (g := id) s.sites (fun kp _ => rfl)
    rw [List.map_id] at this
    exact this
  simp only [SimState.fromDict, h0, hs, h1, ok_bind, h2, hg]
  obtain ⟨sites, general⟩ := s
  cases general <;> rfl

theorem sim_fromDict_of {state : SimState} {st sd : Props} {r : Py (Σ d, Structure ℚ d)} (h1 : SimState.fromDict st = .ok state)
    (h2 : Structure.fromDict sd = r) :
    Simulation.fromDict [(.str "state", .dict st), (.str "structure", .dict sd)] =
      match r with
      | .ok s => .ok ⟨s.1, state, s.2⟩
      | .error e => .error e := by
  have g1 : Dict.get? [((.str "state" : Key), Val.dict st), (.str "structure", .dict sd)] (.str "state") = some (.dict st) := by
    rw [Dict.get?_cons, if_pos rfl]
  have g2 : Dict.get? [((.str "state" : Key), Val.dict st), (.str "structure", .dict sd)] (.str "structure") = some (.dict sd) := by
    rw [Dict.get?_cons, if_neg (by decide), Dict.get?_cons, if_pos rfl]
  simp only [Simulation.fromDict, g1, g2, h1, h2, ok_bind]
  cases r <;> rfl

theorem toFile_of {d : ℕ} {sim : Simulation ℚ d} {j j' : Props} (h1 : (Val.dict sim.state.asDict).json = .dict j)
    (h2 : (Val.dict sim.struct.asDict).json = .dict j') :
    sim.toFile = .dict [(.str "state", .dict j), (.str "structure", .dict j')] := by
  rw [Simulation.toFile, Simulation.asDict, Val.json, Val.jsonPairs, Val.jsonPairs, Val.jsonPairs, h1, h2,
    ofPairs_of_nodup _ (by simp [Dict.WF, Dict.keys, Key.json])]
  rfl

/-- C93 (the part that holds): if no site was added half-way between thousandths and all stored locations are in the cell,
`from_dict(as_dict())` is the same simulation, and so is `from_file` after `to_file` if JSON can represent the state. Missing:
`C93_false`. -/
theorem C93_round_trip_partial {d : ℕ} (hd : d ≠ 0) (sim : Simulation ℚ d) (hw : sim.state.WF)
    (hids : ∀ k ∈ sim.state.siteIds, ∃ i, k = .int i) (h : sim.struct.lattice.Regular) (ops : List (String × (Fin d → ℚ)))
    (hs : sim.struct = (history (new sim.struct.lattice) ops).1)
    (hu : ∀ op ∈ ops, Untied sim.struct.lattice op.2 ∧ ∀ y, sim.struct.lattice.Stored op.2 y → sim.struct.lattice.InCell y) :
    Simulation.fromDict sim.asDict = .ok ⟨d, sim⟩ ∧ (sim.state.JsonNative → Simulation.fromFile sim.toFile = .ok ⟨d, sim⟩) := by
  obtain ⟨h1, j, hj, h2⟩ := C47_round_trip_partial hd h ops hu
  rw [← hs] at h1 hj h2
  constructor
  · exact sim_fromDict_of (state_fromDict_asDict hw hids) h1
  · intro hn
    obtain ⟨j', hj', h3⟩ := C10_round_trip sim.state hw hn
    rw [toFile_of hj' hj]
    exact sim_fromDict_of h3 h2

/-- C93 for every square grid. -/
theorem C93_grid {d : ℕ} {N : Fin d → ℤ} (sim : Simulation ℚ d) (hg : SquareGrid d N sim.struct) (hw : sim.state.WF)
    (hids : ∀ k ∈ sim.state.siteIds, ∃ i, k = .int i) :
    Simulation.fromDict sim.asDict = .ok ⟨d, sim⟩ ∧ (sim.state.JsonNative → Simulation.fromFile sim.toFile = .ok ⟨d, sim⟩) := by
  have hd : d ≠ 0 := by cases hg <;> simp
  obtain ⟨h, hL, ops, hops, e⟩ := hg.isTorus.reach
  refine C93_round_trip_partial hd sim hw hids h ops e fun op hop => ⟨aligned_untied h hL (hops op hop), fun y hy => ?_⟩
  rw [stored_iff h, aligned_rounded (aligned_periodized h hL (hops op hop))] at hy
  exact hy ▸ inCell_periodized h _

/-- If the structure cannot be read back, neither can the simulation. -/
theorem sim_read_error {d : ℕ} (hd : d ≠ 0) {L : Lattice ℚ d} {ops : List (String × (Fin d → ℚ))} {sim : Simulation ℚ d} (hw : sim.state.WF)
    (hn : sim.state.JsonNative) (hs : sim.struct = (history (new L) ops).1) {e : Err} (he : Structure.fromDict sim.struct.asDict = .error e) :
    Simulation.fromDict sim.asDict = .error e ∧ Simulation.fromFile sim.toFile = .error e := by
  constructor
  · exact sim_fromDict_of (state_fromDict_asDict hw hn.ids) he
  · obtain ⟨j', hj', h3⟩ := C10_round_trip sim.state hw hn
    obtain ⟨acc, ha, -⟩ := history_new L ops
    obtain ⟨-, j, hj, h4⟩ := fromDict_asDict (L := L) hd acc
    rw [← ha, ← hs] at hj h4
    rw [toFile_of hj' hj]
    exact sim_fromDict_of h3 (h4.trans he)

/-- C93 is false: a simulation on a structure with sites at 0 and 0.9996 is written but cannot be read back. -/
theorem C93_false : unitCell.Regular ∧
    let r := history (new unitCell) [("A", ![0]), ("B", ![9996/10000])]
    r.2 = [.ok 0, .ok 1] ∧ Simulation.fromDict (Simulation.asDict ⟨SimState.empty, r.1⟩) = .error .assertionError ∧
      Simulation.fromFile (Simulation.toFile ⟨SimState.empty, r.1⟩) = .error .assertionError := by
  obtain ⟨h0, h1, h2⟩ := C47_false
  have hw : SimState.empty.WF := ⟨by simp [SimState.empty, Dict.WF, Dict.keys], by simp [SimState.empty], fun g hg => by
    simp only [SimState.empty, Option.some.injEq] at hg
    subst hg
    exact .dict (by simp [Dict.WF, Dict.keys]) (by simp)⟩
  have hn : SimState.empty.JsonNative := ⟨by simp [SimState.empty, SimState.siteIds, Dict.keys], fun k p hp => by
    simp [SimState.empty, SimState.getSiteState] at hp, fun g hg => by
    simp only [SimState.empty, SimState.getGeneralState, Option.some.injEq] at hg
    subst hg
    exact .dict (by simp) (by simp)⟩
  exact ⟨h0, h1, sim_read_error (sim := ⟨SimState.empty, _⟩) (by decide) hw hn rfl h2⟩

/-! ### C94 -/

section
variable {K : Type} [Field K] [LinearOrder K] [IsStrictOrderedRing K] [FloorRing K] {d : ℕ}

theorem SamePlace_trans {L : Lattice K d} (h : L.Regular) {x y z : Fin d → K} (h1 : L.SamePlace x y) (h2 : L.SamePlace z y) : L.SamePlace x z :=
  (keyOf_eq_iff h).1 (((keyOf_eq_iff h).2 h1).trans ((keyOf_eq_iff h).2 h2).symm)

/-- C94: `state_at(x)` is the state of the site that was added at the place of `x`, and None if there is no such site or the
state does not know it. -/
theorem C94_state_at {L : Lattice K d} (h : L.Regular) (ops : List (String × (Fin d → K))) (state : SimState) (x : Fin d → K) :
    let r := history (new L) ops
    ∀ p, Simulation.stateAt ⟨state, r.1⟩ x = some p ↔
      ∃ (j k : ℕ) (c : String) (y : Fin d → K), ops[j]? = some (c, y) ∧ r.2[j]? = some (.ok k) ∧ L.SamePlace y x ∧
        state.getSiteState (.int k) = some p := by
  intro r p
  obtain ⟨h1, h2⟩ := C45_site_at h ops x
  rw [Simulation.stateAt]
  change (match r.1.siteAt x with | none => none | some t => state.getSiteState (.int t.id)) = some p ↔ _
  constructor
  · intro hp
    cases ht : r.1.siteAt x with
    | none => rw [ht] at hp; cases hp
    | some t =>
      rw [ht] at hp
      obtain ⟨-, j, c, y, hj, hk, hs⟩ := (h1 t).1 ht
      exact ⟨j, t.id, c, y, hj, hk, hs, hp⟩
  · rintro ⟨j, k, c, y, hj, hk, hs, hp⟩
    cases ht : r.1.siteAt x with
    | none => exact absurd hs (h2.1 ht j k c y hj hk)
    | some t =>
      obtain ⟨-, j', c', y', hj', hk', hs'⟩ := (h1 t).1 ht
      have e := C44_distinct h ops j j' k t.id c c' y y' hj hj' hk hk' (SamePlace_trans h hs hs')
      subst e
      exact hp

/-- C94 on a square grid: `state_at` of an integer location is the state of the cell at that location modulo the size. -/
theorem C94_grid {N : Fin d → ℤ} (sim : Simulation K d) (hg : SquareGrid d N sim.struct) (x : Fin d → ℤ) (i : ℕ)
    (hi : SiteHas sim.struct i fun j => x j % N j) :
    sim.stateAt (intPoint x) = sim.state.getSiteState (.int i) := by
  have ht := hg.isTorus
  obtain ⟨t, h1, h2⟩ := IsTorus.siteAt _ N ht x
  rw [Simulation.stateAt, h1]
  have : SiteHas sim.struct t.id fun j => x j % N j :=
    siteLocation_iff.2 ⟨t, getSite_of_siteAt ht.reachable h1, h2⟩
  change sim.state.getSiteState (.int t.id) = _
  rw [ht.site_unique this hi]

theorem SquareGrid.int_point {N : Fin d → ℤ} {s : Structure K d} (h : SquareGrid d N s) (m : Fin d → ℤ) (j : Fin d) :
    ∃ z : ℤ, s.lattice.point (fun i => (m i : K)) j = z := by
  have key : ∀ {d : ℕ} {L : Lattice K d} {σ : Fin d → Fin d} (hL : IsGrid L σ) (n : Fin d → ℤ) (hn : ∀ i, 0 < n i) (s : Structure K d),
      buildFrom L n gridMotif false = .ok s → ∀ (m : Fin d → ℤ) (j : Fin d), ∃ z : ℤ, s.lattice.point (fun i => (m i : K)) j = z := by
    intro d L σ hL n hn s hs m j
    obtain ⟨S, h1, h2, -⟩ := hL.build_grid n hn
    rw [hs] at h1
    injection h1 with h1
    subst h1
    rw [h2, hL.point_scaled]
    exact ⟨_, (Int.cast_mul _ _).symm⟩
  cases h with
  | two size s a b ha hb hsz h =>
    rcases hsz with rfl | ⟨rfl, rfl⟩
    · refine key isGrid2 ![b, a] (fun i => by fin_cases i <;> assumption) s ?_ m j
      rw [← h, buildSquare2, build, dif_pos (by rfl)]
      congr 1
      funext i; fin_cases i <;> rfl
    · exact key isGrid2 (fun _ => a) (fun _ => ha) s h m j
  | three size s a b c ha hb hc hsz h =>
    rcases hsz with rfl | ⟨rfl, rfl, rfl⟩
    · refine key isGrid3 ![b, a, c] (fun i => by fin_cases i <;> assumption) s ?_ m j
      rw [← h, buildSquare3, build, dif_pos (by rfl)]
      congr 1
      funext i; fin_cases i <;> rfl
    · exact key isGrid3 (fun _ => a) (fun _ => ha) s h m j

/-- C94 on a square grid: elsewhere `state_at` is None. -/
theorem C94_off_grid {N : Fin d → ℤ} (sim : Simulation K d) (hg : SquareGrid d N sim.struct) (x : Fin d → K) (hx : Spec.OffGrid x) :
    sim.stateAt x = none := by
  rw [Simulation.stateAt, siteAt_offGrid hg.isTorus hg.int_point hx]

end

/-- An interface between A and B on a 4x4 grid is read back from its dict, and its `state_at((5, -1))` has phase A. -/
example : ∃ sim : Simulation ℚ 2, gridSetup2.interface (.int 4) (.str "A") (.str "B") = .ok sim ∧
    Simulation.fromDict sim.asDict = .ok ⟨2, sim⟩ ∧
    ∃ p, sim.stateAt (intPoint ![5, -1]) = some p ∧ Dict.get? p DISCRETE_OCCUPANCY = some (.str "A") := by
  obtain ⟨S, s, h1, h2, h3, h4⟩ := C64_interface (K := ℚ) .two 4 (by norm_num) (.str "A") (.str "B") (.str _) (.str _)
  refine ⟨⟨s, S⟩, h1, (C93_grid ⟨s, S⟩ h2 h3.1 fun k hk => ?_).1, ?_⟩
  · obtain ⟨i, -, hi⟩ := (h3.2.2.1 k).1 hk
    exact ⟨i, hi⟩
  · obtain ⟨i, -, hi⟩ := h2.isTorus.ex (fun j => ![5, -1] j % 4) (h2.isTorus.inBox_mod _)
    rw [C94_grid ⟨s, S⟩ h2 ![5, -1] i hi]
    have ho := h4 i _ hi
    cases hp : s.getSiteState (.int i) with
    | none => simp [Spec.occ?, hp] at ho
    | some p =>
      refine ⟨p, rfl, ?_⟩
      simpa [Spec.occ?, hp] using ho

/-- A state for a grid of two sites that goes through a file. -/
example : ∃ S : Structure ℚ 2, buildSquare2 (.tup [2, 1]) = .ok S ∧
    let sim : Simulation ℚ 2 := ⟨⟨[(.int 0, [(.str "x", .list [.num (1/2), .pyNone])]), (.int 1, [(.str "x", .str "q")])], some [(.str "t", .num 3)]⟩, S⟩
    Simulation.fromFile sim.toFile = .ok ⟨2, sim⟩ := by
  obtain ⟨S, hS, -⟩ := (completeTorus (K := ℚ) isGrid2 ![2, 1] fun i => by fin_cases i <;> simp)
  have hb : buildSquare2 (K := ℚ) (.tup [2, 1]) = .ok S := by
    rw [← hS, buildSquare2, build, dif_pos (by rfl)]
    congr 1
    funext i; fin_cases i <;> rfl
  refine ⟨S, hb, ?_⟩
  have hg : SquareGrid 2 ![1, 2] S := .two _ S 1 2 (by norm_num) (by norm_num) (.inl rfl) hb
  have hids : ∀ k ∈ (SimState.mk [(.int 0, [(.str "x", .list [.num (1/2), .pyNone])]), (.int 1, [(.str "x", .str "q")])] (some [(.str "t", .num 3)])).siteIds,
      ∃ i, k = .int i := by
    intro k hk
    simp [SimState.siteIds, Dict.keys] at hk
    rcases hk with rfl | rfl <;> exact ⟨_, rfl⟩
  refine (C93_grid _ hg ⟨?_, ?_, ?_⟩ hids).2 ⟨hids, ?_, ?_⟩
  · simp [Dict.WF, Dict.keys]
  · intro kp hk
    simp only [List.mem_cons, List.not_mem_nil, or_false] at hk
    rcases hk with rfl | rfl
    · refine .dict (by simp [Dict.WF, Dict.keys]) fun kv hkv => ?_
      rw [List.mem_singleton] at hkv; subst hkv
      exact .list fun a ha => by
        simp only [List.mem_cons, List.not_mem_nil, or_false] at ha
        rcases ha with rfl | rfl
        · exact .num _
        · exact .pyNone
    · refine .dict (by simp [Dict.WF, Dict.keys]) fun kv hkv => ?_
      rw [List.mem_singleton] at hkv; subst hkv
      exact .str _
  · intro g hg
    simp only [Option.some.injEq] at hg; subst hg
    refine .dict (by simp [Dict.WF, Dict.keys]) fun kv hkv => ?_
    rw [List.mem_singleton] at hkv; subst hkv
    exact .num _
  · intro k p hp
    have hk := Dict.mem_of_get? hp
    simp only [List.mem_cons, List.not_mem_nil, or_false, Prod.mk.injEq] at hk
    rcases hk with ⟨-, rfl⟩ | ⟨-, rfl⟩
    · refine .dict (by simp) fun kv hkv => ?_
      rw [List.mem_singleton] at hkv; subst hkv
      exact .list fun a ha => by
        simp only [List.mem_cons, List.not_mem_nil, or_false] at ha
        rcases ha with rfl | rfl
        · exact .num _
        · exact .pyNone
    · refine .dict (by simp) fun kv hkv => ?_
      rw [List.mem_singleton] at hkv; subst hkv
      exact .str _
  · intro g hg
    simp only [SimState.getGeneralState, Option.some.injEq] at hg; subst hg
    refine .dict (by simp) fun kv hkv => ?_
    rw [List.mem_singleton] at hkv; subst hkv
    exact .num _

end Pyl
