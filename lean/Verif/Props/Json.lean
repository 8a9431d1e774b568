import Verif.Lemmas.Json
import Verif.Spec.Result
import Verif.Props.Result
/-
C10 and C35: serialisation of states and results.
-/
set_option autoImplicit false

namespace Pyl
open SimState SimResult Spec

/-! ### C10 -/

theorem mem_stateSites {s : SimState} {kv : Key × Val} (h : kv ∈ s.sites.map fun kp => (kp.1, Val.dict kp.2)) :
    ∃ p, (kv.1, p) ∈ s.sites ∧ kv.2 = .dict p := by
  obtain ⟨⟨k, p⟩, hp, rfl⟩ := List.mem_map.1 h
  exact ⟨p, hp, rfl⟩

/-- What JSON makes of `as_dict()`. -/
theorem json_asDict {s : SimState} (hw : s.WF) (hn : s.JsonNative) :
    (Val.dict s.asDict).json = .dict [(.str "state", .dict ((SITES, .dict
      ((s.sites.map fun kp => (kp.1, Val.dict kp.2)).map fun kv => (kv.1.json, kv.2))) ::
        match s.general with
        | none => []
        | some g => [(GENERAL, .dict g)])),
      (.str "@module", .str "pylattica.core.simulation_state"), (.str "@class", .str "SimulationState")] := by
  have h1 : (Val.dict (s.sites.map fun kp => (kp.1, Val.dict kp.2))).json =
      .dict ((s.sites.map fun kp => (kp.1, Val.dict kp.2)).map fun kv => (kv.1.json, kv.2)) := by
    refine json_int_dict ?_ ?_ ?_ ?_
    · have : Dict.keys (s.sites.map fun kp => (kp.1, Val.dict kp.2)) = Dict.keys s.sites := by
        simp [Dict.keys, Function.comp_def]
      rw [Dict.WF, this]; exact hw.sites
    · intro kv h
      obtain ⟨p, hp, -⟩ := mem_stateSites h
      exact hn.ids _ (List.mem_map.2 ⟨_, hp, rfl⟩)
    · intro kv h
      obtain ⟨p, hp, e⟩ := mem_stateSites h
      rw [e]; exact hw.site _ hp
    · intro kv h
      obtain ⟨p, hp, e⟩ := mem_stateSites h
      rw [e]; exact hn.site _ p (Dict.get?_of_mem hw.sites hp)
  have hk1 : (Key.str "state").json = .str "state" := rfl
  have hk2 : (Key.str "@module").json = .str "@module" := rfl
  have hk3 : (Key.str "@class").json = .str "@class" := rfl
  have hs : SITES.json = SITES := rfl
  have hg : GENERAL.json = GENERAL := rfl
  have h2 : (Val.dict s.stateDict).json = .dict ((SITES, .dict
      ((s.sites.map fun kp => (kp.1, Val.dict kp.2)).map fun kv => (kv.1.json, kv.2))) ::
        match s.general with
        | none => []
        | some g => [(GENERAL, .dict g)]) := by
    cases hgen : s.general with
    | none =>
      simp only [stateDict, hgen]
      rw [Val.json, Val.jsonPairs, h1, Val.jsonPairs, hs]
      rfl
    | some g =>
      have h3 : (Val.dict g).json = .dict g := json_native (hn.general g hgen) (hw.general g hgen)
      simp only [stateDict, hgen]
      rw [Val.json, Val.jsonPairs, h1, Val.jsonPairs, h3, Val.jsonPairs, hs, hg, ofPairs_of_nodup]
      simp [Dict.WF, Dict.keys, SITES, GENERAL]
  rw [SimState.asDict, Val.json, Val.jsonPairs, Val.jsonPairs, Val.jsonPairs, Val.jsonPairs, h2, hk1, hk2, hk3, Val.json, Val.json,
    ofPairs_of_nodup]
  simp [Dict.WF, Dict.keys]

theorem fromDict_of {st : Props} {s : SimState} (hw : s.WF) (hids : ∀ k ∈ s.siteIds, ∃ i, k = .int i) (rest : Props)
    (hs : Dict.get? st SITES = some (.dict ((s.sites.map fun kp => (kp.1, Val.dict kp.2)).map fun kv => (kv.1.json, kv.2))))
    (hg : Dict.get? st GENERAL = s.general.map Val.dict) :
    SimState.fromDict ((.str "state", .dict st) :: rest) = .ok s := by
  have h0 : Dict.get? ((Key.str "state", Val.dict st) :: rest) (.str "state") = some (.dict st) := by
    rw [Dict.get?_cons, if_pos rfl]
  have h1 : intKeys ((s.sites.map fun kp => (kp.1, Val.dict kp.2)).map fun kv => (kv.1.json, kv.2)) =
      .ok (s.sites.map fun kp => (kp.1, Val.dict kp.2)) := by
    refine intKeys_json ?_ ?_
    · have : Dict.keys (s.sites.map fun kp => (kp.1, Val.dict kp.2)) = Dict.keys s.sites := by
        simp [Dict.keys, Function.comp_def]
      rw [Dict.WF, this]; exact hw.sites
    · intro kv h
      obtain ⟨p, hp, -⟩ := mem_stateSites h
      exact hids _ (List.mem_map.2 ⟨_, hp, rfl⟩)
  have h2 : (s.sites.map fun kp => (kp.1, Val.dict kp.2)).mapM (fun kv => do pure (kv.1, ← asProps kv.2)) =
      (.ok s.sites : Py _) := by
    rw [List.mapM_map]
    have := mapM_ok (f := fun kp : Key × Props => (do pure (kp.1, ← asProps (.dict kp.2)) : Py (Key × Props)))
      (g := id) s.sites (fun kp _ => rfl)
    rw [List.map_id] at this
    exact this
  simp only [SimState.fromDict, h0, hs, h1, ok_bind, h2, hg]
  obtain ⟨sites, general⟩ := s
  cases general <;> rfl

/-- C10: a state with int site ids and JSON-representable values comes back from JSON as it was (equal, with its site ids
ints and in the same order). -/
theorem C10_round_trip (s : SimState) (hw : s.WF) (hn : s.JsonNative) :
    ∃ d, (Val.dict s.asDict).json = .dict d ∧ SimState.fromDict d = .ok s := by
  refine ⟨_, json_asDict hw hn, ?_⟩
  refine fromDict_of hw hn.ids _ ?_ ?_
  · rw [Dict.get?_cons, if_pos rfl]
  · rw [Dict.get?_cons, if_neg (by decide)]
    cases s.general with
    | none => rfl
    | some g => simp [Dict.get?_cons]

theorem mapM_mem {α β : Type _} {f : α → Py β} {l : List α} {m : List β} (h : l.mapM f = .ok m) :
    ∀ b ∈ m, ∃ a ∈ l, f a = .ok b := by
  induction l generalizing m with
  | nil =>
    intro b hb
    have : m = [] := by simpa [pure, Except.pure] using h.symm
    subst this; simp at hb
  | cons a l ih =>
    rw [List.mapM_cons] at h
    obtain ⟨b, hb, h⟩ := bind_ok h
    obtain ⟨bs, hbs, h⟩ := bind_ok h
    have : m = b :: bs := by simpa [pure, Except.pure] using h.symm
    subst this
    intro b' hb'
    rcases List.mem_cons.1 hb' with rfl | hb'
    · exact ⟨a, by simp, hb⟩
    · obtain ⟨a', ha', e⟩ := ih hbs b' hb'
      exact ⟨a', by simp [ha'], e⟩

theorem intKeys_int {d e : Props} (h : intKeys d = .ok e) : ∀ k ∈ Dict.keys e, ∃ i, k = .int i := by
  rw [intKeys] at h
  obtain ⟨l, hl, h⟩ := bind_ok h
  have he : e = Dict.ofPairs l := by simpa [pure, Except.pure] using h.symm
  subst he
  intro k hk
  rw [Dict.ofPairs, Dict.mem_keys_update] at hk
  rcases hk with hk | hk
  · simp at hk
  obtain ⟨kv, hkv, rfl⟩ := List.mem_map.1 hk
  obtain ⟨a, -, ha⟩ := mapM_mem hl kv hkv
  obtain ⟨i, -, ha⟩ := bind_ok ha
  have : kv = (.int i, a.2) := by simpa [pure, Except.pure] using ha.symm
  exact ⟨i, by rw [this]⟩

/-- C10: whatever dict `from_dict` accepts, the site ids of the resulting state are ints, without repetition. -/
theorem C10_ids_are_ints (d : Props) (s : SimState) (h : SimState.fromDict d = .ok s) :
    (∀ k ∈ s.siteIds, ∃ i, k = .int i) ∧ s.siteIds.Nodup := by
  rw [SimState.fromDict] at h
  split at h
  · cases h
  · split at h
    · cases h
    · obtain ⟨sites', hs', h⟩ := bind_ok h
      obtain ⟨ps, hps, h⟩ := bind_ok h
      have hkeys : Dict.keys ps = Dict.keys sites' := by
        clear h hs'
        clear * - hps
        induction sites' generalizing ps with
        | nil =>
          have : ps = [] := by simpa [pure, Except.pure] using hps.symm
          subst this; rfl
        | cons a l ih =>
          rw [List.mapM_cons] at hps
          obtain ⟨b, hb, hps⟩ := bind_ok hps
          obtain ⟨bs, hbs, hps⟩ := bind_ok hps
          have : ps = b :: bs := by simpa [pure, Except.pure] using hps.symm
          subst this
          obtain ⟨p, -, hb⟩ := bind_ok hb
          have : b = (a.1, p) := by simpa [pure, Except.pure] using hb.symm
          rw [Dict.keys_cons, Dict.keys_cons, ih _ hbs, this]
      have hsites : s.sites = ps := by
        split at h
        · have : s = ⟨ps, none⟩ := by simpa [pure, Except.pure] using h.symm
          rw [this]
        · obtain ⟨g, -, h⟩ := bind_ok h
          have : s = ⟨ps, some g⟩ := by simpa [pure, Except.pure] using h.symm
          rw [this]
      constructor
      · intro k hk
        rw [siteIds, hsites, hkeys] at hk
        exact intKeys_int hs' k hk
      · rw [siteIds, hsites, hkeys]
        rw [intKeys] at hs'
        obtain ⟨l, -, hs'⟩ := bind_ok hs'
        have : sites' = Dict.ofPairs l := by simpa [pure, Except.pure] using hs'.symm
        rw [this]; exact Dict.WF.ofPairs l
    · cases h
  · cases h

/-- A state that meets the hypotheses: a list, a nested dict and `None` among the values, a negative id. -/
def jsonDemo : SimState :=
  ⟨[(.int 12, [(SITE_ID, .num 12), (.str "nb", .list [.num 1, .pyNone])]),
    (.int (-3), [(SITE_ID, .num (-3)), (.str "x", .dict [(.str "7", .str "y")])])], some [(.str "t", .num 5)]⟩

example : jsonDemo.WF ∧ jsonDemo.JsonNative := by
  have hw1 : (Val.dict [(SITE_ID, .num 12), (.str "nb", .list [.num 1, .pyNone])]).WF := by
    refine .dict (by simp [Dict.WF, Dict.keys, SITE_ID]) ?_
    simp only [List.mem_cons, List.not_mem_nil, or_false, forall_eq_or_imp, forall_eq]
    exact ⟨.num _, .list (by simpa using ⟨.num _, .pyNone⟩)⟩
  have hw2 : (Val.dict [(SITE_ID, .num (-3)), (.str "x", .dict [(.str "7", .str "y")])]).WF := by
    refine .dict (by simp [Dict.WF, Dict.keys, SITE_ID]) ?_
    simp only [List.mem_cons, List.not_mem_nil, or_false, forall_eq_or_imp, forall_eq]
    exact ⟨.num _, .dict (by simp [Dict.WF, Dict.keys]) (by simpa using .str _)⟩
  have hn1 : (Val.dict [(SITE_ID, .num 12), (.str "nb", .list [.num 1, .pyNone])]).JsonNative := by
    refine .dict (by simp [SITE_ID]) ?_
    simp only [List.mem_cons, List.not_mem_nil, or_false, forall_eq_or_imp, forall_eq]
    exact ⟨.num _, .list (by simpa using ⟨.num _, .pyNone⟩)⟩
  have hn2 : (Val.dict [(SITE_ID, .num (-3)), (.str "x", .dict [(.str "7", .str "y")])]).JsonNative := by
    refine .dict (by simp [SITE_ID]) ?_
    simp only [List.mem_cons, List.not_mem_nil, or_false, forall_eq_or_imp, forall_eq]
    exact ⟨.num _, .dict (by simp) (by simpa using .str _)⟩
  refine ⟨⟨by simp [jsonDemo, Dict.WF, Dict.keys], ?_, ?_⟩, ⟨?_, ?_, ?_⟩⟩
  · simp only [jsonDemo, List.mem_cons, List.not_mem_nil, or_false, forall_eq_or_imp, forall_eq]
    exact ⟨hw1, hw2⟩
  · rintro g ⟨⟩
    exact .dict (by simp [Dict.WF, Dict.keys]) (by simpa using .num _)
  · simp [jsonDemo, siteIds, Dict.keys]
  · intro k p hp
    have := Dict.mem_of_get? hp
    simp only [jsonDemo, List.mem_cons, List.not_mem_nil, or_false, Prod.mk.injEq] at this
    rcases this with ⟨-, rfl⟩ | ⟨-, rfl⟩
    · exact hn1
    · exact hn2
  · rintro g ⟨⟩
    exact .dict (by simp) (by simpa using .num _)

/-- C10: values that JSON cannot represent do not come back: a tuple returns as a list. -/
example : (Val.tup [.num 1]).json = .list [.num 1] := by simp [Val.json, Val.jsonList]

/-! ### C35 -/

theorem reformat_flat {d : Props} (h : FlatDiff d) :
    SimResult.reformat (Val.dict d).json = .ok d := by
  rw [json_int_dict h.wf h.ids h.wfVal h.native, SimResult.reformat]
  have : (d.map fun kv => (kv.1.json, kv.2)).filter (fun kv => decide (kv.1 ≠ GENERAL)) =
      d.map fun kv => (kv.1.json, kv.2) := by
    refine List.filter_eq_self.2 ?_
    intro kv hkv
    obtain ⟨⟨k, v⟩, hk, rfl⟩ := List.mem_map.1 hkv
    obtain ⟨i, hi⟩ := h.ids _ hk
    simp only at hi; subst hi
    refine decide_eq_true fun e => ?_
    simp only [Key.json, GENERAL, Key.str.injEq] at e
    have := toInt_decimal i
    rw [e] at this
    have h' : (Key.str "GENERAL").toInt = .error .valueError := by decide +kernel
    rw [h'] at this; cases this
  rw [this, intKeys_json h.wf h.ids]

theorem getDiffs (a b : Val) (rest : Props) : Dict.get? ((Key.str "initial_state", a) :: (Key.str "diffs", b) :: rest)
    (.str "diffs") = some b ∧ Dict.get? ((Key.str "initial_state", a) :: (Key.str "diffs", b) :: rest)
    (.str "initial_state") = some a := by
  constructor
  · rw [Dict.get?_cons, if_neg (by decide), Dict.get?_cons, if_pos rfl]
  · rw [Dict.get?_cons, if_pos rfl]

theorem json_result (r : SimResult) : (Val.dict r.asDict).json =
    .dict [(.str "initial_state", (Val.dict r.initial.asDict).json),
      (.str "diffs", .list ((r.diffs.map SimResult.diffVal).map Val.json)),
      (.str "@module", .str "pylattica.core.simulation_result"), (.str "@class", .str "SimulationResult")] := by
  rw [SimResult.asDict, Val.json, Val.jsonPairs, Val.jsonPairs, Val.jsonPairs, Val.jsonPairs, Val.jsonPairs]
  rw [ofPairs_of_nodup _ (by simp [Dict.WF, Dict.keys, Key.json])]
  simp only [Key.json, Val.json, jsonList_eq]

theorem foldlM_flat {ds : List (Option Props)} (hd : ∀ d ∈ ds, ∃ p, d = some p ∧ FlatDiff p) (r : SimResult) :
    ((ds.map SimResult.diffVal).map Val.json).foldlM
      (fun r v => do pure (r.addStep (some (← SimResult.reformat v)))) r =
      (.ok { r with diffs := r.diffs ++ ds } : Py SimResult) := by
  induction ds generalizing r with
  | nil => simp [pure, Except.pure]
  | cons d ds ih =>
    obtain ⟨p, rfl, hp⟩ := hd d (by simp)
    simp only [List.map_cons, List.foldlM_cons, SimResult.diffVal, reformat_flat hp, ok_bind]
    have := ih (fun d h => hd d (by simp [h])) (r.addStep (some p))
    simp only [pure, Except.pure, ok_bind] at this ⊢
    rw [this]
    simp [SimResult.addStep]

/-- C35 (the part that holds): a result whose initial state JSON can represent and whose diffs were added in the documented
format of `add_step` (site ids to new values, no general part) is read back with the same number of steps, and every step
reports the same state.  Missing: diffs as the runners record them (see `C35_runner_false`). -/
theorem C35_flat_partial (s0 : SimState) (ops : List ROp) (hw : s0.WF) (hn : s0.JsonNative)
    (hd : ∀ d ∈ added ops, ∃ p, d = some p ∧ FlatDiff p) :
    ∃ j r, (Val.dict (resultAfter s0 ops).asDict).json = .dict j ∧ SimResult.fromDict j = .ok r ∧
      r.len = (resultAfter s0 ops).len ∧
      ∀ k : Nat, k < (resultAfter s0 ops).len → r.getStep k = (resultAfter s0 ops).getStep k := by
  obtain ⟨d, hd1, hd2⟩ := C10_round_trip s0 hw hn
  refine ⟨_, resultAfter s0 ((added ops).map ROp.add), json_result _, ?_, ?_, ?_⟩
  · rw [after_initial, after_diffs, hd1]
    simp only [SimResult.fromDict, iterate, (getDiffs _ _ _).1, (getDiffs _ _ _).2, hd2, ok_bind]
    rw [foldlM_flat hd]
    have key : ∀ (l : List (Option Props)) (r : SimResult),
        (l.map ROp.add).foldl ROp.effect r = { r with diffs := r.diffs ++ l } := by
      intro l
      induction l with
      | nil => intro r; simp
      | cons a l ih => intro r; simp [ih, ROp.effect, SimResult.addStep]
    rw [resultAfter, key]
  · rw [C30_len, C30_len]
    congr 1
    have : ∀ l : List (Option Props), added (l.map ROp.add) = l := by
      intro l; induction l with
      | nil => rfl
      | cons a l ih => simp [added, ih]
    rw [this]
  · intro k hk
    have : ∀ l : List (Option Props), added (l.map ROp.add) = l := by
      intro l; induction l with
      | nil => rfl
      | cons a l ih => simp [added, ih]
    have hk' : k < (resultAfter s0 ((added ops).map ROp.add)).len := by
      rw [C30_len, this]; rw [C30_len] at hk; exact hk
    rw [C30_get_step s0 ops k hk, C30_get_step s0 _ k hk', this]

example : FlatDiff [(.int 0, .dict [(.str "a", .str "x")]), (.int 1, .dict [(.str "a", .str "y")])] := by
  refine ⟨by simp [Dict.WF, Dict.keys], by simp, ?_, ?_⟩
  · simp only [List.mem_cons, List.not_mem_nil, or_false, forall_eq_or_imp, forall_eq]
    exact ⟨.dict (by simp [Dict.WF, Dict.keys]) (by simpa using .str _),
      .dict (by simp [Dict.WF, Dict.keys]) (by simpa using .str _)⟩
  · simp only [List.mem_cons, List.not_mem_nil, or_false, forall_eq_or_imp, forall_eq]
    exact ⟨.dict (by simp) (by simpa using .str _), .dict (by simp) (by simpa using .str _)⟩

/-- A diff as the runners record it stops `from_dict`: `int("SITES")` raises ValueError. -/
theorem reformat_toProps (u : Upd) : SimResult.reformat (Val.dict u.toProps).json = .error .valueError := by
  rw [Upd.toProps, Val.json, Val.jsonPairs, Val.jsonPairs, Val.jsonPairs, ofPairs_of_nodup]
  · simp only [SimResult.reformat]
    have h : (Key.str "SITES").toInt = .error .valueError := by decide +kernel
    have hs : SITES.json ≠ GENERAL := by decide
    have hg : GENERAL.json = GENERAL := rfl
    have hf : ([(SITES.json, (Val.dict u.sites).json), (GENERAL.json, (Val.dict u.general).json)] : Props).filter
        (fun kv => decide (kv.1 ≠ GENERAL)) = [(SITES.json, (Val.dict u.sites).json)] := by
      simp [List.filter, hs, hg]
    rw [hf, intKeys, List.mapM_cons]
    simp only [SITES, Key.json, h, error_bind]
  · simp [Dict.WF, Dict.keys, SITES, GENERAL, Key.json]

theorem fromDict_first_diff (r : SimResult) (hw : r.initial.WF) (hn : r.initial.JsonNative) (u : Upd)
    (ds : List (Option Props)) (h : r.diffs = some u.toProps :: ds) :
    ∃ j, (Val.dict r.asDict).json = .dict j ∧ SimResult.fromDict j = .error .valueError := by
  obtain ⟨d, hd1, hd2⟩ := C10_round_trip r.initial hw hn
  refine ⟨_, json_result r, ?_⟩
  simp only [SimResult.fromDict, iterate, (getDiffs _ _ _).1, (getDiffs _ _ _).2, hd1, hd2, ok_bind, h, List.map_cons,
    List.foldlM_cons, SimResult.diffVal, reformat_toProps, error_bind]

/-- The recorded diffs of a loop all have the normalised form. -/
theorem syncLoop_diffs {σ : Type} {c : Controller σ} {n : Nat} {st st' : σ} {s s' : SimState} {res res' : SimResult}
    (h : syncLoop c n st s res = .ok (st', s', res')) :
    res'.initial = res.initial ∧ ∃ us : List Upd, us.length = n ∧
      res'.diffs = res.diffs ++ us.map fun u => some u.toProps := by
  induction n generalizing st s res with
  | zero =>
    simp only [syncLoop, Except.ok.injEq, Prod.mk.injEq] at h
    obtain ⟨-, -, rfl⟩ := h
    exact ⟨rfl, [], rfl, by simp⟩
  | succ n ih =>
    rw [syncLoop] at h
    obtain ⟨⟨st1, u⟩, -, h⟩ := bind_ok h
    obtain ⟨live, hl, h⟩ := bind_ok h
    obtain ⟨h1, us, hus, h2⟩ := ih h
    cases u with
    | none => simp [SimState.batchUpdateO] at hl
    | some u =>
      refine ⟨h1, u :: us, by simp [hus], ?_⟩
      rw [h2]; simp [SimResult.addStep]

theorem asyncStep_diffs {σ : Type} {c : Controller σ} {a a' : AsyncSt σ} (h : asyncStep c a = .ok a') :
    a'.res.initial = a.res.initial ∧ ∃ u : Upd, a'.res.diffs = a.res.diffs ++ [some u.toProps] := by
  rw [asyncStep] at h
  cases hq : a.queue with
  | nil => rw [hq] at h; cases h
  | cons sid q =>
    rw [hq] at h
    obtain ⟨⟨st1, r⟩, -, h⟩ := bind_ok h
    obtain ⟨u, -, h⟩ := bind_ok h
    obtain ⟨live, hl, h⟩ := bind_ok h
    obtain ⟨⟨st2, q2⟩, -, h⟩ := bind_ok h
    cases u with
    | none => simp [SimState.batchUpdateO] at hl
    | some u =>
      simp only [pure, Except.pure, Except.ok.injEq] at h
      subst h
      exact ⟨rfl, u, by simp [SimResult.addStep]⟩

theorem asyncLoop_diffs {σ : Type} {c : Controller σ} {n : Nat} {a a' : AsyncSt σ} (h : asyncLoop c n a = .ok a') :
    a'.res.initial = a.res.initial ∧ ∃ us : List Upd, (n ≠ 0 → us ≠ []) ∧
      a'.res.diffs = a.res.diffs ++ us.map fun u => some u.toProps := by
  induction n generalizing a with
  | zero =>
    simp only [asyncLoop, Except.ok.injEq] at h
    subst h
    exact ⟨rfl, [], by simp, by simp⟩
  | succ n ih =>
    rw [asyncLoop] at h
    obtain ⟨a1, h1, h⟩ := bind_ok h
    obtain ⟨hi, u, hu⟩ := asyncStep_diffs h1
    split at h
    · simp only [pure, Except.pure, Except.ok.injEq] at h
      subst h
      exact ⟨hi, [u], by simp, by simpa using hu⟩
    · obtain ⟨hi', us, -, hus⟩ := ih h
      exact ⟨hi'.trans hi, u :: us, by simp, by rw [hus, hu]; simp⟩

theorem parallelLoop_diffs {σ : Type} {c : Controller σ} {ids : List Key} {chunk : Nat} {sched : Nat → StepSched}
    {n k : Nat} {last : Option Props} {ws : Nat → Worker σ} {res res' : SimResult}
    (h : parallelLoop c ids chunk sched k n last ws res = .ok res') :
    res'.initial = res.initial ∧ ∃ us : List (Option Upd), us.length = n ∧
      res'.diffs = res.diffs ++ us.map fun u => u.map Upd.toProps := by
  induction n generalizing k last ws res with
  | zero =>
    simp only [parallelLoop, Except.ok.injEq] at h
    subst h
    exact ⟨rfl, [], rfl, by simp⟩
  | succ n ih =>
    rw [parallelLoop] at h
    obtain ⟨⟨ws1, u⟩, -, h⟩ := bind_ok h
    obtain ⟨h1, us, hus, h2⟩ := ih h
    refine ⟨h1, u :: us, by simp [hus], ?_⟩
    rw [h2]; simp [SimResult.addStep]

/-- C35 is false for every result of a run of at least one step, serial or asynchronous: reading it back raises
ValueError. -/
theorem C35_runner_false {σ : Type} (c : Controller σ) (st : σ) (s0 : SimState) (hw : s0.WF) (hn : s0.JsonNative)
    (n : Nat) (hn0 : n ≠ 0) :
    (∀ st' res, runSync c st s0 n = .ok (st', res) →
      ∃ j, (Val.dict res.asDict).json = .dict j ∧ SimResult.fromDict j = .error .valueError) ∧
    (∀ a, runAsync c st s0 n = .ok a →
      ∃ j, (Val.dict a.res.asDict).json = .dict j ∧ SimResult.fromDict j = .error .valueError) := by
  constructor
  · intro st' res h
    simp only [runSync] at h
    obtain ⟨⟨st1, s1⟩, -, h⟩ := bind_ok h
    obtain ⟨⟨st2, live, r⟩, hl, h⟩ := bind_ok h
    simp only [pure, Except.pure, Except.ok.injEq, Prod.mk.injEq] at h
    obtain ⟨-, rfl⟩ := h
    obtain ⟨hi, us, hus, hd⟩ := syncLoop_diffs hl
    have hi' : (r.setOutput live).initial = s0 := hi
    cases us with
    | nil => exact absurd hus.symm hn0
    | cons u us =>
      refine fromDict_first_diff _ (hi' ▸ hw) (hi' ▸ hn) u (us.map fun u => some u.toProps) ?_
      simpa [SimResult.new, SimResult.setOutput] using hd
  · intro a h
    simp only [runAsync, asyncRunFrom] at h
    obtain ⟨⟨st1, s1⟩, -, h⟩ := bind_ok h
    obtain ⟨a1, h1, h⟩ := bind_ok h
    obtain ⟨⟨st2, q⟩, -, h1⟩ := bind_ok h1
    split at h1
    · cases h1
    · obtain ⟨a2, h2, h1⟩ := bind_ok h1
      simp only [pure, Except.pure, Except.ok.injEq] at h h1
      subst h; subst h1
      obtain ⟨hi, us, hus, hd⟩ := asyncLoop_diffs h2
      cases us with
      | nil => exact absurd rfl (hus hn0)
      | cons u us =>
        have hi' : a2.res.initial = s0 := hi
        refine fromDict_first_diff _ (by exact hi' ▸ hw) (by exact hi' ▸ hn) u (us.map fun u => some u.toProps) ?_
        simpa [SimResult.new, SimResult.setOutput] using hd

/-- C35: also for parallel runs: ValueError, or AttributeError when the first step's rules all answered `None`. -/
theorem C35_parallel_false {σ : Type} (c : Controller σ) (fork : Nat → σ → σ) (st : σ) (s0 : SimState) (hw : s0.WF) (hn : s0.JsonNative)
    (w n : Nat) (hn0 : n ≠ 0) (sched : Nat → StepSched) (res : SimResult) (h : runParallel c fork st s0 w n sched = .ok res) :
    ∃ j, (Val.dict res.asDict).json = .dict j ∧
      (SimResult.fromDict j = .error .valueError ∨ SimResult.fromDict j = .error .attributeError) := by
  simp only [runParallel] at h
  obtain ⟨⟨st1, s1⟩, -, h⟩ := bind_ok h
  split at h
  · cases h
  · obtain ⟨r, hl, h⟩ := bind_ok h
    simp only [pure, Except.pure, Except.ok.injEq] at h
    subst h
    obtain ⟨hi, us, hus, hd⟩ := parallelLoop_diffs hl
    have hi' : (r.setOutput s1.copy).initial = s0 := hi
    cases us with
    | nil => exact absurd hus.symm hn0
    | cons u us =>
      cases u with
      | some u =>
        obtain ⟨j, hj, hf⟩ := fromDict_first_diff (r.setOutput s1.copy) (hi' ▸ hw) (hi' ▸ hn) u
          (us.map fun u => u.map Upd.toProps) (by simpa [SimResult.new, SimResult.setOutput] using hd)
        exact ⟨j, hj, .inl hf⟩
      | none =>
        obtain ⟨d, hd1, hd2⟩ := C10_round_trip s0 hw hn
        refine ⟨_, json_result _, .inr ?_⟩
        have hd' : (r.setOutput s1.copy).diffs = none :: us.map fun u => u.map Upd.toProps := by
          simpa [SimResult.new, SimResult.setOutput] using hd
        simp only [SimResult.fromDict, iterate, (getDiffs _ _ _).1, (getDiffs _ _ _).2, hi', hd1, hd2, ok_bind, hd', List.map_cons,
          List.foldlM_cons, SimResult.diffVal]
        simp [Val.json, SimResult.reformat]

/-- C35 is also false for hand-made diffs with a general part: it is dropped, so the reloaded result reports another
state. -/
theorem C35_general_false : ∃ (s0 s1 s1' : SimState) (r r' : SimResult) (j : Props),
    r = resultAfter s0 [.add (some [(GENERAL, .dict [(.str "t", .str "on")])])] ∧
    (Val.dict r.asDict).json = .dict j ∧ SimResult.fromDict j = .ok r' ∧
    r.getStep 1 = .ok s1 ∧ r'.getStep 1 = .ok s1' ∧
    s1.getGeneralState = some [(.str "t", .str "on")] ∧ s1'.getGeneralState = some [] :=
  ⟨.empty, ⟨[], some [(.str "t", .str "on")]⟩, .empty, _, ⟨.empty, [some []], [], none⟩, _, rfl, json_result _,
    by rfl, by rfl, by rfl, rfl, rfl⟩

end Pyl
