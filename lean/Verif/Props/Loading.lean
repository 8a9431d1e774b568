import Verif.Lemmas.Loading
import Verif.Props.Simulation
import Verif.Props.DoubleJson
/-
C128: which documents the `from_dict` methods accept, what comes of them, and which exception the others raise.
-/
set_option autoImplicit false

namespace Pyl
open Spec

/-! ### int() -/

/-- `int(text)` accepts exactly the literals and raises ValueError otherwise. -/
theorem C128_int (text : String) : (∀ i, (Key.str text).toInt = .ok i ↔ IntLiteral text i) ∧
    ((¬ ∃ i, IntLiteral text i) → (Key.str text).toInt = .error .valueError) :=
  ⟨toInt_str text, fun h => toInt_error fun i hi => h ⟨i, hi⟩⟩

example : IntLiteral " -1_20\n" (-120) := ⟨[' '], ['-'], [['1'], ['2', '0']], ['\n'], by decide, by decide, .inr (.inr rfl), by decide, by decide, by decide, by decide⟩
example : ¬ ∃ i, IntLiteral "GENERAL" i := by
  rintro ⟨i, h⟩
  have := (toInt_str _ _).2 h
  revert this
  have : (Key.str "GENERAL").toInt = .error .valueError := by decide +kernel
  rw [this]
  exact fun h => by cases h
example : ¬ ∃ i, IntLiteral "1__2" i := by
  rintro ⟨i, h⟩
  have := (toInt_str _ _).2 h
  revert this
  have : (Key.str "1__2").toInt = .error .valueError := by decide +kernel
  rw [this]
  exact fun h => by cases h

theorem general_no_int (i : ℤ) : ¬ Denotes GENERAL i := by
  intro h
  have h1 := (toInt_iff _ _).2 h
  have h2 : GENERAL.toInt = .error .valueError := by decide +kernel
  rw [h2] at h1
  cases h1

/-! ### States -/

/-- A document of the right shape loads.  Several keys may stand for the same site: the last of them decides. -/
theorem C128_state {d st sites : Props} (hp : StateParts d st sites) (hk : ∀ kv ∈ sites, ∃ i, Denotes kv.1 i) (hv : ∀ kv ∈ sites, ∃ p, kv.2 = .dict p)
    (hg : ∀ g, Dict.get? st (.str "GENERAL") = some g → ∃ p, g = .dict p) :
    ∃ s, SimState.fromDict d = .ok s ∧ (∀ k ∈ s.siteIds, ∃ i, k = .int i) ∧ s.siteIds.Nodup ∧
      (∀ i p, s.getSiteState (.int i) = some p ↔ LastEntry sites i (.dict p)) ∧
      ∀ p, s.getGeneralState = some p ↔ Dict.get? st (.str "GENERAL") = some (.dict p) := by
  obtain ⟨e, he, hwf, hint, hlast⟩ := intKeys_ok hk
  have hve : ∀ kv ∈ e, ∃ p, kv.2 = .dict p := by
    rintro ⟨k, v⟩ hkv
    have hkm : k ∈ Dict.keys e := List.mem_map.2 ⟨_, hkv, rfl⟩
    obtain ⟨i, rfl⟩ := hint _ hkm
    have := (hlast i v).1 (Dict.get?_of_mem hwf hkv)
    obtain ⟨b, k', a, rfl, -, -⟩ := this
    exact hv (k', v) (by simp)
  obtain ⟨ps, hps⟩ : ∃ ps : Dict Key Props, e = ps.map fun kp => (kp.1, .dict kp.2) := by
    clear * - hve
    induction e with
    | nil => exact ⟨[], rfl⟩
    | cons a e ih =>
      obtain ⟨ps, rfl⟩ := ih fun kv hkv => hve kv (by simp [hkv])
      obtain ⟨p, hp⟩ := hve a (by simp)
      exact ⟨(a.1, p) :: ps, by simp [← hp]⟩
  have hm : (e.mapM fun kv => (do pure (kv.1, ← SimState.asProps kv.2) : Py (Key × Props))) = .ok ps := by
    rw [hps]
    clear * -
    induction ps with
    | nil => rfl
    | cons a ps ih => rw [List.map_cons, List.mapM_cons, ih]; rfl
  have hkeys : Dict.keys e = Dict.keys ps := by rw [hps]; simp [Dict.keys, Function.comp_def]
  have hget : ∀ (k : Key) (p : Props), Dict.get? ps k = some p ↔ Dict.get? e k = some (.dict p) := by
    intro k p
    rw [hps]
    clear * -
    induction ps with
    | nil => simp
    | cons a ps ih =>
      rw [List.map_cons, Dict.get?_cons, Dict.get?_cons]
      by_cases h : a.1 = k
      · rw [if_pos h, if_pos h]; simp
      · rw [if_neg h, if_neg h]; exact ih
  have hbase : SimState.fromDict d = match Dict.get? st GENERAL with
      | none => .ok ⟨ps, none⟩
      | some g => (do pure ⟨ps, some (← SimState.asProps g)⟩) := by
    simp only [SimState.fromDict, hp.1, hp.2, he, hm, ok_bind]
    rfl
  have hrest : ∀ g : Option Props, (∀ k ∈ SimState.siteIds ⟨ps, g⟩, ∃ i, k = Key.int i) ∧ (SimState.siteIds ⟨ps, g⟩).Nodup ∧
      ∀ i p, SimState.getSiteState ⟨ps, g⟩ (.int i) = some p ↔ LastEntry sites i (.dict p) := by
    intro g
    refine ⟨fun k hk' => hint k (by rw [hkeys]; exact hk'), ?_, fun i p => ?_⟩
    · show (Dict.keys ps).Nodup
      rw [← hkeys]; exact hwf
    · exact (hget _ _).trans (hlast i _)
  cases hgen : Dict.get? st GENERAL with
  | none =>
    refine ⟨⟨ps, none⟩, by rw [hbase, hgen], (hrest _).1, (hrest _).2.1, (hrest _).2.2, fun p => ?_⟩
    show none = some p ↔ Dict.get? st GENERAL = some (.dict p)
    rw [hgen]; simp
  | some g =>
    obtain ⟨q, rfl⟩ := hg g hgen
    refine ⟨⟨ps, some q⟩, by rw [hbase, hgen]; rfl, (hrest _).1, (hrest _).2.1, (hrest _).2.2, fun p => ?_⟩
    show some q = some p ↔ Dict.get? st GENERAL = some (.dict p)
    rw [hgen]; simp

/-- What the other documents raise. -/
theorem C128_state_errors (d : Props) :
    (Dict.get? d (.str "state") = none → SimState.fromDict d = .error .keyError) ∧
    (∀ v, Dict.get? d (.str "state") = some v → (∀ st, v ≠ .dict st) → SimState.fromDict d = .error .typeError) ∧
    (∀ st, Dict.get? d (.str "state") = some (.dict st) → Dict.get? st (.str "SITES") = none → SimState.fromDict d = .error .keyError) ∧
    (∀ st v, Dict.get? d (.str "state") = some (.dict st) → Dict.get? st (.str "SITES") = some v → (∀ l, v ≠ .dict l) →
      SimState.fromDict d = .error .attributeError) ∧
    ∀ st sites, StateParts d st sites → (∃ kv ∈ sites, ¬ ∃ i, Denotes kv.1 i) → SimState.fromDict d = .error .valueError := by
  refine ⟨fun h => ?_, fun v h hv => ?_, fun st h1 h2 => ?_, fun st v h1 h2 hv => ?_, fun st sites hp hk => ?_⟩
  · simp only [SimState.fromDict, h]
  · cases v <;> first | exact absurd rfl (hv _) | simp only [SimState.fromDict, h]
  · have h2' : Dict.get? st SITES = none := h2
    simp only [SimState.fromDict, h1, h2']
  · have h2' : Dict.get? st SITES = some v := h2
    cases v <;> first | exact absurd rfl (hv _) | simp only [SimState.fromDict, h1, h2']
  · obtain ⟨kv, h1, h2⟩ := hk
    simp only [SimState.fromDict, hp.1, hp.2, intKeys_error ⟨kv, h1, fun i hi => h2 ⟨i, hi⟩⟩]
    rfl

/-- Two keys for site 1: the last entry counts. -/
example : ∃ (d st sites : Props), StateParts d st sites ∧ (∀ kv ∈ sites, ∃ i, Denotes kv.1 i) ∧ (∀ kv ∈ sites, ∃ p, kv.2 = Val.dict p) ∧
    LastEntry sites 1 (.dict [(.str "a", .num 2)]) := by
  have h1 : Denotes (.str "1") 1 := (toInt_iff _ _).1 (by decide +kernel)
  have h2 : Denotes (.str "+01") 1 := (toInt_iff _ _).1 (by decide +kernel)
  refine ⟨[(.str "state", .dict [(.str "SITES", .dict [(.str "1", .dict []), (.str "+01", .dict [(.str "a", .num 2)])])])], _, _, ⟨rfl, rfl⟩, ?_, ?_,
    [(.str "1", .dict [])], .str "+01", [], rfl, h2, by simp⟩
  · intro kv hkv
    simp only [List.mem_cons, List.not_mem_nil, or_false] at hkv
    rcases hkv with rfl | rfl
    exacts [⟨1, h1⟩, ⟨1, h2⟩]
  · intro kv hkv
    simp only [List.mem_cons, List.not_mem_nil, or_false] at hkv
    rcases hkv with rfl | rfl
    exacts [⟨_, rfl⟩, ⟨_, rfl⟩]

/-! ### Results -/

theorem lastEntry_filter (d : Props) (i : ℤ) (v : Val) : LastEntry (d.filter fun kv => kv.1 ≠ GENERAL) i v ↔ LastEntry d i v := by
  constructor
  · rintro ⟨b, k, a, h, h1, h2⟩
    have := List.filter_eq_append_iff.1 h
    obtain ⟨l1, l2, rfl, rfl, h3⟩ := this
    obtain ⟨m1, m2, rfl, hm1, -, rfl⟩ := List.filter_eq_cons_iff.1 h3
    refine ⟨l1 ++ m1, k, m2, by simp, h1, fun kv hkv hd => ?_⟩
    refine h2 kv (List.mem_filter.2 ⟨hkv, ?_⟩) hd
    rw [decide_eq_true_eq]
    intro e
    rw [e] at hd
    exact general_no_int i hd
  · rintro ⟨b, k, a, rfl, h1, h2⟩
    have hk : k ≠ GENERAL := fun e => general_no_int i (e ▸ h1)
    refine ⟨b.filter fun kv => kv.1 ≠ GENERAL, k, a.filter fun kv => kv.1 ≠ GENERAL, ?_, h1, fun kv hkv => h2 kv (List.mem_filter.1 hkv).1⟩
    rw [List.filter_append, List.filter_cons_of_pos (by simpa using hk)]

theorem reformat_ok {d : Props} (h : ∀ kv ∈ d, kv.1 = GENERAL ∨ ∃ i, Denotes kv.1 i) : ∃ e, SimResult.reformat (.dict d) = .ok e ∧
    (∀ k ∈ Dict.keys e, ∃ i, k = .int i) ∧ ∀ i v, Dict.get? e (.int i) = some v ↔ LastEntry d i v := by
  obtain ⟨e, h1, -, h2, h3⟩ := intKeys_ok (d := d.filter fun kv => kv.1 ≠ GENERAL) (fun kv hkv => by
    obtain ⟨h4, h5⟩ := List.mem_filter.1 hkv
    rcases h kv h4 with h6 | h6
    · simp [h6] at h5
    · exact h6)
  exact ⟨e, h1, h2, fun i v => (h3 i v).trans (lastEntry_filter d i v)⟩

/-- The steps added for documents that all load. -/
theorem foldlM_reformat {ds : List Props} (h : ∀ d ∈ ds, ∀ kv ∈ d, kv.1 = GENERAL ∨ ∃ i, Denotes kv.1 i) (r : SimResult) :
    ∃ es : List Props, (ds.map Val.dict).foldlM (fun r v => (do pure (r.addStep (some (← SimResult.reformat v))) : Py SimResult)) r =
        .ok { r with diffs := r.diffs ++ es.map some } ∧
      List.Forall₂ (fun d e => (∀ k ∈ Dict.keys e, ∃ i, k = Key.int i) ∧ ∀ i v, Dict.get? e (.int i) = some v ↔ LastEntry d i v) ds es := by
  induction ds generalizing r with
  | nil => exact ⟨[], by simp [pure, Except.pure], .nil⟩
  | cons d ds ih =>
    obtain ⟨e, h1, h2⟩ := reformat_ok (h d (by simp))
    obtain ⟨es, h3, h4⟩ := ih (fun x hx => h x (by simp [hx])) (r.addStep (some e))
    refine ⟨e :: es, ?_, .cons h2 h4⟩
    rw [List.map_cons, List.foldlM_cons, h1, ok_bind]
    refine h3.trans ?_
    simp [SimResult.addStep]

/-- A document of the right shape loads: the initial state is the loaded one, and every diff becomes the dict of its site entries with
int ids, without its `GENERAL` entry. -/
theorem C128_result {d st : Props} {s : SimState} {ds : List Props} (h1 : Dict.get? d (.str "initial_state") = some (.dict st))
    (h2 : SimState.fromDict st = .ok s)
    (h3 : Dict.get? d (.str "diffs") = some (.list (ds.map .dict)) ∨ Dict.get? d (.str "diffs") = some (.tup (ds.map .dict)))
    (h4 : ∀ diff ∈ ds, ∀ kv ∈ diff, kv.1 = .str "GENERAL" ∨ ∃ i, Denotes kv.1 i) :
    ∃ r es, SimResult.fromDict d = .ok r ∧ r.initial = s ∧ r.output = none ∧ r.diffs = es.map some ∧
      List.Forall₂ (fun diff e => (∀ k ∈ Dict.keys e, ∃ i, k = Key.int i) ∧ ∀ i v, Dict.get? e (.int i) = some v ↔ LastEntry diff i v) ds es := by
  obtain ⟨es, h5, h6⟩ := foldlM_reformat h4 (SimResult.new s)
  refine ⟨{ SimResult.new s with diffs := es.map some }, es, ?_, rfl, rfl, rfl, h6⟩
  rcases h3 with h3 | h3 <;> (simp only [SimResult.fromDict, h1, h3, h2, SimResult.iterate, ok_bind]; exact h5)

/-- What the other documents raise.  Of the diffs, the first bad one decides. -/
theorem C128_result_errors (d : Props) :
    (Dict.get? d (.str "diffs") = none → SimResult.fromDict d = .error .keyError) ∧
    (Dict.get? d (.str "initial_state") = none → SimResult.fromDict d = .error .keyError) ∧
    (∀ v w, Dict.get? d (.str "diffs") = some w → Dict.get? d (.str "initial_state") = some v → (∀ st, v ≠ .dict st) →
      SimResult.fromDict d = .error .typeError) ∧
    (∀ st w e, Dict.get? d (.str "diffs") = some w → Dict.get? d (.str "initial_state") = some (.dict st) → SimState.fromDict st = .error e →
      SimResult.fromDict d = .error e) ∧
    (∀ st s w, Dict.get? d (.str "initial_state") = some (.dict st) → SimState.fromDict st = .ok s → Dict.get? d (.str "diffs") = some w →
      (w = .pyNone ∨ ∃ q, w = .num q) → SimResult.fromDict d = .error .typeError) ∧
    (∀ st s kv entries, Dict.get? d (.str "initial_state") = some (.dict st) → SimState.fromDict st = .ok s →
      Dict.get? d (.str "diffs") = some (.dict (kv :: entries)) → SimResult.fromDict d = .error .attributeError) ∧
    (∀ st s (ds : List Props) bad rest, Dict.get? d (.str "initial_state") = some (.dict st) → SimState.fromDict st = .ok s →
      Dict.get? d (.str "diffs") = some (.list (ds.map .dict ++ bad :: rest)) → (∀ diff ∈ ds, ∀ kv ∈ diff, kv.1 = .str "GENERAL" ∨ ∃ i, Denotes kv.1 i) →
      ((∀ p, bad ≠ .dict p) → SimResult.fromDict d = .error .attributeError) ∧
      (∀ p, bad = .dict p → (∃ kv ∈ p, kv.1 ≠ .str "GENERAL" ∧ ¬ ∃ i, Denotes kv.1 i) → SimResult.fromDict d = .error .valueError)) := by
  refine ⟨fun h => ?_, fun h => ?_, fun v w h1 h2 hv => ?_, fun st w e h1 h2 h3 => ?_, fun st s w h1 h2 h3 h4 => ?_,
    fun st s kv entries h1 h2 h3 => ?_, fun st s ds bad rest h1 h2 h3 h4 => ?_⟩
  · simp only [SimResult.fromDict, h]
  · simp only [SimResult.fromDict, h]
    cases Dict.get? d (.str "diffs") <;> rfl
  · cases v <;> first | exact absurd rfl (hv _) | simp only [SimResult.fromDict, h1, h2]
  · simp only [SimResult.fromDict, h1, h2, h3]; rfl
  · rcases h4 with rfl | ⟨q, rfl⟩ <;> (simp only [SimResult.fromDict, h1, h2, h3, SimResult.iterate, ok_bind]; rfl)
  · simp only [SimResult.fromDict, h1, h2, h3, SimResult.iterate, ok_bind, List.map_cons, List.foldlM_cons]
    cases kv.1 <;> rfl
  · obtain ⟨es, h5, -⟩ := foldlM_reformat h4 (SimResult.new s)
    have h6 : ∀ e, SimResult.reformat bad = .error e → SimResult.fromDict d = .error e := by
      intro e he
      simp only [SimResult.fromDict, h1, h2, h3, SimResult.iterate, ok_bind]
      rw [List.foldlM_append, h5, ok_bind, List.foldlM_cons, he]
      rfl
    refine ⟨fun hb => h6 _ ?_, fun p hb hk => h6 _ ?_⟩
    · cases bad <;> first | exact absurd rfl (hb _) | rfl
    · subst hb
      obtain ⟨kv, h7, h8, h9⟩ := hk
      exact intKeys_error ⟨kv, List.mem_filter.2 ⟨h7, decide_eq_true h8⟩, fun i hi => h9 ⟨i, hi⟩⟩

/-- A document with two diffs, the second with a `GENERAL` entry. -/
example : ∃ (st : Props) (s : SimState) (ds : List Props), SimState.fromDict st = .ok s ∧ ds.length = 2 ∧
    ∀ diff ∈ ds, ∀ kv ∈ diff, kv.1 = .str "GENERAL" ∨ ∃ i, Denotes kv.1 i := by
  have h1 : Denotes (.str "7") 7 := (toInt_iff _ _).1 (by decide +kernel)
  refine ⟨[(.str "state", .dict [(.str "SITES", .dict [])])], ⟨[], none⟩, [[(.str "7", .dict [])], [(.str "GENERAL", .dict []), (.int 3, .dict [])]], rfl, rfl, ?_⟩
  intro diff hd kv hkv
  simp only [List.mem_cons, List.not_mem_nil, or_false] at hd
  rcases hd with rfl | rfl <;> simp only [List.mem_cons, List.not_mem_nil, or_false] at hkv
  · subst hkv; exact .inr ⟨7, h1⟩
  · rcases hkv with rfl | rfl
    exacts [.inl rfl, .inr ⟨3, rfl⟩]

/-! ### Structures -/

theorem readSite_of {d : ℕ} {v : Val} {name : String} {loc : Fin d → ℚ} (h : SiteDoc v name loc) : Structure.readSite d v = .ok (name, loc) := by
  obtain ⟨t, rfl, h1, h2⟩ := h
  have h1' : Dict.get? t Structure.SITE_CLASS = some (.str name) := h1
  have hn : (List.ofFn fun i => Val.num (loc i)).mapM Val.toNum = .ok (List.ofFn loc) := by
    have := mapM_ok (f := Val.toNum) (g := fun v => match v with | .num q => q | _ => 0) (List.ofFn fun i => Val.num (loc i)) (by
      intro a ha
      obtain ⟨i, rfl⟩ := List.mem_ofFn.1 ha
      rfl)
    rw [this, List.map_ofFn]
    rfl
  have hlen : (List.ofFn loc).length = d := List.length_ofFn
  have hfin : (if h : (List.ofFn loc).length = d then (pure (name, fun i => (List.ofFn loc).get (i.cast h.symm)) : Py (String × (Fin d → ℚ)))
      else .error .valueError) = .ok (name, loc) := by
    rw [dif_pos hlen]
    congr 1
    congr 1
    funext i
    simp
  rcases h2 with h2 | h2
  · have h2' : Dict.get? t Structure.LOCATION = some (.list (List.ofFn fun i => .num (loc i))) := h2
    simp only [Structure.readSite, h1', h2', Val.toItems, ok_bind, hn]
    exact hfin
  · have h2' : Dict.get? t Structure.LOCATION = some (.tup (List.ofFn fun i => .num (loc i))) := h2
    simp only [Structure.readSite, h1', h2', Val.toItems, ok_bind, hn]
    exact hfin

theorem intKeys_distinct {d : Props} {ids : List ℤ} (h : List.Forall₂ (fun kv i => Denotes kv.1 i) d ids) (hn : ids.Nodup) :
    ∃ e : Props, intKeys d = .ok e ∧ e.map Prod.snd = d.map Prod.snd := by
  have h1 : ∃ l : List (Key × Val), (d.mapM fun kv => (do pure (Key.int (← kv.1.toInt), kv.2) : Py (Key × Val))) = .ok l ∧
      l.map Prod.fst = ids.map Key.int ∧ l.map Prod.snd = d.map Prod.snd := by
    clear hn
    induction h with
    | nil => exact ⟨[], rfl, rfl, rfl⟩
    | @cons kv i d ids h1 _ ih =>
      obtain ⟨l, h2, h3, h4⟩ := ih
      exact ⟨(.int i, kv.2) :: l, by rw [List.mapM_cons, (toInt_iff _ _).2 h1, h2]; rfl, by simp [h3], by simp [h4]⟩
  obtain ⟨l, h2, h3, h4⟩ := h1
  refine ⟨l, ?_, h4⟩
  rw [intKeys, h2, ok_bind, ofPairs_of_nodup]
  · rfl
  · show (l.map Prod.fst).Nodup
    rw [h3]
    exact hn.map fun a b e => by injection e

theorem fromDictWith_sites {add : ∀ d, Structure ℚ d → String × (Fin d → ℚ) → Py (Structure ℚ d)} {dct l sites : Props} {d : ℕ} {L : Lattice ℚ d}
    {ids : List ℤ} {pts : List (String × (Fin d → ℚ))}
    (h1 : Dict.get? dct (.str "lattice") = some (.dict l)) (h2 : Lattice.fromDict l = .ok ⟨d, L⟩) (h3 : Dict.get? dct (.str "_sites") = some (.dict sites))
    (h4 : List.Forall₂ (fun kv i => Denotes kv.1 i) sites ids) (h5 : ids.Nodup) (h6 : List.Forall₂ (fun kv p => SiteDoc kv.2 p.1 p.2) sites pts) :
    Dbl.fromDictWith add dct = match pts.foldlM (add d) (Structure.new L) with
      | .ok s => .ok ⟨d, s⟩
      | .error e => .error e := by
  obtain ⟨e, he, hsnd⟩ := intKeys_distinct h4 h5
  have hf : ∀ s : Structure ℚ d, e.foldlM (fun s kv => (do add d s (← Structure.readSite d kv.2) : Py (Structure ℚ d))) s = pts.foldlM (add d) s := by
    have h7 : List.Forall₂ (fun (kv : Key × Val) (p : String × (Fin d → ℚ)) => SiteDoc kv.2 p.1 p.2) e pts := by
      have h8 : List.Forall₂ (fun (v : Val) (p : String × (Fin d → ℚ)) => SiteDoc v p.1 p.2) (sites.map Prod.snd) pts := by
        rw [List.forall₂_map_left_iff]; exact h6
      rw [← hsnd, List.forall₂_map_left_iff] at h8
      exact h8
    clear * - h7
    induction h7 with
    | nil => intro s; rfl
    | cons h1 _ ih =>
      intro s
      rw [List.foldlM_cons, List.foldlM_cons, readSite_of h1, ok_bind]
      cases add d s _ with
      | error x => rfl
      | ok s' => exact ih s'
  simp only [Dbl.fromDictWith, h1, h3, h2, he, ok_bind, hf]
  cases pts.foldlM (add d) (Structure.new L) <;> rfl

theorem fromDict_eq_with (dct : Props) : Structure.fromDict dct = Dbl.fromDictWith (fun _ => Structure.addOrRaise) dct := rfl

theorem foldlM_adds {d : ℕ} (pts : List (String × (Fin d → ℚ))) (S T : Structure ℚ d) : pts.foldlM Structure.addOrRaise S = .ok T ↔ Adds S pts T := by
  induction pts generalizing S with
  | nil =>
    constructor
    · intro h
      have : S = T := by simpa [pure, Except.pure] using h
      subst this; exact .nil S
    · intro h; cases h; rfl
  | cons p pts ih =>
    obtain ⟨name, loc⟩ := p
    rw [List.foldlM_cons]
    constructor
    · intro h
      obtain ⟨S', h1, h2⟩ := bind_ok h
      unfold Structure.addOrRaise at h1
      split at h1
      · rename_i s' i hs
        injection h1 with h1
        subst h1
        exact .cons hs ((ih _).1 h2)
      · cases h1
    · intro h
      cases h with
      | @cons _ S' _ _ _ _ _ h1 h2 =>
        have : Structure.addOrRaise S (name, loc) = .ok S' := by unfold Structure.addOrRaise; rw [h1]
        rw [this, ok_bind]
        exact (ih _).2 h2

/-- A document of the right shape, all ids different: it loads iff the sites can be added to the empty structure one after the other, and the
loaded structure is what comes of that.  The ids in the document do not matter. -/
theorem C128_structure {dct l sites : Props} {d : ℕ} {L : Lattice ℚ d} {ids : List ℤ} {pts : List (String × (Fin d → ℚ))}
    (h1 : Dict.get? dct (.str "lattice") = some (.dict l)) (h2 : Lattice.fromDict l = .ok ⟨d, L⟩) (h3 : Dict.get? dct (.str "_sites") = some (.dict sites))
    (h4 : List.Forall₂ (fun kv i => Denotes kv.1 i) sites ids) (h5 : ids.Nodup) (h6 : List.Forall₂ (fun kv p => SiteDoc kv.2 p.1 p.2) sites pts) :
    (∀ T, Structure.fromDict dct = .ok ⟨d, T⟩ ↔ Adds (Structure.new L) pts T) ∧
    ((¬ ∃ T, Adds (Structure.new L) pts T) → Structure.fromDict dct = .error .assertionError) := by
  rw [fromDict_eq_with, fromDictWith_sites h1 h2 h3 h4 h5 h6]
  have hb : Structure.new L = Structure.built L [] := rfl
  have hd0 : Structure.Distinct L [] := by simp [Structure.Distinct]
  obtain ⟨hyes, hno⟩ := Structure.foldlM_addOrRaise pts [] hd0
  constructor
  · intro T
    rw [← foldlM_adds]
    cases pts.foldlM Structure.addOrRaise (Structure.new L) with
    | error e => constructor <;> intro h <;> cases h
    | ok s =>
      constructor
      · intro h; injection h with h; injection h with _ h; rw [h]
      · intro h; injection h with h; rw [h]
  · intro h
    have : ¬ Structure.Distinct L ([] ++ pts) := fun hd => h ⟨_, (foldlM_adds _ _ _).1 (hyes hd)⟩
    have h7 := hno this
    rw [← hb] at h7
    rw [h7]

/-- A document of a structure with two sites on a chain. -/
example : ∃ (dct l sites : Props) (L : Lattice ℚ 1) (ids : List ℤ) (pts : List (String × (Fin 1 → ℚ))),
    Dict.get? dct (.str "lattice") = some (.dict l) ∧ Lattice.fromDict l = .ok ⟨1, L⟩ ∧ Dict.get? dct (.str "_sites") = some (.dict sites) ∧
    List.Forall₂ (fun kv i => Denotes kv.1 i) sites ids ∧ ids.Nodup ∧ List.Forall₂ (fun kv p => SiteDoc kv.2 p.1 p.2) sites pts ∧ pts.length = 2 := by
  have h1 : Denotes (.str "1") 1 := (toInt_iff _ _).1 (by decide +kernel)
  have h2 : Denotes (.str "0") 0 := (toInt_iff _ _).1 (by decide +kernel)
  refine ⟨[(.str "lattice", .dict (Lattice.asDict ⟨fun _ _ => 2, fun _ => true⟩)), (.str "_sites",
      .dict [(.str "1", .dict [(.str "_site_class", .str "A"), (.str "_location", .list [.num 0])]),
        (.str "0", .dict [(.str "_site_class", .str "B"), (.str "_location", .tup [.num 1])])])], _, _, ⟨fun _ _ => 2, fun _ => true⟩, [1, 0],
      [("A", fun _ => 0), ("B", fun _ => 1)], rfl, (Lattice.C42_round_trip (by decide) _).1, rfl, .cons h1 (.cons h2 .nil), by decide, ?_, rfl⟩
  refine .cons ⟨_, rfl, rfl, .inl ?_⟩ (.cons ⟨_, rfl, rfl, .inr ?_⟩ .nil) <;> simp [Dict.get?]

/-- The same for any `add_site`, in particular the one in double precision. -/
theorem C128_structure_double (A : ∀ d, Dbl.Arith d) {dct l sites : Props} {d : ℕ} {L : Lattice ℚ d} {ids : List ℤ} {pts : List (String × (Fin d → ℚ))}
    (h1 : Dict.get? dct (.str "lattice") = some (.dict l)) (h2 : Lattice.fromDict l = .ok ⟨d, L⟩) (h3 : Dict.get? dct (.str "_sites") = some (.dict sites))
    (h4 : List.Forall₂ (fun kv i => Denotes kv.1 i) sites ids) (h5 : ids.Nodup) (h6 : List.Forall₂ (fun kv p => SiteDoc kv.2 p.1 p.2) sites pts) :
    (∀ T, Dbl.Arith.fromDict A dct = .ok ⟨d, T⟩ ↔ pts.foldlM (A d).addOrRaise (Structure.new L) = .ok T) ∧
    ∀ e, pts.foldlM (A d).addOrRaise (Structure.new L) = .error e → Dbl.Arith.fromDict A dct = .error e := by
  rw [Dbl.Arith.fromDict, fromDictWith_sites h1 h2 h3 h4 h5 h6]
  cases pts.foldlM (A d).addOrRaise (Structure.new L) with
  | error e =>
    refine ⟨fun T => ⟨(fun h => by cases h), (fun h => by cases h)⟩, fun e' h => ?_⟩
    injection h with h; rw [h]
  | ok s =>
    refine ⟨fun T => ⟨fun h => ?_, fun h => ?_⟩, fun e' h => by cases h⟩
    · injection h with h; injection h with _ h; rw [h]
    · injection h with h; rw [h]

theorem fromDictWith_errors (add : ∀ d, Structure ℚ d → String × (Fin d → ℚ) → Py (Structure ℚ d)) (dct : Props) :
    (Dict.get? dct (.str "lattice") = none → Dbl.fromDictWith add dct = .error .keyError) ∧
    (∀ v, Dict.get? dct (.str "lattice") = some v → (∀ l, v ≠ .dict l) → Dbl.fromDictWith add dct = .error .typeError) ∧
    (∀ l, Dict.get? dct (.str "lattice") = some (.dict l) → (Dict.get? l (.str "vectors") = none ∨ Dict.get? l (.str "periodic") = none) →
      Dbl.fromDictWith add dct = .error .keyError) ∧
    (∀ l e, Dict.get? dct (.str "lattice") = some (.dict l) → Lattice.fromDict l = .error e → Dbl.fromDictWith add dct = .error e) ∧
    (∀ l L, Dict.get? dct (.str "lattice") = some (.dict l) → Lattice.fromDict l = .ok L →
      (Dict.get? dct (.str "_sites") = none → Dbl.fromDictWith add dct = .error .keyError) ∧
      (∀ v, Dict.get? dct (.str "_sites") = some v → (∀ t, v ≠ .dict t) → Dbl.fromDictWith add dct = .error .attributeError) ∧
      (∀ sites, Dict.get? dct (.str "_sites") = some (.dict sites) → (∃ kv ∈ sites, ¬ ∃ i, Denotes kv.1 i) →
        Dbl.fromDictWith add dct = .error .valueError) ∧
      (∀ k t rest i, Dict.get? dct (.str "_sites") = some (.dict ((k, .dict t) :: rest)) → Denotes k i → (∀ kv ∈ rest, ∃ j, Denotes kv.1 j ∧ j ≠ i) →
        (Dict.get? t (.str "_site_class") = none ∨ Dict.get? t (.str "_location") = none) → Dbl.fromDictWith add dct = .error .keyError)) := by
  refine ⟨fun h => ?_, fun v h hv => ?_, fun l h1 h2 => ?_, fun l e h1 h2 => ?_, fun l L h1 h2 => ⟨fun h => ?_, fun v h hv => ?_, fun sites h hk => ?_,
    fun k t rest i h hi hr hm => ?_⟩⟩
  · simp only [Dbl.fromDictWith, h]
  · cases v <;> first | exact absurd rfl (hv _) | simp only [Dbl.fromDictWith, h]
  · have : Lattice.fromDict l = .error .keyError := by
      unfold Lattice.fromDict
      rcases h2 with h2 | h2
      · rw [h2]
      · rw [h2]; cases Dict.get? l (.str "vectors") <;> rfl
    simp only [Dbl.fromDictWith, h1, this]; rfl
  · simp only [Dbl.fromDictWith, h1, h2]; rfl
  · simp only [Dbl.fromDictWith, h1, h2, h, ok_bind]
  · cases v <;> first | exact absurd rfl (hv _) | simp only [Dbl.fromDictWith, h1, h2, h, ok_bind]
  · obtain ⟨kv, h3, h4⟩ := hk
    simp only [Dbl.fromDictWith, h1, h2, h, ok_bind, intKeys_error ⟨kv, h3, fun i hi => h4 ⟨i, hi⟩⟩]
    rfl
  · have hread : Structure.readSite L.1 (.dict t) = .error .keyError := by
      simp only [Structure.readSite]
      rcases hm with hm | hm
      · have hm' : Dict.get? t Structure.SITE_CLASS = none := hm
        rw [hm']
      · have hm' : Dict.get? t Structure.LOCATION = none := hm
        rw [hm']
        rcases Dict.get? t Structure.SITE_CLASS with _ | v
        · rfl
        · cases v <;> rfl
    obtain ⟨e, he⟩ : ∃ e : Props, intKeys ((k, .dict t) :: rest) = .ok ((.int i, .dict t) :: e) := by
      have hex : ∃ l : List (Key × Val), (rest.mapM fun kv => (do pure (Key.int (← kv.1.toInt), kv.2) : Py (Key × Val))) = .ok l ∧
          ∀ kv ∈ l, kv.1 ≠ .int i := by
        clear * - hr
        induction rest with
        | nil => exact ⟨[], rfl, by simp⟩
        | cons a rest ih =>
          obtain ⟨j, hj, hne⟩ := hr a (by simp)
          obtain ⟨l, h1, h2⟩ := ih fun kv hkv => hr kv (by simp [hkv])
          refine ⟨(.int j, a.2) :: l, by rw [List.mapM_cons, (toInt_iff _ _).2 hj, h1]; rfl, fun kv hkv => ?_⟩
          rcases List.mem_cons.1 hkv with rfl | hkv
          · intro e; injection e with e; exact hne e
          · exact h2 kv hkv
      obtain ⟨m, hm1, hm2⟩ := hex
      have hof : ∀ (m : List (Key × Val)) (acc : Dict Key Val), (∀ kv ∈ m, kv.1 ≠ Key.int i) → ∃ e, Dict.update ((Key.int i, Val.dict t) :: acc) m = (Key.int i, Val.dict t) :: e := by
        intro m
        induction m with
        | nil => intro acc _; exact ⟨acc, rfl⟩
        | cons a m ih =>
          intro acc hne
          have h1 : Dict.set ((Key.int i, Val.dict t) :: acc) a.1 a.2 = (Key.int i, Val.dict t) :: Dict.set acc a.1 a.2 := by
            rw [Dict.set, if_neg (fun e => hne a (by simp) e.symm)]
          obtain ⟨e, he⟩ := ih (Dict.set acc a.1 a.2) fun kv hkv => hne kv (by simp [hkv])
          refine ⟨e, ?_⟩
          rw [← he, ← h1]
          rfl
      obtain ⟨e, he⟩ := hof m [] hm2
      refine ⟨e, ?_⟩
      rw [intKeys, List.mapM_cons, (toInt_iff _ _).2 hi, hm1]
      show Except.ok (Dict.update (Dict.set [] (Key.int i) (Val.dict t)) m) = _
      rw [← he]
      rfl
    simp only [Dbl.fromDictWith, h1, h2, h, ok_bind, he, List.foldlM_cons, hread]
    rfl

/-- What the other documents raise, in exact arithmetic and in double precision. -/
theorem C128_structure_errors (A : ∀ d, Dbl.Arith d) (read : Props → Py (Σ d, Structure ℚ d)) (hread : read = Structure.fromDict ∨ read = Dbl.Arith.fromDict A) (dct : Props) :
    (Dict.get? dct (.str "lattice") = none → read dct = .error .keyError) ∧
    (∀ v, Dict.get? dct (.str "lattice") = some v → (∀ l, v ≠ .dict l) → read dct = .error .typeError) ∧
    (∀ l, Dict.get? dct (.str "lattice") = some (.dict l) → (Dict.get? l (.str "vectors") = none ∨ Dict.get? l (.str "periodic") = none) →
      read dct = .error .keyError) ∧
    (∀ l e, Dict.get? dct (.str "lattice") = some (.dict l) → Lattice.fromDict l = .error e → read dct = .error e) ∧
    (∀ l L, Dict.get? dct (.str "lattice") = some (.dict l) → Lattice.fromDict l = .ok L →
      (Dict.get? dct (.str "_sites") = none → read dct = .error .keyError) ∧
      (∀ v, Dict.get? dct (.str "_sites") = some v → (∀ t, v ≠ .dict t) → read dct = .error .attributeError) ∧
      (∀ sites, Dict.get? dct (.str "_sites") = some (.dict sites) → (∃ kv ∈ sites, ¬ ∃ i, Denotes kv.1 i) → read dct = .error .valueError) ∧
      (∀ k t rest i, Dict.get? dct (.str "_sites") = some (.dict ((k, .dict t) :: rest)) → Denotes k i → (∀ kv ∈ rest, ∃ j, Denotes kv.1 j ∧ j ≠ i) →
        (Dict.get? t (.str "_site_class") = none ∨ Dict.get? t (.str "_location") = none) → read dct = .error .keyError)) := by
  rcases hread with rfl | rfl
  · exact fromDictWith_errors (fun _ => Structure.addOrRaise) dct
  · exact fromDictWith_errors (fun d => (A d).addOrRaise) dct

/-! ### Simulations -/

/-- A simulation loads iff its state and its structure do, and what is loaded is the two of them. -/
theorem C128_simulation (read : Props → Py (Σ d, Structure ℚ d)) (dct : Props) (d : ℕ) (sim : Simulation ℚ d) :
    Dbl.simFromDict read dct = .ok ⟨d, sim⟩ ↔ ∃ st sd, Dict.get? dct (.str "state") = some (.dict st) ∧
      Dict.get? dct (.str "structure") = some (.dict sd) ∧ SimState.fromDict st = .ok sim.state ∧ read sd = .ok ⟨d, sim.struct⟩ := by
  constructor
  · intro h
    unfold Dbl.simFromDict at h
    split at h
    · rename_i st h1
      obtain ⟨s, h2, h⟩ := bind_ok h
      split at h
      · rename_i sd h3
        obtain ⟨S, h4, h⟩ := bind_ok h
        injection h with h
        obtain ⟨d', S⟩ := S
        injection h with e h
        subst e
        have h := eq_of_heq h
        subst h
        exact ⟨st, sd, h1, h3, h2, h4⟩
      · cases h
      · cases h
    · cases h
    · cases h
  · rintro ⟨st, sd, h1, h2, h3, h4⟩
    simp only [Dbl.simFromDict, h1, h2, h3, h4, ok_bind]
    rfl

/-- The simulations of the exact model are read by the same function. -/
theorem C128_simulation_exact : Simulation.fromDict = Dbl.simFromDict Structure.fromDict ∧ Simulation.fromFile = Dbl.simFromFile Structure.fromDict := by
  refine ⟨rfl, ?_⟩
  funext v
  cases v <;> rfl

/-- What the other documents raise: the state is read first. -/
theorem C128_simulation_errors (read : Props → Py (Σ d, Structure ℚ d)) (dct : Props) :
    (Dict.get? dct (.str "state") = none → Dbl.simFromDict read dct = .error .keyError) ∧
    (∀ v, Dict.get? dct (.str "state") = some v → (∀ st, v ≠ .dict st) → Dbl.simFromDict read dct = .error .typeError) ∧
    (∀ st e, Dict.get? dct (.str "state") = some (.dict st) → SimState.fromDict st = .error e → Dbl.simFromDict read dct = .error e) ∧
    (∀ st s, Dict.get? dct (.str "state") = some (.dict st) → SimState.fromDict st = .ok s →
      (Dict.get? dct (.str "structure") = none → Dbl.simFromDict read dct = .error .keyError) ∧
      (∀ v, Dict.get? dct (.str "structure") = some v → (∀ sd, v ≠ .dict sd) → Dbl.simFromDict read dct = .error .typeError) ∧
      (∀ sd e, Dict.get? dct (.str "structure") = some (.dict sd) → read sd = .error e → Dbl.simFromDict read dct = .error e)) := by
  refine ⟨fun h => ?_, fun v h hv => ?_, fun st e h1 h2 => ?_, fun st s h1 h2 => ⟨fun h => ?_, fun v h hv => ?_, fun sd e h h3 => ?_⟩⟩
  · simp only [Dbl.simFromDict, h]
  · cases v <;> first | exact absurd rfl (hv _) | simp only [Dbl.simFromDict, h]
  · simp only [Dbl.simFromDict, h1, h2]; rfl
  · simp only [Dbl.simFromDict, h1, h2, h, ok_bind]
  · cases v <;> first | exact absurd rfl (hv _) | simp only [Dbl.simFromDict, h1, h2, h, ok_bind]
  · simp only [Dbl.simFromDict, h1, h2, h, h3, ok_bind]; rfl

/-- A file holding something other than a JSON object. -/
theorem C128_file (read : Props → Py (Σ d, Structure ℚ d)) (v : Val) : (∀ dct, v = .dict dct → Dbl.simFromFile read v = Dbl.simFromDict read dct) ∧
    ((∀ dct, v ≠ .dict dct) → Dbl.simFromFile read v = .error .typeError) := by
  refine ⟨fun dct h => by subst h; rfl, fun h => ?_⟩
  cases v <;> first | exact absurd rfl (h _) | rfl

end Pyl
