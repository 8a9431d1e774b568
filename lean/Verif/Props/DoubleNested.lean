import Verif.Props.DoubleSetups
import Verif.Props.NestedGrowth
import Verif.Spec.DoubleNested
/-
C119: growth with random neighbourhoods of the square grid in double precision.
-/
set_option autoImplicit false
set_option linter.unusedSectionVars false

namespace Pyl
open SimState Spec Growth
open Pyl.Lattice Pyl.Structure
variable {d : ℕ}

/-- A list of motifs with integer entries, as a list of motifs with double entries. -/
def motifsOf (ms : List (List (Fin d → ℤ))) : List (List (Fin d → ℚ)) := ms.map fun offs => offs.map intPoint

/-! ### the neighbourhood and the controller -/

theorem stochasticGet_behind {N : Fin d → ℤ} {s s0 : Structure ℚ d} (hB : Behind N s s0) (hex : ∀ j, ReciprocalExact (N j)) :
    ∀ ms : List (List (Fin d → ℤ)), (∀ offs ∈ ms, ∀ v ∈ offs, ∀ j, |v j| ≤ N j) →
      ∃ gs : List (Graph ℚ), Dbl.stochasticGet s (motifsOf ms) = .ok (gs.map .graph) ∧
        NbBuilder.getAll s0 (ms.map fun offs => .one (.motif (offs.map intPoint))) = .ok (gs.map .graph)
  | [], _ => ⟨[], rfl, rfl⟩
  | offs :: ms, h => by
    obtain ⟨gs, h1, h2⟩ := stochasticGet_behind hB hex ms fun o ho => h o (by simp [ho])
    obtain ⟨g, hg, -⟩ := torus_motif hB.torus offs
    have hD := (hB.motif offs (h offs (by simp))).1 hex
    refine ⟨g :: gs, ?_, ?_⟩
    · show (do let g ← Dbl.motifGet (offs.map intPoint) s; let ns ← Dbl.stochasticGet s (motifsOf ms); pure (Nbhood.graph g :: ns)) = _
      rw [hD, hg, ok_bind, h1, ok_bind]; rfl
    · rw [List.map_cons, NbBuilder.getAll, NbBuilder.get, hg, ok_bind, h2]; rfl

/-- For members that are graphs the structure does not matter. -/
theorem select_graphs (s s0 : Structure ℚ d) (i : ℕ) (draw : ℕ → ℕ) : ∀ (gs : List (Graph ℚ)) (k : ℕ),
    Nbhood.selectAt s i (gs.map .graph) k draw = Nbhood.selectAt s0 i (gs.map .graph) k draw
  | [], _ => rfl
  | g :: _, 0 => by simp only [List.map_cons, Nbhood.selectAt, Nbhood.select]
  | _ :: gs, k + 1 => by simp only [List.map_cons, Nbhood.selectAt]; exact select_graphs s s0 i draw gs k

/-- The controller in double precision is the one of the exact grid. -/
theorem growthInit_behind {N : Fin d → ℤ} {s s0 : Structure ℚ d} (hB : Behind N s s0) (hex : ∀ j, ReciprocalExact (N j))
    (ms : List (List (Fin d → ℤ))) (hms : ∀ offs ∈ ms, ∀ v ∈ offs, ∀ j, |v j| ≤ N j) (order : ℕ → List ℕ → List ℕ) (draw : ℕ → ℕ → ℕ) (bg : Val) :
    Dbl.growthInitStochastic order draw s bg (motifsOf ms) = Growth.initNested order draw s0 bg (motifBuilder ms) := by
  obtain ⟨gs, h1, h2⟩ := stochasticGet_behind hB hex ms hms
  unfold Dbl.growthInitStochastic Growth.initNested
  rw [h1, ok_bind, motifBuilder, NbBuilder.get, h2, ok_bind]
  show _ = (pure _ : Py Growth.Ctl)
  congr 2
  funext t i
  cases i with
  | str q => rfl
  | int z =>
    show (if 0 ≤ z then _ else _) = (if 0 ≤ z then _ else _)
    unfold Nbhood.neighborsOf
    rw [Nbhood.select, Nbhood.select, select_graphs s s0]

theorem Behind.leads {N : Fin d → ℤ} {s s0 : Structure ℚ d} (hB : Behind N s s0) (offs : List (Fin d → ℤ)) : Leads s N offs = Leads s0 N offs := by
  funext i j
  unfold Leads
  simp only [hB.siteHas]

/-- `Leads` in coordinates that are known. -/
theorem leads_iff {S : Structure ℚ d} {N : Fin d → ℤ} {offs : List (Fin d → ℤ)} {i j : ℕ} {a b : Fin d → ℤ} (ha : SiteHas S i a) (hb : SiteHas S j b) :
    Leads S N offs i j ↔ j ≠ i ∧ ∃ v ∈ offs, ∀ k, N k ∣ b k - (a k + v k) := by
  constructor
  · rintro ⟨h, a', b', ha', hb', h'⟩
    rw [IsTorus.has_unique_coord ha ha', IsTorus.has_unique_coord hb hb']
    exact ⟨h, h'⟩
  · rintro ⟨h, h'⟩
    exact ⟨h, a, b, ha, hb, h'⟩

/-- Possible answers of the exact grid, in any order: the sites that one of the motifs leads to. -/
theorem answer_leads {S : Structure ℚ d} {N : Fin d → ℤ} (ht : IsTorus S N) (ms : List (List (Fin d → ℤ))) {i : ℕ} (hi : i ∈ S.siteIds) (l : List ℕ) :
    (∃ l0, CanAnswer S i (motifBuilder ms) l0 ∧ l.Perm (l0.map Prod.fst)) ↔ l.Nodup ∧ ∃ offs ∈ ms, ∀ j, j ∈ l ↔ Leads S N offs i j := by
  obtain ⟨a, -, ha⟩ := ht.site i hi
  have key : ∀ (l0 : List (ℕ × Option ℚ)) (offs : List (Fin d → ℤ)), CanAnswer S i (motifBuilder ms) l0 →
      (∀ j b, SiteHas S j b → (j ∈ l0.map Prod.fst ↔ j ≠ i ∧ ∃ v ∈ offs, ∀ k, N k ∣ b k - (a k + v k))) →
      ∀ j, j ∈ l0.map Prod.fst ↔ Leads S N offs i j := by
    intro l0 offs hl0 hm j
    constructor
    · intro hj
      obtain ⟨jw, hjw, rfl⟩ := List.mem_map.1 hj
      obtain ⟨b, -, hb⟩ := ht.site jw.1 ((C116_known ht.reachable hl0).1 jw hjw).1
      exact (leads_iff ha hb).2 ((hm _ b hb).1 hj)
    · rintro ⟨h, a', b, ha', hb, h'⟩
      exact (hm j b hb).2 ((leads_iff ha hb).1 ⟨h, a', b, ha', hb, h'⟩)
  constructor
  · rintro ⟨l0, hl0, hp⟩
    obtain ⟨offs, ho, hm⟩ := (motif_answer ht ha).1 l0 hl0
    exact ⟨hp.nodup_iff.2 (C116_known ht.reachable hl0).2, offs, ho, fun j => by rw [hp.mem_iff]; exact key l0 offs hl0 hm j⟩
  · rintro ⟨hnd, offs, ho, hm⟩
    obtain ⟨l0, hl0, hm0⟩ := (motif_answer (K := ℚ) ht ha).2 offs ho
    refine ⟨l0, hl0, (List.perm_ext_iff_of_nodup hnd (C116_known ht.reachable hl0).2).2 fun j => ?_⟩
    rw [hm, key l0 offs hl0 hm0]

theorem draws_iff {N : Fin d → ℤ} {s s0 : Structure ℚ d} (hB : Behind N s s0) (ms : List (List (Fin d → ℤ))) (c c' : Ctl) :
    Redraws s0 (motifBuilder ms) c c' ↔ c'.background = c.background ∧ DrawsMotifs s N ms c' := by
  unfold Redraws DrawsMotifs
  rw [hB.siteIds]
  simp only [hB.leads]
  refine and_congr_right fun _ => forall_congr' fun t => forall_congr' fun i => forall_congr' fun hi => ?_
  constructor
  · rintro ⟨l, l', h1, h2, h3⟩
    exact ⟨l', h3, (answer_leads hB.torus ms hi l').1 ⟨l, h1, h2⟩⟩
  · rintro ⟨l', h3, h4⟩
    obtain ⟨l, h1, h2⟩ := (answer_leads hB.torus ms hi l').2 h4
    exact ⟨l, l', h1, h2, h3⟩

theorem always_iff {N : Fin d → ℤ} {s s0 : Structure ℚ d} (hB : Behind N s s0) (ms : List (List (Fin d → ℤ))) {i j : ℕ} (hi : i ∈ s0.siteIds) :
    (Always s0 (motifBuilder ms) i j ↔ ∀ offs ∈ ms, Leads s N offs i j) ∧ (Sometimes s0 (motifBuilder ms) i j ↔ ∃ offs ∈ ms, Leads s N offs i j) := by
  simp only [hB.leads]
  have h := fun l => answer_leads hB.torus ms hi l
  obtain ⟨a, -, ha⟩ := hB.torus.site i hi
  have h1 : ∀ l0, CanAnswer s0 i (motifBuilder ms) l0 → ∃ offs ∈ ms, ∀ j, j ∈ l0.map Prod.fst ↔ Leads s0 N offs i j :=
    fun l0 hl0 => ((h _).1 ⟨l0, hl0, .refl _⟩).2
  have h2 : ∀ offs ∈ ms, ∃ l0, CanAnswer s0 i (motifBuilder ms) l0 ∧ ∀ j, j ∈ l0.map Prod.fst ↔ Leads s0 N offs i j := by
    intro offs ho
    obtain ⟨l0, hl0, hm0⟩ := (motif_answer (K := ℚ) hB.torus ha).2 offs ho
    refine ⟨l0, hl0, fun j => ⟨fun hj => ?_, ?_⟩⟩
    · obtain ⟨jw, hjw, rfl⟩ := List.mem_map.1 hj
      obtain ⟨b, -, hb⟩ := hB.torus.site jw.1 ((C116_known hB.torus.reachable hl0).1 jw hjw).1
      exact (leads_iff ha hb).2 ((hm0 _ b hb).1 hj)
    · rintro ⟨h, a', b, ha', hb, h'⟩
      exact (hm0 j b hb).2 ((leads_iff ha hb).1 ⟨h, a', b, ha', hb, h'⟩)
  constructor
  · constructor
    · intro hA offs ho
      obtain ⟨l0, hl0, hm⟩ := h2 offs ho
      exact (hm j).1 (hA l0 hl0)
    · intro hA l0 hl0
      obtain ⟨offs, ho, hm⟩ := h1 l0 hl0
      exact (hm j).2 (hA offs ho)
  · constructor
    · rintro ⟨l0, hl0, hj⟩
      obtain ⟨offs, ho, hm⟩ := h1 l0 hl0
      exact ⟨offs, ho, (hm j).1 hj⟩
    · rintro ⟨offs, ho, hj⟩
      obtain ⟨l0, hl0, hm⟩ := h2 offs ho
      exact ⟨l0, hl0, (hm j).2 hj⟩

/-- Moves along related sites that stay inside a set. -/
theorem hopsBy_mono {R R' : ℕ → ℕ → Prop} {P : ℕ → Prop} (h : ∀ i j, P i → R i j → R' i j ∧ P j) : ∀ (k i j : ℕ), P i → HopsBy R k i j → HopsBy R' k i j
  | 0, _, _, _, e => e
  | k + 1, i, j, hi, .inl e => .inl (hopsBy_mono h k i j hi e)
  | k + 1, i, j, hi, .inr ⟨x, hx, e⟩ => .inr ⟨x, (h i x hi hx).1, hopsBy_mono h k x j (h i x hi hx).2 e⟩

/-! ### C119 -/

/-- C119: on a double-precision grid whose sizes have exact reciprocals, the growth controller with a stochastic builder of motifs (offsets with entries at
most the size) is built, and every call of `neighbors_of` lists exactly once the sites that one of the motifs leads to, around the boundaries; on sizes
without an exact reciprocal the constructor raises TypeError as soon as the first motif has a positive entry along such an axis. -/
theorem C119_controller_partial {N : Fin d → ℤ} {s : Structure ℚ d} (hg : DoubleGrid d N s) (ms : List (List (Fin d → ℤ))) (hne : ms ≠ [])
    (hms : ∀ offs ∈ ms, ∀ v ∈ offs, ∀ j, |v j| ≤ N j) (order : ℕ → List ℕ → List ℕ) (hord : ∀ t l, (order t l).Perm l) (draw : ℕ → ℕ → ℕ) (bg : Val) :
    ((∀ j, ReciprocalExact (N j)) → ∃ c, Dbl.growthInitStochastic order draw s bg (motifsOf ms) = .ok c ∧ c.background = bg ∧ DrawsMotifs s N ms c) ∧
    ((∃ j, ¬ ReciprocalExact (N j) ∧ ∃ v ∈ ms.head hne, 0 < v j) →
      Dbl.growthInitStochastic order draw s bg (motifsOf ms) = .error .typeError) := by
  obtain ⟨s0, hB⟩ := hg.behind
  constructor
  · intro hex
    obtain ⟨o1, o2, o3⟩ := motifBuilder_ok (K := ℚ) hB.torus hne
    obtain ⟨c, hc, hcb, hre⟩ := initNested_ok hB.torus.reachable o1 o2 o3 hord draw bg
    exact ⟨c, by rw [growthInit_behind hB hex ms hms, hc], hcb, ((draws_iff hB ms c c).1 hre).2⟩
  · intro hj
    cases ms with
    | nil => exact absurd rfl hne
    | cons offs ms =>
      have hD := (hB.motif offs (hms offs (by simp))).2 (by simpa using hj)
      show (do let ns ← (do let g ← Dbl.motifGet (offs.map intPoint) s; let ns ← Dbl.stochasticGet s (motifsOf ms); pure (Nbhood.graph g :: ns)); _) = _
      rw [hD]; rfl

/-- C119: every member of the stochastic neighbourhood can be drawn: if the draw for a call is the number of a motif, the answer lists the sites that this motif
leads to. -/
theorem C119_every_motif {N : Fin d → ℤ} {s : Structure ℚ d} (hg : DoubleGrid d N s) (hex : ∀ j, ReciprocalExact (N j)) (ms : List (List (Fin d → ℤ)))
    (hms : ∀ offs ∈ ms, ∀ v ∈ offs, ∀ j, |v j| ≤ N j) (order : ℕ → List ℕ → List ℕ) (hord : ∀ t l, (order t l).Perm l) (draw : ℕ → ℕ → ℕ) (bg : Val)
    (c : Ctl) (hc : Dbl.growthInitStochastic order draw s bg (motifsOf ms) = .ok c) (t : ℕ) (k : ℕ) (hk : k < ms.length) (hd : draw t 0 = k)
    (i : ℕ) (hi : i ∈ s.siteIds) : ∃ l, c.nbs t (.int i) = .ok l ∧ ∀ j, j ∈ l ↔ Leads s N ms[k] i j := by
  obtain ⟨s0, hB⟩ := hg.behind
  have key : ∀ (ms : List (List (Fin d → ℤ))), (∀ offs ∈ ms, ∀ v ∈ offs, ∀ j, |v j| ≤ N j) → ∀ ns, Dbl.stochasticGet s (motifsOf ms) = .ok ns →
      ns.length = ms.length ∧ ∀ (k : ℕ) (hk : k < ms.length) (dr : ℕ → ℕ), ∃ g, Nbhood.selectAt s i ns k dr = .ok (some g) ∧
        ∀ j, j ∈ g.neighborsOf i ↔ Leads s N ms[k] i j := by
    intro ms
    induction ms with
    | nil => intro _ ns h; cases h; exact ⟨rfl, fun k hk => absurd hk (by simp)⟩
    | cons offs ms ih =>
      intro hms ns h
      obtain ⟨g, hg', hm⟩ := torus_motif hB.torus offs
      have hD := (hB.motif offs (hms offs (by simp))).1 hex
      have h : (do let g ← Dbl.motifGet (offs.map intPoint) s; let ns ← Dbl.stochasticGet s (motifsOf ms); pure (Nbhood.graph g :: ns)) = .ok ns := h
      rw [hD, hg', ok_bind] at h
      cases hr : Dbl.stochasticGet s (motifsOf ms) with
      | error e => rw [hr, error_bind] at h; cases h
      | ok ns' =>
        rw [hr, ok_bind] at h
        cases h
        obtain ⟨h1, h2⟩ := ih (fun o ho => hms o (by simp [ho])) ns' hr
        refine ⟨by simp [h1], fun k hk dr => ?_⟩
        cases k with
        | zero =>
          refine ⟨g, by simp only [Nbhood.selectAt, Nbhood.select], fun j => ?_⟩
          rw [hB.leads]
          rw [hB.siteIds] at hi
          obtain ⟨a, -, ha⟩ := hB.torus.site i hi
          constructor
          · intro hj
            obtain ⟨b, -, hb⟩ := hB.torus.site j ((C55_known_and_other hB.torus.reachable _ _ _ hg' i).1 j hj).1
            exact (leads_iff ha hb).2 ((hm i j a b ha hb).1 hj)
          · rintro ⟨h, a', b, ha', hb, h'⟩
            exact (hm i j a b ha hb).2 ((leads_iff ha hb).1 ⟨h, a', b, ha', hb, h'⟩)
        | succ k =>
          obtain ⟨g', h3, h4⟩ := h2 k (by simpa using hk) dr
          exact ⟨g', by simpa only [Nbhood.selectAt] using h3, fun j => by simpa using h4 j⟩
  unfold Dbl.growthInitStochastic at hc
  cases hr : Dbl.stochasticGet s (motifsOf ms) with
  | error e => rw [hr, error_bind] at hc; cases hc
  | ok ns =>
    rw [hr, ok_bind] at hc
    cases hc
    obtain ⟨h1, h2⟩ := key ms hms ns hr
    obtain ⟨g, h3, h4⟩ := h2 k hk fun k => draw t (k + 1)
    refine ⟨order t (g.neighborsOf i), ?_, fun j => by rw [(hord _ _).mem_iff]; exact h4 j⟩
    simp [Nbhood.neighborsOf, Nbhood.select, h1, hd, Nat.mod_eq_of_lt hk, h3, multiNeighborsOf, Except.map]
    rfl

/-- C119: `grow` with a stochastic builder of motifs in double precision, on sizes with an exact reciprocal, whatever is drawn in which worker: it returns once the
nuclei are placed; nuclei keep their phase, every site is background or has a phase of `nuc_amts`; a site is occupied only if a nucleus can be
reached from it by at most `size` moves along motifs, and it is occupied if one can be reached by moves that are in all motifs. -/
theorem C119_grow_partial {G : GridSetup ℚ d} (hG : DoubleSetup d G) (n : ℤ) (hn : 0 < n ∧ n ≤ 2 ^ 30) (hex : ReciprocalExact n) (sum : List ℚ → ℚ)
    (hsum : ∀ l, SumOf l (sum l)) (num : ℚ) (m : ℤ) (hm : NearestEven num m) (bg : Val)
    (hbgw : bg.WF) (nucAmts : Dict Val ℚ) (hw : Dict.WF nucAmts) (hph : ∀ p ∈ Dict.keys nucAmts, p.WF) (hbg : bg ∉ Dict.keys nucAmts)
    (hpos : ∀ pa ∈ nucAmts, 0 < pa.2) (hdbl : ∀ pa ∈ nucAmts, IsDouble pa.2) (hsize : m * (nucAmts.length + 2) ≤ 2 ^ 52) (buffer : Option ℤ)
    (hbuf : ∀ r, buffer = some r → 1 ≤ r ∧ r ≤ n)
    (order : ℕ → List ℕ → List ℕ) (hord : ∀ t l, (order t l).Perm l) (draw : ℕ → ℕ) (fuel : ℕ) (sim : Simulation ℚ d)
    (h : Dbl.randomSites G sum (.int n) num bg nucAmts buffer order draw fuel = some (.ok sim))
    (ms : List (List (Fin d → ℤ))) (hne : ms ≠ []) (hms : ∀ offs ∈ ms, ∀ v ∈ offs, ∀ j, |v j| ≤ n)
    (ord : ℕ → List ℕ → List ℕ) (hord' : ∀ t l, (ord t l).Perm l) (pick : ℕ → ℕ → ℕ)
    (fork : ℕ → Ctl → Ctl) (hfork : OtherDraws sim.struct (fun _ => n) ms fork) (w : ℕ) (hw0 : 0 < w) (sched : ℕ → StepSched)
    (hv : ∀ k, k < n.toNat → (sched k).Valid w (chunks sim.state.siteIds (chunkSize sim.state.siteIds.length w)).length) :
    ∃ sim', Dbl.growStochastic G sum n num bg nucAmts (motifsOf ms) buffer order draw fuel ord pick fork w sched = some (.ok sim') ∧
      sim'.struct = sim.struct ∧ SameSites sim.struct sim'.state ∧
      (∀ i ∈ sim.struct.siteIds, occ? sim'.state (.int i) ≠ some bg →
        ∃ j ∈ nuclei sim.struct sim.state bg, HopsBy (fun i j => ∃ offs ∈ ms, Leads sim.struct (fun _ => n) offs i j) n.toNat i j) ∧
      (∀ i ∈ sim.struct.siteIds, ∀ j ∈ nuclei sim.struct sim.state bg,
        HopsBy (fun i j => ∀ offs ∈ ms, Leads sim.struct (fun _ => n) offs i j) n.toNat i j → occ? sim'.state (.int i) ≠ some bg) ∧
      (∀ j ∈ nuclei sim.struct sim.state bg, occ? sim'.state (.int j) = occ? sim.state (.int j)) ∧
      ∀ i ∈ sim.struct.siteIds, ∃ v, occ? sim'.state (.int i) = some v ∧ (v = bg ∨ v ∈ Dict.keys nucAmts) := by
  obtain ⟨hg, hst, -, -⟩ := C104_random_sites_partial hG n hn sum num m hm bg hbgw nucAmts hw hph hbg buffer hbuf order hord draw fuel sim h
  obtain ⟨-, -, hphase⟩ := C105_quotas_partial hG n hn sum hsum num m hm bg hbgw nucAmts hw hph hbg hpos hdbl hsize buffer hbuf order hord draw fuel sim h
  obtain ⟨s0, hB⟩ := hg.behind
  have e2 : nuclei sim.struct = nuclei s0 := by rw [hB.eq]; rfl
  have e3 : SameSites sim.struct = SameSites s0 := by rw [hB.eq]; rfl
  rw [hB.startState] at hst
  rw [e2] at hphase
  rw [e2, e3, hB.siteIds]
  obtain ⟨o1, o2, o3⟩ := motifBuilder_ok (K := ℚ) hB.torus hne
  obtain ⟨c, hc, hcb, hre⟩ := initNested_ok hB.torus.reachable o1 o2 o3 hord' pick bg
  obtain ⟨res, s', h1, -, h2, h3⟩ := nestedRun hB.torus.reachable hB.torus.ids_ne hst hphase c hcb fork
    (fun v => (draws_iff hB ms c _).2 (hfork v c ((draws_iff hB ms c c).1 hre).2)) w hw0 n.toNat sched hv
  have hin : ∀ offs i j, Leads sim.struct (fun _ => n) offs i j → j ∈ s0.siteIds := by
    rintro offs i j ⟨-, a, b, -, hb, -⟩
    exact hB.torus.mem_ids hB.torus.reachable (hB.siteHas.1 hb)
  refine ⟨⟨s', sim.struct⟩, ?_, rfl, h3.same, fun i hi ho => ?_, fun i hi j hj hh => ?_, h3.kept, h3.phase⟩
  · unfold Dbl.growStochastic
    rw [h]
    simp only [growthInit_behind hB (fun _ => hex) ms hms, hc, ok_bind, h1, h2]
    rfl
  · obtain ⟨j, hj, hh⟩ := h3.atMost i hi ho
    refine ⟨j, hj, hopsBy_mono (P := (· ∈ s0.siteIds)) (fun i j hi hR => ?_) _ _ _ hi hh⟩
    obtain ⟨offs, ho, hl⟩ := (always_iff hB ms hi).2.1 hR
    exact ⟨⟨offs, ho, hl⟩, hin _ _ _ hl⟩
  · refine h3.atLeast i hi j hj (hopsBy_mono (P := (· ∈ s0.siteIds)) (fun i j hi hR => ?_) _ _ _ hi hh)
    obtain ⟨offs, ho⟩ := List.exists_mem_of_ne_nil _ hne
    exact ⟨(always_iff hB ms hi).1.2 hR, hin _ _ _ (hR offs ho)⟩

/-- C119: on every other size `grow` with a stochastic builder whose first motif has a positive entry raises TypeError as soon as the nuclei are placed. -/
theorem C119_type_error {G : GridSetup ℚ d} (hG : DoubleSetup d G) (n : ℤ) (hn : 0 < n ∧ n ≤ 2 ^ 30) (hex : ¬ ReciprocalExact n) (sum : List ℚ → ℚ)
    (num : ℚ) (bg : Val) (nucAmts : Dict Val ℚ) (buffer : Option ℤ) (hbuf : ∀ r, buffer = some r → 1 ≤ r ∧ r ≤ n)
    (order : ℕ → List ℕ → List ℕ) (hord : ∀ t l, (order t l).Perm l) (draw : ℕ → ℕ) (fuel : ℕ)
    (ms : List (List (Fin d → ℤ))) (hne : ms ≠ []) (hms : ∀ offs ∈ ms, ∀ v ∈ offs, ∀ j, |v j| ≤ n) (hup : ∃ v ∈ ms.head hne, ∃ j, 0 < v j)
    (ord : ℕ → List ℕ → List ℕ) (pick : ℕ → ℕ → ℕ) (fork : ℕ → Ctl → Ctl) (w : ℕ) (sched : ℕ → StepSched) (sim : Simulation ℚ d)
    (h : Dbl.randomSites G sum (.int n) num bg nucAmts buffer order draw fuel = some (.ok sim)) :
    Dbl.growStochastic G sum n num bg nucAmts (motifsOf ms) buffer order draw fuel ord pick fork w sched = some (.error .typeError) := by
  have hg : DoubleGrid d (fun _ => n) sim.struct := by
    obtain ⟨S, s0, hg, hB, h1, h2⟩ := dblSites_parts hG hn sum num bg nucAmts buffer hbuf order hord
    by_cases hc : buffer = none ∨ ReciprocalExact n
    · obtain ⟨nbs, -, heq⟩ := h1 hc
      rw [heq] at h
      obtain ⟨sim0, -, rfl⟩ := dblSites_ok h
      exact hg
    · rw [h2 hc] at h; injection h with h; cases h
  obtain ⟨v, hv, j, hj⟩ := hup
  obtain ⟨s0, hB⟩ := hg.behind
  unfold Dbl.growStochastic
  rw [h]
  cases ms with
  | nil => exact absurd rfl hne
  | cons offs ms =>
    have hD := (hB.motif offs (hms offs (by simp))).2 ⟨j, hex, v, hv, hj⟩
    have : Dbl.growthInitStochastic ord pick sim.struct bg (motifsOf (offs :: ms)) = .error .typeError := by
      show (do let ns ← (do let g ← Dbl.motifGet (offs.map intPoint) sim.struct; let ns ← Dbl.stochasticGet sim.struct (motifsOf ms); pure (Nbhood.graph g :: ns)); _) = _
      rw [hD]; rfl
    simp only [this, error_bind]

/-! ### the stochastic builders of the square grid -/

theorem dblHex2_eq : Dbl.pseudoHex2 = motifsOf hexOffs2 := by
  simp only [Dbl.pseudoHex2, motifsOf, hexOffs2, List.map_cons, List.map_nil]
  congr <;> (funext k; fin_cases k <;> simp [intPoint])

theorem dblHex3_eq : Dbl.pseudoHex3 = motifsOf hexOffs3 := by
  simp only [Dbl.pseudoHex3, motifsOf, hexOffs3, List.map_cons, List.map_nil, List.cons_append, List.nil_append]
  congr <;> (funext k; fin_cases k <;> simp [intPoint])

theorem dblPent_eq : Dbl.pseudoPent = motifsOf pentOffs := by
  simp only [Dbl.pseudoPent, motifsOf, pentOffs, List.map_cons, List.map_nil]
  congr <;> (funext k; fin_cases k <;> simp [intPoint])

theorem hexOffs2_le {n : ℤ} (hn : 0 < n) : ∀ offs ∈ hexOffs2, ∀ v ∈ offs, ∀ j, |v j| ≤ n := fun offs ho v hv j =>
  le_trans ((by decide : ∀ offs ∈ hexOffs2, ∀ v ∈ offs, ∀ j, |v j| ≤ 1) offs ho v hv j) hn

theorem hexOffs3_le {n : ℤ} (hn : 0 < n) : ∀ offs ∈ hexOffs3, ∀ v ∈ offs, ∀ j, |v j| ≤ n := fun offs ho v hv j =>
  le_trans ((by decide : ∀ offs ∈ hexOffs3, ∀ v ∈ offs, ∀ j, |v j| ≤ 1) offs ho v hv j) hn

theorem pentOffs_le {n : ℤ} (hn : 0 < n) : ∀ offs ∈ pentOffs, ∀ v ∈ offs, ∀ j, |v j| ≤ n := fun offs ho v hv j =>
  le_trans ((by decide : ∀ offs ∈ pentOffs, ∀ v ∈ offs, ∀ j, |v j| ≤ 1) offs ho v hv j) hn

theorem unit_leads {N : Fin d → ℤ} {s s0 : Structure ℚ d} (hB : Behind N s s0) {ms : List (List (Fin d → ℤ))} (hne : ms ≠ [])
    (hunit : ∀ offs ∈ ms, ∀ q, Pi.single q 1 ∈ offs ∧ Pi.single q (-1) ∈ offs) {i j : ℕ} {x y : Fin d → ℤ} (hx : SiteHas s i x) (hy : SiteHas s j y) {m : ℕ}
    (hd : torusManhattan N x y ≤ m) : HopsBy (fun i j => ∀ offs ∈ ms, Leads s N offs i j) m i j := by
  rw [hB.siteHas] at hx hy
  refine hopsBy_mono (P := (· ∈ s0.siteIds)) (fun i j hi hR => ?_) _ _ _ (hB.torus.mem_ids hB.torus.reachable hx) (unit_hops hB.torus hunit hx hy hd)
  have h := (always_iff hB ms hi).1.1 hR
  obtain ⟨offs, ho⟩ := List.exists_mem_of_ne_nil _ hne
  obtain ⟨-, a, b, -, hb, -⟩ := h offs ho
  exact ⟨h, hB.torus.mem_ids hB.torus.reachable (hB.siteHas.1 hb)⟩

/-- C119: in double precision, on 2D grids whose size has an exact reciprocal, `grow` with the pseudohexagonal neighbourhoods and at least one nucleus fills the
grid, whatever is drawn. -/
theorem C119_hexagonal_fills_partial {G : GridSetup ℚ 2} (hG : DoubleSetup 2 G) (n : ℤ) (hn : 0 < n ∧ n ≤ 2 ^ 30) (hex : ReciprocalExact n) (sum : List ℚ → ℚ)
    (hsum : ∀ l, SumOf l (sum l)) (num : ℚ) (m : ℤ) (hm : NearestEven num m) (hm1 : 1 ≤ m) (bg : Val)
    (hbgw : bg.WF) (nucAmts : Dict Val ℚ) (hw : Dict.WF nucAmts) (hph : ∀ p ∈ Dict.keys nucAmts, p.WF) (hbg : bg ∉ Dict.keys nucAmts)
    (hpos : ∀ pa ∈ nucAmts, 0 < pa.2) (hdbl : ∀ pa ∈ nucAmts, IsDouble pa.2) (hsize : m * (nucAmts.length + 2) ≤ 2 ^ 52) (buffer : Option ℤ)
    (hbuf : ∀ r, buffer = some r → 1 ≤ r ∧ r ≤ n)
    (order : ℕ → List ℕ → List ℕ) (hord : ∀ t l, (order t l).Perm l) (draw : ℕ → ℕ) (fuel : ℕ) (sim : Simulation ℚ 2)
    (h : Dbl.randomSites G sum (.int n) num bg nucAmts buffer order draw fuel = some (.ok sim))
    (ord : ℕ → List ℕ → List ℕ) (hord' : ∀ t l, (ord t l).Perm l) (pick : ℕ → ℕ → ℕ)
    (fork : ℕ → Ctl → Ctl) (hfork : OtherDraws sim.struct (fun _ => n) hexOffs2 fork) (w : ℕ) (hw0 : 0 < w) (sched : ℕ → StepSched)
    (hv : ∀ k, k < n.toNat → (sched k).Valid w (chunks sim.state.siteIds (chunkSize sim.state.siteIds.length w)).length) :
    ∃ sim', Dbl.growStochastic G sum n num bg nucAmts Dbl.pseudoHex2 buffer order draw fuel ord pick fork w sched = some (.ok sim') ∧
      sim'.struct = sim.struct ∧ ∀ i ∈ sim.struct.siteIds, ∃ v ∈ Dict.keys nucAmts, occ? sim'.state (.int i) = some v := by
  obtain ⟨hg, -, hcount, -⟩ := C104_random_sites_partial hG n hn sum num m hm bg hbgw nucAmts hw hph hbg buffer hbuf order hord draw fuel sim h
  obtain ⟨s0, hB⟩ := hg.behind
  rw [dblHex2_eq]
  obtain ⟨sim', h1, h2, -, -, h3, -, h4⟩ := C119_grow_partial hG n hn hex sum hsum num m hm bg hbgw nucAmts hw hph hbg hpos hdbl hsize buffer hbuf order hord
    draw fuel sim h
    hexOffs2 (by simp [hexOffs2]) (hexOffs2_le hn.1) ord hord' pick fork hfork w hw0 sched hv
  refine ⟨sim', h1, h2, fun i hi => ?_⟩
  obtain ⟨v, hv, h8⟩ := h4 i hi
  obtain ⟨j, hj⟩ : ∃ j, j ∈ nuclei sim.struct sim.state bg := List.exists_mem_of_length_pos (by omega)
  obtain ⟨x, -, hx⟩ := hB.torus.site i (by rw [← hB.siteIds]; exact hi)
  obtain ⟨y, -, hy⟩ := hB.torus.site j (by rw [← hB.siteIds]; exact (List.mem_filter.1 hj).1)
  have hocc := h3 i hi j hj (unit_leads hB (ms := hexOffs2) (by simp [hexOffs2]) (by decide) (hB.siteHas.2 hx) (hB.siteHas.2 hy) (by
    simp only [torusManhattan, Fin.sum_univ_two]
    have h5 := circ_le_half hn.1 (x 0 - y 0) (k := n / 2) (by omega)
    have h6 := circ_le_half hn.1 (x 1 - y 1) (k := n / 2) (by omega)
    omega))
  rcases h8 with rfl | h8
  · exact absurd hv hocc
  · exact ⟨v, h8, hv⟩

/-- C119: with the pseudohexagonal neighbourhoods of the 3D grid, in double precision on sizes with an exact reciprocal, at least the sites at torus Manhattan
distance at most `n` from a nucleus are occupied in the end. -/
theorem C119_hexagonal3_partial {G : GridSetup ℚ 3} (hG : DoubleSetup 3 G) (n : ℤ) (hn : 0 < n ∧ n ≤ 2 ^ 30) (hex : ReciprocalExact n) (sum : List ℚ → ℚ)
    (hsum : ∀ l, SumOf l (sum l)) (num : ℚ) (m : ℤ) (hm : NearestEven num m) (bg : Val)
    (hbgw : bg.WF) (nucAmts : Dict Val ℚ) (hw : Dict.WF nucAmts) (hph : ∀ p ∈ Dict.keys nucAmts, p.WF) (hbg : bg ∉ Dict.keys nucAmts)
    (hpos : ∀ pa ∈ nucAmts, 0 < pa.2) (hdbl : ∀ pa ∈ nucAmts, IsDouble pa.2) (hsize : m * (nucAmts.length + 2) ≤ 2 ^ 52) (buffer : Option ℤ)
    (hbuf : ∀ r, buffer = some r → 1 ≤ r ∧ r ≤ n)
    (order : ℕ → List ℕ → List ℕ) (hord : ∀ t l, (order t l).Perm l) (draw : ℕ → ℕ) (fuel : ℕ) (sim : Simulation ℚ 3)
    (h : Dbl.randomSites G sum (.int n) num bg nucAmts buffer order draw fuel = some (.ok sim))
    (ord : ℕ → List ℕ → List ℕ) (hord' : ∀ t l, (ord t l).Perm l) (pick : ℕ → ℕ → ℕ)
    (fork : ℕ → Ctl → Ctl) (hfork : OtherDraws sim.struct (fun _ => n) hexOffs3 fork) (w : ℕ) (hw0 : 0 < w) (sched : ℕ → StepSched)
    (hv : ∀ k, k < n.toNat → (sched k).Valid w (chunks sim.state.siteIds (chunkSize sim.state.siteIds.length w)).length) :
    ∃ sim', Dbl.growStochastic G sum n num bg nucAmts Dbl.pseudoHex3 buffer order draw fuel ord pick fork w sched = some (.ok sim') ∧
      sim'.struct = sim.struct ∧ ∀ i x, SiteHas sim.struct i x → ∀ j ∈ nuclei sim.struct sim.state bg, ∀ y, SiteHas sim.struct j y →
        torusManhattan (fun _ => n) x y ≤ n → occ? sim'.state (.int i) ≠ some bg := by
  obtain ⟨hg, -, -, -⟩ := C104_random_sites_partial hG n hn sum num m hm bg hbgw nucAmts hw hph hbg buffer hbuf order hord draw fuel sim h
  obtain ⟨s0, hB⟩ := hg.behind
  rw [dblHex3_eq]
  obtain ⟨sim', h1, h2, -, -, h3, -, -⟩ := C119_grow_partial hG n hn hex sum hsum num m hm bg hbgw nucAmts hw hph hbg hpos hdbl hsize buffer hbuf order hord
    draw fuel sim h
    hexOffs3 (by simp [hexOffs3]) (hexOffs3_le hn.1) ord hord' pick fork hfork w hw0 sched hv
  refine ⟨sim', h1, h2, fun i x hx j hj y hy hd => h3 i ?_ j hj (unit_leads hB (ms := hexOffs3) (by simp [hexOffs3]) (by decide) hx hy (by omega))⟩
  rw [hB.siteIds]; exact hB.torus.mem_ids hB.torus.reachable (hB.siteHas.1 hx)

/-- C119: with the pseudopentagonal neighbourhoods `grow` in double precision can end with every site but the nucleus still background, on every size from 3 on
with an exact reciprocal. -/
theorem C119_pentagonal_stalls {G : GridSetup ℚ 2} (hG : DoubleSetup 2 G) (n : ℤ) (hn : 3 ≤ n ∧ n ≤ 2 ^ 30) (hex : ReciprocalExact n) (sum : List ℚ → ℚ)
    (num : ℚ) (hm : NearestEven num 1) (bg : Val)
    (hbgw : bg.WF) (nucAmts : Dict Val ℚ) (hw : Dict.WF nucAmts) (hph : ∀ p ∈ Dict.keys nucAmts, p.WF) (hbg : bg ∉ Dict.keys nucAmts)
    (buffer : Option ℤ) (hbuf : ∀ r, buffer = some r → 1 ≤ r ∧ r ≤ n)
    (order : ℕ → List ℕ → List ℕ) (hord : ∀ t l, (order t l).Perm l) (draw : ℕ → ℕ) (fuel : ℕ) (sim : Simulation ℚ 2)
    (h : Dbl.randomSites G sum (.int n) num bg nucAmts buffer order draw fuel = some (.ok sim))
    (ord : ℕ → List ℕ → List ℕ) (hord' : ∀ t l, (ord t l).Perm l) (pick : ℕ → ℕ → ℕ) :
    ∃ fork : ℕ → Ctl → Ctl, OtherDraws sim.struct (fun _ => n) pentOffs fork ∧
      ∀ (w : ℕ) (_ : 0 < w) (sched : ℕ → StepSched)
        (_ : ∀ k, k < n.toNat → (sched k).Valid w (chunks sim.state.siteIds (chunkSize sim.state.siteIds.length w)).length),
        ∃ sim', Dbl.growStochastic G sum n num bg nucAmts Dbl.pseudoPent buffer order draw fuel ord pick fork w sched = some (.ok sim') ∧
          sim'.struct = sim.struct ∧ (nuclei sim.struct sim.state bg).length = 1 ∧
          ∀ i ∈ sim.struct.siteIds, i ∉ nuclei sim.struct sim.state bg → occ? sim'.state (.int i) = some bg := by
  have hn0 : 0 < n ∧ n ≤ 2 ^ 30 := ⟨by omega, hn.2⟩
  obtain ⟨hg, hst, hcount, -⟩ := C104_random_sites_partial hG n hn0 sum num 1 hm bg hbgw nucAmts hw hph hbg buffer hbuf order hord draw fuel sim h
  have hcount : (nuclei sim.struct sim.state bg).length = 1 := by exact_mod_cast hcount
  obtain ⟨s0, hB⟩ := hg.behind
  have e2 : nuclei sim.struct = nuclei s0 := by rw [hB.eq]; rfl
  rw [hB.startState] at hst
  rw [e2] at hcount
  obtain ⟨fork, hfork, hrun⟩ := pent_stalls_run hB.torus hn.1 hst hcount
  refine ⟨fork, fun v c hc => ?_, fun w hw0 sched hv => ?_⟩
  · exact (draws_iff hB pentOffs c _).1 (hfork v c ((draws_iff hB pentOffs c c).2 ⟨rfl, hc⟩))
  obtain ⟨o1, o2, o3⟩ := motifBuilder_ok (K := ℚ) hB.torus (ms := pentOffs) (by simp [pentOffs])
  obtain ⟨c, hc, hcb, -⟩ := initNested_ok hB.torus.reachable o1 o2 o3 hord' pick bg
  obtain ⟨res, s', h1, h2, h3⟩ := hrun c hcb w hw0 sched hv
  refine ⟨⟨s', sim.struct⟩, ?_, rfl, by rw [e2]; exact hcount, by rw [e2, hB.siteIds]; exact h3⟩
  unfold Dbl.growStochastic
  rw [h]
  simp only [dblPent_eq, growthInit_behind hB (fun _ => hex) pentOffs (pentOffs_le hn0.1), hc, ok_bind, h1, h2]
  rfl

/-- C119: in double precision as well, the 3D grid need not be filled with the pseudohexagonal neighbourhoods: for every size from 12 on with an exact reciprocal there
are draws with which the sites opposite the only nucleus are still background in the end. -/
theorem C119_hexagonal3_unfilled {G : GridSetup ℚ 3} (hG : DoubleSetup 3 G) (n : ℤ) (hn : 12 ≤ n ∧ n ≤ 2 ^ 30) (hex : ReciprocalExact n) (sum : List ℚ → ℚ)
    (num : ℚ) (hm : NearestEven num 1) (bg : Val)
    (hbgw : bg.WF) (nucAmts : Dict Val ℚ) (hw : Dict.WF nucAmts) (hph : ∀ p ∈ Dict.keys nucAmts, p.WF) (hbg : bg ∉ Dict.keys nucAmts)
    (buffer : Option ℤ) (hbuf : ∀ r, buffer = some r → 1 ≤ r ∧ r ≤ n)
    (order : ℕ → List ℕ → List ℕ) (hord : ∀ t l, (order t l).Perm l) (draw : ℕ → ℕ) (fuel : ℕ) (sim : Simulation ℚ 3)
    (h : Dbl.randomSites G sum (.int n) num bg nucAmts buffer order draw fuel = some (.ok sim))
    (ord : ℕ → List ℕ → List ℕ) (hord' : ∀ t l, (ord t l).Perm l) (pick : ℕ → ℕ → ℕ) :
    ∃ fork : ℕ → Ctl → Ctl, OtherDraws sim.struct (fun _ => n) hexOffs3 fork ∧
      ∀ (w : ℕ) (_ : 0 < w) (sched : ℕ → StepSched)
        (_ : ∀ k, k < n.toNat → (sched k).Valid w (chunks sim.state.siteIds (chunkSize sim.state.siteIds.length w)).length),
        ∃ sim', Dbl.growStochastic G sum n num bg nucAmts Dbl.pseudoHex3 buffer order draw fuel ord pick fork w sched = some (.ok sim') ∧
          sim'.struct = sim.struct ∧ (∃ i ∈ sim.struct.siteIds, occ? sim'.state (.int i) = some bg) ∧
          ∃ p y, nuclei sim.struct sim.state bg = [p] ∧ SiteHas sim.struct p y ∧
            ∀ i x, SiteHas sim.struct i x → (∀ k, n / 2 - 1 ≤ circ n (x k - y k)) → occ? sim'.state (.int i) = some bg := by
  have hn0 : 0 < n ∧ n ≤ 2 ^ 30 := ⟨by omega, hn.2⟩
  obtain ⟨hg, hst, hcount, -⟩ := C104_random_sites_partial hG n hn0 sum num 1 hm bg hbgw nucAmts hw hph hbg buffer hbuf order hord draw fuel sim h
  have hcount : (nuclei sim.struct sim.state bg).length = 1 := by exact_mod_cast hcount
  obtain ⟨s0, hB⟩ := hg.behind
  have e2 : nuclei sim.struct = nuclei s0 := by rw [hB.eq]; rfl
  rw [hB.startState] at hst
  rw [e2] at hcount
  obtain ⟨p, hp⟩ := List.length_eq_one_iff.1 hcount
  obtain ⟨y, -, hy⟩ := hB.torus.site p (List.mem_filter.1 (hp ▸ List.mem_singleton_self p : p ∈ nuclei s0 sim.state bg)).1
  obtain ⟨fork, hfork, hrun⟩ := hex3_slow_run hB.torus hn.1 hst hp hy
  refine ⟨fork, fun v c hc => ?_, fun w hw0 sched hv => ?_⟩
  · exact (draws_iff hB hexOffs3 c _).1 (hfork v c ((draws_iff hB hexOffs3 c c).2 ⟨rfl, hc⟩))
  obtain ⟨o1, o2, o3⟩ := motifBuilder_ok (K := ℚ) hB.torus (ms := hexOffs3) (by simp [hexOffs3])
  obtain ⟨c, hc, hcb, -⟩ := initNested_ok hB.torus.reachable o1 o2 o3 hord' pick bg
  obtain ⟨res, s', h1, h2, h3⟩ := hrun c hcb w hw0 sched hv
  refine ⟨⟨s', sim.struct⟩, ?_, rfl, ?_, p, y, by rw [e2]; exact hp, hB.siteHas.2 hy, fun i x hx => h3 i x (hB.siteHas.1 hx)⟩
  · unfold Dbl.growStochastic
    rw [h]
    simp only [dblHex3_eq, growthInit_behind hB (fun _ => hex) hexOffs3 (hexOffs3_le hn0.1), hc, ok_bind, h1, h2]
    rfl
  · obtain ⟨i, hi, hx⟩ := hB.torus.opposite y
    exact ⟨i, by rw [hB.siteIds]; exact hi, h3 i _ hx fun k => opposite_far (by omega) _⟩

/-- C119: so the unrestricted claim is false: on a grid of size 49 no call of `grow` with the pseudohexagonal or pseudopentagonal neighbourhoods ever returns a
simulation. -/
theorem C119_false (sum : List ℚ → ℚ) (num : ℚ) (bg : Val) (nucAmts : Dict Val ℚ) (buffer : Option ℤ)
    (hbuf : ∀ r, buffer = some r → 1 ≤ r ∧ r ≤ 49) (order : ℕ → List ℕ → List ℕ) (hord : ∀ t l, (order t l).Perm l) (draw : ℕ → ℕ) (fuel : ℕ)
    (ord : ℕ → List ℕ → List ℕ) (pick : ℕ → ℕ → ℕ) (fork : ℕ → Ctl → Ctl) (w : ℕ) (sched : ℕ → StepSched) :
    (∀ sim, Dbl.growStochastic Dbl.gridSetup2 sum 49 num bg nucAmts Dbl.pseudoHex2 buffer order draw fuel ord pick fork w sched ≠ some (.ok sim)) ∧
    (∀ sim, Dbl.growStochastic Dbl.gridSetup2 sum 49 num bg nucAmts Dbl.pseudoPent buffer order draw fuel ord pick fork w sched ≠ some (.ok sim)) ∧
    ∀ sim, Dbl.growStochastic Dbl.gridSetup3 sum 49 num bg nucAmts Dbl.pseudoHex3 buffer order draw fuel ord pick fork w sched ≠ some (.ok sim) := by
  have key : ∀ {d : ℕ} {G : GridSetup ℚ d} (_ : DoubleSetup d G) (ms : List (List (Fin d → ℤ))) (hne : ms ≠ [])
      (_ : ∀ offs ∈ ms, ∀ v ∈ offs, ∀ j, |v j| ≤ 49) (_ : ∃ v ∈ ms.head hne, ∃ j, 0 < v j) (sim : Simulation ℚ d),
      Dbl.growStochastic G sum 49 num bg nucAmts (motifsOf ms) buffer order draw fuel ord pick fork w sched ≠ some (.ok sim) := by
    intro d G hG ms hne hms hup sim h
    cases hr : Dbl.randomSites G sum (.int 49) num bg nucAmts buffer order draw fuel with
    | none => unfold Dbl.growStochastic at h; rw [hr] at h; cases h
    | some r =>
      cases r with
      | error e => unfold Dbl.growStochastic at h; rw [hr] at h; injection h with h; cases h
      | ok sim0 =>
        rw [C119_type_error hG 49 (by norm_num) C100_sizes.2.1 sum num bg nucAmts buffer hbuf order hord draw fuel ms hne hms hup ord pick fork w sched sim0 hr] at h
        injection h with h; cases h
  rw [dblHex2_eq, dblPent_eq, dblHex3_eq]
  exact ⟨key .two _ (by simp [hexOffs2]) (hexOffs2_le (by norm_num)) ⟨![1, 0], by simp [hexOffs2], 0, by simp⟩,
    key .two _ (by simp [pentOffs]) (pentOffs_le (by norm_num)) ⟨![1, 0], by simp [pentOffs], 0, by simp⟩,
    key .three _ (by simp [hexOffs3]) (hexOffs3_le (by norm_num)) ⟨![1, 0, 0], by simp [hexOffs3], 0, by simp⟩⟩

/-! ### the hypotheses can be met -/

/-- `grow` in double precision on a 7 x 7 grid with one nucleus and four workers: filled with the pseudohexagonal neighbourhoods, and possibly all but the nucleus background
with the pseudopentagonal ones. -/
example : ∃ draw fuel fork sched sim sim', (∃ b, ∀ k, sched k = (List.range b).map fun i => (i, (k * i + k) % 4)) ∧
    Dbl.growStochastic Dbl.gridSetup2 (fun l => l.foldl (fun acc x => fl (acc + x)) 0) 7 1 (.str "bg") sevenOfHundred Dbl.pseudoHex2 (some 2) (fun _ l => l)
      draw fuel (fun _ l => l.reverse) (fun t k => t + k) (fun _ c => c) 4 sched = some (.ok sim) ∧
    (∀ i ∈ sim.struct.siteIds, occ? sim.state (.int i) ≠ some (.str "bg")) ∧
    Dbl.growStochastic Dbl.gridSetup2 (fun l => l.foldl (fun acc x => fl (acc + x)) 0) 7 1 (.str "bg") sevenOfHundred Dbl.pseudoPent (some 2) (fun _ l => l)
      draw fuel (fun _ l => l.reverse) (fun t k => t + k) fork 4 sched = some (.ok sim') ∧
    ∃ p, ∀ i ∈ sim'.struct.siteIds, i ≠ p → occ? sim'.state (.int i) = some (.str "bg") := by
  have hm : NearestEven (1 : ℚ) 1 := by left; norm_num
  obtain ⟨hw, hph, hbg, hpos, hdbl⟩ := sevenOfHundred_ok
  have hex : ReciprocalExact 7 := C100_sizes.1 7 (by norm_num) (by norm_num)
  obtain ⟨draw, fuel, sim, h, -⟩ := C104_reachable (d := 2) .two 7 (by norm_num) _ C105_left_to_right 1 1 hm (by norm_num) (.str "bg") (.str _) sevenOfHundred hw hph
    hbg (by simp [sevenOfHundred]) hpos hdbl (by simp [sevenOfHundred]) (some 2) (by rintro r ⟨⟩; norm_num) (.inr hex) (fun _ l => l) (fun _ _ => .refl _)
    [![3, 3]] (by simp) (by simp) (by intro c hc j; simp at hc; subst hc; fin_cases j <;> simp)
    (by intro r _ a ha b hb hab; simp at ha hb; exact absurd (ha.trans hb.symm) hab)
  let B := (chunks sim.state.siteIds (chunkSize sim.state.siteIds.length 4)).length
  let sched : ℕ → StepSched := fun k => (List.range B).map fun i => (i, (k * i + k) % 4)
  have hv : ∀ k, k < (7 : ℤ).toNat → (sched k).Valid 4 (chunks sim.state.siteIds (chunkSize sim.state.siteIds.length 4)).length := by
    intro k _
    refine ⟨?_, ?_⟩
    · simp only [sched, List.map_map, Function.comp_def, List.map_id']
      exact .refl _
    · intro p hp
      obtain ⟨i, -, rfl⟩ := List.mem_map.1 hp
      exact Nat.mod_lt _ (by norm_num)
  obtain ⟨sim1, h1, h2, h3⟩ := C119_hexagonal_fills_partial .two 7 (by norm_num) hex _ C105_left_to_right 1 1 hm le_rfl (.str "bg") (.str _) sevenOfHundred hw hph hbg
    hpos hdbl (by simp [sevenOfHundred]) (some 2) (by rintro r ⟨⟩; norm_num)
    (fun _ l => l) (fun _ _ => .refl _) draw fuel sim h (fun _ l => l.reverse) (fun _ l => l.reverse_perm) (fun t k => t + k)
    (fun _ c => c) (fun _ _ hc => ⟨rfl, hc⟩) 4 (by norm_num) sched hv
  obtain ⟨fork, -, hst⟩ := C119_pentagonal_stalls .two 7 (by norm_num) hex (fun l => l.foldl (fun acc x => fl (acc + x)) 0) 1 hm (.str "bg") (.str _) sevenOfHundred hw hph hbg
    (some 2) (by rintro r ⟨⟩; norm_num) (fun _ l => l) (fun _ _ => .refl _) draw fuel sim h (fun _ l => l.reverse) (fun _ l => l.reverse_perm) (fun t k => t + k)
  obtain ⟨sim2, h4, h5, h6, h7⟩ := hst 4 (by norm_num) sched hv
  obtain ⟨p, hp⟩ := List.length_eq_one_iff.1 h6
  refine ⟨draw, fuel, fork, sched, sim1, sim2, ⟨B, fun k => rfl⟩, h1, fun i hi => ?_, h4, p, fun i hi hip => h7 i (h5 ▸ hi) (by rw [hp]; simpa using hip)⟩
  obtain ⟨v, hv, h8⟩ := h3 i (h2 ▸ hi)
  rw [h8]
  rintro e
  injection e with e
  exact hbg (e ▸ hv)

end Pyl
