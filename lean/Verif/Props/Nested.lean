import Verif.Spec.Nested
import Verif.Props.SquareGrid
/-
C116: compound neighbourhood builders inside each other.
-/
set_option autoImplicit false
set_option linter.unusedSectionVars false

namespace Pyl
open SimState Spec
open Pyl.Lattice Pyl.Structure
variable {K : Type} [Field K] [LinearOrder K] [FloorRing K] [IsStrictOrderedRing K] {d : ℕ}

theorem getFor_ok {s : Structure K d} {c : String} {b : NbBuilder K d} {g : Graph K} :
    b.getFor s c = .ok g ↔ ∃ b', b = .one b' ∧ b'.get s (some c) = .ok g := by
  cases b with
  | one b => simp [NbBuilder.getFor]
  | stochastic bs => simp [NbBuilder.getFor]
  | siteClass bs => simp [NbBuilder.getFor]

theorem getAll_ok {s : Structure K d} {bs : List (NbBuilder K d)} {ns : List (Nbhood K)} :
    NbBuilder.getAll s bs = .ok ns ↔ List.Forall₂ (fun b n => NbBuilder.get s b = .ok n) bs ns := by
  induction bs generalizing ns with
  | nil => simp [NbBuilder.getAll, eq_comm]
  | cons b bs ih =>
    rw [NbBuilder.getAll]
    cases hb : NbBuilder.get s b with
    | error e =>
      simp only [List.forall₂_cons_left_iff, hb]
      exact ⟨fun h => (by cases h), fun ⟨_, _, h, _⟩ => by cases h⟩
    | ok n =>
      rw [ok_bind]
      cases hbs : NbBuilder.getAll s bs with
      | error e =>
        simp only [List.forall₂_cons_left_iff, ← ih, hbs]
        exact ⟨fun h => (by cases h), fun ⟨_, _, _, h, _⟩ => by cases h⟩
      | ok ns' =>
        simp only [List.forall₂_cons_left_iff, ← ih, hbs, hb, ok_bind, pure, Except.pure, Except.ok.injEq]
        exact ⟨fun h => ⟨n, ns', rfl, rfl, h.symm⟩, fun ⟨_, _, h1, h2, h⟩ => by rw [h1, h2, h]⟩

/-- The graphs of a builder by site class, if it builds. -/
theorem classes_ok {s : Structure K d} (bs : List (String × NbBuilder K d)) (m0 m : Dict String (Graph K))
    (h : bs.foldlM (fun m cb => do pure (Dict.set m cb.1 (← cb.2.getFor s cb.1))) m0 = (.ok m : Py _)) :
    (∀ cb ∈ bs, ∃ b g, cb.2 = .one b ∧ b.get s (some cb.1) = .ok g) ∧
    (Dict.WF bs → ∀ c, (∀ b, (c, NbBuilder.one b) ∈ bs → ∃ g, b.get s (some c) = .ok g ∧ Dict.get? m c = some g) ∧
      (c ∉ Dict.keys bs → Dict.get? m c = Dict.get? m0 c)) := by
  induction bs generalizing m0 with
  | nil =>
    simp only [List.foldlM_nil, pure, Except.pure, Except.ok.injEq] at h
    subst h; simp
  | cons cb bs ih =>
    obtain ⟨c', b'⟩ := cb
    rw [List.foldlM_cons] at h
    cases hg : b'.getFor s c' with
    | error e => simp only [hg] at h; cases h
    | ok g =>
      simp only [hg, pure, Except.pure, ok_bind] at h
      obtain ⟨b1, rfl, hb1⟩ := getFor_ok.1 hg
      obtain ⟨i1, i2⟩ := ih _ h
      refine ⟨?_, fun hwf c => ?_⟩
      · intro cb hcb
        rcases List.mem_cons.1 hcb with rfl | hcb
        · exact ⟨b1, g, rfl, hb1⟩
        · exact i1 cb hcb
      · obtain ⟨j1, j2⟩ := i2 hwf.tail c
        have hhead : c' ∉ Dict.keys bs := hwf.head
        refine ⟨fun b hb => ?_, fun hc => ?_⟩
        · rcases List.mem_cons.1 hb with e | hb
          · injection e with e1 e2
            injection e2 with e2
            subst e1; subst e2
            exact ⟨g, hb1, by rw [j2 hhead, Dict.get?_set_self]⟩
          · exact j1 b hb
        · simp only [Dict.keys, List.map_cons, List.mem_cons, not_or] at hc
          rw [j2 hc.2, Dict.get?_set_ne _ _ (Ne.symm hc.1)]

theorem classes_build {s : Structure K d} (bs : List (String × NbBuilder K d)) (m0 : Dict String (Graph K))
    (h : ∀ cb ∈ bs, ∃ b g, cb.2 = .one b ∧ b.get s (some cb.1) = .ok g) :
    ∃ m, bs.foldlM (fun m cb => do pure (Dict.set m cb.1 (← cb.2.getFor s cb.1))) m0 = (.ok m : Py _) := by
  induction bs generalizing m0 with
  | nil => exact ⟨m0, rfl⟩
  | cons cb bs ih =>
    obtain ⟨b, g, h1, h2⟩ := h cb List.mem_cons_self
    obtain ⟨m, hm⟩ := ih (Dict.set m0 cb.1 g) fun cb hcb => h cb (List.mem_cons_of_mem _ hcb)
    refine ⟨m, ?_⟩
    rw [List.foldlM_cons, getFor_ok.2 ⟨b, h1, h2⟩]
    exact hm

theorem get_one_ok {s : Structure K d} {b : Builder K d} {n : Nbhood K} :
    NbBuilder.get s (.one b) = .ok n ↔ ∃ g, b.get s none = .ok g ∧ n = .graph g := by
  rw [NbBuilder.get]
  cases b.get s none with
  | error e => exact ⟨fun h => (by cases h), fun ⟨_, h, _⟩ => by cases h⟩
  | ok g =>
    simp only [ok_bind, pure, Except.pure, Except.ok.injEq]
    exact ⟨fun h => ⟨g, rfl, h.symm⟩, fun ⟨_, h1, h2⟩ => by rw [h2, h1]⟩

theorem get_stochastic_ok {s : Structure K d} {bs : List (NbBuilder K d)} {n : Nbhood K} :
    NbBuilder.get s (.stochastic bs) = .ok n ↔ ∃ ns, List.Forall₂ (fun b n => NbBuilder.get s b = .ok n) bs ns ∧ n = .stochastic ns := by
  rw [NbBuilder.get]
  simp only [← getAll_ok]
  cases NbBuilder.getAll s bs with
  | error e => exact ⟨fun h => (by cases h), fun ⟨_, h, _⟩ => by cases h⟩
  | ok ns =>
    simp only [ok_bind, pure, Except.pure, Except.ok.injEq]
    exact ⟨fun h => ⟨ns, rfl, h.symm⟩, fun ⟨_, h1, h2⟩ => by rw [h2, h1]⟩

theorem get_siteClass_ok {s : Structure K d} {bs : List (String × NbBuilder K d)} {n : Nbhood K} :
    NbBuilder.get s (.siteClass bs) = .ok n ↔
      ∃ m, bs.foldlM (fun m cb => do pure (Dict.set m cb.1 (← cb.2.getFor s cb.1))) [] = (.ok m : Py _) ∧ n = .siteClass m := by
  rw [NbBuilder.get]
  generalize hr : bs.foldlM (fun m cb => do pure (Dict.set m cb.1 (← cb.2.getFor s cb.1))) [] = r
  cases r with
  | error e => exact ⟨fun h => (by cases h), fun ⟨_, h, _⟩ => by cases h⟩
  | ok m =>
    simp only [ok_bind, pure, Except.pure, Except.ok.injEq]
    exact ⟨fun h => ⟨m, rfl, h.symm⟩, fun ⟨_, h1, h2⟩ => by rw [h2, h1]⟩

theorem forall₂_right {α β : Type} {R : α → β → Prop} {l : List α} {m : List β} (h : List.Forall₂ R l m) {a : α} (ha : a ∈ l) : ∃ b, R a b := by
  induction h with
  | nil => simp at ha
  | cons hab _ ih =>
    rcases List.mem_cons.1 ha with rfl | ha
    · exact ⟨_, hab⟩
    · exact ih ha

theorem buildable_of_get (s : Structure K d) : ∀ (b : NbBuilder K d) (n : Nbhood K), NbBuilder.get s b = .ok n → Buildable s b
  | .one b, n, h => by
    obtain ⟨g, hg, -⟩ := get_one_ok.1 h
    exact .one b g hg
  | .stochastic bs, n, h => by
    obtain ⟨ns, hns, -⟩ := get_stochastic_ok.1 h
    refine .stochastic bs fun b hb => ?_
    obtain ⟨n', hn'⟩ := forall₂_right hns hb
    exact buildable_of_get s b n' hn'
  | .siteClass bs, n, h => by
    obtain ⟨m, hm, -⟩ := get_siteClass_ok.1 h
    exact .siteClass bs (classes_ok bs [] m hm).1

theorem get_of_buildable {s : Structure K d} {b : NbBuilder K d} (h : Buildable s b) : ∃ n, NbBuilder.get s b = .ok n := by
  induction h with
  | one b g hg => exact ⟨_, get_one_ok.2 ⟨g, hg, rfl⟩⟩
  | stochastic bs h ih =>
    have : ∃ ns, List.Forall₂ (fun b n => NbBuilder.get s b = .ok n) bs ns := by
      clear h
      induction bs with
      | nil => exact ⟨[], .nil⟩
      | cons b bs ihb =>
        obtain ⟨n, hn⟩ := ih b List.mem_cons_self
        obtain ⟨ns, hns⟩ := ihb fun b hb => ih b (List.mem_cons_of_mem _ hb)
        exact ⟨n :: ns, .cons hn hns⟩
    obtain ⟨ns, hns⟩ := this
    exact ⟨_, get_stochastic_ok.2 ⟨ns, hns, rfl⟩⟩
  | siteClass bs h =>
    obtain ⟨m, hm⟩ := classes_build bs [] h
    exact ⟨_, get_siteClass_ok.2 ⟨m, hm, rfl⟩⟩

/-- C116: a compound builder builds iff every builder of one graph inside it does and no compound builder is the builder of a site class. -/
theorem C116_builds (s : Structure K d) (b : NbBuilder K d) : (∃ n, b.get s = .ok n) ↔ Buildable s b :=
  ⟨fun ⟨n, h⟩ => buildable_of_get s b n h, get_of_buildable⟩

/-- C116: a compound builder as the builder of a site class raises TypeError (if the builders before it build). -/
theorem C116_compound_in_class (s : Structure K d) (before after : List (String × NbBuilder K d)) (c : String) (b : NbBuilder K d)
    (hb : ∀ b', b ≠ .one b') (hbefore : ∀ cb ∈ before, ∃ b g, cb.2 = .one b ∧ b.get s (some cb.1) = .ok g) :
    NbBuilder.get s (.siteClass (before ++ (c, b) :: after)) = .error .typeError := by
  obtain ⟨m, hm⟩ := classes_build before [] hbefore
  have hc : b.getFor s c = .error .typeError := by
    cases b with
    | one b => exact absurd rfl (hb b)
    | stochastic bs => rfl
    | siteClass bs => rfl
  rw [NbBuilder.get, List.foldlM_append, hm, ok_bind, List.foldlM_cons]
  simp only [hc]
  rfl

theorem selectAt_eq (s : Structure K d) (i : ℕ) (l : List (Nbhood K)) (k : ℕ) (draw : ℕ → ℕ) :
    Nbhood.selectAt s i l k draw = match l[k]? with
      | some n => n.select s i draw
      | none => .error .indexError := by
  induction l generalizing k with
  | nil => simp [Nbhood.selectAt]
  | cons n l ih =>
    cases k with
    | zero => simp [Nbhood.selectAt]
    | succ k => simpa [Nbhood.selectAt] using ih k

theorem forall₂_getElem? {α β : Type} {R : α → β → Prop} {l : List α} {m : List β} (h : List.Forall₂ R l m) :
    l.length = m.length ∧ ∀ (k : ℕ) b, m[k]? = some b → ∃ a, l[k]? = some a ∧ R a b := by
  induction h with
  | nil => simp
  | cons hab _ ih =>
    refine ⟨by simp [ih.1], fun k b hk => ?_⟩
    cases k with
    | zero => simp only [List.getElem?_cons_zero, Option.some.injEq] at hk; subst hk; exact ⟨_, by simp, hab⟩
    | succ k => simpa using ih.2 k b (by simpa using hk)

theorem multiWeighted_ok {x : Py (Option (Graph K))} {i : ℕ} {l : List (ℕ × Option K)} :
    multiWeightedNeighborsOf x i = .ok l ↔ ∃ o : Option (Graph K), x = .ok o ∧ l = match o with
      | none => []
      | some g => g.weightedNeighborsOf i := by
  unfold multiWeightedNeighborsOf
  rcases x with e | _ | g
  · exact ⟨fun h => (by cases h), fun ⟨_, h, _⟩ => by cases h⟩
  · simp only [ok_bind, pure, Except.pure, Except.ok.injEq]
    exact ⟨fun h => ⟨_, rfl, h.symm⟩, fun ⟨_, h, h'⟩ => by subst h; exact h'.symm⟩
  · simp only [ok_bind, pure, Except.pure, Except.ok.injEq]
    exact ⟨fun h => ⟨_, rfl, h.symm⟩, fun ⟨_, h, h'⟩ => by subst h; exact h'.symm⟩

theorem canAnswer_of_select {s : Structure K d} {i : ℕ} {b : NbBuilder K d} (hk : KeysDiffer b) : ∀ {n : Nbhood K} (_ : NbBuilder.get s b = .ok n)
    {draw : ℕ → ℕ} {l : List (ℕ × Option K)}, n.weightedNeighborsOf s draw i = .ok l → CanAnswer s i b l := by
  induction hk with
  | one b =>
    intro n hn draw l h
    obtain ⟨g, hg, rfl⟩ := get_one_ok.1 hn
    obtain ⟨o, ho, rfl⟩ := multiWeighted_ok.1 h
    simp only [Nbhood.select, Except.ok.injEq] at ho
    subst ho
    exact .one b g hg
  | stochastic bs _ ih =>
    intro n hn draw l h
    obtain ⟨ns, hns, rfl⟩ := get_stochastic_ok.1 hn
    obtain ⟨hlen, hel⟩ := forall₂_getElem? hns
    obtain ⟨o, ho, rfl⟩ := multiWeighted_ok.1 h
    rw [Nbhood.select, selectAt_eq] at ho
    cases hm : ns[draw 0 % ns.length]? with
    | none => rw [hm] at ho; cases ho
    | some n' =>
      rw [hm] at ho
      obtain ⟨b', hb', hget⟩ := hel _ _ hm
      have hmem := List.mem_of_getElem? hb'
      exact .stochastic bs b' _ hmem (ih b' hmem hget (multiWeighted_ok.2 ⟨o, ho, rfl⟩))
  | siteClass bs hwf =>
    intro n hn draw l h
    obtain ⟨m, hm, rfl⟩ := get_siteClass_ok.1 hn
    obtain ⟨k1, k2⟩ := classes_ok bs [] m hm
    obtain ⟨o, ho, rfl⟩ := multiWeighted_ok.1 h
    rw [Nbhood.select, siteClassNbhood] at ho
    cases hc : s.siteClass i with
    | error e => rw [hc] at ho; cases ho
    | ok c =>
      rw [hc, ok_bind] at ho
      injection ho with ho
      obtain ⟨j1, j2⟩ := k2 hwf c
      by_cases hck : c ∈ Dict.keys bs
      · obtain ⟨cb, hcb, rfl⟩ := List.mem_map.1 hck
        obtain ⟨b, g, e1, e2⟩ := k1 cb hcb
        have hmem : (cb.1, NbBuilder.one b) ∈ bs := by rw [← e1]; exact hcb
        obtain ⟨g', hg', hmg⟩ := j1 b hmem
        rw [hmg] at ho; subst ho
        exact .siteClass bs _ b g' hc hmem hg'
      · rw [j2 hck] at ho
        simp only [Dict.get?] at ho
        subst ho
        exact .other bs c hc hck

theorem select_of_canAnswer {s : Structure K d} {i : ℕ} {b : NbBuilder K d} {l : List (ℕ × Option K)} (h : CanAnswer s i b l) (hk : KeysDiffer b) :
    ∀ {n : Nbhood K}, NbBuilder.get s b = .ok n → ∃ draw, n.weightedNeighborsOf s draw i = .ok l := by
  induction h with
  | one b g hg =>
    intro n hn
    obtain ⟨g', hg', rfl⟩ := get_one_ok.1 hn
    rw [hg] at hg'; injection hg' with hg'; subst hg'
    exact ⟨fun _ => 0, rfl⟩
  | stochastic bs b l hb hl ih =>
    intro n hn
    obtain ⟨ns, hns, rfl⟩ := get_stochastic_ok.1 hn
    cases hk with
    | stochastic _ hk =>
      obtain ⟨k, hkb⟩ := List.mem_iff_getElem?.1 hb
      have hlen := hns.length_eq
      have hlt : k < ns.length := by rw [← hlen]; exact (List.getElem?_eq_some_iff.1 hkb).1
      obtain ⟨b', hb', hget⟩ := (forall₂_getElem? hns).2 k ns[k] (List.getElem?_eq_getElem hlt)
      rw [hkb] at hb'; injection hb' with hb'; subst hb'
      obtain ⟨draw, hd⟩ := ih (hk b hb) hget
      refine ⟨fun t => match t with | 0 => k | t + 1 => draw t, ?_⟩
      obtain ⟨o, ho, e⟩ := multiWeighted_ok.1 hd
      refine multiWeighted_ok.2 ⟨o, ?_, e⟩
      rw [Nbhood.select, selectAt_eq, Nat.mod_eq_of_lt hlt, List.getElem?_eq_getElem hlt]
      exact ho
  | siteClass bs c b g hc hb hg =>
    intro n hn
    obtain ⟨m, hm, rfl⟩ := get_siteClass_ok.1 hn
    cases hk with
    | siteClass _ hwf =>
      obtain ⟨g', hg', hmg⟩ := ((classes_ok bs [] m hm).2 hwf c).1 b hb
      rw [hg] at hg'; injection hg' with hg'; subst hg'
      refine ⟨fun _ => 0, multiWeighted_ok.2 ⟨some g, ?_, rfl⟩⟩
      rw [Nbhood.select, siteClassNbhood, hc, ok_bind, hmg]; rfl
  | other bs c hc hcb =>
    intro n hn
    obtain ⟨m, hm, rfl⟩ := get_siteClass_ok.1 hn
    cases hk with
    | siteClass _ hwf =>
      have hmg := ((classes_ok bs [] m hm).2 hwf c).2 hcb
      refine ⟨fun _ => 0, multiWeighted_ok.2 ⟨none, ?_, rfl⟩⟩
      rw [Nbhood.select, siteClassNbhood, hc, ok_bind, hmg]; rfl

/-- C116: whatever is drawn, the answer for a site is a possible one, and every possible answer is given for some outcome of the random choices. -/
theorem C116_answers {s : Structure K d} {b : NbBuilder K d} (hk : KeysDiffer b) {n : Nbhood K} (hn : b.get s = .ok n) (i : ℕ)
    (l : List (ℕ × Option K)) : (∃ draw, n.weightedNeighborsOf s draw i = .ok l) ↔ CanAnswer s i b l :=
  ⟨fun ⟨_, h⟩ => canAnswer_of_select hk hn h, fun h => select_of_canAnswer h hk hn⟩

/-- C116: the same call without weights lists the same ids. -/
theorem C116_ids (s : Structure K d) (n : Nbhood K) (draw : ℕ → ℕ) (i : ℕ) :
    n.neighborsOf s draw i = (n.weightedNeighborsOf s draw i).map (List.map Prod.fst) := by
  unfold Nbhood.neighborsOf Nbhood.weightedNeighborsOf multiNeighborsOf multiWeightedNeighborsOf
  rcases n.select s i draw with e | _ | g
  · rfl
  · rfl
  · simp only [ok_bind, pure, Except.pure, Except.map, Graph.neighborsOf, Graph.weightedNeighborsOf, List.map_map]
    congr 1
    exact (List.map_id _).symm

/-- C116: if no random choice is made among no members, every call for a site of the structure succeeds. -/
theorem C116_total {s : Structure K d} {b : NbBuilder K d} (hs : Stocked b) : ∀ {n : Nbhood K}, b.get s = .ok n → ∀ (draw : ℕ → ℕ) (i : ℕ) (c : String),
    s.siteClass i = .ok c → ∃ l, n.weightedNeighborsOf s draw i = .ok l := by
  induction hs with
  | one b =>
    intro n hn draw i c hc
    obtain ⟨g, hg, rfl⟩ := get_one_ok.1 hn
    exact ⟨_, rfl⟩
  | stochastic bs hne _ ih =>
    intro n hn draw i c hc
    obtain ⟨ns, hns, rfl⟩ := get_stochastic_ok.1 hn
    obtain ⟨hlen, hel⟩ := forall₂_getElem? hns
    have hpos : 0 < ns.length := by rw [← hlen]; exact List.length_pos_iff.2 hne
    have hlt := Nat.mod_lt (draw 0) hpos
    have hm := List.getElem?_eq_getElem hlt
    obtain ⟨b', hb', hget⟩ := hel _ _ hm
    obtain ⟨l, hl⟩ := ih b' (List.mem_of_getElem? hb') hget (fun k => draw (k + 1)) i c hc
    obtain ⟨o, ho, rfl⟩ := multiWeighted_ok.1 hl
    refine ⟨_, multiWeighted_ok.2 ⟨o, ?_, rfl⟩⟩
    rw [Nbhood.select, selectAt_eq, hm]
    exact ho
  | siteClass bs =>
    intro n hn draw i c hc
    obtain ⟨m, hm, rfl⟩ := get_siteClass_ok.1 hn
    refine ⟨_, multiWeighted_ok.2 ⟨Dict.get? m c, ?_, rfl⟩⟩
    rw [Nbhood.select, siteClassNbhood, hc]; rfl

/-- C116: a choice among no members raises IndexError. -/
theorem C116_empty (s : Structure K d) : ∃ n, NbBuilder.get s (.stochastic []) = .ok n ∧
    ∀ draw i, n.weightedNeighborsOf s draw i = .error .indexError ∧ n.neighborsOf s draw i = .error .indexError := by
  refine ⟨.stochastic [], rfl, fun draw i => ?_⟩
  have e : (Nbhood.stochastic [] : Nbhood K).select s i draw = .error .indexError := by
    rw [Nbhood.select, selectAt_eq]; rfl
  unfold Nbhood.weightedNeighborsOf Nbhood.neighborsOf
  rw [e]
  exact ⟨rfl, rfl⟩

/-- C116: every possible answer lists known sites other than the site itself, each once. -/
theorem C116_known {s : Structure K d} (h : s.Reachable) {b : NbBuilder K d} {i : ℕ} {l : List (ℕ × Option K)} (hl : CanAnswer s i b l) :
    (∀ jw ∈ l, jw.1 ∈ s.siteIds ∧ jw.1 ≠ i) ∧ (l.map Prod.fst).Nodup := by
  have key : ∀ (b : Builder K d) (cls : Option String) (g : Graph K), b.get s cls = .ok g →
      (∀ jw ∈ g.weightedNeighborsOf i, jw.1 ∈ s.siteIds ∧ jw.1 ≠ i) ∧ ((g.weightedNeighborsOf i).map Prod.fst).Nodup := by
    intro b cls g hg
    obtain ⟨h1, h2⟩ := C55_known_and_other h b cls g hg i
    have e : (g.weightedNeighborsOf i).map Prod.fst = g.neighborsOf i := by
      simp only [Graph.neighborsOf, Graph.weightedNeighborsOf, List.map_map]
      exact List.map_id _
    refine ⟨fun jw hjw => ?_, by rw [e]; exact h2⟩
    obtain ⟨h3, h4, -⟩ := h1 jw.1 (by rw [← e]; exact List.mem_map_of_mem hjw)
    exact ⟨h3, h4⟩
  induction hl with
  | one b g hg => exact key b _ g hg
  | stochastic bs b l _ _ ih => exact ih
  | siteClass bs c b g _ _ hg => exact key b _ g hg
  | other bs c _ _ => simp

/-- A stochastic builder with a builder by site class among its members, on a structure with two sites of classes "A" and "B": it builds, no call
raises, for the site of class "A" one of the possible answers is the empty list, and as the builder of a site class it raises TypeError. -/
example : ∃ (r : ℚ) (b : NbBuilder ℚ 1), b = .stochastic [.siteClass [("B", .one (.distance r))], .one (.distance r)] ∧ KeysDiffer b ∧ Stocked b ∧
    Buildable openPair b ∧ openPair.Reachable ∧ CanAnswer openPair 0 b [] ∧ (∃ l, l ≠ [] ∧ CanAnswer openPair 0 b l) ∧
    NbBuilder.get openPair (.siteClass [("B", .one (.distance r)), ("A", b)]) = .error .typeError := by
  have hr : openPair.Reachable := reachable_built openCell_regular openPair_distinct
  obtain ⟨x0, hx0⟩ : ∃ x, openPair.siteLocation 0 = .ok x := ⟨_, siteLocation_iff.2 ⟨_, getSite_built _ _ 0, rfl⟩⟩
  obtain ⟨x1, hx1⟩ : ∃ x, openPair.siteLocation 1 = .ok x := ⟨_, siteLocation_iff.2 ⟨_, getSite_built _ _ 1, rfl⟩⟩
  obtain ⟨r, hr1⟩ : ∃ r, openPair.lattice.dist x0 x1 < r := ⟨_, lt_add_one _⟩
  have hb : ∀ cls, ∃ g, (Builder.distance r).get openPair cls = .ok g := fun cls => ⟨_, (Builder.get_eq hr _ _).1 fun t ht nb hnb e => by
    obtain ⟨o, w⟩ := nb
    obtain ⟨t', -, h2, -⟩ := (mem_getNeighbors_byDistance hr (.distance r)).1 hnb
    simp only at e
    rw [e] at h2; cases h2⟩
  have h0 : openPair.siteClass 0 = .ok "A" := siteClass_iff.2 ⟨_, getSite_built _ _ 0, rfl⟩
  obtain ⟨g, hg⟩ := hb none
  obtain ⟨g', hg'⟩ := hb (some "B")
  have hc : ∀ cb ∈ [("B", NbBuilder.one (.distance r))], ∃ (b : Builder ℚ 1) (g : Graph ℚ), cb.2 = .one b ∧ b.get openPair (some cb.1) = .ok g := by
    intro cb hcb
    rw [List.mem_singleton] at hcb
    subst hcb
    exact ⟨_, g', rfl, hg'⟩
  refine ⟨r, _, rfl, ?_, ?_, ?_, hr, ?_, ?_, ?_⟩
  · refine .stochastic _ fun b hb => ?_
    simp only [List.mem_cons, List.not_mem_nil, or_false] at hb
    rcases hb with rfl | rfl
    · exact .siteClass _ (by simp [Dict.WF])
    · exact .one _
  · refine .stochastic _ (by simp) fun b hb => ?_
    simp only [List.mem_cons, List.not_mem_nil, or_false] at hb
    rcases hb with rfl | rfl
    · exact .siteClass _
    · exact .one _
  · refine .stochastic _ fun b hb => ?_
    simp only [List.mem_cons, List.not_mem_nil, or_false] at hb
    rcases hb with rfl | rfl
    · exact .siteClass _ hc
    · exact .one _ g hg
  · exact .stochastic _ _ _ List.mem_cons_self (.other _ "A" h0 (by simp))
  · refine ⟨_, ?_, .stochastic _ _ _ (List.mem_cons_of_mem _ List.mem_cons_self) (.one _ g hg)⟩
    obtain ⟨g2, hg2, hmem⟩ := C56_distance hr (.distance r) _ (.distance r)
    rw [hg] at hg2; injection hg2 with hg2; subst hg2
    exact List.ne_nil_of_mem ((hmem 0 1 _).2 ⟨by simp, x0, x1, _, hx0, hx1, rfl, hr1, rfl⟩)
  · exact C116_compound_in_class openPair [("B", .one (.distance r))] [] "A" _ (by simp) hc

end Pyl
