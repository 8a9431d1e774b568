import Verif.Props.RawLattice
import Verif.Spec.RawStructure
import Verif.Lemmas.Box
import Verif.Props.Build
/-
C142: structures and locations, positions and counts of every length.
-/
set_option autoImplicit false
set_option linter.unusedSectionVars false

namespace Pyl
open Pyl.Spec

namespace RawStructure
variable {K : Type} [Field K] [LinearOrder K] [FloorRing K] {d : ℕ}

/-! ### dicts -/

theorem get?_map_val {α β γ : Type} [DecidableEq α] (f : β → γ) (D : Dict α β) (k : α) :
    Dict.get? (D.map fun p => (p.1, f p.2)) k = (Dict.get? D k).map f := by
  induction D with
  | nil => rfl
  | cons p D ih =>
    rw [List.map_cons, Dict.get?_cons, ← Prod.mk.eta (p := p), Dict.get?_cons]
    split_ifs
    · rfl
    · exact ih

theorem set_map_val {α β γ : Type} [DecidableEq α] (f : β → γ) (D : Dict α β) (k : α) (v : β) :
    Dict.set (D.map fun p => (p.1, f p.2)) k (f v) = (Dict.set D k v).map fun p => (p.1, f p.2) := by
  induction D with
  | nil => rfl
  | cons p D ih =>
    obtain ⟨k', v'⟩ := p
    simp only [List.map_cons, Dict.set]
    split_ifs
    · rfl
    · rw [ih]
      rfl

theorem get?_map_key {α α' β : Type} [DecidableEq α] [DecidableEq α'] {g : α → α'} (hg : Function.Injective g) (D : Dict α β) (k : α) :
    Dict.get? (D.map fun p => (g p.1, p.2)) (g k) = Dict.get? D k := by
  induction D with
  | nil => rfl
  | cons p D ih =>
    rw [List.map_cons, Dict.get?_cons, ← Prod.mk.eta (p := p), Dict.get?_cons]
    by_cases h : p.1 = k
    · rw [if_pos h, if_pos (congrArg g h)]
    · rw [if_neg h, if_neg fun e => h (hg e)]
      exact ih

theorem set_map_key {α α' β : Type} [DecidableEq α] [DecidableEq α'] {g : α → α'} (hg : Function.Injective g) (D : Dict α β) (k : α) (v : β) :
    Dict.set (D.map fun p => (g p.1, p.2)) (g k) v = (Dict.set D k v).map fun p => (g p.1, p.2) := by
  induction D with
  | nil => rfl
  | cons p D ih =>
    obtain ⟨k', v'⟩ := p
    simp only [List.map_cons, Dict.set]
    by_cases h : k' = k
    · rw [if_pos h, if_pos (congrArg g h)]
      rfl
    · rw [if_neg h, if_neg fun e => h (hg e), ih]
      rfl

/-! ### adding and finding a site -/

theorem withOffset_ofFn {s : RawStructure K} (hd : s.lattice.dim = d) (x : Fin d → K) :
    s.withOffset (List.ofFn x) = .ok (List.ofFn (Structure.withOffset x)) := by
  unfold withOffset
  rw [hd, ← List.ofFn_const, bcast_ofFn]
  show Except.ok (rounded _) = _
  unfold rounded
  rw [List.map_ofFn]
  rfl

theorem transformed_ofFn {s : RawStructure K} {S : Structure K d} (h : Mirrors s S) (hr : S.lattice.Regular) (x : Fin d → K) :
    s.transformed (List.ofFn x) = .ok (List.ofFn (S.transformed x)) := by
  unfold transformed
  rw [h.lattice.periodized hr]
  exact withOffset_ofFn h.dim _

/-- **C142.** `add_site` with a location of the right length does what the `d`-dimensional structure does. -/
theorem C142_add {s : RawStructure K} {S : Structure K d} (h : Mirrors s S) (hr : S.lattice.Regular) (cls : String) (loc : Fin d → K) :
    (s.addSite cls (List.ofFn loc)).2 = (S.addSite cls loc).2 ∧ Mirrors (s.addSite cls (List.ofFn loc)).1 (S.addSite cls loc).1 := by
  have hn : s.sites.length = S.sites.length := by rw [h.sites, List.length_map]
  have hk : Dict.get? s.lookup (List.ofFn (S.transformed loc)) = Dict.get? S.lookup (S.transformed loc) := by
    rw [h.lookup]
    exact get?_map_key List.ofFn_injective _ _
  unfold addSite Structure.addSite
  simp only [h.lattice.periodized hr, transformed_ofFn h hr, hk, hn]
  by_cases hc : Dict.get? S.lookup (S.transformed loc) = none
  · rw [if_pos hc, if_pos hc]
    refine ⟨rfl, h.lattice, h.dim, ?_, ?_, ?_⟩
    · show Dict.set s.sites _ _ = _
      rw [h.sites]
      have := set_map_val (fun t : Site K d => (⟨t.cls, List.ofFn t.loc, t.id⟩ : RawSite K)) S.sites S.sites.length
        ⟨cls, Structure.rounded (S.lattice.periodized loc), S.sites.length⟩
      rw [← this]
      congr 2
      unfold rounded
      rw [List.map_ofFn]
      rfl
    · show s.siteIds ++ _ = S.siteIds ++ _
      rw [h.ids]
    · show Dict.set s.lookup _ _ = _
      rw [h.lookup]
      exact set_map_key List.ofFn_injective _ _ _
  · rw [if_neg hc, if_neg hc]
    exact ⟨rfl, h⟩

/-- **C142.** With a location of any other length `add_site` and `site_at` raise ValueError and change nothing; if the lattice
vectors are dependent, they raise LinAlgError for every location. -/
theorem C142_refuses {s : RawStructure K} {S : Structure K d} (h : Mirrors s S) (cls : String) (loc : List K) :
    (S.lattice.Regular → loc.length ≠ d → s.addSite cls loc = (s, .error .valueError) ∧ s.siteAt loc = .error .valueError) ∧
    (¬ S.lattice.Regular → s.addSite cls loc = (s, .error .linAlgError) ∧ s.siteAt loc = .error .linAlgError) := by
  have key : ∀ e, s.lattice.periodized loc = .error e → s.addSite cls loc = (s, .error e) ∧ s.siteAt loc = .error e := by
    intro e he
    constructor
    · unfold addSite
      simp only [he]
    · unfold siteAt transformed
      rw [he]
      rfl
  exact ⟨fun hr hl => key _ (h.lattice.periodized_other hr loc hl), fun hr => key _ (h.lattice.dependent hr loc loc).2.1⟩

/-- **C142.** `site_at` with a location of the right length. -/
theorem C142_at {s : RawStructure K} {S : Structure K d} (h : Mirrors s S) (hr : S.lattice.Regular) (loc : Fin d → K) :
    s.siteAt (List.ofFn loc) = .ok ((S.siteAt loc).map fun t => ⟨t.cls, List.ofFn t.loc, t.id⟩) := by
  have hk : Dict.get? s.lookup (List.ofFn (S.transformed loc)) = Dict.get? S.lookup (S.transformed loc) := by
    rw [h.lookup]
    exact get?_map_key List.ofFn_injective _ _
  unfold siteAt Structure.siteAt
  rw [transformed_ofFn h hr]
  show (match Dict.get? s.lookup (List.ofFn (S.transformed loc)) with | some i => _ | none => _) = _
  rw [hk]
  cases Dict.get? S.lookup (S.transformed loc) with
  | none => rfl
  | some i =>
    show Except.ok (Dict.get? s.sites i) = Except.ok ((Dict.get? S.sites i).map _)
    rw [h.sites]
    congr 1
    exact get?_map_val (fun t : Site K d => (⟨t.cls, List.ofFn t.loc, t.id⟩ : RawSite K)) S.sites i

/-- **C142.** Lattices of every accepted shape: a site can be added to a structure only if the matrix is regular, the location
has one entry for each row of the matrix, there is one flag or one for each row, and the vectors have one entry or one for each
row (or the matrix has one row).  Otherwise `add_site` raises and changes nothing. -/
theorem C142_shape (s : RawStructure K) (cls : String) (loc : List K) :
    (s.addSite cls loc).1 = s ∧ (∃ e, (s.addSite cls loc).2 = .error e) ∨
    (s.lattice.matrix.det ≠ 0 ∧ loc.length = s.lattice.size ∧ (s.lattice.flags.length = 1 ∨ s.lattice.flags.length = s.lattice.size) ∧
      (s.lattice.dim = 1 ∨ s.lattice.dim = s.lattice.size ∨ s.lattice.size = 1)) := by
  unfold addSite
  cases hp : s.lattice.periodized loc with
  | error e => exact Or.inl ⟨rfl, e, rfl⟩
  | ok per =>
    cases ht : s.transformed loc with
    | error e => exact Or.inl ⟨rfl, e, rfl⟩
    | ok key =>
      right
      unfold transformed at ht
      rw [hp] at ht
      obtain ⟨w, hw, -⟩ := bind_ok (show (bcast _ per _ >>= _) = _ from ht)
      have hp' := hp
      unfold RawLattice.periodized at hp
      obtain ⟨f, h1, hp⟩ := bind_ok hp
      obtain ⟨g, h2, hp⟩ := bind_ok hp
      unfold RawLattice.periodize at h2
      obtain ⟨c, h3, h2⟩ := bind_ok h2
      obtain ⟨hdet, hl, hl'⟩ := RawLattice.toFrac_ok h1
      obtain ⟨hg, hper⟩ := RawLattice.toCart_ok hp
      refine ⟨hdet, hl, RawLattice.bcast_flags_length hl' (by simpa using hl') h3 h2 hg, ?_⟩
      have := bcast_length hw
      rw [List.length_replicate] at this
      omega

/-- A list as the list of its entries. -/
theorem ofFn_getD {l : List K} (h : l.length = d) : List.ofFn (fun i : Fin d => l.getD i 0) = l := by
  apply List.ext_getElem
  · simp [h]
  · intro i h1 h2
    simp [List.getD_eq_getElem?_getD, h2]

/-- **C142.** Lattices of every shape: exactly in these cases a site can be added to an empty structure. -/
theorem C142_first (R : RawLattice K) (cls : String) (loc : List K) :
    ((new R).addSite cls loc).2 = .ok 0 ↔
      R.matrix.det ≠ 0 ∧ loc.length = R.size ∧ (R.flags.length = 1 ∨ R.flags.length = R.size) ∧
        (R.dim = 1 ∨ R.dim = R.size ∨ R.size = 1) := by
  constructor
  · intro h
    rcases C142_shape (new R) cls loc with ⟨-, e, he⟩ | h'
    · rw [h] at he
      cases he
    · exact h'
  · rintro ⟨h1, h2, h3, h4⟩
    obtain ⟨L, hL, hm⟩ := RawLattice.fits_view R h3
    have hr : L.Regular := (RawLattice.regular_iff_det L).2 (by rw [hm]; exact h1)
    have hp : R.periodized loc = .ok (List.ofFn (L.periodized fun i => loc.getD i 0)) := by
      have := hL.computes.periodized hr fun i => loc.getD i 0
      rwa [ofFn_getD h2] at this
    have ht : ∃ key, (new R).transformed loc = .ok key := by
      unfold transformed
      show ∃ key, (R.periodized loc >>= _) = _
      rw [hp]
      show ∃ key, (bcast _ _ (List.replicate R.dim VEC_OFFSET) >>= _) = _
      cases hb : bcast (fun a b : K => a + b) (List.ofFn (L.periodized fun i => loc.getD i 0)) (List.replicate R.dim VEC_OFFSET) with
      | ok w => exact ⟨_, rfl⟩
      | error e =>
        have := bcast_error hb
        simp only [List.length_ofFn, List.length_replicate] at this
        omega
    obtain ⟨key, ht⟩ := ht
    unfold addSite
    have hp' : (new R).lattice.periodized loc = _ := hp
    simp only [hp', ht]
    rfl

/-! ### building -/

/-- Both calls return related values or raise the same exception. -/
def Both {σ σ' : Type} (I : σ → σ' → Prop) (r : Py σ) (r' : Py σ') : Prop :=
  (∃ s s', r = .ok s ∧ r' = .ok s' ∧ I s s') ∨ ∃ e, r = .error e ∧ r' = .error e

theorem foldlM_both {α α' σ σ' : Type} {P : α → α' → Prop} {I : σ → σ' → Prop} {f : σ → α → Py σ} {f' : σ' → α' → Py σ'}
    (h : ∀ s s' a a', I s s' → P a a' → Both I (f s a) (f' s' a')) {l : List α} {l' : List α'} (hl : List.Forall₂ P l l') :
    ∀ {s : σ} {s' : σ'}, I s s' → Both I (l.foldlM f s) (l'.foldlM f' s') := by
  induction hl with
  | nil => exact fun hI => Or.inl ⟨_, _, rfl, rfl, hI⟩
  | cons hp _ ih =>
    intro s s' hI
    rw [List.foldlM_cons, List.foldlM_cons]
    rcases h _ _ _ _ hI hp with ⟨t, t', h1, h2, h3⟩ | ⟨e, h1, h2⟩
    · rw [h1, h2]
      exact ih h3
    · rw [h1, h2]
      exact Or.inr ⟨e, rfl, rfl⟩

/-- The invariant of `build_from`. -/
def Inv (L' : Lattice K d) (s : RawStructure K) (S : Structure K d) : Prop := Mirrors s S ∧ S.lattice = L'

theorem addOrRaise_both {L' : Lattice K d} (hr : L'.Regular) {s : RawStructure K} {S : Structure K d} (h : Inv L' s S) (cls : String)
    (loc : Fin d → K) : Both (Inv L') (s.addOrRaise cls (List.ofFn loc)) (S.addOrRaise (cls, loc)) := by
  obtain ⟨h, rfl⟩ := h
  obtain ⟨h1, h2⟩ := C142_add h hr cls loc
  have h3 : (S.addSite cls loc).1.lattice = S.lattice := by
    unfold Structure.addSite
    simp only
    split_ifs <;> rfl
  unfold addOrRaise Structure.addOrRaise
  revert h1 h2 h3
  generalize s.addSite cls (List.ofFn loc) = a
  generalize S.addSite cls loc = b
  obtain ⟨a1, a2⟩ := a
  obtain ⟨b1, b2⟩ := b
  intro h1 h2 h3
  simp only at h1 h2 h3
  subst h1
  cases a2 with
  | ok i => exact Or.inl ⟨_, _, rfl, rfl, h2, h3⟩
  | error e => exact Or.inr ⟨e, rfl, rfl⟩

theorem bcast_stands {l : List K} {v : Fin d → K} (h : Stands l v) (pt : Fin d → K) :
    bcast (fun a b => a + b) (List.ofFn pt) l = .ok (List.ofFn (pt + v)) := by
  rcases h with rfl | ⟨x, rfl, rfl⟩
  · exact bcast_ofFn _ _ _
  · exact bcast_one _ _ _

/-- The same position: the same class, and numbers that stand for the vector. -/
def SamePos (a : String × List K) (b : String × (Fin d → K)) : Prop := a.1 = b.1 ∧ Stands a.2 b.2

theorem placeSite_both {R : RawLattice K} {L L' : Lattice K d} (hR : RawLattice.Fits R L) (hr : L'.Regular) (frac : Bool) (pt : Fin d → K)
    {s : RawStructure K} {S : Structure K d} (h : Inv L' s S) {a : String × List K} {b : String × (Fin d → K)} (hab : SamePos a b) :
    Both (Inv L') (placeSite R frac (List.ofFn pt) s a) (S.addOrRaise (b.1, if frac then L.toCart (pt + b.2) else pt + b.2)) := by
  unfold placeSite
  rw [bcast_stands hab.2, hab.1]
  cases frac with
  | false => exact addOrRaise_both hr h _ _
  | true =>
    show Both _ (R.toCart (List.ofFn (pt + b.2)) >>= _) _
    rw [hR.computes.cart]
    exact addOrRaise_both hr h _ _

theorem cellSites_entries (L : Lattice K d) (m : Structure.Motif K d) (frac : Bool) (c : Fin d → K) :
    Structure.cellSites L m.toDict frac c = m.entries.map fun b =>
      (b.1, if frac then L.toCart ((if frac then c else Matrix.mulVec L.mat c) + b.2) else (if frac then c else Matrix.mulVec L.mat c) + b.2) := by
  cases m with
  | byClass m =>
    simp only [Structure.cellSites, Structure.Motif.toDict, Structure.Motif.entries, List.map_flatMap, List.map_map, Function.comp_def]
  | plain l =>
    simp only [Structure.cellSites, Structure.Motif.toDict, Structure.Motif.entries, List.flatMap_cons, List.flatMap_nil, List.append_nil,
      List.map_map, Function.comp_def]

theorem placeCell_both {R : RawLattice K} {L L' : Lattice K d} (hR : RawLattice.Fits R L) (hr : L'.Regular) (frac : Bool)
    {motif : List (String × List K)} {m : Structure.Motif K d} (hm : List.Forall₂ SamePos motif m.entries) {c : List ℤ} (hc : c.length = d)
    {s : RawStructure K} {S : Structure K d} (h : Inv L' s S) :
    Both (Inv L') (placeCell R frac motif s c) ((Structure.cellSites L m.toDict frac (Structure.vecOf c)).foldlM Structure.addOrRaise S) := by
  have hco : (c.map fun k => ((k : ℤ) : K)) = List.ofFn (Structure.vecOf c : Fin d → K) := by
    apply List.ext_getElem
    · simp [hc]
    · intro i h1 h2
      have : i < c.length := by simpa using h1
      simp [Structure.vecOf, List.getD_eq_getElem?_getD, this]
  rw [cellSites_entries, List.foldlM_map]
  unfold placeCell
  simp only [hco]
  cases frac with
  | false =>
    show Both _ (RawLattice.dotCol R.matrix _ >>= _) _
    rw [hR.dotCol_eq, RawLattice.dotCol_ofFn]
    exact foldlM_both (P := SamePos) (I := Inv L') (fun _ _ _ _ hI hab => placeSite_both hR hr false _ hI hab) hm h
  | true => exact foldlM_both (P := SamePos) (I := Inv L') (fun _ _ _ _ hI hab => placeSite_both hR hr true _ hI hab) hm h

end RawStructure

namespace RawLattice
variable {K : Type} [Field K] [LinearOrder K] [FloorRing K] {d : ℕ}

/-- `R` holds the vectors of `L` and flags that fit. -/
structure Square (R : RawLattice K) (L : Lattice K d) : Prop where
  count : R.vecs.length = d
  length : ∀ v ∈ R.vecs, v.length = d
  entry : ∀ i j : Fin d, (R.vecs.getD i []).getD j 0 = L.mat i j
  flags : R.flags = List.ofFn L.periodic ∨ ∃ b, R.flags = [b] ∧ L.periodic = fun _ => b

theorem Square.fits {R : RawLattice K} {L : Lattice K d} (h : Square R L) : Fits R L := fits_square h.count h.length h.entry h.flags

theorem Square.scaled {R : RawLattice K} {L : Lattice K d} (h : Square R L) (hd : 0 < d) {n : List ℤ} (hn : d ≤ n.length) :
    ∃ R', R.scaled n = .ok R' ∧ R'.dim = d ∧ Square R' (L.scaled fun i => n.getD i 0) := by
  have hc : (List.zipWith (fun (amt : ℤ) v => v.map fun x => x * (amt : K)) n R.vecs).length = d := by
    rw [List.length_zipWith, h.count]
    omega
  have hl : ∀ v ∈ List.zipWith (fun (amt : ℤ) v => v.map fun x => x * (amt : K)) n R.vecs, v.length = d := by
    intro v hv
    obtain ⟨i, hi, rfl⟩ := List.mem_iff_getElem.1 hv
    rw [List.getElem_zipWith, List.length_map]
    exact h.length _ (List.getElem_mem _)
  have hne : List.zipWith (fun (amt : ℤ) v => v.map fun x => x * (amt : K)) n R.vecs ≠ [] := by
    intro e
    rw [e] at hc
    exact absurd hc (by simpa using hd.ne)
  refine ⟨_, init_of _ hne hl (by rw [hc]), dim_of hne hl, hc, hl, fun i j => ?_, h.flags⟩
  have hi : (i : ℕ) < R.vecs.length := by rw [h.count]; exact i.isLt
  have hi' : (i : ℕ) < n.length := lt_of_lt_of_le i.isLt hn
  have hj : (j : ℕ) < (R.vecs[(i : ℕ)]).length := by rw [h.length _ (List.getElem_mem _)]; exact j.isLt
  show _ = L.mat i j * ((n.getD i 0 : ℤ) : K)
  rw [← h.entry]
  simp [List.getD_eq_getElem?_getD, hi, hi', hj]

end RawLattice

namespace RawStructure
open RawLattice (Square)
variable {K : Type} [Field K] [LinearOrder K] [IsStrictOrderedRing K] [FloorRing K] {d : ℕ}

theorem cells_long {n : List ℤ} (hn : d ≤ n.length) :
    getPointsInBox (List.replicate d 0) n = cells fun i : Fin d => n.getD i 0 := by
  unfold cells getPointsInBox
  congr 2
  apply List.ext_getElem
  · simp
    omega
  · intro i h1 h2
    have : i < n.length := by simp at h1; omega
    simp [List.getD_eq_getElem?_getD, this]

/-- `build_from` for an object that holds the vectors of `L`. -/
theorem buildFrom_both {R : RawLattice K} {L : Lattice K d} (hR : Square R L) (hd : 0 < d) (hr : L.Regular) {n : List ℤ} (hn : d ≤ n.length)
    (frac : Bool) {motif : List (String × List K)} {m : Structure.Motif K d} (hm : List.Forall₂ SamePos motif m.entries) :
    AgreeOutcome (buildFrom R n motif frac) (Structure.buildFrom L (fun i => n.getD i 0) m frac) := by
  obtain ⟨R', h1, h2, h3⟩ := hR.scaled hd hn
  unfold buildFrom Structure.buildFrom
  rw [h1]
  show AgreeOutcome ((getPointsInBox (List.replicate R'.dim 0) n).foldlM _ _) ((cells _).foldlM _ _)
  rw [h2, cells_long hn]
  have hnew : Inv (L.scaled fun i => n.getD i 0) (new R') (Structure.new (L.scaled fun i => n.getD i 0)) :=
    ⟨⟨h3.fits.computes, h2, rfl, rfl, rfl⟩, rfl⟩
  have weak : ∀ {r r'}, Both (Inv (L.scaled fun i => n.getD i 0)) r r' → AgreeOutcome r r' := by
    rintro r r' (⟨s, S, e1, e2, e3⟩ | h)
    · exact Or.inl ⟨s, S, e1, e2, e3.1⟩
    · exact Or.inr h
  by_cases hp : ∀ i : Fin d, 0 < n.getD i 0
  · have hr' : (L.scaled fun i => n.getD i 0).Regular := (Lattice.C38_scaled L _).2.2.2.1 hr fun i => (hp i).ne'
    apply weak
    refine foldlM_both (P := fun c c' => c = c' ∧ c.length = d) (fun s S c c' hI hc => ?_) ?_ hnew
    · obtain ⟨rfl, hc⟩ := hc
      exact placeCell_both hR.fits hr' frac hm hc hI
    · rw [List.forall₂_same]
      exact fun c hc => ⟨rfl, (mem_cells.1 hc).1⟩
  · have : cells (fun i : Fin d => n.getD i 0) = [] := by
      push Not at hp
      obtain ⟨i, hi⟩ := hp
      rw [List.eq_nil_iff_forall_not_mem]
      intro c hc
      have := (mem_cells.1 hc).2 i
      omega
    rw [this]
    exact weak (Or.inl ⟨_, _, rfl, rfl, hnew⟩)

/-- The object that the constructor makes of a square list of vectors holds its vectors. -/
theorem square_of_init {vecs : List (List K)} {p : PeriodicArg} {L : Lattice K d} (h : Lattice.init vecs p = .ok ⟨d, L⟩) {R : RawLattice K}
    (hR : RawLattice.init vecs p = .ok R) : 0 < d ∧ R.dim = d ∧ Square R L := by
  obtain ⟨h1, h2, h3, h4, h5⟩ := RawLattice.latticeInit_ok h
  obtain ⟨rfl, -, -, -⟩ := RawLattice.init_ok hR
  exact ⟨h2 ▸ List.length_pos_iff.2 h1, RawLattice.dim_of h1 h3, h2, h3, h4, Or.inl h5⟩

/-- **C142.** `build_from` on a lattice made of a square list of independent vectors, with at least one count for each axis and
positions of `d` numbers or of one number: it does what it does with the first `d` counts and with the single numbers written
out on every axis. -/
theorem C142_build {vecs : List (List K)} {p : PeriodicArg} {L : Lattice K d} (h : Lattice.init vecs p = .ok ⟨d, L⟩) {R : RawLattice K}
    (hR : RawLattice.init vecs p = .ok R) (hr : L.Regular) {n : List ℤ} (hn : d ≤ n.length) (frac : Bool)
    {motif : List (String × List K)} {m : Structure.Motif K d} (hm : List.Forall₂ SamePos motif m.entries) :
    AgreeOutcome (buildFrom R n motif frac) (Structure.buildFrom L (fun i => n.getD i 0) m frac) :=
  buildFrom_both (square_of_init h hR).2.2 (square_of_init h hR).1 hr hn frac hm

/-- **C142.** `StructureBuilder.build` likewise, for every size argument. -/
theorem C142_builder {vecs : List (List K)} {p : PeriodicArg} {L : Lattice K d} (h : Lattice.init vecs p = .ok ⟨d, L⟩) {R : RawLattice K}
    (hR : RawLattice.init vecs p = .ok R) (hr : L.Regular) (size : Structure.SizeArg) (frac : Bool)
    {motif : List (String × List K)} {m : Structure.Motif K d} (hm : List.Forall₂ SamePos motif m.entries) :
    AgreeOutcome (build R motif frac size) (Structure.build L m frac size) := by
  obtain ⟨-, hdim, -⟩ := square_of_init h hR
  cases size with
  | int k =>
    unfold build Structure.build
    simp only [hdim]
    have := C142_build h hR hr (n := List.replicate d k) (by simp) frac hm
    have e : (fun i : Fin d => (List.replicate d k).getD i 0) = fun _ => k := by
      funext i
      simp [List.getD_eq_getElem?_getD]
    rwa [e] at this
  | tup l =>
    unfold build Structure.build
    simp only [hdim]
    by_cases hl : l.length = d
    · rw [if_pos hl, dif_pos hl]
      have := C142_build h hR hr (n := l) hl.ge frac hm
      have e : (fun i : Fin d => l.getD i 0) = fun i => l.get (i.cast hl.symm) := by
        funext i
        have : (i : ℕ) < l.length := hl ▸ i.isLt
        simp [List.getD_eq_getElem?_getD, this]
      rwa [e] at this
    · rw [if_neg hl, dif_neg hl]
      exact Or.inr ⟨_, rfl, rfl⟩

/-- **C142.** With fewer counts than axes no structure with a site is ever made: `build_from` raises, or there was nothing to
place. -/
theorem C142_few_counts {vecs : List (List K)} {p : PeriodicArg} {L : Lattice K d} (h : Lattice.init vecs p = .ok ⟨d, L⟩) {R : RawLattice K}
    (hR : RawLattice.init vecs p = .ok R) {n : List ℤ} (hn : n.length < d) (frac : Bool) (motif : List (String × List K))
    {s : RawStructure K} (hs : buildFrom R n motif frac = .ok s) : s.sites = [] := by
  obtain ⟨hd, hdim, hsq⟩ := square_of_init h hR
  unfold buildFrom at hs
  obtain ⟨R', h1, hs⟩ := bind_ok hs
  obtain ⟨e, hne, hl, hsz⟩ := RawLattice.init_ok h1
  have hc : R'.vecs.length = n.length := by
    rw [e]
    simp only [List.length_zipWith, hsq.count]
    omega
  have hd' : R'.dim = d := by
    refine RawLattice.dim_of (by rw [e]; exact hne) ?_
    rw [e]
    intro v hv
    obtain ⟨i, hi, rfl⟩ := List.mem_iff_getElem.1 hv
    rw [List.getElem_zipWith, List.length_map]
    exact hsq.length _ (List.getElem_mem _)
  have hsz' : R'.size * R'.size = n.length * d := by
    rw [hd'] at hsz
    rw [hsz, ← hc, e]
  have hlt : R'.size < d := by
    by_contra hge
    have : d * d ≤ R'.size * R'.size := Nat.mul_le_mul (not_lt.1 hge) (not_lt.1 hge)
    rw [hsz'] at this
    exact absurd (Nat.le_of_mul_le_mul_right this hd) (not_le.2 hn)
  have hcell : ∀ (s s' : RawStructure K) (c : List ℤ), s.lattice = R' → c.length = n.length → placeCell R frac motif s c = .ok s' → s' = s := by
    intro s s' c hlat hcl hp
    unfold placeCell at hp
    obtain ⟨pt, hpt, hp⟩ := bind_ok hp
    cases motif with
    | nil =>
      injection hp with hp
      exact hp.symm
    | cons a motif =>
      exfalso
      obtain ⟨t, ht, -⟩ := bind_ok (show (placeSite R frac pt s a >>= _) = _ from hp)
      unfold placeSite at ht
      obtain ⟨loc, hloc, ht⟩ := bind_ok ht
      obtain ⟨loc', hloc', ht⟩ := bind_ok ht
      have hlen : loc'.length ≠ R'.size ∨ frac = false := by
        cases frac with
        | true =>
          left
          have := (RawLattice.toCart_ok hloc').2
          rw [this, hsq.fits.size]
          omega
        | false => exact Or.inr rfl
      rcases hlen with hlen | rfl
      · unfold addOrRaise at ht
        rcases C142_shape s a.1 loc' with ⟨-, e, he⟩ | h'
        · revert ht he
          generalize s.addSite a.1 loc' = b
          obtain ⟨b1, b2⟩ := b
          intro ht he
          simp only at he
          subst he
          cases ht
        · rw [hlat] at h'
          exact hlen h'.2.1
      · have hpt' : RawLattice.dotCol R.matrix (c.map fun k => ((k : ℤ) : K)) = .ok pt := hpt
        rw [hsq.fits.dotCol_eq, RawLattice.dotCol, if_neg (by rw [List.length_map, hcl]; exact hn.ne)] at hpt'
        cases hpt'
  have hfold : ∀ (cs : List (List ℤ)), (∀ c ∈ cs, c.length = n.length) → ∀ (s : RawStructure K), s.lattice = R' →
      ∀ s', cs.foldlM (placeCell R frac motif) s = .ok s' → s' = s := by
    intro cs
    induction cs with
    | nil =>
      intro _ s _ s' h
      injection h with h
      exact h.symm
    | cons c cs ih =>
      intro hcs s hlat s' h
      rw [List.foldlM_cons] at h
      obtain ⟨t, ht, h⟩ := bind_ok h
      have := hcell s t c hlat (hcs c List.mem_cons_self) ht
      rw [this] at h
      exact ih (fun c hc => hcs c (List.mem_cons_of_mem _ hc)) _ hlat s' h
  have hs' := hfold _ (fun c hc => ?_) (new R') rfl s hs
  · rw [hs']
    rfl
  · unfold getPointsInBox at hc
    have := (mem_cartesianProduct.1 hc).length_eq
    rw [this, List.length_map, List.length_zip, List.length_replicate, hd']
    omega

/-- **C142.** A position with a number of entries that is neither `d` nor one makes `build_from` raise as soon as there is a cell. -/
theorem C142_bad_position {vecs : List (List K)} {p : PeriodicArg} {L : Lattice K d} (h : Lattice.init vecs p = .ok ⟨d, L⟩) {R : RawLattice K}
    (hR : RawLattice.init vecs p = .ok R) {n : List ℤ} (hn : d ≤ n.length) (hpos : ∀ k ∈ n, 0 < k) (frac : Bool)
    {motif : List (String × List K)} {a : String × List K} (ha : a ∈ motif) (h1 : a.2.length ≠ 1) (h2 : a.2.length ≠ d) :
    ∃ e, buildFrom R n motif frac = .error e := by
  obtain ⟨hd, hdim, hsq⟩ := square_of_init h hR
  obtain ⟨R', hR', hd', hsq'⟩ := hsq.scaled hd hn
  cases hb : buildFrom R n motif frac with
  | error e => exact ⟨e, rfl⟩
  | ok s =>
    exfalso
    unfold buildFrom at hb
    rw [hR'] at hb
    have hb : (getPointsInBox (List.replicate R'.dim 0) n).foldlM (placeCell R frac motif) (new R') = .ok s := hb
    rw [hd', cells_long hn] at hb
    have hkeep : ∀ (t t' : RawStructure K) (b : String × List K) (pt : List K), pt.length = d → t.lattice = R' → placeSite R frac pt t b = .ok t' →
        t'.lattice = R' ∧ b ≠ a := by
      intro t t' b pt hpt hlat hp
      unfold placeSite at hp
      obtain ⟨loc, hloc, hp⟩ := bind_ok hp
      obtain ⟨loc', hloc', hp⟩ := bind_ok hp
      have hll : frac = true → loc.length = d := by
        rintro rfl
        rw [(RawLattice.toCart_ok hloc').1, hsq.fits.size]
      have hll' : frac = false → loc' = loc := by
        rintro rfl
        injection hloc' with hloc'
        exact hloc'.symm
      unfold addOrRaise at hp
      have hadd : (t.addSite b.1 loc').1.lattice = t.lattice := by
        unfold addSite
        simp only
        split
        · rfl
        · split
          · rfl
          · split_ifs <;> rfl
      have hsh := C142_shape t b.1 loc'
      revert hp hadd hsh
      generalize t.addSite b.1 loc' = r
      obtain ⟨r1, r2⟩ := r
      intro hp hadd hsh
      cases r2 with
      | error e => cases hp
      | ok i =>
        injection hp with hp
        simp only at hp hadd
        subst hp
        refine ⟨hadd.trans hlat, ?_⟩
        rintro rfl
        have hsh := hsh.resolve_left (by rintro ⟨-, e, he⟩; cases he)
        have hsz : loc'.length = d := by rw [hsh.2.1, hlat, hsq'.fits.size]
        have hld : loc.length = d := by
          cases frac with
          | true => exact hll rfl
          | false => rw [← hll' rfl]; exact hsz
        have := bcast_length hloc
        omega
    have hmot : ∀ (l : List (String × List K)) (t t' : RawStructure K) (pt : List K), pt.length = d → t.lattice = R' →
        l.foldlM (placeSite R frac pt) t = .ok t' → t'.lattice = R' ∧ a ∉ l := by
      intro l
      induction l with
      | nil =>
        intro t t' pt _ hlat h
        injection h with h
        exact ⟨h ▸ hlat, by simp⟩
      | cons b l ih =>
        intro t t' pt hpt hlat h
        rw [List.foldlM_cons] at h
        obtain ⟨u, hu, h⟩ := bind_ok h
        obtain ⟨k1, k2⟩ := hkeep t u b pt hpt hlat hu
        obtain ⟨k3, k4⟩ := ih u t' pt hpt k1 h
        exact ⟨k3, by simp [k4, Ne.symm k2]⟩
    have hne : cells (fun i : Fin d => n.getD i 0) ≠ [] := by
      intro he
      have : List.ofFn (fun _ : Fin d => (0 : ℤ)) ∈ cells (fun i : Fin d => n.getD i 0) := by
        rw [mem_cells]
        refine ⟨by simp, fun i => ?_⟩
        have hi : (i : ℕ) < n.length := lt_of_lt_of_le i.isLt hn
        have : 0 < n[(i : ℕ)] := hpos _ (List.getElem_mem _)
        simp [cellVec, List.getD_eq_getElem?_getD, hi, this]
      rw [he] at this
      simp at this
    cases hcs : cells (fun i : Fin d => n.getD i 0) with
    | nil => exact hne hcs
    | cons c cs =>
      rw [hcs, List.foldlM_cons] at hb
      obtain ⟨t, ht, -⟩ := bind_ok hb
      have hcl : c.length = d := (mem_cells.1 (hcs ▸ List.mem_cons_self)).1
      unfold placeCell at ht
      obtain ⟨pt, hpt, ht⟩ := bind_ok ht
      have hptl : pt.length = d := by
        cases frac with
        | true =>
          injection hpt with hpt
          rw [← hpt, List.length_map, hcl]
        | false =>
          have hpt' : RawLattice.dotCol R.matrix (c.map fun k => ((k : ℤ) : K)) = .ok pt := hpt
          rw [hsq.fits.dotCol_eq, RawLattice.dotCol, if_pos (by rw [List.length_map, hcl])] at hpt'
          injection hpt' with hpt'
          rw [← hpt', List.length_ofFn]
      exact (hmot motif (new R') t pt hptl rfl ht).2 ha

/-! ### examples -/

/-- The vectors of a skew plane lattice. -/
def skewVecs : List (List ℚ) := [[2, 0], [1, 3]]

/-- The hypotheses of `C142_build` and `C142_bad_position` are met by a skew lattice, three counts, a position of two numbers and
one of a single number; a position of three numbers is bad. -/
example : ∃ (L : Lattice ℚ 2) (R : RawLattice ℚ), Lattice.init skewVecs (.many [true, false]) = .ok ⟨2, L⟩ ∧
    RawLattice.init skewVecs (.many [true, false]) = .ok R ∧ L.Regular ∧ 2 ≤ [3, 4, 5].length ∧
    List.Forall₂ (SamePos (K := ℚ)) [("A", [0, 1]), ("B", [1 / 2])] (Structure.Motif.byClass [("A", [![0, 1]]), ("B", [fun _ => 1 / 2])]).entries ∧
    ∃ e, buildFrom R [3, 4, 5] [("A", [0, 1, 2])] false = .error e := by
  obtain ⟨L, hL'⟩ : ∃ L : Lattice ℚ 2, Lattice.init skewVecs (.many [true, false]) = .ok (⟨2, L⟩ : Σ d, Lattice ℚ d) :=
    RawLattice.latticeInit_square (vecs := skewVecs) (by simp [skewVecs]) (by simp [skewVecs]) (l := [true, false]) rfl
  obtain ⟨R, hR, -, -⟩ := RawLattice.C141_square hL'
  obtain ⟨-, -, -, hm, -⟩ := RawLattice.latticeInit_ok hL'
  refine ⟨L, R, hL', hR, ?_, by simp, ?_, ?_⟩
  · rw [RawLattice.regular_iff_det, Matrix.det_fin_two (A := L.mat), ← hm, ← hm, ← hm, ← hm]
    norm_num [skewVecs]
  · refine .cons ⟨rfl, Or.inl ?_⟩ (.cons ⟨rfl, Or.inr ⟨1 / 2, rfl, rfl⟩⟩ .nil)
    simp [List.ofFn_succ]
  · exact C142_bad_position hL' hR (n := [3, 4, 5]) (by simp) (by simp) false (motif := [("A", [0, 1, 2])]) List.mem_cons_self (by simp) (by simp)

/-- The hypotheses of `C142_few_counts` are met: one count for a lattice of dimension four, and a call that returns. -/
example : ∃ (L : Lattice ℚ 4) (R : RawLattice ℚ) (s : RawStructure ℚ),
    Lattice.init [[1, 0, 0, 0], [0, 1, 0, 0], [0, 0, 1, 0], [0, 0, 0, 1]] (.many [true, true, true, true]) = .ok ⟨4, L⟩ ∧
    RawLattice.init [[1, 0, 0, 0], [0, 1, 0, 0], [0, 0, 1, 0], [0, 0, 0, 1]] (.many [true, true, true, true]) = .ok R ∧
    buildFrom R [2] [] true = .ok s := by
  obtain ⟨L, hL⟩ := RawLattice.latticeInit_square (vecs := [[(1 : ℚ), 0, 0, 0], [0, 1, 0, 0], [0, 0, 1, 0], [0, 0, 0, 1]]) (by simp)
    (by simp) (l := [true, true, true, true]) rfl
  refine ⟨L, _, ?_, hL, RawLattice.init_of (m := 4) (s := 4) _ (by simp) (by simp) rfl, ?_⟩
  · exact new ⟨[[1 * (2 : ℤ), 0 * (2 : ℤ), 0 * (2 : ℤ), 0 * (2 : ℤ)]], [true, true, true, true]⟩
  · unfold buildFrom
    have : RawLattice.scaled (⟨[[(1 : ℚ), 0, 0, 0], [0, 1, 0, 0], [0, 0, 1, 0], [0, 0, 0, 1]], [true, true, true, true]⟩ : RawLattice ℚ) [2] =
        .ok ⟨[[1 * (2 : ℤ), 0 * (2 : ℤ), 0 * (2 : ℤ), 0 * (2 : ℤ)]], [true, true, true, true]⟩ :=
      RawLattice.init_of (m := 4) (s := 2) _ (by simp) (by simp) rfl
    show (RawLattice.scaled (⟨_, [true, true, true, true]⟩ : RawLattice ℚ) [2] >>= _) = _
    rw [this]
    rfl

end RawStructure
end Pyl
