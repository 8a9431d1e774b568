import Verif.Model.SquareGrid
import Verif.Lemmas.Runner
/-
Functions of the model that can be evaluated.  The model takes the inverse of the lattice matrix from Mathlib, which cannot
be computed; here the inverse is an argument.  Used only to compare the model with the expectations in /repo/tests.
-/
set_option autoImplicit false

namespace Pyl
namespace Exec
open Pyl.Structure
variable {d : ℕ}

/-- A product of a row and a matrix, by a list. -/
def row (x : Fin d → ℚ) (m : Matrix (Fin d) (Fin d) ℚ) : Fin d → ℚ :=
  fun j => ((List.finRange d).map fun i => x i * m i j).sum

theorem row_eq (x : Fin d → ℚ) (m : Matrix (Fin d) (Fin d) ℚ) : row x m = Matrix.vecMul x m := by
  funext j
  simp only [row, Matrix.vecMul, dotProduct]
  rw [← List.ofFn_eq_map, List.sum_ofFn]

def periodized (inv : Matrix (Fin d) (Fin d) ℚ) (L : Lattice ℚ d) (x : Fin d → ℚ) : Fin d → ℚ :=
  row (periodizeFrac L.periodic (row x inv)) L.mat

def transformed (inv : Matrix (Fin d) (Fin d) ℚ) (s : Structure ℚ d) (x : Fin d → ℚ) : Fin d → ℚ :=
  withOffset (periodized inv s.lattice x)

def addSite (inv : Matrix (Fin d) (Fin d) ℚ) (s : Structure ℚ d) (cls : String) (loc : Fin d → ℚ) : Structure ℚ d × Py ℕ :=
  let newId := s.sites.length
  let p := rounded (periodized inv s.lattice loc)
  let key := transformed inv s loc
  if Dict.get? s.lookup key = none then
    ({ s with sites := Dict.set s.sites newId ⟨cls, p, newId⟩,
              lookup := Dict.set s.lookup key newId,
              siteIds := s.siteIds ++ [newId] }, .ok newId)
  else (s, .error .assertionError)

def addOrRaise (inv : Matrix (Fin d) (Fin d) ℚ) (s : Structure ℚ d) (cl : String × (Fin d → ℚ)) : Py (Structure ℚ d) :=
  match addSite inv s cl.1 cl.2 with
  | (s', .ok _) => .ok s'
  | (_, .error e) => .error e

def buildFrom (inv : Matrix (Fin d) (Fin d) ℚ) (L : Lattice ℚ d) (n : Fin d → ℤ) (motif : Motif ℚ d) (frac : Bool) :
    Py (Structure ℚ d) :=
  let coeffs := getPointsInBox (List.replicate d 0) (List.ofFn n)
  coeffs.foldlM (fun s c => (cellSites L motif.toDict frac (vecOf c)).foldlM (addOrRaise inv) s) (new (L.scaled n))

def siteAt (inv : Matrix (Fin d) (Fin d) ℚ) (s : Structure ℚ d) (loc : Fin d → ℚ) : Option (Site ℚ d) :=
  match Dict.get? s.lookup (transformed inv s loc) with
  | some i => s.getSite i
  | none => none

/-- core/lattice.py:227-246 -/
def dist (inv : Matrix (Fin d) (Fin d) ℚ) (L : Lattice ℚ d) (a b : Fin d → ℚ) : ℚ :=
  let v := row (pbcDiffFrac L.periodic (row a inv) (row b inv)) L.mat
  roundSqrt PRECISION ((List.finRange d).map fun i => v i ^ 2).sum

def getNeighbors (inv : Matrix (Fin d) (Fin d) ℚ) (b : Builder ℚ d) (site : Site ℚ d) (s : Structure ℚ d) :
    List (Option ℕ × Option ℚ) :=
  match b with
  | .distance cutoff => (s.sitesOf none).filterMap fun other =>
      if site.id ≠ other.id then
        let dst := dist inv s.lattice other.loc site.loc
        if dst < cutoff then some (some other.id, some dst) else none
      else none
  | .annular inner outer => (s.sitesOf none).filterMap fun other =>
      if site.id ≠ other.id then
        let dst := dist inv s.lattice other.loc site.loc
        if inner < dst ∧ dst < outer then some (some other.id, some dst) else none
      else none
  | .motif offsets => offsets.filterMap fun v =>
      let nb := (siteAt inv s (site.loc + v)).map Site.id
      if nb ≠ some site.id then some (nb, getDist (distanceMap euclideanDist offsets) v) else none

def connect (inv : Matrix (Fin d) (Fin d) ℚ) (b : Builder ℚ d) (s : Structure ℚ d) (g : Graph ℚ) (site : Site ℚ d) :
    Py (Graph ℚ) :=
  (getNeighbors inv b site s).foldlM (fun g nb => g.addEdge site.id nb) g

def get (inv : Matrix (Fin d) (Fin d) ℚ) (b : Builder ℚ d) (s : Structure ℚ d) (cls : Option String) : Py (Graph ℚ) :=
  (s.sitesOf cls).foldlM (connect inv b s) ⟨(s.sitesOf none).length, []⟩

section
variable {inv : Matrix (Fin d) (Fin d) ℚ} {L : Lattice ℚ d} (h : L.mat * inv = 1)
include h

theorem toFrac_eq (x : Fin d → ℚ) : L.toFrac x = row x inv := by
  rw [row_eq, Lattice.toFrac, Matrix.inv_eq_right_inv h]

theorem periodized_eq (x : Fin d → ℚ) : L.periodized x = periodized inv L x := by
  rw [periodized, row_eq, ← toFrac_eq h]; rfl

theorem dist_eq (a b : Fin d → ℚ) : L.dist a b = dist inv L a b := by
  simp only [Lattice.dist, dist, Lattice.pbcVec, Lattice.toCart, row_eq]
  rw [← List.ofFn_eq_map, List.sum_ofFn]
  rw [toFrac_eq h, toFrac_eq h, row_eq, row_eq]

variable {s : Structure ℚ d} (hs : s.lattice = L)
include hs

theorem transformed_eq (x : Fin d → ℚ) : s.transformed x = transformed inv s x := by
  subst hs
  rw [transformed, ← periodized_eq h]; rfl

theorem siteAt_eq (x : Fin d → ℚ) : s.siteAt x = siteAt inv s x := by
  rw [Structure.siteAt, transformed_eq h hs]; rfl

theorem addSite_eq (c : String) (x : Fin d → ℚ) : s.addSite c x = addSite inv s c x := by
  rw [Structure.addSite, transformed_eq h hs]
  subst hs
  rw [periodized_eq h]; rfl

theorem addOrRaise_eq (cl : String × (Fin d → ℚ)) : Structure.addOrRaise s cl = addOrRaise inv s cl := by
  unfold Structure.addOrRaise addOrRaise
  rw [addSite_eq h hs]
  generalize addSite inv s cl.1 cl.2 = p
  obtain ⟨a, b | b⟩ := p <;> rfl

theorem getNeighbors_eq (b : Builder ℚ d) (site : Site ℚ d) : b.getNeighbors site s = getNeighbors inv b site s := by
  cases b with
  | distance c =>
    simp only [Builder.getNeighbors, getNeighbors, hs, dist_eq h]
  | annular i o =>
    simp only [Builder.getNeighbors, getNeighbors, hs, dist_eq h]
  | motif l =>
    simp only [Builder.getNeighbors, getNeighbors, Structure.idAt, siteAt_eq h hs]

theorem get_eq (b : Builder ℚ d) (cls : Option String) : b.get s cls = get inv b s cls := by
  have : b.connect s = connect inv b s := by
    funext g site
    rw [Builder.connect, connect, getNeighbors_eq h hs]
  rw [Builder.get, this]; rfl

end

theorem addOrRaise_lattice {inv : Matrix (Fin d) (Fin d) ℚ} {s s' : Structure ℚ d} {cl : String × (Fin d → ℚ)}
    (h : addOrRaise inv s cl = .ok s') : s'.lattice = s.lattice := by
  simp only [addOrRaise, addSite] at h
  split_ifs at h
  cases h
  rfl

theorem addAll_eq {inv : Matrix (Fin d) (Fin d) ℚ} {L : Lattice ℚ d} (h : L.mat * inv = 1)
    (l : List (String × (Fin d → ℚ))) : ∀ {s : Structure ℚ d}, s.lattice = L →
    l.foldlM Structure.addOrRaise s = l.foldlM (addOrRaise inv) s ∧
      ∀ s', l.foldlM (addOrRaise inv) s = .ok s' → s'.lattice = L := by
  induction l with
  | nil =>
    intro s hs
    simp only [List.foldlM_nil, true_and]
    intro s' h'
    cases h'
    exact hs
  | cons c l ih =>
    intro s hs
    rw [List.foldlM_cons, List.foldlM_cons, addOrRaise_eq h hs]
    cases ha : addOrRaise inv s c with
    | error e =>
      simp only [error_bind]
      exact ⟨trivial, fun s' h' => by cases h'⟩
    | ok s1 =>
      simp only [ok_bind]
      exact ih ((addOrRaise_lattice ha).trans hs)

theorem buildFrom_eq {inv : Matrix (Fin d) (Fin d) ℚ} {L : Lattice ℚ d} {n : Fin d → ℤ} (h : (L.scaled n).mat * inv = 1)
    (motif : Motif ℚ d) (frac : Bool) : Structure.buildFrom L n motif frac = buildFrom inv L n motif frac ∧
      ∀ s', buildFrom inv L n motif frac = .ok s' → s'.lattice = L.scaled n := by
  unfold Structure.buildFrom buildFrom
  simp only
  have gen : ∀ (l : List (List ℤ)) {s : Structure ℚ d}, s.lattice = L.scaled n →
      l.foldlM (fun s c => (cellSites L motif.toDict frac (vecOf c)).foldlM Structure.addOrRaise s) s =
        l.foldlM (fun s c => (cellSites L motif.toDict frac (vecOf c)).foldlM (addOrRaise inv) s) s ∧
      ∀ s', l.foldlM (fun s c => (cellSites L motif.toDict frac (vecOf c)).foldlM (addOrRaise inv) s) s = .ok s' →
        s'.lattice = L.scaled n := by
    intro l
    induction l with
    | nil =>
      intro s hs
      simp only [List.foldlM_nil, true_and]
      intro s' h'
      cases h'
      exact hs
    | cons c l ih =>
      intro s hs
      rw [List.foldlM_cons, List.foldlM_cons]
      obtain ⟨h1, h2⟩ := addAll_eq h (cellSites L motif.toDict frac (vecOf c)) hs
      rw [h1]
      cases ha : List.foldlM (addOrRaise inv) s (cellSites L motif.toDict frac (vecOf c)) with
      | error e =>
        simp only [error_bind]
        exact ⟨trivial, fun s' h' => by cases h'⟩
      | ok s1 =>
        simp only [ok_bind]
        exact ih (h2 s1 ha)
  exact gen _ rfl

/-- The call returns and the value passes the test. -/
def okAnd {α : Type} (p : Py α) (t : α → Bool) : Bool :=
  match p with
  | .ok a => t a
  | .error _ => false

theorem okAnd_ok {α : Type} {p : Py α} {t : α → Bool} (h : okAnd p t = true) : ∃ a, p = .ok a ∧ t a = true := by
  cases p with
  | error e => cases h
  | ok a => exact ⟨a, rfl, h⟩

/-- A test of a structure: it is built, and `t` holds of it. -/
theorem built {inv : Matrix (Fin d) (Fin d) ℚ} {L : Lattice ℚ d} {n : Fin d → ℤ} (h : (L.scaled n).mat * inv = 1)
    {motif : Motif ℚ d} {frac : Bool} {t : Structure ℚ d → Prop} {te : Structure ℚ d → Bool}
    (ht : ∀ s, s.lattice = L.scaled n → te s = true → t s) (hb : okAnd (buildFrom inv L n motif frac) te = true) :
    ∃ s, Structure.buildFrom L n motif frac = .ok s ∧ t s := by
  obtain ⟨h1, h2⟩ := buildFrom_eq h motif frac
  obtain ⟨s, hs, hte⟩ := okAnd_ok hb
  rw [h1]
  exact ⟨s, hs, ht s (h2 s hs) hte⟩

/-- The structure has `N` sites, and `class_at` answers as listed. -/
theorem built_classes {inv : Matrix (Fin d) (Fin d) ℚ} {L : Lattice ℚ d} {n : Fin d → ℤ} (h : (L.scaled n).mat * inv = 1)
    {motif : Motif ℚ d} {frac : Bool} (N : ℕ) (qs : List ((Fin d → ℚ) × Option String))
    (hb : okAnd (buildFrom inv L n motif frac) (fun s => decide (s.siteIds.length = N) &&
      qs.all fun q => decide ((siteAt inv s q.1).map Site.cls = q.2)) = true) :
    ∃ s, Structure.buildFrom L n motif frac = .ok s ∧ s.siteIds.length = N ∧ ∀ q ∈ qs, s.classAt q.1 = q.2 := by
  refine built h (fun s hs ht => ?_) hb
  simp only [Bool.and_eq_true, decide_eq_true_eq, List.all_eq_true] at ht
  refine ⟨ht.1, fun q hq => ?_⟩
  rw [Structure.classAt, siteAt_eq h hs]
  exact ht.2 q hq

/-- The neighbourhood is built, and passes a test. -/
theorem built_graph {inv : Matrix (Fin d) (Fin d) ℚ} {L : Lattice ℚ d} {n : Fin d → ℤ} (h : (L.scaled n).mat * inv = 1)
    {motif : Motif ℚ d} {frac : Bool} {b : Builder ℚ d} {cls : Option String} (te : Structure ℚ d → Graph ℚ → Bool)
    (hb : okAnd (buildFrom inv L n motif frac) (fun s => okAnd (get inv b s cls) (te s)) = true) :
    ∃ s g, Structure.buildFrom L n motif frac = .ok s ∧ b.get s cls = .ok g ∧ te s g = true := by
  obtain ⟨s, h1, g, h2, h3⟩ := built (t := fun s => ∃ g, b.get s cls = .ok g ∧ te s g = true) h (fun s hs ht => by
    rw [get_eq h hs]
    exact okAnd_ok ht) hb
  exact ⟨s, g, h1, h2, h3⟩

/-- The neighbourhood is built, and the sites at the listed points have the listed numbers of neighbours. -/
theorem built_counts {inv : Matrix (Fin d) (Fin d) ℚ} {L : Lattice ℚ d} {n : Fin d → ℤ} (h : (L.scaled n).mat * inv = 1)
    {motif : Motif ℚ d} {frac : Bool} {b : Builder ℚ d} (qs : List ((Fin d → ℚ) × ℕ))
    (hb : okAnd (buildFrom inv L n motif frac) (fun s => okAnd (get inv b s none) fun g =>
      qs.all fun q => decide ((siteAt inv s q.1).map (fun t => (g.neighborsOf t.id).length) = some q.2)) = true) :
    ∃ s g, Structure.buildFrom L n motif frac = .ok s ∧ b.get s none = .ok g ∧
      ∀ q ∈ qs, ∃ i, s.idAt q.1 = some i ∧ (g.neighborsOf i).length = q.2 := by
  obtain ⟨s, h1, g, h2, h3⟩ := built (t := fun s => ∃ g, b.get s none = .ok g ∧
      ∀ q ∈ qs, ∃ i, s.idAt q.1 = some i ∧ (g.neighborsOf i).length = q.2) h (fun s hs ht => by
    rw [get_eq h hs]
    obtain ⟨g, hg, ht⟩ := okAnd_ok ht
    refine ⟨g, hg, fun q hq => ?_⟩
    have := of_decide_eq_true (List.all_eq_true.1 ht q hq)
    rw [Structure.idAt, siteAt_eq h hs]
    obtain ⟨t, ht, e⟩ := Option.map_eq_some_iff.1 this
    exact ⟨t.id, by rw [ht]; rfl, e⟩) hb
  exact ⟨s, g, h1, h2, h3⟩

end Exec
end Pyl
