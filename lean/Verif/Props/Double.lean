import Verif.Lemmas.DoubleGrid
/-
C99, C100: square grids in double precision.
-/
set_option autoImplicit false
set_option linter.unusedSectionVars false

namespace Pyl
open Pyl.Lattice Structure
variable {d : ℕ}

/-- The exact structure behind a structure built in double precision. -/
structure Behind (N : Fin d → ℤ) (s s0 : Structure ℚ d) : Prop where
  ex : ∃ (L : Lattice ℚ d) (σ : Fin d → Fin d) (n : Fin d → ℤ), IsGrid L σ ∧ (∀ i, 0 < n i ∧ n i ≤ 2 ^ 30) ∧ N = (fun j => n (σ j)) ∧
    s0.lattice = L.scaled n
  keys : Dbl.GridKeys N s0
  eq : s = Dbl.ofExact s0
  torus : IsTorus s0 N
  cls : ∀ i ∈ s0.siteIds, s0.siteClass i = .ok "_A"

/-- Building in double precision succeeds, and gives the exact structure with rounded keys. -/
theorem behind_of_grid {L : Lattice ℚ d} {σ : Fin d → Fin d} (h : IsGrid L σ) (n : Fin d → ℤ) (hn : ∀ i, 0 < n i ∧ n i ≤ 2 ^ 30) :
    ∃ s s0, Dbl.buildFrom L n gridMotif = .ok s ∧ Behind (fun j => n (σ j)) s s0 := by
  obtain ⟨s0, h0, ht, hc⟩ := completeTorus h n fun i => (hn i).1
  obtain ⟨h1, h2, h3⟩ := Dbl.buildFrom_grid h hn h0
  exact ⟨_, s0, h1, ⟨L, σ, n, h, hn, rfl, h2⟩, h3, rfl, ht, fun i hi => (hc.1 i hi).1⟩

theorem DoubleGrid.behind {N : Fin d → ℤ} {s : Structure ℚ d} (h : DoubleGrid d N s) : ∃ s0, Behind N s s0 := by
  cases h with
  | two size s a b ha hb hsz h =>
    rcases hsz with rfl | ⟨rfl, rfl⟩
    · obtain ⟨s', s0, hs, hB⟩ := behind_of_grid isGrid2 ![b, a] fun i => by fin_cases i <;> assumption
      have e : Dbl.buildSquare2 (.tup [b, a]) = Dbl.buildFrom gridLattice2 ![b, a] gridMotif := by
        rw [Dbl.buildSquare2, Dbl.build, dif_pos (by rfl)]
        congr 1
        funext i; fin_cases i <;> rfl
      rw [e, hs] at h
      injection h with h; subst h
      rw [show (fun j : Fin 2 => ![b, a] (![1, 0] j)) = ![a, b] by funext j; fin_cases j <;> rfl] at hB
      exact ⟨s0, hB⟩
    · obtain ⟨s', s0, hs, hB⟩ := behind_of_grid isGrid2 (fun _ => a) fun _ => ha
      have e : Dbl.buildSquare2 (.int a) = Dbl.buildFrom gridLattice2 (fun _ => a) gridMotif := rfl
      rw [e, hs] at h
      injection h with h; subst h
      rw [show (fun j : Fin 2 => a) = ![a, a] by funext j; fin_cases j <;> rfl] at hB
      exact ⟨s0, hB⟩
  | three size s a b c ha hb hc hsz h =>
    rcases hsz with rfl | ⟨rfl, rfl, rfl⟩
    · obtain ⟨s', s0, hs, hB⟩ := behind_of_grid isGrid3 ![b, a, c] fun i => by fin_cases i <;> assumption
      have e : Dbl.buildSquare3 (.tup [b, a, c]) = Dbl.buildFrom gridLattice3 ![b, a, c] gridMotif := by
        rw [Dbl.buildSquare3, Dbl.build, dif_pos (by rfl)]
        congr 1
        funext i; fin_cases i <;> rfl
      rw [e, hs] at h
      injection h with h; subst h
      rw [show (fun j : Fin 3 => ![b, a, c] (![1, 0, 2] j)) = ![a, b, c] by funext j; fin_cases j <;> rfl] at hB
      exact ⟨s0, hB⟩
    · obtain ⟨s', s0, hs, hB⟩ := behind_of_grid isGrid3 (fun _ => a) fun _ => ha
      have e : Dbl.buildSquare3 (.int a) = Dbl.buildFrom gridLattice3 (fun _ => a) gridMotif := rfl
      rw [e, hs] at h
      injection h with h; subst h
      rw [show (fun j : Fin 3 => a) = ![a, a, a] by funext j; fin_cases j <;> rfl] at hB
      exact ⟨s0, hB⟩

namespace Behind
variable {N : Fin d → ℤ} {s s0 : Structure ℚ d} (h : Behind N s s0)
include h

theorem size (j : Fin d) : 0 < N j ∧ N j ≤ 2 ^ 30 := by
  obtain ⟨L, σ, n, -, hn, rfl, -⟩ := h.ex
  exact hn (σ j)

theorem siteHas {i : ℕ} {c : Fin d → ℤ} : SiteHas s i c ↔ SiteHas s0 i c := by
  rw [h.eq]; rfl

theorem siteAt {x : Fin d → ℤ} (hx : ∀ j, |x j| ≤ 2 ^ 32) :
    ((∀ j, Wraps (N j) (x j)) → Dbl.siteAt s (intPoint x) = s0.siteAt (intPoint x)) ∧
    ((∃ j, ¬ Wraps (N j) (x j)) → Dbl.siteAt s (intPoint x) = none) := by
  have hk := h.keys
  obtain ⟨L, σ, n, hg, hn, rfl, hL⟩ := h.ex
  rw [h.eq]
  exact Dbl.siteAt_ofExact hg hn hL hk hx

theorem wraps_inBox {c : Fin d → ℤ} (hc : InBox N c) (j : Fin d) : Wraps (N j) (c j) := by
  have hk := h.keys
  obtain ⟨L, σ, n, hg, hn, rfl, hL⟩ := h.ex
  exact Dbl.wraps_inBox hg hn hL hk hc j

end Behind

/-! ### C99 -/

/-- One site of class `_A` at every integer location of the box, no other site, and every one of them is found in double precision. -/
def FullBox (s : Structure ℚ d) (N : Fin d → ℤ) : Prop :=
  (∀ i ∈ s.siteIds, s.siteClass i = .ok "_A" ∧ ∃ c, InBox N c ∧ SiteHas s i c) ∧
  (∀ c, InBox N c → ∃! i, i ∈ s.siteIds ∧ SiteHas s i c) ∧
  s.siteIds.length = ∏ j, (N j).toNat ∧
  (∀ c, InBox N c → ∃ t, Dbl.siteAt s (intPoint c) = some t ∧ t.loc = intPoint c ∧ s.getSite t.id = some t)

theorem Behind.fullBox {N : Fin d → ℤ} {s s0 : Structure ℚ d} (h : Behind N s s0) : FullBox s N := by
  have e1 : s.siteIds = s0.siteIds := by rw [h.eq]; rfl
  have e2 : ∀ i, s.siteClass i = s0.siteClass i := by intro i; rw [h.eq]; rfl
  have e3 : ∀ i, s.getSite i = s0.getSite i := by intro i; rw [h.eq]; rfl
  refine ⟨fun i hi => ?_, fun c hc => ?_, ?_, fun c hc => ?_⟩
  · rw [e1] at hi
    obtain ⟨c, hc, hs⟩ := h.torus.site i hi
    exact ⟨by rw [e2]; exact h.cls i hi, c, hc, h.siteHas.2 hs⟩
  · obtain ⟨i, hi, hic⟩ := h.torus.ex c hc
    refine ⟨i, ⟨by rw [e1]; exact hi, h.siteHas.2 hic⟩, ?_⟩
    rintro i' ⟨-, hi'⟩
    exact h.torus.site_unique (h.siteHas.1 hi') hic
  · rw [e1]; exact h.torus.count
  · have hx : ∀ j, |c j| ≤ 2 ^ 32 := fun j => by
      have h1 := hc j; have h2 := h.size j
      rw [abs_le]; constructor <;> linarith
    obtain ⟨t, ht, hl⟩ := IsTorus.siteAt s0 N h.torus c
    refine ⟨t, by rw [(h.siteAt hx).1 (h.wraps_inBox hc)]; exact ht, ?_, by rw [e3]; exact getSite_of_siteAt h.torus.reachable ht⟩
    rw [hl]
    funext j
    simp only [intPoint]
    rw [Int.emod_eq_of_lt (hc j).1 (hc j).2]

/-- C99: in double precision, for every size up to `2 ^ 30` per axis, the 2D builder returns a full box of sites at exact integer coordinates,
and `site_at` finds each of them at its coordinates. -/
theorem C99_square2 (n a b : ℤ) (hn : 0 < n ∧ n ≤ 2 ^ 30) (ha : 0 < a ∧ a ≤ 2 ^ 30) (hb : 0 < b ∧ b ≤ 2 ^ 30) :
    (∃ s, Dbl.buildSquare2 (.int n) = .ok s ∧ DoubleGrid 2 ![n, n] s ∧ FullBox s ![n, n]) ∧
    (∃ s, Dbl.buildSquare2 (.tup [a, b]) = .ok s ∧ DoubleGrid 2 ![b, a] s ∧ FullBox s ![b, a]) := by
  constructor
  · obtain ⟨s, s0, hs, -⟩ := behind_of_grid isGrid2 (fun _ => n) fun _ => hn
    have hg : DoubleGrid 2 ![n, n] s := .two (.int n) s n n hn hn (.inr ⟨rfl, rfl⟩) hs
    obtain ⟨_, hB⟩ := hg.behind
    exact ⟨s, hs, hg, hB.fullBox⟩
  · obtain ⟨s, s0, hs, -⟩ := behind_of_grid isGrid2 ![a, b] fun i => by fin_cases i <;> assumption
    have e : Dbl.buildSquare2 (.tup [a, b]) = .ok s := by
      rw [← hs, Dbl.buildSquare2, Dbl.build, dif_pos (by rfl)]
      congr 1
      funext i; fin_cases i <;> rfl
    have hg : DoubleGrid 2 ![b, a] s := .two (.tup [a, b]) s b a hb ha (.inl rfl) e
    obtain ⟨_, hB⟩ := hg.behind
    exact ⟨s, e, hg, hB.fullBox⟩

/-- C99 in three dimensions. -/
theorem C99_square3 (n a b c : ℤ) (hn : 0 < n ∧ n ≤ 2 ^ 30) (ha : 0 < a ∧ a ≤ 2 ^ 30) (hb : 0 < b ∧ b ≤ 2 ^ 30) (hc : 0 < c ∧ c ≤ 2 ^ 30) :
    (∃ s, Dbl.buildSquare3 (.int n) = .ok s ∧ DoubleGrid 3 ![n, n, n] s ∧ FullBox s ![n, n, n]) ∧
    (∃ s, Dbl.buildSquare3 (.tup [a, b, c]) = .ok s ∧ DoubleGrid 3 ![b, a, c] s ∧ FullBox s ![b, a, c]) := by
  constructor
  · obtain ⟨s, s0, hs, -⟩ := behind_of_grid isGrid3 (fun _ => n) fun _ => hn
    have hg : DoubleGrid 3 ![n, n, n] s := .three (.int n) s n n n hn hn hn (.inr ⟨rfl, rfl, rfl⟩) hs
    obtain ⟨_, hB⟩ := hg.behind
    exact ⟨s, hs, hg, hB.fullBox⟩
  · obtain ⟨s, s0, hs, -⟩ := behind_of_grid isGrid3 ![a, b, c] fun i => by fin_cases i <;> assumption
    have e : Dbl.buildSquare3 (.tup [a, b, c]) = .ok s := by
      rw [← hs, Dbl.buildSquare3, Dbl.build, dif_pos (by rfl)]
      congr 1
      funext i; fin_cases i <;> rfl
    have hg : DoubleGrid 3 ![b, a, c] s := .three (.tup [a, b, c]) s b a c hb ha hc (.inl rfl) e
    obtain ⟨_, hB⟩ := hg.behind
    exact ⟨s, e, hg, hB.fullBox⟩

/-- Rounding gives doubles, keeps doubles, and no double is nearer to the number. -/
theorem C99_rounding (x : ℚ) : IsDouble (fl x) ∧ (IsDouble x → fl x = x) ∧ ∀ z, IsDouble z → |fl x - x| ≤ |z - x| :=
  ⟨isDouble_fl x, fl_of_isDouble, fun _ => fl_nearest x⟩

/-! ### C100 -/

/-- At most one period away, a coordinate is wrapped correctly unless it is exactly the size and the reciprocal of the size is not exact. -/
theorem wraps_iff {N x : ℤ} (hN : 0 < N ∧ N ≤ 2 ^ 30) (h1 : -N ≤ x) (h2 : x < 2 * N) : Wraps N x ↔ (x = N → ReciprocalExact N) := by
  by_cases hx : x = N
  · subst hx
    rw [wraps_self_iff hN.1]
    exact ⟨fun h _ => h, fun h => h rfl⟩
  refine ⟨fun _ h => absurd h hx, fun _ => ?_⟩
  by_cases h0 : x = 0
  · subst h0; exact wraps_zero
  by_cases h3 : x = -N
  · subst h3
    have hN' : (0 : ℚ) < N := by exact_mod_cast hN.1
    have e1 := fl_err (1 / (N : ℚ))
    rw [abs_of_pos (by positivity : (0 : ℚ) < 1 / N)] at e1
    have a1 : |(N : ℚ) * fl (1 / N) - 1| ≤ 1 / 2 ^ 53 := by
      have : (N : ℚ) * fl (1 / N) - 1 = (fl (1 / N) - 1 / N) * N := by field_simp
      rw [this, abs_mul, abs_of_pos hN']
      calc |fl (1 / (N : ℚ)) - 1 / N| * N ≤ (1 / N / 2 ^ 53) * N := by gcongr
        _ = 1 / 2 ^ 53 := by field_simp
    have a2 := abs_le.1 a1
    have f1 : fl ((N : ℚ) * fl (1 / N)) ≤ 1 := fl_le_one (by linarith [a2.1]) (by linarith [a2.2])
    have f2 := abs_le.1 (fl_err ((N : ℚ) * fl (1 / N)))
    rw [abs_of_pos (by linarith [a2.1] : (0 : ℚ) < N * fl (1 / N))] at f2
    unfold Wraps axisFrac
    have : ((-N : ℤ) : ℚ) * fl (1 / N) = -(N * fl (1 / N)) := by push_cast; ring
    rw [this, fl_neg, Int.neg_ediv_of_dvd (dvd_refl N), Int.ediv_self hN.1.ne', Int.floor_eq_iff]
    push_cast
    constructor <;> linarith [f2.1, a2.1]
  · refine wraps_of_not_dvd hN.1 hN.2 (by rw [abs_le]; constructor <;> linarith) fun ⟨q, hq⟩ => ?_
    have hq1 : q < 2 := by
      by_contra hc
      have : N * 2 ≤ N * q := by nlinarith
      omega
    have hq2 : -1 ≤ q := by
      by_contra hc
      have : N * q ≤ N * (-2) := by nlinarith
      omega
    have : q = -1 ∨ q = 0 ∨ q = 1 := by omega
    rcases this with rfl | rfl | rfl <;> omega

/-- C100: up to one period away from the box, `site_at` finds the site that periodicity asks for, unless a coordinate equals the size of its axis
and `size * (1 / size)` is not 1 in double arithmetic; then it finds nothing. -/
theorem C100_site_at_partial {N : Fin d → ℤ} {s : Structure ℚ d} (hs : DoubleGrid d N s) (x : Fin d → ℤ)
    (hx : ∀ j, -N j ≤ x j ∧ x j < 2 * N j) :
    ((∀ j, x j = N j → ReciprocalExact (N j)) →
      ∃ t, Dbl.siteAt s (intPoint x) = some t ∧ t.loc = (intPoint fun j => x j % N j) ∧ s.getSite t.id = some t) ∧
    ((∃ j, x j = N j ∧ ¬ ReciprocalExact (N j)) → Dbl.siteAt s (intPoint x) = none) := by
  obtain ⟨s0, h⟩ := hs.behind
  have hb : ∀ j, |x j| ≤ 2 ^ 32 := fun j => by
    have h1 := hx j; have h2 := h.size j
    rw [abs_le]; constructor <;> linarith
  have hw : ∀ j, Wraps (N j) (x j) ↔ (x j = N j → ReciprocalExact (N j)) := fun j => wraps_iff (h.size j) (hx j).1 (hx j).2
  constructor
  · intro hr
    obtain ⟨t, ht, hl⟩ := IsTorus.siteAt s0 N h.torus x
    refine ⟨t, by rw [(h.siteAt hb).1 fun j => (hw j).2 (hr j)]; exact ht, hl, ?_⟩
    have e3 : s.getSite t.id = s0.getSite t.id := by rw [h.eq]; rfl
    rw [e3]; exact getSite_of_siteAt h.torus.reachable ht
  · rintro ⟨j, h1, h2⟩
    exact (h.siteAt hb).2 ⟨j, fun hh => h2 ((hw j).1 hh h1)⟩

theorem foldlM_congr_mem {α β : Type} {f g : β → α → Py β} {l : List α} (h : ∀ b, ∀ a ∈ l, f b a = g b a) (b : β) :
    l.foldlM f b = l.foldlM g b := by
  induction l generalizing b with
  | nil => rfl
  | cons a l ih =>
    rw [List.foldlM_cons, List.foldlM_cons, h b a (by simp)]
    congr 1
    funext b'
    exact ih (fun b a ha => h b a (by simp [ha])) b'

/-- Motif neighbourhoods in double precision: those of the exact grid, or TypeError. -/
theorem Behind.motif {N : Fin d → ℤ} {s s0 : Structure ℚ d} (h : Behind N s s0) (offs : List (Fin d → ℤ))
    (ho : ∀ v ∈ offs, ∀ j, |v j| ≤ N j) :
    ((∀ j, ReciprocalExact (N j)) → Dbl.motifGet (offs.map intPoint) s = (Builder.motif (offs.map intPoint)).get s0 none) ∧
    ((∃ j, ¬ ReciprocalExact (N j) ∧ ∃ v ∈ offs, 0 < v j) → Dbl.motifGet (offs.map intPoint) s = .error .typeError) := by
  have hr := h.torus.reachable
  have hsites : s.sitesOf none = s0.sitesOf none := by rw [h.eq]; rfl
  have hloc : ∀ t ∈ s0.sitesOf none, ∃ c, InBox N c ∧ t.loc = intPoint c := by
    intro t ht
    have hgt := (mem_sitesOf hr).1 ht
    have hid : t.id ∈ s0.siteIds := by
      rw [siteIds_eq hr, List.mem_range]; exact (getSite_isSome_iff hr).1 ⟨t, hgt⟩
    obtain ⟨c, hc, hs⟩ := h.torus.site t.id hid
    obtain ⟨t', ht', e⟩ := siteLocation_iff.1 hs
    rw [hgt] at ht'; injection ht' with ht'; subst ht'
    exact ⟨c, hc, e⟩
  have hsum : ∀ c v : Fin d → ℤ, InBox N c → (∀ j, |v j| ≤ N j) →
      (fun i => fl ((intPoint c : Fin d → ℚ) i + (intPoint v : Fin d → ℚ) i)) = intPoint fun j => c j + v j := by
    intro c v hc hv
    funext j
    have h1 := hc j; have h2 := abs_le.1 (hv j); have h3 := h.size j
    simp only [intPoint]
    rw [← Int.cast_add]
    exact fl_int (by rw [abs_le]; constructor <;> linarith [h2.1, h2.2])
  have hrange : ∀ c v : Fin d → ℤ, InBox N c → (∀ j, |v j| ≤ N j) → ∀ j, -N j ≤ c j + v j ∧ c j + v j < 2 * N j := by
    intro c v hc hv j
    have h1 := hc j; have h2 := abs_le.1 (hv j)
    omega
  have hbound : ∀ c v : Fin d → ℤ, InBox N c → (∀ j, |v j| ≤ N j) → ∀ j, |c j + v j| ≤ 2 ^ 32 := by
    intro c v hc hv j
    have h1 := hrange c v hc hv j; have h3 := h.size j
    rw [abs_le]; constructor <;> linarith [h1.1, h1.2]
  -- the ids that are found
  have hid : ∀ t ∈ s0.sitesOf none, ∀ w ∈ offs.map (intPoint : (Fin d → ℤ) → Fin d → ℚ),
      (Dbl.idAt s (fun i => fl (t.loc i + w i)) = s0.idAt (t.loc + w) ∨ Dbl.idAt s (fun i => fl (t.loc i + w i)) = none) ∧
      ((∀ j, ReciprocalExact (N j)) → Dbl.idAt s (fun i => fl (t.loc i + w i)) = s0.idAt (t.loc + w)) := by
    intro t ht w hw
    obtain ⟨c, hc, e⟩ := hloc t ht
    obtain ⟨v, hv, rfl⟩ := List.mem_map.1 hw
    rw [e, hsum c v hc (ho v hv), intPoint_add, Dbl.idAt, idAt]
    have hh := h.siteAt (hbound c v hc (ho v hv))
    constructor
    · by_cases hwr : ∀ j, Wraps (N j) (c j + v j)
      · left; rw [hh.1 hwr]
      · push Not at hwr
        right; rw [hh.2 hwr]; rfl
    · intro hex
      rw [hh.1 fun j => (wraps_iff (h.size j) (hrange c v hc (ho v hv) j).1 (hrange c v hc (ho v hv) j).2).2 fun _ => hex j]
  have hnb : ∀ t ∈ s0.sitesOf none, (∀ j, ReciprocalExact (N j)) →
      Dbl.motifNeighbors (offs.map intPoint) t s = (Builder.motif (offs.map intPoint)).getNeighbors t s0 := by
    intro t ht hex
    simp only [Dbl.motifNeighbors, Builder.getNeighbors]
    refine List.filterMap_congr fun w hw => ?_
    rw [(hid t ht w hw).2 hex]
  have hconn := foldlM_connect (K := ℚ) (s0.sitesOf none).length (fun t => Dbl.motifNeighbors (offs.map intPoint) t s) (s0.sitesOf none)
    (fun t ht => (getSite_isSome_iff hr).1 ⟨t, (mem_sitesOf hr).1 ht⟩) (by
      intro t ht nb hnb j hj
      simp only [Dbl.motifNeighbors, List.mem_filterMap] at hnb
      obtain ⟨w, hw, e⟩ := hnb
      split_ifs at e with hne
      injection e with e
      subst e
      simp only at hj
      rcases (hid t ht w hw).1 with h' | h'
      · rw [h', idAt, Option.map_eq_some_iff] at hj
        obtain ⟨t', ht', rfl⟩ := hj
        exact (getSite_isSome_iff hr).1 ⟨t', getSite_of_siteAt hr ht'⟩
      · rw [h'] at hj; cases hj) []
  constructor
  · intro hex
    rw [Dbl.motifGet, Builder.get, hsites]
    unfold Builder.connect
    refine foldlM_congr_mem (fun g t ht => ?_) _
    rw [hnb t ht hex]
  · rintro ⟨j, hj, v, hv, hpos⟩
    rw [Dbl.motifGet, hsites]
    refine hconn.2 ?_
    have hv' := abs_le.1 (ho v hv j)
    let c : Fin d → ℤ := fun k => if k = j then N j - v j else 0
    have hc : InBox N c := fun k => by
      by_cases hk : k = j
      · subst hk; simp only [c, if_true]; omega
      · have := h.size k
        simp only [c, if_neg hk]; omega
    obtain ⟨i, hi, hsi⟩ := h.torus.ex c hc
    obtain ⟨t, ht, hl⟩ := siteLocation_iff.1 hsi
    have htm : t ∈ s0.sitesOf none := (mem_sitesOf hr).2 (by rw [id_of_getSite hr ht]; exact ht)
    have hnone : Dbl.idAt s (fun i => fl (t.loc i + (intPoint v : Fin d → ℚ) i)) = none := by
      rw [hl, hsum c v hc (ho v hv), Dbl.idAt, (h.siteAt (hbound c v hc (ho v hv))).2 ⟨j, fun hw => ?_⟩]
      · rfl
      · have e : c j + v j = N j := by simp [c]
        have := (wraps_iff (h.size j) (hrange c v hc (ho v hv) j).1 (hrange c v hc (ho v hv) j).2).1 hw e
        exact hj this
    refine ⟨t, htm, (none, getDist (distanceMap euclideanDist (offs.map intPoint)) (intPoint v)), ?_, rfl⟩
    simp only [Dbl.motifNeighbors, List.mem_filterMap]
    exact ⟨intPoint v, List.mem_map.2 ⟨v, hv, rfl⟩, by rw [hnone]; simp⟩

theorem cube_le {r : ℤ} {N : Fin d → ℤ} (hr : ∀ j, r ≤ N j) {q : List ℤ → Bool} (v : Fin d → ℤ)
    (hv : v ∈ ((getPointsInCube (-r) (r + 1) d).filter q).map (cellVec d)) (j : Fin d) : |v j| ≤ N j := by
  obtain ⟨p, hp, rfl⟩ := List.mem_map.1 hv
  exact ((mem_cube.1 (List.mem_filter.1 hp).1).2 j).trans (hr j)

theorem unit_mem_cube {r : ℤ} (hr : 1 ≤ r) (j : Fin d) :
    ∃ v ∈ ((getPointsInCube (-r) (r + 1) d).filter fun p => (p.map fun x => |x|).sum ≤ r).map (cellVec d), 0 < v j := by
  have e : cellVec d (List.ofFn fun k : Fin d => if k = j then (1 : ℤ) else 0) = fun k => if k = j then 1 else 0 := cellVec_ofFn _
  refine ⟨_, List.mem_map.2 ⟨List.ofFn fun k => if k = j then 1 else 0, List.mem_filter.2 ⟨mem_cube.2 ⟨by simp, fun k => ?_⟩, ?_⟩, e⟩, by simp⟩
  · rw [e]
    dsimp only
    split_ifs <;> simp <;> omega
  · simp only [decide_eq_true_eq]
    rw [sum_abs_cellVec (d := d) (by simp), e]
    have : ∀ k, |(if k = j then (1 : ℤ) else 0)| = if k = j then 1 else 0 := fun k => by split_ifs <;> simp
    simp only [this, Finset.sum_ite_eq', Finset.mem_univ, if_true]
    exact hr

/-- C100: on a square grid of sizes `N`, the Moore builder of size `1 ≤ r ≤ N` gives each site exactly the other sites at torus Chebyshev
distance at most `r` if `N j * (1 / N j)` is 1 in double arithmetic for every axis; otherwise it raises TypeError. -/
theorem C100_moore_partial {N : Fin d → ℤ} {s : Structure ℚ d} (hs : DoubleGrid d N s) (r : ℤ) (hr : 1 ≤ r) (hrN : ∀ j, r ≤ N j) :
    ((∀ j, ReciprocalExact (N j)) → ∃ g, Dbl.mooreGet r s = .ok g ∧ ∀ i j a b, SiteHas s i a → SiteHas s j b →
      (j ∈ g.neighborsOf i ↔ j ≠ i ∧ ChebyshevLE N a b r)) ∧
    ((∃ j, ¬ ReciprocalExact (N j)) → Dbl.mooreGet r s = .error .typeError) := by
  obtain ⟨s0, h⟩ := hs.behind
  have e0 : getPointsInCube (-r) (r + 1) d = (getPointsInCube (-r) (r + 1) d).filter fun _ => true := by simp
  have hm := h.motif ((getPointsInCube (-r) (r + 1) d).map (cellVec d)) (by rw [e0]; exact cube_le hrN)
  have e : Dbl.mooreGet r s = Dbl.motifGet (((getPointsInCube (-r) (r + 1) d).map (cellVec d)).map intPoint) s := by
    rw [Dbl.mooreGet, List.map_map]; rfl
  constructor
  · intro hex
    obtain ⟨g, hg, hgm⟩ := torus_moore h.torus r
    refine ⟨g, by rw [e, hm.1 hex, ← moore_eq]; exact hg, fun i j a b ha hb => ?_⟩
    exact hgm i j a b (h.siteHas.1 ha) (h.siteHas.1 hb)
  · rintro ⟨j, hj⟩
    rw [e]
    obtain ⟨v, hv, hpos⟩ := unit_mem_cube hr j
    refine hm.2 ⟨j, hj, v, ?_, hpos⟩
    obtain ⟨p, hp, rfl⟩ := List.mem_map.1 hv
    exact List.mem_map.2 ⟨p, (List.mem_filter.1 hp).1, rfl⟩

/-- C100: the same for the von Neumann builder and the torus Manhattan distance. -/
theorem C100_von_neumann_partial {N : Fin d → ℤ} {s : Structure ℚ d} (hs : DoubleGrid d N s) (r : ℤ) (hr : 1 ≤ r) (hrN : ∀ j, r ≤ N j) :
    ((∀ j, ReciprocalExact (N j)) → ∃ g, Dbl.vonNeumannGet r s = .ok g ∧ ∀ i j a b, SiteHas s i a → SiteHas s j b →
      (j ∈ g.neighborsOf i ↔ j ≠ i ∧ torusManhattan N a b ≤ r)) ∧
    ((∃ j, ¬ ReciprocalExact (N j)) → Dbl.vonNeumannGet r s = .error .typeError) := by
  obtain ⟨s0, h⟩ := hs.behind
  have hm := h.motif (((getPointsInCube (-r) (r + 1) d).filter fun p => (p.map fun x => |x|).sum ≤ r).map (cellVec d)) (cube_le hrN)
  have e : Dbl.vonNeumannGet r s =
      Dbl.motifGet ((((getPointsInCube (-r) (r + 1) d).filter fun p => (p.map fun x => |x|).sum ≤ r).map (cellVec d)).map intPoint) s := by
    rw [Dbl.vonNeumannGet, List.map_map]; rfl
  constructor
  · intro hex
    obtain ⟨g, hg, hgm⟩ := torus_vonNeumann h.torus r
    refine ⟨g, by rw [e, hm.1 hex, ← vonNeumann_eq]; exact hg, fun i j a b ha hb => ?_⟩
    exact hgm i j a b (h.siteHas.1 ha) (h.siteHas.1 hb)
  · rintro ⟨j, hj⟩
    rw [e]
    obtain ⟨v, hv, hpos⟩ := unit_mem_cube hr j
    exact hm.2 ⟨j, hj, v, hv, hpos⟩

/-- Doubling a size changes nothing. -/
theorem reciprocalExact_two_pow_mul (k : ℕ) (n : ℤ) : ReciprocalExact (2 ^ k * n) ↔ ReciprocalExact n := by
  unfold ReciprocalExact
  have e1 : (1 : ℚ) / ((2 ^ k * n : ℤ) : ℚ) = 1 / n * 2 ^ (-(k : ℤ)) := by
    push_cast
    rw [zpow_neg, zpow_natCast, one_div, mul_inv, one_div, mul_comm]
  rw [e1, fl_scale]
  have e2 : ((2 ^ k * n : ℤ) : ℚ) * (fl (1 / n) * 2 ^ (-(k : ℤ))) = n * fl (1 / n) := by
    push_cast
    rw [zpow_neg, zpow_natCast]
    field_simp
  rw [e2]

/-- C100: which sizes are affected.  None below 49 and no power of two; 49 and all `49 * 2 ^ k`; and `n` exactly if `2 ^ k * n`. -/
theorem C100_sizes : (∀ n : ℤ, 0 < n → n < 49 → ReciprocalExact n) ∧ ¬ ReciprocalExact 49 ∧
    (∀ k : ℕ, ReciprocalExact (2 ^ k)) ∧ (∀ k : ℕ, ¬ ReciprocalExact (2 ^ k * 49)) ∧
    (∀ (k : ℕ) (n : ℤ), ReciprocalExact (2 ^ k * n) ↔ ReciprocalExact n) := by
  have h49 : ¬ ReciprocalExact 49 := by decide +kernel
  refine ⟨?_, h49, fun k => ?_, fun k => ?_, reciprocalExact_two_pow_mul⟩
  · have : ∀ n : Fin 49, 0 < (n : ℤ) → ReciprocalExact (n : ℤ) := by decide +kernel
    intro n h0 h1
    have e := this ⟨n.toNat, by omega⟩
    have e2 : ((⟨n.toNat, by omega⟩ : Fin 49) : ℤ) = n := by simp; omega
    rw [e2] at e
    exact e h0
  · rw [← mul_one (2 ^ k : ℤ), reciprocalExact_two_pow_mul]
    decide +kernel
  · rw [reciprocalExact_two_pow_mul]; exact h49

/-- C100: the unrestricted claim is false.  The 49 x 49 grid is built, but `site_at((49, 0))` is None, and the Moore and von Neumann builders of
size 1 raise TypeError. -/
theorem C100_false : ∃ s, Dbl.buildSquare2 (.int 49) = .ok s ∧ DoubleGrid 2 ![49, 49] s ∧ Dbl.siteAt s (intPoint ![49, 0]) = none ∧
    Dbl.mooreGet 1 s = .error .typeError ∧ Dbl.vonNeumannGet 1 s = .error .typeError := by
  obtain ⟨s, hs, hg, -⟩ := (C99_square2 49 1 1 (by norm_num) (by norm_num) (by norm_num)).1
  have h49 := C100_sizes.2.1
  refine ⟨s, hs, hg, ?_, ?_, ?_⟩
  · refine (C100_site_at_partial hg ![49, 0] ?_).2 ⟨0, rfl, h49⟩
    intro j; fin_cases j <;> simp
  · exact (C100_moore_partial hg 1 le_rfl (by intro j; fin_cases j <;> simp)).2 ⟨0, h49⟩
  · exact (C100_von_neumann_partial hg 1 le_rfl (by intro j; fin_cases j <;> simp)).2 ⟨0, h49⟩

/-- Non-vacuity: on a 48 x 5 grid the lookups wrap and the builders return the exact neighbourhoods. -/
example : ∃ s, DoubleGrid 2 ![5, 48] s ∧ (∃ t, Dbl.siteAt s (intPoint ![5, -1]) = some t ∧ t.loc = intPoint fun j => ![5, -1] j % ![5, 48] j) ∧
    (∃ g, Dbl.mooreGet 2 s = .ok g) ∧ ∃ g, Dbl.vonNeumannGet 1 s = .ok g := by
  obtain ⟨s, -, hg, -⟩ := (C99_square2 1 48 5 (by norm_num) (by norm_num) (by norm_num)).2
  have hex : ∀ j, ReciprocalExact ((![5, 48] : Fin 2 → ℤ) j) := by
    intro j; fin_cases j
    · exact C100_sizes.1 5 (by norm_num) (by norm_num)
    · exact C100_sizes.1 48 (by norm_num) (by norm_num)
  obtain ⟨t, h1, h2, -⟩ := (C100_site_at_partial hg ![5, -1] (by intro j; fin_cases j <;> simp)).1 fun j _ => hex j
  obtain ⟨g, h3, -⟩ := (C100_moore_partial hg 2 (by norm_num) (by intro j; fin_cases j <;> simp)).1 hex
  obtain ⟨g', h4, -⟩ := (C100_von_neumann_partial hg 1 (by norm_num) (by intro j; fin_cases j <;> simp)).1 hex
  exact ⟨s, hg, ⟨t, h1, h2⟩, ⟨g, h3⟩, ⟨g', h4⟩⟩

end Pyl
