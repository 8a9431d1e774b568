import Verif.Spec.Viz
import Verif.Lemmas.GridSetup
import Verif.Props.SquareGrid
import Verif.Lemmas.Box
import Verif.Props.Artist
import Verif.Props.GridSetup
/-
C76: the picture of a 2D square grid.
-/
set_option autoImplicit false
set_option linter.unusedSectionVars false

namespace Pyl
open Pyl.Lattice Structure SimState Spec Artist2D
variable {K : Type} [Field K] [LinearOrder K] [IsStrictOrderedRing K] [FloorRing K]

theorem put_ok {I : Img} {x y : ℤ} (h : InImg I x y) (c : Color) :
    I.put x y c = .ok { I with px := fun a b => if a = x ∧ b = y then c else I.px a b } := by
  obtain ⟨h1, h2, h3, h4⟩ := h
  unfold Img.put
  simp only [if_neg (not_lt.2 h1), if_neg (not_lt.2 h3)]
  rw [if_pos ⟨h1, h2, h3, h4⟩]

/-- Writing a set of pixels, one after the other, with the same colour. -/
theorem foldlM_put (l : List (ℤ × ℤ)) (c : Color) (I : Img) (h : ∀ p ∈ l, InImg I p.1 p.2) :
    ∃ J, l.foldlM (fun I p => I.put p.1 p.2 c) I = .ok J ∧ J.w = I.w ∧ J.h = I.h ∧ ∀ a b, J.px a b = if (a, b) ∈ l then c else I.px a b := by
  induction l generalizing I with
  | nil => exact ⟨I, rfl, rfl, rfl, by simp⟩
  | cons p l ih =>
    rw [List.foldlM_cons, put_ok (h p (by simp)), ok_bind]
    obtain ⟨J, h1, h2, h3, h4⟩ := ih { I with px := fun a b => if a = p.1 ∧ b = p.2 then c else I.px a b } (fun q hq => h q (by simp [hq]))
    refine ⟨J, h1, h2, h3, fun a b => ?_⟩
    rw [h4]
    by_cases hm : (a, b) ∈ l
    · simp [hm]
    · have : (a, b) = p ↔ a = p.1 ∧ b = p.2 := Prod.ext_iff
      simp [hm, this]

theorem foldlM_nested {f : Img → ℤ → ℤ → Py Img} (xs ys : List ℤ) (I : Img) :
    xs.foldlM (fun I x => ys.foldlM (fun I y => f I x y) I) I = (xs.flatMap fun x => ys.map fun y => (x, y)).foldlM (fun I p => f I p.1 p.2) I := by
  induction xs generalizing I with
  | nil => rfl
  | cons x xs ih =>
    rw [List.foldlM_cons, List.flatMap_cons, List.foldlM_append]
    have : ∀ I, ys.foldlM (fun I y => f I x y) I = (ys.map fun y => (x, y)).foldlM (fun I p => f I p.1 p.2) I := by
      intro I; rw [List.foldlM_map]
    rw [this]
    congr 1
    funext J; exact ih J

theorem fill_ok {I : Img} {x0 x1 y0 y1 : ℤ} (h : 0 ≤ x0 ∧ x1 ≤ I.w ∧ 0 ≤ y0 ∧ y1 ≤ I.h) (c : Color) :
    ∃ J, I.fill x0 x1 y0 y1 c = .ok J ∧ J.w = I.w ∧ J.h = I.h ∧
      ∀ a b, J.px a b = if (x0 ≤ a ∧ a < x1) ∧ y0 ≤ b ∧ b < y1 then c else I.px a b := by
  obtain ⟨J, h1, h2, h3, h4⟩ := foldlM_put ((pyRange x0 x1).flatMap fun x => (pyRange y0 y1).map fun y => (x, y)) c I (by
    intro p hp
    obtain ⟨x, hx, hp⟩ := List.mem_flatMap.1 hp
    obtain ⟨y, hy, rfl⟩ := List.mem_map.1 hp
    rw [mem_pyRange] at hx hy
    exact ⟨by omega, by omega, by omega, by omega⟩)
  refine ⟨J, ?_, h2, h3, fun a b => ?_⟩
  · unfold Img.fill
    rw [foldlM_nested (f := fun I x y => I.put x y c)]; exact h1
  · rw [h4]
    refine if_congr ?_ rfl rfl
    rw [List.mem_flatMap]
    constructor
    · rintro ⟨x, hx, hp⟩
      obtain ⟨y, hy, e⟩ := List.mem_map.1 hp
      rw [mem_pyRange] at hx hy
      injection e with e1 e2
      subst e1; subst e2
      exact ⟨hx, hy⟩
    · rintro ⟨hx, hy⟩
      exact ⟨a, mem_pyRange.2 hx, List.mem_map.2 ⟨b, mem_pyRange.2 hy, rfl⟩⟩

theorem bar_ok {I : Img} {n height : ℤ} {cs : ℕ} (hn : 0 ≤ n) (hw : n * cs + 5 ≤ I.w) (hh : height * cs ≤ I.h) :
    ∃ J, drawBar n cs height I = .ok J ∧ J.w = I.w ∧ J.h = I.h ∧
      ∀ a b, J.px a b = if (n * cs ≤ a ∧ a < n * cs + 5) ∧ 0 ≤ b ∧ b < height * cs then (255, 255, 255) else I.px a b := by
  have hnc : 0 ≤ n * (cs : ℤ) := by positivity
  obtain ⟨J, h1, h2, h3, h4⟩ := foldlM_put (((pyRange 0 (height * cs)).flatMap fun y => (pyRange 0 5).map fun x => (y, x)).map fun p => (n * cs + p.2, p.1))
    (255, 255, 255) I (by
    intro p hp
    obtain ⟨q, hq, rfl⟩ := List.mem_map.1 hp
    obtain ⟨y, hy, hq⟩ := List.mem_flatMap.1 hq
    obtain ⟨x, hx, rfl⟩ := List.mem_map.1 hq
    rw [mem_pyRange] at hx hy
    refine ⟨?_, ?_, ?_, ?_⟩ <;> simp only <;> omega)
  refine ⟨J, ?_, h2, h3, fun a b => ?_⟩
  · unfold drawBar
    rw [foldlM_nested (f := fun I y x => I.put (n * cs + x) y (255, 255, 255))]
    rw [List.foldlM_map] at h1; exact h1
  · rw [h4]
    refine if_congr ?_ rfl rfl
    rw [List.mem_map]
    constructor
    · rintro ⟨q, hq, e⟩
      obtain ⟨y, hy, hq⟩ := List.mem_flatMap.1 hq
      obtain ⟨x, hx, rfl⟩ := List.mem_map.1 hq
      rw [mem_pyRange] at hx hy
      injection e with e1 e2
      simp only at e1 e2
      omega
    · rintro ⟨hx, hy⟩
      exact ⟨(b, a - n * cs), List.mem_flatMap.2 ⟨b, mem_pyRange.2 hy, List.mem_map.2 ⟨a - n * cs, mem_pyRange.2 ⟨by omega, by omega⟩, rfl⟩⟩, by simp⟩

theorem pyInt_int (z : ℤ) : pyInt (z : K) = z := by
  unfold pyInt
  split_ifs <;> simp

/-- Blocks of different cells do not meet. -/
theorem inBlock_iff {n : ℤ} {cs : ℕ} (hcs : 0 < cs) {c : Fin 2 → ℤ} {x y : ℤ} : InBlock n cs c x y ↔ c 0 = x / cs ∧ c 1 = n - 1 - y / cs := by
  have hp : (0 : ℤ) < cs := by exact_mod_cast hcs
  have key : ∀ q z : ℤ, (q * cs ≤ z ∧ z < q * cs + cs) ↔ q = z / cs := by
    intro q z
    rw [eq_comm, Int.ediv_eq_iff_of_pos hp, mul_comm q]
  unfold InBlock
  rw [← and_assoc, key, key]
  constructor
  · rintro ⟨h1, h2⟩; exact ⟨h1, by omega⟩
  · rintro ⟨h1, h2⟩; exact ⟨h1, by omega⟩

theorem inBlock_bounds {n w : ℤ} {cs : ℕ} {c : Fin 2 → ℤ} (h0 : 0 ≤ c 0 ∧ c 0 < w) (h1 : 0 ≤ c 1 ∧ c 1 < n) {x y : ℤ} (h : InBlock n cs c x y) :
    0 ≤ x ∧ x < w * cs ∧ 0 ≤ y ∧ y < n * cs := by
  obtain ⟨a1, a2, a3, a4⟩ := h
  have hp : (0 : ℤ) ≤ cs := by positivity
  refine ⟨?_, ?_, ?_, ?_⟩
  · nlinarith [h0.1]
  · nlinarith [h0.2]
  · nlinarith [h1.2]
  · nlinarith [h1.1]

/-- Drawing a list of sites. -/
theorem foldlM_drawSite (A : CellArtist) (s : SimState) {n : ℤ} {cs : ℕ} (hcs : 0 < cs) {w : ℤ} (l : List (Site K 2)) (cell : Site K 2 → Fin 2 → ℤ) (col : Site K 2 → Color)
    (hloc : ∀ t ∈ l, t.loc = intPoint (cell t) ∧ (0 ≤ cell t 0 ∧ cell t 0 < w) ∧ 0 ≤ cell t 1 ∧ cell t 1 < n)
    (hcol : ∀ t ∈ l, A.color (s.getSiteState (.int t.id)) = .ok (col t)) (huniq : ∀ t ∈ l, ∀ u ∈ l, cell t = cell u → col t = col u)
    (I : Img) (hw : w * cs ≤ I.w) (hh : n * cs ≤ I.h) :
    ∃ J, l.foldlM (drawSite A s n cs) I = .ok J ∧ J.w = I.w ∧ J.h = I.h ∧
      (∀ t ∈ l, ∀ a b, InBlock n cs (cell t) a b → J.px a b = col t) ∧
      ∀ a b, (∀ t ∈ l, ¬ InBlock n cs (cell t) a b) → J.px a b = I.px a b := by
  have hp : (0 : ℤ) < cs := by exact_mod_cast hcs
  induction l generalizing I with
  | nil => exact ⟨I, rfl, rfl, rfl, by simp, by simp⟩
  | cons t l ih =>
    obtain ⟨hl, ⟨hx0, hx1⟩, hy0, hy1⟩ := hloc t (by simp)
    have e1 : pyInt (t.loc 0 * ((cs : ℕ) : K)) = cell t 0 * cs := by
      rw [hl]
      have : (intPoint (cell t) 0 : K) * ((cs : ℕ) : K) = ((cell t 0 * (cs : ℤ) : ℤ) : K) := by simp [intPoint]
      rw [this, pyInt_int]
    have e2 : pyInt (((n : K) - 1 - t.loc 1) * ((cs : ℕ) : K)) = (n - 1 - cell t 1) * cs := by
      rw [hl]
      have : ((n : K) - 1 - intPoint (cell t) 1) * ((cs : ℕ) : K) = (((n - 1 - cell t 1) * (cs : ℤ) : ℤ) : K) := by simp [intPoint]
      rw [this, pyInt_int]
    obtain ⟨J1, h1, h2, h3, h4⟩ := fill_ok (I := I) (x0 := cell t 0 * cs) (x1 := cell t 0 * cs + cs) (y0 := (n - 1 - cell t 1) * cs)
      (y1 := (n - 1 - cell t 1) * cs + cs) ⟨by positivity, by nlinarith, by nlinarith, by nlinarith⟩ (col t)
    obtain ⟨J, h5, h6, h7, h8, h9⟩ := ih (fun u hu => hloc u (by simp [hu])) (fun u hu => hcol u (by simp [hu]))
      (fun u hu v hv => huniq u (by simp [hu]) v (by simp [hv])) J1 (by rw [h2]; exact hw) (by rw [h3]; exact hh)
    have hin : ∀ a b, InBlock n cs (cell t) a b → J1.px a b = col t := by
      intro a b h
      rw [h4, if_pos ⟨⟨h.1, h.2.1⟩, h.2.2.1, h.2.2.2⟩]
    have hout : ∀ a b, ¬ InBlock n cs (cell t) a b → J1.px a b = I.px a b := by
      intro a b h
      rw [h4, if_neg fun g => h ⟨g.1.1, g.1.2, g.2.1, g.2.2⟩]
    refine ⟨J, ?_, h6.trans h2, h7.trans h3, fun u hu a b hb => ?_, fun a b hno => ?_⟩
    · rw [List.foldlM_cons]
      have : drawSite A s n cs I t = .ok J1 := by
        unfold drawSite
        rw [hcol t (by simp), ok_bind]
        simp only [e1, e2]
        exact h1
      rw [this, ok_bind]; exact h5
    · rcases List.mem_cons.1 hu with rfl | hu
      · by_cases hex : ∃ v ∈ l, InBlock n cs (cell v) a b
        · obtain ⟨v, hv, hvb⟩ := hex
          rw [h8 v hv a b hvb]
          refine huniq v (by simp [hv]) u (by simp) ?_
          rw [inBlock_iff hcs] at hb hvb
          funext j
          fin_cases j
          · exact hvb.1.trans hb.1.symm
          · exact hvb.2.trans hb.2.symm
        · rw [h9 a b (fun v hv hvb => hex ⟨v, hv, hvb⟩), hin a b hb]
      · exact h8 u hu a b hb
    · rw [h9 a b (fun v hv => hno v (by simp [hv])), hout a b (hno t (by simp))]

/-- Drawing the lines of the legend. -/
theorem foldlM_drawEntry (text : TextTool) {n : ℤ} {cs : ℕ} (hcs : 0 < cs) (hn : 0 ≤ n) (ht : TextRight text (cs / 4 : ℕ)) (l : List (String × Color)) (I : Img) (k : ℕ)
    (hw : (n + 6) * cs + 5 ≤ I.w) (hh : (k + l.length + 1 : ℤ) * cs ≤ I.h) :
    ∃ J, l.foldlM (drawEntry text n cs) (I, (k : ℤ)) = .ok (J, (k : ℤ) + l.length) ∧ J.w = I.w ∧ J.h = I.h ∧
      (∀ a b, a < n * cs + 5 → J.px a b = I.px a b) ∧
      (∀ a b : ℤ, a < n * cs + 5 + (cs / 4 : ℕ) + cs → b < k * cs + (cs / 4 : ℕ) → J.px a b = I.px a b) ∧
      ∀ (j : ℕ) e, l[j]? = some e → ∀ a b : ℤ, 0 ≤ a → a < cs → 0 ≤ b → b < cs →
        J.px (n * cs + 5 + (cs / 4 : ℕ) + a) ((k + j) * cs + (cs / 4 : ℕ) + b) = e.2 := by
  have hp : (0 : ℤ) < cs := by exact_mod_cast hcs
  have hnc : 0 ≤ n * (cs : ℤ) := by positivity
  have hq : ((cs / 4 : ℕ) : ℤ) ≤ cs := by have := Nat.div_le_self cs 4; exact_mod_cast this
  have hq0 : (0 : ℤ) ≤ ((cs / 4 : ℕ) : ℤ) := by positivity
  generalize hQ : ((cs / 4 : ℕ) : ℤ) = Q at *
  induction l generalizing I k with
  | nil => exact ⟨I, by simp [pure, Except.pure], rfl, rfl, by simp, by simp, by simp⟩
  | cons e l ih =>
    simp only [List.length_cons, Nat.cast_add, Nat.cast_one] at hh
    obtain ⟨J1, h1, h2, h3, h4⟩ := fill_ok (I := I) (x0 := n * cs + 5 + Q) (x1 := n * cs + 5 + Q + cs) (y0 := (k : ℤ) * cs + Q)
      (y1 := (k : ℤ) * cs + Q + cs) ⟨by omega, by nlinarith, by positivity, by nlinarith⟩ e.2
    obtain ⟨t1, t2, t3⟩ := ht J1 (n * cs + 5 + Q + cs + Q) (k * cs + Q + Q) e.1
    obtain ⟨J, h5, h6, h7, h8, h9, h10⟩ := ih (text J1 (n * cs + 5 + Q + cs + Q) (k * cs + Q + Q) e.1) (k + 1)
      (by rw [t1, h2]; exact hw) (by rw [t2, h3]; push_cast; linarith)
    have hstep : drawEntry text n cs (I, (k : ℤ)) e = .ok (text J1 (n * cs + 5 + Q + cs + Q) (k * cs + Q + Q) e.1, ((k + 1 : ℕ) : ℤ)) := by
      unfold drawEntry
      simp only [hQ, h1, ok_bind]
      rfl
    refine ⟨J, ?_, by rw [h6, t1, h2], by rw [h7, t2, h3], ?_, ?_, ?_⟩
    · rw [List.foldlM_cons, hstep, ok_bind, h5]
      congr 2
      simp only [List.length_cons]; push_cast; ring
    · intro a b ha
      rw [h8 a b ha, t3 a b (by omega), h4, if_neg (by omega)]
    · intro a b ha hb
      rw [h9 a b ha (by push_cast; nlinarith), t3 a b (by omega), h4, if_neg (by omega)]
    · intro j e' hj a b ha0 ha1 hb0 hb1
      cases j with
      | zero =>
        simp only [List.getElem?_cons_zero, Option.some.injEq] at hj
        subst hj
        simp only [Nat.cast_zero, add_zero]
        rw [h9 _ _ (by omega) (by push_cast; nlinarith), t3 _ _ (by omega), h4, if_pos ⟨by omega, by omega⟩]
      | succ j =>
        rw [List.getElem?_cons_succ] at hj
        have := h10 j e' hj a b ha0 ha1 hb0 hb1
        rw [← this]
        congr 1
        push_cast; ring

theorem vecLength0_scaled {d : ℕ} {L : Lattice K d} {σ : Fin d → Fin d} (h : IsGrid L σ) (hd : 0 < d) {N : Fin d → ℤ} (hN : 0 < N ⟨0, hd⟩) :
    vecLength0 (L.scaled N) = .ok ((N ⟨0, hd⟩ : ℤ) : K) := by
  unfold vecLength0
  rw [dif_pos hd, rootOf_sq (r := ((N ⟨0, hd⟩ : ℤ) : K)) (by exact_mod_cast hN.le)]
  rw [Finset.sum_eq_single (σ ⟨0, hd⟩)]
  · simp [scaled, h.mat, sq]
  · intro b _ hb
    simp [scaled, h.mat, hb]
  · simp

/-- The first lattice vector of a 2D square grid runs along y. -/
theorem vecLength0_square {N : Fin 2 → ℤ} {S : Structure K 2} (h : SquareGrid 2 N S) : vecLength0 S.lattice = .ok ((N 1 : ℤ) : K) := by
  cases h with
  | two size s a b ha hb hsz h =>
    have key : ∀ m : Fin 2 → ℤ, (∀ i, 0 < m i) → buildFrom gridLattice2 m gridMotif false = .ok S → m 0 = b → vecLength0 S.lattice = .ok ((b : ℤ) : K) := by
      intro m hm hb' e
      obtain ⟨S', h1, h2, -⟩ := (isGrid2 (K := K)).build_grid m hm
      rw [hb'] at h1; injection h1 with h1; subst h1
      rw [h2, ← e]
      exact vecLength0_scaled isGrid2 (by norm_num) (hm 0)
    rcases hsz with rfl | ⟨rfl, rfl⟩
    · refine key ![b, a] (fun i => by fin_cases i <;> assumption) ?_ rfl
      rw [← h, buildSquare2, build, dif_pos (by rfl)]
      congr 1
      funext i; fin_cases i <;> rfl
    · exact key (fun _ => a) (fun _ => ha) h rfl

/-- C76 (partial: without the label, which is text written over the grid, see `C76_false`; for grids at most as wide as high, see
`C76_wide`).  The picture has `n + 6` columns and at least `n` rows of cells and a bar of five pixels.  The pixels of every site's
block are in the image and have the site's colour; every pixel of the grid's part belongs to the block of exactly one site; the rest
of the left part is black, the bar is white, and the `j`-th line of the legend shows the colour of the `j`-th label in sorted order. -/
theorem C76_draw_partial {N : Fin 2 → ℤ} {S : Structure K 2} (hS : SquareGrid 2 N S) (hN : N 0 ≤ N 1) {cs : ℕ} (hcs : 0 < cs) (A : CellArtist)
    (text : TextTool) (ht : TextRight text (cs / 4 : ℕ)) (s : SimState) (L : Dict String Color) (hL : A.getLegend s = .ok L)
    (col : ℕ → Color) (hcol : ∀ i ∈ S.siteIds, A.color (s.getSiteState (.int i)) = .ok (col i)) :
    ∃ (I : Img) (entries : List (String × Color)), drawImage A text S s cs none = .ok I ∧ (I.w : ℤ) = (N 1 + 6) * cs + 5 ∧ (I.h : ℤ) = max (N 1) (L.length + 1) * cs ∧
      (∀ i c, SiteHas S i c → ∀ x y, InBlock (N 1) cs c x y → InImg I x y ∧ I.px x y = col i) ∧
      (∀ x y, 0 ≤ x → x < N 0 * cs → 0 ≤ y → y < N 1 * cs → ∃! i, i ∈ S.siteIds ∧ ∃ c, SiteHas S i c ∧ InBlock (N 1) cs c x y) ∧
      (∀ x y, InImg I x y → x < N 1 * cs → N 0 * cs ≤ x ∨ N 1 * cs ≤ y → I.px x y = (0, 0, 0)) ∧
      (∀ x y, InImg I x y → N 1 * cs ≤ x → x < N 1 * cs + 5 → I.px x y = (255, 255, 255)) ∧
      entries.Perm L ∧ entries.Pairwise (fun a b => a.1 ≤ b.1) ∧
      ∀ (j : ℕ) e, entries[j]? = some e → ∀ a b : ℤ, 0 ≤ a → a < cs → 0 ≤ b → b < cs →
        InImg I (N 1 * cs + 5 + (cs / 4 : ℕ) + a) (j * cs + (cs / 4 : ℕ) + b) ∧ I.px (N 1 * cs + 5 + (cs / 4 : ℕ) + a) (j * cs + (cs / 4 : ℕ) + b) = e.2 := by
  have hp : (0 : ℤ) < cs := by exact_mod_cast hcs
  have hT := hS.isTorus
  have hR := hT.reachable
  have hn0 := hT.pos 0
  have hn := hT.pos 1
  generalize hnn : N 1 = n at *
  set H : ℤ := max n (L.length + 1) with hH
  have hHn : n ≤ H := le_max_left _ _
  have hHl : (L.length : ℤ) + 1 ≤ H := le_max_right _ _
  have hH0 : 0 < H := by omega
  have hNc : N 0 * (cs : ℤ) ≤ n * cs := mul_le_mul_of_nonneg_right hN hp.le
  have hHc : n * (cs : ℤ) ≤ H * cs := mul_le_mul_of_nonneg_right hHn hp.le
  have hLc : ((L.length : ℤ) + 1) * (cs : ℤ) ≤ H * cs := mul_le_mul_of_nonneg_right hHl hp.le
  have hnc : (n + 6) * (cs : ℤ) = n * cs + 6 * cs := by ring
  set w : ℕ := ((n + 6) * cs + 5).toNat with hw
  set h : ℕ := (H * cs).toNat with hh
  have ew : (w : ℤ) = (n + 6) * cs + 5 := Int.toNat_of_nonneg (by positivity)
  have eh : (h : ℤ) = H * cs := Int.toNat_of_nonneg (by positivity)
  -- the cells of the sites
  have hcell : ∀ t ∈ S.sitesOf none, ∃ c, SiteHas S t.id c ∧ InBox N c ∧ t.loc = intPoint c := by
    intro t ht
    have hmem := (mem_siteIds_iff hR).2 ⟨t, ht, rfl⟩
    obtain ⟨c, hb, hc⟩ := hT.site _ hmem
    refine ⟨c, hc, hb, ?_⟩
    obtain ⟨u, hu, e⟩ := siteLocation_iff.1 hc
    rw [(mem_sitesOf hR).1 ht] at hu; injection hu with hu; subst hu; exact e
  choose! cell hc1 hc2 hc3 using hcell
  have hc2' : ∀ t ∈ S.sitesOf none, cell t 1 < n := fun t ht => hnn ▸ (hc2 t ht 1).2
  obtain ⟨J1, a1, a2, a3, a4, a5⟩ := foldlM_drawSite A s (n := n) hcs (w := N 0) (S.sitesOf none) cell (fun t => col t.id)
    (fun t ht => ⟨hc3 t ht, hc2 t ht 0, (hc2 t ht 1).1, hc2' t ht⟩) (fun t ht => hcol _ ((mem_siteIds_iff hR).2 ⟨t, ht, rfl⟩))
    (fun t ht u hu e => by rw [hT.site_unique (hc1 t ht) (e ▸ hc1 u hu)])
    (Img.black w h) (by simp only [Img.black]; linarith) (by simp only [Img.black]; linarith)
  obtain ⟨J2, b1, b2, b3, b4⟩ := bar_ok (I := J1) (n := n) (height := H) (cs := cs) hn.le (by rw [a2]; simp only [Img.black]; linarith)
    (by rw [a3]; simp only [Img.black]; omega)
  have hlen : (L.mergeSort fun a b => decide (a.1 ≤ b.1)).length = L.length := List.length_mergeSort _
  have hJw : (J2.w : ℤ) = (n + 6) * cs + 5 := by rw [b2, a2]; exact ew
  have hJh : (J2.h : ℤ) = H * cs := by rw [b3, a3]; exact eh
  obtain ⟨J, c1, c2, c3, c4, -, c6⟩ := foldlM_drawEntry text hcs hn.le ht (L.mergeSort fun a b => decide (a.1 ≤ b.1)) J2 0
    (by rw [hJw]) (by rw [hJh, hlen, Nat.cast_zero, zero_add]; exact hLc)
  have hw' : (J.w : ℤ) = (n + 6) * cs + 5 := by rw [c2]; exact hJw
  have hh' : (J.h : ℤ) = H * cs := by rw [c3]; exact hJh
  -- the left part after the sites are drawn
  have left : ∀ x y, x < n * cs → J.px x y = J1.px x y := by
    intro x y hx
    rw [c4 x y (by omega), b4, if_neg (by omega)]
  refine ⟨J, L.mergeSort fun a b => decide (a.1 ≤ b.1), ?_, hw', hh', ?_, ?_, ?_, ?_, List.mergeSort_perm L _, ?_, ?_⟩
  · unfold drawImage
    rw [hL, ok_bind, vecLength0_square hS, ok_bind]
    simp only [hnn, pyInt_int]
    rw [← hH, ← hw, ← hh, a1, ok_bind, b1, ok_bind]
    rw [Nat.cast_zero] at c1
    rw [c1, ok_bind]
    rfl
  · intro i c hi x y hb
    obtain ⟨t, ht, rfl, hl⟩ := site_of_has hR hi
    have e : c = cell t := IsTorus.has_unique_coord hi (hc1 t ht)
    subst e
    obtain ⟨g1, g2, g3, g4⟩ := inBlock_bounds (hc2 t ht 0) ⟨(hc2 t ht 1).1, hc2' t ht⟩ hb
    have hx : x < n * cs := lt_of_lt_of_le g2 hNc
    exact ⟨⟨g1, by rw [hw']; linarith, g3, by rw [hh']; linarith⟩, by rw [left x y hx]; exact a4 t ht x y hb⟩
  · intro x y hx0 hx1 hy0 hy1
    have hb : InBox N ![x / cs, n - 1 - y / cs] := by
      have d1 := Int.ediv_nonneg hx0 hp.le
      have d2 := Int.ediv_lt_of_lt_mul hp hx1
      have d3 := Int.ediv_nonneg hy0 hp.le
      have d4 := Int.ediv_lt_of_lt_mul hp hy1
      intro j
      fin_cases j
      · exact ⟨d1, d2⟩
      · refine ⟨?_, ?_⟩
        · simp only [Fin.mk_one, Matrix.cons_val_one, Matrix.cons_val_zero]; omega
        · simp only [Fin.mk_one, Matrix.cons_val_one, Matrix.cons_val_zero, hnn]; omega
    obtain ⟨i, hi, hc⟩ := hT.ex _ hb
    refine ⟨i, ⟨hi, _, hc, (inBlock_iff hcs).2 ⟨rfl, rfl⟩⟩, ?_⟩
    rintro k ⟨hk, c, hkc, hkb⟩
    have e : c = ![x / cs, n - 1 - y / cs] := by
      rw [inBlock_iff hcs] at hkb
      funext j
      fin_cases j
      · exact hkb.1
      · exact hkb.2
    subst e
    exact hT.site_unique hkc hc
  · intro x y hI hx hxy
    rw [left x y hx, a5 x y]
    · rfl
    · intro t ht hb
      obtain ⟨g1, g2, g3, g4⟩ := inBlock_bounds (hc2 t ht 0) ⟨(hc2 t ht 1).1, hc2' t ht⟩ hb
      rcases hxy with hxy | hxy
      · exact absurd g2 (not_lt.2 hxy)
      · exact absurd g4 (not_lt.2 hxy)
  · intro x y hI hx0 hx1
    have := hI.2.2.2
    rw [hh'] at this
    rw [c4 x y hx1, b4, if_pos ⟨⟨hx0, hx1⟩, hI.2.2.1, this⟩]
  · have := List.pairwise_mergeSort (le := fun a b : String × Color => decide (a.1 ≤ b.1)) (by
      intro a b c h1 h2
      simp only [decide_eq_true_eq] at *
      exact String.le_trans h1 h2) (by
      intro a b
      simp only [Bool.or_eq_true, decide_eq_true_eq]
      exact String.le_total _ _) L
    exact this.imp (by simp)
  · intro j e hj a b ha0 ha1 hb0 hb1
    have hq : ((cs / 4 : ℕ) : ℤ) ≤ cs := by have := Nat.div_le_self cs 4; exact_mod_cast this
    have hq0 : (0 : ℤ) ≤ ((cs / 4 : ℕ) : ℤ) := by positivity
    have hjl : (j : ℤ) < L.length := by
      have := (List.getElem?_eq_some_iff.1 hj).1
      rw [hlen] at this
      exact_mod_cast this
    have hjc : ((j : ℤ) + 1) * (cs : ℤ) ≤ L.length * cs := mul_le_mul_of_nonneg_right (by omega) hp.le
    refine ⟨⟨by positivity, by rw [hw']; linarith, by positivity, by rw [hh']; linarith⟩, ?_⟩
    have := c6 j e hj a b ha0 ha1 hb0 hb1
    rwa [Nat.cast_zero, zero_add] at this

/-- C76: the label is written over the picture without it. -/
theorem C76_label (A : CellArtist) (text : TextTool) (S : Structure K 2) (s : SimState) (cs : ℕ) (l : String) :
    drawImage A text S s cs (some l) = (do let I ← drawImage A text S s cs none; pure (text I 5 5 l)) := by
  unfold drawImage
  simp only [bind_assoc, pure_bind]

/-- C76, grids wider than high: the bar is drawn over the sites of column number `N 1`. -/
theorem C76_wide {N : Fin 2 → ℤ} {S : Structure K 2} (hS : SquareGrid 2 N S) (h1 : N 1 < N 0) (h2 : N 0 ≤ N 1 + 6) {cs : ℕ} (hcs : 0 < cs) (A : CellArtist)
    (text : TextTool) (ht : TextRight text (cs / 4 : ℕ)) (s : SimState) (L : Dict String Color) (hL : A.getLegend s = .ok L)
    (col : ℕ → Color) (hcol : ∀ i ∈ S.siteIds, A.color (s.getSiteState (.int i)) = .ok (col i)) :
    ∃ I : Img, drawImage A text S s cs none = .ok I ∧ (∃ i c, SiteHas S i c ∧ c 0 = N 1) ∧ ∀ i c, SiteHas S i c → c 0 = N 1 →
      InBlock (N 1) cs c (c 0 * cs) ((N 1 - 1 - c 1) * cs) ∧ I.px (c 0 * cs) ((N 1 - 1 - c 1) * cs) = (255, 255, 255) := by
  have hp : (0 : ℤ) < cs := by exact_mod_cast hcs
  have hT := hS.isTorus
  have hR := hT.reachable
  have hn0 := hT.pos 0
  have hn := hT.pos 1
  generalize hnn : N 1 = n at *
  set H : ℤ := max n (L.length + 1) with hH
  have hHn : n ≤ H := le_max_left _ _
  have hHl : (L.length : ℤ) + 1 ≤ H := le_max_right _ _
  have hH0 : 0 < H := by omega
  have hNc : N 0 * (cs : ℤ) ≤ (n + 6) * cs := mul_le_mul_of_nonneg_right h2 hp.le
  have hHc : n * (cs : ℤ) ≤ H * cs := mul_le_mul_of_nonneg_right hHn hp.le
  have hLc : ((L.length : ℤ) + 1) * (cs : ℤ) ≤ H * cs := mul_le_mul_of_nonneg_right hHl hp.le
  have hnc : (n + 6) * (cs : ℤ) = n * cs + 6 * cs := by ring
  set w : ℕ := ((n + 6) * cs + 5).toNat with hw
  set h : ℕ := (H * cs).toNat with hh
  have ew : (w : ℤ) = (n + 6) * cs + 5 := Int.toNat_of_nonneg (by positivity)
  have eh : (h : ℤ) = H * cs := Int.toNat_of_nonneg (by positivity)
  have hcell : ∀ t ∈ S.sitesOf none, ∃ c, SiteHas S t.id c ∧ InBox N c ∧ t.loc = intPoint c := by
    intro t ht
    have hmem := (mem_siteIds_iff hR).2 ⟨t, ht, rfl⟩
    obtain ⟨c, hb, hc⟩ := hT.site _ hmem
    refine ⟨c, hc, hb, ?_⟩
    obtain ⟨u, hu, e⟩ := siteLocation_iff.1 hc
    rw [(mem_sitesOf hR).1 ht] at hu; injection hu with hu; subst hu; exact e
  choose! cell hc1 hc2 hc3 using hcell
  have hc2' : ∀ t ∈ S.sitesOf none, cell t 1 < n := fun t ht => hnn ▸ (hc2 t ht 1).2
  obtain ⟨J1, a1, a2, a3, a4, a5⟩ := foldlM_drawSite A s (n := n) hcs (w := N 0) (S.sitesOf none) cell (fun t => col t.id)
    (fun t ht => ⟨hc3 t ht, hc2 t ht 0, (hc2 t ht 1).1, hc2' t ht⟩) (fun t ht => hcol _ ((mem_siteIds_iff hR).2 ⟨t, ht, rfl⟩))
    (fun t ht u hu e => by rw [hT.site_unique (hc1 t ht) (e ▸ hc1 u hu)])
    (Img.black w h) (by simp only [Img.black]; linarith) (by simp only [Img.black]; linarith)
  obtain ⟨J2, b1, b2, b3, b4⟩ := bar_ok (I := J1) (n := n) (height := H) (cs := cs) hn.le (by rw [a2]; simp only [Img.black]; linarith)
    (by rw [a3]; simp only [Img.black]; omega)
  have hlen : (L.mergeSort fun a b => decide (a.1 ≤ b.1)).length = L.length := List.length_mergeSort _
  have hJw : (J2.w : ℤ) = (n + 6) * cs + 5 := by rw [b2, a2]; exact ew
  have hJh : (J2.h : ℤ) = H * cs := by rw [b3, a3]; exact eh
  obtain ⟨J, c1, c2, c3, c4, -, -⟩ := foldlM_drawEntry text hcs hn.le ht (L.mergeSort fun a b => decide (a.1 ≤ b.1)) J2 0
    (by rw [hJw]) (by rw [hJh, hlen, Nat.cast_zero, zero_add]; exact hLc)
  refine ⟨J, ?_, ?_, ?_⟩
  · unfold drawImage
    rw [hL, ok_bind, vecLength0_square hS, ok_bind]
    simp only [hnn, pyInt_int]
    rw [← hH, ← hw, ← hh, a1, ok_bind, b1, ok_bind]
    rw [Nat.cast_zero] at c1
    rw [c1, ok_bind]
    rfl
  · obtain ⟨i, -, hi⟩ := hT.ex ![n, 0] (fun j => by
      fin_cases j
      · exact ⟨hn.le, h1⟩
      · exact ⟨le_rfl, by rw [← hnn] at hn; exact hn⟩)
    exact ⟨i, _, hi, rfl⟩
  · intro i c hi hc0
    have hb := hT.inBox_of_has hi
    have hcn : c 1 < n := hnn ▸ (hb 1).2
    have hB : InBlock n cs c (c 0 * cs) ((n - 1 - c 1) * cs) := ⟨le_rfl, by omega, le_rfl, by omega⟩
    obtain ⟨g1, g2, g3, g4⟩ := inBlock_bounds (hb 0) ⟨(hb 1).1, hcn⟩ hB
    refine ⟨hB, ?_⟩
    rw [hc0] at *
    rw [c4 _ _ (by omega), b4, if_pos ⟨⟨le_rfl, by omega⟩, g3, by omega⟩]

/-- A text tool that paints only the upper left pixel of its text. -/
def dotText : TextTool := fun I x y _ => { I with px := fun a b => if a = x ∧ b = y then (255, 255, 255) else I.px a b }

theorem dotText_right (slack : ℕ) : TextRight dotText slack := by
  intro I x y str
  refine ⟨rfl, rfl, fun a b hab => ?_⟩
  simp only [dotText]
  rw [if_neg (by omega)]

/-- C76 fails with a label (`to_gif` and `jupyter_play` always give one): the label is written over blocks of sites.  On every grid at
least as high as wide with more than five pixels in each direction there is a site whose block has a pixel of the label, whatever its colour. -/
theorem C76_false {N : Fin 2 → ℤ} {S : Structure K 2} (hS : SquareGrid 2 N S) (hN : N 0 ≤ N 1) {cs : ℕ} (hcs : 0 < cs) (h5 : 5 < N 0 * cs) (A : CellArtist)
    (s : SimState) (L : Dict String Color) (hL : A.getLegend s = .ok L) (col : ℕ → Color)
    (hcol : ∀ i ∈ S.siteIds, A.color (s.getSiteState (.int i)) = .ok (col i)) (l : String) :
    ∃ I i c, drawImage A dotText S s cs (some l) = .ok I ∧ SiteHas S i c ∧ InBlock (N 1) cs c 5 5 ∧ I.px 5 5 = (255, 255, 255) := by
  obtain ⟨I, entries, h1, -, -, -, h2, -⟩ := C76_draw_partial hS hN hcs A dotText (dotText_right _) s L hL col hcol
  have hp : (0 : ℤ) ≤ cs := by positivity
  obtain ⟨i, ⟨-, c, hc, hb⟩, -⟩ := h2 5 5 (by norm_num) h5 (by norm_num) (lt_of_lt_of_le h5 (mul_le_mul_of_nonneg_right hN hp))
  refine ⟨dotText I 5 5 l, i, c, ?_, hc, hb, by simp [dotText]⟩
  rw [C76_label, h1, ok_bind]; rfl

/-- C76 with the artist `from_discrete_state` (partial as `C76_draw_partial`): every pixel of a site's block has the palette colour of the site's phase, and
up to 22 phases different phases have different colours. -/
theorem C76_state_partial {N : Fin 2 → ℤ} {S : Structure K 2} (hS : SquareGrid 2 N S) (hN : N 0 ≤ N 1) {cs : ℕ} (hcs : 0 < cs) (text : TextTool)
    (ht : TextRight text (cs / 4 : ℕ)) (s : SimState) (hs : StartState S s) (hh : ∀ k v, occ? s k = some v → v.hashable = true) (str : Val → String)
    (order : List Val → List Val) (hord : ∀ l, (order l).Perm l) :
    ∃ (A : CellArtist) (f : Val → Color) (I : Img), artistFromState str order s = .ok A ∧ drawImage A text S s cs none = .ok I ∧
      (∀ i c, SiteHas S i c → ∃ v, occ? s (.int i) = some v ∧ f v ∈ COLORS ∧ ∀ x y, InBlock (N 1) cs c x y → InImg I x y ∧ I.px x y = f v) ∧
      ((∃ l : List Val, l.length ≤ 22 ∧ ∀ k v, occ? s k = some v → v ∈ l) → ∀ k v k' w, occ? s k = some v → occ? s k' = some w → f v = f w → v = w) := by
  have hR := hS.isTorus.reachable
  have hA := (analyzable_of_start hR hs hh).1
  obtain ⟨A, f, h1, h2, h3⟩ := C85_state str s hA order hord
  have hlab : A.legend = none ∧ ∀ p v, Dict.get? p DISCRETE_OCCUPANCY = some v → v.hashable = true → A.label (some p) = .ok (str v) := by
    obtain ⟨ph, g1, -, g2⟩ := phasesPresent_eq hA.1 hA.2.2 order hord
    obtain ⟨A', f', g3, g4, g5, -⟩ := artist_colors str ph (fun v hv => by obtain ⟨k, hk⟩ := (g2 v).1 hv; exact hh k v hk)
    unfold artistFromState at h1
    rw [g1, ok_bind, g3] at h1
    injection h1 with h1; subst h1
    exact ⟨g4, fun p v hp hv => (g5 p v hp hv).2⟩
  have : Nonempty Val := ⟨.pyNone⟩
  have hocc : ∀ p ∈ s.allSiteStates, ∃ k v, s.getSiteState k = some p ∧ Dict.get? p DISCRETE_OCCUPANCY = some v ∧ occ? s k = some v := by
    intro p hp
    obtain ⟨⟨k, p'⟩, hkp, rfl⟩ := List.mem_map.1 hp
    have hget := Dict.get?_of_mem hs.1.1 hkp
    obtain ⟨v, hv⟩ := hs.2.2.2.1 k (mem_of_siteState hget)
    obtain ⟨p'', hp'', hv'⟩ := occ?_eq.1 hv
    have e : p'' = p' := by
      have := hp''.symm.trans hget
      injection this
    subst e
    exact ⟨k, v, hget, hv', hv⟩
  choose! key val hk1 hk2 hk3 using hocc
  obtain ⟨L, hL, -⟩ := C75_legend A hlab.1 s (fun p => str (val p)) (fun p => f (val p)) (fun p hp => by
    refine ⟨hlab.2 p _ (hk2 p hp) (hh _ _ (hk3 p hp)), ?_⟩
    rw [← hk1 p hp]
    exact (h2 _ _ (hk3 p hp)).1)
  have hval : ∀ i ∈ S.siteIds, ∃ v, occ? s (.int i) = some v := fun i hi => hs.2.2.2.1 _ ((hs.2.2.1 _).2 ⟨i, hi, rfl⟩)
  choose! vs hvs using hval
  obtain ⟨I, -, h4, -, -, h5, -⟩ := C76_draw_partial hS hN hcs A text ht s L hL (fun i => f (vs i)) (fun i hi => (h2 _ _ (hvs i hi)).1)
  refine ⟨A, f, I, h1, h4, fun i c hi => ?_, h3⟩
  have hm := hS.isTorus.mem_ids hR hi
  exact ⟨vs i, hvs i hm, (h2 _ _ (hvs i hm)).2.1, h5 i c hi⟩

/-- Non-vacuity of `C76_state_partial` (and with it of `C76_draw_partial`): the picture of a 4 x 4 interface. -/
example : ∃ (S : Structure ℚ 2) (s : SimState), (gridSetup2 (K := ℚ)).interface (.int 4) (.str "A") (.str "B") = .ok ⟨s, S⟩ ∧ SquareGrid 2 (fun _ => 4) S ∧
    TextRight dotText (20 / 4 : ℕ) ∧ StartState S s ∧ ∀ k v, occ? s k = some v → v.hashable = true := by
  obtain ⟨S, s, h1, h2, h3, h4⟩ := C64_interface (K := ℚ) StdSetup.two 4 (by norm_num) (.str "A") (.str "B") (.str _) (.str _)
  refine ⟨S, s, h1, h2, dotText_right _, h3, fun k v hv => ?_⟩
  obtain ⟨p, hp, -⟩ := occ?_eq.1 hv
  obtain ⟨i, hi, rfl⟩ := (h3.2.2.1 k).1 (mem_of_siteState hp)
  obtain ⟨c, -, hc⟩ := h2.isTorus.site i hi
  rw [h4 i c hc] at hv
  injection hv with hv
  rw [← hv]
  dsimp only
  split_ifs <;> rfl

end Pyl
