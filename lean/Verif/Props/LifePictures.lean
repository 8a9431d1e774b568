import Verif.Spec.LifePictures
import Verif.Props.LifeAnalyzer
import Verif.Props.Drawing
import Verif.Props.Animation
/-
C163: the pictures and animations of runs of Life.
-/
set_option autoImplicit false
set_option linter.unusedSectionVars false

namespace Pyl
open SimState Spec Analyzer SimResult ResultAnalyzer GridSetup ResultArtist Artist2D
open Pyl.Lattice Pyl.Structure
variable {K : Type} [Field K] [LinearOrder K] [FloorRing K] [IsStrictOrderedRing K]

/-- An artist that colours by phase draws a state of Life. -/
theorem draw_life {S : Structure K 2} {N : Fin 2 → ℤ} (hS : SquareGrid 2 N S) (hN : N 0 ≤ N 1) {cs : ℕ} (hcs : 0 < cs) {A : CellArtist} {f : Val → Color}
    {str : Val → String} (hleg : A.legend = none)
    (hA : ∀ p v, Dict.get? p DISCRETE_OCCUPANCY = some v → v.hashable = true → A.color (some p) = .ok (f v) ∧ A.label (some p) = .ok (str v))
    {text : TextTool} (ht : TextRight text (cs / 4 : ℕ)) (label : String) {s : SimState} (hwf : s.WF) (hsame : SameSites S s) {L : Set (Fin 2 → ℤ)}
    (hL : ShowsLife S s L) :
    ∃ I, drawImage A text S s cs (some label) = .ok I ∧ DrawsCells N cs text label I L (f (.str "alive")) (f (.str "dead")) := by
  classical
  have hT := hS.isTorus
  have hR := hT.reachable
  obtain ⟨o1, o2, -⟩ := shows_occ hT hsame hL
  obtain ⟨Lg, hLg, -⟩ := C75_legend A hleg s (fun p => str ((Dict.get? p DISCRETE_OCCUPANCY).getD .pyNone))
    (fun p => f ((Dict.get? p DISCRETE_OCCUPANCY).getD .pyNone)) (fun p hp => by
      obtain ⟨⟨k, p'⟩, hkp, rfl⟩ := List.mem_map.1 hp
      have hget := Dict.get?_of_mem hwf.1 hkp
      obtain ⟨v, hv, hh⟩ := o2 k (mem_of_siteState hget)
      obtain ⟨p'', hp'', hv'⟩ := occ?_eq.1 hv
      have e : p'' = p' := by
        have := hp''.symm.trans hget
        injection this
      subst e
      simp only [hv', Option.getD_some]
      exact ⟨(hA _ v hv' hh).2, (hA _ v hv' hh).1⟩)
  have hcol : ∀ i ∈ S.siteIds, A.color (s.getSiteState (.int i)) = .ok (f ((occ? s (.int i)).getD .pyNone)) := by
    intro i hi
    obtain ⟨v, hv, hh⟩ := o2 (.int i) ((hsame _).2 ⟨i, hi, rfl⟩)
    obtain ⟨p, hp, hv'⟩ := occ?_eq.1 hv
    rw [hv, hp]
    exact (hA p v hv' hh).1
  obtain ⟨I, -, h4, -, -, h5, -⟩ := C76_draw_partial hS hN hcs A text ht s Lg hLg _ hcol
  refine ⟨text I 5 5 label, ?_, fun c h0 h1 x y hb hu => ?_⟩
  · rw [C76_label, h4]; rfl
  · obtain ⟨i, -, hi⟩ := hT.ex c fun k => by fin_cases k <;> assumption
    obtain ⟨hin, hpx⟩ := h5 i c hi x y hb
    have hsz := ht I 5 5 label
    refine ⟨?_, fun hc => ?_, fun hc => ?_⟩
    · unfold InImg; rw [hsz.1, hsz.2.1]; exact hin
    · rw [hu I, hpx, ((o1 i c hi).1).2 hc]; rfl
    · rw [hu I, hpx, ((o1 i c hi).2).2 hc]; rfl

/-- C163: a run of any variant of Life on a grid at most as wide as high, drawn with the artist `from_discrete_result` made from the run's result, every `fr`-th step.
The frame number `j` shows generation `j * fr`, in two colours: a colour is one of the palette if its phase occurs in one of the generations `0, ..., n - 1`, otherwise
black.  If the run has at least one step the two colours are different. -/
theorem C163_frames {S : Structure K 2} {N : Fin 2 → ℤ} (hS : SquareGrid 2 N S) (hN : N 0 ≤ N 1) {cs : ℕ} (hcs : 0 < cs) (b sv : List (Fin 10)) (s0 : SimState)
    (h0 : IsLifeState S s0) (hid : KnowsIds s0) (n : ℕ) (res : SimResult) (h : LifeRun S (variantText b sv) s0 n res) (fr : ℕ) (hfr : 1 ≤ fr)
    (text : TextTool) (ht : TextRight text (cs / 4 : ℕ)) (str : Val → String) (order : ℕ → List Val → List Val) (hord : ∀ t l, (order t l).Perm l)
    (order' : List Val → List Val) (hord' : ∀ l, (order' l).Perm l) :
    ∃ A on off imgs, artistFromResult str order order' res = .ok A ∧
      getImages (fun s label => drawImage A text S s cs (some label)) res fr = .ok imgs ∧ (∀ j : ℕ, j < imgs.length ↔ j * fr ≤ n) ∧
      (∀ (j : ℕ) I, imgs[j]? = some I →
        DrawsCells N cs text ("Step " ++ toString (j * fr)) I ((generation N (digitValues b) (digitValues sv))^[j * fr] (liveCells S s0)) on off) ∧
      (1 ≤ n → on ≠ off) ∧
      (on ∈ COLORS ∨ on = (0, 0, 0)) ∧ (on ∈ COLORS ↔ ∃ k < n, ∃ c, InBox N c ∧ c ∈ (generation N (digitValues b) (digitValues sv))^[k] (liveCells S s0)) ∧
      (off ∈ COLORS ∨ off = (0, 0, 0)) ∧ (off ∈ COLORS ↔ ∃ k < n, ∃ c, InBox N c ∧ c ∉ (generation N (digitValues b) (digitValues sv))^[k] (liveCells S s0)) := by
  have hT := hS.isTorus
  obtain ⟨l, A0, -, hl, hnd, hmem, -⟩ := C162_phases hS b sv s0 h0 hid n res h order hord
  have hsub : ∀ v ∈ order' l, v = .str "alive" ∨ v = .str "dead" := by
    intro v hv
    rcases (hmem v).1 ((hord' l).mem_iff.1 hv) with ⟨rfl, -⟩ | ⟨rfl, -⟩ <;> simp
  have hlen : (order' l).length ≤ 2 := by
    have hnd' : (order' l).Nodup := (hord' l).nodup_iff.2 hnd
    have : order' l ⊆ [Val.str "alive", Val.str "dead"] := fun v hv => by
      rcases hsub v hv with rfl | rfl <;> simp
    exact (List.subperm_of_subset hnd' this).length_le
  obtain ⟨A, f, h1, h2, h3, h4, h5, h6⟩ := artist_colors str (order' l) fun v hv => by rcases hsub v hv with rfl | rfl <;> rfl
  have hm : ∀ v, v ∈ order' l ↔ f v ∈ COLORS := fun v => ⟨h4 v, fun hc => by
    by_contra hn
    exact palette_not_black _ hc (h5 v hn)⟩
  have hor : ∀ v, f v ∈ COLORS ∨ f v = (0, 0, 0) := fun v => by
    by_cases hv : v ∈ order' l
    · exact .inl (h4 v hv)
    · exact .inr (h5 v hv)
  have hal : f (.str "alive") ∈ COLORS ↔ ∃ k < n, ∃ c, InBox N c ∧ c ∈ (generation N (digitValues b) (digitValues sv))^[k] (liveCells S s0) := by
    rw [← hm, (hord' l).mem_iff, hmem]; simp
  have hde : f (.str "dead") ∈ COLORS ↔ ∃ k < n, ∃ c, InBox N c ∧ c ∉ (generation N (digitValues b) (digitValues sv))^[k] (liveCells S s0) := by
    rw [← hm, (hord' l).mem_iff, hmem]; simp
  obtain ⟨hrl, hrun⟩ := lifeRun_kept hS h0 h
  obtain ⟨ops, rfl⟩ := lifeRun_after h
  have hadd : (added ops).length = n := by
    have := C30_len s0 ops
    omega
  have himg : ∀ k : ℕ, ∃ I, k ≤ n → ∃ st, stepState s0 (added ops) k = .ok st ∧ drawImage A text S st cs (some ("Step " ++ toString k)) = .ok I ∧
      DrawsCells N cs text ("Step " ++ toString k) I ((generation N (digitValues b) (digitValues sv))^[k] (liveCells S s0)) (f (.str "alive")) (f (.str "dead")) := by
    intro k
    by_cases hk : k ≤ n
    · obtain ⟨st, g1, g2, g3, g4, -⟩ := hrun k hk
      obtain ⟨I, g5, g6⟩ := draw_life hS hN hcs h2 h3 ht ("Step " ++ toString k) g2 g3 g4
      exact ⟨I, fun _ => ⟨st, by rw [← C30_get_step _ _ _ (by omega)]; exact g1, g5, g6⟩⟩
    · exact ⟨Img.black 0 0, fun hk' => absurd hk' hk⟩
  choose img himg using himg
  obtain ⟨imgs, g1, g2⟩ := C77_images (fun s label => drawImage A text S s cs (some label)) s0 ops fr hfr img (fun k hk => by
    obtain ⟨st, e1, e2, -⟩ := himg k (by omega)
    exact ⟨st, e1, e2⟩)
  refine ⟨A, f (.str "alive"), f (.str "dead"), imgs, ?_, g1, fun j => ?_, fun j I hj => ?_, fun hn heq => ?_, hor _, hal, hor _, hde⟩
  · unfold artistFromResult; rw [hl, ok_bind]; exact h1
  · have := g2 j
    rw [hadd] at this
    constructor
    · intro hj
      by_contra hc
      rw [if_neg hc, List.getElem?_eq_none_iff] at this
      omega
    · intro hj
      rw [if_pos hj] at this
      exact (List.getElem?_eq_some_iff.1 this).1
  · have := g2 j
    rw [hadd, hj] at this
    split_ifs at this with hle
    injection this with this
    subst this
    obtain ⟨-, -, -, e⟩ := himg (j * fr) hle
    exact e
  · -- some cell of generation 0 is alive or dead
    have hz : InBox N (fun _ => 0) := fun k => ⟨le_rfl, hT.pos k⟩
    by_cases hc : (fun _ => 0 : Fin 2 → ℤ) ∈ liveCells S s0
    · have ha := hal.2 ⟨0, hn, _, hz, hc⟩
      have hd := heq ▸ ha
      have := h6 (by omega) _ ((hm _).2 ha) _ ((hm _).2 hd) heq
      simp at this
    · have hd := hde.2 ⟨0, hn, _, hz, hc⟩
      have ha := heq.symm ▸ hd
      have := h6 (by omega) _ ((hm _).2 ha) _ ((hm _).2 hd) heq
      simp at this

/-- C163: a run of no steps is drawn black all over the grid, whatever its pattern. -/
theorem C163_black {S : Structure K 2} {N : Fin 2 → ℤ} (hS : SquareGrid 2 N S) (hN : N 0 ≤ N 1) {cs : ℕ} (hcs : 0 < cs) (b sv : List (Fin 10)) (s0 : SimState)
    (h0 : IsLifeState S s0) (hid : KnowsIds s0) (res : SimResult) (h : LifeRun S (variantText b sv) s0 0 res) (fr : ℕ) (hfr : 1 ≤ fr)
    (text : TextTool) (ht : TextRight text (cs / 4 : ℕ)) (str : Val → String) (order : ℕ → List Val → List Val) (hord : ∀ t l, (order t l).Perm l)
    (order' : List Val → List Val) (hord' : ∀ l, (order' l).Perm l) :
    ∃ A I, artistFromResult str order order' res = .ok A ∧ getImages (fun s label => drawImage A text S s cs (some label)) res fr = .ok [I] ∧
      ∀ c, InBox N c → ∀ x y, InBlock (N 1) cs c x y → Uncovered text "Step 0" x y → InImg I x y ∧ I.px x y = (0, 0, 0) := by
  obtain ⟨A, on, off, imgs, h1, h2, h3, h4, -, h5, h6, h7, h8⟩ := C163_frames hS hN hcs b sv s0 h0 hid 0 res h fr hfr text ht str order hord order' hord'
  have hon : on = (0, 0, 0) := h5.resolve_left fun hc => by obtain ⟨k, hk, -⟩ := h6.1 hc; omega
  have hoff : off = (0, 0, 0) := h7.resolve_left fun hc => by obtain ⟨k, hk, -⟩ := h8.1 hc; omega
  have hl0 : 0 < imgs.length := (h3 0).2 (by omega)
  have hl1 : ¬ 1 < imgs.length := fun hc => by have := (h3 1).1 hc; omega
  obtain ⟨I, rfl⟩ := List.length_eq_one_iff.1 (show imgs.length = 1 by omega)
  refine ⟨A, I, h1, h2, fun c hc x y hb hu => ?_⟩
  have hs := h4 0 I rfl
  rw [Nat.zero_mul] at hs
  obtain ⟨e1, e2, e3⟩ := hs c (hc 0) (hc 1) x y hb hu
  refine ⟨e1, ?_⟩
  by_cases hm : c ∈ (generation N (digitValues b) (digitValues sv))^[0] (liveCells S s0)
  · rw [e2 hm, hon]
  · rw [e3 hm, hoff]

/-- C163: `to_gif` of a run of at least one step leaves a file from whose frames every generation can be read back: a cell of the grid is alive in generation `j * fr`
exactly if some (equivalently: every) pixel of its block outside the label has the colour `on` in frame `j`. -/
theorem C163_gif {S : Structure K 2} {N : Fin 2 → ℤ} (hS : SquareGrid 2 N S) (hN : N 0 ≤ N 1) {cs : ℕ} (hcs : 0 < cs) (b sv : List (Fin 10)) (s0 : SimState)
    (h0 : IsLifeState S s0) (hid : KnowsIds s0) (n : ℕ) (hn : 1 ≤ n) (res : SimResult) (h : LifeRun S (variantText b sv) s0 n res) (fr : ℕ) (hfr : 1 ≤ fr)
    (text : TextTool) (ht : TextRight text (cs / 4 : ℕ)) (str : Val → String) (order : ℕ → List Val → List Val) (hord : ∀ t l, (order t l).Perm l)
    (order' : List Val → List Val) (hord' : ∀ l, (order' l).Perm l) (save : String → Option Err) (filename : String) (files : Files) (hs : save filename = none)
    (hname : ∀ j, filename ≠ tmpName j) :
    ∃ A on files' imgs, artistFromResult str order order' res = .ok A ∧
      toGif (fun s label => drawImage A text S s cs (some label)) save res fr filename files = (files', none) ∧ Dict.get? files' filename = some imgs ∧
      ∀ j : ℕ, j * fr ≤ n → ∃ I, imgs[j]? = some I ∧ ∀ c, InBox N c → ∀ x y, InBlock (N 1) cs c x y → Uncovered text ("Step " ++ toString (j * fr)) x y →
        (I.px x y = on ↔ c ∈ (generation N (digitValues b) (digitValues sv))^[j * fr] (liveCells S s0)) := by
  obtain ⟨A, on, off, imgs, h1, h2, h3, h4, h5, -⟩ := C163_frames hS hN hcs b sv s0 h0 hid n res h fr hfr text ht str order hord order' hord'
  have hne : imgs ≠ [] := by
    rintro rfl
    have := (h3 0).2 (by omega)
    simp at this
  obtain ⟨files', g1, g2, -⟩ := C77_gif_partial _ save res fr filename files imgs h2 hne hs hname
  refine ⟨A, on, files', imgs, h1, g1, g2, fun j hj => ?_⟩
  have hlt := (h3 j).2 hj
  refine ⟨imgs[j], List.getElem?_eq_getElem hlt, fun c hc x y hb hu => ?_⟩
  obtain ⟨-, e2, e3⟩ := h4 j _ (List.getElem?_eq_getElem hlt) c (hc 0) (hc 1) x y hb hu
  constructor
  · intro e
    by_contra hm
    exact h5 hn (e.symm.trans (e3 hm))
  · exact e2

/-- A case of `C163_gif` and `C163_frames`: ten generations from `setup_noise`, in blocks of 20 pixels, with a text tool whose label leaves some pixel of the blocks
uncovered. -/
example {G : GridSetup K 2} (hG : StdSetup 2 G) (n : ℤ) (hn : 0 < n) (draw : ℕ → ℕ) :
    ∃ S s0 res, G.noise (.int n) [.str "alive", .str "dead"] draw = .ok ⟨s0, S⟩ ∧ SquareGrid 2 (fun _ => n) S ∧ IsLifeState S s0 ∧ KnowsIds s0 ∧
      LifeRun S (variantText [3] [2, 3]) s0 10 res ∧ TextRight dotText (20 / 4 : ℕ) ∧ ∀ l x y, x ≠ 5 → Uncovered dotText l x y := by
  obtain ⟨S, hb, hsq, -⟩ := setup_builds hG hn
  obtain ⟨s0, h1, h2, h3⟩ := noise_lifeState hb hsq [.str "alive", .str "dead"] (by simp) (by simp) draw
  obtain ⟨res, hr⟩ := lifeRun_exists hsq [3] [2, 3] h2 10
  refine ⟨S, s0, res, h1, hsq, h2, h3, hr, dotText_right _, fun l x y hx I => ?_⟩
  simp only [dotText]
  rw [if_neg (fun h => hx h.1)]

end Pyl
