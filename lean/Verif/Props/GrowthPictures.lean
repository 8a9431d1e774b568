import Verif.Spec.GrowthPictures
import Verif.Props.GrowthAnalyzer
import Verif.Props.LifePictures
/-
C166: the pictures and animations of growth runs.
-/
set_option autoImplicit false
set_option linter.unusedSectionVars false

namespace Pyl
open SimState Spec Growth Analyzer SimResult ResultAnalyzer GridSetup ResultArtist Artist2D
open Pyl.Lattice Pyl.Structure
variable {K : Type} [Field K] [LinearOrder K] [FloorRing K] [IsStrictOrderedRing K]

/-- An artist that colours by phase draws a state all of whose sites have a phase. -/
theorem draw_phases {S : Structure K 2} {N : Fin 2 → ℤ} (hS : SquareGrid 2 N S) (hN : N 0 ≤ N 1) {cs : ℕ} (hcs : 0 < cs) {A : CellArtist} {f : Val → Color}
    {str : Val → String} (hleg : A.legend = none)
    (hA : ∀ p v, Dict.get? p DISCRETE_OCCUPANCY = some v → v.hashable = true → A.color (some p) = .ok (f v) ∧ A.label (some p) = .ok (str v))
    {text : TextTool} (ht : TextRight text (cs / 4 : ℕ)) (label : String) {s : SimState} (hwf : s.WF) (hsame : SameSites S s) (ho : Occupied s) :
    ∃ I, drawImage A text S s cs (some label) = .ok I ∧ DrawsPhases S N cs text label I s f := by
  have hT := hS.isTorus
  obtain ⟨Lg, hLg, -⟩ := C75_legend A hleg s (fun p => str ((Dict.get? p DISCRETE_OCCUPANCY).getD .pyNone))
    (fun p => f ((Dict.get? p DISCRETE_OCCUPANCY).getD .pyNone)) (fun p hp => by
      obtain ⟨⟨k, p'⟩, hkp, rfl⟩ := List.mem_map.1 hp
      have hget := Dict.get?_of_mem hwf.1 hkp
      obtain ⟨v, hv, hh⟩ := ho k (mem_of_siteState hget)
      obtain ⟨p'', hp'', hv'⟩ := occ?_eq.1 hv
      have e : p'' = p' := by
        have := hp''.symm.trans hget
        injection this
      subst e
      simp only [hv', Option.getD_some]
      exact ⟨(hA _ v hv' hh).2, (hA _ v hv' hh).1⟩)
  have hcol : ∀ i ∈ S.siteIds, A.color (s.getSiteState (.int i)) = .ok (f ((occ? s (.int i)).getD .pyNone)) := by
    intro i hi
    obtain ⟨v, hv, hh⟩ := ho (.int i) ((hsame _).2 ⟨i, hi, rfl⟩)
    obtain ⟨p, hp, hv'⟩ := occ?_eq.1 hv
    rw [hv, hp]
    exact (hA p v hv' hh).1
  obtain ⟨I, -, h4, -, -, h5, -⟩ := C76_draw_partial hS hN hcs A text ht s Lg hLg _ hcol
  refine ⟨text I 5 5 label, ?_, fun i c hi => ?_⟩
  · rw [C76_label, h4]; rfl
  · obtain ⟨v, hv, -⟩ := ho (.int i) ((hsame _).2 ⟨i, hT.mem_ids hT.reachable hi, rfl⟩)
    refine ⟨v, hv, fun x y hb hu => ?_⟩
    obtain ⟨hin, hpx⟩ := h5 i c hi x y hb
    have hsz := ht I 5 5 label
    refine ⟨?_, ?_⟩
    · unfold InImg; rw [hsz.1, hsz.2.1]; exact hin
    · rw [hu I, hpx, hv]; rfl

/-- C166: a growth run of at least one step, with any of the three runners and any neighbourhood, on a grid at most as wide as high, drawn with the artist `from_discrete_result`
made from the run's result, every `fr`-th step: frame `j` shows every cell in the palette colour of its phase at step `j * fr`; if the start state has at most 22 phases,
different phases have different colours. -/
theorem C166_frames {S : Structure K 2} {N : Fin 2 → ℤ} (hS : SquareGrid 2 N S) (hN : N 0 ≤ N 1) {cs : ℕ} (hcs : 0 < cs) (s0 : SimState) (hst : StartState S s0)
    (hh : ∀ k v, occ? s0 k = some v → v.hashable = true) (bg : Val) (nb : Option (Builder K 2)) (n : ℕ) (hn : 1 ≤ n) (res : SimResult)
    (h : GrowthRun S bg nb s0 n res) (fr : ℕ) (hfr : 1 ≤ fr)
    (text : TextTool) (ht : TextRight text (cs / 4 : ℕ)) (str : Val → String) (order : ℕ → List Val → List Val) (hord : ∀ t l, (order t l).Perm l)
    (order' : List Val → List Val) (hord' : ∀ l, (order' l).Perm l) :
    ∃ A f imgs, artistFromResult str order order' res = .ok A ∧
      getImages (fun s label => drawImage A text S s cs (some label)) res fr = .ok imgs ∧ (∀ j : ℕ, j < imgs.length ↔ j * fr ≤ n) ∧
      (∀ (j : ℕ) I, imgs[j]? = some I → ∃ s, res.getStep (j * fr : ℕ) = .ok s ∧ DrawsPhases S N cs text ("Step " ++ toString (j * fr)) I s f) ∧
      (∀ i v, occ? s0 i = some v → f v ∈ COLORS) ∧
      ((∃ l : List Val, l.length ≤ 22 ∧ ∀ i v, occ? s0 i = some v → v ∈ l) → ∀ i v j w, occ? s0 i = some v → occ? s0 j = some w → f v = f w → v = w) := by
  have hT := hS.isTorus
  have hR := hT.reachable
  have hne := hT.ids_ne
  obtain ⟨l, A0, -, h1, h2, h3, -⟩ := C164_phases hR hne s0 hst hh bg nb n hn res h order hord
  have hm' : ∀ v, v ∈ order' l ↔ ∃ i, occ? s0 i = some v := fun v => by rw [(hord' l).mem_iff, h3]
  obtain ⟨A, f, g1, g2, g3, g4, -, g6⟩ := artist_colors str (order' l) fun v hv => by
    obtain ⟨i, hi⟩ := (hm' v).1 hv
    exact hh i v hi
  obtain ⟨hlen, ⟨ops, rfl⟩, hsteps⟩ := growthRun_steps hR hne hst h
  have hadd : (added ops).length = n := by
    have := C30_len s0 ops
    omega
  have himg : ∀ k : ℕ, ∃ I, k ≤ n → ∃ st, stepState s0 (added ops) k = .ok st ∧ drawImage A text S st cs (some ("Step " ++ toString k)) = .ok I ∧
      DrawsPhases S N cs text ("Step " ++ toString k) I st f := by
    intro k
    by_cases hk : k ≤ n
    · obtain ⟨st, q1, q2, -, q4, -⟩ := hsteps k hk
      obtain ⟨a1, -⟩ := growthRun_analyzable hR hne hst hh h hk q1
      obtain ⟨I, q5, q6⟩ := draw_phases hS hN hcs g2 g3 ht ("Step " ++ toString k) q2 (fun key => by rw [q4]; exact hst.2.2.1 key) a1.2.2
      exact ⟨I, fun _ => ⟨st, by rw [← C30_get_step _ _ _ (by omega)]; exact q1, q5, q6⟩⟩
    · exact ⟨Img.black 0 0, fun hk' => absurd hk' hk⟩
  choose img himg using himg
  obtain ⟨imgs, e1, e2⟩ := C77_images (fun s label => drawImage A text S s cs (some label)) s0 ops fr hfr img (fun k hk => by
    obtain ⟨st, e1, e2, -⟩ := himg k (by omega)
    exact ⟨st, e1, e2⟩)
  refine ⟨A, f, imgs, ?_, e1, fun j => ?_, fun j I hj => ?_, fun i v hv => g4 v ((hm' v).2 ⟨i, hv⟩), ?_⟩
  · unfold artistFromResult; rw [h1, ok_bind]; exact g1
  · have := e2 j
    rw [hadd] at this
    constructor
    · intro hj
      by_contra hc
      rw [if_neg hc, List.getElem?_eq_none_iff] at this
      omega
    · intro hj
      rw [if_pos hj] at this
      exact (List.getElem?_eq_some_iff.1 this).1
  · have := e2 j
    rw [hadd, hj] at this
    split_ifs at this with hle
    injection this with this
    subst this
    obtain ⟨st, q1, -, q3⟩ := himg (j * fr) hle
    exact ⟨st, by rw [C30_get_step _ _ _ (by omega)]; exact q1, q3⟩
  · rintro ⟨L, hL, hL'⟩ i v j w hi hj e
    refine g6 ?_ v ((hm' v).2 ⟨i, hi⟩) w ((hm' w).2 ⟨j, hj⟩) e
    have hnd : (order' l).Nodup := (hord' l).nodup_iff.2 h2
    have hsub : order' l ⊆ L := fun v hv => by
      obtain ⟨i, hi⟩ := (hm' v).1 hv
      exact hL' i v hi
    exact (List.subperm_of_subset hnd hsub).length_le.trans hL

/-- C166: `to_gif` of such a run leaves a file from whose frames the phases can be read back, and in which nothing is ever erased: in all frames a pixel of a cell outside the
labels that once does not have the colour of the background never has it again, and in a run in one process it keeps its colour. -/
theorem C166_gif {S : Structure K 2} {N : Fin 2 → ℤ} (hS : SquareGrid 2 N S) (hN : N 0 ≤ N 1) {cs : ℕ} (hcs : 0 < cs) (s0 : SimState) (hst : StartState S s0)
    (hh : ∀ k v, occ? s0 k = some v → v.hashable = true) (bg : Val) (hbg : ∃ i, occ? s0 i = some bg) (h22 : ∃ l : List Val, l.length ≤ 22 ∧ ∀ i v, occ? s0 i = some v → v ∈ l)
    (nb : Option (Builder K 2)) (n : ℕ) (hn : 1 ≤ n) (res : SimResult) (h : GrowthRun S bg nb s0 n res) (fr : ℕ) (hfr : 1 ≤ fr)
    (text : TextTool) (ht : TextRight text (cs / 4 : ℕ)) (str : Val → String) (order : ℕ → List Val → List Val) (hord : ∀ t l, (order t l).Perm l)
    (order' : List Val → List Val) (hord' : ∀ l, (order' l).Perm l) (save : String → Option Err) (filename : String) (files : Files) (hs : save filename = none)
    (hname : ∀ j, filename ≠ tmpName j) :
    ∃ (A : CellArtist) (f : Val → Color) (files' : Files) (imgs : List Img), artistFromResult str order order' res = .ok A ∧
      toGif (fun s label => drawImage A text S s cs (some label)) save res fr filename files = (files', none) ∧ Dict.get? files' filename = some imgs ∧
      (∀ j : ℕ, j * fr ≤ n → ∃ I s, imgs[j]? = some I ∧ res.getStep (j * fr : ℕ) = .ok s ∧ ∀ i c, SiteHas S i c → ∀ x y, InBlock (N 1) cs c x y →
        Uncovered text ("Step " ++ toString (j * fr)) x y → ∀ k v, occ? s0 k = some v → (I.px x y = f v ↔ occ? s (.int i) = some v)) ∧
      ∀ (j j' : ℕ) I I', j ≤ j' → imgs[j]? = some I → imgs[j']? = some I' → ∀ c, InBox N c → ∀ x y, InBlock (N 1) cs c x y →
        Uncovered text ("Step " ++ toString (j * fr)) x y → Uncovered text ("Step " ++ toString (j' * fr)) x y → I.px x y ≠ f bg →
        I'.px x y ≠ f bg ∧ (OneProcessGrowthRun S bg nb s0 n res → I'.px x y = I.px x y) := by
  have hT := hS.isTorus
  have hR := hT.reachable
  have hne := hT.ids_ne
  obtain ⟨A, f, imgs, h1, h2, h3, h4, -, h6⟩ := C166_frames hS hN hcs s0 hst hh bg nb n hn res h fr hfr text ht str order hord order' hord'
  have h6 := h6 h22
  obtain ⟨-, -, hsteps⟩ := growthRun_steps hR hne hst h
  have hnil : imgs ≠ [] := by
    rintro rfl
    have := (h3 0).2 (by omega)
    simp at this
  obtain ⟨files', g1, g2, -⟩ := C77_gif_partial _ save res fr filename files imgs h2 hnil hs hname
  refine ⟨A, f, files', imgs, h1, g1, g2, fun j hj => ?_, fun j j' I I' hjj hI hI' c hc x y hb hu hu' hnb => ?_⟩
  · have hlt := (h3 j).2 hj
    obtain ⟨s, e1, e2⟩ := h4 j _ (List.getElem?_eq_getElem hlt)
    refine ⟨imgs[j], s, List.getElem?_eq_getElem hlt, e1, fun i c hi x y hb hu k v hv => ?_⟩
    obtain ⟨w, hw, hp⟩ := e2 i c hi
    rw [(hp x y hb hu).2, hw]
    obtain ⟨s', q1, -, -, -, q5, -⟩ := hsteps (j * fr) hj
    rw [e1] at q1; cases q1
    obtain ⟨w', hw', k', hk'⟩ := q5 (.int i) ((hst.2.2.1 _).2 ⟨i, hT.mem_ids hR hi, rfl⟩)
    rw [hw] at hw'; cases hw'
    exact ⟨fun e => by rw [h6 _ _ _ _ hk' hv e], fun e => by rw [Option.some.inj e]⟩
  · have hj' := (h3 j').1 (List.getElem?_eq_some_iff.1 hI').1
    have hj := (h3 j).1 (List.getElem?_eq_some_iff.1 hI).1
    have hle : j * fr ≤ j' * fr := Nat.mul_le_mul_right _ hjj
    obtain ⟨i, hid, hi⟩ := hT.ex c hc
    have him : Key.int i ∈ s0.siteIds := (hst.2.2.1 _).2 ⟨i, hid, rfl⟩
    obtain ⟨s, e1, e2⟩ := h4 j I hI
    obtain ⟨s', e1', e2'⟩ := h4 j' I' hI'
    obtain ⟨v, hv, hp⟩ := e2 i c hi
    obtain ⟨v', hv', hp'⟩ := e2' i c hi
    rw [(hp x y hb hu).2] at hnb
    rw [(hp' x y hb hu').2, (hp x y hb hu).2]
    have hvb : v ≠ bg := fun e => hnb (by rw [e])
    obtain ⟨k0, hk0⟩ := hbg
    refine ⟨fun e => ?_, fun hone => ?_⟩
    · obtain ⟨t, q1, -, -, -, -, -, q7⟩ := hsteps (j * fr) hj
      rw [e1] at q1; cases q1
      obtain ⟨t', q8, q9⟩ := q7 (j' * fr) hle hj'
      rw [e1'] at q8; cases q8
      obtain ⟨t, q1, -, -, -, q5, -⟩ := hsteps (j' * fr) hj'
      rw [e1'] at q1; cases q1
      obtain ⟨w, hw, k', hk'⟩ := q5 (.int i) him
      rw [hv'] at hw; cases hw
      have := h6 _ _ _ _ hk' hk0 e
      refine q9 _ him (by rw [hv]; exact fun e => hvb (Option.some.inj e)) ?_
      rw [hv', this]
    · obtain ⟨a, b, q1, q2, q3⟩ := oneProcess_keeps hR hne hst hone (j * fr) (j' * fr) hle hj'
      rw [e1] at q1; cases q1
      rw [e1'] at q2; cases q2
      have := q3 _ him v hv hvb
      rw [hv'] at this
      rw [Option.some.inj this]

/-- A case of the theorems: an interface grown for three steps on a grid of 4 by 4 cells, drawn in blocks of 20 pixels. -/
example : ∃ (S : Structure ℚ 2) (s : SimState), (gridSetup2 (K := ℚ)).interface (.int 4) (.str "A") (.str "B") = .ok ⟨s, S⟩ ∧ SquareGrid 2 (fun _ => 4) S ∧ StartState S s ∧
    (∀ k v, occ? s k = some v → v.hashable = true) ∧ (∃ i, occ? s i = some (.str "A")) ∧ (∃ l : List Val, l.length ≤ 22 ∧ ∀ i v, occ? s i = some v → v ∈ l) ∧
    (∃ res, GrowthRun S (.str "A") none s 3 res) ∧ TextRight dotText (20 / 4 : ℕ) := by
  obtain ⟨S, s, h1, h2, h3, h4⟩ := C64_interface (K := ℚ) StdSetup.two 4 (by norm_num) (.str "A") (.str "B") (.str _) (.str _)
  have ht := h2.isTorus
  obtain ⟨g, hb, -⟩ := C53_moore h2 1
  obtain ⟨c, c', res, e1, e2, -⟩ := grown_serial ht.reachable ht.ids_ne h3 (.str "A") hb (order := fun _ l => l) (fun _ l => List.Perm.refl l) 3
  have e1' : Growth.init (fun _ l => l) S (.str "A") none = .ok c := by rw [← e1]; rfl
  have hall : ∀ k v, occ? s k = some v → v ∈ [Val.str "A", .str "B"] := by
    intro k v hv
    obtain ⟨p, hp, -⟩ := occ?_eq.1 hv
    obtain ⟨i, hi, rfl⟩ := (h3.2.2.1 k).1 (mem_of_siteState hp)
    obtain ⟨c, -, hc⟩ := ht.site i hi
    rw [h4 i c hc] at hv
    injection hv with hv
    rw [← hv]
    dsimp only
    split_ifs <;> simp
  have hA : ∃ i, occ? s i = some (.str "A") := by
    obtain ⟨i, -, hi⟩ := ht.ex (fun _ => 0) fun k => ⟨le_rfl, ht.pos k⟩
    obtain ⟨j, -, hj⟩ := ht.ex (fun _ => 3) fun k => ⟨by norm_num, by norm_num⟩
    have e := h4 i _ hi
    have e' := h4 j _ hj
    dsimp only at e e'
    split_ifs at e e' <;> first | exact ⟨_, e⟩ | exact ⟨_, e'⟩ | (exfalso; norm_num at *)
  refine ⟨S, s, h1, h2, h3, fun k v hv => ?_, hA, ⟨_, by simp, hall⟩, ⟨res, .inl ⟨_, c, fun _ l => List.Perm.refl l, e1', .inl ⟨c', e2⟩⟩⟩, dotText_right _⟩
  have := hall k v hv
  simp only [List.mem_cons, List.not_mem_nil, or_false] at this
  rcases this with rfl | rfl <;> rfl

end Pyl
