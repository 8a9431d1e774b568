import Verif.Spec.Notebook
import Verif.Props.LifePictures
/-
C167: what notebooks show, saved pictures, and pictures drawn on Windows.
-/
set_option autoImplicit false
set_option linter.unusedSectionVars false

namespace Pyl
open SimState Spec Analyzer SimResult ResultAnalyzer GridSetup ResultArtist Artist2D
open Pyl.Lattice Pyl.Structure
variable {K : Type} [Field K] [LinearOrder K] [FloorRing K] [IsStrictOrderedRing K]

theorem playLoop_events (w : ℚ) (hw : 0 ≤ w) (imgs : List Img) :
    (playLoop w imgs).2 = none ∧ ∀ x, seen x (playLoop w imgs).1 = imgs.map (fun I => ([I], w)) ∧
      screen x (playLoop w imgs).1 = match imgs.getLast? with | some I => [I] | none => x := by
  induction imgs with
  | nil => exact ⟨rfl, fun x => ⟨rfl, rfl⟩⟩
  | cons I l ih =>
    have hw' : ¬ w < 0 := not_lt.2 hw
    obtain ⟨h1, h2⟩ := ih
    refine ⟨by simp only [playLoop, if_neg hw', h1], fun x => ?_⟩
    obtain ⟨h3, h4⟩ := h2 [I]
    simp only [playLoop, if_neg hw', seen, screen, List.nil_append, h3, h4, List.map_cons, true_and]
    cases l with
    | nil => rfl
    | cons J l => rw [List.getLast?_cons_cons, List.getLast?_eq_getLast_of_ne_nil (List.cons_ne_nil J l)]

/-- C167: `jupyter_play` of a result all of whose steps can be drawn shows step after step, each alone and for `wait` seconds, and ends with the last step
in the output; `jupyter_show_step(k)` shows the same picture of step `k`. -/
theorem C167_play (getImg : SimState → String → Py Img) (s0 : SimState) (ops : List ROp) (img : ℕ → Img)
    (h : ∀ k, k ≤ (added ops).length → ∃ st, stepState s0 (added ops) k = .ok st ∧ getImg st ("Step " ++ toString k) = .ok (img k)) (wait : ℚ) (hw : 0 ≤ wait) :
    (∃ ev, play getImg (resultAfter s0 ops) wait = (ev, none) ∧
      ∀ x, seen x ev = (List.range ((added ops).length + 1)).map (fun k => ([img k], wait)) ∧ screen x ev = [img (added ops).length]) ∧
    ∀ k : ℕ, k ≤ (added ops).length → ∃ ev, showStep getImg (resultAfter s0 ops) k = .ok ev ∧ ∀ x, screen x ev = x ++ [img k] := by
  obtain ⟨imgs, h1, h2⟩ := C77_images getImg s0 ops 1 le_rfl img h
  have e : imgs = (List.range ((added ops).length + 1)).map img := by
    apply List.ext_getElem?
    intro j
    rw [h2 j, List.getElem?_map, mul_one]
    split_ifs with hj
    · rw [List.getElem?_range (by omega)]; rfl
    · rw [List.getElem?_eq_none (by rw [List.length_range]; omega)]; rfl
  refine ⟨⟨(playLoop wait imgs).1, ?_, fun x => ?_⟩, fun k hk => ?_⟩
  · have h1' : getImages getImg (resultAfter s0 ops) 1 = .ok imgs := h1
    unfold play
    rw [h1']
    exact Prod.ext rfl (playLoop_events wait hw imgs).1
  · obtain ⟨h3, h4⟩ := (playLoop_events wait hw imgs).2 x
    refine ⟨by rw [h3, e, List.map_map]; rfl, ?_⟩
    rw [h4, e, List.range_succ, List.map_append, List.map_singleton, List.getLast?_concat]
  · obtain ⟨st, q1, q2⟩ := h k hk
    refine ⟨[.display (img k)], ?_, fun x => rfl⟩
    have q3 : (resultAfter s0 ops).getStep (k : ℤ) = .ok st := by
      rw [C30_get_step _ _ _ (by rw [C30_len]; omega)]; exact q1
    have q4 : getImg st ("Step " ++ toString (k : ℤ)) = .ok (img k) := q2
    unfold showStep
    simp only [q3, ok_bind, jupyterShow, q4]
    rfl

/-- C167: numbers of steps that do not exist: from `len(result)` on `jupyter_show_step` raises, but a negative number shows the initial state under a label with
that number. -/
theorem C167_step_range (getImg : SimState → String → Py Img) (s0 : SimState) (ops : List ROp) (k : ℤ) :
    ((resultAfter s0 ops).len ≤ k → ∃ e, showStep getImg (resultAfter s0 ops) k = .error e) ∧
    (k < 0 → ∀ I, getImg s0 ("Step " ++ toString k) = .ok I → ∃ ev, showStep getImg (resultAfter s0 ops) k = .ok ev ∧ ∀ x, screen x ev = x ++ [I]) := by
  refine ⟨fun hk => ?_, fun hk I hI => ⟨[.display I], ?_, fun x => rfl⟩⟩
  · obtain ⟨e, he⟩ := C31_too_large_partial s0 ops k hk
    refine ⟨e, ?_⟩
    unfold showStep
    simp only [he]
    rfl
  · unfold showStep
    simp only [C31_negative s0 ops k hk, ok_bind, jupyterShow, hI]
    rfl

/-- C167: if some step cannot be drawn `jupyter_play` raises before it shows anything; with a negative `wait` it raises ValueError with only step 0 shown. -/
theorem C167_play_error (getImg : SimState → String → Py Img) (r : SimResult) (wait : ℚ) :
    (∀ e, getImages getImg r 1 = .error e → play getImg r wait = ([], some e)) ∧
    (wait < 0 → ∀ I l, getImages getImg r 1 = .ok (I :: l) → ∃ ev, play getImg r wait = (ev, some .valueError) ∧ ∀ x, screen x ev = [I] ∧ seen x ev = []) := by
  refine ⟨fun e he => by unfold play; rw [he], fun hw I l h => ⟨[.clear, .display I], ?_, fun x => ⟨rfl, rfl⟩⟩⟩
  unfold play
  rw [h]
  simp only [playLoop, if_pos hw]

theorem mapM_two_ok {α β γ : Type} (f : α → Py β) (g : β → Py γ) (l : List α) (r : List γ) :
    (l.mapM fun a => do let b ← f a; g b) = .ok r ↔ (do let bs ← l.mapM f; bs.mapM g) = .ok r := by
  induction l generalizing r with
  | nil => simp [List.mapM_nil, pure, Except.pure, bind, Except.bind]
  | cons a l ih =>
    cases hf : f a with
    | error e => simp [List.mapM_cons, hf, bind, Except.bind]
    | ok b =>
      cases hl : l.mapM f with
      | error e =>
        have hno : ∀ r', (l.mapM fun a => do let b ← f a; g b) ≠ .ok r' := fun r' h => by
          have := (ih r').1 h
          rw [hl] at this
          simp [bind, Except.bind] at this
        simp only [List.mapM_cons, hf, ok_bind, hl]
        constructor
        · intro h
          cases hg : g b with
          | error e => rw [hg] at h; simp [bind, Except.bind] at h
          | ok c =>
            rw [hg, ok_bind] at h
            cases hm : (l.mapM fun a => do let b ← f a; g b) with
            | error e => rw [hm] at h; simp [bind, Except.bind] at h
            | ok r' => exact absurd hm (hno r')
        · intro h; simp [bind, Except.bind] at h
      | ok bs =>
        simp only [List.mapM_cons, hf, ok_bind, hl]
        have ih' : ∀ r', (l.mapM fun a => do let b ← f a; g b) = .ok r' ↔ bs.mapM g = .ok r' := fun r' => by
          rw [ih r', hl]; rfl
        have e2 : (do let bs ← (pure (b :: bs) : Py (List β)); bs.mapM g) = (b :: bs).mapM g := rfl
        rw [e2, List.mapM_cons]
        cases hg : g b with
        | error e => simp [bind, Except.bind]
        | ok c =>
          simp only [ok_bind]
          cases hm : (l.mapM fun a => do let b ← f a; g b) with
          | ok r' => rw [(ih' r').1 hm]
          | error e =>
            cases hm' : bs.mapM g with
            | ok r' => rw [(ih' r').2 hm'] at hm; cases hm
            | error e' => simp [bind, Except.bind]

/-- C167: on Windows the pictures are the same: `_get_images` succeeds there exactly if it succeeds elsewhere, with the same pictures. -/
theorem C167_windows (getImg : SimState → String → Py Img) (r : SimResult) (drawFreq : ℤ) (imgs : List Img) :
    getImagesWin getImg r drawFreq = .ok imgs ↔ getImages getImg r drawFreq = .ok imgs := by
  unfold getImagesWin getImages
  cases rangeFrom0 r.len drawFreq with
  | error e => exact Iff.rfl
  | ok l =>
    simp only [ok_bind]
    rw [← mapM_two_ok]
    apply Eq.to_iff
    congr 1
    congr 1
    funext idx
    cases r.getStep idx with
    | error e => rfl
    | ok s => rfl

/-- C167: `save_img` leaves the picture in the named file and all other files as they were; if it raises, nothing has changed. -/
theorem C167_save (getImg : SimState → Py Img) (save : String → Option Err) (s : SimState) (filename : String) (files files' : Files) (o : Py String)
    (h : saveImg getImg save s filename files = (files', o)) :
    (∀ nm, nm ≠ filename → Dict.get? files' nm = Dict.get? files nm) ∧
    (∀ I, getImg s = .ok I → save filename = none → o = .ok filename ∧ Dict.get? files' filename = some [I]) ∧
    ∀ e, o = .error e → files' = files ∧ (getImg s = .error e ∨ save filename = some e) := by
  unfold saveImg at h
  split at h
  · rename_i e he
    cases h
    exact ⟨fun _ _ => rfl, (fun I hI => by rw [he] at hI; cases hI), fun e' h' => ⟨rfl, Or.inl (by cases h'; exact he)⟩⟩
  · rename_i I hI
    split at h
    · rename_i e he
      cases h
      exact ⟨fun _ _ => rfl, (fun _ _ h' => by rw [he] at h'; cases h'), fun e' h' => ⟨rfl, Or.inr (by cases h'; exact he)⟩⟩
    · cases h
      refine ⟨fun nm hnm => Dict.get?_set_ne _ _ (Ne.symm hnm), fun J hJ _ => ⟨rfl, ?_⟩, fun e h' => by cases h'⟩
      rw [hI] at hJ
      cases hJ
      exact Dict.get?_set_self _ _ _

/-- C167: `jupyter_play` of a run of any variant of Life on a grid at most as wide as high shows the generations: what is seen during pause number `k` is one picture,
of generation `k`. -/
theorem C167_life {S : Structure K 2} {N : Fin 2 → ℤ} (hS : SquareGrid 2 N S) (hN : N 0 ≤ N 1) {cs : ℕ} (hcs : 0 < cs) (b sv : List (Fin 10)) (s0 : SimState)
    (h0 : IsLifeState S s0) (hid : KnowsIds s0) (n : ℕ) (hn : 1 ≤ n) (res : SimResult) (h : LifeRun S (variantText b sv) s0 n res)
    (text : TextTool) (ht : TextRight text (cs / 4 : ℕ)) (str : Val → String) (order : ℕ → List Val → List Val) (hord : ∀ t l, (order t l).Perm l)
    (order' : List Val → List Val) (hord' : ∀ l, (order' l).Perm l) (wait : ℚ) (hw : 0 ≤ wait) :
    ∃ A on off ev, artistFromResult str order order' res = .ok A ∧ on ≠ off ∧
      play (fun s label => drawImage A text S s cs (some label)) res wait = (ev, none) ∧ ∀ x, (seen x ev).length = n + 1 ∧
        ∀ (k : ℕ) y w, (seen x ev)[k]? = some (y, w) → w = wait ∧ ∃ I, y = [I] ∧
          DrawsCells N cs text ("Step " ++ toString k) I ((generation N (digitValues b) (digitValues sv))^[k] (liveCells S s0)) on off := by
  obtain ⟨A, on, off, imgs, h1, h2, h3, h4, h5, -⟩ := C163_frames hS hN hcs b sv s0 h0 hid n res h 1 le_rfl text ht str order hord order' hord'
  have hlen : imgs.length = n + 1 := by
    have a := (h3 n).2 (by omega)
    have b := h3 (n + 1)
    omega
  refine ⟨A, on, off, (playLoop wait imgs).1, h1, h5 hn, ?_, fun x => ?_⟩
  · have h2' : getImages (fun s label => drawImage A text S s cs (some label)) res 1 = .ok imgs := h2
    unfold play
    rw [h2']
    exact Prod.ext rfl (playLoop_events wait hw imgs).1
  · rw [((playLoop_events wait hw imgs).2 x).1]
    refine ⟨by rw [List.length_map, hlen], fun k y w hk => ?_⟩
    rw [List.getElem?_map] at hk
    cases hI : imgs[k]? with
    | none => rw [hI] at hk; cases hk
    | some I =>
      rw [hI] at hk
      cases hk
      refine ⟨rfl, I, rfl, ?_⟩
      have := h4 k I hI
      rwa [mul_one] at this

/-- A case of the theorems: ten generations of Life from any noise, as in C163, shown for half a second each. -/
example {G : GridSetup K 2} (hG : StdSetup 2 G) (n : ℤ) (hn : 0 < n) (draw : ℕ → ℕ) :
    ∃ S s0 res, G.noise (.int n) [.str "alive", .str "dead"] draw = .ok ⟨s0, S⟩ ∧ SquareGrid 2 (fun _ => n) S ∧ IsLifeState S s0 ∧ KnowsIds s0 ∧
      LifeRun S (variantText [3] [2, 3]) s0 10 res ∧ TextRight dotText (20 / 4 : ℕ) ∧ (0 : ℚ) ≤ 1 / 2 := by
  obtain ⟨S, hb, hsq, -⟩ := setup_builds hG hn
  obtain ⟨s0, h1, h2, h3⟩ := noise_lifeState hb hsq [.str "alive", .str "dead"] (by simp) (by simp) draw
  obtain ⟨res, hr⟩ := lifeRun_exists hsq [3] [2, 3] h2 10
  exact ⟨S, s0, res, h1, hsq, h2, h3, hr, dotText_right _, by norm_num⟩

/-- A result with two steps, each of which is drawn as a picture whose width is the length of its label; step 10 does not exist. -/
example : ∃ (getImg : SimState → String → Py Img) (ops : List ROp) (img : ℕ → Img), (added ops).length = 2 ∧
    (∀ k, k ≤ (added ops).length → ∃ st, stepState .empty (added ops) k = .ok st ∧ getImg st ("Step " ++ toString k) = .ok (img k)) ∧
    ((resultAfter .empty ops).len : ℤ) ≤ 10 :=
  ⟨fun _ label => .ok (Img.black label.length 1), [.add (some []), .add (some [])], fun k => Img.black ("Step " ++ toString k).length 1, rfl,
    fun k hk => ⟨.empty, by
      have : k = 0 ∨ k = 1 ∨ k = 2 := by
        have : (added [ROp.add (some []), ROp.add (some [])]).length = 2 := rfl
        omega
      rcases this with rfl | rfl | rfl <;> rfl, rfl⟩, by decide⟩

end Pyl
