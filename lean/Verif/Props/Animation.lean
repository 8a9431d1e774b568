import Verif.Spec.Viz
import Verif.Props.ResultAnalyzer
/-
C77: the frames of an animation and the files `to_gif` leaves behind.
-/
set_option autoImplicit false

namespace Pyl
open Spec ResultArtist ResultAnalyzer SimResult

theorem stepRange_get {n : ℕ} {k : ℕ} (hk : 1 ≤ k) (j : ℕ) : (stepRange n k)[j]? = if j * k < n then some ((j * k : ℕ) : ℤ) else none := by
  unfold stepRange
  rw [List.getElem?_map]
  have e : (j < (((n : ℤ) + k - 1) / k).toNat) ↔ j * k < n := by
    have h1 : (j : ℤ) + 1 ≤ ((n : ℤ) + k - 1) / k ↔ ((j : ℤ) + 1) * k ≤ (n : ℤ) + k - 1 := Int.le_ediv_iff_mul_le (by omega)
    have h2 : ((j : ℤ) + 1) * k ≤ (n : ℤ) + k - 1 ↔ ((j * k : ℕ) : ℤ) < n := by
      push_cast
      constructor <;> intro h <;> nlinarith
    have h3 : j * k < n ↔ (j : ℤ) + 1 ≤ ((n : ℤ) + k - 1) / k := by rw [h1, h2, Nat.cast_lt]
    rw [h3]
    omega
  by_cases h : j * k < n
  · rw [if_pos h, List.getElem?_range (e.2 h)]
    simp
  · rw [if_neg h, List.getElem?_eq_none (by rw [List.length_range]; have := mt e.1 h; omega)]
    rfl

/-- C77: `_get_images` has the pictures of the steps 0, f, 2f, ... in order, each with the label of its step. -/
theorem C77_images (getImg : SimState → String → Py Img) (s0 : SimState) (ops : List ROp) (f : ℕ) (hf : 1 ≤ f) (img : ℕ → Img)
    (h : ∀ k, k ≤ (added ops).length → ∃ st, stepState s0 (added ops) k = .ok st ∧ getImg st ("Step " ++ toString k) = .ok (img k)) :
    ∃ imgs, getImages getImg (resultAfter s0 ops) f = .ok imgs ∧
      ∀ j : ℕ, imgs[j]? = if j * f ≤ (added ops).length then some (img (j * f)) else none := by
  have hl := C30_len s0 ops
  have hs : ∀ k : ℕ, ∃ st, k ≤ (added ops).length → (resultAfter s0 ops).getStep k = .ok st ∧ getImg st ("Step " ++ toString k) = .ok (img k) := by
    intro k
    by_cases hk : k ≤ (added ops).length
    · obtain ⟨st, h1, h2⟩ := h k hk
      exact ⟨st, fun _ => ⟨(C30_get_step s0 ops k (by omega)).trans h1, h2⟩⟩
    · exact ⟨SimState.empty, fun h => absurd h hk⟩
  choose st hst using hs
  have hmem : ∀ x ∈ stepRange (resultAfter s0 ops).len f, ∃ k : ℕ, x = k ∧ k ≤ (added ops).length := by
    intro x hx
    obtain ⟨h1, h2, -⟩ := stepRange_mem (by omega) hx
    exact ⟨x.toNat, by omega, by omega⟩
  refine ⟨(stepRange (resultAfter s0 ops).len f).map fun x => img x.toNat, ?_, fun j => ?_⟩
  · unfold getImages
    rw [rangeFrom0, if_neg (by omega), if_pos (by omega), ok_bind]
    rw [mapM_ok (g := fun x : ℤ => (st x.toNat, "Step " ++ toString x.toNat)), ok_bind, List.mapM_map]
    · refine mapM_ok (g := fun x : ℤ => img x.toNat) _ fun x hx => ?_
      obtain ⟨k, rfl, hk⟩ := hmem x hx
      exact (hst k hk).2
    · intro x hx
      obtain ⟨k, rfl, hk⟩ := hmem x hx
      rw [(hst k hk).1, ok_bind]
      rfl
  · rw [List.getElem?_map, stepRange_get hf, hl]
    by_cases hj : j * f ≤ (added ops).length
    · rw [if_pos (by omega), if_pos hj]; rfl
    · rw [if_neg (by omega), if_neg hj]; rfl

/-- C77: a distance of 0 raises ValueError; a negative one gives no images. -/
theorem C77_frequency (getImg : SimState → String → Py Img) (r : SimResult) (f : ℤ) (hf : f ≤ 0) :
    getImages getImg r f = if f = 0 then .error .valueError else .ok [] := by
  unfold getImages rangeFrom0
  by_cases h : f = 0
  · rw [if_pos h, if_pos h]; rfl
  · rw [if_neg h, if_neg h, if_neg (by omega)]; rfl

/-! ### files -/

theorem tmpName_inj {i j : ℕ} (h : tmpName i = tmpName j) : i = j := by
  have h1 : ("tmp_pylat_step_" ++ toString i ++ ".png").toList = ("tmp_pylat_step_" ++ toString j ++ ".png").toList := congrArg String.toList h
  simp only [String.toList_append, List.append_cancel_right_eq, List.append_cancel_left_eq] at h1
  have h2 : i.repr = j.repr := String.toList_injective h1
  have h3 := congrArg (fun s : String => Nat.ofDigitChars 10 s.toList 0) h2
  simpa using h3

/-- Files the saving of the frames does not name. -/
theorem saved_other (imgs : List Img) (k : ℕ) (files : Files) (nm : String) (h : ∀ j, j < imgs.length → nm ≠ tmpName (k + j)) :
    Dict.get? ((imgs.zipIdx k).foldl (fun fs p => Dict.set fs (tmpName p.2) [p.1]) files) nm = Dict.get? files nm := by
  induction imgs generalizing k files with
  | nil => rfl
  | cons I imgs ih =>
    rw [List.zipIdx_cons, List.foldl_cons, ih (k + 1) _ fun j hj e => h (j + 1) (by simpa using hj) (by rw [e]; congr 1; omega)]
    exact Dict.get?_set_ne _ _ fun e => h 0 (by simp) e.symm

theorem saved_at (imgs : List Img) (k : ℕ) (files : Files) (j : ℕ) (I : Img) (h : imgs[j]? = some I) :
    Dict.get? ((imgs.zipIdx k).foldl (fun fs p => Dict.set fs (tmpName p.2) [p.1]) files) (tmpName (k + j)) = some [I] := by
  induction imgs generalizing k files j with
  | nil => simp at h
  | cons I' imgs ih =>
    rw [List.zipIdx_cons, List.foldl_cons]
    cases j with
    | zero =>
      simp only [List.getElem?_cons_zero, Option.some.injEq] at h
      subst h
      rw [saved_other _ _ _ _ fun j _ e => by have := tmpName_inj e; omega]
      exact Dict.get?_set_self _ _ _
    | succ j =>
      rw [List.getElem?_cons_succ] at h
      have := ih (k + 1) (Dict.set files (tmpName k) [I']) j h
      rwa [show k + 1 + j = k + (j + 1) by omega] at this

theorem get?_remove (fs : Files) (nm x : String) : Dict.get? (fs.remove nm) x = if x = nm then none else Dict.get? fs x := by
  unfold Files.remove
  induction fs with
  | nil => simp
  | cons p fs ih =>
    by_cases hp : p.1 = nm
    · rw [List.filter_cons_of_neg (by simp [hp]), ih, Dict.get?_cons]
      by_cases hx : x = nm
      · rw [if_pos hx, if_pos hx]
      · rw [if_neg hx, if_neg hx, if_neg (by rw [hp]; exact fun e => hx e.symm)]
    · rw [List.filter_cons_of_pos (by simp [hp]), Dict.get?_cons, Dict.get?_cons, ih]
      by_cases hx : x = nm
      · rw [if_pos hx, if_pos hx, if_neg (by rw [hx]; exact hp)]
      · rw [if_neg hx]; simp [hx]

theorem get?_removes (l : List String) (fs : Files) (x : String) : Dict.get? (l.foldl Files.remove fs) x = if x ∈ l then none else Dict.get? fs x := by
  induction l generalizing fs with
  | nil => simp
  | cons nm l ih =>
    rw [List.foldl_cons, ih, get?_remove]
    by_cases h1 : x ∈ l
    · simp [h1]
    · by_cases h2 : x = nm <;> simp [h1, h2]

/-- The frames are read back as they were saved. -/
theorem frames_eq (imgs : List Img) (k : ℕ) (sv : Files) (h : ∀ j I, imgs[j]? = some I → Dict.get? sv (tmpName (k + j)) = some [I]) :
    (((imgs.zipIdx k).map fun p => tmpName p.2).flatMap fun nm => (Dict.get? sv nm).getD []) = imgs := by
  induction imgs generalizing k with
  | nil => rfl
  | cons I imgs ih =>
    rw [List.zipIdx_cons, List.map_cons, List.flatMap_cons, ih (k + 1) fun j I' hj => by
      have := h (j + 1) I' (by rw [List.getElem?_cons_succ]; exact hj)
      rwa [show k + 1 + j = k + (j + 1) by omega]]
    have := h 0 I rfl
    rw [Nat.add_zero] at this
    simp only [this, Option.getD_some, List.singleton_append]

theorem mem_names (imgs : List Img) (x : String) : x ∈ ((imgs.zipIdx).map fun p => tmpName p.2) ↔ ∃ j, j < imgs.length ∧ x = tmpName j := by
  rw [List.mem_map]
  constructor
  · rintro ⟨⟨I, j⟩, hp, rfl⟩
    obtain ⟨-, hj⟩ := List.mem_zipIdx' hp
    exact ⟨j, by have := (List.mem_zipIdx' hp).1; exact this, rfl⟩
  · rintro ⟨j, hj, rfl⟩
    exact ⟨(imgs[j], j), List.mem_zipIdx_iff_getElem?.2 (by simp [hj]), rfl⟩

/-- C77 (partial: when Pillow can write the file; see `C77_false`).  Afterwards the file holds the frames in order, no temporary file of this call is there, and
every other file is as before.  A file the user already had under a temporary name is gone. -/
theorem C77_gif_partial (getImg : SimState → String → Py Img) (save : String → Option Err) (r : SimResult) (f : ℤ) (filename : String) (files : Files)
    (imgs : List Img) (hi : getImages getImg r f = .ok imgs) (hne : imgs ≠ []) (hs : save filename = none) (hf : ∀ j, filename ≠ tmpName j) :
    ∃ files', toGif getImg save r f filename files = (files', none) ∧ Dict.get? files' filename = some imgs ∧
      (∀ j, j < imgs.length → Dict.get? files' (tmpName j) = none) ∧
      ∀ nm, nm ≠ filename → (∀ j, j < imgs.length → nm ≠ tmpName j) → Dict.get? files' nm = Dict.get? files nm := by
  set sv := imgs.zipIdx.foldl (fun fs p => Dict.set fs (tmpName p.2) [p.1]) files with hsv
  have hfr := frames_eq imgs 0 sv fun j I hj => saved_at imgs 0 files j I hj
  refine ⟨(imgs.zipIdx.map fun p => tmpName p.2).foldl Files.remove (Dict.set sv filename imgs), ?_, ?_, ?_, ?_⟩
  · unfold toGif
    rw [hi]
    simp only [← hsv, hfr, hs]
    rw [if_neg (by simpa using hne)]
  · rw [get?_removes, if_neg, Dict.get?_set_self]
    rw [mem_names]
    rintro ⟨j, -, e⟩
    exact hf j e
  · intro j hj
    rw [get?_removes, if_pos ((mem_names _ _).2 ⟨j, hj, rfl⟩)]
  · intro nm h1 h2
    rw [get?_removes, if_neg, Dict.get?_set_ne _ _ (Ne.symm h1), hsv, saved_other _ _ _ _ fun j hj => by rw [Nat.zero_add]; exact h2 j hj]
    rw [mem_names]
    rintro ⟨j, hj, e⟩
    exact h2 j hj e

/-- C77 fails when the animation cannot be written: all temporary files stay. -/
theorem C77_save_error (getImg : SimState → String → Py Img) (save : String → Option Err) (r : SimResult) (f : ℤ) (filename : String) (files : Files)
    (imgs : List Img) (hi : getImages getImg r f = .ok imgs) (hne : imgs ≠ []) (e : Err) (hs : save filename = some e) :
    ∃ files', toGif getImg save r f filename files = (files', some e) ∧ ∀ (j : ℕ) I, imgs[j]? = some I → Dict.get? files' (tmpName j) = some [I] := by
  set sv := imgs.zipIdx.foldl (fun fs p => Dict.set fs (tmpName p.2) [p.1]) files with hsv
  have hat : ∀ (j : ℕ) I, imgs[j]? = some I → Dict.get? sv (tmpName j) = some [I] := fun j I hj => by
    have := saved_at imgs 0 files j I hj
    rwa [Nat.zero_add] at this
  have hfr := frames_eq imgs 0 sv fun j I hj => by rw [Nat.zero_add]; exact hat j I hj
  refine ⟨sv, ?_, hat⟩
  unfold toGif
  rw [hi]
  simp only [← hsv, hfr, hs]
  rw [if_neg (by simpa using hne)]

/-- C77: if drawing a step raises, no file is touched. -/
theorem C77_draw_error (getImg : SimState → String → Py Img) (save : String → Option Err) (r : SimResult) (f : ℤ) (filename : String) (files : Files)
    (e : Err) (hi : getImages getImg r f = .error e) : toGif getImg save r f filename files = (files, some e) := by
  unfold toGif; rw [hi]

/-- Non-vacuity of `C77_images`: a result with two steps, drawn as pictures whose width is the length of the label. -/
theorem two_frames : ∃ imgs : List Img, getImages (fun _ l => .ok (Img.black l.length 1)) (resultAfter (oneSite (.str "A")) aToB) (1 : ℕ) = .ok imgs ∧
    imgs.length = 2 := by
  obtain ⟨imgs, h1, h2⟩ := C77_images (fun _ l => .ok (Img.black l.length 1)) (oneSite (.str "A")) aToB 1 le_rfl
    (fun k => Img.black ("Step " ++ toString k).length 1) (fun k hk => by
      have : k ≤ 1 := hk
      rcases (by omega : k = 0 ∨ k = 1) with rfl | rfl
      · exact ⟨oneSite (.str "A"), rfl, rfl⟩
      · exact ⟨oneSite (.str "B"), rfl, rfl⟩)
  refine ⟨imgs, h1, ?_⟩
  have h3 := h2 1
  have h4 := h2 2
  rw [if_pos (by decide)] at h3
  rw [if_neg (by decide)] at h4
  have := (List.getElem?_eq_some_iff.1 h3).1
  have := List.getElem?_eq_none_iff.1 h4
  omega

/-- C77 is false as stated: with an extension Pillow does not know, `to_gif` leaves its temporary files. -/
theorem C77_false : ∃ (getImg : SimState → String → Py Img) (save : String → Option Err) (r : SimResult) (files : Files) (files' : Files) (e : Err),
    toGif getImg save r 1 "movie.xyz" files = (files', some e) ∧ Dict.get? files (tmpName 0) = none ∧ Dict.get? files' (tmpName 0) ≠ none := by
  obtain ⟨imgs, h1, h2⟩ := two_frames
  obtain ⟨files', h3, h4⟩ := C77_save_error _ (fun _ => some .valueError) _ 1 "movie.xyz" [] imgs h1 (by rintro rfl; simp at h2) .valueError rfl
  refine ⟨_, _, _, [], files', _, h3, rfl, ?_⟩
  rw [h4 0 imgs[0] (by simp)]
  simp

/-- Non-vacuity of `C77_gif_partial`. -/
example : ∃ imgs : List Img, getImages (fun _ l => .ok (Img.black l.length 1)) (resultAfter (oneSite (.str "A")) aToB) (1 : ℕ) = .ok imgs ∧ imgs ≠ [] ∧
    ∀ j, "movie.gif" ≠ tmpName j := by
  obtain ⟨imgs, h1, h2⟩ := two_frames
  refine ⟨imgs, h1, by rintro rfl; simp at h2, fun j e => ?_⟩
  have := congrArg (fun s : String => s.toList.head?) e
  simp [tmpName] at this

end Pyl
