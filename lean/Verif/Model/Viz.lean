import Verif.Model.Analyzer
import Verif.Model.GridSetup
/-
Model of src/pylattica/visualization: colors.py, helpers.py, cell_artist.py, square_grid_artist_2D.py, square_grid_artist_3D.py, result_artist.py.

Not modelled: Pillow's text rendering (an argument of the drawing functions), image file formats (arguments), matplotlib's voxel rendering (the
arrays handed to it are modelled), Jupyter display functions.
-/
set_option autoImplicit false

namespace Pyl
open Structure Analyzer

/-- An RGB triple. -/
abbrev Color := ℕ × ℕ × ℕ

/-- visualization/colors.py:1-72 -/
def COLORS : List Color :=
  [(32, 178, 170), (0, 255, 127), (47, 79, 79), (30, 144, 255), (138, 43, 226), (186, 85, 211), (199, 21, 133),
   (255, 20, 147), (250, 235, 215), (160, 82, 45), (244, 164, 96), (176, 196, 222), (205, 92, 92), (255, 215, 0),
   (85, 107, 47), (0, 128, 0), (143, 188, 143), (255, 140, 0), (255, 69, 0), (250, 128, 114), (128, 0, 0),
   (255, 255, 0), (0, 128, 0), (32, 178, 170), (128, 0, 0), (0, 255, 0), (255, 255, 255), (128, 128, 0),
   (0, 0, 128), (34, 139, 34), (221, 160, 221), (210, 105, 30), (188, 143, 143), (112, 128, 144), (240, 255, 240),
   (32, 178, 170), (0, 255, 127), (47, 79, 79), (30, 144, 255), (138, 43, 226), (186, 85, 211), (199, 21, 133),
   (255, 20, 147), (250, 235, 215), (160, 82, 45), (244, 164, 96), (176, 196, 222), (205, 92, 92), (255, 215, 0),
   (85, 107, 47), (0, 128, 0), (143, 188, 143), (255, 140, 0), (255, 69, 0), (250, 128, 114), (128, 0, 0),
   (255, 255, 0), (0, 128, 0), (32, 178, 170), (128, 0, 0), (0, 255, 0), (255, 255, 255), (128, 128, 0),
   (0, 0, 128), (34, 139, 34), (221, 160, 221), (210, 105, 30), (188, 143, 143), (112, 128, 144), (240, 255, 240)]

/-- `COLORS[i]` for `i ≥ 0` -/
def paletteAt (i : ℕ) : Py Color :=
  match COLORS[i]? with
  | some c => .ok c
  | none => .error .indexError

/-- `d[k] = v` on a dict keyed by values; unhashable keys raise TypeError. -/
def setHashed {ν : Type} (d : Dict Val ν) (k : Val) (v : ν) : Py (Dict Val ν) :=
  if k.hashable then .ok (Dict.set d k v) else .error .typeError

/-- visualization/helpers.py:6-25 `color_map` -/
def colorMap (phases : List Val) : Py (Dict Val Color) := do
  let r ← phases.foldlM (fun (x : Dict Val Color × ℕ) p => do
    let c ← paletteAt x.2
    let m ← setHashed x.1 p c
    pure (m, x.2 + 1)) ([], 0)
  pure r.1

/-- visualization/cell_artist.py:114-137 `build_color_map_from_phase_list` -/
def buildColorMap (phases : List Val) : Py (Dict Val Color) := do
  let r ← phases.foldlM (fun (x : Dict Val Color × ℕ) p => do
    let c ← paletteAt (x.2 % COLORS.length)
    let m ← setHashed x.1 p c
    pure (m, x.2 + 1)) ([], 0)
  pure r.1

/-- visualization/cell_artist.py:14-24: a colouring strategy; the methods get a site's dict (or None) and may raise. -/
structure CellArtist where
  color : Option Props → Py Color
  label : Option Props → Py String
  /-- the `legend` argument of DiscreteCellArtist (None for other artists) -/
  legend : Option (Dict String Color)

namespace CellArtist

/-- visualization/cell_artist.py:43-47: one site of the state. -/
def addLegend (A : CellArtist) (legend : Dict String Color) (p : Props) : Py (Dict String Color) := do
  let label ← A.label (some p)
  if label ∈ Dict.keys legend then pure legend
  else do
    let color ← A.color (some p)
    pure (Dict.set legend label color)

/-- visualization/cell_artist.py:26-49 `CellArtist.get_legend` and 151-155 `DiscreteCellArtist.get_legend` -/
def getLegend (A : CellArtist) (s : SimState) : Py (Dict String Color) :=
  match A.legend with
  | some l => .ok l
  | none => s.allSiteStates.foldlM A.addLegend []

end CellArtist

/-- `cell_state[key]` on a site's dict or None. -/
def cellValue (key : Key) : Option Props → Py Val
  | none => .error .typeError
  | some p =>
    match Dict.get? p key with
    | none => .error .keyError
    | some v => .ok v

/-- visualization/cell_artist.py:170-174: the colour of a phase (`None` as colour map: TypeError). -/
def phaseColor (cmap : Option (Dict Val Color)) (v : Val) : Py Color :=
  match cmap with
  | none => .error .typeError
  | some m =>
    if v.hashable then
      match Dict.get? m v with
      | none => .ok (0, 0, 0)
      | some c => .ok c
    else .error .typeError

/-- visualization/cell_artist.py:139-189 `DiscreteCellArtist`.  `str` is Python's `str`. -/
def discreteArtist (str : Val → String) (cmap : Option (Dict Val Color)) (key : Key) (legend : Option (Dict String Color)) : CellArtist where
  color p := do phaseColor cmap (← cellValue key p)
  label p := do pure (str (← cellValue key p))
  legend := legend

/-- visualization/cell_artist.py:55-70 `from_phase_list` with the default `state_key` and `legend`. -/
def artistFromPhases (str : Val → String) (phases : List Val) : Py CellArtist := do
  pure (discreteArtist str (some (← buildColorMap phases)) DISCRETE_OCCUPANCY none)

/-- visualization/cell_artist.py:72-91 `from_discrete_state` -/
def artistFromState (str : Val → String) (order : List Val → List Val) (s : SimState) : Py CellArtist := do
  artistFromPhases str (← phasesPresent order s)

/-- visualization/cell_artist.py:93-112 `from_discrete_result`.  `order` lists the sets of the steps and `order'` the final frozenset. -/
def artistFromResult (str : Val → String) (order : ℕ → List Val → List Val) (order' : List Val → List Val) (r : SimResult) : Py CellArtist := do
  let (phases, _) ← ResultAnalyzer.new.allPhases r order
  artistFromPhases str (order' phases)

/-! ### images -/

/-- A Pillow image of `w * h` pixels. -/
structure Img where
  w : ℕ
  h : ℕ
  px : ℤ → ℤ → Color

/-- `Image.new("RGB", (w, h), "black")` -/
def Img.black (w h : ℕ) : Img := ⟨w, h, fun _ _ => (0, 0, 0)⟩

/-- `pixels[x, y] = color`: negative numbers count from the other end, others outside the image raise IndexError. -/
def Img.put (I : Img) (x y : ℤ) (c : Color) : Py Img :=
  let x' := if x < 0 then I.w + x else x
  let y' := if y < 0 then I.h + y else y
  if 0 ≤ x' ∧ x' < I.w ∧ 0 ≤ y' ∧ y' < I.h then
    .ok { I with px := fun a b => if a = x' ∧ b = y' then c else I.px a b }
  else .error .indexError

/-- `for p_x in range(x0, x1): for p_y in range(y0, y1): pixels[p_x, p_y] = c` -/
def Img.fill (I : Img) (x0 x1 y0 y1 : ℤ) (c : Color) : Py Img :=
  (pyRange x0 x1).foldlM (fun I x => (pyRange y0 y1).foldlM (fun I y => I.put x y c) I) I

/-- `draw.text((x, y), s, (255, 255, 255))` for some font. -/
abbrev TextTool := Img → ℤ → ℤ → String → Img

namespace Artist2D
variable {K : Type} [Field K] [LinearOrder K] [FloorRing K]

/-- visualization/square_grid_artist_2D.py:32-40: one site. -/
def drawSite (A : CellArtist) (s : SimState) (n : ℤ) (cs : ℕ) (I : Img) (t : Site K 2) : Py Img := do
  let c ← A.color (s.getSiteState (.int t.id))
  let x0 := pyInt (t.loc 0 * (cs : K))
  let y0 := pyInt (((n : K) - 1 - t.loc 1) * (cs : K))
  I.fill x0 (x0 + cs) y0 (y0 + cs) c

/-- visualization/square_grid_artist_2D.py:46-49: the white bar.  (The code's outer loop runs over y.) -/
def drawBar (n : ℤ) (cs : ℕ) (height : ℤ) (I : Img) : Py Img :=
  (pyRange 0 (height * cs)).foldlM (fun I y => (pyRange 0 5).foldlM (fun I x => I.put (n * cs + x) y (255, 255, 255)) I) I

/-- visualization/square_grid_artist_2D.py:51-64: one line of the legend (the colour is present: the labels are the keys of the dict). -/
def drawEntry (text : TextTool) (n : ℤ) (cs : ℕ) (x : Img × ℤ) (e : String × Color) : Py (Img × ℤ) := do
  let col := n * cs + 5 + (cs / 4 : ℕ)
  let row := x.2 * cs + (cs / 4 : ℕ)
  let I ← x.1.fill col (col + cs) row (row + cs) e.2
  pure (text I (col + cs + (cs / 4 : ℕ)) (row + (cs / 4 : ℕ)) e.1, x.2 + 1)

/-- visualization/square_grid_artist_2D.py:12-69 `_draw_image`.  `cs` is `cell_size` (default 20). -/
noncomputable def drawImage (A : CellArtist) (text : TextTool) (S : Structure K 2) (s : SimState) (cs : ℕ) (label : Option String) : Py Img := do
  let legend ← A.getLegend s
  let entries := legend.mergeSort fun a b => decide (a.1 ≤ b.1)
  let n := pyInt (← vecLength0 S.lattice)
  let height : ℤ := max n (legend.length + 1)
  let I := Img.black ((n + 6) * cs + 5).toNat (height * cs).toNat
  let I ← (S.sitesOf none).foldlM (drawSite A s n cs) I
  let I ← drawBar n cs height I
  let r ← entries.foldlM (drawEntry text n cs) (I, 0)
  match label with
  | none => pure r.1
  | some l => pure (text r.1 5 5 l)

end Artist2D

namespace Artist3D
variable {K : Type} [Field K] [LinearOrder K] [FloorRing K]

/-- `round(size ** (1 / 3))`: the integer nearest to the cube root (the root of an integer is never half way between two). -/
def cubeSide (size : ℕ) : ℕ := ((List.range (size + 1)).filter fun m => decide ((2 * m - 1) ^ 3 ≤ 8 * size)).length - 1

/-- The boolean arrays handed to matplotlib, one for each colour string in order of first use, each as the list of its filled cells. -/
abbrev Voxels := Dict String (List (ℤ × ℤ × ℤ))

/-- `data[i, j, k] = 1` on an array of the given side: negative numbers count from the end, others outside raise IndexError. -/
def cell (side : ℕ) (v : ℤ × ℤ × ℤ) : Py (ℤ × ℤ × ℤ) :=
  let f (x : ℤ) : ℤ := if x < 0 then side + x else x
  if (0 ≤ f v.1 ∧ f v.1 < side) ∧ (0 ≤ f v.2.1 ∧ f v.2.1 < side) ∧ (0 ≤ f v.2.2 ∧ f v.2.2 < side) then .ok (f v.1, f v.2.1, f v.2.2) else .error .indexError

/-- visualization/square_grid_artist_3D.py:25-40: one site.  `colorStr` is `str` on colours. -/
def addSite (A : CellArtist) (colorStr : Color → String) (s : SimState) (side : ℕ) (shellOnly : Bool) (data : Voxels) (t : Site K 3) : Py Voxels :=
  if !shellOnly || (decide (t.loc 1 = 0) || decide (t.loc 0 = (side : K)) || decide (t.loc 2 = (side : K))) then do
    let c ← A.color (s.getSiteState (.int t.id))
    let v ← cell side (pyInt (t.loc 0), pyInt (t.loc 1), pyInt (t.loc 2))
    pure (Dict.set data (colorStr c) ((Dict.get? data (colorStr c)).getD [] ++ [v]))
  else .ok data

/-- visualization/square_grid_artist_3D.py:14-40: the filled cells by colour. -/
def voxels (A : CellArtist) (colorStr : Color → String) (S : Structure K 3) (s : SimState) (shellOnly : Bool) : Py Voxels :=
  (S.sitesOf none).foldlM (addSite A colorStr s (cubeSide s.size) shellOnly) []

/-- visualization/square_grid_artist_3D.py:21, 39: the array "empty" starts full; every site that is drawn clears its cell (the same statement
sequence fills the cell in the array of its colour). -/
def emptyCells (side : ℕ) (data : Voxels) : List (ℤ × ℤ × ℤ) :=
  ((List.range side ×ˢ List.range side ×ˢ List.range side).map fun v => ((v.1 : ℤ), (v.2.1 : ℤ), (v.2.2 : ℤ))).filter fun v =>
    !(Dict.keys data).any fun k => decide (v ∈ (Dict.get? data k).getD [])

end Artist3D

/-! ### animations -/

namespace ResultArtist

/-- `list(range(0, n, k))` -/
def rangeFrom0 (n : ℕ) (k : ℤ) : Py (List ℤ) :=
  if k = 0 then .error .valueError else .ok (if 0 < k then ResultAnalyzer.stepRange n k else [])

/-- visualization/result_artist.py:30-58 `_get_images`.  `getImg step label` is the step artist; the pool's `starmap` keeps the order. -/
def getImages (getImg : SimState → String → Py Img) (r : SimResult) (drawFreq : ℤ) : Py (List Img) := do
  let indices ← rangeFrom0 r.len drawFreq
  let params ← indices.mapM fun idx => do
    let step ← r.getStep idx
    pure (step, "Step " ++ toString idx)
  params.mapM fun p => getImg p.1 p.2

/-- The working directory: file names and contents. -/
abbrev Files := Dict String (List Img)

/-- `os.remove(name)` (the file is there) -/
def Files.remove (fs : Files) (name : String) : Files := fs.filter fun f => decide (f.1 ≠ name)

/-- visualization/result_artist.py:115 -/
def tmpName (idx : ℕ) : String := "tmp_pylat_step_" ++ toString idx ++ ".png"

/-- visualization/result_artist.py:103-132 `to_gif`: the files afterwards and the exception, if any.  A picture file has one frame, an animation all of
them.  `save` is None if Pillow can write the animation to the given file name, else the exception it raises (unknown extension,
no permission); PNG files are saved and read without loss. -/
def toGif (getImg : SimState → String → Py Img) (save : String → Option Err) (r : SimResult) (drawFreq : ℤ) (filename : String) (files : Files) :
    Files × Option Err :=
  match getImages getImg r drawFreq with
  | .error e => (files, some e)
  | .ok imgs =>
    let saved := imgs.zipIdx.foldl (fun fs p => Dict.set fs (tmpName p.2) [p.1]) files
    let names := imgs.zipIdx.map fun p => tmpName p.2
    let frames := names.flatMap fun nm => (Dict.get? saved nm).getD []
    if frames.isEmpty then (saved, some .indexError)
    else
      match save filename with
      | some e => (saved, some e)
      | none => (names.foldl Files.remove (Dict.set saved filename frames), none)

end ResultArtist
end Pyl
