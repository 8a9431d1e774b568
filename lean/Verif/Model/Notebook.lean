import Verif.Model.Viz
/-
Model of the notebook methods of visualization/result_artist.py and visualization/structure_artist.py, of `save_img`, and of `_get_images` on Windows.
-/
set_option autoImplicit false

namespace Pyl
namespace ResultArtist

/-- What the notebook methods do to the output of a notebook cell: `clear_output()`, `display(img)` and `time.sleep(seconds)`. -/
inductive Event where
  | clear
  | display (I : Img)
  | sleep (seconds : ℚ)

/-- visualization/result_artist.py:35-41 `_get_images` where `sys.platform` starts with "win": one step after the other, without a pool. -/
def getImagesWin (getImg : SimState → String → Py Img) (r : SimResult) (drawFreq : ℤ) : Py (List Img) := do
  let indices ← rangeFrom0 r.len drawFreq
  indices.mapM fun idx => do
    let step ← r.getStep idx
    getImg step ("Step " ++ toString idx)

/-- visualization/structure_artist.py:24-36 `jupyter_show`; `getImg` is `get_img` with the keyword arguments. -/
def jupyterShow (getImg : SimState → Py Img) (s : SimState) : Py (List Event) := do
  let img ← getImg s
  pure [.display img]

/-- visualization/result_artist.py:60-78 `jupyter_show_step` for an int `step_no`. -/
def showStep (getImg : SimState → String → Py Img) (r : SimResult) (stepNo : ℤ) : Py (List Event) := do
  let label := "Step " ++ toString stepNo
  let step ← r.getStep stepNo
  jupyterShow (fun s => getImg s label) step

/-- visualization/result_artist.py:98-101: the loop of `jupyter_play`; `time.sleep` of a negative number raises ValueError. -/
def playLoop (wait : ℚ) : List Img → List Event × Option Err
  | [] => ([], none)
  | img :: imgs =>
    if wait < 0 then ([.clear, .display img], some .valueError)
    else
      let rest := playLoop wait imgs
      (.clear :: .display img :: .sleep wait :: rest.1, rest.2)

/-- visualization/result_artist.py:80-101 `jupyter_play`: what happened to the output and the exception, if any.  (`draw_freq` is left at 1.) -/
def play (getImg : SimState → String → Py Img) (r : SimResult) (wait : ℚ) : List Event × Option Err :=
  match getImages getImg r 1 with
  | .error e => ([], some e)
  | .ok imgs => playLoop wait imgs

/-- visualization/structure_artist.py:53-69 `save_img`: the files afterwards and the file name or the exception.  `save` is None if Pillow can write a picture to
the given name, else the exception; in that case the file is taken not to change. -/
def saveImg (getImg : SimState → Py Img) (save : String → Option Err) (s : SimState) (filename : String) (files : Files) : Files × Py String :=
  match getImg s with
  | .error e => (files, .error e)
  | .ok img =>
    match save filename with
    | some e => (files, .error e)
    | none => (Dict.set files filename [img], .ok filename)

end ResultArtist
end Pyl
