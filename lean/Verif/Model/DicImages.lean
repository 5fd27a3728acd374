import Verif.Model.DicCrop
import Verif.Model.Text
import Mathlib.Data.Real.Basic

/-! Model of the pattern image, the correlation values and the scale of a DIC map (`hrdic.py:219-274,
512-543`). Files are a function of their paths that may change at any time. -/

namespace DefDAP

/-- An image file as read by matplotlib: one value for each pixel, or more than one
(`hrdic.py:536-538`). -/
inductive ImgFile (α : Type) where
  | gray (g : Grid α)
  | colour

/-- The parts of a DIC map used here: crop and dimensions, the metadata `path` and `binning` of the
item `pattern`, the correlation values and the scale of the images; `dir` is the directory of the
file of the map, `subWindow` its `binning` (`hrdic.py:106-119, 161-168`). -/
structure DicImages (α : Type) where
  w : DicW
  dir : Str
  subWindow : Nat
  path : Option Str
  window : Option Int
  corr : Option (Grid α)
  bseScale : Option ℝ
  files : Str → Option (ImgFile α)

/-- `parent / img_path` of `pathlib` (`hrdic.py:525`): an absolute path stays. -/
def joinPath (dir p : Str) : Str :=
  if p.head? = some '/' then p else dir ++ lit "/" ++ p

/-- `set_pattern` (`hrdic.py:512-527`). -/
def DicImages.setPattern {α : Type} (m : DicImages α) (p : Str) (window : Int) : DicImages α :=
  { m with path := some (joinPath m.dir p), window := some window }

/-- `load_pattern` (`hrdic.py:529-543`), the generator of the item `pattern`. -/
def DicImages.loadPattern {α : Type} (m : DicImages α) : Except Err (Grid α) :=
  match m.path with
  | none => .error .fileNotFoundError
  | some p =>
    match m.files p with
    | none => .error .fileNotFoundError
    | some .colour => .error .valueError
    | some (.gray g) =>
      if (g.rows : Int) = m.w.ydim * m.window.getD 1 ∧ (g.cols : Int) = m.w.xdim * m.window.getD 1 then .ok g
      else .error .valueError

/-- `data.pattern` (`utils.py:139-183`): the item is generated at every access, as it is not saved
(`hrdic.py:163-164`), and cropped with its own binning (`utils.py:176-179`); masks are not applied. -/
def DicImages.readPattern {α : Type} (m : DicImages α) : Except Err (Grid α) :=
  m.loadPattern.map fun g => cropGrid m.w (m.window.getD 1) g

/-- `load_corr_val_data` (`hrdic.py:219-243`); `file` is what the loader of Davis images gives. -/
def DicImages.loadCorr {α : Type} (m : DicImages α) (dataType : Option Str)
    (file : Except Err (Grid α)) : Except Err Unit × DicImages α :=
  if dataType.getD (lit "DavisImage") = lit "DavisImage" then
    match file with
    | .error e => (.error e, m)
    | .ok g =>
      (if g.cols = m.w.xdim ∧ g.rows = m.w.ydim then .ok () else .error .assertionError,
        { m with corr := some g })
  else (.error .exception, m)

/-- `set_scale` (`hrdic.py:254-263`). -/
def DicImages.setScale {α : Type} (m : DicImages α) (s : ℝ) : DicImages α := { m with bseScale := some s }

/-- `scale` (`hrdic.py:265-274`). -/
noncomputable def DicImages.scale {α : Type} (m : DicImages α) : Option ℝ :=
  m.bseScale.map fun s => s * (m.subWindow : ℝ)

/-- What can happen between two accesses (`hrdic.py:219-274, 314-357, 512-527`). -/
inductive DicImgOp (α : Type) where
  | setPattern (p : Str) (window : Int)
  | setCrop (left right top bottom : Option Int) (update : Bool)
  | writeFile (p : Str) (file : Option (ImgFile α))
  | loadCorr (dataType : Option Str) (file : Except Err (Grid α))
  | setScale (s : ℝ)

/-- One step; `set_crop` is that of `Model/DicCrop.lean` (`hrdic.py:219-274, 314-357, 512-527`). -/
def dicImgStep {α : Type} (m : DicImages α) : DicImgOp α → DicImages α
  | .setPattern p b => m.setPattern p b
  | .setCrop l r t b u => { m with w := (setCrop m.w l r t b u).2 }
  | .writeFile p f => { m with files := fun q => if q = p then f else m.files q }
  | .loadCorr d f => (m.loadCorr d f).2
  | .setScale s => m.setScale s

/-- A new map (`hrdic.py:94-178`). -/
def DicImages.new {α : Type} (w : DicW) (dir : Str) (subWindow : Nat) (files : Str → Option (ImgFile α)) :
    DicImages α := ⟨w, dir, subWindow, none, none, none, none, files⟩

end DefDAP
