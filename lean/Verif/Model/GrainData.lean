import Verif.Model.Num
import Verif.Model.DicGrains
import Mathlib.Analysis.Real.Sqrt

/-! Model of per-grain data and maps: `defdap/base.py:396-439,592-671,810-1032`.
A map's `data.point` lists of the grains are given as lists of pixels. -/

namespace DefDAP

/-- Smallest and largest entry of a non-empty list (`min(axis=0)`, `max(axis=0)`,
`base.py:820`); numpy raises `ValueError` for an empty array. -/
def minMax : List Int → Except Err (Int × Int)
  | [] => .error .valueError
  | a :: l => .ok (l.foldl min a, l.foldl max a)

/-- `Grain.extreme_coords`, `base.py:810-820`: `(x0, y0, xmax, ymax)`. -/
def extremeCoords (pts : List Px) : Except Err (Int × Int × Int × Int) := do
  let (x0, x1) ← minMax (pts.map (·.1))
  let (y0, y1) ← minMax (pts.map (·.2))
  .ok (x0, y0, x1, y1)

/-- The argument `centre_type` of `centre_coords` (`base.py:843-849`). -/
inductive CentreType where
  | box | com | other
deriving DecidableEq

/-- `Grain.centre_coords`, `base.py:822-855`. -/
def centreCoords (pts : List Px) (ty : CentreType) (grainCoords : Bool) :
    Except Err (Int × Int) := do
  let (x0, y0, x1, y1) ← extremeCoords pts
  let (xc, yc) ← match ty with
    | .box => Except.ok (roundEven (((x1 + x0 : Int) : Rat) / 2), roundEven (((y1 + y0 : Int) : Rat) / 2))
    | .com => Except.ok (roundEven ((pts.map fun p => (p.1 : Rat)).sum / pts.length),
        roundEven ((pts.map fun p => (p.2 : Rat)).sum / pts.length))
    | .other => Except.error Err.valueError
  if grainCoords then .ok (xc - x0, yc - y0) else .ok (xc, yc)

/-- `Grain.grain_data`, `base.py:908-922`: `map_data[..., ys, xs]`. Leading components are
part of the value type. -/
def grainData {α : Type} (h w : Nat) (m : Img α) (pts : List Px) : Except Err (List α) :=
  pts.mapM (npRead h w m)

/-- A loop of assignments `im[p] = v` (`base.py:878-879, 961-962`). -/
def writeAll {α : Type} (h w : Nat) (im : Img α) (l : List (Px × α)) : Except Err (Img α) :=
  l.foldlM (fun im pv => npWrite h w im pv.1 pv.2) im

/-- `Grain.grain_map_data` with data at each point of the grain, `base.py:950-964`: height,
width and pixels of the image. -/
def grainMapData {α : Type} (pts : List Px) (data : List α) (bg : α) :
    Except Err (Nat × Nat × Img α) := do
  let (x0, y0, x1, y1) ← extremeCoords pts
  let hh := (y1 - y0 + 1).toNat
  let ww := (x1 - x0 + 1).toNat
  let im ← writeAll hh ww (fun _ _ => bg)
    ((pts.zip data).map fun pv => ((pv.1.1 - x0, pv.1.2 - y0), pv.2))
  .ok (hh, ww, im)

/-- `Grain.grain_map_data` from scalar map data, `base.py:945-949`. -/
def grainMapDataOfMap {α : Type} (h w : Nat) (m : Img α) (pts : List Px) (bg : α) :
    Except Err (Nat × Nat × Img α) := do
  let d ← grainData h w m pts
  grainMapData pts d bg

/-- `Grain.grain_map_data` from map data with a leading component axis (a vector map of shape
`(c, h, w)`), `base.py:945-964`: `grain_data` has shape `(c, n)`, so the loop pairs the grain's
points with its rows, one row per component and each row holding one value per point. -/
def grainMapDataOfVecMap {α : Type} (h w : Nat) (ms : List (Img α)) (pts : List Px) (bg : α) :
    Except Err (Nat × Nat × Img (List α)) := do
  let rows ← ms.mapM fun m => grainData h w m pts
  grainMapData pts rows (List.replicate pts.length bg)

/-- `Grain.grain_outline`, `base.py:857-881`, for a background that is an integer (the default
`nan` cannot be stored in an integer array: numpy raises `ValueError`, `none` here). -/
def grainOutline (pts : List Px) (bg : Option Int) (fg : Int) :
    Except Err (Nat × Nat × Img Int) := do
  let (x0, y0, x1, y1) ← extremeCoords pts
  let hh := (y1 - y0 + 1).toNat
  let ww := (x1 - x0 + 1).toNat
  match bg with
  | none => .error .valueError
  | some bg =>
    let im ← writeAll hh ww (fun _ _ => bg) (pts.map fun p => ((p.1 - x0, p.2 - y0), fg))
    .ok (hh, ww, im)

/-- Writing one grain's list data, `base.py:623-624`. -/
def grainToMap {α : Type} (h w : Nat) (im : Img α) (g : List Px × List α) : Except Err (Img α) :=
  (List.range g.1.length).foldlM (fun im i =>
    match g.1[i]?, g.2[i]? with
    | some p, some v => npWrite h w im p v
    | _, _ => .error .indexError) im

/-- `Map.grain_data_to_map`, `base.py:620-626`: grains are given with their points and their
list data. -/
def grainDataToMap {α : Type} [Zero α] (h w : Nat) (gs : List (List Px × List α)) :
    Except Err (Img α) :=
  match gs with
  | [] => .error .indexError
  | _ :: _ => gs.foldlM (grainToMap h w) (fun _ _ => 0)

/-- The argument `grain_ids`: an integer (-1 for all) or a list (`base.py:608-609, 648-652`). -/
inductive GrainIds where
  | int (i : Int)
  | list (l : List Int)

/-- The grain ids used by `calc_grain_average` (`base.py:608-609`). An integer other than -1
has no length: `TypeError`. -/
def averageIds (n : Nat) : GrainIds → Except Err (List Int)
  | .int i => if i = -1 then .ok ((List.range n).map fun (k : Nat) => (k : Int)) else .error .typeError
  | .list l => .ok l

/-- Body of the loop of `calc_grain_average`, `base.py:613-616`. -/
def grainAverage (h w : Nat) (grains : List (List Px)) (m : Img Rat) (i : Int) :
    Except Err (Option Rat) := do
  let pts ← pyGet grains i
  let d ← grainData h w m pts
  .ok (mean? d)

/-- `Map.calc_grain_average`, `base.py:592-618`. -/
def calcGrainAverage (h w : Nat) (grains : List (List Px)) (m : Img Rat) (ids : GrainIds) :
    Except Err (List (Option Rat)) := do
  let ids ← averageIds grains.length ids
  ids.mapM (grainAverage h w grains m)

/-- The grain ids used by `grain_data_to_map_data` (`base.py:648-652`). -/
def paintIds (n : Nat) : GrainIds → List Int
  | .int i => if i = -1 then (List.range n).map fun (k : Nat) => (k : Int) else [i]
  | .list l => l

/-- `Map.grain_data_to_map_data`, `base.py:628-671`, for one value (or RGB row) per grain. The
array types are not modelled: `bg` is a value of the same type. -/
def grainDataToMapData {α : Type} (h w : Nat) (grains : List (List Px)) (vals : List α)
    (ids : GrainIds) (bg : α) : Except Err (Img α) :=
  let ids := paintIds grains.length ids
  if vals.length ≠ ids.length then .error .valueError
  else (ids.zip vals).foldlM (fun im (iv : Int × α) => do
    let pts ← pyGet grains iv.1
    writeAll h w im (pts.map fun p => (p, iv.2))) (fun _ _ => bg)

/-- The range of the kernel along one axis of length `n`, `base.py:1003-1018`. -/
def kernelRange (n i k : Nat) : Nat × Nat :=
  (if k ≤ i then i - k else 0, if i + k + 1 ≤ n then i + k + 1 else n)

/-- Body of the kernel loops, `base.py:1021-1025`: sum and count of the values that are not
nan. -/
def coarseAcc (s : Rat × Nat) (v : Option Rat) : Rat × Nat :=
  match v with
  | none => s
  | some v => (s.1 + v, s.2 + 1)

/-- One pixel of `grain_map_data_coarse`, `base.py:997-1030`. `none` is nan. -/
def coarsePixel (hh ww k : Nat) (im : Img (Option Rat)) (bg : Option Rat) (i j : Nat) :
    Option Rat :=
  match im i j with
  | none => bg
  | some _ =>
    let (yLow, yHigh) := kernelRange hh i k
    let (xLow, xHigh) := kernelRange ww j k
    let s := (List.range' yLow (yHigh - yLow)).foldl (fun s (a : Nat) =>
      (List.range' xLow (xHigh - xLow)).foldl (fun (s : Rat × Nat) (b : Nat) =>
        coarseAcc s (im a b)) s) ((0 : Rat), 0)
    if 0 < s.2 then some (s.1 / s.2) else none

/-- `Grain.grain_map_data_coarse`, `base.py:966-1032`, on the data of the grain's points (with
nan as background, the default of the inner call). -/
def grainMapDataCoarse (pts : List Px) (data : List (Option Rat)) (k : Nat) (bg : Option Rat) :
    Except Err (Nat × Nat × (Nat → Nat → Option Rat)) := do
  let (hh, ww, im) ← grainMapData pts data none
  .ok (hh, ww, fun i j => coarsePixel hh ww k im bg i j)

/-- Distance from the pixel `(x, y)` to the boundary point `p`, `base.py:408-409, 427-428`: the
boundary point is shifted by half a pixel in both directions. -/
noncomputable def boundaryDist (p : Px) (y x : Int) : ℝ :=
  Real.sqrt (((y : ℝ) - ((p.2 : ℝ) + 1/2)) ^ 2 + ((x : ℝ) - ((p.1 : ℝ) + 1/2)) ^ 2)

/-- `trial_distances.min(axis=0)`, over the `n + 1` images (`base.py:432, 439`). -/
noncomputable def trialMin (n : Nat) (t : Nat → Img ℝ) : Img ℝ := fun y x =>
  (List.range n).foldl (fun m k => min m (t (k + 1) y x)) (t 0 y x)

/-- Body of the loop over boundary points, `base.py:426-437`. The state is the array of trial
images and the index `j`; a `j` beyond the array is an `IndexError`. -/
noncomputable def proxStep (n : Nat) (st : (Nat → Img ℝ) × Nat) (p : Px) :
    Except Err ((Nat → Img ℝ) × Nat) :=
  let (t, j) := st
  if j ≤ n then
    let t := Function.update t j (boundaryDist p)
    if j = n then .ok (Function.update t 0 (trialMin n t), 0 + 1)
    else .ok (t, j + 1)
  else .error .indexError

/-- `Map.calc_proxigram`, `base.py:396-439`, with `n = num_trials`. -/
noncomputable def calcProxigram (n : Nat) (points : List Px) : Except Err (Img ℝ) := do
  let (t, _) ← points.foldlM (proxStep n) (fun _ _ _ => 1000, 1)
  .ok (trialMin n t)

end DefDAP
