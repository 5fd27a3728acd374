import Mathlib.Data.List.Sort
import Mathlib.Data.List.Dedup
import Mathlib.Data.Int.Order.Basic
import Verif.Model.FindGrains

/-! Model of `hrdic.Map.find_grains`, `defdap/hrdic.py:568-703`. -/

namespace DefDAP

/-- One pass of the `while found_point >= 0` loop of the floodfill algorithm
(`hrdic.py:639-663`). -/
def fgdStep (h w : Nat) (minSize : Nat) (st : FG) : Except Err (FG × Bool) := do
  let cfg : FillCfg := { h, w, bx := fun _ _ => false, by' := fun _ _ => false,
                         index := st.gidx, off := st.off, cap := h * w - st.off }
  let f ← floodFillDic cfg (unravel w st.next) st.grains st.left st.buf
  let v : View := { off := st.off, len := f.n }
  let st := { st with grains := f.grains, left := f.left, buf := f.buf, off := st.off + f.n }
  let st := if v.len < minSize then
      { st with grains := paint (-2) (v.read st.buf) st.grains }
    else
      { st with list := st.list ++ [v], gidx := st.gidx + 1 }
  match findFrom h w st.left (st.next + 1) with
  | none => .ok (st, false)
  | some k => .ok ({ st with next := st.next + (k + 1) }, true)

/-- The loop, `hrdic.py:639-669`, with fuel. Progress reporting is left out. -/
def fgdLoop (h w : Nat) (minSize : Nat) : Nat → FG → Except Err FG
  | 0, _ => .error .fuel
  | k + 1, st => do
    let (st', more) ← fgdStep h w minSize st
    if more then fgdLoop h w minSize k st' else .ok st'

/-- Result of the floodfill algorithm: grain map, memory of the buffer, one view per grain
(`hrdic.py:702-703`). -/
structure DicResult where
  grains : Img Int
  buf : Nat → Px
  list : List View

/-- `find_grains('floodfill')` on the boundary image (`hrdic.py:623-669,692-703`) without the
linking to EBSD grains (`linkByMode`). `grains = -image.astype(int)`. With no free pixel
`np.unravel_index(-1)` raises `ValueError`; with no grain `grain_list[0]` raises
`IndexError`. -/
def findGrainsDic (h w : Nat) (bnd : Img Bool) (minSize : Nat) : Except Err DicResult := do
  let g0 : Img Int := fun y x => if bnd y x then -1 else 0
  let left : Img Bool := fun y x => decide (g0 y x = 0)
  match findFrom h w left 0 with
  | none => .error .valueError
  | some next =>
    let st ← fgdLoop h w minSize (h * w)
      { grains := g0, left, buf := fun _ => (0, 0), off := 0, list := [], gidx := 1, next }
    match st.list with
    | [] => .error .indexError
    | _ :: _ => .ok { grains := st.grains, buf := st.buf, list := st.list }

/-- `find_grains('floodfill')` on the map's own boundary set: `data.grain_boundaries.image`
is `BoundarySet._image` of the DIC module (`hrdic.py:625,898-905`), which is the code of the
EBSD one. -/
def findGrainsDicOf (h w : Nat) (points : List Px) (minSize : Nat) : Except Err DicResult := do
  let im ← boundaryImage h w points
  findGrainsDic h w im minSize

/-- Python list access `l[i]`: negative indices count from the end (`hrdic.py:619, 685`). -/
def pyGet {α : Type} (l : List α) (i : Int) : Except Err α :=
  let j := if i < 0 then i + l.length else i
  if 0 ≤ j then
    match l[j.toNat]? with
    | some a => .ok a
    | none => .error .indexError
  else .error .indexError

/-- `np.unique` of a list of integers: sorted, without duplicates (`hrdic.py:596`). -/
def unique (vals : List Int) : List Int := vals.dedup.insertionSort (· ≤ ·)

/-- `scipy.stats.mode` of an integer array: the smallest of the most common values, `none` (nan) for
an empty array (`hrdic.py:681-684`). -/
def mode (vals : List Int) : Option Int :=
  match unique vals with
  | [] => none
  | a :: l => some (l.foldl (fun m v => if vals.count m < vals.count v then v else m) a)

/-- Linking a DIC grain to an EBSD grain (`hrdic.py:677-686`): `overlap` are the EBSD labels at
the pixels where the warped DIC grain map shows this grain; the EBSD grain is
`ebsd_map[mode_id - 1]`, an access to a Python list. Indexing a list with the nan of an empty
overlap is a `TypeError`. -/
def linkByMode {α : Type} (ebsdGrains : List α) (overlap : List Int) : Except Err α :=
  match mode overlap with
  | none => .error .typeError
  | some m => pyGet ebsdGrains (m - 1)

/-- `np.digitize(v, bins, right=True)` for increasing bins: the number of bins below `v`
(`hrdic.py:603`). -/
def digitizeRight (bins : List Int) (v : Int) : Nat := bins.countP (· < v)

/-- The new labels of the warp algorithm (`hrdic.py:596-604`) and the list
`ebsd_grain_ids`. `vals` is the warped EBSD grain map in raster order. -/
def warpRelabel (vals : List Int) : Except Err (List Int × List Int) := do
  let ids := unique vals
  let neg := ids.filter (· ≤ 0)
  let pos := ids.filter (0 < ·)
  let old := neg ++ pos
  let new := neg ++ (List.range pos.length).map fun (i : Nat) => (i : Int) + 1
  let labels ← vals.mapM fun v =>
    match new[digitizeRight old v]? with
    | some a => .ok a
    | none => .error .indexError
  .ok (labels, pos)

/-- Body of the loop over the new grains (`hrdic.py:608-621`).
`measure.regionprops(...).coords` lists the pixels with the label in raster order; pixels are
given by their raster position here. A label without pixels would be a `KeyError` in
`props_dict`. -/
def warpGrain {α : Type} (ebsdGrains : List α) (labels pos : List Int) (i : Nat) :
    Except Err (List Nat × α) :=
  let coords := (List.range labels.length).filter fun k => labels[k]? = some ((i : Int) + 1)
  match pos[i]? with
  | none => .error .indexError
  | some eid =>
    if coords = [] then .error .keyError
    else match pyGet ebsdGrains (eid - 1) with
      | .error e => .error e
      | .ok g => .ok (coords, g)

/-- The warp algorithm (`hrdic.py:589-621,692-703`): the new grain map and, for each new
grain, its pixels and its EBSD grain. -/
def warpGrains {α : Type} (ebsdGrains : List α) (vals : List Int) :
    Except Err (List Int × List (List Nat × α)) := do
  let (labels, pos) ← warpRelabel vals
  let grains ← (List.range pos.length).mapM (warpGrain ebsdGrains labels pos)
  match grains with
  | [] => .error .indexError
  | _ :: _ => .ok (labels, grains)

end DefDAP
