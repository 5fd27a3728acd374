import Verif.Model.Datastore
import Mathlib.Logic.Function.Iterate

/-!
Model of cropping and masking of DIC maps (`hrdic.py`) and of the homologous points of a
frame (`experiment.py`).
-/

namespace DefDAP

/-- An array whose two trailing axes are `rows × cols`; an element is what the leading axes hold at
that pixel. `px y x` is used inside the array only (`hrdic.py:378`). -/
structure Grid (α : Type) where
  rows : Nat
  cols : Nat
  px : Int → Int → α

/-- A Python slice bound on an axis of length `n`: negative bounds count from the end, bounds
outside are clipped (`hrdic.py:378`). -/
def sliceBound (n : Nat) (a : Int) : Int :=
  if a < 0 then max (a + n) 0 else min a n

/-- `g[..., y0:y1, x0:x1]` (`hrdic.py:378`). -/
def Grid.slice {α : Type} (g : Grid α) (y0 y1 x0 x1 : Int) : Grid α where
  rows := (sliceBound g.rows y1 - sliceBound g.rows y0).toNat
  cols := (sliceBound g.cols x1 - sliceBound g.cols x0).toNat
  px := fun y x => g.px (y + sliceBound g.rows y0) (x + sliceBound g.cols x0)

/-- The attributes of a DIC map used here: `xdim`, `ydim`, `crop_dists`
(`[[left, right], [top, bottom]]`) and `shape` as (rows, columns) (`hrdic.py:93-119, 201-212`), the homologous points of its
frame (`experiment.py:172-176`; `none` is a point that became `None`), and the arrays a
user may hand over as masks, by number. -/
structure DicW where
  xdim : Nat
  ydim : Nat
  left : Int
  right : Int
  top : Int
  bottom : Int
  shape : Int × Int
  points : List (Option (Int × Int))
  masks : Nat → Grid Bool

/-- A freshly loaded map (`hrdic.py:119, 206-209`). -/
def DicW.new (xdim ydim : Nat) (points : List (Option (Int × Int))) (masks : Nat → Grid Bool) :
    DicW :=
  { xdim, ydim, left := 0, right := 0, top := 0, bottom := 0, shape := (ydim, xdim),
    points, masks }

/-- The single point update (`experiment.py:339-353`); `i` is in range. A point that is
`None` cannot be incremented (347). Simplification: points and increments are pairs. -/
def updatePoint (pts : List (Option (Int × Int))) (i : Nat) (new delta : Option (Int × Int)) :
    Except Err Unit × List (Option (Int × Int)) :=
  match new, delta with
  | some p, _ => (.ok (), pts.set i (some p))
  | none, none => (.ok (), pts.set i none)
  | none, some d =>
    match pts[i]? with
    | some (some p) => (.ok (), pts.set i (some (p.1 + d.1, p.2 + d.2)))
    | _ => (.error .typeError, pts)

/-- The loop over all points (`experiment.py:334-336`): `new_point` is not passed on. -/
def updateLoop (delta : Option (Int × Int)) :
    List Nat → List (Option (Int × Int)) → Except Err Unit × List (Option (Int × Int))
  | [], pts => (.ok (), pts)
  | i :: t, pts =>
    match updatePoint pts i none delta with
    | (.ok _, pts') => updateLoop delta t pts'
    | r => r

/-- `Frame.update_homog_points` (`experiment.py:313-353`). -/
def updateHomog (pts : List (Option (Int × Int))) (idx : Int) (new delta : Option (Int × Int)) :
    Except Err Unit × List (Option (Int × Int)) :=
  if (pts.length : Int) ≤ idx then (.error .indexError, pts)
  else if idx < 0 then updateLoop delta (List.range pts.length) pts
  else updatePoint pts idx.toNat new delta

/-- The update of the crop distances (`hrdic.py:337-348`). -/
def cropDists (w : DicW) (left right top bottom : Option Int) : DicW :=
  { w with left := left.getD w.left, right := right.getD w.right,
           top := top.getD w.top, bottom := bottom.getD w.bottom }

/-- The new shape (`hrdic.py:354-357`). -/
def cropShape (w : DicW) : DicW :=
  { w with shape := ((w.ydim : Int) - w.top - w.bottom, (w.xdim : Int) - w.left - w.right) }

/-- `dx` and `dy` (`hrdic.py:333-334, 339, 345`). -/
def cropDelta (old : Int) : Option Int → Int
  | some new => old - new
  | none => 0

/-- `set_crop` (`hrdic.py:314-357`). Arguments are integers or left out. -/
def setCrop (w : DicW) (left right top bottom : Option Int) (upd : Bool) :
    Except Err Unit × DicW :=
  let dx := cropDelta w.left left
  let dy := cropDelta w.top top
  let w1 := cropDists w left right top bottom
  if upd ∧ (dx ≠ 0 ∨ dy ≠ 0) then
    match updateHomog w1.points (-1) none (some (dx, dy)) with
    | (.ok _, pts) => (.ok (), cropShape { w1 with points := pts })
    | (.error e, pts) => (.error e, { w1 with points := pts })
  else (.ok (), cropShape w1)

/-- `crop` (`hrdic.py:359-378`) with the crop distances of `w`. -/
def cropGrid {α : Type} (w : DicW) (bin : Int) (g : Grid α) : Grid α :=
  g.slice (w.top * bin) ((w.ydim - w.bottom) * bin) (w.left * bin) ((w.xdim - w.right) * bin)

/-- A value in the data store of a DIC map: an array with numpy's mask for it, or a boolean mask
(`hrdic.py:119-178`). -/
inductive DicVal (α : Type) where
  | arr (g : Grid α) (masked : Int → Int → Bool)
  | mask (g : Grid Bool)

/-- `crop` of a value; numpy slices the mask of a masked array along (`hrdic.py:359-378`). -/
def cropVal {α : Type} (w : DicW) (b : Int) : DicVal α → DicVal α
  | .arr g m => .arr (cropGrid w b g)
      (fun y x => m (y + sliceBound g.rows (w.top * b)) (x + sliceBound g.cols (w.left * b)))
  | .mask g => .mask (cropGrid w b g)

/-- The `binning` argument (`hrdic.py:370`). Simplification: an integer or `None`. -/
def binningOf : MVal → Option Int
  | .int b => some b
  | .none => some 1
  | _ => none

/-- `crop` as the store's crop function (`hrdic.py:359-378`); `None` cannot be sliced. -/
def cropProg {α : Type} (v : Option (DicVal α)) (bin : MVal) : Prog (DicVal α) DicW :=
  .world fun w =>
    match binningOf bin, v with
    | some b, some x => .ret (some (cropVal w b x))
    | _, _ => .fail .typeError

/-- numpy broadcasting of an axis of length `m` to length `n` (`hrdic.py:503-510`). -/
def broadcasts (m n : Nat) : Bool := decide (m = n ∨ m = 1)

/-- Setting numpy's mask (`hrdic.py:509-510`): `np.broadcast_to` of the mask to the array,
which must work for both axes. -/
def applyMask {α : Type} (m : Grid Bool) (g : Grid α) (old : Int → Int → Bool) :
    Option (DicVal α) :=
  if broadcasts m.rows g.rows && broadcasts m.cols g.cols then
    some (.arr g fun y x => old y x ||
      m.px (if m.rows = 1 then 0 else y) (if m.cols = 1 then 0 else x))
  else none

/-- `mask` as the store's mask function (`hrdic.py:503-510`) of the map with store `s`:
reads the item `mask` and, if it is not `None`, reads it again to apply it. -/
def maskProg {α : Type} (s : Nat) (v : Option (DicVal α)) : Prog (DicVal α) DicW :=
  .read s "mask" fun r =>
    match r with
    | .error e => .fail e
    | .ok none => .ret v
    | .ok (some _) => .read s "mask" fun r2 =>
      match r2, v with
      | .ok (some (.mask m)), some (.arr g old) =>
        match applyMask m g old with
        | some x => .ret (some x)
        | none => .fail .valueError
      | .error e, _ => .fail e
      | _, _ => .fail .typeError

/-- One pixel-wise dilation with the default cross (`scipy.ndimage.binary_dilation`,
called at `hrdic.py:491`). -/
def dilate (g : Grid Bool) : Grid Bool :=
  let inside := fun y x : Int => decide (0 ≤ y ∧ y < g.rows ∧ 0 ≤ x ∧ x < g.cols) && g.px y x
  { g with px := fun y x => g.px y x || inside (y - 1) x || inside (y + 1) x || inside y (x - 1) ||
      inside y (x + 1) }

/-- `binary_dilation(mask, iterations=n)`: `n` times, or until nothing changes if `n < 1` (no more
than rows plus columns rounds change anything) (`hrdic.py:491`). -/
def dilateN (n : Int) (g : Grid Bool) : Grid Bool :=
  Nat.iterate dilate (if n < 1 then g.rows + g.cols else n.toNat) g

/-- `calc_mask` as a generator (`hrdic.py:447-501`) of the map with store `s`. The keyword
`mask` is the number of an array of the user. The printed message is not modelled. -/
def calcMaskProg {α : Type} (s : Nat) (kw : List (String × MVal)) : Prog (DicVal α) DicW :=
  match (dget kw "mask").getD .none with
  | .none => .set s "mask" none fun r =>
    match r with
    | .ok _ => .ret none
    | .error e => .fail e
  | .obj i => .world fun w =>
    let m := w.masks i
    if ((m.rows : Int), (m.cols : Int)) = w.shape then
      let m' := match (dget kw "dilation").getD (.int 0) with
        | .int d => if d = 0 then m else dilateN d m
        | _ => m
      .set s "mask" (some (.mask m')) fun r =>
        match r with
        | .ok _ => .ret (some (.mask m'))
        | .error e => .fail e
    else .fail .valueError
  | _ => .fail .valueError

/-- The callables of a DIC map with store `s`: generator 0 is `calc_mask`, the others and the
derivative functions are arbitrary (`hrdic.py:359-378, 503-510`). -/
def dicEnv {α : Type} (s : Nat) (gens : Nat → List (String × MVal) → Prog (DicVal α) DicW)
    (fns : Nat → String ⊕ Option (DicVal α) → Prog (DicVal α) DicW) :
    Env (DicVal α) DicW where
  gen := fun g kw => if g = 0 then calcMaskProg s kw else gens g kw
  fn := fns
  crop := fun _ v b => cropProg v b
  mask := fun _ v => maskProg s v
  iter := fun _ => none

end DefDAP
