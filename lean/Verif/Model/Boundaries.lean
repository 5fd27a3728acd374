import Verif.Model.Basic

/-! Model of boundary detection and boundary sets: `defdap/ebsd.py:664-750` and
`defdap/ebsd.py:1573-1660`, `defdap/hrdic.py:877-905`. -/

namespace DefDAP

/-- `misori_x` after `2 * np.arccos(np.max(...))`, `ebsd.py:711-733`: the array starts
as ones, whose angle is 0, and all columns but the last are overwritten with the
misorientation angle to the right neighbour. `ang p q` stands for that angle between
the orientations of the pixels `p` and `q` (see `Verif.Model.Quat` for the formula). -/
def misoriX {α : Type} [Zero α] (w : Nat) (ang : Px → Px → α) : Img α :=
  fun y x => if x < (w : Int) - 1 then ang (x, y) (x + 1, y) else 0

/-- `misori_y`, same lines; all rows but the last are overwritten (`ebsd.py:711-733`). -/
def misoriY {α : Type} [Zero α] (h : Nat) (ang : Px → Px → α) : Img α :=
  fun y x => if y < (h : Int) - 1 then ang (x, y) (x, y + 1) else 0

/-- `pb_im_x`, `ebsd.py:737-738`: `phase != np.roll(phase, -1, axis=1)`, last column set
to False. `np.roll` by -1 reads column `x + 1` modulo the width. -/
def phaseBoundaryX (w : Nat) (phase : Img Int) : Img Bool :=
  fun y x => if x = (w : Int) - 1 then false
    else decide (phase y x ≠ phase y ((x + 1) % (w : Int)))

/-- `pb_im_y`, `ebsd.py:739-740`. -/
def phaseBoundaryY (h : Nat) (phase : Img Int) : Img Bool :=
  fun y x => if y = (h : Int) - 1 then false
    else decide (phase y x ≠ phase ((y + 1) % (h : Int)) x)

/-- The first image passed to `BoundarySet.from_image` for the grain boundaries,
`ebsd.py:745`: `(misori_x > misori_tol) | pb_im_x`. -/
def grainBoundaryX {α : Type} [Zero α] [LT α] [DecidableLT α] (w : Nat)
    (ang : Px → Px → α) (phase : Img Int) (tol : α) : Img Bool :=
  fun y x => decide (tol < misoriX w ang y x) || phaseBoundaryX w phase y x

/-- The second image, `ebsd.py:746`. -/
def grainBoundaryY {α : Type} [Zero α] [LT α] [DecidableLT α] (h : Nat)
    (ang : Px → Px → α) (phase : Img Int) (tol : α) : Img Bool :=
  fun y x => decide (tol < misoriY h ang y x) || phaseBoundaryY h phase y x

/-- `zip(*image.transpose().nonzero())` (`ebsd.py:1587-1588`): the true pixels as `(x, y)`,
listed column by column. The code turns this into a `set`; a list without
duplicates stands for it. -/
def nonzeroT (h w : Nat) (im : Img Bool) : List Px :=
  (List.range w).flatMap fun (x : Nat) =>
    ((List.range h).filter fun (y : Nat) => im y x).map fun (y : Nat) => ((x : Int), (y : Int))

/-- `BoundarySet` (`ebsd.py:1573-1581`): the points of the two kinds of boundary. -/
structure BoundarySet where
  pointsX : List Px
  pointsY : List Px

/-- `BoundarySet.from_image`, `ebsd.py:1583-1589`. -/
def BoundarySet.fromImage (h w : Nat) (imX imY : Img Bool) : BoundarySet :=
  { pointsX := nonzeroT h w imX, pointsY := nonzeroT h w imY }

/-- `BoundarySet._image`, `ebsd.py:1605-1608` (and `hrdic.py:889-892`):
`image = zeros(shape); image[tuple(zip(*points))[::-1]] = True`.
With no points the index tuple is `()` and numpy's `image[()] = True` sets every
element. Otherwise the listed pixels are set; an index outside the image is an
`IndexError` (negative indices, which numpy would wrap, are treated as errors too: they
never occur in sets made by `from_image`). -/
def boundaryImage (h w : Nat) (points : List Px) : Except Err (Img Bool) :=
  match points with
  | [] => .ok fun _ _ => true
  | _ :: _ =>
    if points.all (fun p => inB h w p.1 p.2) then
      .ok fun y x => decide ((x, y) ∈ points)
    else .error .indexError

/-- `BoundarySet.image_x`, `ebsd.py:1610-1612`. -/
def BoundarySet.imageX (h w : Nat) (b : BoundarySet) : Except Err (Img Bool) :=
  boundaryImage h w b.pointsX

/-- `BoundarySet.image_y`, `ebsd.py:1614-1616`. -/
def BoundarySet.imageY (h w : Nat) (b : BoundarySet) : Except Err (Img Bool) :=
  boundaryImage h w b.pointsY

/-- `find_boundaries`, `ebsd.py:664-750`, from the misorientation angles on: the phase
boundaries and the grain boundaries. -/
def findBoundaries {α : Type} [Zero α] [LT α] [DecidableLT α] (h w : Nat)
    (ang : Px → Px → α) (phase : Img Int) (tol : α) : BoundarySet × BoundarySet :=
  (BoundarySet.fromImage h w (phaseBoundaryX w phase) (phaseBoundaryY h phase),
   BoundarySet.fromImage h w (grainBoundaryX w ang phase tol)
    (grainBoundaryY h ang phase tol))

/-- A boundary line: its two end points (`ebsd.py:1649-1652`). -/
abbrev Line := (Rat × Rat) × (Rat × Rat)

/-- The offsets `deltas['x']`/`deltas['y']` added to a point, `ebsd.py:1641-1652`. -/
def lineOf (isX : Bool) (p : Px) : Line :=
  if isX then (((p.1 : Rat) + 1/2, (p.2 : Rat) + -1/2), ((p.1 : Rat) + 1/2, (p.2 : Rat) + 1/2))
  else (((p.1 : Rat) + -1/2, (p.2 : Rat) + 1/2), ((p.1 : Rat) + 1/2, (p.2 : Rat) + 1/2))

/-- What `boundary_points_to_lines` returns: one list, or the triple of x lines, y lines and their
concatenation (`ebsd.py:1655-1659`). -/
inductive Lines where
  | one (l : List Line)
  | three (x y all : List Line)

/-- `boundary_points_to_lines`, `ebsd.py:1630-1659`. -/
def boundaryPointsToLines (px py : Option (List Px)) : Except Err Lines :=
  match px, py with
  | none, none => .error .valueError
  | some a, none => .ok (.one (a.map (lineOf true)))
  | none, some b => .ok (.one (b.map (lineOf false)))
  | some a, some b =>
    .ok (.three (a.map (lineOf true)) (b.map (lineOf false))
      (a.map (lineOf true) ++ b.map (lineOf false)))

end DefDAP
