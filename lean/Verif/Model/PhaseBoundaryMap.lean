import Verif.Model.Boundaries

/-!
The phase boundary map: `BoundarySet.points`, `BoundarySet.image` (`ebsd.py:1601-1620`) and
`Map.plot_phase_boundary_map` (`ebsd.py:798-828`).
-/

namespace DefDAP

/-- `BoundarySet.points` (`ebsd.py:1601-1603`): the union of the two sets. -/
def BoundarySet.points (b : BoundarySet) : List Px :=
  b.pointsX ++ b.pointsY.filter fun p => decide (p ∉ b.pointsX)

/-- `BoundarySet.image` (`ebsd.py:1618-1620`). -/
def BoundarySet.image (h w : Nat) (b : BoundarySet) : Except Err (Img Bool) :=
  boundaryImage h w b.points

/-- `BoundarySet.lines` (`ebsd.py:1622-1628`): the third of the results of
`boundary_points_to_lines`. -/
def BoundarySet.lines (b : BoundarySet) : Except Err (List Line) :=
  (boundaryPointsToLines (some b.pointsX) (some b.pointsY)).map fun
    | .three _ _ all => all
    | .one l => l

/-- A pixel of an image, false outside it: `binary_dilation` takes the outside as false
(`ebsd.py:822-823`). -/
def inImage (h w : Nat) (im : Img Bool) (y x : Int) : Bool := inB h w x y && im y x

/-- `mph.binary_dilation(image)` of skimage with its default footprint, a pixel and its four
neighbours (`ebsd.py:822-823`). -/
def crossDilate (h w : Nat) (im : Img Bool) : Img Bool := fun y x =>
  inImage h w im y x || inImage h w im y (x - 1) || inImage h w im y (x + 1) ||
    inImage h w im (y - 1) x || inImage h w im (y + 1) x

/-- The image drawn by `plot_phase_boundary_map` (`ebsd.py:821-825`); true stands for the value 1. -/
def phaseBoundaryMap (h w : Nat) (phaseBoundaries : BoundarySet) (dil : Bool) :
    Except Err (Img Bool) :=
  (phaseBoundaries.image h w).map fun im => if dil then crossDilate h w im else im

end DefDAP
