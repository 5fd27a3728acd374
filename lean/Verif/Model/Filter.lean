import Verif.Model.EbsdMap

/-!
The Kuwahara filter of orientations, `ebsd.Map.filter_data` (`ebsd.py:582-662`). A value that is nan
in the code is `none`.
-/

namespace DefDAP

open Quat

/-- First row and column of the eight quadrants, from the pixel (`ebsd.py:600-609`). -/
def quadrantStarts : List (Int × Int) :=
  [(-2, -2), (-2, -1), (-2, 0), (-1, 0), (0, 0), (0, -1), (0, -2), (-1, -2)]

/-- `quat_comps[:, r:r + 3, c:c + 3]`, row by row (`ebsd.py:601-608`). -/
def blockOris (ori : Img (Quat ℝ)) (r c : Int) : List (Quat ℝ) :=
  [ori r c, ori r (c + 1), ori r (c + 2),
   ori (r + 1) c, ori (r + 1) (c + 1), ori (r + 1) (c + 2),
   ori (r + 2) c, ori (r + 2) (c + 1), ori (r + 2) (c + 2)]

/-- `misori_tol` after the first lines (`ebsd.py:585-586`). -/
noncomputable def filterCos (tol : ℝ) : ℝ := Real.cos (tol * (Real.pi / 180) / 2)

/-- `quats[:, mis_oris_quad > misori_tol]` (`ebsd.py:643-646`, and for the angles
`ebsd.py:612-615`). -/
noncomputable def closeOris (c : ℝ) (ref : Quat ℝ) (l : List (Quat ℝ)) : List (Quat ℝ) :=
  open Classical in l.filter fun q => c < |dot q ref|

/-- `mis_oris_quad.mean()` (`ebsd.py:612-616`); the mean of an empty array is nan. -/
noncomputable def quadrantScore (c : ℝ) (ref : Quat ℝ) (l : List (Quat ℝ)) : Option ℝ :=
  let d := (closeOris c ref l).map fun q => |dot q ref|
  if d = [] then none else some (d.sum / d.length)

/-- `np.argmax` (`ebsd.py:618`): a nan counts as the largest. -/
noncomputable def argmaxNan (l : List (Option ℝ)) : Nat :=
  match l.findIdx? Option.isNone with
  | some k => k
  | none => argmax (l.map fun v => v.getD 0)

/-- `np.einsum("ij->i", quats)` (`ebsd.py:648`). -/
noncomputable def sumOris (l : List (Quat ℝ)) : Quat ℝ :=
  ⟨(l.map Quat.q0).sum, (l.map Quat.q1).sum, (l.map Quat.q2).sum, (l.map Quat.q3).sum⟩

/-- `min_mis_ori_quadrant[i, j]` (`ebsd.py:599-618`), as first row and column. -/
noncomputable def filterQuadrant (c : ℝ) (ori : Img (Quat ℝ)) (i j : Int) : Int × Int :=
  let k := argmaxNan (quadrantStarts.map fun s =>
    quadrantScore c (ori i j) (blockOris ori (i + s.1) (j + s.2)))
  quadrantStarts.getD k (0, 0)

/-- `quat_comps_new[:, i, j]` before dividing (`ebsd.py:623-651`): the two rows and columns at each
side of the map keep their orientation. -/
noncomputable def filterSum (rows cols : Nat) (c : ℝ) (ori : Img (Quat ℝ)) (i j : Int) : Quat ℝ :=
  if (2 ≤ i ∧ i < rows - 2) ∧ 2 ≤ j ∧ j < cols - 2 then
    let s := filterQuadrant c ori i j
    sumOris (closeOris c (ori i j) (blockOris ori (i + s.1) (j + s.2)))
  else ori i j

/-- `quat_array_new[i, j]` (`ebsd.py:653-658`): zero divided by zero is nan. -/
noncomputable def filterPixel (rows cols : Nat) (c : ℝ) (ori : Img (Quat ℝ)) (i j : Int) :
    Option (Quat ℝ) :=
  let s := filterSum rows cols c ori i j
  open Classical in if dot s s = 0 then none else some (make false (normalise s))

/-- `filter_data` (`ebsd.py:582-662`): how it ends and the orientations afterwards. What it returns, the
orientations taken for the last pixel, is left out; without such a pixel it is unbound. -/
noncomputable def filterData (rows cols : Nat) (tol : ℝ) (ori : Img (Quat ℝ)) :
    Except Err Unit × Img (Option (Quat ℝ)) :=
  (if 5 ≤ rows ∧ 5 ≤ cols then .ok () else .error .unboundLocalError,
   filterPixel rows cols (filterCos tol) ori)

end DefDAP
