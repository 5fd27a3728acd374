import Mathlib.Analysis.SpecialFunctions.Trigonometric.Inverse
import Verif.Model.Quat
import Verif.Model.FindGrains

/-!
Boundaries and grains from the orientations: `Map.find_boundaries` (`ebsd.py:664-750`) with the angles
between neighbouring pixels, and `Map.find_grains` (`ebsd.py:854-944`) with those boundaries.
-/

namespace DefDAP

open Quat

/-- One symmetric equivalent of one orientation (`ebsd.py:691-709`): the product written out, and the
swap into the positive hemisphere. -/
noncomputable def boundaryVariant (sym q : Quat ℝ) : Quat ℝ :=
  let r : Quat ℝ :=
    ⟨q.q0 * sym.q0 - q.q1 * sym.q1 - q.q2 * sym.q2 - q.q3 * sym.q3,
     q.q0 * sym.q1 + q.q1 * sym.q0 - q.q2 * sym.q3 + q.q3 * sym.q2,
     q.q0 * sym.q2 + q.q2 * sym.q0 - q.q3 * sym.q1 + q.q1 * sym.q3,
     q.q0 * sym.q3 + q.q3 * sym.q0 - q.q1 * sym.q2 + q.q2 * sym.q1⟩
  open Classical in if r.q0 < 0 then r.neg else r

/-- `quat_comps[:, :, i, j]` (`ebsd.py:682-709`): the orientation and its equivalents; the first
operator is taken to be the identity. -/
noncomputable def boundaryVariants (syms : List (Quat ℝ)) (q : Quat ℝ) : List (Quat ℝ) :=
  match syms with
  | [] => []
  | _ :: t => q :: t.map fun s => boundaryVariant s q

/-- `misori_x[misori_x > 1] = 1` (`ebsd.py:728-729`). -/
noncomputable def cutAtOne (c : ℝ) : ℝ := open Classical in if 1 < c then 1 else c

/-- `np.max` of the overlaps with the equivalents (`ebsd.py:717-726, 732-733`). Simplification: the
largest of no values, a `ValueError`, is 0; there is always a first operator. -/
noncomputable def largestOverlap (syms : List (Quat ℝ)) (p q : Quat ℝ) : ℝ :=
  match (boundaryVariants syms q).map fun v => cutAtOne |dot p v| with
  | [] => 0
  | c :: t => t.foldl max c

/-- The angle between two neighbours (`ebsd.py:732-733`). -/
noncomputable def neighbourAngle (syms : List (Quat ℝ)) (p q : Quat ℝ) : ℝ :=
  2 * Real.arccos (largestOverlap syms p q)

/-- `find_boundaries` (`ebsd.py:664-750`): `g` is the crystal type of the primary phase, whose
operators are used for the whole map; `tol` is in degrees. -/
noncomputable def boundariesOf (h w : Nat) (g : SymGroup) (ori : Img (Quat ℝ)) (phase : Img Int)
    (tol : ℝ) : BoundarySet × BoundarySet :=
  findBoundaries h w (fun p q => neighbourAngle (symEqv g) (ori p.2 p.1) (ori q.2 q.1)) phase
    (tol * (Real.pi / 180))

/-- `find_grains` with these boundaries (`ebsd.py:854-944`). -/
noncomputable def grainsOf (h w : Nat) (g : SymGroup) (ori : Img (Quat ℝ)) (phase : Img Int)
    (numPhases : Nat) (tol : ℝ) (minSize : Nat) : Except Err FGResult :=
  findGrainsOf h w phase numPhases (boundariesOf h w g ori phase tol).2 minSize

end DefDAP
