import Verif.Model.Num
import Mathlib.Data.Real.Sqrt
import Mathlib.LinearAlgebra.Matrix.Notation
import Mathlib.Data.Matrix.Mul

/-!
Model of the deformation gradient, Green strain and maximum shear of `defdap/hrdic.py`. Maps are
functions of row and column; values outside the map mean nothing.
-/

namespace DefDAP

open Matrix

/-- `np.gradient` along one axis of length `n` with spacing `h` (`hrdic.py:127`): central
differences inside, one-sided differences at the ends. -/
noncomputable def gradient1 (n : Nat) (h : ℝ) (f : Int → ℝ) (i : Int) : ℝ :=
  if i = 0 then (f 1 - f 0) / h
  else if i = n - 1 then (f (n - 1) - f (n - 2)) / h
  else (f (i + 1) - f (i - 1)) / (2 * h)

/-- `np.gradient(displacement, binning, axis=(1, 2))` (`hrdic.py:127`): the derivatives along rows
(axis 1) and along columns (axis 2) of each component; fewer than two points along an axis are a
`ValueError`. The first index of the result is the axis. -/
noncomputable def gradientMaps (rows cols : Nat) (h : ℝ) (u : Fin 2 → Int → Int → ℝ) :
    Except Err (Fin 2 → Fin 2 → Int → Int → ℝ) :=
  if rows < 2 ∨ cols < 2 then .error .valueError
  else .ok fun axis comp i j =>
    if axis = 0 then gradient1 rows h (fun r => u comp r j) i
    else gradient1 cols h (fun c => u comp i c) j

/-- `np.array(f).transpose((1, 0, 2, 3))[:, ::-1]` and the identity added
(`hrdic.py:128-130`). -/
noncomputable def deformationGradient (rows cols : Nat) (h : ℝ) (u : Fin 2 → Int → Int → ℝ) :
    Except Err (Fin 2 → Fin 2 → Int → Int → ℝ) :=
  (gradientMaps rows cols h u).bind fun g =>
  .ok fun comp axis i j =>
    let f := g (1 - axis) comp i j
    if comp = axis then f + 1 else f

/-- Green strain at one pixel (`hrdic.py:140-142`). -/
noncomputable def greenStrain (f : Matrix (Fin 2) (Fin 2) ℝ) : Matrix (Fin 2) (Fin 2) ℝ :=
  fun i j =>
    let e := 1 / 2 * ∑ k, f k i * f k j
    if i = j then e - 1 / 2 else e

/-- The maximum shear at one pixel (`hrdic.py:152`). -/
noncomputable def maxShear (e : Matrix (Fin 2) (Fin 2) ℝ) : ℝ :=
  Real.sqrt (((e 0 0 - e 1 1) / 2) ^ 2 + e 0 1 ^ 2)

end DefDAP
