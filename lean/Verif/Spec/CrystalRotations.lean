import Mathlib.Analysis.SpecialFunctions.Trigonometric.Inverse
import Mathlib.LinearAlgebra.Matrix.Determinant.Basic
import Mathlib.LinearAlgebra.Matrix.Trace

/-!
Rotations of crystals, without quaternions and without tables.
-/

namespace DefDAP.Spec

open Matrix

/-- A rotation of space. -/
def Rotation (M : Matrix (Fin 3) (Fin 3) ℝ) : Prop := M * Mᵀ = 1 ∧ M.det = 1

/-- A rotation that takes every axis of the cube to an axis of the cube, possibly reversed. -/
def CubeRotation (M : Matrix (Fin 3) (Fin 3) ℝ) : Prop :=
  Rotation M ∧ ∀ i, ∃ j, M *ᵥ Pi.single i 1 = Pi.single j 1 ∨ M *ᵥ Pi.single i 1 = -Pi.single j 1

/-- The six directions of the corners of the hexagon. -/
noncomputable def hexAxis (k : Fin 6) : Fin 3 → ℝ :=
  ![Real.cos (k * (Real.pi / 3)), Real.sin (k * (Real.pi / 3)), 0]

/-- A rotation that takes the hexagonal prism to itself: corners of the hexagon to corners, and the
axis of the prism to itself, possibly reversed. -/
def PrismRotation (M : Matrix (Fin 3) (Fin 3) ℝ) : Prop :=
  Rotation M ∧ (∀ k, ∃ l, M *ᵥ hexAxis k = hexAxis l) ∧
    (M *ᵥ ![0, 0, 1] = ![0, 0, 1] ∨ M *ᵥ ![0, 0, 1] = -![0, 0, 1])

/-- The angle of a rotation, from its trace. -/
noncomputable def rotationAngle (M : Matrix (Fin 3) (Fin 3) ℝ) : ℝ :=
  Real.arccos ((M.trace - 1) / 2)

end DefDAP.Spec
