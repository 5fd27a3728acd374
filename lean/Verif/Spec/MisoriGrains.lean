import Mathlib.Logic.Relation
import Verif.Model.Quat
import Verif.Spec.CrystalRotations
import Verif.Spec.Regions

/-!
Grains by misorientation, in terms of rotation matrices.
-/

namespace DefDAP.Spec

open Matrix

/-- A rotation of the crystal into itself. -/
def CrystalRotation : SymGroup → Matrix (Fin 3) (Fin 3) ℝ → Prop
  | .cubic => CubeRotation
  | .hexagonal => PrismRotation

/-- The orientations `P` and `Q` of two crystals are at most `tol` degrees apart: turned by a rotation
that takes the crystal to itself, `Q` becomes an orientation from which a rotation by at most `tol`
degrees leads to `P`. -/
def Close (g : SymGroup) (tol : ℝ) (P Q : Matrix (Fin 3) (Fin 3) ℝ) : Prop :=
  ∃ S, CrystalRotation g S ∧ rotationAngle (P * (S * Q)ᵀ) ≤ tol * (Real.pi / 180)

/-- Two pixels side by side, or one above the other, of one phase and close orientations. `R` gives the
orientations of the pixels. -/
def GrainStep (h w : Nat) (g : SymGroup) (R : Px → Matrix (Fin 3) (Fin 3) ℝ) (phase : Img Int)
    (tol : ℝ) (p q : Px) : Prop :=
  InMap h w p ∧ InMap h w q ∧
    ((q.2 = p.2 ∧ (q.1 = p.1 + 1 ∨ p.1 = q.1 + 1)) ∨ (q.1 = p.1 ∧ (q.2 = p.2 + 1 ∨ p.2 = q.2 + 1))) ∧
    phase p.2 p.1 = phase q.2 q.1 ∧ Close g tol (R p) (R q)

/-- Connected by such steps. -/
def SameRegion (h w : Nat) (g : SymGroup) (R : Px → Matrix (Fin 3) (Fin 3) ℝ) (phase : Img Int)
    (tol : ℝ) : Px → Px → Prop :=
  Relation.ReflTransGen (GrainStep h w g R phase tol)

open Classical in
/-- The number of pixels of the region of a pixel. -/
noncomputable def regionCount (h w : Nat) (g : SymGroup) (R : Px → Matrix (Fin 3) (Fin 3) ℝ)
    (phase : Img Int) (tol : ℝ) (p : Px) : Nat :=
  ((mapPixels h w).filter fun q => SameRegion h w g R phase tol p q).card

/-- A boundary to the right of the pixel, or below it (`below`): the neighbour is in the map, and it
has another phase or its orientation is not close. -/
def BoundaryAt (h w : Nat) (g : SymGroup) (R : Px → Matrix (Fin 3) (Fin 3) ℝ) (phase : Img Int)
    (tol : ℝ) (below : Bool) (p : Px) : Prop :=
  let q : Px := if below then (p.1, p.2 + 1) else (p.1 + 1, p.2)
  InMap h w p ∧ InMap h w q ∧ ¬ (phase p.2 p.1 = phase q.2 q.1 ∧ Close g tol (R p) (R q))

end DefDAP.Spec
