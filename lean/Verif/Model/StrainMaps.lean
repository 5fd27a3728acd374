import Verif.Model.Deformation

/-!
The maps that the constructor of a DIC map calculates from the displacements
(`hrdic.py:126-160`).
-/

namespace DefDAP

/-- The stored `f`, `e` and `max_shear` (`hrdic.py:131-160`). -/
structure StrainMaps where
  f : Int → Int → Matrix (Fin 2) (Fin 2) ℝ
  e : Int → Int → Matrix (Fin 2) (Fin 2) ℝ
  maxShear : Int → Int → ℝ

/-- The calculations at one pixel put together (`hrdic.py:131-160`). -/
noncomputable def strainsOf (f : Fin 2 → Fin 2 → Int → Int → ℝ) : StrainMaps :=
  ⟨fun i j => fun c x => f c x i j, fun i j => greenStrain fun c x => f c x i j,
    fun i j => maxShear (greenStrain fun c x => f c x i j)⟩

/-- The constructor from the displacements on (`hrdic.py:126-160`). -/
noncomputable def strainMaps (rows cols : Nat) (binning : ℝ) (u : Fin 2 → Int → Int → ℝ) :
    Except Err StrainMaps :=
  (deformationGradient rows cols binning u).bind fun f => .ok (strainsOf f)

end DefDAP
