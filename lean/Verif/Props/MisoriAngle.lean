import Verif.Props.MisoriGrains

/-!
C40: the misorientation as an angle between crystals.
-/

namespace DefDAP

open Quat Spec Matrix

/-- **C40** The misorientation is the cosine of half the smallest angle between the two crystals: the
angle it stands for is at most a number of degrees exactly when some rotation of the crystal into
itself brings the second orientation within that many degrees of the first. -/
theorem C40_angle (g : SymGroup) (p r : Quat ℝ) (hp : p.IsUnit) (hr : r.IsUnit) (deg : ℝ) :
    2 * Real.arccos (misOri (symEqv g) p r) ≤ deg * (Real.pi / 180) ↔
      Close g deg (rotMatrix p) (rotMatrix r) := by
  have hl := symEqv_table g
  rw [← neighbourAngle_le g hp hr deg]
  have : misOri (symEqv g) p r = largestOverlap (symEqv g) p r := by
    obtain ⟨⟨s, hs, he⟩, hle⟩ := largestOverlap_spec hl hp hr
    obtain ⟨u, hu, hf⟩ := misOri_found hl p r hp hr
    have hv : misOri (symEqv g) p r = |dot p (mulRaw u r)| := by rw [misOri, hf, abs_dot_mul]
    refine le_antisymm ?_ ?_
    · rw [hv]; exact hle u hu
    · rw [he]; exact misOri_ge _ _ _ _ hs
  rw [this]
  rfl

/-- The angle of the grain boundary finder is that of the misorientation of single orientations. -/
theorem C40_same_as_boundaries (g : SymGroup) (p r : Quat ℝ) (hp : p.IsUnit) (hr : r.IsUnit) :
    neighbourAngle (symEqv g) p r = 2 * Real.arccos (misOri (symEqv g) p r) := by
  have hpi := Real.pi_pos
  have e : ∀ x : ℝ, x * (180 / Real.pi) * (Real.pi / 180) = x := by
    intro x; field_simp
  refine le_antisymm ?_ ?_
  · have h := (C40_angle g p r hp hr (2 * Real.arccos (misOri (symEqv g) p r) * (180 / Real.pi))).mp
      (by rw [e])
    rw [← neighbourAngle_le g hp hr, e] at h
    exact h
  · have h := (neighbourAngle_le g hp hr (neighbourAngle (symEqv g) p r * (180 / Real.pi))).mp
      (by rw [e])
    rw [← C40_angle g p r hp hr, e] at h
    exact h

/-- A quarter turn of a hexagonal crystal is at least 30 degrees, of a cubic one nothing. -/
example : 2 * Real.arccos (misOri (symEqv .cubic) quarterTurn ⟨1, 0, 0, 0⟩) ≤ 0 ∧
    ¬ 2 * Real.arccos (misOri (symEqv .hexagonal) quarterTurn ⟨1, 0, 0, 0⟩) ≤
      29 * (Real.pi / 180) := by
  constructor
  · have := (C40_angle .cubic _ _ quarterTurn_unit one_unit 0).mpr quarterTurn_cube
    simpa using this
  · rw [C40_angle .hexagonal _ _ quarterTurn_unit one_unit 29]
    exact quarterTurn_prism (by norm_num)

end DefDAP
