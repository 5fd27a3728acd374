import Verif.Model.Poles
import Mathlib.Tactic.Ring
import Mathlib.Tactic.Linarith
import Mathlib.Tactic.FieldSimp
import Mathlib.Tactic.LinearCombination

/-! C46: stereographic and Lambert projection. -/

namespace DefDAP

open Quat

/-- A direction. -/
def Spec.UnitDir (v : Fin 3 → ℝ) : Prop := v 0 ^ 2 + v 1 ^ 2 + v 2 ^ 2 = 1

theorem sin_azimuth {y x : ℝ} (h : x ^ 2 + y ^ 2 ≠ 0) :
    Real.sin (arctan2 y x) = y / Real.sqrt (x ^ 2 + y ^ 2) := by
  rw [arctan2, Complex.sin_arg, Complex.norm_def, Complex.normSq_apply]
  congr 2
  ring

theorem cos_azimuth {y x : ℝ} (h : x ^ 2 + y ^ 2 ≠ 0) :
    Real.cos (arctan2 y x) = x / Real.sqrt (x ^ 2 + y ^ 2) := by
  rw [arctan2, Complex.cos_arg, Complex.norm_def, Complex.normSq_apply]
  · congr 2
    ring
  · intro h0
    have h1 := congrArg Complex.re h0
    have h2 := congrArg Complex.im h0
    simp at h1 h2
    exact h (by rw [h1, h2]; ring)

theorem polar_unit {v : Fin 3 → ℝ} (hv : Spec.UnitDir v) :
    polarAngles (v 0) (v 1) (v 2) = (Real.arccos (v 2), arctan2 (v 1) (v 0)) := by
  unfold polarAngles
  simp only
  rw [show v 0 ^ 2 + v 1 ^ 2 + v 2 ^ 2 = 1 from hv, Real.sqrt_one, div_one, div_one, div_one]

theorem unitDir_bound {v : Fin 3 → ℝ} (hv : Spec.UnitDir v) : -1 ≤ v 2 ∧ v 2 ≤ 1 := by
  unfold Spec.UnitDir at hv
  constructor <;> nlinarith [sq_nonneg (v 0), sq_nonneg (v 1), sq_nonneg (v 2)]

/-- The azimuth of a direction off the axis, and the half angle. -/
theorem pole_parts {v : Fin 3 → ℝ} (hv : Spec.UnitDir v) (hz : -1 < v 2) (hr : v 0 ^ 2 + v 1 ^ 2 ≠ 0) :
    Real.tan (Real.arccos (v 2) / 2) = Real.sqrt (v 0 ^ 2 + v 1 ^ 2) / (1 + v 2) ∧
    Real.sqrt (2 * (1 - v 2)) = Real.sqrt (v 0 ^ 2 + v 1 ^ 2) * Real.sqrt (2 / (1 + v 2)) := by
  obtain ⟨b1, b2⟩ := unitDir_bound hv
  have hp : 0 < 1 + v 2 := by linarith
  have e : v 0 ^ 2 + v 1 ^ 2 = (1 - v 2) * (1 + v 2) := by unfold Spec.UnitDir at hv; linarith
  constructor
  · rw [Real.tan_eq_sin_div_cos]
    have h0 := Real.arccos_nonneg (v 2)
    have hpi := Real.arccos_le_pi (v 2)
    have hc : Real.cos (Real.arccos (v 2)) = v 2 := Real.cos_arccos b1 b2
    have hs : Real.sin (Real.arccos (v 2)) = Real.sqrt (v 0 ^ 2 + v 1 ^ 2) := by
      rw [Real.sin_arccos]
      congr 1
      unfold Spec.UnitDir at hv
      linarith
    set t := Real.arccos (v 2) / 2 with ht
    have h2 : Real.arccos (v 2) = 2 * t := by rw [ht]; ring
    rw [h2] at hc hs
    rw [Real.cos_two_mul] at hc
    rw [Real.sin_two_mul] at hs
    have hcpos : Real.cos t ≠ 0 := by
      intro h
      rw [h] at hc
      linarith
    rw [← hs]
    field_simp
    linear_combination (-Real.sin t) * hc
  · rw [e, ← Real.sqrt_mul (by nlinarith)]
    congr 1
    field_simp

theorem pole_rotate (r b : ℝ) :
    polePoint r b = (r * Real.sin b, -(r * Real.cos b)) := by
  unfold polePoint
  rw [Real.cos_sub_pi_div_two, Real.sin_sub_pi_div_two, mul_neg]

/-- **C46** The stereographic projection of a direction other than straight down, in Cartesian
coordinates: the line from the lower pole through the direction meets the plane of the equator at
`(x, y) / (1 + z)`, and the picture is turned by a quarter. -/
theorem C46_stereo (v : Fin 3 → ℝ) (hv : Spec.UnitDir v) (hz : -1 < v 2) :
    stereoProject [v 0, v 1, v 2] = .ok (v 1 / (1 + v 2), -(v 0 / (1 + v 2))) := by
  unfold stereoProject poleArgs
  simp only [Except.bind, polar_unit hv, pole_rotate]
  by_cases hr : v 0 ^ 2 + v 1 ^ 2 = 0
  · have h0 : v 0 = 0 := by nlinarith [sq_nonneg (v 0), sq_nonneg (v 1)]
    have h1 : v 1 = 0 := by nlinarith [sq_nonneg (v 0), sq_nonneg (v 1)]
    have h2 : v 2 = 1 := by
      unfold Spec.UnitDir at hv
      rw [h0, h1] at hv
      nlinarith
    rw [h0, h1, h2]
    simp
  · have hs : Real.sqrt (v 0 ^ 2 + v 1 ^ 2) ≠ 0 := by
      rw [Real.sqrt_ne_zero']
      exact lt_of_le_of_ne (by positivity) (Ne.symm hr)
    have hp : 1 + v 2 ≠ 0 := by linarith
    rw [(pole_parts hv hz hr).1, sin_azimuth hr, cos_azimuth hr]
    congr 2
    · field_simp
    · field_simp

/-- **C46** The Lambert projection of a direction other than straight down. -/
theorem C46_lambert (v : Fin 3 → ℝ) (hv : Spec.UnitDir v) (hz : -1 < v 2) :
    lambertProject [v 0, v 1, v 2] =
      .ok (Real.sqrt (2 / (1 + v 2)) * v 1, -(Real.sqrt (2 / (1 + v 2)) * v 0)) := by
  obtain ⟨b1, b2⟩ := unitDir_bound hv
  unfold lambertProject poleArgs
  simp only [Except.bind, polar_unit hv, pole_rotate, Real.cos_arccos b1 b2]
  by_cases hr : v 0 ^ 2 + v 1 ^ 2 = 0
  · have h0 : v 0 = 0 := by nlinarith [sq_nonneg (v 0), sq_nonneg (v 1)]
    have h1 : v 1 = 0 := by nlinarith [sq_nonneg (v 0), sq_nonneg (v 1)]
    have h2 : v 2 = 1 := by
      unfold Spec.UnitDir at hv
      rw [h0, h1] at hv
      nlinarith
    rw [h0, h1, h2]
    simp
  · have hs : Real.sqrt (v 0 ^ 2 + v 1 ^ 2) ≠ 0 := by
      rw [Real.sqrt_ne_zero']
      exact lt_of_le_of_ne (by positivity) (Ne.symm hr)
    rw [(pole_parts hv hz hr).2, sin_azimuth hr, cos_azimuth hr]
    congr 2
    · field_simp
    · field_simp

/-- **C46** The squared distance from the centre is 2(1 - cos alpha) in the Lambert projection, for
every direction: the disc inside has the area of the spherical cap inside. -/
theorem C46_lambert_radius (v : Fin 3 → ℝ) (hv : Spec.UnitDir v) :
    ∃ p : ℝ × ℝ, lambertProject [v 0, v 1, v 2] = .ok p ∧ p.1 ^ 2 + p.2 ^ 2 = 2 * (1 - v 2) := by
  obtain ⟨b1, b2⟩ := unitDir_bound hv
  refine ⟨_, rfl, ?_⟩
  simp only [polar_unit hv, pole_rotate, Real.cos_arccos b1 b2]
  have h := Real.sq_sqrt (show 0 ≤ 2 * (1 - v 2) by linarith)
  have h2 := Real.sin_sq_add_cos_sq (arctan2 (v 1) (v 0))
  linear_combination h + Real.sqrt (2 * (1 - v 2)) ^ 2 * h2

/-- **C46** Directions of the upper hemisphere are projected into the unit disc or the disc of radius
√2, and the boundary of the disc is the equator. -/
theorem C46_disc (v : Fin 3 → ℝ) (hv : Spec.UnitDir v) (hz : 0 ≤ v 2) :
    ∃ p q : ℝ × ℝ, stereoProject [v 0, v 1, v 2] = .ok p ∧ lambertProject [v 0, v 1, v 2] = .ok q ∧
      p.1 ^ 2 + p.2 ^ 2 ≤ 1 ∧ (p.1 ^ 2 + p.2 ^ 2 = 1 ↔ v 2 = 0) ∧
      q.1 ^ 2 + q.2 ^ 2 ≤ 2 ∧ (q.1 ^ 2 + q.2 ^ 2 = 2 ↔ v 2 = 0) := by
  obtain ⟨q, hq, e⟩ := C46_lambert_radius v hv
  obtain ⟨b1, b2⟩ := unitDir_bound hv
  have hp : 0 < 1 + v 2 := by linarith
  refine ⟨_, q, C46_stereo v hv (by linarith), hq, ?_⟩
  have e1 : (v 1 / (1 + v 2)) ^ 2 + (-(v 0 / (1 + v 2))) ^ 2 = (1 - v 2) / (1 + v 2) := by
    unfold Spec.UnitDir at hv
    field_simp
    linarith
  dsimp only
  rw [e1, e]
  refine ⟨?_, ?_, by linarith, ?_⟩
  · rw [div_le_one hp]; linarith
  · rw [div_eq_one_iff_eq hp.ne']
    constructor <;> intro h <;> linarith
  · constructor <;> intro h <;> linarith

/-- **C46** Both projections separate directions other than straight down. -/
theorem C46_injective (v w : Fin 3 → ℝ) (hv : Spec.UnitDir v) (hw : Spec.UnitDir w)
    (hvz : -1 < v 2) (hwz : -1 < w 2)
    (h : stereoProject [v 0, v 1, v 2] = stereoProject [w 0, w 1, w 2] ∨
      lambertProject [v 0, v 1, v 2] = lambertProject [w 0, w 1, w 2]) : v = w := by
  have hp : 0 < 1 + v 2 := by linarith
  have hq : 0 < 1 + w 2 := by linarith
  have fin : v 2 = w 2 → v 0 = w 0 → v 1 = w 1 → v = w := by
    intro a b c
    funext i
    fin_cases i
    · exact b
    · exact c
    · exact a
  rcases h with h | h
  · rw [C46_stereo v hv hvz, C46_stereo w hw hwz] at h
    simp only [Except.ok.injEq, Prod.mk.injEq, neg_inj] at h
    obtain ⟨h1, h0⟩ := h
    have r1 : (v 1 / (1 + v 2)) ^ 2 + (v 0 / (1 + v 2)) ^ 2 = (1 - v 2) / (1 + v 2) := by
      unfold Spec.UnitDir at hv; field_simp; linarith
    have r2 : (w 1 / (1 + w 2)) ^ 2 + (w 0 / (1 + w 2)) ^ 2 = (1 - w 2) / (1 + w 2) := by
      unfold Spec.UnitDir at hw; field_simp; linarith
    rw [h0, h1, r2] at r1
    have hz : v 2 = w 2 := by
      rw [div_eq_div_iff hq.ne' hp.ne'] at r1
      linarith
    rw [hz] at h0 h1
    exact fin hz ((div_left_inj' hq.ne').1 h0) ((div_left_inj' hq.ne').1 h1)
  · obtain ⟨p1, a1, e1⟩ := C46_lambert_radius v hv
    obtain ⟨p2, a2, e2⟩ := C46_lambert_radius w hw
    have hz : v 2 = w 2 := by
      rw [a1, a2] at h
      cases h
      linarith
    rw [C46_lambert v hv hvz, C46_lambert w hw hwz] at h
    simp only [Except.ok.injEq, Prod.mk.injEq, neg_inj, hz] at h
    have hs : Real.sqrt (2 / (1 + w 2)) ≠ 0 := by
      rw [Real.sqrt_ne_zero']
      positivity
    exact fin hz (mul_left_cancel₀ hs h.2) (mul_left_cancel₀ hs h.1)

/-- **C46** A direction need not have unit length: only its direction counts. -/
theorem C46_scale (v : Fin 3 → ℝ) (c : ℝ) (hc : 0 < c) :
    stereoProject [c * v 0, c * v 1, c * v 2] = stereoProject [v 0, v 1, v 2] ∧
    lambertProject [c * v 0, c * v 1, c * v 2] = lambertProject [v 0, v 1, v 2] := by
  have e : polarAngles (c * v 0) (c * v 1) (c * v 2) = polarAngles (v 0) (v 1) (v 2) := by
    unfold polarAngles
    have : Real.sqrt ((c * v 0) ^ 2 + (c * v 1) ^ 2 + (c * v 2) ^ 2) =
        c * Real.sqrt (v 0 ^ 2 + v 1 ^ 2 + v 2 ^ 2) := by
      rw [show (c * v 0) ^ 2 + (c * v 1) ^ 2 + (c * v 2) ^ 2 =
        c ^ 2 * (v 0 ^ 2 + v 1 ^ 2 + v 2 ^ 2) by ring, Real.sqrt_mul (sq_nonneg c),
        Real.sqrt_sq hc.le]
    simp only [this, mul_div_mul_left _ _ hc.ne']
  unfold stereoProject lambertProject poleArgs
  simp only [e, and_self]

/-- **C46** A direction and its polar angles have the same projection; other numbers of arguments are
an error. -/
theorem C46_arguments (v : Fin 3 → ℝ) (hv : Spec.UnitDir v) (args : List ℝ)
    (hn : args.length ≠ 2 ∧ args.length ≠ 3) :
    stereoProject [Real.arccos (v 2), arctan2 (v 1) (v 0)] = stereoProject [v 0, v 1, v 2] ∧
    lambertProject [Real.arccos (v 2), arctan2 (v 1) (v 0)] = lambertProject [v 0, v 1, v 2] ∧
    stereoProject args = .error .exception ∧ lambertProject args = .error .exception := by
  unfold stereoProject lambertProject poleArgs
  simp only [polar_unit hv, Except.bind, true_and]
  match args, hn with
  | [], _ => exact ⟨rfl, rfl⟩
  | [_], _ => exact ⟨rfl, rfl⟩
  | [_, _], h => exact absurd rfl h.1
  | [_, _, _], h => exact absurd rfl h.2
  | _ :: _ :: _ :: _ :: _, _ => exact ⟨rfl, rfl⟩

/-- A direction of the upper hemisphere that is neither the pole nor on the equator. -/
example : Spec.UnitDir ![2 / 3, 1 / 3, 2 / 3] ∧ (0 : ℝ) ≤ (![2 / 3, 1 / 3, 2 / 3] : Fin 3 → ℝ) 2 := by
  constructor
  · simp [Spec.UnitDir]; norm_num
  · norm_num [Matrix.cons_val_two]

end DefDAP
