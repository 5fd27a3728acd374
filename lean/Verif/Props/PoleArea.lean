import Verif.Props.PoleDistance
import Mathlib.Analysis.SpecialFunctions.PolarCoord

/-! C175: areas in pole figures. -/

namespace DefDAP
open Quat Spec Matrix MeasureTheory

/-- The solid angle of a set of directions, given by their polar angles. -/
noncomputable def Spec.solidAngle (S : Set (ℝ × ℝ)) : ENNReal := ∫⁻ ab in S, ENNReal.ofReal (Real.sin ab.1)

/-- Sets of polar angles, every direction once, without the two poles. -/
def Spec.PolarSet (S : Set (ℝ × ℝ)) : Prop :=
  MeasurableSet S ∧ ∀ ab ∈ S, (0 < ab.1 ∧ ab.1 < Real.pi) ∧ -Real.pi < ab.2 ∧ ab.2 ≤ Real.pi

theorem polar_deriv {r : ℝ → ℝ} {d : ℝ} {ab : ℝ × ℝ} (h : HasDerivAt r d ab.1) :
    HasFDerivAt (fun x : ℝ × ℝ => (r x.1 * Real.sin x.2, -(r x.1 * Real.cos x.2)))
      ((Matrix.toLin (.finTwoProd ℝ) (.finTwoProd ℝ)
        !![d * Real.sin ab.2, r ab.1 * Real.cos ab.2;
          -(d * Real.cos ab.2), r ab.1 * Real.sin ab.2]).toContinuousLinearMap) ab := by
  rw [Matrix.toLin_finTwoProd_toContinuousLinearMap]
  have h1 : HasFDerivAt (fun x : ℝ × ℝ => r x.1) (d • ContinuousLinearMap.fst ℝ ℝ ℝ) ab :=
    h.comp_hasFDerivAt ab hasFDerivAt_fst
  have hs : HasFDerivAt (fun x : ℝ × ℝ => Real.sin x.2) (Real.cos ab.2 • ContinuousLinearMap.snd ℝ ℝ ℝ) ab :=
    (Real.hasDerivAt_sin ab.2).comp_hasFDerivAt ab hasFDerivAt_snd
  have hc : HasFDerivAt (fun x : ℝ × ℝ => Real.cos x.2) (-Real.sin ab.2 • ContinuousLinearMap.snd ℝ ℝ ℝ) ab :=
    (Real.hasDerivAt_cos ab.2).comp_hasFDerivAt ab hasFDerivAt_snd
  refine ((h1.mul hs).prodMk (h1.mul hc).neg).congr_fderiv ?_
  ext <;> simp <;> ring

theorem polar_area {r r' : ℝ → ℝ} {S : Set (ℝ × ℝ)} (hS : Spec.PolarSet S)
    (hd : ∀ a, 0 < a → a < Real.pi → HasDerivAt r (r' a) a)
    (hp : ∀ a, 0 < a → a < Real.pi → 0 < r a)
    (hi : ∀ a b, 0 < a → a < Real.pi → 0 < b → b < Real.pi → r a = r b → a = b) :
    volume ((fun x : ℝ × ℝ => (r x.1 * Real.sin x.2, -(r x.1 * Real.cos x.2))) '' S) =
      ∫⁻ ab in S, ENNReal.ofReal |r ab.1 * r' ab.1| := by
  rw [← lintegral_abs_det_fderiv_eq_addHaar_image volume hS.1
    (fun x hx => (polar_deriv (hd x.1 (hS.2 x hx).1.1 (hS.2 x hx).1.2)).hasFDerivWithinAt)]
  · refine lintegral_congr fun ab => ?_
    congr 2
    simp only [LinearMap.det_toContinuousLinearMap, LinearMap.det_toLin, Matrix.det_fin_two_of]
    linear_combination (r ab.1 * r' ab.1) * Real.sin_sq_add_cos_sq ab.2
  · intro x hx y hy h
    obtain ⟨⟨x0, x1⟩, x2, x3⟩ := hS.2 x hx
    obtain ⟨⟨y0, y1⟩, y2, y3⟩ := hS.2 y hy
    simp only [Prod.mk.injEq, neg_inj] at h
    obtain ⟨h1, h2⟩ := h
    have px := hp x.1 x0 x1
    have py := hp y.1 y0 y1
    have hsx := Real.sin_sq_add_cos_sq x.2
    have hsy := Real.sin_sq_add_cos_sq y.2
    have hr : r x.1 = r y.1 := by
      have : r x.1 ^ 2 = r y.1 ^ 2 := by
        calc r x.1 ^ 2 = (r x.1 * Real.sin x.2) ^ 2 + (r x.1 * Real.cos x.2) ^ 2 := by
              linear_combination (-(r x.1 ^ 2)) * hsx
          _ = (r y.1 * Real.sin y.2) ^ 2 + (r y.1 * Real.cos y.2) ^ 2 := by rw [h1, h2]
          _ = r y.1 ^ 2 := by linear_combination (r y.1 ^ 2) * hsy
      nlinarith
    have ha := hi _ _ x0 x1 y0 y1 hr
    rw [hr] at h1 h2
    have e1 := mul_left_cancel₀ py.ne' h1
    have e2 := mul_left_cancel₀ py.ne' h2
    have hc : Real.cos (x.2 - y.2) = 1 := by
      rw [Real.cos_sub, e1, e2]
      linarith
    rw [Real.cos_eq_one_iff_of_lt_of_lt (by linarith) (by linarith)] at hc
    exact Prod.ext ha (by linarith)

/-- **C175 (Lambert).** The Lambert projection keeps areas: every measurable set of directions takes the same
area in the picture as on the sphere. -/
theorem C175_lambert (S : Set (ℝ × ℝ)) (hS : Spec.PolarSet S) :
    volume {p : ℝ × ℝ | ∃ ab ∈ S, lambertProject [ab.1, ab.2] = .ok p} = Spec.solidAngle S := by
  have hpi := Real.pi_pos
  have hset : {p : ℝ × ℝ | ∃ ab ∈ S, lambertProject [ab.1, ab.2] = .ok p} =
      (fun x : ℝ × ℝ => (2 * Real.sin (x.1 / 2) * Real.sin x.2, -(2 * Real.sin (x.1 / 2) * Real.cos x.2))) '' S := by
    ext p
    refine exists_congr fun ab => and_congr_right fun h => ?_
    obtain ⟨⟨a0, a1⟩, -⟩ := hS.2 ab h
    have hc : Real.cos ab.1 = 2 * Real.cos (ab.1 / 2) ^ 2 - 1 := by
      rw [← Real.cos_two_mul, mul_div_cancel₀ _ two_ne_zero]
    have e : Real.sqrt (2 * (1 - Real.cos ab.1)) = 2 * Real.sin (ab.1 / 2) := by
      rw [hc, show 2 * (1 - (2 * Real.cos (ab.1 / 2) ^ 2 - 1)) = (2 * Real.sin (ab.1 / 2)) ^ 2 by
        linear_combination (-4) * Real.sin_sq_add_cos_sq (ab.1 / 2)]
      exact Real.sqrt_sq (by
        linarith [Real.sin_nonneg_of_nonneg_of_le_pi (x := ab.1 / 2) (by linarith) (by linarith)])
    unfold lambertProject poleArgs
    simp only [Except.bind, pole_rotate, e, Except.ok.injEq]
  rw [hset, polar_area (r := fun a => 2 * Real.sin (a / 2)) (r' := fun a => Real.cos (a / 2)) hS]
  · unfold Spec.solidAngle
    refine setLIntegral_congr_fun hS.1 fun ab h => ?_
    obtain ⟨⟨a0, a1⟩, -⟩ := hS.2 ab h
    have e : 2 * Real.sin (ab.1 / 2) * Real.cos (ab.1 / 2) = Real.sin ab.1 := by
      rw [← Real.sin_two_mul, mul_div_cancel₀ _ two_ne_zero]
    rw [e, abs_of_pos (Real.sin_pos_of_pos_of_lt_pi a0 a1)]
  · intro a _ _
    have := ((Real.hasDerivAt_sin (a / 2)).comp a ((hasDerivAt_id a).div_const 2)).const_mul 2
    refine this.congr_deriv ?_
    ring
  · intro a h0 h1
    have := Real.sin_pos_of_pos_of_lt_pi (x := a / 2) (by linarith) (by linarith)
    linarith
  · intro a b a0 a1 b0 b1 h
    have h' : Real.sin (a / 2) = Real.sin (b / 2) := by linarith
    have := Real.injOn_sin ⟨by linarith, by linarith⟩ ⟨by linarith, by linarith⟩ h'
    linarith

/-- **C175 (stereographic).** The stereographic projection does not keep areas: an area at the angle `α` to
the middle is made larger by the factor `1 / (1 + cos α) ^ 2`. -/
theorem C175_stereo (S : Set (ℝ × ℝ)) (hS : Spec.PolarSet S) :
    volume {p : ℝ × ℝ | ∃ ab ∈ S, stereoProject [ab.1, ab.2] = .ok p} =
      ∫⁻ ab in S, ENNReal.ofReal (Real.sin ab.1 / (1 + Real.cos ab.1) ^ 2) := by
  have hpi := Real.pi_pos
  have hset : {p : ℝ × ℝ | ∃ ab ∈ S, stereoProject [ab.1, ab.2] = .ok p} =
      (fun x : ℝ × ℝ => (Real.tan (x.1 / 2) * Real.sin x.2, -(Real.tan (x.1 / 2) * Real.cos x.2))) '' S := by
    ext p
    refine exists_congr fun ab => and_congr_right fun _ => ?_
    unfold stereoProject poleArgs
    simp only [Except.bind, pole_rotate, Except.ok.injEq]
  have hcp : ∀ a, 0 < a → a < Real.pi → 0 < Real.cos (a / 2) := fun a h0 h1 =>
    Real.cos_pos_of_mem_Ioo ⟨by linarith, by linarith⟩
  have htp : ∀ a, 0 < a → a < Real.pi → 0 < Real.tan (a / 2) := fun a h0 h1 =>
    Real.tan_pos_of_pos_of_lt_pi_div_two (by linarith) (by linarith)
  rw [hset, polar_area (r := fun a => Real.tan (a / 2)) (r' := fun a => 1 / (2 * Real.cos (a / 2) ^ 2)) hS]
  · refine setLIntegral_congr_fun hS.1 fun ab h => ?_
    obtain ⟨⟨a0, a1⟩, -⟩ := hS.2 ab h
    have c0 := hcp _ a0 a1
    have t0 := htp _ a0 a1
    rw [abs_of_pos (by positivity)]
    congr 1
    have hs : Real.sin ab.1 = 2 * Real.sin (ab.1 / 2) * Real.cos (ab.1 / 2) := by
      rw [← Real.sin_two_mul, mul_div_cancel₀ _ two_ne_zero]
    have hc : Real.cos ab.1 = 2 * Real.cos (ab.1 / 2) ^ 2 - 1 := by
      rw [← Real.cos_two_mul, mul_div_cancel₀ _ two_ne_zero]
    rw [hs, hc, Real.tan_eq_sin_div_cos, show 1 + (2 * Real.cos (ab.1 / 2) ^ 2 - 1) =
      2 * Real.cos (ab.1 / 2) ^ 2 by ring]
    field_simp
    try ring
  · intro a h0 h1
    have := (Real.hasDerivAt_tan (hcp a h0 h1).ne').comp a ((hasDerivAt_id a).div_const 2)
    refine this.congr_deriv ?_
    have := (hcp a h0 h1).ne'
    field_simp
  · exact htp
  · intro a b a0 a1 b0 b1 h
    have := Real.injOn_tan ⟨by linarith, by linarith⟩ ⟨by linarith, by linarith⟩ h
    linarith

/-- **C175 (stereographic, bounds).** In the upper hemisphere the area in the stereographic projection is
between a quarter of the area on the sphere and all of it. -/
theorem C175_bounds (S : Set (ℝ × ℝ)) (hS : Spec.PolarSet S) (hu : ∀ ab ∈ S, ab.1 ≤ Real.pi / 2) :
    volume {p : ℝ × ℝ | ∃ ab ∈ S, stereoProject [ab.1, ab.2] = .ok p} ≤ Spec.solidAngle S ∧
    Spec.solidAngle S ≤ 4 * volume {p : ℝ × ℝ | ∃ ab ∈ S, stereoProject [ab.1, ab.2] = .ok p} := by
  rw [C175_stereo S hS]
  unfold Spec.solidAngle
  have hpi := Real.pi_pos
  have key : ∀ ab ∈ S, 0 < Real.sin ab.1 ∧ 0 ≤ Real.cos ab.1 ∧ Real.cos ab.1 ≤ 1 := fun ab h =>
    ⟨Real.sin_pos_of_pos_of_lt_pi (hS.2 ab h).1.1 (hS.2 ab h).1.2,
      Real.cos_nonneg_of_neg_pi_div_two_le_of_le (by linarith [(hS.2 ab h).1.1]) (hu ab h),
      Real.cos_le_one _⟩
  constructor
  · refine setLIntegral_mono' hS.1 fun ab h => ENNReal.ofReal_le_ofReal ?_
    obtain ⟨k1, k2, k3⟩ := key ab h
    exact div_le_self k1.le (by nlinarith)
  · rw [← lintegral_const_mul' _ _ (by norm_num)]
    refine setLIntegral_mono' hS.1 fun ab h => ?_
    obtain ⟨k1, k2, k3⟩ := key ab h
    rw [show (4 : ENNReal) = ENNReal.ofReal 4 by norm_num, ← ENNReal.ofReal_mul (by norm_num)]
    refine ENNReal.ofReal_le_ofReal ?_
    rw [← mul_div_assoc, le_div_iff₀ (by positivity), mul_comm 4]
    exact mul_le_mul_of_nonneg_left (by nlinarith) k1.le

/-- **C175 (directions).** The same for the directions themselves in the upper hemisphere. -/
theorem C175_directions (S : Set (ℝ × ℝ)) (hS : Spec.PolarSet S) (hu : ∀ ab ∈ S, ab.1 ≤ Real.pi / 2) :
    volume {p : ℝ × ℝ | ∃ v ∈ Spec.poleDir '' S, lambertProject [v 0, v 1, v 2] = .ok p} =
      Spec.solidAngle S := by
  rw [← C175_lambert S hS]
  congr 1
  ext p
  constructor
  · rintro ⟨-, ⟨ab, h, rfl⟩, e⟩
    exact ⟨ab, h, by rw [(project_poleDir ab (hS.2 ab h).1.1.le (hu ab h)).2]; exact e⟩
  · rintro ⟨ab, h, e⟩
    exact ⟨_, ⟨ab, h, rfl⟩, by rw [← (project_poleDir ab (hS.2 ab h).1.1.le (hu ab h)).2]; exact e⟩

/-! ### Concrete cases -/

/-- The eighth of the sphere between three axes. -/
example : Spec.PolarSet (Set.Ioc 0 (Real.pi / 2) ×ˢ Set.Icc 0 (Real.pi / 2)) := by
  have hpi := Real.pi_pos
  refine ⟨measurableSet_Ioc.prod measurableSet_Icc, ?_⟩
  rintro ⟨a, b⟩ ⟨⟨h1, h2⟩, h3, h4⟩
  simp only at *
  exact ⟨⟨h1, by linarith⟩, by linarith, by linarith⟩

end DefDAP
