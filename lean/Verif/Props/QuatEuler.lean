import Verif.Props.Quat

/-! C37, C38: Euler angles, axis and angle. -/

namespace DefDAP

open Quat
open scoped Matrix

/-! ### C37 -/

/-- The coefficients before the choice of hemisphere (`quat.py:83-88`). -/
noncomputable def eulerRaw (a b c : ℝ) : Quat ℝ :=
  ⟨Real.cos (b / 2) * Real.cos ((a + c) / 2), -Real.sin (b / 2) * Real.cos ((a - c) / 2),
   -Real.sin (b / 2) * Real.sin ((a - c) / 2), -Real.cos (b / 2) * Real.sin ((a + c) / 2)⟩

theorem fromEuler_eq (a b c : ℝ) : fromEuler a b c = make false (eulerRaw a b c) := rfl

theorem eulerRaw_unit (a b c : ℝ) : (eulerRaw a b c).IsUnit := by
  have h1 := Real.sin_sq_add_cos_sq (b / 2)
  have h2 := Real.sin_sq_add_cos_sq ((a + c) / 2)
  have h3 := Real.sin_sq_add_cos_sq ((a - c) / 2)
  simp only [Quat.IsUnit, eulerRaw]
  linear_combination h1 + Real.cos (b / 2) ^ 2 * h2 + Real.sin (b / 2) ^ 2 * h3

/-- **C37 (orientations from Euler angles).** They are unit and northern. -/
theorem C37_unit (a b c : ℝ) : (fromEuler a b c).IsUnit ∧ (fromEuler a b c).North :=
  ⟨isUnit_make.2 (eulerRaw_unit a b c), north_make _⟩

/-- All products of two coefficients of the orientation in terms of the angles. -/
theorem eulerRaw_products (a b c : ℝ) :
    let r := eulerRaw a b c
    r.q0 * r.q0 = (1 + Real.cos b) * (1 + (Real.cos a * Real.cos c - Real.sin a * Real.sin c)) / 4 ∧
    r.q3 * r.q3 = (1 + Real.cos b) * (1 - (Real.cos a * Real.cos c - Real.sin a * Real.sin c)) / 4 ∧
    r.q0 * r.q3 = -((1 + Real.cos b) * (Real.sin a * Real.cos c + Real.cos a * Real.sin c)) / 4 ∧
    r.q1 * r.q1 = (1 - Real.cos b) * (1 + (Real.cos a * Real.cos c + Real.sin a * Real.sin c)) / 4 ∧
    r.q2 * r.q2 = (1 - Real.cos b) * (1 - (Real.cos a * Real.cos c + Real.sin a * Real.sin c)) / 4 ∧
    r.q1 * r.q2 = (1 - Real.cos b) * (Real.sin a * Real.cos c - Real.cos a * Real.sin c) / 4 ∧
    r.q0 * r.q1 = -(Real.sin b * (Real.cos a + Real.cos c)) / 4 ∧
    r.q0 * r.q2 = -(Real.sin b * (Real.sin a - Real.sin c)) / 4 ∧
    r.q1 * r.q3 = Real.sin b * (Real.sin a + Real.sin c) / 4 ∧
    r.q2 * r.q3 = Real.sin b * (Real.cos c - Real.cos a) / 4 := by
  obtain ⟨A, rfl⟩ : ∃ A, a = 2 * A := ⟨a / 2, by ring⟩
  obtain ⟨B, rfl⟩ : ∃ B, b = 2 * B := ⟨b / 2, by ring⟩
  obtain ⟨C, rfl⟩ : ∃ C, c = 2 * C := ⟨c / 2, by ring⟩
  have hA := Real.sin_sq A
  have hB := Real.sin_sq B
  have hC := Real.sin_sq C
  simp only [eulerRaw]
  rw [show 2 * B / 2 = B by ring, show (2 * A + 2 * C) / 2 = A + C by ring,
    show (2 * A - 2 * C) / 2 = A - C by ring, Real.cos_add, Real.sin_add, Real.cos_sub,
    Real.sin_sub, Real.cos_two_mul, Real.cos_two_mul, Real.cos_two_mul, Real.sin_two_mul,
    Real.sin_two_mul, Real.sin_two_mul]
  refine ⟨?_, ?_, ?_, ?_, ?_, ?_, ?_, ?_, ?_, ?_⟩ <;> ring_nf <;> simp only [hA, hB, hC] <;> ring

/-- Two vectors with the same products of coefficients agree up to sign. -/
theorem quat_of_products (r q : Quat ℝ) (hq : q.IsUnit)
    (h00 : r.q0 * r.q0 = q.q0 * q.q0) (h33 : r.q3 * r.q3 = q.q3 * q.q3)
    (h03 : r.q0 * r.q3 = q.q0 * q.q3) (h11 : r.q1 * r.q1 = q.q1 * q.q1)
    (h22 : r.q2 * r.q2 = q.q2 * q.q2) (h12 : r.q1 * r.q2 = q.q1 * q.q2)
    (h01 : r.q0 * r.q1 = q.q0 * q.q1) (h02 : r.q0 * r.q2 = q.q0 * q.q2)
    (h13 : r.q1 * r.q3 = q.q1 * q.q3) (h23 : r.q2 * r.q3 = q.q2 * q.q3) :
    r = q ∨ r = q.neg := by
  have hu : q.q0 ^ 2 + q.q1 ^ 2 + q.q2 ^ 2 + q.q3 ^ 2 = 1 := hq
  have key : ∀ x : ℝ, (x = 1 ∨ x = -1) →
      (r.q0 = x * q.q0) → (r.q1 = x * q.q1) → (r.q2 = x * q.q2) → (r.q3 = x * q.q3) →
      r = q ∨ r = q.neg := by
    intro x hx e0 e1 e2 e3
    rcases hx with rfl | rfl
    · left; ext <;> linarith
    · right; ext <;> simp only [neg] <;> linarith
  have hdot : dot r q * dot r q = 1 := by
    simp only [dot]
    have : (r.q0 * q.q0 + r.q1 * q.q1 + r.q2 * q.q2 + r.q3 * q.q3) *
        (r.q0 * q.q0 + r.q1 * q.q1 + r.q2 * q.q2 + r.q3 * q.q3) =
        (q.q0 ^ 2 + q.q1 ^ 2 + q.q2 ^ 2 + q.q3 ^ 2) ^ 2 := by
      linear_combination q.q0 ^ 2 * h00 + q.q1 ^ 2 * h11 + q.q2 ^ 2 * h22 + q.q3 ^ 2 * h33 +
        2 * q.q0 * q.q1 * h01 + 2 * q.q0 * q.q2 * h02 + 2 * q.q0 * q.q3 * h03 +
        2 * q.q1 * q.q2 * h12 + 2 * q.q1 * q.q3 * h13 + 2 * q.q2 * q.q3 * h23
    rw [this, hu]; norm_num
  have hx : dot r q = 1 ∨ dot r q = -1 := mul_self_eq_one_iff.1 hdot
  have g0 : dot r q * r.q0 = q.q0 := by
    simp only [dot]
    linear_combination q.q0 * hu + q.q0 * h00 + q.q1 * h01 + q.q2 * h02 + q.q3 * h03
  have g1 : dot r q * r.q1 = q.q1 := by
    simp only [dot]
    linear_combination q.q1 * hu + q.q0 * h01 + q.q1 * h11 + q.q2 * h12 + q.q3 * h13
  have g2 : dot r q * r.q2 = q.q2 := by
    simp only [dot]
    linear_combination q.q2 * hu + q.q0 * h02 + q.q1 * h12 + q.q2 * h22 + q.q3 * h23
  have g3 : dot r q * r.q3 = q.q3 := by
    simp only [dot]
    linear_combination q.q3 * hu + q.q0 * h03 + q.q1 * h13 + q.q2 * h23 + q.q3 * h33
  refine key (dot r q) hx ?_ ?_ ?_ ?_
  · linear_combination (-r.q0) * hdot + dot r q * g0
  · linear_combination (-r.q1) * hdot + dot r q * g1
  · linear_combination (-r.q2) * hdot + dot r q * g2
  · linear_combination (-r.q3) * hdot + dot r q * g3

theorem cos_wrap (a : ℝ) : Real.cos (wrap a) = Real.cos a := by
  unfold wrap; split <;> simp [Real.cos_add_two_pi]

theorem sin_wrap (a : ℝ) : Real.sin (wrap a) = Real.sin a := by
  unfold wrap; split <;> simp [Real.sin_add_two_pi]

theorem cos_arctan2 {y x : ℝ} (h : x ^ 2 + y ^ 2 = 1) : Real.cos (arctan2 y x) = x := by
  have hn : ‖(⟨x, y⟩ : ℂ)‖ = 1 := by
    rw [Complex.norm_def, Complex.normSq_mk, Real.sqrt_eq_one]; nlinarith
  have h0 : (⟨x, y⟩ : ℂ) ≠ 0 := by rw [← norm_ne_zero_iff, hn]; norm_num
  rw [arctan2, Complex.cos_arg h0, hn]; simp

theorem sin_arctan2 {y x : ℝ} (h : x ^ 2 + y ^ 2 = 1) : Real.sin (arctan2 y x) = y := by
  have hn : ‖(⟨x, y⟩ : ℂ)‖ = 1 := by
    rw [Complex.norm_def, Complex.normSq_mk, Real.sqrt_eq_one]; nlinarith
  rw [arctan2, Complex.sin_arg, hn]; simp

theorem wrap_range {a : ℝ} (h1 : -Real.pi < a) (h2 : a ≤ Real.pi) :
    0 ≤ wrap a ∧ wrap a < 2 * Real.pi := by
  have := Real.pi_pos
  unfold wrap; split <;> constructor <;> linarith

theorem wrap_arctan2_range (y x : ℝ) :
    0 ≤ wrap (arctan2 y x) ∧ wrap (arctan2 y x) < 2 * Real.pi :=
  wrap_range (Complex.neg_pi_lt_arg _) (Complex.arg_le_pi _)

theorem wrap_zero : wrap 0 = 0 := by unfold wrap; simp

/-- If the cosines and sines of three angles reproduce the products of coefficients, then the
angles describe the orientation. -/
theorem eulerRaw_of_trig (q : Quat ℝ) (hq : q.IsUnit) (a b c ca sa cb sb cc sc : ℝ)
    (hca : Real.cos a = ca) (hsa : Real.sin a = sa) (hcb : Real.cos b = cb) (hsb : Real.sin b = sb)
    (hcc : Real.cos c = cc) (hsc : Real.sin c = sc)
    (h00 : (1 + cb) * (1 + (ca * cc - sa * sc)) / 4 = q.q0 * q.q0)
    (h33 : (1 + cb) * (1 - (ca * cc - sa * sc)) / 4 = q.q3 * q.q3)
    (h03 : -((1 + cb) * (sa * cc + ca * sc)) / 4 = q.q0 * q.q3)
    (h11 : (1 - cb) * (1 + (ca * cc + sa * sc)) / 4 = q.q1 * q.q1)
    (h22 : (1 - cb) * (1 - (ca * cc + sa * sc)) / 4 = q.q2 * q.q2)
    (h12 : (1 - cb) * (sa * cc - ca * sc) / 4 = q.q1 * q.q2)
    (h01 : -(sb * (ca + cc)) / 4 = q.q0 * q.q1)
    (h02 : -(sb * (sa - sc)) / 4 = q.q0 * q.q2)
    (h13 : sb * (sa + sc) / 4 = q.q1 * q.q3)
    (h23 : sb * (cc - ca) / 4 = q.q2 * q.q3) :
    eulerRaw a b c = q ∨ eulerRaw a b c = q.neg := by
  obtain ⟨p00, p33, p03, p11, p22, p12, p01, p02, p13, p23⟩ := eulerRaw_products a b c
  rw [hca, hsa, hcb, hcc, hsc] at p00 p33 p03 p11 p22 p12
  rw [hsb, hca, hcc] at p01 p23
  rw [hsb, hsa, hsc] at p02 p13
  exact quat_of_products _ _ hq (p00.trans h00) (p33.trans h33) (p03.trans h03) (p11.trans h11)
    (p22.trans h22) (p12.trans h12) (p01.trans h01) (p02.trans h02) (p13.trans h13) (p23.trans h23)

/-- The angles of a unit orientation describe it. -/
theorem eulerAngles_raw (q : Quat ℝ) (hq : q.IsUnit) :
    let e := eulerAngles q
    eulerRaw e.1 e.2.1 e.2.2 = q ∨ eulerRaw e.1 e.2.1 e.2.2 = q.neg := by
  have hu : q.q0 ^ 2 + q.q1 ^ 2 + q.q2 ^ 2 + q.q3 ^ 2 = 1 := hq
  unfold eulerAngles
  dsimp only
  split
  · rename_i h
    have h1 : q.q1 = 0 := by nlinarith [h.2, sq_nonneg q.q1, sq_nonneg q.q2]
    have h2 : q.q2 = 0 := by nlinarith [h.2, sq_nonneg q.q1, sq_nonneg q.q2]
    rw [h1, h2] at hu
    have hm : (q.q0 ^ 2 - q.q3 ^ 2) ^ 2 + (-2 * q.q0 * q.q3) ^ 2 = 1 := by
      linear_combination (q.q0 ^ 2 + q.q3 ^ 2 + 1) * hu
    refine eulerRaw_of_trig q hq _ _ _ (q.q0 ^ 2 - q.q3 ^ 2) (-2 * q.q0 * q.q3) 1 0 1 0
      ((cos_wrap _).trans (cos_arctan2 hm)) ((sin_wrap _).trans (sin_arctan2 hm))
      Real.cos_zero Real.sin_zero (by rw [wrap_zero, Real.cos_zero])
      (by rw [wrap_zero, Real.sin_zero]) ?_ ?_ ?_ ?_ ?_ ?_ ?_ ?_ ?_ ?_ <;> rw [h1, h2] at * <;>
      first
      | linear_combination (1 / 2) * hu
      | linear_combination (-1 / 2) * hu
      | ring
  · split
    · rename_i h
      have h1 : q.q0 = 0 := by nlinarith [h.2, sq_nonneg q.q0, sq_nonneg q.q3]
      have h2 : q.q3 = 0 := by nlinarith [h.2, sq_nonneg q.q0, sq_nonneg q.q3]
      rw [h1, h2] at hu
      have hm : (q.q1 ^ 2 - q.q2 ^ 2) ^ 2 + (2 * q.q1 * q.q2) ^ 2 = 1 := by
        linear_combination (q.q1 ^ 2 + q.q2 ^ 2 + 1) * hu
      refine eulerRaw_of_trig q hq _ _ _ (q.q1 ^ 2 - q.q2 ^ 2) (2 * q.q1 * q.q2) (-1) 0 1 0
        ((cos_wrap _).trans (cos_arctan2 hm)) ((sin_wrap _).trans (sin_arctan2 hm))
        Real.cos_pi Real.sin_pi (by rw [wrap_zero, Real.cos_zero])
        (by rw [wrap_zero, Real.sin_zero]) ?_ ?_ ?_ ?_ ?_ ?_ ?_ ?_ ?_ ?_ <;> rw [h1, h2] at * <;>
        first
        | linear_combination (1 / 2) * hu
        | linear_combination (-1 / 2) * hu
        | ring
    · rename_i hA hB
      set chi := Real.sqrt ((q.q0 ^ 2 + q.q3 ^ 2) * (q.q1 ^ 2 + q.q2 ^ 2)) with hchi
      have hnn : 0 ≤ (q.q0 ^ 2 + q.q3 ^ 2) * (q.q1 ^ 2 + q.q2 ^ 2) := by positivity
      have hc2 : chi ^ 2 = (q.q0 ^ 2 + q.q3 ^ 2) * (q.q1 ^ 2 + q.q2 ^ 2) := Real.sq_sqrt hnn
      have hc0 : chi ≠ 0 := by
        intro h
        have : (q.q0 ^ 2 + q.q3 ^ 2) * (q.q1 ^ 2 + q.q2 ^ 2) = 0 := by rw [← hc2, h]; ring
        rcases mul_eq_zero.1 this with h' | h'
        · exact hB ⟨h, h'⟩
        · exact hA ⟨h, h'⟩
      have hm1 : ((-q.q0 * q.q1 - q.q2 * q.q3) / chi) ^ 2 +
          ((-q.q0 * q.q2 + q.q1 * q.q3) / chi) ^ 2 = 1 := by
        field_simp
        rw [hc2]; ring
      have hm2 : (q.q0 ^ 2 + q.q3 ^ 2 - q.q1 ^ 2 - q.q2 ^ 2) ^ 2 + (2 * chi) ^ 2 = 1 := by
        have : (2 * chi) ^ 2 = 4 * chi ^ 2 := by ring
        rw [this, hc2]
        linear_combination (q.q0 ^ 2 + q.q1 ^ 2 + q.q2 ^ 2 + q.q3 ^ 2 + 1) * hu
      have hm3 : ((-q.q0 * q.q1 + q.q2 * q.q3) / chi) ^ 2 +
          ((q.q1 * q.q3 + q.q0 * q.q2) / chi) ^ 2 = 1 := by
        field_simp
        rw [hc2]; ring
      have hcb1 : 1 + (q.q0 ^ 2 + q.q3 ^ 2 - q.q1 ^ 2 - q.q2 ^ 2) = 2 * (q.q0 ^ 2 + q.q3 ^ 2) := by
        linear_combination -hu
      have hcb2 : 1 - (q.q0 ^ 2 + q.q3 ^ 2 - q.q1 ^ 2 - q.q2 ^ 2) = 2 * (q.q1 ^ 2 + q.q2 ^ 2) := by
        linear_combination -hu
      refine eulerRaw_of_trig q hq _ _ _ _ _ _ _ _ _
        ((cos_wrap _).trans (cos_arctan2 hm1)) ((sin_wrap _).trans (sin_arctan2 hm1))
        (cos_arctan2 hm2) (sin_arctan2 hm2)
        ((cos_wrap _).trans (cos_arctan2 hm3)) ((sin_wrap _).trans (sin_arctan2 hm3))
        ?_ ?_ ?_ ?_ ?_ ?_ ?_ ?_ ?_ ?_ <;> (try rw [hcb1]) <;> (try rw [hcb2]) <;> field_simp <;>
        (try rw [hc2]) <;> ring

/-- **C37 (round trip).** The Euler angles of a unit orientation describe that orientation:
rebuilding gives the same quaternion, or its negative, which is the same rotation and occurs
only for a quaternion that is not strictly northern. -/
theorem C37_roundtrip (q : Quat ℝ) (hq : q.IsUnit) :
    let r := fromEuler (eulerAngles q).1 (eulerAngles q).2.1 (eulerAngles q).2.2
    (r = q ∨ r = q.neg) ∧ (0 < q.q0 → r = q) ∧ rotMatrix r = rotMatrix q := by
  intro r
  have h1 : r = q ∨ r = q.neg := by
    have := eulerAngles_raw q hq
    simp only at this
    simp only [r, fromEuler_eq]
    rcases make_cases false (eulerRaw (eulerAngles q).1 (eulerAngles q).2.1 (eulerAngles q).2.2)
      with ⟨h, -⟩ | ⟨h, -⟩ <;> rw [h] <;> rcases this with h' | h' <;> rw [h'] <;> simp [neg]
  refine ⟨h1, fun h0 => ?_, ?_⟩
  · rcases h1 with h | h
    · exact h
    · have hn : 0 ≤ r.q0 := (C37_unit _ _ _).2
      rw [h] at hn
      simp only [neg] at hn
      linarith
  · rcases h1 with h | h <;> rw [h]
    exact rotMatrix_neg q

/-- **C37 (ranges).** The first and the third angle are in `[0, 2π)`, the second in `[0, π]`. -/
theorem C37_range (q : Quat ℝ) :
    let e := eulerAngles q
    (0 ≤ e.1 ∧ e.1 < 2 * Real.pi) ∧ (0 ≤ e.2.1 ∧ e.2.1 ≤ Real.pi) ∧
      (0 ≤ e.2.2 ∧ e.2.2 < 2 * Real.pi) := by
  have hpi := Real.pi_pos
  unfold eulerAngles
  dsimp only
  split
  · refine ⟨wrap_arctan2_range _ _, ⟨le_refl _, hpi.le⟩, ?_⟩
    rw [wrap_zero]; constructor <;> linarith
  · split
    · refine ⟨wrap_arctan2_range _ _, ⟨hpi.le, le_refl _⟩, ?_⟩
      rw [wrap_zero]; constructor <;> linarith
    · refine ⟨wrap_arctan2_range _ _, ⟨?_, Complex.arg_le_pi _⟩, wrap_arctan2_range _ _⟩
      exact Complex.arg_nonneg_iff.2 (by
        show 0 ≤ 2 * Real.sqrt _
        positivity)

/-- **C37 (many).** The bulk constructor makes the orientations of the triples one by one. -/
theorem C37_many (eulers : List (ℝ × ℝ × ℝ)) :
    createMany eulers = eulers.map fun e => fromEuler e.1 e.2.1 e.2.2 := rfl

/-- A quarter turn about z and a half turn about x: both special cases and the general case
occur. -/
example : (⟨0, 1, 0, 0⟩ : Quat ℝ).IsUnit ∧ (⟨1, 0, 0, 0⟩ : Quat ℝ).IsUnit ∧
    (⟨1 / 2, 1 / 2, 1 / 2, 1 / 2⟩ : Quat ℝ).IsUnit ∧ (0 : ℝ) < 1 / 2 := by
  simp only [Quat.IsUnit]; norm_num

/-! ### C38 -/

/-- The coefficients before the choice of hemisphere (`quat.py:115-117`). -/
noncomputable def axisRaw (u : Fin 3 → ℝ) (t : ℝ) : Quat ℝ :=
  ⟨Real.cos (t / 2), -Real.sin (t / 2) * u 0, -Real.sin (t / 2) * u 1, -Real.sin (t / 2) * u 2⟩

theorem fromAxisAngle_eq (a : Fin 3 → ℝ) (t : ℝ) :
    fromAxisAngle a t = make false (axisRaw (fun i => a i / Real.sqrt (a ⬝ᵥ a)) t) := by
  simp [fromAxisAngle, axisRaw, dotProduct, Fin.sum_univ_three]

theorem axis_pos {a : Fin 3 → ℝ} (ha : a ≠ 0) : 0 < a ⬝ᵥ a := by
  have : a 0 ≠ 0 ∨ a 1 ≠ 0 ∨ a 2 ≠ 0 := by
    by_contra hcon
    push Not at hcon
    apply ha
    funext i
    fin_cases i
    · exact hcon.1
    · exact hcon.2.1
    · exact hcon.2.2
  simp only [dotProduct, Fin.sum_univ_three]
  have h0 := mul_self_nonneg (a 0)
  have h1 := mul_self_nonneg (a 1)
  have h2 := mul_self_nonneg (a 2)
  rcases this with h | h | h <;> have := mul_self_pos.2 h <;> linarith

theorem axis_unit {a : Fin 3 → ℝ} (ha : a ≠ 0) :
    (fun i => a i / Real.sqrt (a ⬝ᵥ a)) ⬝ᵥ (fun i => a i / Real.sqrt (a ⬝ᵥ a)) = 1 := by
  have h := axis_pos ha
  have hs : Real.sqrt (a ⬝ᵥ a) ≠ 0 := (Real.sqrt_pos.2 h).ne'
  have h2 := Real.sq_sqrt h.le
  have h3 : (fun i => a i / Real.sqrt (a ⬝ᵥ a)) ⬝ᵥ (fun i => a i / Real.sqrt (a ⬝ᵥ a)) =
      (a ⬝ᵥ a) / Real.sqrt (a ⬝ᵥ a) ^ 2 := by
    generalize Real.sqrt (a ⬝ᵥ a) = s
    simp only [dotProduct, Fin.sum_univ_three]
    ring
  rw [h3, h2, div_self h.ne']

theorem axisRaw_unit {u : Fin 3 → ℝ} (hu : u ⬝ᵥ u = 1) (t : ℝ) : (axisRaw u t).IsUnit := by
  have h1 := Real.sin_sq_add_cos_sq (t / 2)
  simp only [dotProduct, Fin.sum_univ_three] at hu
  simp only [Quat.IsUnit, axisRaw]
  linear_combination h1 + Real.sin (t / 2) ^ 2 * hu

/-- **C38 (unit).** A non-zero axis and any angle give a unit northern orientation. -/
theorem C38_unit (a : Fin 3 → ℝ) (ha : a ≠ 0) (t : ℝ) :
    (fromAxisAngle a t).IsUnit ∧ (fromAxisAngle a t).North := by
  rw [fromAxisAngle_eq]
  exact ⟨isUnit_make.2 (axisRaw_unit (axis_unit ha) t), north_make _⟩

/-- **C38 (length of the axis).** Stretching the axis does not change the orientation. -/
theorem C38_scale (a : Fin 3 → ℝ) (t k : ℝ) (hk : 0 < k) :
    fromAxisAngle (fun i => k * a i) t = fromAxisAngle a t := by
  rw [fromAxisAngle_eq, fromAxisAngle_eq]
  have : (fun i => k * a i) ⬝ᵥ (fun i => k * a i) = k ^ 2 * (a ⬝ᵥ a) := by
    simp only [dotProduct, Fin.sum_univ_three]; ring
  rw [this, Real.sqrt_mul (by positivity), Real.sqrt_sq hk.le]
  congr 2
  funext i
  rw [mul_div_mul_left _ _ hk.ne']

/-- **C38 (reversal).** Reversing both the axis and the angle gives the same orientation. -/
theorem C38_reverse (a : Fin 3 → ℝ) (t : ℝ) :
    fromAxisAngle (fun i => -a i) (-t) = fromAxisAngle a t := by
  rw [fromAxisAngle_eq, fromAxisAngle_eq]
  have : (fun i => -a i) ⬝ᵥ (fun i => -a i) = a ⬝ᵥ a := by
    simp only [dotProduct, Fin.sum_univ_three]; ring
  rw [this]
  congr 1
  simp only [axisRaw]
  rw [neg_div, Real.cos_neg, Real.sin_neg]
  ext <;> simp only [] <;> ring

/-- **C38 (rotation).** For a unit axis `u` the orientation acts as the rotation by `-t` about
`u` (Rodrigues' formula): the frame is turned by `t`. -/
theorem C38_rodrigues (u : Fin 3 → ℝ) (hu : u ⬝ᵥ u = 1) (t : ℝ) (w : Fin 3 → ℝ) :
    transformVector (fromAxisAngle u t) w =
      fun i => Real.cos t * w i - Real.sin t * (u ⨯₃ w) i + (1 - Real.cos t) * (u ⬝ᵥ w) * u i := by
  have hu' : (fun i => u i / Real.sqrt (u ⬝ᵥ u)) = u := by
    funext i; rw [hu, Real.sqrt_one, div_one]
  rw [fromAxisAngle_eq, hu', ← (C36_agrees _ w).1 (north_make _), rotMatrix_make]
  obtain ⟨T, rfl⟩ : ∃ T, t = 2 * T := ⟨t / 2, by ring⟩
  have h1 := Real.sin_sq T
  simp only [dotProduct, Fin.sum_univ_three] at hu
  rw [Real.cos_two_mul, Real.sin_two_mul]
  funext i
  fin_cases i <;>
    simp [axisRaw, rotMatrix, Matrix.mulVec, dotProduct, Fin.sum_univ_three, cross_apply]
  · linear_combination (-Real.sin T ^ 2 * w 0) * hu +
      (-w 0 + 2 * u 0 * (u 0 * w 0 + u 1 * w 1 + u 2 * w 2)) * h1
  · linear_combination (-Real.sin T ^ 2 * w 1) * hu +
      (-w 1 + 2 * u 1 * (u 0 * w 0 + u 1 * w 1 + u 2 * w 2)) * h1
  · linear_combination (-Real.sin T ^ 2 * w 2) * hu +
      (-w 2 + 2 * u 2 * (u 0 * w 0 + u 1 * w 1 + u 2 * w 2)) * h1

/-- **C38 (fixed axis).** The axis itself is not moved. -/
theorem C38_axis (a : Fin 3 → ℝ) (ha : a ≠ 0) (t : ℝ) :
    transformVector (fromAxisAngle a t) a = a := by
  have hp := axis_pos ha
  have hs : 0 < Real.sqrt (a ⬝ᵥ a) := Real.sqrt_pos.2 hp
  set n := Real.sqrt (a ⬝ᵥ a) with hn
  set u : Fin 3 → ℝ := fun i => a i / n with hu
  have hau : a = fun i => n * u i := by
    funext i; simp only [hu]; field_simp
  have h1 : u ⬝ᵥ u = 1 := axis_unit ha
  have h2 : fromAxisAngle a t = fromAxisAngle u t := by
    rw [hau, C38_scale _ _ _ hs]
  rw [h2, C38_rodrigues u h1]
  have h3 : u ⬝ᵥ a = n := by
    rw [hau]
    simp only [dotProduct, Fin.sum_univ_three] at *
    linear_combination n * h1
  have h4 : u ⨯₃ a = 0 := by
    rw [hau]
    simp only [cross_apply]
    funext i
    fin_cases i <;> simp <;> ring
  rw [h3, h4]
  funext i
  have : a i = n * u i := congrFun hau i
  rw [Pi.zero_apply, this]
  ring

/-- The axes used in the statements exist: `[0, 3, 4]` is not zero and `[0, 3/5, 4/5]` is a unit
vector. -/
example : (![0, 3, 4] : Fin 3 → ℝ) ≠ 0 ∧ (![0, 3 / 5, 4 / 5] : Fin 3 → ℝ) ⬝ᵥ ![0, 3 / 5, 4 / 5] = 1 := by
  constructor
  · intro h
    have := congrFun h 1
    simp at this
  · simp [dotProduct, Fin.sum_univ_three]; norm_num

end DefDAP
