import Verif.Props.SchmidChange
import Verif.Props.Schmid

/-! C161: how well orientations determine slip traces. -/

namespace DefDAP
open Spec Quat Matrix

/-- Plane normals seen from the sample turn no further than the orientation. -/
theorem normals_close {p q : Quat ℝ} (hp : p.IsUnit) (hq : q.IsUnit) {n : Fin 3 → ℝ}
    (hn : n ⬝ᵥ n = 1) :
    2 * (dot p q) ^ 2 - 1 ≤ sampleNormal p n ⬝ᵥ sampleNormal q n := by
  have conj (r : Quat ℝ) (hr : r.IsUnit) : (⟨r.q0, -r.q1, -r.q2, -r.q3⟩ : Quat ℝ).IsUnit := by
    have hr' : r.q0 ^ 2 + r.q1 ^ 2 + r.q2 ^ 2 + r.q3 ^ 2 = 1 := hr
    show r.q0 ^ 2 + (-r.q1) ^ 2 + (-r.q2) ^ 2 + (-r.q3) ^ 2 = 1
    rw [← hr']; ring
  have et (r : Quat ℝ) : rotMatrix (⟨r.q0, -r.q1, -r.q2, -r.q3⟩ : Quat ℝ) = (rotMatrix r)ᵀ := by
    ext i j
    fin_cases i <;> fin_cases j <;> simp [rotMatrix] <;> ring
  have h := loads_close (conj p hp) (conj q hq) hn
  rw [et, et] at h
  have ed : dot (⟨p.q0, -p.q1, -p.q2, -p.q3⟩ : Quat ℝ) ⟨q.q0, -q.q1, -q.q2, -q.q3⟩ = dot p q := by
    simp only [dot]; ring
  rw [ed] at h
  unfold sampleNormal
  rw [conj_matrix, conj_matrix]
  exact h

theorem sampleNormal_unit {p : Quat ℝ} (hp : p.IsUnit) {n : Fin 3 → ℝ} (hn : n ⬝ᵥ n = 1) :
    sampleNormal p n ⬝ᵥ sampleNormal p n = 1 := by
  rw [sampleNormal, transform_dot _ (isUnit_conj hp), hn]

/-- The sine of the inclination is the length of the part of the normal along the surface. -/
theorem sin_inclination (p : Quat ℝ) (hp : p.IsUnit) (hpn : p.North) {n : Fin 3 → ℝ}
    (hn : n ⬝ᵥ n = 1) :
    0 ≤ Real.sin (slipTrace p n).2 ∧ Real.sin (slipTrace p n).2 ^ 2 =
      sampleNormal p n 0 ^ 2 + sampleNormal p n 1 ^ 2 := by
  obtain ⟨h0, h1, hc⟩ := C59_inclination p hp hpn n hn
  have hu := sampleNormal_unit hp hn
  simp only [dotProduct, Fin.sum_univ_three] at hu
  refine ⟨Real.sin_nonneg_of_nonneg_of_le_pi h0 (by linarith [Real.pi_pos]), ?_⟩
  rw [Real.sin_sq, hc, sq_abs]
  linarith

/-- **C161**: two orientations some angle apart have traces of a plane whose directions differ so
that the sine of their difference, times the sine of the inclination, is at most the angle, in
radians; for angles up to 90 degrees it is at most the sine of the angle. -/
theorem C161_trace (p q : Quat ℝ) (hp : p.IsUnit) (hq : q.IsUnit) (hpn : p.North) (hqn : q.North)
    (n : Fin 3 → ℝ) (hn : n ⬝ᵥ n = 1)
    (h1 : sampleNormal p n 0 ≠ 0 ∨ sampleNormal p n 1 ≠ 0)
    (h2 : sampleNormal q n 0 ≠ 0 ∨ sampleNormal q n 1 ≠ 0) :
    let angle := rotationAngle (rotMatrix p * (rotMatrix q)ᵀ)
    let change := |Real.sin ((slipTrace p n).1 - (slipTrace q n).1)| * Real.sin (slipTrace p n).2
    change ≤ angle ∧ (angle ≤ Real.pi / 2 → change ≤ Real.sin angle) := by
  intro angle change
  obtain ⟨s0, s2⟩ := sin_inclination p hp hpn hn
  obtain ⟨σ, r, hσ, hr, hr2, hc, hs, -⟩ := slipTrace_angle p hp hpn n h1
  obtain ⟨τ, t, hτ, ht, ht2, hc', hs', -⟩ := slipTrace_angle q hq hqn n h2
  have hu := sampleNormal_unit hp hn
  have hv := sampleNormal_unit hq hn
  have hk := normals_close hp hq hn
  have ec : change = |Real.sin ((slipTrace p n).1 - (slipTrace q n).1) *
      Real.sin (slipTrace p n).2| := by
    rw [abs_mul, abs_of_nonneg s0]
  rw [ec]
  refine angle_bound hp hq hk ?_
  rw [Real.sin_sub, hc, hs, hc', hs', mul_pow, s2]
  simp only [dotProduct, Fin.sum_univ_three] at hu hv ⊢
  generalize sampleNormal p n 0 = a at *
  generalize sampleNormal p n 1 = b at *
  generalize sampleNormal p n 2 = c at *
  generalize sampleNormal q n 0 = a' at *
  generalize sampleNormal q n 1 = b' at *
  generalize sampleNormal q n 2 = c' at *
  have e1 : σ ^ 2 = 1 := by rcases hσ with rfl | rfl <;> norm_num
  have e2 : τ ^ 2 = 1 := by rcases hτ with rfl | rfl <;> norm_num
  have e : (σ * b / r * (τ * a' / t) - σ * a / r * (τ * b' / t)) ^ 2 * (a ^ 2 + b ^ 2) =
      (b * a' - a * b') ^ 2 / t ^ 2 := by
    have : (σ * b / r * (τ * a' / t) - σ * a / r * (τ * b' / t)) ^ 2 * (a ^ 2 + b ^ 2) =
      (σ ^ 2) * (τ ^ 2) * (b * a' - a * b') ^ 2 * (a ^ 2 + b ^ 2) / (r ^ 2 * t ^ 2) := by
      field_simp
    rw [this, e1, e2, ← hr2]
    field_simp
  rw [e, div_le_iff₀ (by positivity), ht2]
  -- the product of the sines, less the square of a scalar product
  have key : (1 - (a * a' + b * b' + c * c') ^ 2) * (a' ^ 2 + b' ^ 2) =
      (b * a' - a * b') ^ 2 + ((a * a' + b * b' + c * c') * c' - c) ^ 2 := by
    have x1 : c ^ 2 = 1 - a ^ 2 - b ^ 2 := by linarith
    have x2 : c' ^ 2 = 1 - a' ^ 2 - b' ^ 2 := by linarith
    have x3 : a ^ 2 = 1 - b ^ 2 - c ^ 2 := by linarith
    have y : a' ^ 2 + b' ^ 2 = 1 - c' ^ 2 := by linarith
    have z : (b * a' - a * b') ^ 2 = (a ^ 2 + b ^ 2) * (a' ^ 2 + b' ^ 2) - (a * a' + b * b') ^ 2 := by
      ring
    rw [z, y, show a ^ 2 + b ^ 2 = 1 - c ^ 2 by linarith]
    ring
  rw [key]
  nlinarith [sq_nonneg ((a * a' + b * b' + c * c') * c' - c)]

/-- **C161**: the inclination of a plane changes by no more than the orientation. -/
theorem C161_inclination (p q : Quat ℝ) (hp : p.IsUnit) (hq : q.IsUnit) (hpn : p.North)
    (hqn : q.North) (n : Fin 3 → ℝ) (hn : n ⬝ᵥ n = 1) :
    |(slipTrace p n).2 - (slipTrace q n).2| ≤ rotationAngle (rotMatrix p * (rotMatrix q)ᵀ) := by
  set angle := rotationAngle (rotMatrix p * (rotMatrix q)ᵀ) with ha
  have hc : Real.cos angle = 2 * (dot p q) ^ 2 - 1 := by
    show Real.cos (rotationAngle _) = _
    rw [rotationAngle_eq hp hq, Real.cos_two_mul, Real.cos_arccos (by linarith [abs_nonneg (dot p q)])
      (abs_dot_le_one hp hq), sq_abs]
  have h0 : 0 ≤ angle := Real.arccos_nonneg _
  have hk := normals_close hp hq hn
  obtain ⟨s0, s2⟩ := sin_inclination p hp hpn hn
  obtain ⟨t0, t2⟩ := sin_inclination q hq hqn hn
  obtain ⟨i0, i1, ic⟩ := C59_inclination p hp hpn n hn
  obtain ⟨j0, j1, jc⟩ := C59_inclination q hq hqn n hn
  have hcos : Real.cos angle ≤ Real.cos |(slipTrace p n).2 - (slipTrace q n).2| := by
    rw [Real.cos_abs, Real.cos_sub, ic, jc, hc, ← abs_mul]
    refine hk.trans ?_
    simp only [dotProduct, Fin.sum_univ_three]
    have m := le_abs_self (sampleNormal p n 2 * sampleNormal q n 2)
    have w : sampleNormal p n 0 * sampleNormal q n 0 + sampleNormal p n 1 * sampleNormal q n 1 ≤
        Real.sin (slipTrace p n).2 * Real.sin (slipTrace q n).2 := by
      refine (le_abs_self _).trans (abs_le_of_sq_le_sq ?_ (mul_nonneg s0 t0))
      rw [mul_pow, s2, t2]
      nlinarith [sq_nonneg (sampleNormal p n 0 * sampleNormal q n 1 -
        sampleNormal p n 1 * sampleNormal q n 0)]
    linarith
  by_contra hlt
  rw [not_le] at hlt
  have hle : |(slipTrace p n).2 - (slipTrace q n).2| ≤ Real.pi := by
    rw [abs_le]; constructor <;> linarith [Real.pi_pos]
  exact absurd hcos (not_le.2 (Real.cos_lt_cos_of_nonneg_of_le_pi h0 hle hlt))

/-- **C161**: for a plane inclined by 30 to 90 degrees and orientations less than 30 degrees apart,
the sine of the difference of the traces is at most twice the sine of the angle between the
orientations. -/
theorem C161_steep (p q : Quat ℝ) (hp : p.IsUnit) (hq : q.IsUnit) (hpn : p.North) (hqn : q.North)
    (n : Fin 3 → ℝ) (hn : n ⬝ᵥ n = 1) (hi : Real.pi / 6 ≤ (slipTrace p n).2)
    (ha : rotationAngle (rotMatrix p * (rotMatrix q)ᵀ) < Real.pi / 6) :
    |Real.sin ((slipTrace p n).1 - (slipTrace q n).1)| ≤
      2 * Real.sin (rotationAngle (rotMatrix p * (rotMatrix q)ᵀ)) := by
  have hpi := Real.pi_pos
  have ne (r : Quat ℝ) (hr : r.IsUnit) (hrn : r.North) (h0 : 0 < (slipTrace r n).2) :
      sampleNormal r n 0 ≠ 0 ∨ sampleNormal r n 1 ≠ 0 := by
    by_contra hz
    rw [not_or, not_not, not_not] at hz
    have h1 := (C59_inclination r hr hrn n hn).2.1
    have h2 := (sin_inclination r hr hrn hn).2
    rw [hz.1, hz.2] at h2
    have : 0 < Real.sin (slipTrace r n).2 := Real.sin_pos_of_pos_of_lt_pi h0 (by linarith)
    nlinarith
  have hj := abs_le.1 (C161_inclination p q hp hq hpn hqn n hn)
  have h := (C161_trace p q hp hq hpn hqn n hn (ne p hp hpn (by linarith))
    (ne q hq hqn (by linarith))).2 (by linarith)
  have hs : 1 / 2 ≤ Real.sin (slipTrace p n).2 := by
    rw [← Real.sin_pi_div_six]
    exact Real.sin_le_sin_of_le_of_le_pi_div_two (by linarith) (C59_inclination p hp hpn n hn).2.1 hi
  nlinarith [abs_nonneg (Real.sin ((slipTrace p n).1 - (slipTrace q n).1))]

/-- **C161**: without an inclination there is no such bound: as close as one likes are orientations
for which the traces of the basal plane are at right angles. -/
theorem C161_lost (δ : ℝ) (hδ : 0 < δ) : ∃ p q : Quat ℝ, p.IsUnit ∧ q.IsUnit ∧ p.North ∧ q.North ∧
    rotationAngle (rotMatrix p * (rotMatrix q)ᵀ) ≤ δ ∧
    (sampleNormal p ![0, 0, 1] 0 ≠ 0 ∨ sampleNormal p ![0, 0, 1] 1 ≠ 0) ∧
    (sampleNormal q ![0, 0, 1] 0 ≠ 0 ∨ sampleNormal q ![0, 0, 1] 1 ≠ 0) ∧
    |(slipTrace p ![0, 0, 1]).1 - (slipTrace q ![0, 0, 1]).1| = Real.pi / 2 := by
  have hm : 0 < min δ 1 := lt_min hδ one_pos
  have hm1 : min δ 1 ≤ 1 := min_le_right _ _
  have hpi := Real.two_le_pi
  set k := Real.cos (min δ 1 / 2) with hk
  have k0 : 0 < k := Real.cos_pos_of_mem_Ioo ⟨by linarith, by linarith⟩
  have k1 : k < 1 := by
    have := Real.cos_lt_cos_of_nonneg_of_le_pi le_rfl (y := min δ 1 / 2) (by linarith) (by linarith)
    rwa [Real.cos_zero] at this
  obtain ⟨c, c0, c2⟩ : ∃ c : ℝ, 0 < c ∧ c ^ 2 = k := ⟨√k, Real.sqrt_pos.2 k0, Real.sq_sqrt k0.le⟩
  obtain ⟨s, s0, s2⟩ : ∃ s : ℝ, 0 < s ∧ s ^ 2 = 1 - k :=
    ⟨√(1 - k), Real.sqrt_pos.2 (by linarith), Real.sq_sqrt (by linarith)⟩
  have up : (⟨c, s, 0, 0⟩ : Quat ℝ).IsUnit := by
    show c ^ 2 + s ^ 2 + 0 ^ 2 + 0 ^ 2 = 1
    rw [c2, s2]; ring
  have uq : (⟨c, 0, s, 0⟩ : Quat ℝ).IsUnit := by
    show c ^ 2 + 0 ^ 2 + s ^ 2 + 0 ^ 2 = 1
    rw [c2, s2]; ring
  have np : (⟨c, s, 0, 0⟩ : Quat ℝ).North := c0.le
  have nq : (⟨c, 0, s, 0⟩ : Quat ℝ).North := c0.le
  have ep0 : sampleNormal ⟨c, s, 0, 0⟩ ![0, 0, 1] 0 = 0 := by
    rw [sampleNormal, conj_matrix]
    simp [rotMatrix, Matrix.mulVec, dotProduct, Fin.sum_univ_three]
  have ep1 : sampleNormal ⟨c, s, 0, 0⟩ ![0, 0, 1] 1 ≠ 0 := by
    rw [sampleNormal, conj_matrix]
    simp [rotMatrix, Matrix.mulVec, dotProduct, Fin.sum_univ_three, c0.ne', s0.ne']
  have eq1 : sampleNormal ⟨c, 0, s, 0⟩ ![0, 0, 1] 1 = 0 := by
    rw [sampleNormal, conj_matrix]
    simp [rotMatrix, Matrix.mulVec, dotProduct, Fin.sum_univ_three]
  have eq0 : sampleNormal ⟨c, 0, s, 0⟩ ![0, 0, 1] 0 ≠ 0 := by
    rw [sampleNormal, conj_matrix]
    simp [rotMatrix, Matrix.mulVec, dotProduct, Fin.sum_univ_three, c0.ne', s0.ne']
  refine ⟨⟨c, s, 0, 0⟩, ⟨c, 0, s, 0⟩, up, uq, np, nq, ?_, Or.inr ep1, Or.inl eq0, ?_⟩
  · rw [rotationAngle_eq up uq]
    have : |dot (⟨c, s, 0, 0⟩ : Quat ℝ) ⟨c, 0, s, 0⟩| = k := by
      simp only [dot]
      rw [show c * c + s * 0 + 0 * s + 0 * 0 = c ^ 2 by ring, c2, abs_of_pos k0]
    rw [this, hk, Real.arccos_cos (by linarith) (by linarith)]
    linarith [min_le_left δ 1]
  · obtain ⟨a0, a1, -, -⟩ := C59_trace _ up np ![0, 0, 1] (Or.inr ep1)
    obtain ⟨b0, b1, -, -⟩ := C59_trace _ uq nq ![0, 0, 1] (Or.inl eq0)
    obtain ⟨σ, r, -, -, -, hc, -, -⟩ := slipTrace_angle _ up np ![0, 0, 1] (Or.inr ep1)
    obtain ⟨τ, t, -, -, -, -, hs, -⟩ := slipTrace_angle _ uq nq ![0, 0, 1] (Or.inl eq0)
    refine Real.injOn_cos ⟨abs_nonneg _, abs_le.2 ⟨by linarith, by linarith⟩⟩
      ⟨by linarith, by linarith⟩ ?_
    rw [Real.cos_abs, Real.cos_sub, hc, hs, ep0, eq1, Real.cos_pi_div_two]
    simp

/-- **C161** non-vacuity: a plane with normal along x seen unturned and turned about z by the angle
whose half has the cosine 0.6: the inclinations stay at 90 degrees. -/
example : ∃ p q : Quat ℝ, p.IsUnit ∧ q.IsUnit ∧ p.North ∧ q.North ∧ p ≠ q ∧
    (sampleNormal p ![1, 0, 0] 0 ≠ 0 ∨ sampleNormal p ![1, 0, 0] 1 ≠ 0) ∧
    (sampleNormal q ![1, 0, 0] 0 ≠ 0 ∨ sampleNormal q ![1, 0, 0] 1 ≠ 0) ∧
    (![1, 0, 0] : Fin 3 → ℝ) ⬝ᵥ ![1, 0, 0] = 1 ∧ Real.pi / 6 ≤ (slipTrace p ![1, 0, 0]).2 := by
  refine ⟨⟨1, 0, 0, 0⟩, ⟨3 / 5, 0, 0, 4 / 5⟩, by norm_num [Quat.IsUnit], by norm_num [Quat.IsUnit],
    by simp [North], by norm_num [North], ?_, Or.inl ?_, Or.inl ?_,
    by simp [dotProduct, Fin.sum_univ_three], ?_⟩
  · intro h
    have := congrArg Quat.q0 h
    norm_num at this
  · rw [sampleNormal, conj_matrix]
    simp [rotMatrix, Matrix.mulVec, dotProduct, Fin.sum_univ_three]
  · rw [sampleNormal, conj_matrix]
    simp [rotMatrix, Matrix.mulVec, dotProduct, Fin.sum_univ_three]
    norm_num
  · obtain ⟨h1, h2, h3⟩ := C59_inclination ⟨1, 0, 0, 0⟩ (by simp [Quat.IsUnit]) (by simp [North])
      ![1, 0, 0] (by simp [dotProduct, Fin.sum_univ_three])
    have hz : sampleNormal ⟨1, 0, 0, 0⟩ ![1, 0, 0] 2 = 0 := by
      rw [sampleNormal, conj_matrix]
      simp [rotMatrix, Matrix.mulVec, dotProduct, Fin.sum_univ_three]
    have hpi := Real.pi_pos
    have : (slipTrace ⟨1, 0, 0, 0⟩ ![1, 0, 0]).2 = Real.pi / 2 := by
      refine Real.injOn_cos ⟨h1, by linarith⟩ ⟨by linarith, by linarith⟩ ?_
      rw [h3, hz, Real.cos_pi_div_two, abs_zero]
    linarith

end DefDAP
