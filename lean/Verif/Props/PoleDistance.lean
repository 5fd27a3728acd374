import Verif.Props.IpfNear
import Verif.Props.Projections
import Mathlib.Analysis.SpecialFunctions.Trigonometric.Bounds

/-! C174: distances and circles in pole figures. -/

namespace DefDAP
open Quat Spec Matrix

/-- The squared distance of two directions. -/
def Spec.chordSq (v w : Fin 3 → ℝ) : ℝ := (v 0 - w 0) ^ 2 + (v 1 - w 1) ^ 2 + (v 2 - w 2) ^ 2

/-- The squared distance of two points of a picture. -/
def Spec.distSq (p q : ℝ × ℝ) : ℝ := (p.1 - q.1) ^ 2 + (p.2 - q.2) ^ 2

/-- **C174 (stereographic).** The points of two directions in the stereographic projection are as far apart
as the directions, but for a factor that depends on their heights; in the upper hemisphere they are at most
as far apart as the directions, and at least half as far. -/
theorem C174_stereo (v w : Fin 3 → ℝ) (hv : Spec.UnitDir v) (hw : Spec.UnitDir w) (hvz : -1 < v 2)
    (hwz : -1 < w 2) :
    ∃ p q, stereoProject [v 0, v 1, v 2] = .ok p ∧ stereoProject [w 0, w 1, w 2] = .ok q ∧
      Spec.distSq p q = Spec.chordSq v w / ((1 + v 2) * (1 + w 2)) ∧
      (0 ≤ v 2 → 0 ≤ w 2 → Spec.distSq p q ≤ Spec.chordSq v w ∧
        Spec.chordSq v w ≤ 4 * Spec.distSq p q) := by
  have hA : 0 < 1 + v 2 := by linarith
  have hB : 0 < 1 + w 2 := by linarith
  unfold Spec.UnitDir at hv hw
  have he : Spec.distSq (v 1 / (1 + v 2), -(v 0 / (1 + v 2))) (w 1 / (1 + w 2), -(w 0 / (1 + w 2))) =
      Spec.chordSq v w / ((1 + v 2) * (1 + w 2)) := by
    unfold Spec.distSq Spec.chordSq
    rw [eq_div_iff (by positivity)]
    field_simp
    have e1 : v 0 ^ 2 = 1 - v 1 ^ 2 - v 2 ^ 2 := by linarith
    have e2 : w 0 ^ 2 = 1 - w 1 ^ 2 - w 2 ^ 2 := by linarith
    linear_combination (1 + w 2) * (w 2 - v 2) * e1 + (1 + v 2) * (v 2 - w 2) * e2
  refine ⟨_, _, C46_stereo v hv hvz, C46_stereo w hw hwz, he, ?_⟩
  intro h0 h1
  rw [he]
  have hc : 0 ≤ Spec.chordSq v w := by unfold Spec.chordSq; positivity
  have a1 : v 2 ≤ 1 := by nlinarith [sq_nonneg (v 0), sq_nonneg (v 1)]
  have b1 : w 2 ≤ 1 := by nlinarith [sq_nonneg (w 0), sq_nonneg (w 1)]
  constructor
  · rw [div_le_iff₀ (by positivity)]
    nlinarith [mul_nonneg h0 h1]
  · rw [← mul_div_assoc, le_div_iff₀ (by positivity)]
    have : (1 + v 2) * (1 + w 2) ≤ 4 := by nlinarith
    nlinarith

/-- **C174 (circles).** The directions at a fixed angle to an axis, as those of a plane, are a circle or a
straight line in the stereographic projection. -/
theorem C174_circles (n : Fin 3 → ℝ) (k : ℝ) (v : Fin 3 → ℝ) (hv : Spec.UnitDir v) (hvz : -1 < v 2) :
    ∃ p, stereoProject [v 0, v 1, v 2] = .ok p ∧
      (n ⬝ᵥ v = k ↔
        (k + n 2) * (p.1 ^ 2 + p.2 ^ 2) - 2 * (n 1 * p.1 - n 0 * p.2) + (k - n 2) = 0) := by
  have hA : 0 < 1 + v 2 := by linarith
  refine ⟨_, C46_stereo v hv hvz, ?_⟩
  unfold Spec.UnitDir at hv
  have e : (k + n 2) * ((v 1 / (1 + v 2)) ^ 2 + (-(v 0 / (1 + v 2))) ^ 2) -
      2 * (n 1 * (v 1 / (1 + v 2)) - n 0 * -(v 0 / (1 + v 2))) + (k - n 2) =
      2 * (k - n ⬝ᵥ v) / (1 + v 2) := by
    rw [eq_div_iff hA.ne']
    simp only [dotProduct, Fin.sum_univ_three]
    field_simp
    have e1 : v 0 ^ 2 = 1 - v 1 ^ 2 - v 2 ^ 2 := by linarith
    linear_combination (k + n 2) * e1
  simp only
  rw [e, div_eq_zero_iff]
  constructor
  · intro h
    left
    rw [h]
    ring
  · rintro (h | h)
    · linarith
    · exact absurd h hA.ne'

/-- The bounds for the Lambert projection in terms of the roots of the heights. -/
theorem lambert_bounds {s t x D d : ℝ} (hs : 1 ≤ s) (ht : 1 ≤ t) (hs2 : s ^ 2 ≤ 2) (ht2 : t ^ 2 ≤ 2)
    (hD : D = 2 * (s ^ 2 + t ^ 2 - s ^ 2 * t ^ 2 - x))
    (hx : x ^ 2 ≤ (s ^ 2 * (2 - s ^ 2)) * (t ^ 2 * (2 - t ^ 2))) (hD0 : 0 ≤ D)
    (hd : d * (s * t) = 2 * D - (s - t) ^ 2 * (2 * (s * t) + 4)) : d ≤ 2 * D ∧ D ≤ 2 * d := by
  have hP : 1 ≤ s * t := by nlinarith
  have hP0 : 0 < s * t := by linarith
  have hP2 : s * t ≤ 2 := by nlinarith [sq_nonneg (s - t)]
  constructor
  · have h1 : d * (s * t) ≤ 2 * D := by nlinarith [mul_nonneg (sq_nonneg (s - t)) (by linarith : 0 ≤ 2 * (s * t) + 4)]
    by_contra hc
    push Not at hc
    have : 2 * D * (s * t) < d * (s * t) := mul_lt_mul_of_pos_right hc hP0
    nlinarith
  · set u := Real.sqrt ((2 - s ^ 2) * (2 - t ^ 2)) with hu
    have hu0 : 0 ≤ u := Real.sqrt_nonneg _
    have hu2 : u ^ 2 = (2 - s ^ 2) * (2 - t ^ 2) :=
      Real.sq_sqrt (mul_nonneg (by linarith) (by linarith))
    have hxu : x ≤ s * t * u := by
      have : x ^ 2 ≤ (s * t * u) ^ 2 := by
        rw [mul_pow, hu2]
        linarith [hx, show (s ^ 2 * (2 - s ^ 2)) * (t ^ 2 * (2 - t ^ 2)) =
          (s * t) ^ 2 * ((2 - s ^ 2) * (2 - t ^ 2)) by ring]
      exact (le_abs_self x).trans (abs_le_of_sq_le_sq this (by positivity))
    have hamgm : u * (2 - s * t) ≤ (2 - s * t) ^ 2 - (s - t) ^ 2 := by
      nlinarith [sq_nonneg (u - (2 - s * t))]
    have hx2 : (2 - s * t) * x ≤ s * t * ((2 - s * t) ^ 2 - (s - t) ^ 2) := by
      have h1 : (2 - s * t) * x ≤ (2 - s * t) * (s * t * u) :=
        mul_le_mul_of_nonneg_left hxu (by linarith)
      have h2 := mul_le_mul_of_nonneg_left hamgm hP0.le
      nlinarith
    have hmain : 4 * (s - t) ^ 2 ≤ D * (2 - s * t) := by
      rw [hD]
      nlinarith
    have h3 : 4 * (s - t) ^ 2 * (s * t + 2) ≤ D * (4 - s * t) := by
      have h4 := mul_le_mul_of_nonneg_right hmain (by linarith : 0 ≤ s * t + 2)
      have h5 : D * (2 - s * t) * (s * t + 2) ≤ D * (4 - s * t) := by
        rw [mul_assoc]
        apply mul_le_mul_of_nonneg_left _ hD0
        nlinarith
      linarith
    by_contra hc
    push Not at hc
    have : 2 * d * (s * t) < D * (s * t) := mul_lt_mul_of_pos_right hc hP0
    nlinarith

/-- **C174 (Lambert).** In the Lambert projection the points of two directions of the upper hemisphere are at
most the root of two times as far apart as the directions, and at least one over the root of two times. -/
theorem C174_lambert (v w : Fin 3 → ℝ) (hv : Spec.UnitDir v) (hw : Spec.UnitDir w) (hvz : 0 ≤ v 2)
    (hwz : 0 ≤ w 2) :
    ∃ p q, lambertProject [v 0, v 1, v 2] = .ok p ∧ lambertProject [w 0, w 1, w 2] = .ok q ∧
      Spec.distSq p q ≤ 2 * Spec.chordSq v w ∧ Spec.chordSq v w ≤ 2 * Spec.distSq p q := by
  refine ⟨_, _, C46_lambert v hv (by linarith), C46_lambert w hw (by linarith), ?_⟩
  unfold Spec.UnitDir at hv hw
  have a1 : v 2 ≤ 1 := by nlinarith [sq_nonneg (v 0), sq_nonneg (v 1)]
  have b1 : w 2 ≤ 1 := by nlinarith [sq_nonneg (w 0), sq_nonneg (w 1)]
  set s := Real.sqrt (1 + v 2) with hs
  set t := Real.sqrt (1 + w 2) with ht
  have s2 : s ^ 2 = 1 + v 2 := Real.sq_sqrt (by linarith)
  have t2 : t ^ 2 = 1 + w 2 := Real.sq_sqrt (by linarith)
  have s1 : 1 ≤ s := Real.one_le_sqrt.2 (by linarith)
  have t1 : 1 ≤ t := Real.one_le_sqrt.2 (by linarith)
  have s0 : s ≠ 0 := by linarith
  have t0 : t ≠ 0 := by linarith
  have r2 : Real.sqrt 2 ^ 2 = 2 := Real.sq_sqrt (by norm_num)
  rw [Real.sqrt_div (by norm_num), Real.sqrt_div (by norm_num), ← hs, ← ht]
  set x := v 0 * w 0 + v 1 * w 1 with hx
  have v3 : v 0 ^ 2 + v 1 ^ 2 = s ^ 2 * (2 - s ^ 2) := by rw [s2]; linarith
  have w3 : w 0 ^ 2 + w 1 ^ 2 = t ^ 2 * (2 - t ^ 2) := by rw [t2]; linarith
  have hD : Spec.chordSq v w = 2 * (s ^ 2 + t ^ 2 - s ^ 2 * t ^ 2 - x) := by
    unfold Spec.chordSq
    rw [s2, t2, hx]
    linarith
  have hcs : x ^ 2 ≤ (s ^ 2 * (2 - s ^ 2)) * (t ^ 2 * (2 - t ^ 2)) := by
    rw [← v3, ← w3, hx]
    nlinarith [sq_nonneg (v 0 * w 1 - v 1 * w 0)]
  refine lambert_bounds s1 t1 (by linarith) (by linarith) hD hcs (by unfold Spec.chordSq; positivity) ?_
  unfold Spec.distSq
  simp only
  have e : (Real.sqrt 2 / s * v 1 - Real.sqrt 2 / t * w 1) ^ 2 +
      (-(Real.sqrt 2 / s * v 0) - -(Real.sqrt 2 / t * w 0)) ^ 2 =
      2 * ((v 0 ^ 2 + v 1 ^ 2) / s ^ 2 + (w 0 ^ 2 + w 1 ^ 2) / t ^ 2 - 2 * x / (s * t)) := by
    rw [hx]
    field_simp
    rw [r2]
    ring
  rw [e, v3, w3, hD]
  field_simp
  ring

/-! ### Inverse pole figures -/

theorem poleDir_unit (ab : ℝ × ℝ) : Spec.UnitDir (Spec.poleDir ab) := by
  unfold Spec.UnitDir Spec.poleDir
  simp only [Matrix.cons_val_zero, Matrix.cons_val_one, Matrix.cons_val]
  have h1 := Real.sin_sq_add_cos_sq ab.1
  have h2 := Real.sin_sq_add_cos_sq ab.2
  linear_combination h1 + Real.sin ab.1 ^ 2 * h2

/-- Polar angles and their direction have the same projections. -/
theorem project_poleDir (ab : ℝ × ℝ) (h0 : 0 ≤ ab.1) (h1 : ab.1 ≤ Real.pi / 2) :
    stereoProject [ab.1, ab.2] =
      stereoProject [Spec.poleDir ab 0, Spec.poleDir ab 1, Spec.poleDir ab 2] ∧
    lambertProject [ab.1, ab.2] =
      lambertProject [Spec.poleDir ab 0, Spec.poleDir ab 1, Spec.poleDir ab 2] := by
  have hpi := Real.pi_pos
  have hc : 0 ≤ Real.cos ab.1 := Real.cos_nonneg_of_neg_pi_div_two_le_of_le (by linarith) h1
  have hz : -1 < Spec.poleDir ab 2 := by
    show -1 < Real.cos ab.1
    linarith
  rw [C46_stereo _ (poleDir_unit ab) hz, C46_lambert _ (poleDir_unit ab) hz]
  have e0 : Spec.poleDir ab 0 = Real.sin ab.1 * Real.cos ab.2 := rfl
  have e1 : Spec.poleDir ab 1 = Real.sin ab.1 * Real.sin ab.2 := rfl
  have e2 : Spec.poleDir ab 2 = Real.cos ab.1 := rfl
  rw [e0, e1, e2]
  have hch : 0 < Real.cos (ab.1 / 2) := Real.cos_pos_of_mem_Ioo ⟨by linarith, by linarith⟩
  have hsh : 0 ≤ Real.sin (ab.1 / 2) := Real.sin_nonneg_of_nonneg_of_le_pi (by linarith) (by linarith)
  have hsin : Real.sin ab.1 = 2 * Real.sin (ab.1 / 2) * Real.cos (ab.1 / 2) := by
    rw [← Real.sin_two_mul, mul_div_cancel₀ _ two_ne_zero]
  have hcos : Real.cos ab.1 = 2 * Real.cos (ab.1 / 2) ^ 2 - 1 := by
    rw [← Real.cos_two_mul, mul_div_cancel₀ _ two_ne_zero]
  have hsq := Real.sin_sq_add_cos_sq (ab.1 / 2)
  unfold stereoProject lambertProject poleArgs
  simp only [Except.bind, pole_rotate]
  constructor
  · rw [Real.tan_eq_sin_div_cos, hsin, hcos]
    congr 2
    · field_simp
      ring
    · field_simp
      ring
  · have a1 : Real.sqrt (2 * (1 - Real.cos ab.1)) = 2 * Real.sin (ab.1 / 2) := by
      rw [hcos, show 2 * (1 - (2 * Real.cos (ab.1 / 2) ^ 2 - 1)) = (2 * Real.sin (ab.1 / 2)) ^ 2 by
        linear_combination (-4) * hsq]
      exact Real.sqrt_sq (by linarith)
    have a2 : Real.sqrt (2 / (1 + Real.cos ab.1)) = 1 / Real.cos (ab.1 / 2) := by
      rw [hcos, show 2 / (1 + (2 * Real.cos (ab.1 / 2) ^ 2 - 1)) = (1 / Real.cos (ab.1 / 2)) ^ 2 by
        rw [div_pow, one_pow, div_eq_div_iff (by nlinarith) (by positivity)]
        ring]
      exact Real.sqrt_sq (by positivity)
    rw [a1, a2, hsin]
    congr 2
    · field_simp
    · field_simp

/-- The distance of directions is at most their angle. -/
theorem chord_le_angle {v w : Fin 3 → ℝ} (hv : Spec.UnitDir v) (hw : Spec.UnitDir w) {θ : ℝ}
    (h : Real.arccos (v ⬝ᵥ w) ≤ θ) : Spec.chordSq v w ≤ θ ^ 2 := by
  have e : Spec.chordSq v w = 2 - 2 * (v ⬝ᵥ w) := by
    unfold Spec.chordSq Spec.UnitDir at *
    simp only [dotProduct, Fin.sum_univ_three]
    linarith
  have hb : |v ⬝ᵥ w| ≤ 1 := by
    unfold Spec.UnitDir at hv hw
    rw [abs_le_one_iff_mul_self_le_one]
    simp only [dotProduct, Fin.sum_univ_three]
    nlinarith [sq_nonneg (v 0 * w 1 - v 1 * w 0), sq_nonneg (v 0 * w 2 - v 2 * w 0),
      sq_nonneg (v 1 * w 2 - v 2 * w 1)]
  obtain ⟨b1, b2⟩ := abs_le.1 hb
  have hc := Real.one_sub_sq_div_two_le_cos (x := Real.arccos (v ⬝ᵥ w))
  rw [Real.cos_arccos b1 b2] at hc
  have h0 := Real.arccos_nonneg (v ⬝ᵥ w)
  rw [e]
  nlinarith

theorem project_near {ab ab' : ℝ × ℝ} (h0 : 0 ≤ ab.1) (h1 : ab.1 ≤ Real.pi / 2) (h0' : 0 ≤ ab'.1)
    (h1' : ab'.1 ≤ Real.pi / 2) {θ : ℝ}
    (h : Real.arccos (Spec.poleDir ab ⬝ᵥ Spec.poleDir ab') ≤ θ) :
    (∃ p q, stereoProject [ab.1, ab.2] = .ok p ∧ stereoProject [ab'.1, ab'.2] = .ok q ∧
      Spec.distSq p q ≤ θ ^ 2) ∧
    ∃ p q, lambertProject [ab.1, ab.2] = .ok p ∧ lambertProject [ab'.1, ab'.2] = .ok q ∧
      Spec.distSq p q ≤ 2 * θ ^ 2 := by
  have hpi := Real.pi_pos
  have hz : 0 ≤ Spec.poleDir ab 2 :=
    Real.cos_nonneg_of_neg_pi_div_two_le_of_le (by linarith) h1
  have hz' : 0 ≤ Spec.poleDir ab' 2 :=
    Real.cos_nonneg_of_neg_pi_div_two_le_of_le (by linarith) h1'
  have hc := chord_le_angle (poleDir_unit ab) (poleDir_unit ab') h
  rw [(project_poleDir ab h0 h1).1, (project_poleDir ab h0 h1).2, (project_poleDir ab' h0' h1').1,
    (project_poleDir ab' h0' h1').2]
  obtain ⟨p, q, e1, e2, -, hb⟩ := C174_stereo _ _ (poleDir_unit ab) (poleDir_unit ab') (by linarith)
    (by linarith)
  obtain ⟨p', q', e1', e2', hb', -⟩ := C174_lambert _ _ (poleDir_unit ab) (poleDir_unit ab') hz hz'
  exact ⟨⟨p, q, e1, e2, (hb hz hz').1.trans hc⟩, p', q', e1', e2', by linarith⟩

/-- **C174 (inverse pole figure).** In an inverse pole figure of cubic crystals, unless a cube axis of one of
them is exactly along the sample direction, the points of two orientations are at most as far apart as the
misorientation angle in radians in the stereographic projection, and at most the root of two times this in
the Lambert projection. -/
theorem C174_cubic (triangle : String) (quats : List (Quat ℝ)) (hq : ∀ q ∈ quats, q.IsUnit)
    (d : Fin 3 → ℝ) (hd : d ≠ 0) :
    ∃ out, calcFundDirs .cubic triangle quats d = .ok out ∧ out.length = quats.length ∧
      ∀ (i j : Nat) (r r' : Quat ℝ) (ab ab' : ℝ × ℝ), quats[i]? = some r → quats[j]? = some r' →
        out[i]? = some ab → out[j]? = some ab' →
        (∀ k, |inCrystal r d k| ≠ 1) → (∀ k, |inCrystal r' d k| ≠ 1) →
        (∃ p q, stereoProject [ab.1, ab.2] = .ok p ∧ stereoProject [ab'.1, ab'.2] = .ok q ∧
          Spec.distSq p q ≤ misAngle .cubic r r' ^ 2) ∧
        ∃ p q, lambertProject [ab.1, ab.2] = .ok p ∧ lambertProject [ab'.1, ab'.2] = .ok q ∧
          Spec.distSq p q ≤ 2 * misAngle .cubic r r' ^ 2 := by
  obtain ⟨out, e, hlen, hnear⟩ := C162_cubic triangle quats hq d hd
  obtain ⟨out', e', hr⟩ := C45_cubic triangle quats hq d hd
  rw [e] at e'
  injection e' with e'
  subst e'
  refine ⟨out, e, hlen, ?_⟩
  intro i j r r' ab ab' hi hj oi oj hp hp'
  obtain ⟨-, ⟨a0, a1⟩, -⟩ := forall₂_at hr hi oi
  obtain ⟨-, ⟨b0, b1⟩, -⟩ := forall₂_at hr hj oj
  exact project_near a0 a1 b0 b1 (hnear i j r r' ab ab' hi hj oi oj hp hp')

/-- **C174 (inverse pole figure, hexagonal).** The same for hexagonal crystals, unless the axis of one of them
is exactly along the sample direction. -/
theorem C174_hexagonal {triangle : String} (ht : triangle = "up" ∨ triangle = "down")
    (quats : List (Quat ℝ)) (hq : ∀ q ∈ quats, q.IsUnit) (d : Fin 3 → ℝ) (hd : d ≠ 0)
    (hoff : ∀ q ∈ quats, inCrystal q d 0 ≠ 0 ∨ inCrystal q d 1 ≠ 0) :
    ∃ out, calcFundDirs .hexagonal triangle quats d = .ok out ∧ out.length = quats.length ∧
      ∀ (i j : Nat) (r r' : Quat ℝ) (ab ab' : ℝ × ℝ), quats[i]? = some r → quats[j]? = some r' →
        out[i]? = some ab → out[j]? = some ab' →
        (∃ p q, stereoProject [ab.1, ab.2] = .ok p ∧ stereoProject [ab'.1, ab'.2] = .ok q ∧
          Spec.distSq p q ≤ misAngle .hexagonal r r' ^ 2) ∧
        ∃ p q, lambertProject [ab.1, ab.2] = .ok p ∧ lambertProject [ab'.1, ab'.2] = .ok q ∧
          Spec.distSq p q ≤ 2 * misAngle .hexagonal r r' ^ 2 := by
  obtain ⟨out, e, hlen, hnear⟩ := C162_hexagonal ht quats hq d hd hoff
  obtain ⟨out', e', hr⟩ := C45_hexagonal ht quats hq d hd hoff
  rw [e] at e'
  injection e' with e'
  subst e'
  refine ⟨out, e, hlen, ?_⟩
  intro i j r r' ab ab' hi hj oi oj
  obtain ⟨-, ⟨a0, a1⟩, -⟩ := forall₂_at hr hi oi
  obtain ⟨-, ⟨b0, b1⟩, -⟩ := forall₂_at hr hj oj
  exact project_near a0 a1 b0 b1 (hnear i j r r' ab ab' hi hj oi oj)

/-! ### Concrete cases -/

/-- Two directions of the upper hemisphere. -/
example : Spec.UnitDir ![3 / 5, 0, 4 / 5] ∧ Spec.UnitDir ![0, 1, 0] ∧
    (0 : ℝ) ≤ (![3 / 5, 0, 4 / 5] : Fin 3 → ℝ) 2 := by
  refine ⟨?_, ?_, ?_⟩
  · simp [Spec.UnitDir]; norm_num
  · simp [Spec.UnitDir]
  · simp; norm_num

/-- A crystal with the sample direction off the cube axes and off the hexagonal axis. -/
example : (⟨1, 0, 0, 0⟩ : Quat ℝ).IsUnit ∧
    (∀ k, |inCrystal ⟨1, 0, 0, 0⟩ ![3 / 5, 0, 4 / 5] k| ≠ 1) ∧
    inCrystal ⟨1, 0, 0, 0⟩ ![3 / 5, 0, 4 / 5] 0 ≠ 0 := by
  have h : inCrystal ⟨1, 0, 0, 0⟩ ![3 / 5, 0, 4 / 5] = ![3 / 5, 0, 4 / 5] := by
    funext i
    fin_cases i <;> simp [inCrystal, rotMatrix, dotProduct, Fin.sum_univ_three] <;> norm_num
  refine ⟨by simp [Quat.IsUnit], ?_, ?_⟩
  · intro k
    rw [h]
    fin_cases k <;> simp <;> norm_num [abs_of_pos]
  · rw [h]
    simp

end DefDAP
