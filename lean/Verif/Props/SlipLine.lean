import Verif.Model.Inspector
import Mathlib.Analysis.SpecialFunctions.Complex.Arg
import Mathlib.Tactic.Linarith
import Mathlib.Tactic.FieldSimp
import Mathlib.Tactic.Ring

/-! C73: the angle of a drawn slip line. -/

namespace DefDAP

/-- The angle from a direction in degrees. -/
noncomputable def angleOf (A : ℝ) : ℝ :=
  open Classical in if 90 - A > 180 then 90 - A - 180 else if 90 - A < 0 then 90 - A + 180 else 90 - A

theorem lineAngle_eq (c : ℝ) (p1 p2 : ℝ × ℝ) : lineAngle c p1 p2 =
    angleOf (Complex.arg ⟨p2.1 - p1.1, p2.2 - p1.2⟩ * 180 / Real.pi) - c := rfl

theorem deg_bounds (z : ℂ) : -180 < z.arg * 180 / Real.pi ∧ z.arg * 180 / Real.pi ≤ 180 := by
  have hp := Real.pi_pos
  have h1 := Complex.neg_pi_lt_arg z
  have h2 := Complex.arg_le_pi z
  constructor
  · rw [lt_div_iff₀ hp]; linarith
  · rw [div_le_iff₀ hp]; linarith

/-- **C73**: the angle lies between 0 and 180 degrees, less the correction. -/
theorem C73_range (c : ℝ) (p1 p2 : ℝ × ℝ) :
    0 ≤ lineAngle c p1 p2 + c ∧ lineAngle c p1 p2 + c ≤ 180 := by
  rw [lineAngle_eq, sub_add_cancel]
  obtain ⟨h1, h2⟩ := deg_bounds ⟨p2.1 - p1.1, p2.2 - p1.2⟩
  unfold angleOf
  split
  · constructor <;> linarith
  · split
    · constructor <;> linarith
    · constructor <;> linarith

/-- **C73**: the angle is that between the line and the y axis: a line of this angle is parallel to
the one drawn. -/
theorem C73_direction (c : ℝ) (p1 p2 : ℝ × ℝ) :
    let θ := (lineAngle c p1 p2 + c) * Real.pi / 180
    Real.sin θ * (p2.2 - p1.2) = Real.cos θ * (p2.1 - p1.1) := by
  intro θ
  set z : ℂ := ⟨p2.1 - p1.1, p2.2 - p1.2⟩ with hz
  have hx : ‖z‖ * Real.cos z.arg = p2.1 - p1.1 := Complex.norm_mul_cos_arg z
  have hy : ‖z‖ * Real.sin z.arg = p2.2 - p1.2 := Complex.norm_mul_sin_arg z
  have hp := Real.pi_pos
  have h90 : (90 - z.arg * 180 / Real.pi) * Real.pi / 180 = Real.pi / 2 - z.arg := by
    field_simp
    ring
  have cases' : (Real.sin θ = Real.cos z.arg ∧ Real.cos θ = Real.sin z.arg) ∨
      (Real.sin θ = -Real.cos z.arg ∧ Real.cos θ = -Real.sin z.arg) := by
    have hθ : θ = angleOf (z.arg * 180 / Real.pi) * Real.pi / 180 := by
      show (lineAngle c p1 p2 + c) * Real.pi / 180 = _
      rw [lineAngle_eq, sub_add_cancel]
    rw [hθ]
    unfold angleOf
    split
    · right
      have e : (90 - z.arg * 180 / Real.pi - 180) * Real.pi / 180 =
          Real.pi / 2 - z.arg - Real.pi := by rw [← h90]; ring
      rw [e, Real.sin_sub_pi, Real.cos_sub_pi, Real.sin_pi_div_two_sub, Real.cos_pi_div_two_sub]
      exact ⟨rfl, rfl⟩
    · split
      · right
        have e : (90 - z.arg * 180 / Real.pi + 180) * Real.pi / 180 =
            Real.pi / 2 - z.arg + Real.pi := by rw [← h90]; ring
        rw [e, Real.sin_add_pi, Real.cos_add_pi, Real.sin_pi_div_two_sub, Real.cos_pi_div_two_sub]
        exact ⟨rfl, rfl⟩
      · left
        rw [h90, Real.sin_pi_div_two_sub, Real.cos_pi_div_two_sub]
        exact ⟨rfl, rfl⟩
  rw [← hx, ← hy]
  rcases cases' with ⟨e1, e2⟩ | ⟨e1, e2⟩ <;> rw [e1, e2] <;> ring

/-- Turning the direction round when the line is not vertical. -/
theorem angleOf_flip {A : ℝ} (h0 : 0 < A) (h1 : A < 180) (h : A ≠ 90) :
    angleOf (A - 180) = angleOf A := by
  unfold angleOf
  rcases lt_or_gt_of_ne h with h | h
  · rw [if_pos (by linarith), if_neg (by linarith), if_neg (by linarith)]; ring
  · rw [if_neg (by linarith), if_neg (by linarith), if_neg (by linarith), if_pos (by linarith)]
    ring

theorem lineAngle_flip_pos {c : ℝ} {p1 p2 : ℝ × ℝ} (hx : p1.1 ≠ p2.1) (hy : p1.2 < p2.2) :
    lineAngle c p2 p1 = lineAngle c p1 p2 := by
  rw [lineAngle_eq, lineAngle_eq]
  set z : ℂ := ⟨p2.1 - p1.1, p2.2 - p1.2⟩ with hz
  have hn : (⟨p1.1 - p2.1, p1.2 - p2.2⟩ : ℂ) = -z := by
    rw [hz]; apply Complex.ext <;> simp
  have hp := Real.pi_pos
  have him : 0 < z.im := by show 0 < p2.2 - p1.2; linarith
  rw [hn, Complex.arg_neg_eq_arg_sub_pi_of_im_pos him]
  have hne : z.arg ≠ Real.pi / 2 := by
    intro h
    have := (Complex.arg_eq_pi_div_two_iff.mp h).1
    have h' : p2.1 - p1.1 = 0 := this
    exact hx (by linarith)
  have hpos : 0 < z.arg := by
    have h1 : 0 ≤ z.arg := Complex.arg_nonneg_iff.mpr him.le
    rcases h1.lt_or_eq with h | h
    · exact h
    · have := (Complex.arg_eq_zero_iff.mp h.symm).2
      linarith
  have hlt : z.arg < Real.pi := by
    rcases (Complex.arg_le_pi z).lt_or_eq with h | h
    · exact h
    · have := (Complex.arg_eq_pi_iff.mp h).2
      linarith
  have e : (z.arg - Real.pi) * 180 / Real.pi = z.arg * 180 / Real.pi - 180 := by
    field_simp
  rw [e, angleOf_flip]
  · positivity
  · rw [div_lt_iff₀ hp]; linarith
  · intro h
    apply hne
    field_simp at h
    linarith

/-- **C73**: for a line that is not vertical the angle is the same whichever end it is drawn from,
so that the stored lines differ in the order of their ends only. -/
theorem C73_symmetric (c : ℝ) (p1 p2 : ℝ × ℝ) (h : p1.1 ≠ p2.1) :
    lineAngle c p2 p1 = lineAngle c p1 p2 ∧
    (drawnLine c p2 p1).angle = (drawnLine c p1 p2).angle := by
  have key : lineAngle c p2 p1 = lineAngle c p1 p2 := by
    rcases lt_trichotomy p1.2 p2.2 with hy | hy | hy
    · exact lineAngle_flip_pos h hy
    · rw [lineAngle_eq, lineAngle_eq, hy, sub_self]
      have hp := Real.pi_ne_zero
      have key : ∀ x : ℝ, x ≠ 0 → angleOf (Complex.arg ⟨x, 0⟩ * 180 / Real.pi) = 90 := by
        intro x hx
        have e : (⟨x, 0⟩ : ℂ) = (x : ℂ) := rfl
        rw [e]
        rcases lt_or_gt_of_ne hx with hx | hx
        · rw [Complex.arg_ofReal_of_neg hx, mul_div_assoc, mul_div_cancel₀]
          · unfold angleOf; norm_num
          · exact hp
        · rw [Complex.arg_ofReal_of_nonneg hx.le]
          unfold angleOf
          norm_num
      rw [key _ (sub_ne_zero.mpr h), key _ (sub_ne_zero.mpr (Ne.symm h))]
    · exact (lineAngle_flip_pos (Ne.symm h) hy).symm
  refine ⟨key, ?_⟩
  show round2 (lineAngle c p2 p1) = round2 (lineAngle c p1 p2)
  rw [key]

/-- **C73**: a vertical line has the angle 0 drawn in the direction of increasing y and 180 drawn in
the other. -/
theorem C73_vertical (c x y1 y2 : ℝ) (h : y1 < y2) :
    lineAngle c (x, y1) (x, y2) = 0 - c ∧ lineAngle c (x, y2) (x, y1) = 180 - c := by
  have hp := Real.pi_ne_zero
  rw [lineAngle_eq, lineAngle_eq]
  simp only [sub_self]
  have e1 : Complex.arg ⟨0, y2 - y1⟩ = Real.pi / 2 :=
    Complex.arg_eq_pi_div_two_iff.mpr ⟨rfl, by show 0 < y2 - y1; linarith⟩
  have e2 : Complex.arg ⟨0, y1 - y2⟩ = -(Real.pi / 2) :=
    Complex.arg_eq_neg_pi_div_two_iff.mpr ⟨rfl, by show y1 - y2 < 0; linarith⟩
  rw [e1, e2]
  have f1 : Real.pi / 2 * 180 / Real.pi = 90 := by field_simp; norm_num
  have f2 : -(Real.pi / 2) * 180 / Real.pi = -90 := by field_simp; norm_num
  rw [f1, f2]
  unfold angleOf
  norm_num

/-! ### Non-vacuity -/

/-- A diagonal line. -/
example : lineAngle 0 (3, 4) (1, 2) = lineAngle 0 (1, 2) (3, 4) :=
  (C73_symmetric 0 (1, 2) (3, 4) (by norm_num)).1

end DefDAP
