import Verif.Model.Quat
import Mathlib.Algebra.Quaternion
import Mathlib.LinearAlgebra.CrossProduct
import Mathlib.LinearAlgebra.Matrix.Determinant.Basic
import Mathlib.Tactic.Ring
import Mathlib.Tactic.LinearCombination
import Mathlib.Tactic.Linarith
import Mathlib.Tactic.FinCases
import Mathlib.Tactic.Positivity

/-! C34–C38: products, rotation of vectors, rotation matrices, Euler angles, axis and angle. -/

namespace DefDAP

open scoped Quaternion Matrix

namespace Quat

/-- The orientation as a quaternion of Mathlib. -/
def toH (q : Quat ℝ) : ℍ[ℝ] := ⟨q.q0, q.q1, q.q2, q.q3⟩

/-- Unit quaternions. -/
def IsUnit (q : Quat ℝ) : Prop := q.q0 ^ 2 + q.q1 ^ 2 + q.q2 ^ 2 + q.q3 ^ 2 = 1

/-- Northern quaternions. -/
def North (q : Quat ℝ) : Prop := 0 ≤ q.q0

theorem make_cases (b : Bool) (q : Quat ℝ) :
    (make b q = q ∧ (b = true ∨ 0 ≤ q.q0)) ∨ (make b q = q.neg ∧ b = false ∧ q.q0 < 0) := by
  unfold make
  split
  · rename_i h; exact .inr ⟨rfl, h⟩
  · rename_i h
    refine .inl ⟨rfl, ?_⟩
    cases b
    · right; simpa using h
    · left; rfl

theorem make_true (q : Quat ℝ) : make true q = q := by simp [make]

theorem make_north {q : Quat ℝ} (h : 0 ≤ q.q0) : make false q = q := by
  unfold make; rw [if_neg]; intro h'; linarith [h'.2]

theorem make_south {q : Quat ℝ} (h : q.q0 < 0) : make false q = q.neg := by
  unfold make; rw [if_pos ⟨rfl, h⟩]

theorem north_make (q : Quat ℝ) : (make false q).North := by
  rcases make_cases false q with ⟨h, h'⟩ | ⟨h, -, h'⟩
  · rw [h]; exact h'.resolve_left (by simp)
  · rw [h]; simp only [North, neg]; linarith

theorem dot_neg_neg (p : Quat ℝ) : dot p.neg p.neg = dot p p := by simp [dot, neg]

theorem make_dot (b : Bool) (q : Quat ℝ) : dot (make b q) (make b q) = dot q q := by
  rcases make_cases b q with ⟨h, -⟩ | ⟨h, -⟩
  · rw [h]
  · rw [h, dot_neg_neg]

theorem isUnit_iff (q : Quat ℝ) : q.IsUnit ↔ dot q q = 1 := by
  unfold IsUnit dot; constructor <;> intro h <;> linarith

theorem isUnit_neg {q : Quat ℝ} : q.neg.IsUnit ↔ q.IsUnit := by
  rw [isUnit_iff, isUnit_iff, dot_neg_neg]

theorem isUnit_make {b : Bool} {q : Quat ℝ} : (make b q).IsUnit ↔ q.IsUnit := by
  rw [isUnit_iff, isUnit_iff, make_dot]

@[simp] theorem toH_re (q : Quat ℝ) : (toH q).re = q.q0 := rfl
@[simp] theorem toH_imI (q : Quat ℝ) : (toH q).imI = q.q1 := rfl
@[simp] theorem toH_imJ (q : Quat ℝ) : (toH q).imJ = q.q2 := rfl
@[simp] theorem toH_imK (q : Quat ℝ) : (toH q).imK = q.q3 := rfl

theorem toH_neg (q : Quat ℝ) : toH q.neg = -toH q := by
  ext <;> simp [neg]

theorem toH_mulRaw (p q : Quat ℝ) : toH (mulRaw p q) = toH p * toH q := by
  ext <;> simp [mulRaw] <;> ring

theorem dot_mulRaw (p q : Quat ℝ) : dot (mulRaw p q) (mulRaw p q) = dot p p * dot q q := by
  simp only [dot, mulRaw]; ring

theorem isUnit_mulRaw {p q : Quat ℝ} (hp : p.IsUnit) (hq : q.IsUnit) : (mulRaw p q).IsUnit := by
  rw [isUnit_iff] at *; rw [dot_mulRaw, hp, hq, one_mul]

theorem isUnit_mul {p q : Quat ℝ} (hp : p.IsUnit) (hq : q.IsUnit) : (mul p q).IsUnit :=
  isUnit_make.2 (isUnit_mulRaw hp hq)

end Quat

open Quat

/-- **C34 (product).** The product of two orientations is the product of quaternions, up to
the sign that puts it in the northern hemisphere, and its norm is the product of the norms. -/
theorem C34_product (p q : Quat ℝ) :
    (toH (mul p q) = toH p * toH q ∨ toH (mul p q) = -(toH p * toH q)) ∧
    0 ≤ (mul p q).q0 ∧ (mul p q).norm = p.norm * q.norm := by
  refine ⟨?_, north_make _, ?_⟩
  · unfold mul
    rcases make_cases false (mulRaw p q) with ⟨h, -⟩ | ⟨h, -⟩
    · left; rw [h, toH_mulRaw]
    · right; rw [h, toH_neg, toH_mulRaw]
  · unfold mul Quat.norm
    rw [make_dot, dot_mulRaw, Real.sqrt_mul]
    unfold dot; nlinarith [sq_nonneg p.q0, sq_nonneg p.q1, sq_nonneg p.q2, sq_nonneg p.q3]

/-- Rotation of a vector by a northern quaternion, as a matrix product. -/
theorem transform_matrix (q : Quat ℝ) (hq : q.North) (v : Fin 3 → ℝ) :
    transformVector q v = rotMatrix q *ᵥ v := by
  have hc : conjugate q = ⟨q.q0, -q.q1, -q.q2, -q.q3⟩ := make_north (q := ⟨q.q0, -q.q1, -q.q2, -q.q3⟩) hq
  have hv : make false ⟨0, v 0, v 1, v 2⟩ = ⟨0, v 0, v 1, v 2⟩ :=
    make_north (q := ⟨0, v 0, v 1, v 2⟩) le_rfl
  unfold transformVector
  rw [hc, hv]
  simp only [mul, make_true]
  ext i
  fin_cases i <;>
    simp [rotMatrix, mulRaw, Matrix.mulVec, dotProduct, Fin.sum_univ_three] <;> ring

/-- Rotation of a vector by a southern quaternion. -/
theorem transform_south (q : Quat ℝ) (hq : q.q0 < 0) (v : Fin 3 → ℝ) :
    transformVector q v = -(rotMatrix q *ᵥ v) := by
  have hc : conjugate q = ⟨-q.q0, q.q1, q.q2, q.q3⟩ := by
    unfold conjugate
    rw [make_south (q := ⟨q.q0, -q.q1, -q.q2, -q.q3⟩) hq]; simp [neg]
  have hv : make false ⟨0, v 0, v 1, v 2⟩ = ⟨0, v 0, v 1, v 2⟩ :=
    make_north (q := ⟨0, v 0, v 1, v 2⟩) le_rfl
  unfold transformVector
  rw [hc, hv]
  simp only [mul, make_true]
  ext i
  fin_cases i <;>
    simp [rotMatrix, mulRaw, Matrix.mulVec, dotProduct, Fin.sum_univ_three] <;> ring

theorem rotMatrix_neg (q : Quat ℝ) : rotMatrix q.neg = rotMatrix q := by
  simp [rotMatrix, neg]

theorem rotMatrix_mulRaw (p q : Quat ℝ) : rotMatrix (mulRaw p q) = rotMatrix p * rotMatrix q := by
  ext i j
  fin_cases i <;> fin_cases j <;>
    simp [rotMatrix, mulRaw, Matrix.mul_apply, Fin.sum_univ_three] <;> ring

theorem rotMatrix_make (b : Bool) (q : Quat ℝ) : rotMatrix (make b q) = rotMatrix q := by
  rcases make_cases b q with ⟨h, -⟩ | ⟨h, -⟩
  · rw [h]
  · rw [h, rotMatrix_neg]

/-- **C34 (composition).** Rotating a vector by a product of orientations is rotating it by
the right factor and then by the left. -/
theorem C34_compose (p q : Quat ℝ) (hp : p.North) (hq : q.North) (v : Fin 3 → ℝ) :
    transformVector (mul p q) v = transformVector p (transformVector q v) := by
  rw [transform_matrix (mul p q) (north_make _), transform_matrix p hp, transform_matrix q hq,
    mul, rotMatrix_make, rotMatrix_mulRaw, Matrix.mulVec_mulVec]

/-- **C34 (conjugate).** A unit quaternion times its conjugate, in either order, is the
identity, and the conjugate undoes the rotation. -/
theorem C34_conjugate (p : Quat ℝ) (hp : p.IsUnit) :
    mul p (conjugate p) = ⟨1, 0, 0, 0⟩ ∧ mul (conjugate p) p = ⟨1, 0, 0, 0⟩ ∧
    (p.North → ∀ v, transformVector (conjugate p) (transformVector p v) = v) := by
  have hu : p.q0 ^ 2 + p.q1 ^ 2 + p.q2 ^ 2 + p.q3 ^ 2 = 1 := hp
  have hr : mulRaw p ⟨p.q0, -p.q1, -p.q2, -p.q3⟩ = ⟨1, 0, 0, 0⟩ := by
    ext <;> simp [mulRaw] <;> linarith
  have hl : mulRaw ⟨p.q0, -p.q1, -p.q2, -p.q3⟩ p = ⟨1, 0, 0, 0⟩ := by
    ext <;> simp [mulRaw] <;> linarith
  have h1 : make false (⟨1, 0, 0, 0⟩ : Quat ℝ) = ⟨1, 0, 0, 0⟩ := make_north zero_le_one
  have h2 : make false (neg (⟨1, 0, 0, 0⟩ : Quat ℝ)) = ⟨1, 0, 0, 0⟩ := by
    rw [make_south] <;> simp [neg]
  have n1 : ∀ a b : Quat ℝ, mulRaw a b.neg = (mulRaw a b).neg := by
    intro a b; ext <;> simp [mulRaw, neg] <;> ring
  have n2 : ∀ a b : Quat ℝ, mulRaw a.neg b = (mulRaw a b).neg := by
    intro a b; ext <;> simp [mulRaw, neg] <;> ring
  have e1 : mul p (conjugate p) = ⟨1, 0, 0, 0⟩ := by
    unfold mul conjugate
    rcases make_cases false (⟨p.q0, -p.q1, -p.q2, -p.q3⟩ : Quat ℝ) with ⟨h, -⟩ | ⟨h, -⟩
    · rw [h, hr, h1]
    · rw [h, n1, hr, h2]
  have e2 : mul (conjugate p) p = ⟨1, 0, 0, 0⟩ := by
    unfold mul conjugate
    rcases make_cases false (⟨p.q0, -p.q1, -p.q2, -p.q3⟩ : Quat ℝ) with ⟨h, -⟩ | ⟨h, -⟩
    · rw [h, hl, h1]
    · rw [h, n2, hl, h2]
  refine ⟨e1, e2, fun hn v => ?_⟩
  rw [← C34_compose (conjugate p) p (north_make _) hn, e2,
    transform_matrix ⟨1, 0, 0, 0⟩ (show (0 : ℝ) ≤ 1 from zero_le_one)]
  ext i
  fin_cases i <;> simp [rotMatrix, Matrix.mulVec, dotProduct, Fin.sum_univ_three]

/-- **C36 (proper rotation).** The rotation matrix of a unit quaternion is orthogonal with
determinant one. -/
theorem C36_rotation (q : Quat ℝ) (hq : q.IsUnit) :
    rotMatrix q * (rotMatrix q)ᵀ = 1 ∧ (rotMatrix q)ᵀ * rotMatrix q = 1 ∧
    (rotMatrix q).det = 1 := by
  have hu : q.q0 ^ 2 + q.q1 ^ 2 + q.q2 ^ 2 + q.q3 ^ 2 = 1 := hq
  have key : rotMatrix q * (rotMatrix q)ᵀ = 1 := by
    ext i j
    fin_cases i <;> fin_cases j <;>
      simp [rotMatrix, Matrix.mul_apply, Fin.sum_univ_three] <;>
      first
        | (linear_combination (q.q0 ^ 2 + q.q1 ^ 2 + q.q2 ^ 2 + q.q3 ^ 2 + 1) * hu)
        | ring
  refine ⟨key, mul_eq_one_comm.1 key, ?_⟩
  rw [Matrix.det_fin_three]
  simp [rotMatrix]
  linear_combination ((q.q0 ^ 2 + q.q1 ^ 2 + q.q2 ^ 2 + q.q3 ^ 2) ^ 2 +
    (q.q0 ^ 2 + q.q1 ^ 2 + q.q2 ^ 2 + q.q3 ^ 2) + 1) * hu

/-- **C36 (agreement).** Multiplying a vector by the rotation matrix is transforming it by
the quaternion, for every northern quaternion; for southern ones the result is the
negative. -/
theorem C36_agrees (q : Quat ℝ) (v : Fin 3 → ℝ) :
    (q.North → rotMatrix q *ᵥ v = transformVector q v) ∧
    (¬ q.North → rotMatrix q *ᵥ v = -transformVector q v) := by
  constructor
  · intro h; rw [transform_matrix q h]
  · intro h; rw [transform_south q (not_le.1 h), neg_neg]

/-- **C35.** Rotating vectors by a northern unit quaternion preserves dot products and cross
products. -/
theorem C35_isometry (q : Quat ℝ) (hu : q.IsUnit) (hn : q.North) (v w : Fin 3 → ℝ) :
    transformVector q v ⬝ᵥ transformVector q w = v ⬝ᵥ w ∧
    transformVector q v ⨯₃ transformVector q w = transformVector q (v ⨯₃ w) := by
  have hr := (C36_rotation q hu).2.1
  rw [transform_matrix q hn, transform_matrix q hn, transform_matrix q hn]
  refine ⟨?_, ?_⟩
  · rw [Matrix.dotProduct_mulVec, Matrix.vecMul_mulVec, hr, Matrix.vecMul_one]
  · have hh : q.q0 ^ 2 + q.q1 ^ 2 + q.q2 ^ 2 + q.q3 ^ 2 = 1 := hu
    ext i
    fin_cases i <;>
      simp [rotMatrix, Matrix.mulVec, dotProduct, Fin.sum_univ_three, cross_apply]
    · linear_combination ((q.q0 ^ 2 - q.q1 ^ 2 - q.q2 ^ 2 - q.q3 ^ 2 + 2 * q.q1 ^ 2) * (v 1 * w 2 - v 2 * w 1) +
        (2 * (q.q1 * q.q2 - q.q0 * q.q3)) * (v 2 * w 0 - v 0 * w 2) +
        (2 * (q.q1 * q.q3 + q.q0 * q.q2)) * (v 0 * w 1 - v 1 * w 0)) * hh
    · linear_combination ((2 * (q.q1 * q.q2 + q.q0 * q.q3)) * (v 1 * w 2 - v 2 * w 1) +
        (q.q0 ^ 2 - q.q1 ^ 2 - q.q2 ^ 2 - q.q3 ^ 2 + 2 * q.q2 ^ 2) * (v 2 * w 0 - v 0 * w 2) +
        (2 * (q.q2 * q.q3 - q.q0 * q.q1)) * (v 0 * w 1 - v 1 * w 0)) * hh
    · linear_combination ((2 * (q.q1 * q.q3 - q.q0 * q.q2)) * (v 1 * w 2 - v 2 * w 1) +
        (2 * (q.q2 * q.q3 + q.q0 * q.q1)) * (v 2 * w 0 - v 0 * w 2) +
        (q.q0 ^ 2 - q.q1 ^ 2 - q.q2 ^ 2 - q.q3 ^ 2 + 2 * q.q3 ^ 2) * (v 0 * w 1 - v 1 * w 0)) * hh

/-- **C35 (the sign matters).** For a quaternion off the southern hemisphere's border the
claim about the sign is false: a southern quaternion, which stands for the same rotation as
its negative, sends every vector to the negative of what that gives. -/
theorem C35_sign (q : Quat ℝ) (hq : q.q0 < 0) (v : Fin 3 → ℝ) :
    transformVector q v = -transformVector q.neg v := by
  rw [transform_south q hq, transform_matrix q.neg (by simp only [North, neg]; linarith),
    rotMatrix_neg]

/-- The hypotheses are met: a northern and a southern unit quaternion, and a vector that the
southern one sends to the opposite of where its rotation matrix sends it. -/
example : (⟨4 / 5, 0, 3 / 5, 0⟩ : Quat ℝ).IsUnit ∧ (⟨4 / 5, 0, 3 / 5, 0⟩ : Quat ℝ).North ∧
    (⟨-4 / 5, 0, 3 / 5, 0⟩ : Quat ℝ).IsUnit ∧ ¬ (⟨-4 / 5, 0, 3 / 5, 0⟩ : Quat ℝ).North ∧
    transformVector ⟨-4 / 5, 0, 3 / 5, 0⟩ ![0, 1, 0] = ![0, -1, 0] := by
  refine ⟨?_, ?_, ?_, ?_, ?_⟩
  · simp only [Quat.IsUnit]; norm_num
  · simp only [North]; norm_num
  · simp only [Quat.IsUnit]; norm_num
  · simp only [North]; norm_num
  · rw [transform_south _ (by norm_num)]
    funext i
    fin_cases i <;> simp [rotMatrix, Matrix.mulVec, dotProduct, Fin.sum_univ_three] <;> norm_num

end DefDAP
