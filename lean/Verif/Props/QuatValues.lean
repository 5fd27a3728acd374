import Verif.Model.QuatValues
import Verif.Props.Quat
import Mathlib.Tactic.LinearCombination

/-! C110: quaternions as values: equality, hash, products, sums and changes. -/

namespace DefDAP

open Quat

/-- The pairwise products of the coefficients are determined by the rotation. -/
theorem products_of_rotMatrix (p q : Quat ℝ) (hp : p.IsUnit) (hq : q.IsUnit)
    (h : rotMatrix p = rotMatrix q) :
    p.q0 * p.q0 = q.q0 * q.q0 ∧ p.q1 * p.q1 = q.q1 * q.q1 ∧ p.q2 * p.q2 = q.q2 * q.q2 ∧
    p.q3 * p.q3 = q.q3 * q.q3 ∧ p.q0 * p.q1 = q.q0 * q.q1 ∧ p.q0 * p.q2 = q.q0 * q.q2 ∧
    p.q0 * p.q3 = q.q0 * q.q3 ∧ p.q1 * p.q2 = q.q1 * q.q2 ∧ p.q1 * p.q3 = q.q1 * q.q3 ∧
    p.q2 * p.q3 = q.q2 * q.q3 := by
  have hp' : p.q0 ^ 2 + p.q1 ^ 2 + p.q2 ^ 2 + p.q3 ^ 2 = 1 := hp
  have hq' : q.q0 ^ 2 + q.q1 ^ 2 + q.q2 ^ 2 + q.q3 ^ 2 = 1 := hq
  have e : ∀ i j, rotMatrix p i j = rotMatrix q i j := fun i j => by rw [h]
  have e00 := e 0 0
  have e01 := e 0 1
  have e02 := e 0 2
  have e10 := e 1 0
  have e11 := e 1 1
  have e12 := e 1 2
  have e20 := e 2 0
  have e21 := e 2 1
  have e22 := e 2 2
  simp [rotMatrix] at e00 e01 e02 e10 e11 e12 e20 e21 e22
  refine ⟨?_, ?_, ?_, ?_, ?_, ?_, ?_, ?_, ?_, ?_⟩ <;> nlinarith

/-- **C110 (equality).** Two unit quaternions of the library are equal exactly if they are the same
rotation, except for half turns, whose two quaternions are not equal although they are the same
rotation. -/
theorem C110_equal (p q : Quat ℝ) (hp : p.IsUnit) (hq : q.IsUnit) (hpn : p.North) (hqn : q.North) :
    rotMatrix p = rotMatrix q ↔ Same p q ∨ (p.q0 = 0 ∧ q.q0 = 0 ∧ Same p q.neg) := by
  have hp' : p.q0 ^ 2 + p.q1 ^ 2 + p.q2 ^ 2 + p.q3 ^ 2 = 1 := hp
  have same_iff : ∀ a b : Quat ℝ, Same a b ↔ a = b := by
    intro a b
    simp [Same, toList, Quat.ext'_iff]
  rw [same_iff, same_iff]
  constructor
  · intro h
    obtain ⟨h00, h11, h22, h33, h01, h02, h03, h12, h13, h23⟩ := products_of_rotMatrix p q hp hq h
    have hp0 : (0 : ℝ) ≤ p.q0 := hpn
    have hq0 : (0 : ℝ) ≤ q.q0 := hqn
    have hq0' : p.q0 = q.q0 := by
      rcases mul_self_eq_mul_self_iff.1 h00 with h | h
      · exact h
      · linarith
    by_cases hz : p.q0 = 0
    · have hqz : q.q0 = 0 := by rw [← hq0', hz]
      have sgn : ∀ a b : ℝ, a * a = b * b → a ≠ 0 → a = b ∨ a = -b := by
        intro a b hab _
        exact mul_self_eq_mul_self_iff.1 hab
      by_cases h1 : p.q1 = 0
      · have hq1 : q.q1 = 0 := by
          rw [h1] at h11
          simpa using h11.symm
        by_cases h2 : p.q2 = 0
        · have hq2 : q.q2 = 0 := by
            rw [h2] at h22
            simpa using h22.symm
          rcases mul_self_eq_mul_self_iff.1 h33 with h3 | h3
          · left
            ext <;> simp [hz, hqz, h1, hq1, h2, hq2, h3]
          · right
            refine ⟨hz, hqz, ?_⟩
            ext <;> simp [Quat.neg, hz, hqz, h1, hq1, h2, hq2, h3]
        · rcases mul_self_eq_mul_self_iff.1 h22 with h3 | h3
          · left
            have h3' : p.q3 = q.q3 := by
              rw [h3] at h23 h2
              exact mul_left_cancel₀ h2 h23
            ext <;> simp [hz, hqz, h1, hq1, h3, h3']
          · right
            have h3' : p.q3 = -q.q3 := by
              have : p.q2 * p.q3 = p.q2 * -q.q3 := by rw [h23, h3]; ring
              exact mul_left_cancel₀ h2 this
            refine ⟨hz, hqz, ?_⟩
            ext <;> simp [Quat.neg, hz, hqz, h1, hq1, h3, h3']
      · rcases mul_self_eq_mul_self_iff.1 h11 with h3 | h3
        · left
          have e2 : p.q2 = q.q2 := by
            rw [h3] at h12 h1
            exact mul_left_cancel₀ h1 h12
          have e3 : p.q3 = q.q3 := by
            rw [h3] at h13 h1
            exact mul_left_cancel₀ h1 h13
          ext <;> simp [hz, hqz, h3, e2, e3]
        · right
          have e2 : p.q2 = -q.q2 := by
            have : p.q1 * p.q2 = p.q1 * -q.q2 := by rw [h12, h3]; ring
            exact mul_left_cancel₀ h1 this
          have e3 : p.q3 = -q.q3 := by
            have : p.q1 * p.q3 = p.q1 * -q.q3 := by rw [h13, h3]; ring
            exact mul_left_cancel₀ h1 this
          refine ⟨hz, hqz, ?_⟩
          ext <;> simp [Quat.neg, hz, hqz, h3, e2, e3]
    · left
      rw [← hq0'] at h01 h02 h03
      exact Quat.ext' hq0' (mul_left_cancel₀ hz h01) (mul_left_cancel₀ hz h02)
        (mul_left_cancel₀ hz h03)
  · rintro (rfl | ⟨-, -, rfl⟩)
    · rfl
    · exact rotMatrix_neg q

/-- The two quaternions of the half turn about x are different and both are in the northern
hemisphere. -/
example : rotMatrix ⟨0, 1, 0, 0⟩ = rotMatrix ⟨0, -1, 0, 0⟩ ∧ ¬ Same ⟨0, 1, 0, 0⟩ ⟨0, -1, 0, 0⟩ ∧
    (⟨0, -1, 0, 0⟩ : Quat ℝ).North := by
  refine ⟨?_, ?_, by simp [Quat.North]⟩
  · have := rotMatrix_neg ⟨0, 1, 0, 0⟩
    simpa [Quat.neg] using this.symm
  · simp [Same, toList]
    norm_num

/-- **C110 (hash).** Equality is an equivalence, and equal quaternions have equal hashes, whatever the
hash of a tuple is. -/
theorem C110_hash (h : List ℝ → Int) :
    (∀ p q : Quat ℝ, Same p q → hashOf h p = hashOf h q) ∧
    (∀ p : Quat ℝ, Same p p) ∧ (∀ p q : Quat ℝ, Same p q → Same q p) ∧
    (∀ p q r : Quat ℝ, Same p q → Same q r → Same p r) := by
  refine ⟨fun p q e => ?_, fun p => rfl, fun p q e => e.symm, fun p q r e e' => e.trans e'⟩
  unfold hashOf
  rw [e]

/-- **C110 (products).** The product does not depend on how it is bracketed, as a rotation; the
quaternions are equal, too, unless the product is a half turn. -/
theorem C110_assoc (p q r : Quat ℝ) :
    rotMatrix (mul (mul p q) r) = rotMatrix (mul p (mul q r)) ∧
    (Same (mul (mul p q) r) (mul p (mul q r)) ∨
      (mul (mul p q) r).q0 = 0 ∧ Same (mul (mul p q) r) (mul p (mul q r)).neg) := by
  constructor
  · simp only [mul, rotMatrix_make, rotMatrix_mulRaw, Matrix.mul_assoc]
  · have ha : mulRaw (mulRaw p q) r = mulRaw p (mulRaw q r) := by
      ext <;> simp only [mulRaw] <;> ring
    have hnegl : ∀ a b : Quat ℝ, mulRaw a.neg b = (mulRaw a b).neg := by
      intro a b
      ext <;> simp only [mulRaw, Quat.neg] <;> ring
    have hnegr : ∀ a b : Quat ℝ, mulRaw a b.neg = (mulRaw a b).neg := by
      intro a b
      ext <;> simp only [mulRaw, Quat.neg] <;> ring
    have hl : mul (mul p q) r = make false (mulRaw p (mulRaw q r)) ∨
        mul (mul p q) r = make false (mulRaw p (mulRaw q r)).neg := by
      unfold mul
      rcases make_cases false (mulRaw p q) with ⟨e, _⟩ | ⟨e, _⟩ <;> rw [e]
      · left; rw [ha]
      · right; rw [hnegl, ha]
    have hr : mul p (mul q r) = make false (mulRaw p (mulRaw q r)) ∨
        mul p (mul q r) = make false (mulRaw p (mulRaw q r)).neg := by
      unfold mul
      rcases make_cases false (mulRaw q r) with ⟨e, _⟩ | ⟨e, _⟩ <;> rw [e]
      · left; rfl
      · right; rw [hnegr]
    generalize mulRaw p (mulRaw q r) = x at hl hr
    have hnn : x.neg.neg = x := by ext <;> simp [Quat.neg]
    have hmake : make false x.neg = make false x ∨ (make false x).q0 = 0 ∧ (make false x.neg).q0 = 0 ∧
        make false x = (make false x.neg).neg := by
      rcases lt_trichotomy x.q0 0 with h | h | h
      · left
        rw [make_south h, make_north (by simp only [Quat.neg]; linarith)]
      · right
        rw [make_north h.ge, make_north (by simp [Quat.neg, h])]
        exact ⟨h, by simp [Quat.neg, h], hnn.symm⟩
      · left
        rw [make_north h.le, make_south (by simp only [Quat.neg]; linarith), hnn]
    have hs : ∀ a b : Quat ℝ, a = b → Same a b := by rintro a b rfl; rfl
    rcases hl with e | e <;> rcases hr with e' | e' <;> rw [e, e']
    · left; rfl
    · rcases hmake with h | ⟨h, -, h'⟩
      · left; exact hs _ _ h.symm
      · right; exact ⟨h, hs _ _ h'⟩
    · rcases hmake with h | ⟨-, h, h'⟩
      · left; exact hs _ _ h
      · right
        refine ⟨h, hs _ _ ?_⟩
        rw [h']
        ext <;> simp [Quat.neg]
    · left; rfl

/-- **C110 (false for half turns).** Three half turns whose two bracketings are not equal. -/
theorem C110_not_assoc : ∃ p q r : Quat ℝ, p.IsUnit ∧ q.IsUnit ∧ r.IsUnit ∧ p.North ∧ q.North ∧ r.North ∧
    ¬ Same (mul (mul p q) r) (mul p (mul q r)) := by
  refine ⟨⟨0, 1, 0, 0⟩, ⟨0, 1, 0, 0⟩, ⟨0, 0, 1, 0⟩, by simp [Quat.IsUnit], by simp [Quat.IsUnit],
    by simp [Quat.IsUnit], by simp [Quat.North], by simp [Quat.North], by simp [Quat.North], ?_⟩
  simp [Same, toList, mul, mulRaw, make, Quat.neg]
  norm_num

/-- **C110 (sums).** The sum is commutative and in the northern hemisphere; for quaternions of the
northern hemisphere `+=` makes the same quaternion as `+`. -/
theorem C110_sum (p q : Quat ℝ) :
    Same (add p q) (add q p) ∧ (add p q).North ∧ (p.North → q.North → Same (iadd p q) (add p q)) := by
  have hc : addRaw p q = addRaw q p := by
    ext <;> simp only [addRaw] <;> ring
  refine ⟨?_, north_make _, ?_⟩
  · unfold add
    rw [hc]
    rfl
  · intro hp hq
    unfold add iadd
    have hp0 : (0 : ℝ) ≤ p.q0 := hp
    have hq0 : (0 : ℝ) ≤ q.q0 := hq
    rw [make_north (by simp only [addRaw]; linarith)]
    rfl

/-- **C110 (changes).** A quaternion of the northern hemisphere stays there through every sequence of
normalisations and additions of quaternions of the northern hemisphere. -/
theorem C110_history (q : Quat ℝ) (hq : q.North) (ops : List QuatOp)
    (ho : ∀ r, QuatOp.iadd r ∈ ops → r.North) : (ops.foldl quatStep q).North := by
  induction ops generalizing q with
  | nil => exact hq
  | cons op t ih =>
    refine ih (quatStep q op) ?_ fun r hr => ho r (List.mem_cons_of_mem _ hr)
    cases op with
    | iadd r =>
      have hr : (0 : ℝ) ≤ r.q0 := ho r (List.mem_cons_self ..)
      have hq0 : (0 : ℝ) ≤ q.q0 := hq
      show (0 : ℝ) ≤ q.q0 + r.q0
      linarith
    | normalise => exact div_nonneg hq (Real.sqrt_nonneg _)

/-- **C110 (normalise).** Normalising a quaternion that is not zero makes it a unit quaternion with the
same rotation axis and sense, leaves unit quaternions as they are, and returns nothing. -/
theorem C110_normalise (q : Quat ℝ) (hq : dot q q ≠ 0) :
    (normaliseCall q).1.IsUnit ∧ (normaliseCall q).2 = none ∧
    (∃ k : ℝ, 0 < k ∧ q = ⟨k * (normaliseCall q).1.q0, k * (normaliseCall q).1.q1,
      k * (normaliseCall q).1.q2, k * (normaliseCall q).1.q3⟩) ∧
    (q.IsUnit → (normaliseCall q).1 = q) := by
  have hnn : 0 ≤ dot q q := by
    simp only [dot]
    nlinarith [mul_self_nonneg q.q0, mul_self_nonneg q.q1, mul_self_nonneg q.q2, mul_self_nonneg q.q3]
  have hpos : 0 < Quat.norm q := Real.sqrt_pos.2 (lt_of_le_of_ne hnn (Ne.symm hq))
  have hsq : Quat.norm q * Quat.norm q = dot q q := Real.mul_self_sqrt hnn
  refine ⟨?_, rfl, ⟨Quat.norm q, hpos, ?_⟩, ?_⟩
  · rw [isUnit_iff]
    simp only [normaliseCall, normalise, dot] at hsq ⊢
    field_simp
    rw [pow_two (Quat.norm q), hsq]
    ring
  · ext <;> simp only [normaliseCall, normalise] <;> field_simp
  · intro hu
    have : Quat.norm q = 1 := by
      unfold Quat.norm
      rw [(isUnit_iff q).1 hu, Real.sqrt_one]
    ext <;> simp [normaliseCall, normalise, this]

/-- **C110 (false for item assignment).** Setting the first coefficient to a negative number moves the
quaternion to the southern hemisphere, where vectors are turned the wrong way round; equality with the
quaternion of the same rotation is lost. -/
theorem C110_set_item (q : Quat ℝ) (v : ℝ) (hv : v < 0) (w : Fin 3 → ℝ) :
    ¬ (setItem q 0 v).North ∧
    ¬ Same (setItem q 0 v) (make false (setItem q 0 v)) ∧
    transformVector (setItem q 0 v) w = -(Matrix.mulVec (rotMatrix (setItem q 0 v)) w) := by
  have h0 : (setItem q 0 v).q0 = v := rfl
  refine ⟨?_, ?_, ?_⟩
  · show ¬ (0 : ℝ) ≤ v
    linarith
  · rw [make_south (by rw [h0]; exact hv)]
    intro h
    simp only [Same, toList, Quat.neg, List.cons.injEq] at h
    rw [h0] at h
    linarith [h.1]
  · exact transform_south _ (by rw [h0]; exact hv) w

end DefDAP
