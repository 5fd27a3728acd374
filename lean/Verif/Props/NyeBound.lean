import Verif.Props.NyeInvariant

/-!
C148: the density and the misorientation to the next row, and the step size.
-/

namespace DefDAP

open Quat Spec Matrix

theorem row_bound {x y z : ℝ} : (2 * |z| + |x - y|) ^ 2 ≤ 6 * (x ^ 2 + y ^ 2 + z ^ 2) := by
  have h : |x - y| ≤ |x| + |y| := by
    have := abs_add_le x (-y)
    rwa [abs_neg, ← sub_eq_add_neg] at this
  have h0 := abs_nonneg (x - y)
  have e1 := sq_abs x
  have e2 := sq_abs y
  have e3 := sq_abs z
  have n1 := abs_nonneg x
  have n2 := abs_nonneg y
  have n3 := abs_nonneg z
  generalize |x| = a at *
  generalize |y| = b at *
  generalize |z| = c at *
  have : (2 * c + |x - y|) ^ 2 ≤ (2 * c + (a + b)) ^ 2 :=
    pow_le_pow_left₀ (by positivity) (by linarith) 2
  nlinarith [sq_nonneg (a - b), sq_nonneg (2 * a - c), sq_nonneg (2 * b - c), sq_nonneg (a + b - c)]

theorem three_bound {a b c x y z m : ℝ} (h1 : a ^ 2 ≤ 6 * x) (h2 : b ^ 2 ≤ 6 * y) (h3 : c ^ 2 ≤ 6 * z)
    (hm : x + y + z = m) : (a + b + c) ^ 2 ≤ 18 * m := by
  nlinarith [sq_nonneg (a - b), sq_nonneg (a - c), sq_nonneg (b - c)]

/-- The size of the difference between a rotation and none. -/
theorem rotation_size {p v : Quat ℝ} (hp : p.IsUnit) (hv : v.IsUnit) :
    ∑ a, ∑ b, (((rotMatrix v)ᵀ * rotMatrix p - 1 : Matrix (Fin 3) (Fin 3) ℝ) a b) ^ 2 =
      8 * (1 - dot p v ^ 2) := by
  set A := (rotMatrix v)ᵀ * rotMatrix p with hA
  have ho : Aᵀ * A = 1 := by
    rw [hA, Matrix.transpose_mul, Matrix.transpose_transpose]
    have h1 := (C36_rotation v hv).1
    have h2 := (C36_rotation p hp).2.1
    calc (rotMatrix p)ᵀ * rotMatrix v * ((rotMatrix v)ᵀ * rotMatrix p)
        = (rotMatrix p)ᵀ * (rotMatrix v * (rotMatrix v)ᵀ) * rotMatrix p := by
          simp only [Matrix.mul_assoc]
      _ = 1 := by rw [h1, Matrix.mul_one, h2]
  have ht : A.trace = 4 * dot p v ^ 2 - 1 := by
    rw [hA, Matrix.trace_mul_comm, trace_unit hp hv]
  have e : ∑ a, ∑ b, ((A - 1) a b) ^ 2 = ((A - 1)ᵀ * (A - 1)).trace := by
    simp only [Matrix.trace, Matrix.diag_apply, Matrix.mul_apply, Matrix.transpose_apply]
    rw [Finset.sum_comm]
    simp only [sq]
  rw [e, Matrix.transpose_sub, Matrix.transpose_one, Matrix.sub_mul, Matrix.mul_sub, ho, Matrix.mul_one,
    Matrix.one_mul, Matrix.trace_sub, Matrix.trace_sub, Matrix.trace_sub, Matrix.trace_transpose, ht,
    Matrix.trace_one]
  simp
  ring

variable {g : SymGroup} {step : ℝ} {rows cols : Nat} {q : Int → Int → Quat ℝ}

/-- **C148** The density of a pixel is at most `18 sin(θ/2)` over the Burgers vector (1.4e-10) and the step
size (in micrometres), if some rotation of the crystal into itself leaves an angle of `θ` between the
pixel and the next one below. -/
theorem C148_bound (hs : 0 < step) (hu : Spec.UnitMap rows cols q) (j i : Int)
    (hm : Spec.InGrid rows cols j i) (V : Matrix (Fin 3) (Fin 3) ℝ) (hV : CrystalRotation g V) :
    (calcNye (symEqv g) step rows cols q).1 j i ≤
      18 * Real.sin (rotationAngle (rotMatrix (q j i) * (V * rotMatrix (q (j + 1) i))ᵀ) / 2) /
        ((14 / 100000000000) * (step * (1 / 1000000))) := by
  obtain ⟨hj0, hj1, hi0, hi1⟩ := hm
  have hpi := Real.pi_pos
  by_cases hb : j = (rows : Int) - 1 ∨ i = (cols : Int) - 1
  · rw [(C62_border _ _ _ _ _ _ _ hb).1]
    refine div_nonneg (mul_nonneg (by norm_num) (Real.sin_nonneg_of_nonneg_of_le_pi ?_ ?_)) (by positivity)
    · exact div_nonneg (Real.arccos_nonneg _) zero_le_two
    · have := Real.arccos_le_pi (((rotMatrix (q j i) * (V * rotMatrix (q (j + 1) i))ᵀ).trace - 1) / 2)
      unfold rotationAngle
      linarith
  have hj : j + 1 < rows := by omega
  have hi : i + 1 < cols := by omega
  have u1 : (q j i).IsUnit := hu _ _ ⟨hj0, hj1, hi0, hi1⟩
  have u2 : (q (j + 1) i).IsUnit := hu _ _ ⟨by omega, hj, hi0, hi1⟩
  obtain ⟨s, hs1, v, uv, ev, hv, D, eD, et⟩ := C62_tensor g step hs.ne' rows cols q hu j i hj0 hj hi0 hi
  obtain ⟨t, ht, rfl⟩ := (crystalRotation_iff g _).mp hV
  have ut := isUnit_mulRaw ((symEqv_table g).unit t ht) u2
  have hov := hv t ht _ ut (rotMatrix_mulRaw _ _)
  rw [overlap_eq, overlap_eq] at hov
  rw [← rotMatrix_mulRaw, rotationAngle_eq u1 ut, mul_div_cancel_left₀ _ (two_ne_zero' ℝ),
    Real.sin_arccos, sq_abs]
  rw [(C62_value _ _ _ _ _ _ _).1, et]
  set c := 1 / (step * (1 / 1000000)) with hc
  have hc0 : 0 < c := by positivity
  set E := (rotMatrix v)ᵀ * rotMatrix (q j i) - 1 with hE
  have hsize := rotation_size u1 uv
  rw [← hE] at hsize
  have hle : dot (q j i) (mulRaw t (q (j + 1) i)) ^ 2 ≤ dot (q j i) v ^ 2 := by
    rw [← sq_abs, ← sq_abs (dot (q j i) v)]
    exact pow_le_pow_left₀ (abs_nonneg _) hov 2
  have hsum : (∑ a, (2 * |E a 2| + |E a 0 - E a 1|)) ≤
      12 * Real.sqrt (1 - dot (q j i) (mulRaw t (q (j + 1) i)) ^ 2) := by
    have h1 : (∑ a, (2 * |E a 2| + |E a 0 - E a 1|)) ^ 2 ≤ 144 * (1 - dot (q j i) v ^ 2) := by
      rw [Fin.sum_univ_three]
      have := three_bound (row_bound (x := E 0 0) (y := E 0 1) (z := E 0 2))
        (row_bound (x := E 1 0) (y := E 1 1) (z := E 1 2))
        (row_bound (x := E 2 0) (y := E 2 1) (z := E 2 2)) (m := 8 * (1 - dot (q j i) v ^ 2)) (by
          rw [← hsize]
          simp only [Fin.sum_univ_three])
      linarith
    have h2 : (∑ a, (2 * |E a 2| + |E a 0 - E a 1|)) ≤
        Real.sqrt (144 * (1 - dot (q j i) (mulRaw t (q (j + 1) i)) ^ 2)) :=
      Real.le_sqrt_of_sq_le (by linarith)
    rwa [Real.sqrt_mul (by norm_num), show (144 : ℝ) = 12 ^ 2 by norm_num,
      Real.sqrt_sq (by norm_num)] at h2
  have heq : ∑ a, ∑ b, |((1 / (14 / 100000000000 : ℝ)) • !![-D 0 2, D 0 2, D 0 0 - D 0 1;
            -D 1 2, D 1 2, D 1 0 - D 1 1; -D 2 2, D 2 2, D 2 0 - D 2 1]) a b| =
      1 / (14 / 100000000000) * c * ∑ a, (2 * |E a 2| + |E a 0 - E a 1|) := by
    have hD : ∀ a b, D a b = c * E a b := fun a b => by rw [eD]; rfl
    have k : (0 : ℝ) < 1 / (14 / 100000000000) := by norm_num
    simp only [Fin.sum_univ_three, Matrix.smul_apply, smul_eq_mul, abs_mul, abs_of_pos k]
    simp [hD, ← mul_sub, abs_mul, abs_of_pos hc0]
    ring
  rw [heq]
  have hk : 0 ≤ 30 / 20 * (1 / (14 / 100000000000) * c) := by positivity
  calc 30 / 20 * (1 / (14 / 100000000000) * c * ∑ a, (2 * |E a 2| + |E a 0 - E a 1|))
      = 30 / 20 * (1 / (14 / 100000000000) * c) * ∑ a, (2 * |E a 2| + |E a 0 - E a 1|) := by ring
    _ ≤ 30 / 20 * (1 / (14 / 100000000000) * c) *
        (12 * Real.sqrt (1 - dot (q j i) (mulRaw t (q (j + 1) i)) ^ 2)) :=
      mul_le_mul_of_nonneg_left hsum hk
    _ = _ := by
      rw [hc]
      field_simp
      ring

/-- **C148** With steps `k` times as large the tensor is that much smaller, and so is the density. -/
theorem C148_step (syms : List (Quat ℝ)) (k : ℝ) (hk : 0 < k) (j i : Int) :
    (calcNye syms (k * step) rows cols q).2 j i = (1 / k) • (calcNye syms step rows cols q).2 j i ∧
    (calcNye syms (k * step) rows cols q).1 j i = (calcNye syms step rows cols q).1 j i / k := by
  have hb : ∀ a b, nyeBetas syms (k * step) rows cols q j i a b =
      (1 / k) * nyeBetas syms step rows cols q j i a b := by
    intro a b
    rw [nyeBetas_at, nyeBetas_at]
    split_ifs
    · unfold nyeBeta
      field_simp
    · simp
  have h2 : (calcNye syms (k * step) rows cols q).2 j i =
      (1 / k) • (calcNye syms step rows cols q).2 j i := by
    ext a b
    rw [Matrix.smul_apply, smul_eq_mul]
    simp only [calcNye, nyeAlpha, hb]
    split_ifs <;> ring
  refine ⟨h2, ?_⟩
  rw [(C62_value _ _ _ _ _ _ _).1, (C62_value _ _ _ _ _ _ _).1, h2]
  simp only [Matrix.smul_apply, smul_eq_mul, abs_mul, abs_of_pos (one_div_pos.2 hk), ← Finset.mul_sum]
  ring

/-- The hypotheses are met by a bent crystal, whose density is not zero: it is at most `18 sin(θ/2)` over
the Burgers vector and the step, and half as much if the step is twice as large. -/
example (g : SymGroup) : ∃ V, CrystalRotation g V ∧ ∃ n : ℝ, 0 < n ∧
    (calcNye (symEqv g) 1 2 2 fun j _ => if j = 0 then Spec.bend else ⟨1, 0, 0, 0⟩).1 0 0 = n ∧
    n ≤ 18 * Real.sin (rotationAngle (rotMatrix Spec.bend * (V * rotMatrix ⟨1, 0, 0, 0⟩)ᵀ) / 2) /
      ((14 / 100000000000) * (1 * (1 / 1000000))) ∧
    (calcNye (symEqv g) (2 * 1) 2 2 fun j _ => if j = 0 then Spec.bend else ⟨1, 0, 0, 0⟩).1 0 0 = n / 2 := by
  have hu : Spec.UnitMap 2 2 fun j _ => if j = 0 then Spec.bend else ⟨1, 0, 0, 0⟩ := by
    intro i j _
    dsimp only
    split_ifs
    · exact bend_unit
    · exact one_unit
  have hone : rotMatrix (⟨1, 0, 0, 0⟩ : Quat ℝ) = 1 := by
    ext i j; fin_cases i <;> fin_cases j <;> simp [rotMatrix]
  have id : CrystalRotation g 1 := by
    rw [crystalRotation_iff]
    exact ⟨⟨1, 0, 0, 0⟩, List.mem_of_getElem? (symEqv_table g).head, hone⟩
  refine ⟨1, id, _, ?_, rfl, ?_, (C148_step (symEqv g) 2 two_pos 0 0).2⟩
  · refine lt_of_le_of_ne ?_ (Ne.symm ?_)
    · rw [(C62_value _ _ _ _ _ _ _).1]
      positivity
    · intro h
      have := (C62_zero g 1 one_ne_zero 2 2 _ hu 0 0 (le_refl _) (by simp) (le_refl _) (by simp)).1 h
      exact bend_different g (by simpa using this)
  · simpa using C148_bound (g := g) one_pos hu 0 0 ⟨le_refl _, by simp, le_refl _, by simp⟩ 1 id

end DefDAP
