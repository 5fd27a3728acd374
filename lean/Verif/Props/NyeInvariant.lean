import Verif.Props.Nye
import Verif.Props.MisoriInvariant
import Verif.Props.Average

/-!
C131: the Nye tensor and the density do not depend on which of the equivalent orientations a pixel has,
as long as neighbours are close.
-/

namespace DefDAP

open Quat Spec Matrix

theorem trace_unit {p r : Quat ℝ} (hp : p.IsUnit) (hr : r.IsUnit) :
    (rotMatrix p * (rotMatrix r)ᵀ).trace = 4 * dot p r ^ 2 - 1 := by
  rw [trace_rot, (isUnit_iff p).1 hp, (isUnit_iff r).1 hr, mul_one]

/-- The triangle inequality for overlaps. -/
theorem overlap_triangle {p x y : Quat ℝ} (hp : p.IsUnit) (hx : x.IsUnit) (hy : y.IsUnit) :
    (|dot p x| + |dot p y|) ^ 2 ≤ 2 + 2 * |dot x y| := by
  have key : ∀ a b : Quat ℝ, a.IsUnit → b.IsUnit → (dot p a + dot p b) ^ 2 ≤ 2 + 2 * |dot a b| := by
    intro a b ha hb
    have h1 := dot_sq_le (a.plus b) p
    rw [(isUnit_iff p).1 hp, mul_one, dot_plus_left, dot_plus_left, dot_plus_right, dot_plus_right,
      (isUnit_iff a).1 ha, (isUnit_iff b).1 hb, dot_comm b a, dot_comm a p, dot_comm b p] at h1
    have := le_abs_self (dot a b)
    linarith
  have hsgn : ∀ a : Quat ℝ, a.IsUnit → ∃ b : Quat ℝ, b.IsUnit ∧ dot p b = |dot p a| ∧
      (b = a ∨ b = a.neg) := by
    intro a ha
    rcases abs_cases (dot p a) with ⟨e, -⟩ | ⟨e, -⟩
    · exact ⟨a, ha, e.symm, .inl rfl⟩
    · exact ⟨a.neg, isUnit_neg.2 ha, by rw [dot_neg_right, e], .inr rfl⟩
  obtain ⟨x', ux, ex, hx'⟩ := hsgn x hx
  obtain ⟨y', uy, ey, hy'⟩ := hsgn y hy
  have h := key x' y' ux uy
  rw [ex, ey] at h
  have : |dot x' y'| = |dot x y| := by
    rcases hx' with rfl | rfl <;> rcases hy' with rfl | rfl <;>
      simp only [dot_neg_left, dot_neg_right, abs_neg, neg_neg]
  rwa [this] at h

/-- Only one rotation of the crystal into itself brings the second orientation within 30 degrees of the
first. -/
theorem close_unique (g : SymGroup) {p q : Quat ℝ} (hp : p.IsUnit) (hq : q.IsUnit)
    {A B : Matrix (Fin 3) (Fin 3) ℝ} (hA : CrystalRotation g A) (hB : CrystalRotation g B)
    (h1 : 1 + Real.sqrt 3 < (rotMatrix p * (A * rotMatrix q)ᵀ).trace)
    (h2 : 1 + Real.sqrt 3 < (rotMatrix p * (B * rotMatrix q)ᵀ).trace) : A = B := by
  have hl := symEqv_table g
  obtain ⟨hB', hB1, hB2⟩ := crystalRotation_inv g hB
  obtain ⟨s, hs, es⟩ := (crystalRotation_iff g _).mp (crystalRotation_mul g hA hB')
  obtain ⟨a, ha, ea⟩ := (crystalRotation_iff g _).mp hA
  obtain ⟨b, hb, eb⟩ := (crystalRotation_iff g _).mp hB
  have ua := isUnit_mulRaw (hl.unit a ha) hq
  have ub := isUnit_mulRaw (hl.unit b hb) hq
  have hpa : A * rotMatrix q = rotMatrix (mulRaw a q) := by rw [rotMatrix_mulRaw, ea]
  have hpb : B * rotMatrix q = rotMatrix (mulRaw b q) := by rw [rotMatrix_mulRaw, eb]
  have hAB : A * Bᵀ = 1 → A = B := by
    intro h
    calc A = A * (Bᵀ * B) := by rw [hB2, Matrix.mul_one]
      _ = B := by rw [← Matrix.mul_assoc, h, Matrix.one_mul]
  refine hAB ?_
  rw [hpa, trace_unit hp ua] at h1
  rw [hpb, trace_unit hp ub] at h2
  have h3 : (rotMatrix (mulRaw a q) * (rotMatrix (mulRaw b q))ᵀ).trace =
      (rotMatrix s * (rotMatrix (⟨1, 0, 0, 0⟩ : Quat ℝ))ᵀ).trace := by
    have hone : rotMatrix (⟨1, 0, 0, 0⟩ : Quat ℝ) = 1 := by
      ext i j; fin_cases i <;> fin_cases j <;> simp [rotMatrix]
    rw [← hpa, ← hpb, hone, Matrix.transpose_one, Matrix.mul_one, es, Matrix.transpose_mul]
    have := (C36_rotation q hq).1
    calc (A * rotMatrix q * ((rotMatrix q)ᵀ * Bᵀ)).trace
        = (A * (rotMatrix q * (rotMatrix q)ᵀ) * Bᵀ).trace := by simp only [Matrix.mul_assoc]
      _ = _ := by rw [this, Matrix.mul_one]
  rw [trace_unit ua ub, trace_unit (hl.unit s hs) one_unit] at h3
  have h4 := overlap_triangle hp ua ub
  have h5 : dot s ⟨1, 0, 0, 0⟩ = s.q0 := by simp [dot]
  rw [h5] at h3
  rcases hl.far s hs with rfl | hfar
  · rw [← es]
    ext i j; fin_cases i <;> fin_cases j <;> simp [rotMatrix]
  · exfalso
    have s3 : Real.sqrt 3 ^ 2 = 3 := Real.sq_sqrt (by norm_num)
    have hd : |dot (mulRaw a q) (mulRaw b q)| = |s.q0| :=
      (sq_eq_sq_iff_abs_eq_abs _ _).mp (by linarith)
    rw [hd] at h4
    have e1 := sq_abs (dot p (mulRaw a q))
    have e2 := sq_abs (dot p (mulRaw b q))
    have n1 := abs_nonneg (dot p (mulRaw a q))
    have n2 := abs_nonneg (dot p (mulRaw b q))
    generalize |dot p (mulRaw a q)| = x at *
    generalize |dot p (mulRaw b q)| = y at *
    have hc : 0 ≤ (2 + Real.sqrt 3) / 4 := by positivity
    have hx : (2 + Real.sqrt 3) / 4 < x ^ 2 := by linarith
    have hy : (2 + Real.sqrt 3) / 4 < y ^ 2 := by linarith
    have hxy : (2 + Real.sqrt 3) / 4 < x * y := by
      refine lt_of_pow_lt_pow_left₀ 2 (mul_nonneg n1 n2) ?_
      rw [mul_pow, sq ((2 + Real.sqrt 3) / 4)]
      exact mul_lt_mul'' hx hy hc hc
    nlinarith

theorem rotationAngle_lt {M : Matrix (Fin 3) (Fin 3) ℝ} (h : rotationAngle M < 30 * (Real.pi / 180)) :
    1 + Real.sqrt 3 < M.trace := by
  unfold rotationAngle at h
  have hpi := Real.pi_pos
  have e : 30 * (Real.pi / 180) = Real.pi / 6 := by ring
  rw [e] at h
  by_contra hc
  push Not at hc
  have h1 : (M.trace - 1) / 2 ≤ Real.cos (Real.pi / 6) := by
    rw [Real.cos_pi_div_six]; linarith
  have h2 := Real.antitone_arccos h1
  rw [Real.arccos_cos (by positivity) (by linarith)] at h2
  linarith

theorem tensor_close (g : SymGroup) {p q v : Quat ℝ} (hp : p.IsUnit) (hq : q.IsUnit) (hv : v.IsUnit)
    (hmax : ∀ t ∈ symEqv g, ∀ w : Quat ℝ, w.IsUnit → rotMatrix w = rotMatrix t * rotMatrix q →
      Spec.overlap p w ≤ Spec.overlap p v)
    {V : Matrix (Fin 3) (Fin 3) ℝ} (hV : CrystalRotation g V)
    (h : 1 + Real.sqrt 3 < (rotMatrix p * (V * rotMatrix q)ᵀ).trace) :
    1 + Real.sqrt 3 < (rotMatrix p * (rotMatrix v)ᵀ).trace := by
  have hl := symEqv_table g
  obtain ⟨t, ht, rfl⟩ := (crystalRotation_iff g _).mp hV
  have ut := isUnit_mulRaw (hl.unit t ht) hq
  have h1 := hmax t ht _ ut (rotMatrix_mulRaw _ _)
  rw [overlap_eq, overlap_eq] at h1
  rw [← rotMatrix_mulRaw, trace_unit hp ut] at h
  rw [trace_unit hp hv]
  have := pow_le_pow_left₀ (abs_nonneg _) h1 2
  rw [sq_abs, sq_abs] at this
  linarith

variable {g : SymGroup} {step : ℝ} {rows cols : Nat} {q q' : Int → Int → Quat ℝ}
  {S : Int → Int → Matrix (Fin 3) (Fin 3) ℝ}

/-- **C131** Give every pixel another of its equivalent orientations, each pixel with its own rotation of
the crystal into itself. Where the crystal in the next row is less than 30 degrees away, the tensor and
the density are the same. -/
theorem C131_invariant (hs : step ≠ 0) (hu : Spec.UnitMap rows cols q) (hu' : Spec.UnitMap rows cols q')
    (hS : ∀ j i, Spec.InGrid rows cols j i → CrystalRotation g (S j i))
    (heq : ∀ j i, Spec.InGrid rows cols j i → rotMatrix (q' j i) = S j i * rotMatrix (q j i))
    (j i : Int) (hm : Spec.InGrid rows cols j i)
    (hclose : ∃ V, CrystalRotation g V ∧
      rotationAngle (rotMatrix (q j i) * (V * rotMatrix (q (j + 1) i))ᵀ) < 30 * (Real.pi / 180)) :
    (calcNye (symEqv g) step rows cols q').2 j i = (calcNye (symEqv g) step rows cols q).2 j i ∧
    (calcNye (symEqv g) step rows cols q').1 j i = (calcNye (symEqv g) step rows cols q).1 j i := by
  have key : (calcNye (symEqv g) step rows cols q').2 j i =
      (calcNye (symEqv g) step rows cols q).2 j i := by
    obtain ⟨hj0, hj1, hi0, hi1⟩ := hm
    by_cases hb : j = (rows : Int) - 1 ∨ i = (cols : Int) - 1
    · rw [(C62_border _ _ _ _ _ _ _ hb).2, (C62_border _ _ _ _ _ _ _ hb).2]
    have hj : j + 1 < rows := by omega
    have hi : i + 1 < cols := by omega
    have g1 : Spec.InGrid rows cols j i := ⟨hj0, hj1, hi0, hi1⟩
    have g2 : Spec.InGrid rows cols (j + 1) i := ⟨by omega, hj, hi0, hi1⟩
    obtain ⟨s, hs1, v, uv, ev, hv, D, eD, et⟩ := C62_tensor g step hs rows cols q hu j i hj0 hj hi0 hi
    obtain ⟨s', hs1', v', uv', ev', hv', D', eD', et'⟩ :=
      C62_tensor g step hs rows cols q' hu' j i hj0 hj hi0 hi
    obtain ⟨V, hV, hang⟩ := hclose
    obtain ⟨hS', hS1, hS2⟩ := crystalRotation_inv g (hS _ _ g1)
    obtain ⟨hU', hU1, hU2⟩ := crystalRotation_inv g (hS _ _ g2)
    have hA : CrystalRotation g (rotMatrix s) := (crystalRotation_iff g _).mpr ⟨s, hs1, rfl⟩
    have hA' : CrystalRotation g (rotMatrix s') := (crystalRotation_iff g _).mpr ⟨s', hs1', rfl⟩
    have c0 := rotationAngle_lt hang
    have c1 := tensor_close g (hu _ _ g1) (hu _ _ g2) uv hv hV c0
    have tr : ∀ W : Matrix (Fin 3) (Fin 3) ℝ,
        (rotMatrix (q' j i) * (W * rotMatrix (q' (j + 1) i))ᵀ).trace =
        (rotMatrix (q j i) * ((S j i)ᵀ * W * S (j + 1) i * rotMatrix (q (j + 1) i))ᵀ).trace := by
      intro W
      rw [heq _ _ g1, heq _ _ g2, Matrix.mul_assoc, Matrix.trace_mul_comm]
      simp only [Matrix.transpose_mul, Matrix.transpose_transpose, Matrix.mul_assoc]
    have c2 := tensor_close g (hu' _ _ g1) (hu' _ _ g2) uv' hv'
      (crystalRotation_mul g (crystalRotation_mul g (hS _ _ g1) hV) hU') (by
        rw [tr]
        have : (S j i)ᵀ * (S j i * V * (S (j + 1) i)ᵀ) * S (j + 1) i = V := by
          calc _ = ((S j i)ᵀ * S j i) * V * ((S (j + 1) i)ᵀ * S (j + 1) i) := by
                simp only [Matrix.mul_assoc]
            _ = V := by rw [hS2, hU2, Matrix.one_mul, Matrix.mul_one]
        rwa [this])
    rw [ev', tr] at c2
    rw [ev] at c1
    have hEq := close_unique g (hu _ _ g1) (hu _ _ g2) hA
      (crystalRotation_mul g (crystalRotation_mul g hS' hA') (hS _ _ g2)) c1 c2
    have hD : D' = D := by
      rw [eD, eD', ev, ev', heq _ _ g1, heq _ _ g2, hEq]
      congr 2
      simp only [Matrix.transpose_mul, Matrix.transpose_transpose, Matrix.mul_assoc]
    rw [et, et', hD]
  exact ⟨key, by rw [(C62_value _ _ _ _ _ _ _).1, (C62_value _ _ _ _ _ _ _).1, key]⟩

/-! ### 30 degrees is the limit -/

/-- If no equivalent of the neighbour is closer than the neighbour itself, that is the one used. -/
theorem nyeClosest_self {l : List (Quat ℝ)} (hl : SymTable l) {q r : Quat ℝ} (hq : q.IsUnit)
    (hr : r.IsUnit) (h : ∀ s ∈ l, |dot q (mulRaw s r)| ≤ |dot q r|) : nyeClosest l q r = r := by
  have hne : (nyeVariants l r).map (fun v => clip1 |dot q v|) ≠ [] := by simp [nyeVariants]
  obtain ⟨m, h1, -, h3⟩ := argmax_spec _ hne
  have h0 : argmax ((nyeVariants l r).map fun v => clip1 |dot q v|) = 0 := by
    by_contra hc
    have h4 := h3 0 (clip1 |dot q r|) (Nat.pos_of_ne_zero hc) (by simp [nyeVariants])
    obtain ⟨v, hv, rfl⟩ := List.mem_map.mp (List.mem_of_getElem? h1)
    have uv := (nyeVariants_mem hl hr hv).1
    rw [clip1_le (abs_dot_le_one hq hr), clip1_le (abs_dot_le_one hq uv)] at h4
    rcases List.mem_cons.1 hv with rfl | hv
    · exact lt_irrefl _ h4
    · obtain ⟨s, hs, rfl⟩ := List.mem_map.1 hv
      rw [symRow_eq, abs_dot_mul] at h4
      exact absurd (h s (List.mem_of_mem_tail hs)) (not_le.mpr h4)
  unfold nyeClosest
  dsimp only
  rw [h0]
  simp [nyeVariants]

/-- A turn by 30 degrees about the axis of the prism, one way or the other. -/
noncomputable def halfTurn (e : ℝ) : Quat ℝ :=
  ⟨Real.cos (Real.pi / 12), 0, 0, e * Real.sin (Real.pi / 12)⟩

theorem twelfth : Real.cos (Real.pi / 12) ^ 2 = (2 + Real.sqrt 3) / 4 ∧
    Real.sin (Real.pi / 12) ^ 2 = (2 - Real.sqrt 3) / 4 ∧
    Real.cos (Real.pi / 12) * Real.sin (Real.pi / 12) = 1 / 4 ∧
    0 < Real.cos (Real.pi / 12) ∧ 0 < Real.sin (Real.pi / 12) := by
  have hpi := Real.pi_pos
  have e6 : 2 * (Real.pi / 12) = Real.pi / 6 := by ring
  have h1 := Real.cos_sq (Real.pi / 12)
  have h2 := Real.sin_sq (Real.pi / 12)
  have h3 := Real.sin_two_mul (Real.pi / 12)
  rw [e6, Real.cos_pi_div_six] at h1
  rw [e6, Real.sin_pi_div_six] at h3
  refine ⟨by linarith, by linarith, by linarith, Real.cos_pos_of_mem_Ioo ⟨by linarith, by linarith⟩,
    Real.sin_pos_of_pos_of_lt_pi (by linarith) (by linarith)⟩

theorem halfTurn_unit {e : ℝ} (he : e = 1 ∨ e = -1) : (halfTurn e).IsUnit := by
  obtain ⟨h1, h2, -⟩ := twelfth
  have : e ^ 2 = 1 := by rcases he with rfl | rfl <;> norm_num
  simp only [Quat.IsUnit, halfTurn, mul_pow, h1, h2, this]
  ring

theorem halfTurn_closest {e : ℝ} (he : e = 1 ∨ e = -1) :
    nyeClosest (symEqv .hexagonal) ⟨1, 0, 0, 0⟩ (halfTurn e) = halfTurn e := by
  refine nyeClosest_self (symEqv_table .hexagonal) one_unit (halfTurn_unit he) ?_
  intro s hs
  obtain ⟨h1, h2, h3, h4, h5⟩ := twelfth
  have s3 : Real.sqrt 3 * Real.sqrt 3 = 3 := Real.mul_self_sqrt (by norm_num)
  have hpos : 0 ≤ Real.sqrt 3 := Real.sqrt_nonneg 3
  have h17 : (3 : ℝ) / 2 ≤ Real.sqrt 3 := by
    rw [show (3 : ℝ) / 2 = Real.sqrt ((3 / 2) ^ 2) by rw [Real.sqrt_sq (by norm_num)]]
    exact Real.sqrt_le_sqrt (by norm_num)
  have e1 : dot ⟨1, 0, 0, 0⟩ (halfTurn e) = Real.cos (Real.pi / 12) := by simp [dot, halfTurn]
  have e2 : dot ⟨1, 0, 0, 0⟩ (mulRaw s (halfTurn e)) =
      s.q0 * Real.cos (Real.pi / 12) - s.q3 * (e * Real.sin (Real.pi / 12)) := by
    simp [dot, halfTurn, mulRaw]
  rw [e1, e2, abs_of_pos h4]
  refine abs_le_of_sq_le_sq ?_ h4.le
  have ee : e ^ 2 = 1 := by rcases he with rfl | rfl <;> norm_num
  have e3 : (s.q0 * Real.cos (Real.pi / 12) - s.q3 * (e * Real.sin (Real.pi / 12))) ^ 2 =
      s.q0 ^ 2 * ((2 + Real.sqrt 3) / 4) + s.q3 ^ 2 * ((2 - Real.sqrt 3) / 4) -
        s.q0 * s.q3 * e / 2 := by
    linear_combination s.q0 ^ 2 * h1 + s.q3 ^ 2 * h2 * e ^ 2 +
      s.q3 ^ 2 * ((2 - Real.sqrt 3) / 4) * ee - 2 * s.q0 * s.q3 * e * h3
  rw [e3, h1]
  obtain ⟨t, ht, rfl⟩ := List.mem_map.mp hs
  simp only [hexagonalExact, List.mem_cons, List.not_mem_nil, or_false] at ht
  rcases ht with rfl | rfl | rfl | rfl | rfl | rfl | rfl | rfl | rfl | rfl | rfl | rfl <;>
    rcases he with rfl | rfl <;>
    simp [Quat.real, real_s0, real_s1, real_sh, real_sr, Surd.real_neg] <;> first | linarith | nlinarith

theorem nyeTensor_in {g : SymGroup} {step : ℝ} {rows cols : Nat} {q : Int → Int → Quat ℝ} {j i : Int}
    (h : 0 ≤ j ∧ j < (rows : Int) - 1 ∧ 0 ≤ i ∧ i < (cols : Int) - 1) :
    (calcNye (symEqv g) step rows cols q).2 j i = nyeAlpha
      (nyeBeta (symEqv g) step (q j i) (q (j + 1) i)) (nyeBeta (symEqv g) step (q j i) (q (j + 1) i)) := by
  unfold calcNye
  simp only [nyeBetas_at]
  rw [if_pos h]

/-- **C131** At 30 degrees it is false: two maps of hexagonal crystals, the second with another of the
equivalent orientations in one row, have different tensors. -/
theorem C131_limit (hs : step ≠ 0) (hr : 2 ≤ rows) (hc : 2 ≤ cols) :
    ∃ (q q' : Int → Int → Quat ℝ) (S : Int → Int → Matrix (Fin 3) (Fin 3) ℝ),
      (∀ j i, (q j i).IsUnit) ∧ (∀ j i, (q' j i).IsUnit) ∧
      (∀ j i, CrystalRotation .hexagonal (S j i)) ∧
      (∀ j i, rotMatrix (q' j i) = S j i * rotMatrix (q j i)) ∧
      (∀ j i, ∃ V, CrystalRotation .hexagonal V ∧
        rotationAngle (rotMatrix (q j i) * (V * rotMatrix (q (j + 1) i))ᵀ) ≤ 30 * (Real.pi / 180)) ∧
      (calcNye (symEqv .hexagonal) step rows cols q').2 0 0 ≠
        (calcNye (symEqv .hexagonal) step rows cols q).2 0 0 := by
  obtain ⟨h1, h2, h3, h4, h5⟩ := twelfth
  have hpi := Real.pi_pos
  have s3 : Real.sqrt 3 * Real.sqrt 3 = 3 := Real.mul_self_sqrt (by norm_num)
  have hone : rotMatrix (⟨1, 0, 0, 0⟩ : Quat ℝ) = 1 := by
    ext i j; fin_cases i <;> fin_cases j <;> simp [rotMatrix]
  have id : CrystalRotation .hexagonal 1 := by
    rw [crystalRotation_iff]
    exact ⟨⟨1, 0, 0, 0⟩, List.mem_of_getElem? (symEqv_table .hexagonal).head, hone⟩
  have turn : CrystalRotation .hexagonal (rotMatrix ⟨Real.sqrt 3 / 2, 0, 0, -(1 / 2)⟩) := by
    rw [crystalRotation_iff]
    refine ⟨_, ?_, rfl⟩
    refine List.mem_map.mpr ⟨⟨sr, s0, s0, -sh⟩, by simp [hexagonalExact], ?_⟩
    simp [Quat.real, real_sr, real_s0, real_sh, Surd.real_neg]
  have up := halfTurn_unit (e := 1) (.inl rfl)
  have um := halfTurn_unit (e := -1) (.inr rfl)
  have hd : dot ⟨1, 0, 0, 0⟩ (halfTurn 1) = Real.cos (Real.pi / 12) := by simp [dot, halfTurn]
  have angle : 2 * Real.arccos |Real.cos (Real.pi / 12)| ≤ 30 * (Real.pi / 180) := by
    rw [abs_of_pos h4, Real.arccos_cos (by linarith) (by linarith)]
    linarith
  have same : ∀ r : Quat ℝ, r.IsUnit → rotationAngle (rotMatrix r * (rotMatrix r)ᵀ) ≤
      30 * (Real.pi / 180) := by
    intro r hr
    rw [rotationAngle_eq hr hr, (isUnit_iff r).1 hr]
    simp
    positivity
  refine ⟨fun j _ => if j = 0 then ⟨1, 0, 0, 0⟩ else halfTurn 1,
    fun j _ => if j = 0 then ⟨1, 0, 0, 0⟩ else halfTurn (-1),
    fun j _ => if j = 0 then 1 else rotMatrix ⟨Real.sqrt 3 / 2, 0, 0, -(1 / 2)⟩, ?_, ?_, ?_, ?_, ?_, ?_⟩
  · intro j i
    dsimp only
    split_ifs
    · exact one_unit
    · exact up
  · intro j i
    dsimp only
    split_ifs
    · exact one_unit
    · exact um
  · intro j i
    dsimp only
    split_ifs
    · exact id
    · exact turn
  · intro j i
    dsimp only
    split_ifs
    · rw [Matrix.one_mul]
    · rw [← rotMatrix_mulRaw]
      congr 1
      have e : Real.sin (Real.pi / 12) = (2 - Real.sqrt 3) * Real.cos (Real.pi / 12) := by
        refine mul_left_cancel₀ h4.ne' ?_
        linear_combination h3 - (2 - Real.sqrt 3) * h1 + s3 / 4
      simp only [halfTurn, mulRaw, e]
      ext <;> simp
      · linear_combination 0 * s3
      · linear_combination (Real.cos (Real.pi / 12) / 2) * s3
  · intro j i
    refine ⟨1, id, ?_⟩
    dsimp only
    rw [Matrix.one_mul]
    split_ifs with a b b
    · omega
    · rw [rotationAngle_eq one_unit up, hd]
      exact angle
    · rw [rotationAngle_eq up one_unit, dot_comm, hd]
      exact angle
    · exact same _ up
  · intro h
    rw [nyeTensor_in ⟨le_refl _, by omega, le_refl _, by omega⟩,
      nyeTensor_in ⟨le_refl _, by omega, le_refl _, by omega⟩] at h
    have hh := congrFun (congrFun h 0) 2
    have e10 : ¬ (0 : Int) + 1 = 0 := by omega
    have hb : nyeBurgers ≠ 0 := by unfold nyeBurgers; norm_num
    have er : ∀ e : ℝ, (e = 1 ∨ e = -1) → rotMatrix (mul (conjugate (make false
        (nyeClosest (symEqv .hexagonal) ⟨1, 0, 0, 0⟩ (halfTurn e)))) (make false ⟨1, 0, 0, 0⟩)) =
        (rotMatrix (halfTurn e))ᵀ := by
      intro e he
      rw [halfTurn_closest he, mul, rotMatrix_make, rotMatrix_mulRaw, rotMatrix_conjugate,
        rotMatrix_make, rotMatrix_make, hone, Matrix.mul_one]
    simp only [nyeAlpha, if_true, nyeBeta, if_neg e10, er 1 (.inl rfl), er (-1) (.inr rfl)] at hh
    rw [div_left_inj' hb] at hh
    simp only [rotMatrix, halfTurn, Matrix.transpose_apply] at hh
    simp at hh
    field_simp at hh
    norm_num at hh

theorem bend_close : rotationAngle (rotMatrix Spec.bend * (rotMatrix (⟨1, 0, 0, 0⟩ : Quat ℝ))ᵀ) <
    30 * (Real.pi / 180) := by
  have hpi := Real.pi_pos
  obtain ⟨h1, -, -, h4, -⟩ := twelfth
  have s50 : Real.sqrt 50 ^ 2 = 50 := Real.sq_sqrt (by norm_num)
  have s3 : Real.sqrt 3 ^ 2 = 3 := Real.sq_sqrt (by norm_num)
  have hd : dot Spec.bend ⟨1, 0, 0, 0⟩ = 7 / Real.sqrt 50 := by simp [dot, Spec.bend]
  have hpos : 0 < 7 / Real.sqrt 50 := by positivity
  rw [rotationAngle_eq bend_unit one_unit, hd, abs_of_pos hpos]
  have hle : 7 / Real.sqrt 50 ≤ 1 := by
    rw [div_le_one (by positivity)]
    exact Real.le_sqrt_of_sq_le (by norm_num)
  have hlt : Real.cos (Real.pi / 12) < 7 / Real.sqrt 50 := by
    refine lt_of_pow_lt_pow_left₀ 2 hpos.le ?_
    rw [h1, div_pow, s50]
    nlinarith [Real.sqrt_nonneg 3]
  have := Real.arccos_lt_arccos (by linarith) hlt hle
  rw [Real.arccos_cos (by linarith) (by linarith)] at this
  linarith

/-- The hypotheses are met: a bent cubic crystal, with the quarter turn, an equivalent of a cubic
crystal, applied in all rows but the first. The density is not zero. -/
example : ∃ q' : Int → Int → Quat ℝ, rotMatrix (q' 1 0) ≠ rotMatrix (⟨1, 0, 0, 0⟩ : Quat ℝ) ∧
    (calcNye (symEqv .cubic) 1 2 2 q').1 0 0 =
      (calcNye (symEqv .cubic) 1 2 2 fun j _ => if j = 0 then Spec.bend else ⟨1, 0, 0, 0⟩).1 0 0 ∧
    (calcNye (symEqv .cubic) 1 2 2 q').1 0 0 ≠ 0 := by
  have hone : rotMatrix (⟨1, 0, 0, 0⟩ : Quat ℝ) = 1 := by
    ext i j; fin_cases i <;> fin_cases j <;> simp [rotMatrix]
  have id : CrystalRotation .cubic 1 := by
    rw [crystalRotation_iff]
    exact ⟨⟨1, 0, 0, 0⟩, List.mem_of_getElem? (symEqv_table .cubic).head, hone⟩
  have hu : Spec.UnitMap 2 2 fun j _ => if j = 0 then Spec.bend else ⟨1, 0, 0, 0⟩ := by
    intro i j _
    dsimp only
    split_ifs
    · exact bend_unit
    · exact one_unit
  have hu' : Spec.UnitMap 2 2 fun j _ => if j = 0 then Spec.bend else quarterTurn := by
    intro i j _
    dsimp only
    split_ifs
    · exact bend_unit
    · exact quarterTurn_unit
  have h := (C131_invariant (g := .cubic) (S := fun j _ => if j = 0 then 1 else rotMatrix quarterTurn)
    (step := 1) one_ne_zero hu hu' (by
      intro j i _
      split_ifs
      · exact id
      · rw [crystalRotation_iff]
        refine ⟨quarterTurn, ?_, rfl⟩
        refine List.mem_map.mpr ⟨⟨sr, s0, s0, sr⟩, by simp [cubicExact], ?_⟩
        simp [Quat.real, quarterTurn, real_sr, real_s0]) (by
      intro j i _
      split_ifs
      · rw [Matrix.one_mul]
      · rw [hone, Matrix.mul_one]) 0 0 ⟨le_refl _, by simp, le_refl _, by simp⟩
    ⟨1, id, by simpa using bend_close⟩).2
  refine ⟨_, ?_, h, ?_⟩
  · simp only [one_ne_zero, if_false]
    intro he
    have := congrFun (congrFun he 0) 0
    have h2 : Real.sqrt 2 * Real.sqrt 2 = 2 := Real.mul_self_sqrt (by norm_num)
    simp [rotMatrix, quarterTurn] at this
  · rw [h]
    intro h0
    exact bend_different .cubic (by simpa using
      (C62_zero .cubic 1 one_ne_zero 2 2 _ hu 0 0 (le_refl _) (by simp) (le_refl _) (by simp)).1 h0)

end DefDAP
