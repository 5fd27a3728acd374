import Verif.Props.Kam

/-! C62: Nye tensor and GND density. -/

namespace DefDAP

open Quat
open scoped Matrix

/-! ### The array after the loop -/

theorem mem_nyePixels (rows cols : Nat) (j i : Int) :
    (j, i) ∈ nyePixels rows cols ↔ 0 ≤ j ∧ j < (rows : Int) - 1 ∧ 0 ≤ i ∧ i < (cols : Int) - 1 := by
  unfold nyePixels
  simp only [List.mem_flatMap, List.mem_map, List.mem_range, Prod.mk.injEq]
  constructor
  · rintro ⟨a, ha, b, hb, rfl, rfl⟩
    omega
  · rintro ⟨h0, h1, h2, h3⟩
    exact ⟨i.toNat, by omega, j.toNat, by omega, by omega, by omega⟩

theorem nyeStep_at (syms : List (Quat ℝ)) (step : ℝ) (q : Int → Int → Quat ℝ) (b : BetaArray)
    (ji : Int × Int) (j i : Int) :
    nyeStep syms step q b ji j i =
      if (j, i) = ji then nyeBeta syms step (q j i) (q (j + 1) i) else b j i := by
  obtain ⟨j', i'⟩ := ji
  unfold nyeStep BetaArray.set
  by_cases h : j = j' ∧ i = i'
  · obtain ⟨rfl, rfl⟩ := h
    simp
  · have : ¬ (j, i) = (j', i') := by simpa using h
    simp [h]

theorem nyeBetas_at (syms : List (Quat ℝ)) (step : ℝ) (rows cols : Nat) (q : Int → Int → Quat ℝ)
    (j i : Int) :
    nyeBetas syms step rows cols q j i =
      if 0 ≤ j ∧ j < (rows : Int) - 1 ∧ 0 ≤ i ∧ i < (cols : Int) - 1 then
        nyeBeta syms step (q j i) (q (j + 1) i) else 0 := by
  have gen : ∀ (l : List (Int × Int)) (b : BetaArray),
      l.foldl (nyeStep syms step q) b j i =
        if (j, i) ∈ l then nyeBeta syms step (q j i) (q (j + 1) i) else b j i := by
    intro l
    induction l with
    | nil => intro b; simp
    | cons a t ih =>
      intro b
      rw [List.foldl_cons, ih, nyeStep_at]
      by_cases h1 : (j, i) ∈ t
      · simp [h1]
      · by_cases h2 : (j, i) = a
        · simp [← h2]
        · simp [h1, h2]
  rw [nyeBetas, gen]
  simp only [mem_nyePixels]

theorem nyeTotal3_zero_or (t3 t9 : ℝ) : nyeMasked t3 t9 = t9 := by
  unfold nyeMasked
  dsimp only
  rw [if_neg]
  split_ifs with h
  · rw [not_lt, abs_of_pos (by positivity)]; norm_num
  · exact h

/-- **C62** The Nye tensor and the GND density at a pixel depend on the orientation of that pixel
and of its neighbour in the next row only. No other orientation in the map matters: in particular
not the neighbour in `x`, so the gradient in `x` never enters. -/
theorem C62_x_ignored (syms : List (Quat ℝ)) (step : ℝ) (rows cols : Nat)
    (q q' : Int → Int → Quat ℝ) (j i : Int) (h0 : q' j i = q j i)
    (h1 : q' (j + 1) i = q (j + 1) i) :
    (calcNye syms step rows cols q').1 j i = (calcNye syms step rows cols q).1 j i ∧
    (calcNye syms step rows cols q').2 j i = (calcNye syms step rows cols q).2 j i := by
  unfold calcNye
  simp only [nyeBetas_at, h0, h1, and_self]

/-- **C62** The density is zero in the last row and the last column. -/
theorem C62_border (syms : List (Quat ℝ)) (step : ℝ) (rows cols : Nat) (q : Int → Int → Quat ℝ)
    (j i : Int) (h : j = (rows : Int) - 1 ∨ i = (cols : Int) - 1) :
    (calcNye syms step rows cols q).1 j i = 0 ∧ (calcNye syms step rows cols q).2 j i = 0 := by
  unfold calcNye
  simp only [nyeTotal3_zero_or, nyeBetas_at]
  rw [if_neg (by omega)]
  constructor
  · simp [nyeTotal9, nyeAlpha]
  · ext a b
    simp [nyeAlpha]

/-- **C62** The density is never negative, and the replacement of small densities by `1e12`
never happens: the density is 30/20 times the sum of the sizes of the nine components. -/
theorem C62_value (syms : List (Quat ℝ)) (step : ℝ) (rows cols : Nat) (q : Int → Int → Quat ℝ)
    (j i : Int) :
    (calcNye syms step rows cols q).1 j i =
      30 / 20 * ∑ a, ∑ b, |(calcNye syms step rows cols q).2 j i a b| ∧
    0 ≤ (calcNye syms step rows cols q).1 j i := by
  have e : (calcNye syms step rows cols q).1 j i =
      30 / 20 * ∑ a, ∑ b, |(calcNye syms step rows cols q).2 j i a b| := by
    unfold calcNye
    simp only [nyeTotal3_zero_or]
    simp only [nyeTotal9, Fin.sum_univ_three]
    ring
  refine ⟨e, ?_⟩
  rw [e]
  exact mul_nonneg (by norm_num)
    (Finset.sum_nonneg fun _ _ => Finset.sum_nonneg fun _ _ => abs_nonneg _)

/-! ### When the density is zero -/

/-- Two orientations of a crystal that cannot be told apart: they differ by a symmetry of the
crystal. -/
def Spec.SameCrystal (g : SymGroup) (p r : Quat ℝ) : Prop :=
  ∃ s ∈ symEqv g, rotMatrix p = rotMatrix s * rotMatrix r

theorem nyeVariants_mem {l : List (Quat ℝ)} (hl : SymTable l) {q v : Quat ℝ} (hq : q.IsUnit) :
    v ∈ nyeVariants l q → v.IsUnit ∧ ∃ s ∈ l, rotMatrix v = rotMatrix s * rotMatrix q := by
  intro h
  rcases List.mem_cons.1 h with rfl | h
  · refine ⟨hq, _, head_mem hl, ?_⟩
    rw [← rotMatrix_mulRaw]
    congr 1
    ext <;> simp [mulRaw]
  · obtain ⟨s, hs, rfl⟩ := List.mem_map.1 h
    have hs' := List.mem_of_mem_tail hs
    rw [symRow_eq]
    refine ⟨isUnit_mul (hl.unit _ hs') hq, s, hs', ?_⟩
    rw [mul, rotMatrix_make, rotMatrix_mulRaw]

theorem nyeVariants_all {l : List (Quat ℝ)} (hl : SymTable l) {q s : Quat ℝ} (hs : s ∈ l) :
    ∃ v ∈ nyeVariants l q, rotMatrix v = rotMatrix s * rotMatrix q := by
  have hh := hl.head
  cases l with
  | nil => simp at hs
  | cons a t =>
    simp only [List.getElem?_cons_zero, Option.some.injEq] at hh
    rcases List.mem_cons.1 hs with rfl | hs
    · refine ⟨q, by simp [nyeVariants], ?_⟩
      rw [hh, ← rotMatrix_mulRaw]
      congr 1
      ext <;> simp [mulRaw]
    · refine ⟨symRow s q, ?_, ?_⟩
      · simp only [nyeVariants, List.tail_cons, List.mem_cons, List.mem_map]
        exact .inr ⟨s, hs, rfl⟩
      · rw [symRow_eq, mul, rotMatrix_make, rotMatrix_mulRaw]

theorem nyeClosest_spec {l : List (Quat ℝ)} (hl : SymTable l) {q q' : Quat ℝ} (hq : q.IsUnit)
    (hq' : q'.IsUnit) :
    nyeClosest l q q' ∈ nyeVariants l q' ∧
      ∀ v ∈ nyeVariants l q', |dot q v| ≤ |dot q (nyeClosest l q q')| := by
  have hne : (nyeVariants l q').map (fun v => clip1 |dot q v|) ≠ [] := by simp [nyeVariants]
  obtain ⟨m, h1, h2, -⟩ := argmax_spec _ hne
  rw [List.getElem?_map] at h1
  unfold nyeClosest
  dsimp only
  cases h : (nyeVariants l q')[argmax ((nyeVariants l q').map fun v => clip1 |dot q v|)]? with
  | none => rw [h] at h1; simp at h1
  | some v =>
    rw [h] at h1
    simp only [Option.map_some, Option.some.injEq] at h1
    have hmem := List.mem_of_getElem? h
    refine ⟨hmem, ?_⟩
    intro w hw
    have h3 := h2 _ (List.mem_map.2 ⟨w, hw, rfl⟩)
    rw [← h1, clip1_le (abs_dot_le_one hq (nyeVariants_mem hl hq' hw).1),
      clip1_le (abs_dot_le_one hq (nyeVariants_mem hl hq' hmem).1)] at h3
    exact h3

theorem rotMatrix_conjugate (q : Quat ℝ) : rotMatrix (conjugate q) = (rotMatrix q)ᵀ := by
  unfold conjugate
  rw [rotMatrix_make]
  ext a b
  fin_cases a <;> fin_cases b <;> simp [rotMatrix, Matrix.transpose] <;> ring

theorem rotation_one_of {R : Matrix (Fin 3) (Fin 3) ℝ} (hR : R * R.transpose = 1)
    (hd : R.det = 1)
    (h1 : ∀ a, R a 0 - (if a = 0 then 1 else 0) = R a 1 - (if a = 1 then 1 else 0))
    (h2 : ∀ a, R a 2 = if a = 2 then 1 else 0) : R = 1 := by
  have a0 := h1 0
  have a1 := h1 1
  have a2 := h1 2
  have b0 := h2 0
  have b1 := h2 1
  have b2 := h2 2
  have r0 : (R * R.transpose) 0 0 = 1 := by rw [hR]; rfl
  have r1 : (R * R.transpose) 1 1 = 1 := by rw [hR]; rfl
  have r2 : (R * R.transpose) 2 2 = 1 := by rw [hR]; rfl
  simp [Matrix.mul_apply, Fin.sum_univ_three] at r0 r1 r2
  simp at a0 a1 a2 b0 b1 b2
  rw [b0] at r0
  rw [b1] at r1
  rw [b2] at r2
  have s20 : R 2 0 = 0 := by nlinarith
  have s21 : R 2 1 = 0 := by nlinarith
  have s00 : R 0 0 = 1 ∧ R 0 1 = 0 ∨ R 0 0 = 0 ∧ R 0 1 = -1 := by
    have : (R 0 0 - 1) * R 0 0 = 0 := by nlinarith
    rcases mul_eq_zero.1 this with h | h
    · left; constructor <;> linarith
    · right; constructor <;> linarith
  have s10 : R 1 0 = 0 ∧ R 1 1 = 1 ∨ R 1 0 = -1 ∧ R 1 1 = 0 := by
    have : (R 1 1 - 1) * R 1 1 = 0 := by nlinarith
    rcases mul_eq_zero.1 this with h | h
    · left; constructor <;> linarith
    · right; constructor <;> linarith
  have r01 : (R * R.transpose) 0 1 = 0 := by rw [hR]; rfl
  simp [Matrix.mul_apply, Fin.sum_univ_three] at r01
  rw [b0, b1] at r01
  rw [Matrix.det_fin_three, b0, b1, b2, s20, s21] at hd
  have fin : R 0 0 = 1 ∧ R 0 1 = 0 ∧ R 1 0 = 0 ∧ R 1 1 = 1 := by
    rcases s00 with ⟨x, y⟩ | ⟨x, y⟩ <;> rcases s10 with ⟨z, w⟩ | ⟨z, w⟩ <;>
      first
        | exact ⟨x, y, z, w⟩
        | (rw [x, y, z, w] at hd; norm_num at hd; done)
        | (rw [x, y, z, w] at r01; norm_num at r01; done)
  ext a b
  fin_cases a <;> fin_cases b <;> simp [fin, b0, b1, b2, s20, s21]

/-- The difference between neighbours in `y` vanishes exactly if they have the same orientation of
the crystal. -/
theorem nyeBeta_rot {g : SymGroup} {q q' : Quat ℝ} (hq : q.IsUnit) (hq' : q'.IsUnit) :
    rotMatrix (mul (conjugate (make false (nyeClosest (symEqv g) q q'))) (make false q)) = 1 ↔
      Spec.SameCrystal g q q' := by
  have hl := symEqv_table g
  obtain ⟨c1, c2⟩ := nyeClosest_spec hl hq hq'
  obtain ⟨u1, s, hs, e1⟩ := nyeVariants_mem hl hq' c1
  have e : rotMatrix (mul (conjugate (make false (nyeClosest (symEqv g) q q'))) (make false q)) =
      (rotMatrix (nyeClosest (symEqv g) q q')).transpose * rotMatrix q := by
    rw [mul, rotMatrix_make, rotMatrix_mulRaw, rotMatrix_conjugate, rotMatrix_make, rotMatrix_make]
  have ho := (C36_rotation _ u1).1
  have ho' := (C36_rotation _ u1).2.1
  rw [e]
  constructor
  · intro h
    refine ⟨s, hs, ?_⟩
    rw [← e1]
    calc rotMatrix q = (rotMatrix (nyeClosest (symEqv g) q q') *
          (rotMatrix (nyeClosest (symEqv g) q q')).transpose) * rotMatrix q := by rw [ho, one_mul]
      _ = _ := by rw [Matrix.mul_assoc, h, mul_one]
  · rintro ⟨t, ht, h⟩
    obtain ⟨v, hv, ev⟩ := nyeVariants_all hl (q := q') ht
    have uv := (nyeVariants_mem hl hq' hv).1
    have h1 : |dot q v| = 1 :=
      (abs_dot_one_iff hq uv).2 (rotMatrix_inj hq uv (by rw [h, ev]))
    have h2 : |dot q (nyeClosest (symEqv g) q q')| = 1 :=
      le_antisymm (abs_dot_le_one hq u1) (h1 ▸ c2 v hv)
    have h3 : rotMatrix q = rotMatrix (nyeClosest (symEqv g) q q') := by
      rcases (abs_dot_one_iff hq u1).1 h2 with x | x
      · exact congrArg rotMatrix x
      · exact (congrArg rotMatrix x).trans (rotMatrix_neg _)
    rw [h3, ho']

theorem nyeTotal9_zero (a : Matrix (Fin 3) (Fin 3) ℝ) : nyeTotal9 a = 0 ↔ a = 0 := by
  unfold nyeTotal9
  constructor
  · intro h
    have h' : |a 0 2| + |a 1 2| + |a 2 2| + |a 0 0| + |a 1 0| + |a 2 0| + |a 0 1| + |a 1 1| +
        |a 2 1| = 0 := by linarith
    have p := fun i j => abs_nonneg (a i j)
    ext i j
    rw [Matrix.zero_apply, ← abs_eq_zero]
    fin_cases i <;> fin_cases j <;> simp <;> rw [← abs_nonpos_iff] <;>
      linarith [p 0 0, p 0 1, p 0 2, p 1 0, p 1 1, p 1 2, p 2 0, p 2 1, p 2 2]
  · rintro rfl
    simp

/-- **C62** Inside the map the density is zero exactly if the neighbour in the next row has the same
orientation of the crystal. -/
theorem C62_zero (g : SymGroup) (step : ℝ) (hs : step ≠ 0) (rows cols : Nat)
    (q : Int → Int → Quat ℝ) (hu : Spec.UnitMap rows cols q) (j i : Int) (hj0 : 0 ≤ j)
    (hj : j + 1 < rows) (hi0 : 0 ≤ i) (hi : i + 1 < cols) :
    (calcNye (symEqv g) step rows cols q).1 j i = 0 ↔ Spec.SameCrystal g (q j i) (q (j + 1) i) := by
  have u1 : (q j i).IsUnit := hu _ _ ⟨hj0, by omega, hi0, by omega⟩
  have u2 : (q (j + 1) i).IsUnit := hu _ _ ⟨by omega, by omega, hi0, by omega⟩
  rw [← nyeBeta_rot u1 u2]
  unfold calcNye
  simp only [nyeTotal3_zero_or, nyeTotal9_zero, nyeBetas_at]
  rw [if_pos ⟨hj0, by omega, hi0, by omega⟩]
  have hl := symEqv_table g
  obtain ⟨u3, -⟩ := nyeVariants_mem hl u2 (nyeClosest_spec hl u1 u2).1
  set v := nyeClosest (symEqv g) (q j i) (q (j + 1) i) with hv
  have um : (mul (conjugate (make false v)) (make false (q j i))).IsUnit := by
    refine isUnit_mul ?_ (isUnit_make.2 u1)
    unfold conjugate
    refine isUnit_make.2 ?_
    have := isUnit_make (b := false).2 u3
    simp only [Quat.IsUnit] at this ⊢
    linarith
  set R := rotMatrix (mul (conjugate (make false v)) (make false (q j i))) with hR
  have hb : nyeBurgers ≠ 0 := by unfold nyeBurgers; norm_num
  constructor
  · intro h
    have hh : ∀ a b, nyeAlpha (nyeBeta (symEqv g) step (q j i) (q (j + 1) i))
        (nyeBeta (symEqv g) step (q j i) (q (j + 1) i)) a b = 0 := fun a b => by rw [h]; rfl
    refine rotation_one_of (C36_rotation _ um).1 (C36_rotation _ um).2.2 ?_ ?_
    · intro a
      have := hh a 2
      simp only [nyeAlpha, if_true, div_eq_zero_iff, hb, or_false, nyeBeta, ← hv, ← hR] at this
      have h3 := sub_eq_zero.1 this
      field_simp at h3
      exact h3
    · intro a
      have := hh a 1
      simp only [nyeAlpha] at this
      rw [if_neg (by decide), if_pos trivial] at this
      simp only [div_eq_zero_iff, hb, or_false, nyeBeta, ← hv, ← hR, hs] at this
      have h3 : R a 2 - (if a = 2 then 1 else 0) = 0 := by
        rcases this with h | h
        · exact h
        · norm_num at h
      linarith
  · intro h
    have hz : nyeBeta (symEqv g) step (q j i) (q (j + 1) i) = 0 := by
      ext a b
      simp only [nyeBeta, ← hv, ← hR, h, Matrix.one_apply, sub_self, zero_div, Matrix.zero_apply]
    rw [hz]
    ext a b
    simp [nyeAlpha]

/-- **C62** What the tensor is inside the map. Take the equivalent `v` of the orientation of the
neighbour in the next row that is closest to the orientation of the pixel, and `D`, the rotation
between the two less the identity, per metre. Both gradients of the tensor are `D`. -/
theorem C62_tensor (g : SymGroup) (step : ℝ) (hs : step ≠ 0) (rows cols : Nat)
    (q : Int → Int → Quat ℝ) (hu : Spec.UnitMap rows cols q) (j i : Int) (hj0 : 0 ≤ j)
    (hj : j + 1 < rows) (hi0 : 0 ≤ i) (hi : i + 1 < cols) :
    ∃ s ∈ symEqv g, ∃ v : Quat ℝ, v.IsUnit ∧
      rotMatrix v = rotMatrix s * rotMatrix (q (j + 1) i) ∧
      (∀ t ∈ symEqv g, ∀ w : Quat ℝ, w.IsUnit →
        rotMatrix w = rotMatrix t * rotMatrix (q (j + 1) i) →
        Spec.overlap (q j i) w ≤ Spec.overlap (q j i) v) ∧
      ∃ D : Matrix (Fin 3) (Fin 3) ℝ,
        D = (1 / (step * (1 / 1000000))) • ((rotMatrix v)ᵀ * rotMatrix (q j i) - 1) ∧
        (calcNye (symEqv g) step rows cols q).2 j i =
          (1 / (14 / 100000000000 : ℝ)) • !![-D 0 2, D 0 2, D 0 0 - D 0 1;
            -D 1 2, D 1 2, D 1 0 - D 1 1; -D 2 2, D 2 2, D 2 0 - D 2 1] := by
  have u1 : (q j i).IsUnit := hu _ _ ⟨hj0, by omega, hi0, by omega⟩
  have u2 : (q (j + 1) i).IsUnit := hu _ _ ⟨by omega, by omega, hi0, by omega⟩
  have hl := symEqv_table g
  obtain ⟨c1, c2⟩ := nyeClosest_spec hl u1 u2
  obtain ⟨u3, s, hm, e1⟩ := nyeVariants_mem hl u2 c1
  refine ⟨s, hm, nyeClosest (symEqv g) (q j i) (q (j + 1) i), u3, e1, ?_, _, rfl, ?_⟩
  · intro t ht w uw ew
    obtain ⟨v, hv, ev⟩ := nyeVariants_all hl (q := q (j + 1) i) ht
    have := c2 v hv
    rw [overlap_eq, overlap_eq]
    rcases rotMatrix_inj uw (nyeVariants_mem hl u2 hv).1 (by rw [ew, ev]) with x | x
    · rw [x]; exact this
    · rw [x, dot_neg_right, abs_neg]; exact this
  · unfold calcNye
    simp only [nyeBetas_at]
    rw [if_pos ⟨hj0, by omega, hi0, by omega⟩]
    have e : rotMatrix (mul (conjugate (make false (nyeClosest (symEqv g) (q j i) (q (j + 1) i))))
        (make false (q j i))) =
        (rotMatrix (nyeClosest (symEqv g) (q j i) (q (j + 1) i)))ᵀ * rotMatrix (q j i) := by
      rw [mul, rotMatrix_make, rotMatrix_mulRaw, rotMatrix_conjugate, rotMatrix_make, rotMatrix_make]
    have hB : ∀ a b, nyeBeta (symEqv g) step (q j i) (q (j + 1) i) a b =
        ((1 / (step * (1 / 1000000))) •
          ((rotMatrix (nyeClosest (symEqv g) (q j i) (q (j + 1) i)))ᵀ * rotMatrix (q j i) - 1)) a b := by
      intro a b
      simp only [nyeBeta, e, Matrix.smul_apply, Matrix.sub_apply, Matrix.one_apply, smul_eq_mul]
      field_simp
      norm_num
    generalize ((1 / (step * (1 / 1000000))) •
          ((rotMatrix (nyeClosest (symEqv g) (q j i) (q (j + 1) i)))ᵀ * rotMatrix (q j i) - 1)) = D at hB
    ext a b
    simp only [nyeAlpha, hB, nyeBurgers, Matrix.smul_apply, smul_eq_mul]
    fin_cases a <;> fin_cases b <;> simp <;> ring

theorem sameCrystal_refl (g : SymGroup) (p : Quat ℝ) : Spec.SameCrystal g p p := by
  refine ⟨_, head_mem (symEqv_table g), ?_⟩
  rw [← rotMatrix_mulRaw]
  congr 1
  ext <;> simp [mulRaw]

/-- **C62** A crystal bent along `x` only, each column in one orientation of its own, has density zero
everywhere: false of a density that is to measure the bending. -/
theorem C62_bent (g : SymGroup) (step : ℝ) (hs : step ≠ 0) (rows cols : Nat) (f : Int → Quat ℝ)
    (hu : ∀ i, (f i).IsUnit) (j i : Int) (hm : Spec.InGrid rows cols j i) :
    (calcNye (symEqv g) step rows cols (fun _ i => f i)).1 j i = 0 := by
  obtain ⟨h0, h1, h2, h3⟩ := hm
  by_cases hb : j = (rows : Int) - 1 ∨ i = (cols : Int) - 1
  · exact (C62_border _ _ _ _ _ _ _ hb).1
  · exact (C62_zero g step hs rows cols _ (fun _ _ _ => hu _) j i h0 (by omega) h2 (by omega)).2
      (sameCrystal_refl g _)

/-- A rotation by a small angle about the first axis: half of it has tangent 1/7. -/
noncomputable def Spec.bend : Quat ℝ := ⟨7 / Real.sqrt 50, 1 / Real.sqrt 50, 0, 0⟩

theorem bend_unit : Spec.bend.IsUnit := by
  have : Real.sqrt 50 ^ 2 = 50 := Real.sq_sqrt (by norm_num)
  simp only [Quat.IsUnit, Spec.bend, div_pow, this]
  norm_num

theorem bend_different (g : SymGroup) : ¬ Spec.SameCrystal g Spec.bend ⟨1, 0, 0, 0⟩ := by
  rintro ⟨s, hs, h⟩
  have hl := symEqv_table g
  have e : rotMatrix s * rotMatrix (⟨1, 0, 0, 0⟩ : Quat ℝ) = rotMatrix s := by
    rw [← rotMatrix_mulRaw]
    congr 1
    ext <;> simp [mulRaw]
  rw [e] at h
  have s50 : Real.sqrt 50 ^ 2 = 50 := Real.sq_sqrt (by norm_num)
  have s3 : Real.sqrt 3 ^ 2 = 3 := Real.sq_sqrt (by norm_num)
  have hp : (7 / Real.sqrt 50) ^ 2 = 49 / 50 := by rw [div_pow, s50]; norm_num
  have h1 : (1 / Real.sqrt 50) ^ 2 = 1 / 50 := by rw [div_pow, s50]; norm_num
  have key : s.q0 ^ 2 = 49 / 50 ∧ s.q1 ^ 2 = 1 / 50 := by
    rcases rotMatrix_inj bend_unit (hl.unit _ hs) h with x | x
    · rw [← x]; exact ⟨hp, h1⟩
    · have a := congrArg Quat.q0 x
      have b := congrArg Quat.q1 x
      simp only [Spec.bend, neg] at a b
      constructor
      · rw [← neg_sq, ← a, hp]
      · rw [← neg_sq, ← b, h1]
  rcases hl.far _ hs with x | x
  · rw [x] at key
    norm_num at key
  · have := pow_le_pow_left₀ (abs_nonneg _) x 2
    rw [sq_abs, key.1, div_pow, s3] at this
    norm_num at this

/-- **C62** The density does not measure both gradients: there is a map in which every two pixels
side by side have different orientations of the crystal, and its density is zero everywhere. -/
theorem C62_not_both (g : SymGroup) (step : ℝ) (hs : step ≠ 0) (rows cols : Nat) :
    ∃ q : Int → Int → Quat ℝ, (∀ j i, (q j i).IsUnit) ∧
      (∀ j i, ¬ Spec.SameCrystal g (q j i) (q j (i + 1))) ∧
      ∀ j i, Spec.InGrid rows cols j i → (calcNye (symEqv g) step rows cols q).1 j i = 0 := by
  have u1 : (⟨1, 0, 0, 0⟩ : Quat ℝ).IsUnit := by simp [Quat.IsUnit]
  refine ⟨fun _ i => if i % 2 = 0 then ⟨1, 0, 0, 0⟩ else Spec.bend, ?_, ?_, ?_⟩
  · intro j i
    dsimp only
    split_ifs
    · exact u1
    · exact bend_unit
  · intro j i
    by_cases h : i % 2 = 0
    · have h' : ¬ (i + 1) % 2 = 0 := by omega
      simp only [h, h', if_true, if_false]
      rintro ⟨s, hm, e⟩
      have hl := symEqv_table g
      have us := hl.unit _ hm
      have hb : rotMatrix Spec.bend = (rotMatrix s)ᵀ := by
        calc rotMatrix Spec.bend = ((rotMatrix s)ᵀ * rotMatrix s) * rotMatrix Spec.bend := by
              rw [(C36_rotation _ us).2.1, one_mul]
          _ = _ := by
            rw [Matrix.mul_assoc, ← e]
            have : rotMatrix (⟨1, 0, 0, 0⟩ : Quat ℝ) = 1 := by
              ext a b
              fin_cases a <;> fin_cases b <;> simp [rotMatrix]
            rw [this, mul_one]
      have hc : rotMatrix (conjRaw s) = (rotMatrix s)ᵀ := by
        rw [← rotMatrix_conjugate, conjugate, rotMatrix_make]; rfl
      refine bend_different g ?_
      have e1 : ∀ t : Quat ℝ, rotMatrix t * rotMatrix (⟨1, 0, 0, 0⟩ : Quat ℝ) = rotMatrix t := by
        intro t
        rw [← rotMatrix_mulRaw]
        congr 1
        ext <;> simp [mulRaw]
      rcases hl.conj _ hm with m | m
      · exact ⟨_, m, by rw [e1, hc, hb]⟩
      · exact ⟨_, m, by rw [e1, rotMatrix_neg, hc, hb]⟩
    · have h' : (i + 1) % 2 = 0 := by omega
      simp only [h, h', if_true, if_false]
      exact bend_different g
  · intro j i hm
    refine C62_bent g step hs rows cols (fun i => if i % 2 = 0 then ⟨1, 0, 0, 0⟩ else Spec.bend) ?_
      j i hm
    intro i
    split_ifs
    · exact u1
    · exact bend_unit

/-- The same bending along `y` is seen. -/
example (g : SymGroup) : (calcNye (symEqv g) 1 2 2
    fun j _ => if j = 0 then Spec.bend else ⟨1, 0, 0, 0⟩).1 0 0 ≠ 0 := by
  intro h
  have hu : Spec.UnitMap 2 2 fun j _ => if j = 0 then Spec.bend else ⟨1, 0, 0, 0⟩ := by
    intro i j _
    dsimp only
    split_ifs
    · exact bend_unit
    · simp [Quat.IsUnit]
  have := (C62_zero g 1 one_ne_zero 2 2 _ hu 0 0 (le_refl _) (by simp) (le_refl _) (by simp)).1 h
  exact bend_different g (by simpa using this)

end DefDAP
