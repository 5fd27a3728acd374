import Verif.Props.FundDirs

/-! Reflections of the standard triangles, for C45. -/

namespace DefDAP

open Quat Matrix

/-- The product of an exact matrix and the rotation of an operator. -/
def exactImage {d : Nat} (m : Fin 3 → Fin 3 → Surd d) (q : Quat (Surd d)) (i j : Fin 3) : Surd d :=
  m i 0 * exactRotT q j 0 + m i 1 * exactRotT q j 1 + m i 2 * exactRotT q j 2

/-- An exact matrix. -/
noncomputable def exactReal {d : Nat} (m : Fin 3 → Fin 3 → Surd d) : Matrix (Fin 3) (Fin 3) ℝ :=
  fun i j => (m i j).real

theorem exactImage_real {d : Nat} (m : Fin 3 → Fin 3 → Surd d) (q : Quat (Surd d)) (i j : Fin 3) :
    (exactImage m q i j).real = (exactReal m * rotMatrix q.real) i j := by
  have h : ∀ k, (exactRotT q j k).real = rotMatrix q.real k j := fun k => by
    rw [← exactRotT_real]; rfl
  simp only [exactImage, Surd.real_add, Surd.real_mul, h, Matrix.mul_apply, Fin.sum_univ_three,
    exactReal]

/-- Some operator of the table has the rotation `M` after the rotation of `s`. -/
def HasImage (l : List (Quat ℝ)) (M : Matrix (Fin 3) (Fin 3) ℝ) : Prop :=
  ∀ s ∈ l, ∃ t ∈ l, rotMatrix t = M * rotMatrix s

theorem hasImage_of_exact {d : Nat} {l : List (Quat (Surd d))} {m : Fin 3 → Fin 3 → Surd d}
    (h : ∀ q ∈ l, ∃ t ∈ l, ∀ i j, exactRotT t j i = exactImage m q i j) :
    HasImage (l.map Quat.real) (exactReal m) := by
  intro s hs
  obtain ⟨q, hq, rfl⟩ := List.mem_map.1 hs
  obtain ⟨t, ht, e⟩ := h q hq
  refine ⟨t.real, List.mem_map.2 ⟨t, ht, rfl⟩, ?_⟩
  ext i j
  rw [← exactImage_real, ← e, ← exactRotT_real]
  rfl

/-- A mirror that contains the polar axis keeps the northern images. -/
theorem mirror_image {l : List (Quat ℝ)} {M : Matrix (Fin 3) (Fin 3) ℝ}
    (hz : ∀ j, M 2 j = if j = 2 then 1 else 0) (h1 : HasImage l (-M))
    (h2 : HasImage l (Matrix.of fun i j => if i = 2 then -M i j else M i j)) (c : Fin 3 → ℝ) (s : Quat ℝ)
    (hs : s ∈ l) :
    ∃ t ∈ l, Spec.northern (rotMatrix t *ᵥ c) = M *ᵥ Spec.northern (rotMatrix s *ᵥ c) := by
  have mz : ∀ v : Fin 3 → ℝ, (M *ᵥ v) 2 = v 2 := by
    intro v
    simp [Matrix.mulVec, dotProduct, hz]
  rcases lt_or_eq_of_le (northern_nonneg (rotMatrix s *ᵥ c)) with hp | h0
  · obtain ⟨t, ht, e⟩ := h1 s hs
    refine ⟨t, ht, northern_of_pos ?_ (by rw [mz]; exact hp)⟩
    rw [e, Matrix.neg_mul, Matrix.neg_mulVec, ← Matrix.mulVec_mulVec]
    rcases northern_cases (rotMatrix s *ᵥ c) with ⟨x, -⟩ | ⟨x, -⟩
    · rw [x]; exact .inr rfl
    · rw [x, Matrix.mulVec_neg]; exact .inl rfl
  · obtain ⟨t, ht, e⟩ := h2 s hs
    refine ⟨t, ht, ?_⟩
    have hv : Spec.northern (rotMatrix s *ᵥ c) = rotMatrix s *ᵥ c := by
      rcases northern_cases (rotMatrix s *ᵥ c) with ⟨x, -⟩ | ⟨x, y⟩
      · exact x
      · rw [x, Pi.neg_apply] at h0
        linarith
    rw [hv] at h0 ⊢
    have img : rotMatrix t *ᵥ c = M *ᵥ (rotMatrix s *ᵥ c) := by
      rw [e, ← Matrix.mulVec_mulVec]
      ext i
      fin_cases i
      · simp [Matrix.mulVec, dotProduct, Fin.sum_univ_three]
      · simp [Matrix.mulVec, dotProduct, Fin.sum_univ_three]
      · have := mz (rotMatrix s *ᵥ c)
        have e2 : ((Matrix.of fun i j => if i = 2 then -M i j else M i j) *ᵥ
          (rotMatrix s *ᵥ c)) 2 = -(M *ᵥ (rotMatrix s *ᵥ c)) 2 := by
          simp only [Matrix.mulVec, dotProduct, Fin.sum_univ_three, Matrix.of_apply, if_true]
          ring
        show ((Matrix.of fun i j => if i = 2 then -M i j else M i j) *ᵥ
          (rotMatrix s *ᵥ c)) 2 = (M *ᵥ (rotMatrix s *ᵥ c)) 2
        rw [e2, this, ← h0, neg_zero]
    rw [img]
    exact northern_of_nonneg (by rw [mz]; exact h0.le)

/-- The largest value of a function on the images is attained. -/
theorem image_max {l : List (Quat ℝ)} (hl : l ≠ []) (f : Quat ℝ → ℝ) :
    ∃ s ∈ l, ∀ t ∈ l, f t ≤ f s := by
  induction l with
  | nil => exact absurd rfl hl
  | cons a t ih =>
    by_cases ht : t = []
    · subst ht
      exact ⟨a, by simp, by simp⟩
    · obtain ⟨s, hs, h⟩ := ih ht
      by_cases hc : f s ≤ f a
      · refine ⟨a, by simp, ?_⟩
        intro x hx
        rcases List.mem_cons.1 hx with rfl | hx
        · exact le_refl _
        · exact (h x hx).trans hc
      · refine ⟨s, List.mem_cons_of_mem _ hs, ?_⟩
        intro x hx
        rcases List.mem_cons.1 hx with rfl | hx
        · exact (not_le.1 hc).le
        · exact h x hx

/-! ### Hexagonal -/

/-- The mirrors of the hexagonal triangles: the plane `x = 0`, and the planes at 120 and 60 degrees. -/
def hexMirror (k : Fin 3) (i j : Fin 3) : Surd 3 :=
  ![![![⟨-1, 0⟩, ⟨0, 0⟩, ⟨0, 0⟩], ![⟨0, 0⟩, ⟨1, 0⟩, ⟨0, 0⟩], ![⟨0, 0⟩, ⟨0, 0⟩, ⟨1, 0⟩]],
    ![![⟨-1 / 2, 0⟩, ⟨0, -1 / 2⟩, ⟨0, 0⟩], ![⟨0, -1 / 2⟩, ⟨1 / 2, 0⟩, ⟨0, 0⟩], ![⟨0, 0⟩, ⟨0, 0⟩, ⟨1, 0⟩]],
    ![![⟨-1 / 2, 0⟩, ⟨0, 1 / 2⟩, ⟨0, 0⟩], ![⟨0, 1 / 2⟩, ⟨1 / 2, 0⟩, ⟨0, 0⟩], ![⟨0, 0⟩, ⟨0, 0⟩, ⟨1, 0⟩]]] k i j

theorem hex_mirror1 : ∀ k, ∀ q ∈ hexagonalExact, ∃ t ∈ hexagonalExact, ∀ i j,
    exactRotT t j i = exactImage (fun i j => -hexMirror k i j) q i j := by decide +kernel

theorem hex_mirror2 : ∀ k, ∀ q ∈ hexagonalExact, ∃ t ∈ hexagonalExact, ∀ i j,
    exactRotT t j i =
      exactImage (fun i j => if i = 2 then -hexMirror k i j else hexMirror k i j) q i j := by
  decide +kernel

theorem hex_mirror (k : Fin 3) (c : Fin 3 → ℝ) (s : Quat ℝ) (hs : s ∈ symEqv .hexagonal) :
    ∃ t ∈ symEqv .hexagonal, Spec.northern (rotMatrix t *ᵥ c) =
      exactReal (hexMirror k) *ᵥ Spec.northern (rotMatrix s *ᵥ c) := by
  refine mirror_image ?_ ?_ ?_ c s hs
  · intro j
    fin_cases k <;> fin_cases j <;> simp [exactReal, hexMirror, Surd.real]
  · have := hasImage_of_exact (hex_mirror1 k)
    have e : exactReal (fun i j => -hexMirror k i j) = -exactReal (hexMirror k) := by
      ext i j; simp [exactReal, Surd.real_neg]
    rw [e] at this
    exact this
  · have := hasImage_of_exact (hex_mirror2 k)
    have e : exactReal (fun i j => if i = 2 then -hexMirror k i j else hexMirror k i j) =
        Matrix.of fun i j =>
          if i = 2 then -exactReal (hexMirror k) i j else exactReal (hexMirror k) i j := by
      ext i j
      simp only [exactReal, Matrix.of_apply]
      split_ifs <;> simp [Surd.real_neg]
    rw [e] at this
    exact this

theorem symEqv_ne_nil (g : SymGroup) : symEqv g ≠ [] := by
  intro h
  have := (symEqv_table g).head
  rw [h] at this
  simp at this

/-- Some image lies in the sector between 90 and 120 degrees, and some between 60 and 90. -/
theorem hex_exists (c : Fin 3 → ℝ) :
    (∃ s ∈ symEqv .hexagonal, Spec.northern (rotMatrix s *ᵥ c) 0 ≤ 0 ∧
      -(Real.sqrt 3 * Spec.northern (rotMatrix s *ᵥ c) 0) ≤ Spec.northern (rotMatrix s *ᵥ c) 1) ∧
    (∃ s ∈ symEqv .hexagonal, 0 ≤ Spec.northern (rotMatrix s *ᵥ c) 0 ∧
      Real.sqrt 3 * Spec.northern (rotMatrix s *ᵥ c) 0 ≤ Spec.northern (rotMatrix s *ᵥ c) 1) := by
  have h3 : Real.sqrt 3 ^ 2 = 3 := Real.sq_sqrt (by norm_num)
  have h3p : 0 < Real.sqrt 3 := Real.sqrt_pos.2 (by norm_num)
  have h32 : Real.sqrt 3 < 2 := by nlinarith
  have cast3 : Real.sqrt ((3 : ℕ) : ℝ) = Real.sqrt 3 := by norm_num
  constructor
  · obtain ⟨s, hs, hm⟩ := image_max (symEqv_ne_nil .hexagonal)
      (fun s => -Spec.northern (rotMatrix s *ᵥ c) 0 + 3 * Spec.northern (rotMatrix s *ᵥ c) 1)
    refine ⟨s, hs, ?_, ?_⟩
    · obtain ⟨t, ht, e⟩ := hex_mirror 0 c s hs
      have := hm t ht
      rw [e] at this
      simp [exactReal, hexMirror, Surd.real, Matrix.mulVec, dotProduct, Fin.sum_univ_three] at this
      linarith
    · obtain ⟨t, ht, e⟩ := hex_mirror 1 c s hs
      have := hm t ht
      rw [e] at this
      simp [exactReal, hexMirror, Surd.real, Matrix.mulVec, dotProduct, Fin.sum_univ_three, cast3] at this
      generalize Spec.northern (rotMatrix s *ᵥ c) 0 = x at this ⊢
      generalize Spec.northern (rotMatrix s *ᵥ c) 1 = y at this ⊢
      have hx : Real.sqrt 3 ^ 2 * x = 3 * x := by rw [h3]
      have hp : 0 ≤ (3 - Real.sqrt 3) * (y + Real.sqrt 3 * x) := by nlinarith
      have := nonneg_of_mul_nonneg_right hp (by linarith)
      linarith
  · obtain ⟨s, hs, hm⟩ := image_max (symEqv_ne_nil .hexagonal)
      (fun s => Spec.northern (rotMatrix s *ᵥ c) 0 + 3 * Spec.northern (rotMatrix s *ᵥ c) 1)
    refine ⟨s, hs, ?_, ?_⟩
    · obtain ⟨t, ht, e⟩ := hex_mirror 0 c s hs
      have := hm t ht
      rw [e] at this
      simp [exactReal, hexMirror, Surd.real, Matrix.mulVec, dotProduct, Fin.sum_univ_three] at this
      linarith
    · obtain ⟨t, ht, e⟩ := hex_mirror 2 c s hs
      have := hm t ht
      rw [e] at this
      simp [exactReal, hexMirror, Surd.real, Matrix.mulVec, dotProduct, Fin.sum_univ_three, cast3] at this
      generalize Spec.northern (rotMatrix s *ᵥ c) 0 = x at this ⊢
      generalize Spec.northern (rotMatrix s *ᵥ c) 1 = y at this ⊢
      have hx : Real.sqrt 3 ^ 2 * x = 3 * x := by rw [h3]
      have hp : 0 ≤ (3 - Real.sqrt 3) * (y - Real.sqrt 3 * x) := by nlinarith
      have := nonneg_of_mul_nonneg_right hp (by linarith)
      linarith

end DefDAP
