import Verif.Spec.CrystalRotations
import Verif.Props.Symmetry
import Mathlib.Tactic.FinCases

/-!
C39: the symmetry operators are the rotations of the cube and of the hexagonal prism.
-/

namespace DefDAP

open Quat Spec Matrix

section exact
variable {d : Nat}

/-- The rotation matrix in exact numbers. -/
def rotExact (q : Quat (Surd d)) : Fin 3 → Fin 3 → Surd d := fun i j =>
  match i, j with
  | 0, 0 => q.q0 * q.q0 + q.q1 * q.q1 - q.q2 * q.q2 - q.q3 * q.q3
  | 0, 1 => (q.q1 * q.q2 - q.q0 * q.q3) + (q.q1 * q.q2 - q.q0 * q.q3)
  | 0, 2 => (q.q1 * q.q3 + q.q0 * q.q2) + (q.q1 * q.q3 + q.q0 * q.q2)
  | 1, 0 => (q.q1 * q.q2 + q.q0 * q.q3) + (q.q1 * q.q2 + q.q0 * q.q3)
  | 1, 1 => q.q0 * q.q0 - q.q1 * q.q1 + q.q2 * q.q2 - q.q3 * q.q3
  | 1, 2 => (q.q2 * q.q3 - q.q0 * q.q1) + (q.q2 * q.q3 - q.q0 * q.q1)
  | 2, 0 => (q.q1 * q.q3 - q.q0 * q.q2) + (q.q1 * q.q3 - q.q0 * q.q2)
  | 2, 1 => (q.q2 * q.q3 + q.q0 * q.q1) + (q.q2 * q.q3 + q.q0 * q.q1)
  | 2, 2 => q.q0 * q.q0 - q.q1 * q.q1 - q.q2 * q.q2 + q.q3 * q.q3

theorem real_rotExact (q : Quat (Surd d)) (i j : Fin 3) :
    (rotExact q i j).real = rotMatrix q.real i j := by
  fin_cases i <;> fin_cases j <;>
    simp [rotExact, rotMatrix, Surd.real_add, Surd.real_sub, Surd.real_mul, Quat.real] <;> ring

/-- The determinant of a matrix given by its columns. -/
def detCols (a b c : Fin 3 → Surd d) : Surd d :=
  a 0 * (b 1 * c 2 - b 2 * c 1) - b 0 * (a 1 * c 2 - a 2 * c 1) + c 0 * (a 1 * b 2 - a 2 * b 1)

theorem real_detCols (a b c : Fin 3 → Surd d) (M : Matrix (Fin 3) (Fin 3) ℝ)
    (ha : ∀ i, M i 0 = (a i).real) (hb : ∀ i, M i 1 = (b i).real) (hc : ∀ i, M i 2 = (c i).real) :
    M.det = (detCols a b c).real := by
  rw [Matrix.det_fin_three]
  simp only [ha, hb, hc, detCols, Surd.real_add, Surd.real_sub, Surd.real_mul]
  ring

end exact

/-! ### The cube -/

/-- The axes of the cube and their opposites. -/
def cubeAxes : List (Fin 3 → Surd 2) :=
  [![s1, s0, s0], ![s0, s1, s0], ![s0, s0, s1], ![-s1, s0, s0], ![s0, -s1, s0], ![s0, s0, -s1]]

theorem cube_exact : ∀ a ∈ cubeAxes, ∀ b ∈ cubeAxes, ∀ c ∈ cubeAxes, detCols a b c = s1 →
    ∃ t ∈ cubicExact, ∀ i, rotExact t i 0 = a i ∧ rotExact t i 1 = b i ∧ rotExact t i 2 = c i := by
  decide +kernel

theorem cube_exact_axes : ∀ t ∈ cubicExact, ∀ j, ∃ a ∈ cubeAxes, ∀ i, rotExact t i j = a i := by
  decide +kernel

theorem col_single (M : Matrix (Fin 3) (Fin 3) ℝ) (i k : Fin 3) :
    (M *ᵥ Pi.single i 1) k = M k i := by
  simp [Matrix.mulVec_single]

theorem axis_real (a : Fin 3 → Surd 2) (ha : a ∈ cubeAxes) :
    ∃ j : Fin 3, (fun i => (a i).real) = Pi.single j (1 : ℝ) ∨
      (fun i => (a i).real) = -Pi.single j (1 : ℝ) := by
  simp only [cubeAxes, List.mem_cons, List.not_mem_nil, or_false] at ha
  have h0 : (s0 : Surd 2).real = 0 := real_s0
  have h1 : (s1 : Surd 2).real = 1 := real_s1
  rcases ha with rfl | rfl | rfl | rfl | rfl | rfl
  · exact ⟨0, Or.inl (by ext i; fin_cases i <;> simp [h0, h1])⟩
  · exact ⟨1, Or.inl (by ext i; fin_cases i <;> simp [h0, h1])⟩
  · exact ⟨2, Or.inl (by ext i; fin_cases i <;> simp [h0, h1])⟩
  · exact ⟨0, Or.inr (by ext i; fin_cases i <;> simp [h0, h1, Surd.real_neg])⟩
  · exact ⟨1, Or.inr (by ext i; fin_cases i <;> simp [h0, h1, Surd.real_neg])⟩
  · exact ⟨2, Or.inr (by ext i; fin_cases i <;> simp [h0, h1, Surd.real_neg])⟩

theorem axis_exact (v : Fin 3 → ℝ) (j : Fin 3)
    (h : v = Pi.single j (1 : ℝ) ∨ v = -Pi.single j (1 : ℝ)) :
    ∃ a ∈ cubeAxes, ∀ i, v i = (a i).real := by
  have h0 : (s0 : Surd 2).real = 0 := real_s0
  have h1 : (s1 : Surd 2).real = 1 := real_s1
  rcases h with rfl | rfl
  · fin_cases j
    · exact ⟨![s1, s0, s0], by simp [cubeAxes], fun i => by fin_cases i <;> simp [h0, h1]⟩
    · exact ⟨![s0, s1, s0], by simp [cubeAxes], fun i => by fin_cases i <;> simp [h0, h1]⟩
    · exact ⟨![s0, s0, s1], by simp [cubeAxes], fun i => by fin_cases i <;> simp [h0, h1]⟩
  · fin_cases j
    · exact ⟨![-s1, s0, s0], by simp [cubeAxes],
        fun i => by fin_cases i <;> simp [h0, h1, Surd.real_neg]⟩
    · exact ⟨![s0, -s1, s0], by simp [cubeAxes],
        fun i => by fin_cases i <;> simp [h0, h1, Surd.real_neg]⟩
    · exact ⟨![s0, s0, -s1], by simp [cubeAxes],
        fun i => by fin_cases i <;> simp [h0, h1, Surd.real_neg]⟩

/-- **C39** The cubic operators are exactly the rotations of the cube. -/
theorem C39_cube (M : Matrix (Fin 3) (Fin 3) ℝ) :
    CubeRotation M ↔ ∃ s ∈ symEqv .cubic, rotMatrix s = M := by
  constructor
  · rintro ⟨⟨-, hdet⟩, hax⟩
    have hcol : ∀ i, ∃ a ∈ cubeAxes, ∀ k, M k i = (a k).real := by
      intro i
      obtain ⟨j, hj⟩ := hax i
      obtain ⟨a, ha, h⟩ := axis_exact _ j hj
      exact ⟨a, ha, fun k => by rw [← h k, col_single]⟩
    obtain ⟨a, ha, ha'⟩ := hcol 0
    obtain ⟨b, hb, hb'⟩ := hcol 1
    obtain ⟨c, hc, hc'⟩ := hcol 2
    have hd : detCols a b c = s1 := by
      refine Surd.real_inj Nat.prime_two ?_
      rw [← real_detCols a b c M ha' hb' hc', hdet, real_s1]
    obtain ⟨t, ht, h⟩ := cube_exact a ha b hb c hc hd
    refine ⟨t.real, List.mem_map.mpr ⟨t, ht, rfl⟩, ?_⟩
    ext i j
    rw [← real_rotExact]
    fin_cases j
    · exact (congrArg Surd.real (h i).1).trans (ha' i).symm
    · exact (congrArg Surd.real (h i).2.1).trans (hb' i).symm
    · exact (congrArg Surd.real (h i).2.2).trans (hc' i).symm
  · rintro ⟨s, hs, rfl⟩
    have hu := (symEqv_table .cubic).unit s hs
    refine ⟨⟨(C36_rotation s hu).1, (C36_rotation s hu).2.2⟩, ?_⟩
    obtain ⟨t, ht, rfl⟩ := List.mem_map.mp hs
    intro j
    obtain ⟨a, ha, h⟩ := cube_exact_axes t ht j
    have hcol : rotMatrix t.real *ᵥ Pi.single j 1 = fun i => (a i).real := by
      ext i
      rw [col_single, ← real_rotExact, h i]
    rw [hcol]
    exact axis_real a ha

/-! ### The prism -/

/-- The corners of the hexagon, in order. -/
def hexExact : Fin 6 → Fin 3 → Surd 3
  | 0 => ![s1, s0, s0]
  | 1 => ![sh, sr, s0]
  | 2 => ![-sh, sr, s0]
  | 3 => ![-s1, s0, s0]
  | 4 => ![-sh, -sr, s0]
  | 5 => ![sh, -sr, s0]

theorem hex_real (k : Fin 6) (i : Fin 3) : hexAxis k i = (hexExact k i).real := by
  have h0 : (s0 : Surd 3).real = 0 := real_s0
  have h1 : (s1 : Surd 3).real = 1 := real_s1
  have hh : (sh : Surd 3).real = 1 / 2 := real_sh
  have hr : (sr : Surd 3).real = Real.sqrt 3 / 2 := real_sr
  have e2 : (2 : ℝ) * (Real.pi / 3) = Real.pi - Real.pi / 3 := by ring
  have e3 : (3 : ℝ) * (Real.pi / 3) = Real.pi := by ring
  have e4 : (4 : ℝ) * (Real.pi / 3) = Real.pi / 3 + Real.pi := by ring
  have e5 : (5 : ℝ) * (Real.pi / 3) = -(Real.pi / 3) + 2 * Real.pi := by ring
  fin_cases k <;> fin_cases i <;>
    simp [hexAxis, hexExact, h0, h1, hh, hr, Surd.real_neg, e2, e3, e4, e5, Real.cos_pi_sub,
      Real.sin_pi_sub, Real.cos_add_pi, Real.sin_add_pi, Real.cos_add_two_pi, Real.sin_add_two_pi,
      Real.cos_pi_div_three, Real.sin_pi_div_three]

/-- Half the square root of three, doubled and divided by three: the inverse of the root. -/
def invRoot3 : Surd 3 := ⟨0, 1 / 3⟩

/-- The image of the second axis, from those of two corners. -/
def hexSecond (l m : Fin 6) : Fin 3 → Surd 3 := fun i =>
  (hexExact m i + hexExact m i - hexExact l i) * invRoot3

theorem hex_exact : ∀ l m k : Fin 6, (∀ i, hexExact m i - hexExact l i = hexExact k i) →
    ∀ c ∈ ([![s0, s0, s1], ![s0, s0, -s1]] : List (Fin 3 → Surd 3)),
    detCols (hexExact l) (hexSecond l m) c = s1 →
    ∃ t ∈ hexagonalExact, ∀ i, rotExact t i 0 = hexExact l i ∧ rotExact t i 1 = hexSecond l m i ∧
      rotExact t i 2 = c i := by
  decide +kernel

theorem hex_exact_axes : ∀ t ∈ hexagonalExact, (∀ k, ∃ l, ∀ i,
    rotExact t i 0 * hexExact k 0 + rotExact t i 1 * hexExact k 1 + rotExact t i 2 * hexExact k 2 =
      hexExact l i) ∧
    ∃ c ∈ ([![s0, s0, s1], ![s0, s0, -s1]] : List (Fin 3 → Surd 3)),
      ∀ i, rotExact t i 2 = c i := by
  decide +kernel

theorem mulVec_three (M : Matrix (Fin 3) (Fin 3) ℝ) (v : Fin 3 → ℝ) (i : Fin 3) :
    (M *ᵥ v) i = M i 0 * v 0 + M i 1 * v 1 + M i 2 * v 2 := by
  simp [Matrix.mulVec, dotProduct, Fin.sum_univ_three]

/-- **C39** The hexagonal operators are exactly the rotations of the hexagonal prism. -/
theorem C39_prism (M : Matrix (Fin 3) (Fin 3) ℝ) :
    PrismRotation M ↔ ∃ s ∈ symEqv .hexagonal, rotMatrix s = M := by
  have h0 : (s0 : Surd 3).real = 0 := real_s0
  have h1 : (s1 : Surd 3).real = 1 := real_s1
  have hh : (sh : Surd 3).real = 1 / 2 := real_sh
  have hr : (sr : Surd 3).real = Real.sqrt 3 / 2 := real_sr
  have h3 : Real.sqrt 3 * Real.sqrt 3 = 3 := Real.mul_self_sqrt (by norm_num)
  have hinv : invRoot3.real = Real.sqrt 3 / 3 := by simp [invRoot3, Surd.real]; ring
  constructor
  · rintro ⟨⟨-, hdet⟩, hax, hz⟩
    obtain ⟨l, hl⟩ := hax 0
    obtain ⟨m, hm⟩ := hax 1
    obtain ⟨k, hk⟩ := hax 2
    have hl' : ∀ i, M i 0 = (hexExact l i).real := by
      intro i
      have := congrFun hl i
      rw [mulVec_three, hex_real, hex_real, hex_real, hex_real] at this
      simpa [hexExact, h0, h1] using this
    have hm' : ∀ i, M i 0 * (1 / 2) + M i 1 * (Real.sqrt 3 / 2) = (hexExact m i).real := by
      intro i
      have := congrFun hm i
      rw [mulVec_three, hex_real, hex_real, hex_real, hex_real] at this
      simpa [hexExact, h0, hh, hr] using this
    have hk' : ∀ i, -(M i 0 * (1 / 2)) + M i 1 * (Real.sqrt 3 / 2) = (hexExact k i).real := by
      intro i
      have := congrFun hk i
      rw [mulVec_three, hex_real, hex_real, hex_real, hex_real] at this
      simpa [hexExact, h0, hh, hr, Surd.real_neg] using this
    have hb' : ∀ i, M i 1 = (hexSecond l m i).real := by
      intro i
      simp only [hexSecond, Surd.real_mul, Surd.real_sub, Surd.real_add, hinv, ← hl', ← hm']
      linear_combination (-(M i 1) / 3) * h3
    have hsub : ∀ i, hexExact m i - hexExact l i = hexExact k i := by
      intro i
      refine Surd.real_inj Nat.prime_three ?_
      rw [Surd.real_sub, ← hl', ← hm', ← hk']
      ring
    obtain ⟨c, hc, hc'⟩ : ∃ c ∈ ([![s0, s0, s1], ![s0, s0, -s1]] : List (Fin 3 → Surd 3)),
        ∀ i, M i 2 = (c i).real := by
      rcases hz with hz | hz
      · refine ⟨_, List.mem_cons_self, fun i => ?_⟩
        have := congrFun hz i
        rw [mulVec_three] at this
        fin_cases i <;> simpa [h0, h1] using this
      · refine ⟨_, List.mem_cons_of_mem _ List.mem_cons_self, fun i => ?_⟩
        have := congrFun hz i
        rw [mulVec_three] at this
        fin_cases i <;> simpa [h0, h1, Surd.real_neg] using this
    have hd : detCols (hexExact l) (hexSecond l m) c = s1 := by
      refine Surd.real_inj Nat.prime_three ?_
      rw [← real_detCols _ _ _ M hl' hb' hc', hdet, real_s1]
    obtain ⟨t, ht, h⟩ := hex_exact l m k hsub c hc hd
    refine ⟨t.real, List.mem_map.mpr ⟨t, ht, rfl⟩, ?_⟩
    ext i j
    rw [← real_rotExact]
    fin_cases j
    · exact (congrArg Surd.real (h i).1).trans (hl' i).symm
    · exact (congrArg Surd.real (h i).2.1).trans (hb' i).symm
    · exact (congrArg Surd.real (h i).2.2).trans (hc' i).symm
  · rintro ⟨s, hs, rfl⟩
    have hu := (symEqv_table .hexagonal).unit s hs
    refine ⟨⟨(C36_rotation s hu).1, (C36_rotation s hu).2.2⟩, ?_, ?_⟩
    · obtain ⟨t, ht, rfl⟩ := List.mem_map.mp hs
      intro k
      obtain ⟨l, hl⟩ := (hex_exact_axes t ht).1 k
      refine ⟨l, ?_⟩
      ext i
      rw [mulVec_three, hex_real, hex_real, hex_real, hex_real, ← hl i, Surd.real_add, Surd.real_add,
        Surd.real_mul, Surd.real_mul, Surd.real_mul, real_rotExact, real_rotExact, real_rotExact]
    · obtain ⟨t, ht, rfl⟩ := List.mem_map.mp hs
      obtain ⟨c, hc, h⟩ := (hex_exact_axes t ht).2
      have hcol : ∀ i, (rotMatrix t.real *ᵥ ![0, 0, 1]) i = (c i).real := by
        intro i
        rw [mulVec_three, ← h i, real_rotExact]
        simp
      simp only [List.mem_cons, List.not_mem_nil, or_false] at hc
      rcases hc with rfl | rfl
      · left
        ext i
        rw [hcol]
        fin_cases i <;> simp [h0, h1]
      · right
        ext i
        rw [hcol]
        fin_cases i <;> simp [h0, h1, Surd.real_neg]

end DefDAP
