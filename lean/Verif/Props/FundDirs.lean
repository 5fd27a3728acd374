import Verif.Props.Projections
import Verif.Props.Families
import Verif.Props.SymTables

/-! C45: directions of inverse pole figures. -/

namespace DefDAP

open Quat Matrix

/-! ### The table of directions -/

/-- Directions and their opposites are not told apart: the one of the northern hemisphere. -/
noncomputable def Spec.northern (v : Fin 3 → ℝ) : Fin 3 → ℝ :=
  open Classical in if v 2 < 0 then -v else v

/-- The sample direction `d` in the frame of the crystal. -/
noncomputable def Spec.inCrystal (q : Quat ℝ) (d : Fin 3 → ℝ) : Fin 3 → ℝ :=
  (1 / Real.sqrt (d ⬝ᵥ d)) • (rotMatrix q *ᵥ d)

theorem crystalDirRaw_eq (q : Quat ℝ) (d : Fin 3 → ℝ) : crystalDirRaw q d = rotMatrix q *ᵥ d := by
  ext i
  fin_cases i <;>
    simp [crystalDirRaw, rotMatrix, Matrix.mulVec, dotProduct, Fin.sum_univ_three] <;> ring

theorem rot_dot {q : Quat ℝ} (hq : q.IsUnit) (v : Fin 3 → ℝ) :
    (rotMatrix q *ᵥ v) ⬝ᵥ (rotMatrix q *ᵥ v) = v ⬝ᵥ v := by
  rw [Matrix.dotProduct_mulVec, Matrix.vecMul_mulVec, (C36_rotation q hq).2.1,
    Matrix.vecMul_one]

theorem dot_three (v : Fin 3 → ℝ) : v ⬝ᵥ v = v 0 ^ 2 + v 1 ^ 2 + v 2 ^ 2 := by
  simp only [dotProduct, Fin.sum_univ_three]; ring

theorem crystalDir_eq {q : Quat ℝ} (hq : q.IsUnit) (d : Fin 3 → ℝ) :
    crystalDir q d = Spec.northern (Spec.inCrystal q d) := by
  unfold crystalDir Spec.northern Spec.inCrystal
  simp only [crystalDirRaw_eq]
  have e : Real.sqrt ((rotMatrix q *ᵥ d) 0 * (rotMatrix q *ᵥ d) 0 +
      (rotMatrix q *ᵥ d) 1 * (rotMatrix q *ᵥ d) 1 + (rotMatrix q *ᵥ d) 2 * (rotMatrix q *ᵥ d) 2) =
      Real.sqrt (d ⬝ᵥ d) := by
    rw [← rot_dot hq d]
    congr 1
    simp only [dotProduct, Fin.sum_univ_three]
  rw [e]
  have f : (fun i => (rotMatrix q *ᵥ d) i / Real.sqrt (d ⬝ᵥ d)) =
      (1 / Real.sqrt (d ⬝ᵥ d)) • (rotMatrix q *ᵥ d) := by
    funext i
    simp only [Pi.smul_apply, smul_eq_mul]
    ring
  have g : ∀ i, (rotMatrix q *ᵥ d) i / Real.sqrt (d ⬝ᵥ d) =
      ((1 / Real.sqrt (d ⬝ᵥ d)) • (rotMatrix q *ᵥ d)) i := fun i => congrFun f i
  simp only [g]
  by_cases h : ((1 / Real.sqrt (d ⬝ᵥ d)) • (rotMatrix q *ᵥ d)) 2 < 0
  · rw [if_pos h, if_pos h]
    funext i
    simp
  · rw [if_neg h, if_neg h]

theorem northern_cases (v : Fin 3 → ℝ) :
    (Spec.northern v = v ∧ 0 ≤ v 2) ∨ (Spec.northern v = -v ∧ v 2 < 0) := by
  unfold Spec.northern
  split_ifs with h
  · exact .inr ⟨rfl, h⟩
  · exact .inl ⟨rfl, not_lt.1 h⟩

theorem northern_nonneg (v : Fin 3 → ℝ) : 0 ≤ Spec.northern v 2 := by
  rcases northern_cases v with ⟨h, h'⟩ | ⟨h, h'⟩
  · rw [h]; exact h'
  · rw [h, Pi.neg_apply]; linarith

theorem northern_unit {v : Fin 3 → ℝ} (h : Spec.UnitDir v) : Spec.UnitDir (Spec.northern v) := by
  unfold Spec.UnitDir at *
  rcases northern_cases v with ⟨e, -⟩ | ⟨e, -⟩
  · rw [e]; exact h
  · rw [e]; simpa using h

theorem northern_of_pos {v w : Fin 3 → ℝ} (h : v = w ∨ v = -w) (hw : 0 < w 2) :
    Spec.northern v = w := by
  unfold Spec.northern
  rcases h with h | h
  · rw [if_neg (by rw [h]; linarith), h]
  · rw [if_pos (by rw [h, Pi.neg_apply]; linarith), h, neg_neg]

theorem northern_of_nonneg {v : Fin 3 → ℝ} (hw : 0 ≤ v 2) : Spec.northern v = v := by
  unfold Spec.northern
  rw [if_neg (by linarith)]

/-- The angles in the code: of the images of `c` under the operators, in their order. -/
noncomputable def groupAngles (l : List (Quat ℝ)) (c : Fin 3 → ℝ) : List (ℝ × ℝ) :=
  l.map fun s =>
    let w := Spec.northern (rotMatrix s *ᵥ c)
    (Real.arccos (w 2), arctan2 (w 1) (w 0))

theorem inCrystal_unit {q : Quat ℝ} (hq : q.IsUnit) {d : Fin 3 → ℝ} (hd : d ≠ 0) :
    Spec.UnitDir (Spec.inCrystal q d) := by
  have hp : 0 < d ⬝ᵥ d := axis_pos hd
  unfold Spec.UnitDir
  rw [← dot_three, Spec.inCrystal, smul_dotProduct, dotProduct_smul, rot_dot hq]
  have := Real.mul_self_sqrt hp.le
  have hs : Real.sqrt (d ⬝ᵥ d) ≠ 0 := by
    rw [Real.sqrt_ne_zero']; exact hp
  simp only [smul_eq_mul]
  field_simp
  rw [sq, this]

theorem inCrystal_mul (s q : Quat ℝ) (d : Fin 3 → ℝ) :
    Spec.inCrystal (mul s q) d = rotMatrix s *ᵥ Spec.inCrystal q d := by
  unfold Spec.inCrystal
  rw [mul, rotMatrix_make, rotMatrix_mulRaw, Matrix.mulVec_smul, Matrix.mulVec_mulVec]

theorem rot_unitDir {s : Quat ℝ} (hs : s.IsUnit) {c : Fin 3 → ℝ} (hc : Spec.UnitDir c) :
    Spec.UnitDir (rotMatrix s *ᵥ c) := by
  unfold Spec.UnitDir at *
  rw [← dot_three] at *
  rw [rot_dot hs, hc]

theorem column_angles {l : List (Quat ℝ)} (hl : SymTable l) (quats : List (Quat ℝ)) (k : Nat)
    (q : Quat ℝ) (hk : quats[k]? = some q) (hq : q.IsUnit) {d : Fin 3 → ℝ} (hd : d ≠ 0) :
    (column (calcSymEqvs l quats) k).map (fun q => crystalAngles q d) =
      groupAngles l (Spec.inCrystal q d) := by
  rw [column_table hl quats k q hk]
  have one : rotMatrix (⟨1, 0, 0, 0⟩ : Quat ℝ) *ᵥ Spec.inCrystal q d = Spec.inCrystal q d := by
    ext i
    fin_cases i <;> simp [rotMatrix, Matrix.mulVec, dotProduct, Fin.sum_univ_three]
  have ang : ∀ v : Quat ℝ, v.IsUnit → crystalAngles v d =
      (Real.arccos (Spec.northern (Spec.inCrystal v d) 2),
        arctan2 (Spec.northern (Spec.inCrystal v d) 1) (Spec.northern (Spec.inCrystal v d) 0)) := by
    intro v hv
    unfold crystalAngles
    simp only [crystalDir_eq hv]
    exact polar_unit (northern_unit (inCrystal_unit hv hd))
  unfold groupAngles
  conv_rhs => rw [table_cons hl]
  rw [List.map_cons, List.map_cons, List.map_map]
  congr 1
  · rw [ang q hq]
    simp only [one]
  · apply List.map_congr_left
    intro s hs
    have hs' := hl.unit _ (List.mem_of_mem_tail hs)
    simp only [Function.comp]
    rw [ang _ (isUnit_mul hs' hq)]
    simp only [inCrystal_mul]

/-! ### Sectors -/

theorem arctan2_zero : arctan2 0 0 = 0 := by
  unfold arctan2
  exact Complex.arg_zero

/-- The azimuth lies between two angles of the upper half plane exactly if the point is on the
right sides of the two lines. -/
theorem arctan2_sector {lo hi x y : ℝ} (h0 : 0 < lo) (h1 : lo < hi) (h2 : hi < Real.pi)
    (hne : x ^ 2 + y ^ 2 ≠ 0) :
    (lo ≤ arctan2 y x ∧ arctan2 y x ≤ hi) ↔
      (0 ≤ y * Real.cos lo - x * Real.sin lo ∧ 0 ≤ x * Real.sin hi - y * Real.cos hi) := by
  have hr : 0 < Real.sqrt (x ^ 2 + y ^ 2) :=
    Real.sqrt_pos.2 (lt_of_le_of_ne (by positivity) (Ne.symm hne))
  have hs := sin_azimuth hne
  have hc := cos_azimuth hne
  have lb : -Real.pi < arctan2 y x := Complex.neg_pi_lt_arg _
  have ub : arctan2 y x ≤ Real.pi := Complex.arg_le_pi _
  set t := arctan2 y x with ht
  have ey : y = Real.sqrt (x ^ 2 + y ^ 2) * Real.sin t := by rw [hs]; field_simp
  have ex : x = Real.sqrt (x ^ 2 + y ^ 2) * Real.cos t := by rw [hc]; field_simp
  have e1 : y * Real.cos lo - x * Real.sin lo = Real.sqrt (x ^ 2 + y ^ 2) * Real.sin (t - lo) := by
    rw [Real.sin_sub]
    linear_combination Real.cos lo * ey - Real.sin lo * ex
  have e2 : x * Real.sin hi - y * Real.cos hi = Real.sqrt (x ^ 2 + y ^ 2) * Real.sin (hi - t) := by
    rw [Real.sin_sub]
    linear_combination Real.sin hi * ex - Real.cos hi * ey
  rw [e1, e2, mul_nonneg_iff_of_pos_left hr, mul_nonneg_iff_of_pos_left hr]
  constructor
  · rintro ⟨a, b⟩
    exact ⟨Real.sin_nonneg_of_nonneg_of_le_pi (by linarith) (by linarith),
      Real.sin_nonneg_of_nonneg_of_le_pi (by linarith) (by linarith)⟩
  · rintro ⟨a, b⟩
    constructor
    · by_contra hcon
      push Not at hcon
      by_cases h : -Real.pi < t - lo
      · exact absurd a (not_le.2 (Real.sin_neg_of_neg_of_neg_pi_lt (by linarith) h))
      · have : Real.sin (hi - t) < 0 := by
          rw [← Real.sin_sub_two_pi]
          exact Real.sin_neg_of_neg_of_neg_pi_lt (by linarith) (by linarith)
        linarith
    · by_contra hcon
      push Not at hcon
      exact absurd b (not_le.2 (Real.sin_neg_of_neg_of_neg_pi_lt (by linarith) (by linarith)))

/-- The azimuth range of the cubic triangle. -/
theorem cubic_sector (x y : ℝ) :
    (Real.pi / 2 ≤ arctan2 y x ∧ arctan2 y x ≤ 3 / 4 * Real.pi) ↔ (x ≤ 0 ∧ -x ≤ y ∧ 0 < y) := by
  have hpi := Real.pi_pos
  by_cases hne : x ^ 2 + y ^ 2 = 0
  · have hx : x = 0 := by nlinarith [sq_nonneg x, sq_nonneg y]
    have hy : y = 0 := by nlinarith [sq_nonneg x, sq_nonneg y]
    rw [hx, hy, arctan2_zero]
    constructor
    · rintro ⟨h, -⟩; linarith
    · rintro ⟨-, -, h⟩; exact absurd h (lt_irrefl _)
  · rw [arctan2_sector (by linarith) (by linarith) (by linarith) hne]
    have e : 3 / 4 * Real.pi = Real.pi - Real.pi / 4 := by ring
    have h2 : 0 < Real.sqrt 2 := Real.sqrt_pos.2 (by norm_num)
    rw [e, Real.sin_pi_sub, Real.cos_pi_sub, Real.cos_pi_div_two, Real.sin_pi_div_two,
      Real.sin_pi_div_four, Real.cos_pi_div_four]
    constructor
    · rintro ⟨a, b⟩
      have a' : x ≤ 0 := by linarith
      have b' : -x ≤ y := by nlinarith
      refine ⟨a', b', ?_⟩
      rcases lt_or_eq_of_le (show 0 ≤ y by linarith) with h | h
      · exact h
      · exfalso
        apply hne
        have : x = 0 := by linarith
        rw [this, ← h]; ring
    · rintro ⟨a, b, -⟩
      constructor
      · linarith
      · nlinarith

/-- The azimuth ranges of the hexagonal triangles. -/
theorem hex_sector_up (x y : ℝ) :
    (Real.pi / 2 ≤ arctan2 y x ∧ arctan2 y x ≤ 2 / 3 * Real.pi) ↔
      (x ≤ 0 ∧ -(Real.sqrt 3 * x) ≤ y ∧ 0 < y) := by
  have hpi := Real.pi_pos
  have h3 : 0 < Real.sqrt 3 := Real.sqrt_pos.2 (by norm_num)
  by_cases hne : x ^ 2 + y ^ 2 = 0
  · have hx : x = 0 := by nlinarith [sq_nonneg x, sq_nonneg y]
    have hy : y = 0 := by nlinarith [sq_nonneg x, sq_nonneg y]
    rw [hx, hy, arctan2_zero]
    constructor
    · rintro ⟨h, -⟩; linarith
    · rintro ⟨-, -, h⟩; exact absurd h (lt_irrefl _)
  · rw [arctan2_sector (by linarith) (by linarith) (by linarith) hne]
    have e : 2 / 3 * Real.pi = Real.pi - Real.pi / 3 := by ring
    rw [e, Real.sin_pi_sub, Real.cos_pi_sub, Real.cos_pi_div_two, Real.sin_pi_div_two,
      Real.sin_pi_div_three, Real.cos_pi_div_three]
    constructor
    · rintro ⟨a, b⟩
      have a' : x ≤ 0 := by linarith
      have b' : -(Real.sqrt 3 * x) ≤ y := by nlinarith
      refine ⟨a', b', ?_⟩
      have hy0 : 0 ≤ y := by nlinarith
      rcases lt_or_eq_of_le hy0 with h | h
      · exact h
      · exfalso
        apply hne
        have : x = 0 := by nlinarith
        rw [this, ← h]; ring
    · rintro ⟨a, b, -⟩
      constructor
      · linarith
      · nlinarith

theorem hex_sector_down (x y : ℝ) :
    (1 / 3 * Real.pi ≤ arctan2 y x ∧ arctan2 y x ≤ Real.pi / 2) ↔
      (0 ≤ x ∧ Real.sqrt 3 * x ≤ y ∧ 0 < y) := by
  have hpi := Real.pi_pos
  have h3 : 0 < Real.sqrt 3 := Real.sqrt_pos.2 (by norm_num)
  by_cases hne : x ^ 2 + y ^ 2 = 0
  · have hx : x = 0 := by nlinarith [sq_nonneg x, sq_nonneg y]
    have hy : y = 0 := by nlinarith [sq_nonneg x, sq_nonneg y]
    rw [hx, hy, arctan2_zero]
    constructor
    · rintro ⟨h, -⟩; linarith
    · rintro ⟨-, -, h⟩; exact absurd h (lt_irrefl _)
  · rw [arctan2_sector (by linarith) (by linarith) (by linarith) hne]
    have e : 1 / 3 * Real.pi = Real.pi / 3 := by ring
    rw [e, Real.cos_pi_div_two, Real.sin_pi_div_two,
      Real.sin_pi_div_three, Real.cos_pi_div_three]
    constructor
    · rintro ⟨a, b⟩
      have a' : 0 ≤ x := by linarith
      have b' : Real.sqrt 3 * x ≤ y := by nlinarith
      refine ⟨a', b', ?_⟩
      have hy0 : 0 ≤ y := by nlinarith
      rcases lt_or_eq_of_le hy0 with h | h
      · exact h
      · exfalso
        apply hne
        have : x = 0 := by nlinarith
        rw [this, ← h]; ring
    · rintro ⟨a, b, -⟩
      constructor
      · linarith
      · linarith

end DefDAP
