import Verif.Props.Indices
import Mathlib.Analysis.SpecialFunctions.Trigonometric.Basic
import Mathlib.LinearAlgebra.Matrix.Determinant.Basic
import Mathlib.Tactic.FinCases
import Mathlib.Tactic.LinearCombination

/-! C47, C48: the matrices of the crystal lattice and its reciprocal. -/

namespace DefDAP

open Matrix

/-- Products of the edge vectors of a unit cell with edges `a b c` and angles `al` (between `b` and
`c`), `be` (`a`, `c`) and `ga` (`a`, `b`). -/
noncomputable def Spec.metric (a b c al be ga : ℝ) : Matrix (Fin 3) (Fin 3) ℝ :=
  !![a * a, a * b * Real.cos ga, a * c * Real.cos be;
     a * b * Real.cos ga, b * b, b * c * Real.cos al;
     a * c * Real.cos be, b * c * Real.cos al, c * c]

/-- The columns of `m` are vectors with the lengths and angles of the cell. -/
def Spec.HasCell (m : Matrix (Fin 3) (Fin 3) ℝ) (a b c al be ga : ℝ) : Prop :=
  ∀ i j : Fin 3, (fun k => m k i) ⬝ᵥ (fun k => m k j) = Spec.metric a b c al be ga i j

/-- The angles are those of a cell: not flat, and with a non-negative volume. -/
def Spec.CellAngles (al be ga : ℝ) : Prop :=
  Real.sin ga ≠ 0 ∧ 0 ≤ 1 + 2 * Real.cos al * Real.cos be * Real.cos ga -
    Real.cos al ^ 2 - Real.cos be ^ 2 - Real.cos ga ^ 2

theorem lTsl_cell (a b c al be ga : ℝ) (h : Spec.CellAngles al be ga) :
    Spec.HasCell (lTsl a b c al be ga) a b c al be ga := by
  obtain ⟨hs, hd⟩ := h
  have h2 : Real.cos ga ^ 2 = 1 - Real.sin ga ^ 2 := by linarith [Real.sin_sq_add_cos_sq ga]
  set s := Real.sqrt (1 + 2 * Real.cos al * Real.cos be * Real.cos ga -
    Real.cos al ^ 2 - Real.cos be ^ 2 - Real.cos ga ^ 2) with hsd
  have hss : s * s = 1 + 2 * Real.cos al * Real.cos be * Real.cos ga -
    Real.cos al ^ 2 - Real.cos be ^ 2 - Real.cos ga ^ 2 := Real.mul_self_sqrt hd
  have e : lTsl a b c al be ga = !![a, b * Real.cos ga, c * Real.cos be;
     0, b * Real.sin ga, c * (Real.cos al - Real.cos be * Real.cos ga) / Real.sin ga;
     0, 0, c * s / Real.sin ga] := rfl
  intro i j
  rw [e]
  clear e hsd
  clear_value s
  unfold Spec.metric
  generalize Real.cos al = x at *
  generalize Real.cos be = y at *
  generalize Real.cos ga = z at *
  generalize Real.sin ga = t at *
  fin_cases i <;> fin_cases j <;> simp only [dotProduct, Fin.sum_univ_three] <;> simp
  · ring
  · ring
  · ring
  · linear_combination (b ^ 2) * h2
  · field_simp; ring
  · ring
  · field_simp; ring
  · field_simp
    linear_combination (c ^ 2) * hss + (c ^ 2 * y ^ 2 - c ^ 2) * h2

theorem cutSmall_entry (m : Matrix (Fin 3) (Fin 3) ℝ) (i j : Fin 3) :
    (1 / 10 ^ 10 ≤ |m i j| → cutSmall m i j = m i j) ∧
    (|m i j| < 1 / 10 ^ 10 → cutSmall m i j = 0) := by
  unfold cutSmall
  constructor
  · intro h; rw [if_neg (not_lt.2 h)]
  · intro h; rw [if_pos h]

theorem cutSmall_exact (m : Matrix (Fin 3) (Fin 3) ℝ)
    (h : ∀ i j, m i j = 0 ∨ 1 / 10 ^ 10 ≤ |m i j|) : cutSmall m = m := by
  ext i j
  rcases h i j with h | h
  · rw [(cutSmall_entry m i j).2 (by rw [h]; norm_num), h]
  · exact (cutSmall_entry m i j).1 h

/-- **C47** With the 'tsl' convention the matrix is, entry by entry, that of a cell with exactly
the given edges and angles, except that entries below 1e-10 are set to zero. -/
theorem C47_tsl (dflt conv : String) (hc : conv.toLower = "tsl") (a b c al be ga : ℝ)
    (h : Spec.CellAngles al be ga) :
    ∃ l e, createL dflt a b c al be ga (some conv) = .ok l ∧ Spec.HasCell e a b c al be ga ∧
      ∀ i j, (1 / 10 ^ 10 ≤ |e i j| → l i j = e i j) ∧ (|e i j| < 1 / 10 ^ 10 → l i j = 0) := by
  refine ⟨cutSmall (lTsl a b c al be ga), lTsl a b c al be ga, ?_, lTsl_cell a b c al be ga h,
    cutSmall_entry _⟩
  unfold createL
  simp [hc]

theorem cos_two_thirds : Real.cos (Real.pi * 2 / 3) = -(1 / 2) := by
  have : Real.pi * 2 / 3 = Real.pi - Real.pi / 3 := by ring
  rw [this, Real.cos_pi_sub, Real.cos_pi_div_three]

theorem sin_two_thirds : Real.sin (Real.pi * 2 / 3) = Real.sqrt 3 / 2 := by
  have : Real.pi * 2 / 3 = Real.pi - Real.pi / 3 := by ring
  rw [this, Real.sin_pi_sub, Real.sin_pi_div_three]

/-- The angles of the hexagonal cell are those of a cell. -/
theorem hex_angles : Spec.CellAngles (Real.pi / 2) (Real.pi / 2) (Real.pi * 2 / 3) := by
  unfold Spec.CellAngles
  rw [sin_two_thirds, cos_two_thirds, Real.cos_pi_div_two]
  refine ⟨?_, by norm_num⟩
  have := Real.sqrt_pos.2 (by norm_num : (0 : ℝ) < 3)
  positivity

/-- **C47** With the 'hkl' convention the columns have the cell's lengths and angles if the first
two edges are equal and the third is perpendicular to them (as in the hexagonal cell). -/
theorem C47_hkl_equal_edges (dflt conv : String) (hc : conv.toLower = "hkl" ∨ conv.toLower = "oi")
    (a c ga : ℝ) (h : Spec.CellAngles (Real.pi / 2) (Real.pi / 2) ga) :
    ∃ l e, createL dflt a a c (Real.pi / 2) (Real.pi / 2) ga (some conv) = .ok l ∧
      Spec.HasCell e a a c (Real.pi / 2) (Real.pi / 2) ga ∧
      ∀ i j, (1 / 10 ^ 10 ≤ |e i j| → l i j = e i j) ∧ (|e i j| < 1 / 10 ^ 10 → l i j = 0) := by
  refine ⟨cutSmall (lSwap (lTsl a a c (Real.pi / 2) (Real.pi / 2) ga)),
    lSwap (lTsl a a c (Real.pi / 2) (Real.pi / 2) ga), ?_, ?_, cutSmall_entry _⟩
  · unfold createL
    simp [hc]
  · have hl := lTsl_cell a a c _ _ ga h
    have h22 := hl 2 2
    have h2 : Real.cos ga ^ 2 = 1 - Real.sin ga ^ 2 := by linarith [Real.sin_sq_add_cos_sq ga]
    unfold Spec.metric at h22
    unfold lTsl at h22 ⊢
    rw [Real.cos_pi_div_two] at h22 ⊢
    intro i j
    unfold Spec.metric lSwap
    rw [Real.cos_pi_div_two]
    generalize Real.cos ga = z at *
    generalize Real.sin ga = t at *
    generalize c * Real.sqrt (1 + 2 * 0 * 0 * z - 0 ^ 2 - 0 ^ 2 - z ^ 2) / t = s at *
    simp only [dotProduct, Fin.sum_univ_three] at h22 ⊢
    fin_cases i <;> fin_cases j <;> simp at h22 ⊢
    · linear_combination (a ^ 2) * h2
    · ring
    · ring
    · exact h22

/-- **C47** In general the 'hkl' convention gives other lengths: the first column of the cell with
edges 1, 2, 1 and right angles has length 2. -/
theorem C47_hkl_false (dflt : String) :
    ∃ l, createL dflt 1 2 1 (Real.pi / 2) (Real.pi / 2) (Real.pi / 2) (some "hkl") = .ok l ∧
      (fun k => l k 0) ⬝ᵥ (fun k => l k 0) = 4 ∧ Spec.metric 1 2 1 (Real.pi / 2) (Real.pi / 2)
        (Real.pi / 2) 0 0 = 1 := by
  have hc : "hkl".toLower = "hkl" := by with_unfolding_all rfl
  refine ⟨cutSmall (lSwap (lTsl 1 2 1 (Real.pi / 2) (Real.pi / 2) (Real.pi / 2))), ?_, ?_, ?_⟩
  · unfold createL
    simp [hc]
  · rw [cutSmall_exact]
    · simp only [dotProduct, Fin.sum_univ_three, lSwap, lTsl]
      simp
      norm_num
    · intro i j
      simp only [lSwap, lTsl]
      fin_cases i <;> fin_cases j <;> simp <;> norm_num
  · simp [Spec.metric]

/-- The hexagonal lattice matrix with the 'hkl' convention. -/
noncomputable def hexHkl (ca : ℝ) : Matrix (Fin 3) (Fin 3) ℝ :=
  !![Real.sqrt 3 / 2, 0, 0; -(1 / 2), 1, 0; 0, 0, ca]

/-- The hexagonal lattice matrix with the 'tsl' convention. -/
noncomputable def hexTsl (ca : ℝ) : Matrix (Fin 3) (Fin 3) ℝ :=
  !![1, -(1 / 2), 0; 0, Real.sqrt 3 / 2, 0; 0, 0, ca]

theorem sqrt3_half : 1 / 10 ^ 10 ≤ Real.sqrt 3 / 2 := by
  have : (1 : ℝ) ≤ Real.sqrt 3 := by
    rw [show (1 : ℝ) = Real.sqrt 1 by simp]
    exact Real.sqrt_le_sqrt (by norm_num)
  norm_num
  linarith

theorem lTsl_hex (ca : ℝ) :
    lTsl 1 1 ca (Real.pi / 2) (Real.pi / 2) (Real.pi * 2 / 3) = hexTsl ca := by
  have h3 := Real.sqrt_pos.2 (by norm_num : (0 : ℝ) < 3)
  unfold lTsl hexTsl
  rw [sin_two_thirds, cos_two_thirds, Real.cos_pi_div_two]
  have e : Real.sqrt (1 + 2 * 0 * 0 * -(1 / 2) - 0 ^ 2 - 0 ^ 2 - (-(1 / 2)) ^ 2) =
      Real.sqrt 3 / 2 := by
    rw [show (1 + 2 * 0 * 0 * -(1 / 2) - 0 ^ 2 - 0 ^ 2 - (-(1 / 2)) ^ 2 : ℝ) = 3 / 2 ^ 2 by norm_num,
      Real.sqrt_div (by norm_num), Real.sqrt_sq (by norm_num)]
  rw [e]
  have : ca * (Real.sqrt 3 / 2) / (Real.sqrt 3 / 2) = ca := by field_simp
  rw [this]
  simp

theorem lSwap_hex (ca : ℝ) : lSwap (hexTsl ca) = hexHkl ca := by
  unfold lSwap hexTsl hexHkl
  ext i j
  fin_cases i <;> fin_cases j <;> simp

theorem cut_hexTsl (ca : ℝ) (h : 1 / 10 ^ 10 ≤ ca) : cutSmall (hexTsl ca) = hexTsl ca := by
  have h3 := sqrt3_half
  refine cutSmall_exact _ fun i j => ?_
  have hp : (0 : ℝ) < 1 / 10 ^ 10 := by positivity
  unfold hexTsl
  fin_cases i <;> fin_cases j <;> simp at *
  · norm_num
  · norm_num
  · rwa [abs_of_nonneg (by positivity)]
  · right; rwa [abs_of_nonneg (by linarith)]

theorem cut_hexHkl (ca : ℝ) (h : 1 / 10 ^ 10 ≤ ca) : cutSmall (hexHkl ca) = hexHkl ca := by
  have h3 := sqrt3_half
  refine cutSmall_exact _ fun i j => ?_
  unfold hexHkl
  fin_cases i <;> fin_cases j <;> simp at *
  · rwa [abs_of_nonneg (by positivity)]
  · norm_num
  · norm_num
  · right; rwa [abs_of_nonneg (by linarith [show (0 : ℝ) ≤ (10 ^ 10)⁻¹ by positivity])]

/-- The hexagonal lattice matrix the library uses. -/
theorem hexL_eq (dflt : String) (ca : ℝ) (h : 1 / 10 ^ 10 ≤ ca) :
    ((dflt.toLower = "hkl" ∨ dflt.toLower = "oi") → hexL dflt ca = .ok (hexHkl ca)) ∧
    (dflt.toLower = "tsl" → hexL dflt ca = .ok (hexTsl ca)) := by
  constructor
  · intro hc
    unfold hexL createL
    simp only [Option.getD_none, if_pos hc]
    rw [lTsl_hex, lSwap_hex, cut_hexHkl ca h]
  · intro hc
    unfold hexL createL
    simp [hc]
    rw [lTsl_hex, cut_hexTsl ca h]

/-- **C47** The hexagonal cell the library uses has exactly the lengths 1, 1, c/a and the angles
90, 90 and 120 degrees with every convention. -/
theorem C47_hexagonal (dflt : String) (ca : ℝ) (h : 1 / 10 ^ 10 ≤ ca)
    (l : Matrix (Fin 3) (Fin 3) ℝ) (hl : hexL dflt ca = .ok l) :
    Spec.HasCell l 1 1 ca (Real.pi / 2) (Real.pi / 2) (Real.pi * 2 / 3) := by
  have h3 : Real.sqrt 3 * Real.sqrt 3 = 3 := Real.mul_self_sqrt (by norm_num)
  have hcase : l = hexHkl ca ∨ l = hexTsl ca := by
    obtain ⟨h1, h2⟩ := hexL_eq dflt ca h
    by_cases c1 : dflt.toLower = "hkl" ∨ dflt.toLower = "oi"
    · rw [h1 c1] at hl; cases hl; exact Or.inl rfl
    · by_cases c2 : dflt.toLower = "tsl"
      · rw [h2 c2] at hl; cases hl; exact Or.inr rfl
      · unfold hexL createL at hl
        simp only [Option.getD_none, if_neg c1, if_neg c2] at hl
        cases hl
  intro i j
  unfold Spec.metric
  rw [cos_two_thirds, Real.cos_pi_div_two]
  rcases hcase with rfl | rfl
  · unfold hexHkl
    simp only [dotProduct, Fin.sum_univ_three]
    fin_cases i <;> fin_cases j <;> simp
    nlinarith
  · unfold hexTsl
    simp only [dotProduct, Fin.sum_univ_three]
    fin_cases i <;> fin_cases j <;> simp
    nlinarith

/-- **C47** Unknown conventions are a `ValueError`. -/
theorem C47_unknown (dflt conv : String) (a b c al be ga : ℝ) (h1 : conv.toLower ≠ "hkl")
    (h2 : conv.toLower ≠ "oi") (h3 : conv.toLower ≠ "tsl") :
    createL dflt a b c al be ga (some conv) = .error .valueError := by
  unfold createL
  simp [h1, h2, h3]

/-! ### C48 -/

theorem createQ_dual (l : Matrix (Fin 3) (Fin 3) ℝ) (hd : 0 < l.det) (p d : Fin 3 → ℝ) :
    (createQ l *ᵥ p) ⬝ᵥ (l *ᵥ d) = p ⬝ᵥ d := by
  have hv : (fun i => l i 0) ⬝ᵥ crossProduct (fun i => l i 1) (fun i => l i 2) = l.det := by
    rw [Matrix.det_fin_three, cross_apply]
    simp [dotProduct, Fin.sum_univ_three]
    ring
  unfold createQ
  simp only
  rw [hv, abs_of_pos hd]
  have hd' := hd.ne'
  have hD := Matrix.det_fin_three l
  generalize l.det = D at *
  simp only [mulVec, dotProduct, Fin.sum_univ_three, cross_apply]
  simp
  field_simp
  rw [hD]
  ring

/-- **C48** The reciprocal matrix of a right-handed lattice matrix is dual to it: products of
plane normals and directions are the products of their indices. In particular the normal of a
plane is perpendicular to exactly the directions lying in it. -/
theorem C48_dual (l : Matrix (Fin 3) (Fin 3) ℝ) (hd : 0 < l.det) :
    (createQ l)ᵀ * l = 1 ∧
    (∀ p d : Fin 3 → ℝ, (createQ l *ᵥ p) ⬝ᵥ (l *ᵥ d) = p ⬝ᵥ d) := by
  refine ⟨?_, createQ_dual l hd⟩
  ext i j
  have h := createQ_dual l hd (Pi.single i 1) (Pi.single j 1)
  rw [Matrix.mulVec_single_one, Matrix.mulVec_single_one] at h
  rw [Matrix.mul_apply]
  simp only [Matrix.transpose_apply]
  refine h.trans ?_
  simp [Matrix.one_apply, Pi.single_apply, eq_comm]

/-- **C48** A left-handed matrix gives the opposite sign (the volume is taken without sign). -/
theorem C48_left_handed (l : Matrix (Fin 3) (Fin 3) ℝ) (hd : l.det < 0) (p d : Fin 3 → ℝ) :
    (createQ l *ᵥ p) ⬝ᵥ (l *ᵥ d) = -(p ⬝ᵥ d) := by
  have hv : (fun i => l i 0) ⬝ᵥ crossProduct (fun i => l i 1) (fun i => l i 2) = l.det := by
    rw [Matrix.det_fin_three, cross_apply]
    simp [dotProduct, Fin.sum_univ_three]
    ring
  unfold createQ
  simp only
  rw [hv, abs_of_neg hd]
  have hd' := hd.ne
  have hD := Matrix.det_fin_three l
  generalize l.det = D at *
  simp only [mulVec, dotProduct, Fin.sum_univ_three, cross_apply]
  simp
  field_simp
  rw [hD]
  ring

theorem hex_det (dflt : String) (ca : ℝ) (h : 1 / 10 ^ 10 ≤ ca)
    (l : Matrix (Fin 3) (Fin 3) ℝ) (hl : hexL dflt ca = .ok l) : 0 < l.det := by
  have h3 := Real.sqrt_pos.2 (by norm_num : (0 : ℝ) < 3)
  have hp : (0 : ℝ) < 1 / 10 ^ 10 := by positivity
  have hca : 0 < ca := hp.trans_le h
  obtain ⟨h1, h2⟩ := hexL_eq dflt ca h
  by_cases c1 : dflt.toLower = "hkl" ∨ dflt.toLower = "oi"
  · rw [h1 c1] at hl; cases hl
    rw [Matrix.det_fin_three]
    unfold hexHkl
    simp
    positivity
  · by_cases c2 : dflt.toLower = "tsl"
    · rw [h2 c2] at hl; cases hl
      rw [Matrix.det_fin_three]
      unfold hexTsl
      simp
      positivity
    · unfold hexL createL at hl
      simp only [Option.getD_none, if_neg c1, if_neg c2] at hl
      cases hl

/-- **C48** Projecting a hexagonal plane and direction, given by four indices, to Cartesian
coordinates: their product is the sum of products of the indices, so that the normal is
perpendicular to the direction exactly when the zone law holds. -/
theorem C48_project (dflt : String) (ca : ℝ) (h : 1 / 10 ^ 10 ≤ ca) (p0 p1 p2 p3 d0 d1 d2 d3 : ℝ)
    (hp : p0 + p1 + p2 = 0) (n d : Fin 3 → ℝ)
    (hn : projectToOrth dflt ca none (some [p0, p1, p2, p3]) "mb" = .ok n)
    (hd : projectToOrth dflt ca (some [d0, d1, d2, d3]) none "mb" = .ok d) :
    n ⬝ᵥ d = p0 * d0 + p1 * d1 + p2 * d2 + p3 * d3 := by
  have h2 : "mb".toLower = "mb" := by with_unfolding_all rfl
  have h1 : ¬ ("mb" = "m") := by decide
  cases hl : hexL dflt ca with
  | error e =>
    unfold projectToOrth at hn
    rw [hl] at hn
    simp [toMiller, convertIdc, convertPlane, h2, Except.bind] at hn
  | ok l =>
    unfold projectToOrth at hn hd
    rw [hl] at hn hd
    simp [toMiller, convertIdc, convertPlane, convertDir, h2, Except.bind, matVec] at hn hd
    subst hn hd
    rw [(C48_dual l (hex_det dflt ca h l hl)).2]
    simp [dotProduct, Fin.sum_univ_three]
    linear_combination (-d2) * hp

/-- The hypotheses of C48_project: the pyramidal plane (1 0 -1 1) and direction [1 -2 1 0]. -/
example : ∃ n d, projectToOrth "hkl" 2 none (some [1, 0, -1, 1]) "mb" = .ok n ∧
    projectToOrth "hkl" 2 (some [1, -2, 1, 0]) none "mb" = .ok d ∧ n ⬝ᵥ d = 0 := by
  have h0 : "hkl".toLower = "hkl" := by with_unfolding_all rfl
  have h2 : "mb".toLower = "mb" := by with_unfolding_all rfl
  have hl := (hexL_eq "hkl" 2 (by norm_num)).1 (Or.inl h0)
  have hn : projectToOrth "hkl" 2 none (some [1, 0, -1, 1]) "mb" =
      .ok (createQ (hexHkl 2) *ᵥ ![1, 0, 1]) := by
    simp [projectToOrth, toMiller, convertIdc, convertPlane, h2, Except.bind, matVec, hl]
  have hd : projectToOrth "hkl" 2 (some [1, -2, 1, 0]) none "mb" =
      .ok (hexHkl 2 *ᵥ ![1 - 1, -2 - 1, 0]) := by
    simp [projectToOrth, toMiller, convertIdc, convertDir, h2, Except.bind, matVec, hl]
  exact ⟨_, _, hn, hd, by
    rw [C48_project "hkl" 2 (by norm_num) 1 0 (-1) 1 1 (-2) 1 0 (by norm_num) _ _ hn hd]; norm_num⟩

end DefDAP
