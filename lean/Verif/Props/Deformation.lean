import Verif.Model.Deformation
import Mathlib.Analysis.SpecialFunctions.Complex.Arg
import Mathlib.Tactic.Ring
import Mathlib.Tactic.LinearCombination
import Mathlib.Tactic.FieldSimp
import Mathlib.LinearAlgebra.Matrix.NonsingularInverse
import Mathlib.Analysis.Calculus.Deriv.MeanValue

/-! C60, C61: deformation gradient, Green strain and maximum shear. -/

namespace DefDAP

open Matrix

/-! ### C60 -/

/-- The displacement at row `i`, column `j` of an affine field: `G` is the displacement gradient
with respect to position, `x` along columns, `y` along rows, in pixels of the correlated images;
points are `h` apart. -/
def Spec.affine (h : ℝ) (a : Fin 2 → ℝ) (G : Matrix (Fin 2) (Fin 2) ℝ) (c : Fin 2) (i j : Int) : ℝ :=
  let x := h * j
  let y := h * i
  a c + G c 0 * x + G c 1 * y

/-- The pixel is in the map. -/
def Spec.InGrid (rows cols : Nat) (i j : Int) : Prop := 0 ≤ i ∧ i < rows ∧ 0 ≤ j ∧ j < cols

theorem gradient1_linear (n : Nat) (h : ℝ) (hh : h ≠ 0) (a s : ℝ) (i : Int) :
    gradient1 n h (fun k => a + s * (h * k)) i = s := by
  unfold gradient1
  split_ifs
  · push_cast
    field_simp
    ring
  · push_cast
    field_simp
    ring
  · push_cast
    field_simp
    ring

theorem defgrad_ok (rows cols : Nat) (h : ℝ) (u : Fin 2 → Int → Int → ℝ) (hr : 2 ≤ rows)
    (hc : 2 ≤ cols) : ∃ f, deformationGradient rows cols h u = .ok f ∧ ∀ i j,
      f 0 0 i j = gradient1 cols h (fun c => u 0 i c) j + 1 ∧
      f 0 1 i j = gradient1 rows h (fun r => u 0 r j) i ∧
      f 1 0 i j = gradient1 cols h (fun c => u 1 i c) j ∧
      f 1 1 i j = gradient1 rows h (fun r => u 1 r j) i + 1 := by
  unfold deformationGradient gradientMaps
  rw [if_neg (by omega)]
  refine ⟨_, rfl, fun i j => ?_⟩
  simp

/-- **C60** For an affine displacement field the deformation gradient is the identity plus the
displacement gradient at every pixel, edges included. -/
theorem C60_affine (rows cols : Nat) (hr : 2 ≤ rows) (hc : 2 ≤ cols) (h : ℝ) (hh : h ≠ 0)
    (a : Fin 2 → ℝ) (G : Matrix (Fin 2) (Fin 2) ℝ) :
    ∃ f, deformationGradient rows cols h (Spec.affine h a G) = .ok f ∧
      ∀ i j, Spec.InGrid rows cols i j →
        (fun c x => f c x i j) = (1 : Matrix (Fin 2) (Fin 2) ℝ) + G := by
  obtain ⟨f, hf, hv⟩ := defgrad_ok rows cols h (Spec.affine h a G) hr hc
  refine ⟨f, hf, fun i j _ => ?_⟩
  obtain ⟨h00, h01, h10, h11⟩ := hv i j
  have ex : ∀ c, gradient1 cols h (fun k => Spec.affine h a G c i k) j = G c 0 := by
    intro c
    have := gradient1_linear cols h hh (a c + G c 1 * (h * i)) (G c 0) j
    rw [← this]
    congr 1
    funext k
    unfold Spec.affine
    ring
  have ey : ∀ c, gradient1 rows h (fun k => Spec.affine h a G c k j) i = G c 1 := by
    intro c
    have := gradient1_linear rows h hh (a c + G c 0 * (h * j)) (G c 1) i
    rw [← this]
    rfl
  rw [ex] at h00 h10
  rw [ey] at h01 h11
  ext c x
  fin_cases c <;> fin_cases x
  · simpa [add_comm] using h00
  · simpa using h01
  · simpa using h10
  · simpa [add_comm] using h11

/-- **C60** Maps with fewer than two rows or columns have no gradient: a `ValueError`. -/
theorem C60_small (rows cols : Nat) (h : ℝ) (u : Fin 2 → Int → Int → ℝ) (hs : rows < 2 ∨ cols < 2) :
    deformationGradient rows cols h u = .error .valueError := by
  unfold deformationGradient gradientMaps
  rw [if_pos hs]
  rfl

theorem gradient1_congr (n : Nat) (hn : 2 ≤ n) (h : ℝ) (f g : Int → ℝ) (c : ℝ)
    (hfg : ∀ k : Int, 0 ≤ k → k < n → f k = g k + c) (i : Int) (h0 : 0 ≤ i) (h1 : i < n) :
    gradient1 n h f i = gradient1 n h g i := by
  unfold gradient1
  split_ifs with a b
  · rw [hfg 1 (by omega) (by omega), hfg 0 (by omega) (by omega)]; ring
  · rw [hfg (n - 1) (by omega) (by omega), hfg (n - 2) (by omega) (by omega)]; ring
  · rw [hfg (i + 1) (by omega) (by omega), hfg (i - 1) (by omega) (by omega)]; ring

/-- **C60** A rigid translation does not change the deformation gradient, and neither does
anything outside the map: it is computed from the displacements in the map alone. -/
theorem C60_translation (rows cols : Nat) (hr : 2 ≤ rows) (hc : 2 ≤ cols) (h : ℝ)
    (u v : Fin 2 → Int → Int → ℝ) (t : Fin 2 → ℝ)
    (huv : ∀ c i j, Spec.InGrid rows cols i j → u c i j = v c i j + t c) :
    ∃ f g, deformationGradient rows cols h u = .ok f ∧ deformationGradient rows cols h v = .ok g ∧
      ∀ i j, Spec.InGrid rows cols i j → ∀ c x, f c x i j = g c x i j := by
  obtain ⟨f, hf, hfv⟩ := defgrad_ok rows cols h u hr hc
  obtain ⟨g, hg, hgv⟩ := defgrad_ok rows cols h v hr hc
  refine ⟨f, g, hf, hg, fun i j hij c x => ?_⟩
  obtain ⟨f00, f01, f10, f11⟩ := hfv i j
  obtain ⟨g00, g01, g10, g11⟩ := hgv i j
  obtain ⟨i0, i1, j0, j1⟩ := hij
  have ex : ∀ c, gradient1 cols h (fun k => u c i k) j = gradient1 cols h (fun k => v c i k) j :=
    fun c => gradient1_congr cols hc h _ _ (t c)
      (fun k k0 k1 => huv c i k ⟨i0, i1, k0, k1⟩) j j0 j1
  have ey : ∀ c, gradient1 rows h (fun k => u c k j) i = gradient1 rows h (fun k => v c k j) i :=
    fun c => gradient1_congr rows hr h _ _ (t c)
      (fun k k0 k1 => huv c k j ⟨k0, k1, j0, j1⟩) i i0 i1
  fin_cases c <;> fin_cases x
  · simpa [ex] using f00.trans (by rw [ex]; exact g00.symm)
  · simpa [ey] using f01.trans (by rw [ey]; exact g01.symm)
  · simpa [ex] using f10.trans (by rw [ex]; exact g10.symm)
  · simpa [ey] using f11.trans (by rw [ey]; exact g11.symm)

/-- The position of a pixel, `x` along columns and `y` along rows, one of them moved to `z`. -/
def Spec.along (h : ℝ) (i j : Int) (x : Fin 2) (z : ℝ) : ℝ × ℝ := if x = 0 then (z, h * i) else (h * j, z)

/-- The coordinate of a pixel. -/
def Spec.coordinate (h : ℝ) (i j : Int) (x : Fin 2) : ℝ := if x = 0 then h * j else h * i

/-- The pixel is in the map and not at an end of its row (`x = 0`) or column (`x = 1`). -/
def Spec.Inside (rows cols : Nat) (i j : Int) (x : Fin 2) : Prop :=
  if x = 0 then 0 < j ∧ j < cols - 1 else 0 < i ∧ i < rows - 1

theorem gradient1_between (n : Nat) (hn : 2 ≤ n) (h : ℝ) (hh : 0 < h) (g : ℝ → ℝ)
    (hg : Differentiable ℝ g) (i : Int) :
    ∃ z, |z - h * i| < h ∧ gradient1 n h (fun k => g (h * k)) i = deriv g z := by
  have key : ∀ a b : ℝ, a < b → ∃ z, a < z ∧ z < b ∧ (g b - g a) / (b - a) = deriv g z := by
    intro a b hab
    obtain ⟨z, hz, e⟩ := exists_deriv_eq_slope g hab hg.continuous.continuousOn
      hg.differentiableOn
    exact ⟨z, hz.1, hz.2, e.symm⟩
  unfold gradient1
  split_ifs with h0 h1
  · obtain ⟨z, z1, z2, e⟩ := key 0 h hh
    refine ⟨z, ?_, ?_⟩
    · rw [h0, abs_lt]
      push_cast
      constructor <;> linarith
    · rw [← e]
      simp
  · obtain ⟨z, z1, z2, e⟩ := key (h * (n - 2)) (h * (n - 1)) (by nlinarith)
    refine ⟨z, ?_, ?_⟩
    · rw [h1, abs_lt]
      push_cast
      constructor <;> nlinarith
    · rw [← e]
      push_cast
      congr 1
      ring
  · obtain ⟨z, z1, z2, e⟩ := key (h * (i - 1)) (h * (i + 1)) (by nlinarith)
    refine ⟨z, ?_, ?_⟩
    · rw [abs_lt]
      constructor <;> nlinarith
    · rw [← e]
      push_cast
      congr 1
      ring

/-- **C60** For any differentiable displacement the deformation gradient at a pixel is the identity
plus the true displacement derivatives less than one step away. -/
theorem C60_between (rows cols : Nat) (hr : 2 ≤ rows) (hc : 2 ≤ cols) (h : ℝ) (hh : 0 < h)
    (u : Fin 2 → ℝ × ℝ → ℝ) (hu : ∀ c, Differentiable ℝ (u c)) :
    ∃ f, deformationGradient rows cols h (fun c i j => u c (h * j, h * i)) = .ok f ∧
      ∀ i j, Spec.InGrid rows cols i j → ∀ c x : Fin 2, ∃ z,
        |z - Spec.coordinate h i j x| < h ∧
        f c x i j = (1 : Matrix (Fin 2) (Fin 2) ℝ) c x +
          deriv (fun z => u c (Spec.along h i j x z)) z := by
  obtain ⟨f, hf, hv⟩ := defgrad_ok rows cols h (fun c i j => u c (h * j, h * i)) hr hc
  refine ⟨f, hf, fun i j _ c x => ?_⟩
  obtain ⟨h00, h01, h10, h11⟩ := hv i j
  have ex : ∀ c, ∃ z, |z - h * j| < h ∧
      gradient1 cols h (fun k => u c (h * k, h * i)) j = deriv (fun z => u c (z, h * i)) z := by
    intro c
    exact gradient1_between cols hc h hh (fun z => u c (z, h * i))
      ((hu c).comp (differentiable_id.prodMk (differentiable_const _))) j
  have ey : ∀ c, ∃ z, |z - h * i| < h ∧
      gradient1 rows h (fun k => u c (h * j, h * k)) i = deriv (fun z => u c (h * j, z)) z := by
    intro c
    exact gradient1_between rows hr h hh (fun z => u c (h * j, z))
      ((hu c).comp ((differentiable_const _).prodMk differentiable_id)) i
  have e0 : ∀ c, f c 0 i j = (1 : Matrix (Fin 2) (Fin 2) ℝ) c 0 +
      gradient1 cols h (fun k => u c (h * k, h * i)) j :=
    Fin.forall_fin_two.2 ⟨by simpa [add_comm] using h00, by simpa using h10⟩
  have e1 : ∀ c, f c 1 i j = (1 : Matrix (Fin 2) (Fin 2) ℝ) c 1 +
      gradient1 rows h (fun k => u c (h * j, h * k)) i :=
    Fin.forall_fin_two.2 ⟨by simpa using h01, by simpa [add_comm] using h11⟩
  revert x
  refine Fin.forall_fin_two.2 ⟨?_, ?_⟩
  · obtain ⟨z, z1, z2⟩ := ex c
    refine ⟨z, by simpa [Spec.coordinate] using z1, ?_⟩
    rw [e0, z2]
    simp [Spec.along]
  · obtain ⟨z, z1, z2⟩ := ey c
    refine ⟨z, by simpa [Spec.coordinate] using z1, ?_⟩
    rw [e1, z2]
    simp [Spec.along]

/-- A displacement that is quadratic in the position. -/
def Spec.quadratic (a : Fin 2 → ℝ) (G Q : Matrix (Fin 2) (Fin 2) ℝ) (m : Fin 2 → ℝ) (c : Fin 2)
    (p : ℝ × ℝ) : ℝ :=
  a c + G c 0 * p.1 + G c 1 * p.2 + Q c 0 * p.1 ^ 2 + m c * (p.1 * p.2) + Q c 1 * p.2 ^ 2

/-- Its derivatives. -/
def Spec.slope (G Q : Matrix (Fin 2) (Fin 2) ℝ) (m : Fin 2 → ℝ) (c x : Fin 2) (p : ℝ × ℝ) : ℝ :=
  if x = 0 then G c 0 + 2 * Q c 0 * p.1 + m c * p.2 else G c 1 + m c * p.1 + 2 * Q c 1 * p.2

theorem gradient1_quadratic (n : Nat) (h : ℝ) (hh : 0 < h) (a s q : ℝ) (i : Int) :
    |gradient1 n h (fun k => a + s * (h * k) + q * (h * k) ^ 2) i - (s + 2 * q * (h * i))| ≤
        h * |q| ∧
      (0 < i → i < n - 1 →
        gradient1 n h (fun k => a + s * (h * k) + q * (h * k) ^ 2) i = s + 2 * q * (h * i)) := by
  have hh' : h ≠ 0 := hh.ne'
  have inside : (a + s * (h * ((i + 1 : Int) : ℝ)) + q * (h * ((i + 1 : Int) : ℝ)) ^ 2 -
      (a + s * (h * ((i - 1 : Int) : ℝ)) + q * (h * ((i - 1 : Int) : ℝ)) ^ 2)) / (2 * h) =
      s + 2 * q * (h * i) := by
    push_cast
    field_simp
    ring
  constructor
  · unfold gradient1
    split_ifs with h0 h1
    · have e : (a + s * (h * ((1 : Int) : ℝ)) + q * (h * ((1 : Int) : ℝ)) ^ 2 -
          (a + s * (h * ((0 : Int) : ℝ)) + q * (h * ((0 : Int) : ℝ)) ^ 2)) / h -
          (s + 2 * q * (h * i)) = h * q := by
        rw [h0]
        push_cast
        field_simp
        ring
      rw [e, abs_mul, abs_of_pos hh]
    · have e : (a + s * (h * ((n - 1 : Int) : ℝ)) + q * (h * ((n - 1 : Int) : ℝ)) ^ 2 -
          (a + s * (h * ((n - 2 : Int) : ℝ)) + q * (h * ((n - 2 : Int) : ℝ)) ^ 2)) / h -
          (s + 2 * q * (h * i)) = -(h * q) := by
        rw [h1]
        push_cast
        field_simp
        ring
      rw [e, abs_neg, abs_mul, abs_of_pos hh]
    · rw [inside, sub_self, abs_zero]
      positivity
  · intro i0 i1
    unfold gradient1
    rw [if_neg (by omega), if_neg (by omega)]
    exact inside

/-- **C60** For a quadratic displacement the deformation gradient is exact away from the ends of
rows and columns, and there off by at most one step times the quadratic coefficient. -/
theorem C60_quadratic (rows cols : Nat) (hr : 2 ≤ rows) (hc : 2 ≤ cols) (h : ℝ) (hh : 0 < h)
    (a : Fin 2 → ℝ) (G Q : Matrix (Fin 2) (Fin 2) ℝ) (m : Fin 2 → ℝ) :
    ∃ f, deformationGradient rows cols h
        (fun c i j => Spec.quadratic a G Q m c (h * j, h * i)) = .ok f ∧
      ∀ i j, Spec.InGrid rows cols i j → ∀ c x : Fin 2,
        |f c x i j - ((1 : Matrix (Fin 2) (Fin 2) ℝ) c x + Spec.slope G Q m c x (h * j, h * i))| ≤
          h * |Q c x| ∧
        (Spec.Inside rows cols i j x →
          f c x i j = (1 : Matrix (Fin 2) (Fin 2) ℝ) c x +
            Spec.slope G Q m c x (h * j, h * i)) := by
  obtain ⟨f, hf, hv⟩ := defgrad_ok rows cols h
    (fun c i j => Spec.quadratic a G Q m c (h * j, h * i)) hr hc
  refine ⟨f, hf, fun i j _ c x => ?_⟩
  obtain ⟨h00, h01, h10, h11⟩ := hv i j
  have ex : ∀ c, |gradient1 cols h (fun k => Spec.quadratic a G Q m c (h * k, h * i)) j -
        Spec.slope G Q m c 0 (h * j, h * i)| ≤ h * |Q c 0| ∧
      (Spec.Inside rows cols i j 0 → gradient1 cols h
        (fun k => Spec.quadratic a G Q m c (h * k, h * i)) j =
          Spec.slope G Q m c 0 (h * j, h * i)) := by
    intro c
    have := gradient1_quadratic cols h hh (a c + G c 1 * (h * i) + Q c 1 * (h * i) ^ 2)
      (G c 0 + m c * (h * i)) (Q c 0) j
    have e1 : (fun k : Int => Spec.quadratic a G Q m c (h * k, h * i)) =
        fun k : Int => (a c + G c 1 * (h * i) + Q c 1 * (h * i) ^ 2) +
          (G c 0 + m c * (h * i)) * (h * k) + Q c 0 * (h * k) ^ 2 := by
      funext k
      unfold Spec.quadratic
      ring
    have e2 : Spec.slope G Q m c 0 (h * j, h * i) =
        G c 0 + m c * (h * i) + 2 * Q c 0 * (h * j) := by
      simp only [Spec.slope, if_true]
      ring
    rw [e1, e2]
    refine ⟨this.1, fun hi => ?_⟩
    simp only [Spec.Inside, if_true] at hi
    exact this.2 hi.1 hi.2
  have ey : ∀ c, |gradient1 rows h (fun k => Spec.quadratic a G Q m c (h * j, h * k)) i -
        Spec.slope G Q m c 1 (h * j, h * i)| ≤ h * |Q c 1| ∧
      (Spec.Inside rows cols i j 1 → gradient1 rows h
        (fun k => Spec.quadratic a G Q m c (h * j, h * k)) i =
          Spec.slope G Q m c 1 (h * j, h * i)) := by
    intro c
    have := gradient1_quadratic rows h hh (a c + G c 0 * (h * j) + Q c 0 * (h * j) ^ 2)
      (G c 1 + m c * (h * j)) (Q c 1) i
    have e1 : (fun k : Int => Spec.quadratic a G Q m c (h * j, h * k)) =
        fun k : Int => (a c + G c 0 * (h * j) + Q c 0 * (h * j) ^ 2) +
          (G c 1 + m c * (h * j)) * (h * k) + Q c 1 * (h * k) ^ 2 := by
      funext k
      unfold Spec.quadratic
      ring
    have e2 : Spec.slope G Q m c 1 (h * j, h * i) =
        G c 1 + m c * (h * j) + 2 * Q c 1 * (h * i) := by
      simp [Spec.slope]
    rw [e1, e2]
    refine ⟨this.1, fun hi => ?_⟩
    simp only [Spec.Inside, one_ne_zero, if_false] at hi
    exact this.2 hi.1 hi.2
  have e0 : ∀ c, f c 0 i j = (1 : Matrix (Fin 2) (Fin 2) ℝ) c 0 +
      gradient1 cols h (fun k => Spec.quadratic a G Q m c (h * k, h * i)) j :=
    Fin.forall_fin_two.2 ⟨by simpa [add_comm] using h00, by simpa using h10⟩
  have e1 : ∀ c, f c 1 i j = (1 : Matrix (Fin 2) (Fin 2) ℝ) c 1 +
      gradient1 rows h (fun k => Spec.quadratic a G Q m c (h * j, h * k)) i :=
    Fin.forall_fin_two.2 ⟨by simpa using h01, by simpa [add_comm] using h11⟩
  revert x
  refine Fin.forall_fin_two.2 ⟨⟨?_, fun hi => ?_⟩, ⟨?_, fun hi => ?_⟩⟩
  · rw [e0, add_sub_add_left_eq_sub]
    exact (ex c).1
  · rw [e0, (ex c).2 hi]
  · rw [e1, add_sub_add_left_eq_sub]
    exact (ey c).1
  · rw [e1, (ey c).2 hi]

/-- A map of three by three pixels with a pixel away from the ends. -/
example : Spec.InGrid 3 3 1 1 ∧ Spec.Inside 3 3 1 1 0 ∧ Spec.Inside 3 3 1 1 1 := by
  simp [Spec.InGrid, Spec.Inside]

/-! ### C61 -/

/-- Green strain: half of `FᵀF - 1`. -/
noncomputable def Spec.green (F : Matrix (Fin 2) (Fin 2) ℝ) : Matrix (Fin 2) (Fin 2) ℝ :=
  (1 / 2 : ℝ) • (Fᵀ * F - 1)

/-- **C61** The strain is the Green strain. -/
theorem C61_green (F : Matrix (Fin 2) (Fin 2) ℝ) : greenStrain F = Spec.green F := by
  unfold greenStrain Spec.green
  ext i j
  fin_cases i <;> fin_cases j <;>
    simp [Matrix.mul_apply, Fin.sum_univ_two, Matrix.transpose] <;> ring

/-- **C61** It is symmetric. -/
theorem C61_symmetric (F : Matrix (Fin 2) (Fin 2) ℝ) : (greenStrain F)ᵀ = greenStrain F := by
  rw [C61_green]
  unfold Spec.green
  rw [Matrix.transpose_smul, Matrix.transpose_sub, Matrix.transpose_mul, Matrix.transpose_transpose,
    Matrix.transpose_one]

/-- **C61** It vanishes exactly if lengths and angles are kept (the deformation gradient is
orthogonal). -/
theorem C61_rigid (F : Matrix (Fin 2) (Fin 2) ℝ) :
    greenStrain F = 0 ↔ ∀ v w : Fin 2 → ℝ, (F *ᵥ v) ⬝ᵥ (F *ᵥ w) = v ⬝ᵥ w := by
  rw [C61_green]
  unfold Spec.green
  constructor
  · intro h v w
    have h1 : Fᵀ * F = 1 := by
      have := (smul_eq_zero.1 h).resolve_left (by norm_num)
      exact sub_eq_zero.1 this
    rw [Matrix.dotProduct_mulVec, ← Matrix.mulVec_transpose, Matrix.mulVec_mulVec, h1,
      Matrix.one_mulVec]
  · intro h
    have h1 : Fᵀ * F = 1 := by
      ext i j
      have := h (Pi.single i 1) (Pi.single j 1)
      rw [Matrix.dotProduct_mulVec, ← Matrix.mulVec_transpose, Matrix.mulVec_mulVec] at this
      have e : (Pi.single i 1 : Fin 2 → ℝ) ⬝ᵥ Pi.single j 1 = (1 : Matrix (Fin 2) (Fin 2) ℝ) i j := by
        rw [single_dotProduct, one_mul, Matrix.one_apply, Pi.single_apply]
      rw [e] at this
      rw [← this]
      have hs : (Fᵀ * F)ᵀ = Fᵀ * F := by rw [Matrix.transpose_mul, Matrix.transpose_transpose]
      conv_lhs => rw [← hs]
      simp [Matrix.transpose_apply]
    rw [h1, sub_self, smul_zero]

/-- A rotation of the plane. -/
noncomputable def Spec.rot (t : ℝ) : Matrix (Fin 2) (Fin 2) ℝ :=
  !![Real.cos t, -Real.sin t; Real.sin t, Real.cos t]

theorem rot_orth (t : ℝ) : (Spec.rot t)ᵀ * Spec.rot t = 1 := by
  have h := Real.sin_sq_add_cos_sq t
  unfold Spec.rot
  ext i j
  fin_cases i <;> fin_cases j <;> simp [Matrix.mul_apply, Fin.sum_univ_two, Matrix.transpose] <;>
    linarith

/-- **C61** A rotation after the deformation does not change the strain. -/
theorem C61_objective (F : Matrix (Fin 2) (Fin 2) ℝ) (t : ℝ) :
    greenStrain (Spec.rot t * F) = greenStrain F := by
  rw [C61_green, C61_green]
  unfold Spec.green
  rw [Matrix.transpose_mul, Matrix.mul_assoc, ← Matrix.mul_assoc _ _ F, rot_orth, Matrix.one_mul]

/-- The shear between the perpendicular directions at the angles `t` and `t + 90°`. -/
noncomputable def Spec.shear (e : Matrix (Fin 2) (Fin 2) ℝ) (t : ℝ) : ℝ :=
  ![Real.cos t, Real.sin t] ⬝ᵥ (e *ᵥ ![-Real.sin t, Real.cos t])

theorem shear_double (e : Matrix (Fin 2) (Fin 2) ℝ) (hs : e 1 0 = e 0 1) (t : ℝ) :
    Spec.shear e t = -((e 0 0 - e 1 1) / 2) * Real.sin (2 * t) + e 0 1 * Real.cos (2 * t) := by
  unfold Spec.shear
  simp [dotProduct, Matrix.mulVec, Fin.sum_univ_two, hs]
  rw [Real.sin_two_mul, Real.cos_two_mul']
  ring

/-- **C61** The maximum shear is the largest shear over all in-plane directions: no direction has
more, and some direction has it. -/
theorem C61_largest (F : Matrix (Fin 2) (Fin 2) ℝ) :
    (∀ t, |Spec.shear (greenStrain F) t| ≤ maxShear (greenStrain F)) ∧
    ∃ t, Spec.shear (greenStrain F) t = maxShear (greenStrain F) := by
  have hs : greenStrain F 1 0 = greenStrain F 0 1 := congrFun (congrFun (C61_symmetric F) 0) 1
  set e := greenStrain F
  constructor
  · intro t
    rw [shear_double e hs]
    unfold maxShear
    rw [← Real.sqrt_sq_eq_abs]
    apply Real.sqrt_le_sqrt
    have h := Real.sin_sq_add_cos_sq (2 * t)
    nlinarith [sq_nonneg ((e 0 0 - e 1 1) / 2 * Real.cos (2 * t) + e 0 1 * Real.sin (2 * t))]
  · set z : ℂ := ⟨e 0 1, -((e 0 0 - e 1 1) / 2)⟩ with hz
    refine ⟨z.arg / 2, ?_⟩
    rw [shear_double e hs]
    have h2 : 2 * (z.arg / 2) = z.arg := by ring
    rw [h2]
    have hn : ‖z‖ = maxShear e := by
      unfold maxShear
      rw [Complex.norm_def, Complex.normSq_apply]
      congr 1
      simp [hz]
      ring
    have hc := Complex.norm_mul_cos_arg z
    have hsn := Complex.norm_mul_sin_arg z
    rw [hn] at hc hsn
    have e1 : z.re = e 0 1 := rfl
    have e2 : z.im = -((e 0 0 - e 1 1) / 2) := rfl
    rw [e1] at hc
    rw [e2] at hsn
    have hm : maxShear e ^ 2 = ((e 0 0 - e 1 1) / 2) ^ 2 + e 0 1 ^ 2 := by
      unfold maxShear
      exact Real.sq_sqrt (by positivity)
    have hcs := Real.sin_sq_add_cos_sq z.arg
    rw [← hsn, ← hc]
    linear_combination maxShear e * hcs

/-- **C61** It is not negative. -/
theorem C61_nonneg (e : Matrix (Fin 2) (Fin 2) ℝ) : 0 ≤ maxShear e := Real.sqrt_nonneg _

/-- **C61** It does not depend on the choice of axes in the plane. -/
theorem C61_axes (F : Matrix (Fin 2) (Fin 2) ℝ) (t : ℝ) :
    maxShear (greenStrain (Spec.rot t * F * (Spec.rot t)ᵀ)) = maxShear (greenStrain F) := by
  have hs : greenStrain F 1 0 = greenStrain F 0 1 := congrFun (congrFun (C61_symmetric F) 0) 1
  have horth : Spec.rot t * (Spec.rot t)ᵀ = 1 := mul_eq_one_comm.1 (rot_orth t)
  have e : greenStrain (Spec.rot t * F * (Spec.rot t)ᵀ) =
      Spec.rot t * greenStrain F * (Spec.rot t)ᵀ := by
    rw [C61_green, C61_green]
    unfold Spec.green
    rw [Matrix.mul_smul, Matrix.smul_mul, Matrix.mul_sub, Matrix.sub_mul, Matrix.mul_one, horth]
    congr 2
    rw [Matrix.transpose_mul, Matrix.transpose_mul, Matrix.transpose_transpose]
    calc Spec.rot t * (Fᵀ * (Spec.rot t)ᵀ) * (Spec.rot t * F * (Spec.rot t)ᵀ)
        = Spec.rot t * Fᵀ * ((Spec.rot t)ᵀ * Spec.rot t) * F * (Spec.rot t)ᵀ := by
          simp only [Matrix.mul_assoc]
      _ = Spec.rot t * (Fᵀ * F) * (Spec.rot t)ᵀ := by
          rw [rot_orth, Matrix.mul_one]; simp only [Matrix.mul_assoc]
  rw [e]
  unfold maxShear
  congr 1
  have h := Real.sin_sq_add_cos_sq t
  simp [Spec.rot, Matrix.mul_apply, Matrix.vecMul, dotProduct, Fin.sum_univ_two, hs]
  generalize greenStrain F 0 0 = a
  generalize greenStrain F 0 1 = b
  generalize greenStrain F 1 1 = d
  generalize Real.cos t = c at *
  generalize Real.sin t = s at *
  have h1 : c ^ 2 = 1 - s ^ 2 := by linarith
  have key : ∀ x y : ℝ, (((c ^ 2 - s ^ 2) * x - 2 * s * c * y) ^ 2 +
      (s * c * (2 * x) + (c ^ 2 - s ^ 2) * y) ^ 2) = (s ^ 2 + c ^ 2) ^ 2 * (x ^ 2 + y ^ 2) := by
    intro x y; ring
  have := key ((a - d) / 2) b
  rw [h] at this
  rw [one_pow, one_mul] at this
  rw [← this]
  ring

example : ∃ f, deformationGradient 2 3 12 (Spec.affine 12 ![5, -1] !![0.1, 0.02; 0, -0.03]) =
    .ok f := by
  obtain ⟨f, hf, -⟩ := C60_affine 2 3 (by omega) (by omega) 12 (by norm_num) ![5, -1]
    !![0.1, 0.02; 0, -0.03]
  exact ⟨f, hf⟩

end DefDAP
