import Verif.Model.StrainMaps
import Verif.Props.Deformation

/-!
C133: the strain maps of a DIC map.
-/

namespace DefDAP

open Matrix

/-- The position of the pixel in row `i` and column `j`, in pixels of the images. -/
def Spec.position (h : ℝ) (i j : Int) : Fin 2 → ℝ := ![h * j, h * i]

/-- The displacement field `v` is the field `u` followed by the motion `y ↦ R y + t` of everything. -/
def Spec.Moved (rows cols : Nat) (h : ℝ) (R : Matrix (Fin 2) (Fin 2) ℝ) (t : Fin 2 → ℝ) (u v : Fin 2 → Int → Int → ℝ) :
    Prop :=
  ∀ i j, Spec.InGrid rows cols i j → Spec.position h i j + (fun c => v c i j) =
    R *ᵥ (Spec.position h i j + fun c => u c i j) + t

theorem gradient1_combine {n : Nat} (hn : 2 ≤ n) {h : ℝ} (hh : h ≠ 0) (a b c d : ℝ)
    (f g k : Int → ℝ)
    (hk : ∀ x : Int, 0 ≤ x → x < n → k x = a * f x + b * g x + c + d * (h * x)) (i : Int)
    (h0 : 0 ≤ i) (h1 : i < n) :
    gradient1 n h k i = a * gradient1 n h f i + b * gradient1 n h g i + d := by
  unfold gradient1
  split_ifs
  · rw [hk 1 (by omega) (by omega), hk 0 (by omega) (by omega)]
    push_cast
    field_simp
    ring
  · rw [hk (n - 1) (by omega) (by omega), hk (n - 2) (by omega) (by omega)]
    push_cast
    field_simp
    ring
  · rw [hk (i + 1) (by omega) (by omega), hk (i - 1) (by omega) (by omega)]
    push_cast
    field_simp
    ring

theorem moved_gradient {rows cols : Nat} (hr : 2 ≤ rows) (hc : 2 ≤ cols) {h : ℝ} (hh : h ≠ 0)
    {R : Matrix (Fin 2) (Fin 2) ℝ} {t : Fin 2 → ℝ} {u v : Fin 2 → Int → Int → ℝ}
    (hm : Spec.Moved rows cols h R t u v) :
    ∃ m m', strainMaps rows cols h u = .ok m ∧ strainMaps rows cols h v = .ok m' ∧
      (∀ i j, Spec.InGrid rows cols i j → m'.f i j = R * m.f i j) ∧
      (∀ i j, m.e i j = greenStrain (m.f i j) ∧ m'.e i j = greenStrain (m'.f i j) ∧
        m.maxShear i j = maxShear (m.e i j) ∧ m'.maxShear i j = maxShear (m'.e i j)) := by
  obtain ⟨f, hf, hv⟩ := defgrad_ok rows cols h u hr hc
  obtain ⟨f', hf', hv'⟩ := defgrad_ok rows cols h v hr hc
  refine ⟨strainsOf f, strainsOf f', by rw [strainMaps, hf]; rfl, by rw [strainMaps, hf']; rfl, ?_,
    fun _ _ => ⟨rfl, rfl, rfl, rfl⟩⟩
  intro i j hg
  have hm0 : ∀ i j, Spec.InGrid rows cols i j → v 0 i j = R 0 0 * u 0 i j + R 0 1 * u 1 i j + t 0 + (R 0 0 - 1) * (h * j) +
      R 0 1 * (h * i) := by
    intro i j hg
    have := congrFun (hm i j hg) 0
    simp [Spec.position, Matrix.mulVec, dotProduct, Fin.sum_univ_two] at this
    simp only [vecHead, vecTail] at this
    change _ = _ * (_ + u 0 i j) + _ * (_ + u 1 i j) + _ at this
    linear_combination this
  have hm1 : ∀ i j, Spec.InGrid rows cols i j → v 1 i j = R 1 0 * u 0 i j + R 1 1 * u 1 i j + t 1 + R 1 0 * (h * j) +
      (R 1 1 - 1) * (h * i) := by
    intro i j hg
    have := congrFun (hm i j hg) 1
    simp [Spec.position, Matrix.mulVec, dotProduct, Fin.sum_univ_two] at this
    simp only [vecHead, vecTail] at this
    change _ = _ * (_ + u 0 i j) + _ * (_ + u 1 i j) + _ at this
    linear_combination this
  obtain ⟨a00, a01, a10, a11⟩ := hv i j
  obtain ⟨b00, b01, b10, b11⟩ := hv' i j
  have g00 := gradient1_combine hc hh (R 0 0) (R 0 1) (t 0 + R 0 1 * (h * i)) (R 0 0 - 1)
    (fun c => u 0 i c) (fun c => u 1 i c) (fun c => v 0 i c)
    (fun x p q => by rw [hm0 i x ⟨hg.1, hg.2.1, p, q⟩]; ring) j hg.2.2.1 hg.2.2.2
  have g01 := gradient1_combine hr hh (R 0 0) (R 0 1) (t 0 + (R 0 0 - 1) * (h * j)) (R 0 1)
    (fun r => u 0 r j) (fun r => u 1 r j) (fun r => v 0 r j)
    (fun x p q => by rw [hm0 x j ⟨p, q, hg.2.2.1, hg.2.2.2⟩]; ring) i hg.1 hg.2.1
  have g10 := gradient1_combine hc hh (R 1 0) (R 1 1) (t 1 + (R 1 1 - 1) * (h * i)) (R 1 0)
    (fun c => u 0 i c) (fun c => u 1 i c) (fun c => v 1 i c)
    (fun x p q => by rw [hm1 i x ⟨hg.1, hg.2.1, p, q⟩]; ring) j hg.2.2.1 hg.2.2.2
  have g11 := gradient1_combine hr hh (R 1 0) (R 1 1) (t 1 + R 1 0 * (h * j)) (R 1 1 - 1)
    (fun r => u 0 r j) (fun r => u 1 r j) (fun r => v 1 r j)
    (fun x p q => by rw [hm1 x j ⟨p, q, hg.2.2.1, hg.2.2.2⟩]; ring) i hg.1 hg.2.1
  ext c x
  rw [Matrix.mul_apply]
  fin_cases c <;> fin_cases x <;>
    simp [strainsOf, Fin.sum_univ_two, a00, a01, a10, a11, b00, b01, b10, b11, g00,
      g01, g10, g11] <;> ring

variable {rows cols : Nat} {h : ℝ} {R : Matrix (Fin 2) (Fin 2) ℝ} {t : Fin 2 → ℝ}
  {u v : Fin 2 → Int → Int → ℝ}

/-- **C133** Whatever the displacements, if everything is moved rigidly afterwards (or the microscope
image is turned and shifted between the two images), strain and maximum shear are the same at every
pixel, and the deformation gradient is rotated. -/
theorem C133_moved (hr : 2 ≤ rows) (hc : 2 ≤ cols) (hh : h ≠ 0) (hR : Rᵀ * R = 1)
    (hm : Spec.Moved rows cols h R t u v) :
    ∃ m m', strainMaps rows cols h u = .ok m ∧ strainMaps rows cols h v = .ok m' ∧
      ∀ i j, Spec.InGrid rows cols i j →
        m'.f i j = R * m.f i j ∧ m'.e i j = m.e i j ∧ m'.maxShear i j = m.maxShear i j := by
  obtain ⟨m, m', h1, h2, h3, h4⟩ := moved_gradient hr hc hh hm
  refine ⟨m, m', h1, h2, fun i j hg => ?_⟩
  obtain ⟨e1, e2, e3, e4⟩ := h4 i j
  have he : m'.e i j = m.e i j := by
    rw [e1, e2, h3 i j hg, C61_green, C61_green]
    unfold Spec.green
    rw [Matrix.transpose_mul, Matrix.mul_assoc, ← Matrix.mul_assoc _ _ (m.f i j), hR, Matrix.one_mul]
  exact ⟨h3 i j hg, he, by rw [e3, e4, he]⟩

theorem zero_strains (hr : 2 ≤ rows) (hc : 2 ≤ cols) (hh : h ≠ 0) :
    ∃ m, strainMaps rows cols h (fun _ _ _ => 0) = .ok m ∧
      ∀ i j, m.f i j = 1 ∧ m.e i j = 0 ∧ m.maxShear i j = 0 := by
  obtain ⟨f, hf, hv⟩ := defgrad_ok rows cols h (fun _ _ _ => 0) hr hc
  refine ⟨strainsOf f, by rw [strainMaps, hf]; rfl, fun i j => ?_⟩
  have z : ∀ n k, gradient1 n h (fun _ => (0 : ℝ)) k = 0 := by
    intro n k; unfold gradient1; split_ifs <;> simp
  obtain ⟨a00, a01, a10, a11⟩ := hv i j
  have h1 : (strainsOf f).f i j = 1 := by
    ext c x
    fin_cases c <;> fin_cases x <;> simp [strainsOf, a00, a01, a10, a11, z]
  have h2 : (strainsOf f).e i j = 0 := by
    have : (strainsOf f).e i j = greenStrain ((strainsOf f).f i j) := rfl
    rw [this, h1, C61_green]
    simp [Spec.green]
  refine ⟨h1, h2, ?_⟩
  have : (strainsOf f).maxShear i j = maxShear ((strainsOf f).e i j) := rfl
  rw [this, h2]
  simp [maxShear]

/-- **C133** A rigid motion gives no strain and no shear at any pixel, edges included. -/
theorem C133_rigid (hr : 2 ≤ rows) (hc : 2 ≤ cols) (hh : h ≠ 0) (hR : Rᵀ * R = 1)
    (hu : ∀ i j, Spec.InGrid rows cols i j →
      Spec.position h i j + (fun c => u c i j) = R *ᵥ Spec.position h i j + t) :
    ∃ m, strainMaps rows cols h u = .ok m ∧
      ∀ i j, Spec.InGrid rows cols i j → m.f i j = R ∧ m.e i j = 0 ∧ m.maxShear i j = 0 := by
  obtain ⟨m, m', h1, h2, h3⟩ := C133_moved (u := fun _ _ _ => 0) (v := u) hr hc hh hR (t := t) (by
    intro i j hg
    rw [hu i j hg]
    congr 2
    ext c
    simp)
  obtain ⟨m0, h4, h5⟩ := zero_strains hr hc hh (rows := rows) (cols := cols)
  rw [h1] at h4
  cases h4
  refine ⟨m', h2, fun i j hg => ?_⟩
  obtain ⟨a, b, c⟩ := h3 i j hg
  obtain ⟨x, y, z⟩ := h5 i j
  exact ⟨by rw [a, x, Matrix.mul_one], by rw [b, y], by rw [c, z]⟩

/-- **C133** A uniform simple shear by `γ`, along the direction at angle `θ`, has the same maximum shear
at every pixel, whatever the direction: half of `γ` times the square root of `1 + γ² / 4`. -/
theorem C133_shear (hr : 2 ≤ rows) (hc : 2 ≤ cols) (hh : h ≠ 0) (γ θ : ℝ)
    (hu : ∀ i j, Spec.InGrid rows cols i j →
      (fun c => u c i j) =
      (γ * (![-Real.sin θ, Real.cos θ] ⬝ᵥ Spec.position h i j)) • ![Real.cos θ, Real.sin θ] + t) :
    ∃ m, strainMaps rows cols h u = .ok m ∧
      ∀ i j, Spec.InGrid rows cols i j → m.maxShear i j = |γ| / 2 * Real.sqrt (1 + γ ^ 2 / 4) := by
  set M : Matrix (Fin 2) (Fin 2) ℝ :=
    !![1 - γ * Real.cos θ * Real.sin θ, γ * Real.cos θ * Real.cos θ;
       -(γ * Real.sin θ * Real.sin θ), 1 + γ * Real.sin θ * Real.cos θ] with hM
  obtain ⟨m0, m, h1, h2, h3, h4⟩ := moved_gradient (R := M) (t := t) (u := fun _ _ _ => 0) (v := u)
    hr hc hh (by
      intro i j hg
      rw [hu i j hg]
      have hz : (Spec.position h i j + fun _ => (0 : ℝ)) = Spec.position h i j := by ext c; simp
      rw [hz, ← add_assoc]
      congr 1
      ext c
      fin_cases c <;> simp [hM, Spec.position, Matrix.mulVec, dotProduct, Fin.sum_univ_two] <;> ring)
  obtain ⟨m0', h5, h6⟩ := zero_strains hr hc hh (rows := rows) (cols := cols)
  rw [h1] at h5
  cases h5
  refine ⟨m, h2, fun i j hg => ?_⟩
  obtain ⟨-, e2, -, e4⟩ := h4 i j
  rw [e4, e2, h3 i j hg, (h6 i j).1, Matrix.mul_one]
  have hcs := Real.sin_sq_add_cos_sq θ
  unfold maxShear
  have key : ((greenStrain M 0 0 - greenStrain M 1 1) / 2) ^ 2 + greenStrain M 0 1 ^ 2 =
      (γ / 2) ^ 2 * (1 + γ ^ 2 / 4) := by
    have e00 : greenStrain M 0 0 = -(γ * Real.cos θ * Real.sin θ) +
        γ ^ 2 * Real.sin θ ^ 2 / 2 := by
      simp [greenStrain, hM, Fin.sum_univ_two]
      linear_combination (γ ^ 2 * Real.sin θ ^ 2 / 2) * hcs
    have e11 : greenStrain M 1 1 = γ * Real.cos θ * Real.sin θ + γ ^ 2 * Real.cos θ ^ 2 / 2 := by
      simp [greenStrain, hM, Fin.sum_univ_two]
      linear_combination (γ ^ 2 * Real.cos θ ^ 2 / 2) * hcs
    have e01 : greenStrain M 0 1 = γ * (Real.cos θ ^ 2 - Real.sin θ ^ 2) / 2 -
        γ ^ 2 * Real.sin θ * Real.cos θ / 2 := by
      simp [greenStrain, hM, Fin.sum_univ_two]
      linear_combination (-(γ ^ 2 * Real.sin θ * Real.cos θ / 2)) * hcs
    rw [e00, e11, e01]
    have hc2 : Real.cos θ ^ 2 = 1 - Real.sin θ ^ 2 := by linarith
    have hc4 : Real.cos θ ^ 4 = (1 - Real.sin θ ^ 2) ^ 2 := by rw [← hc2]; ring
    ring_nf
    simp only [hc2, hc4]
    ring
  rw [key, Real.sqrt_mul (sq_nonneg _), Real.sqrt_sq_eq_abs, abs_div]
  norm_num

/-- **C133** The units of the images do not matter: displacements and binning both multiplied by `k`
give the same maps. -/
theorem C133_scaled {k : ℝ} (hk : k ≠ 0)
    (hv : ∀ c i j, v c i j = k * u c i j) :
    strainMaps rows cols (k * h) v = strainMaps rows cols h u := by
  have g : ∀ n (f : Int → ℝ) i, gradient1 n (k * h) (fun x => k * f x) i = gradient1 n h f i := by
    intro n f i
    unfold gradient1
    split_ifs
    · rw [← mul_sub, mul_div_mul_left _ _ hk]
    · rw [← mul_sub, mul_div_mul_left _ _ hk]
    · rw [← mul_sub, mul_left_comm 2 k h, mul_div_mul_left _ _ hk]
  unfold strainMaps deformationGradient gradientMaps
  have : v = fun c i j => k * u c i j := by ext c i j; exact hv c i j
  rw [this]
  simp only [g]

/-- A quarter turn about the first pixel, of a map of 2 by 2 pixels. -/
example : (!![0, -1; 1, 0] : Matrix (Fin 2) (Fin 2) ℝ)ᵀ * !![0, -1; 1, 0] = 1 ∧
    ∀ i j : Int, Spec.position 2 i j +
      (fun c => (![-(2 * (i : ℝ)) - 2 * j, 2 * j - 2 * i] : Fin 2 → ℝ) c) =
        (!![0, -1; 1, 0] : Matrix (Fin 2) (Fin 2) ℝ) *ᵥ Spec.position 2 i j + 0 := by
  constructor
  · ext a b
    fin_cases a <;> fin_cases b <;> simp [Matrix.mul_apply, Fin.sum_univ_two]
  · intro i j
    ext c
    fin_cases c <;> simp [Spec.position, Matrix.mulVec, dotProduct, Fin.sum_univ_two]

end DefDAP
