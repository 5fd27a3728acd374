import Verif.Props.Schmid
import Verif.Props.IpfColour
import Verif.Props.RotateMap
import Verif.Props.Nye

/-!
C135: the sample turned about the normal of its surface, or about the direction of an inverse pole
figure.
-/

namespace DefDAP

open Quat Spec Matrix

/-- A turn by the angle `a` about the normal of the surface. -/
noncomputable def Spec.aboutNormal (a : ℝ) : Matrix (Fin 3) (Fin 3) ℝ :=
  !![Real.cos a, -Real.sin a, 0; Real.sin a, Real.cos a, 0; 0, 0, 1]

/-- The orientations measured before and after the sample was turned by `T`: what was along `d` is along
`T d` afterwards, and in the same direction in the crystal. -/
def Spec.SampleTurned (T : Matrix (Fin 3) (Fin 3) ℝ) (ori ori' : Quat ℝ) : Prop :=
  Quat.IsUnit ori ∧ ori.North ∧ Quat.IsUnit ori' ∧ ori'.North ∧
    ∀ d, rotMatrix ori' *ᵥ (T *ᵥ d) = rotMatrix ori *ᵥ d

variable {ori ori' : Quat ℝ} {T : Matrix (Fin 3) (Fin 3) ℝ}

theorem turned_matrix (ht : SampleTurned T ori ori') : rotMatrix ori' * T = rotMatrix ori := by
  ext i j
  have := congrFun (ht.2.2.2.2 (Pi.single j 1)) i
  rw [Matrix.mulVec_mulVec, Matrix.mulVec_single_one, Matrix.mulVec_single_one] at this
  exact this

theorem turned_back (ht : SampleTurned T ori ori') (v : Fin 3 → ℝ) :
    transformVector (conjugate ori') v = T *ᵥ transformVector (conjugate ori) v := by
  rw [transform_matrix _ (north_conj ori'), transform_matrix _ (north_conj ori), rotMatrix_conjugate,
    rotMatrix_conjugate, ← turned_matrix ht, Matrix.mulVec_mulVec, Matrix.transpose_mul]
  have h1 : (rotMatrix ori')ᵀ * rotMatrix ori' = 1 := (C36_rotation ori' ht.2.2.1).2.1
  have h2 : T * Tᵀ = 1 := by
    have e : T = (rotMatrix ori')ᵀ * rotMatrix ori := by
      rw [← turned_matrix ht, ← Matrix.mul_assoc, h1, Matrix.one_mul]
    have h3 : rotMatrix ori * (rotMatrix ori)ᵀ = 1 := (C36_rotation ori ht.1).1
    rw [e, Matrix.transpose_mul, Matrix.transpose_transpose, Matrix.mul_assoc,
      ← Matrix.mul_assoc (rotMatrix ori), h3, Matrix.one_mul, h1]
  rw [← Matrix.mul_assoc, h2, Matrix.one_mul]

/-- **C135** Turning the sample about the normal of the surface by `a` turns the traces of all slip
planes by `a` (as angles between 0 and 180 degrees), and keeps their inclinations. -/
theorem C135_traces {a : ℝ} (ht : SampleTurned (aboutNormal a) ori ori') (n : Fin 3 → ℝ)
    (hu : n ⬝ᵥ n = 1) (hp : sampleNormal ori n 0 ≠ 0 ∨ sampleNormal ori n 1 ≠ 0) :
    (slipTrace ori' n).2 = (slipTrace ori n).2 ∧
    ∃ k : Int, (slipTrace ori' n).1 = (slipTrace ori n).1 + a + k * Real.pi := by
  have hN : sampleNormal ori' n = aboutNormal a *ᵥ sampleNormal ori n := turned_back ht n
  have c0 : sampleNormal ori' n 0 =
      Real.cos a * sampleNormal ori n 0 - Real.sin a * sampleNormal ori n 1 := by
    rw [hN]
    simp [aboutNormal, Matrix.mulVec, dotProduct, Fin.sum_univ_three]
    ring
  have c1 : sampleNormal ori' n 1 =
      Real.sin a * sampleNormal ori n 0 + Real.cos a * sampleNormal ori n 1 := by
    rw [hN]
    simp [aboutNormal, Matrix.mulVec, dotProduct, Fin.sum_univ_three]
  have c2 : sampleNormal ori' n 2 = sampleNormal ori n 2 := by
    rw [hN]
    simp [aboutNormal, Matrix.mulVec, dotProduct, Fin.sum_univ_three]
  have hcs := Real.sin_sq_add_cos_sq a
  have hp' : sampleNormal ori' n 0 ≠ 0 ∨ sampleNormal ori' n 1 ≠ 0 := by
    by_contra hn
    push Not at hn
    rw [c0, c1] at hn
    have e0 : sampleNormal ori n 0 = 0 := by
      linear_combination Real.cos a * hn.1 + Real.sin a * hn.2 - sampleNormal ori n 0 * hcs
    have e1 : sampleNormal ori n 1 = 0 := by
      linear_combination Real.cos a * hn.2 - Real.sin a * hn.1 - sampleNormal ori n 1 * hcs
    exact hp.elim (fun h => h e0) fun h => h e1
  obtain ⟨u, no, u', no', -⟩ := ht
  constructor
  · obtain ⟨a1, a2, a3⟩ := C59_inclination ori u no n hu
    obtain ⟨b1, b2, b3⟩ := C59_inclination ori' u' no' n hu
    have hpi := Real.pi_pos
    exact Real.injOn_cos ⟨b1, by linarith⟩ ⟨a1, by linarith⟩ (by rw [a3, b3, c2])
  · obtain ⟨-, -, h3, -⟩ := C59_trace ori u no n hp
    obtain ⟨-, -, -, h4⟩ := C59_trace ori' u' no' n hp'
    obtain ⟨k, hk⟩ := h4 ((slipTrace ori n).1 + a) (by
      simp only [traceDir, dotProduct, Fin.sum_univ_three, cons_val_zero, cons_val_one, cons_val,
        zero_mul, add_zero] at h3 ⊢
      rw [c0, c1, Real.sin_add, Real.cos_add]
      linear_combination (Real.sin a ^ 2 + Real.cos a ^ 2) * h3)
    refine ⟨-k, ?_⟩
    push_cast
    linarith

/-- **C135** If the sample is turned together with the direction of the inverse pole figure, directions
and colours are the same. -/
theorem C135_colours (g : SymGroup) {quats quats' : List (Quat ℝ)} {d : Vec} (hd : d ≠ 0)
    (ht : List.Forall₂ (SampleTurned T) quats quats') (tri : String) :
    calcFundDirs g tri quats' (T *ᵥ d) = calcFundDirs g tri quats d ∧
    calcIpfColours g quats' (T *ᵥ d) = calcIpfColours g quats d := by
  have main : ∀ tri, calcFundDirs g tri quats' (T *ᵥ d) = calcFundDirs g tri quats d := by
    intro tri
    cases ht with
    | nil => rfl
    | @cons q q' l l' h ht =>
    have hn : (T *ᵥ d) ⬝ᵥ (T *ᵥ d) = d ⬝ᵥ d := by
      rw [← rot_dot h.2.2.1, h.2.2.2.2, rot_dot h.1]
    have hd' : T *ᵥ d ≠ 0 := by
      intro e
      rw [e, zero_dotProduct] at hn
      exact hd (dotProduct_self_eq_zero.1 hn.symm)
    replace ht := List.Forall₂.cons h ht
    have hq : ∀ x ∈ q :: l, Quat.IsUnit x := by
      intro x hx
      obtain ⟨i, hi, rfl⟩ := List.mem_iff_getElem.1 hx
      exact ((List.forall₂_iff_get.1 ht).2 i hi (by rw [← ht.length_eq]; exact hi)).1
    have hq' : ∀ x ∈ q' :: l', Quat.IsUnit x := by
      intro x hx
      obtain ⟨i, hi, rfl⟩ := List.mem_iff_getElem.1 hx
      exact ((List.forall₂_iff_get.1 ht).2 i (by rw [ht.length_eq]; exact hi) hi).2.2.1
    have e : ((q' :: l').map fun x => groupAngles (symEqv g) (inCrystal x (T *ᵥ d))) =
        (q :: l).map fun x => groupAngles (symEqv g) (inCrystal x d) := by
      symm
      refine List.forall₂_eq_eq_eq ▸ ?_
      rw [List.forall₂_map_left_iff, List.forall₂_map_right_iff]
      refine ht.imp fun a b hab => ?_
      unfold inCrystal
      rw [hab.2.2.2.2, hn]
    unfold calcFundDirs
    simp only [fund_angles g hq' hd', fund_angles g hq hd, e]
  refine ⟨main tri, ?_⟩
  unfold calcIpfColours
  rw [main]

/-- **C135** In particular colours along a direction do not change if the sample is turned about it. -/
theorem C135_about (g : SymGroup) {quats quats' : List (Quat ℝ)} {d : Vec} (hd : d ≠ 0)
    (hT : T *ᵥ d = d) (ht : List.Forall₂ (SampleTurned T) quats quats') :
    calcIpfColours g quats' d = calcIpfColours g quats d := by
  have := (C135_colours g hd ht "up").2
  rwa [hT] at this

/-- **C135** Half a turn about the normal, as by `rotate_data`: the inclinations and displacement ratios
of slip systems are the same, the trace angles too (or one is 0 and the other 180 degrees), and the
Schmid factors for loads in the plane of the surface or along its normal. -/
theorem C135_half (u : Quat.IsUnit ori) (no : ori.North) (groups : List (List SlipSystem)) (n : Fin 3 → ℝ)
    (hu : n ⬝ᵥ n = 1) (hp : sampleNormal ori n 0 ≠ 0 ∨ sampleNormal ori n 1 ≠ 0)
    (load : Fin 3 → ℝ) (hl : load 2 = 0 ∨ load 0 = 0 ∧ load 1 = 0) :
    let ori' := mul ori rotTransform
    (slipTrace ori' n).2 = (slipTrace ori n).2 ∧
    ((slipTrace ori' n).1 = (slipTrace ori n).1 ∨
      (slipTrace ori' n).1 = 0 ∧ (slipTrace ori n).1 = Real.pi ∨
      (slipTrace ori' n).1 = Real.pi ∧ (slipTrace ori n).1 = 0) ∧
    grainRdr ori' groups = grainRdr ori groups ∧
    schmidFactors ori' load groups = schmidFactors ori load groups := by
  intro ori'
  have hr : Quat.IsUnit rotTransform := by rw [rotTransform_eq]; simp [Quat.IsUnit]
  have u' : Quat.IsUnit ori' := isUnit_mul u hr
  have no' : ori'.North := north_make _
  have hz : aboutNormal Real.pi = halfTurn := by
    ext i j
    fin_cases i <;> fin_cases j <;> simp [aboutNormal, halfTurn]
  have ht : SampleTurned (aboutNormal Real.pi) ori ori' := by
    refine ⟨u, no, u', no', fun d => ?_⟩
    rw [hz, rotMatrix_rotated, Matrix.mulVec_mulVec, Matrix.mul_assoc, halfTurn_twice, Matrix.mul_one]
  obtain ⟨h1, k, h2⟩ := C135_traces ht n hu hp
  refine ⟨h1, ?_, ?_, ?_⟩
  · obtain ⟨a1, a2, -⟩ := C59_trace ori u no n hp
    have hpi := Real.pi_pos
    have b1 : 0 ≤ (slipTrace ori' n).1 := Real.arccos_nonneg _
    have b2 : (slipTrace ori' n).1 ≤ Real.pi := Real.arccos_le_pi _
    have e : (slipTrace ori' n).1 = (slipTrace ori n).1 + ((k + 1 : Int) : ℝ) * Real.pi := by
      rw [h2]
      push_cast
      ring
    have k1 : -1 ≤ k + 1 := by
      by_contra hc
      have : ((k + 1 : Int) : ℝ) ≤ -2 := by exact_mod_cast (by omega : k + 1 ≤ -2)
      nlinarith
    have k2 : k + 1 ≤ 1 := by
      by_contra hc
      have : (2 : ℝ) ≤ ((k + 1 : Int) : ℝ) := by exact_mod_cast (by omega : 2 ≤ k + 1)
      nlinarith
    obtain hk | hk | hk : k + 1 = -1 ∨ k + 1 = 0 ∨ k + 1 = 1 := by omega
    · rw [hk] at e
      push_cast at e
      exact Or.inr (Or.inl ⟨by linarith, by linarith⟩)
    · rw [hk] at e
      push_cast at e
      exact Or.inl (by linarith)
    · rw [hk] at e
      push_cast at e
      exact Or.inr (Or.inr ⟨by linarith, by linarith⟩)
  · unfold grainRdr
    refine List.map_congr_left fun g _ => List.map_congr_left fun ss _ => ?_
    rw [turned_back ht, hz]
    simp [halfTurn, Matrix.mulVec, dotProduct, Fin.sum_univ_three, div_neg, neg_div]
  · have e : transformVector ori' load = transformVector ori load ∨
        transformVector ori' load = -transformVector ori load := by
      rw [transform_matrix _ no', transform_matrix _ no, rotMatrix_rotated, ← Matrix.mulVec_mulVec,
        ← Matrix.mulVec_neg]
      rcases hl with h | ⟨h, h'⟩
      · right
        congr 1
        ext i
        fin_cases i <;> simp [halfTurn, Matrix.mulVec, dotProduct, Fin.sum_univ_three, h]
      · left
        congr 1
        ext i
        fin_cases i <;> simp [halfTurn, Matrix.mulVec, dotProduct, Fin.sum_univ_three, h, h']
    unfold schmidFactors schmidFactor
    rcases e with e | e <;> rw [e]
    simp [neg_dotProduct]

/-- A sample in the frame of its crystal, turned by 90 degrees. -/
example : SampleTurned (aboutNormal (-(Real.pi / 2))) ⟨1, 0, 0, 0⟩
      ⟨Real.sqrt 2 / 2, 0, 0, Real.sqrt 2 / 2⟩ ∧
    (sampleNormal ⟨1, 0, 0, 0⟩ ![1, 0, 0] 0 ≠ 0) := by
  have h2 : Real.sqrt 2 ^ 2 = 2 := Real.sq_sqrt (by norm_num)
  refine ⟨⟨by simp [Quat.IsUnit], by simp [North], ?_, ?_, ?_⟩, ?_⟩
  · simp only [Quat.IsUnit]
    linarith [h2, div_pow (Real.sqrt 2) 2 2]
  · simp only [North]
    positivity
  · intro d
    ext i
    fin_cases i <;>
      simp [rotMatrix, aboutNormal, Matrix.mulVec, dotProduct, Fin.sum_univ_three] <;>
      first
        | linear_combination (d 0 / 2) * h2
        | linear_combination (d 1 / 2) * h2
        | linear_combination (d 2 / 2) * h2
  · unfold sampleNormal
    rw [transform_matrix _ (north_conj _), rotMatrix_conjugate]
    simp [rotMatrix, Matrix.mulVec, dotProduct, Fin.sum_univ_three]

end DefDAP
