import Verif.Props.MisoriGrains

/-!
C128: the boundaries and the grains do not depend on which of the equivalent orientations a pixel has,
nor on how the sample lies in the frame.
-/

namespace DefDAP

open Quat Spec Matrix

theorem crystalRotation_mul (g : SymGroup) {A B : Matrix (Fin 3) (Fin 3) ℝ}
    (hA : CrystalRotation g A) (hB : CrystalRotation g B) : CrystalRotation g (A * B) := by
  rw [crystalRotation_iff] at hA hB ⊢
  obtain ⟨a, ha, rfl⟩ := hA
  obtain ⟨b, hb, rfl⟩ := hB
  obtain ⟨u, hu, he⟩ := (C39_group g).2.2.2.2.1 a ha b hb
  exact ⟨u, hu, he.1⟩

theorem crystalRotation_inv (g : SymGroup) {A : Matrix (Fin 3) (Fin 3) ℝ}
    (hA : CrystalRotation g A) : CrystalRotation g Aᵀ ∧ A * Aᵀ = 1 ∧ Aᵀ * A = 1 := by
  rw [crystalRotation_iff] at hA ⊢
  obtain ⟨s, hs, rfl⟩ := hA
  obtain ⟨u, hu, he⟩ := (C39_group g).2.2.2.2.2 s hs
  have hr := (C36_rotation s ((symEqv_table g).unit s hs)).1
  have hinv : (rotMatrix s)⁻¹ = (rotMatrix s)ᵀ := Matrix.inv_eq_right_inv hr
  exact ⟨⟨u, hu, by rw [he, hinv]⟩, hr, mul_eq_one_comm.mp hr⟩

/-- Closeness is not changed by rotations of the crystals into themselves, nor by a rotation of the
sample. -/
theorem close_invariant (g : SymGroup) (tol : ℝ) {P Q S U T : Matrix (Fin 3) (Fin 3) ℝ}
    (hS : CrystalRotation g S) (hU : CrystalRotation g U) (hT : T * Tᵀ = 1) :
    Close g tol (S * P * T) (U * Q * T) ↔ Close g tol P Q := by
  obtain ⟨hS', hS1, hS2⟩ := crystalRotation_inv g hS
  obtain ⟨hU', hU1, hU2⟩ := crystalRotation_inv g hU
  have tr : ∀ V : Matrix (Fin 3) (Fin 3) ℝ, rotationAngle (S * P * T * (V * (U * Q * T))ᵀ) =
      rotationAngle (P * (Sᵀ * V * U * Q)ᵀ) := by
    intro V
    unfold rotationAngle
    congr 3
    have e : S * P * T * (V * (U * Q * T))ᵀ = S * (P * Qᵀ * Uᵀ * Vᵀ) := by
      simp only [Matrix.transpose_mul]
      calc S * P * T * (Tᵀ * (Qᵀ * Uᵀ) * Vᵀ) = S * P * (T * Tᵀ) * (Qᵀ * Uᵀ) * Vᵀ := by
            simp only [Matrix.mul_assoc]
        _ = _ := by rw [hT, Matrix.mul_one]; simp only [Matrix.mul_assoc]
    rw [e, Matrix.trace_mul_comm]
    simp only [Matrix.transpose_mul, Matrix.transpose_transpose, Matrix.mul_assoc]
  constructor
  · rintro ⟨V, hV, h⟩
    refine ⟨Sᵀ * V * U, crystalRotation_mul g (crystalRotation_mul g hS' hV) hU, ?_⟩
    rwa [tr] at h
  · rintro ⟨V, hV, h⟩
    refine ⟨S * V * Uᵀ, crystalRotation_mul g (crystalRotation_mul g hS hV) hU', ?_⟩
    rw [tr]
    have : Sᵀ * (S * V * Uᵀ) * U = V := by
      calc Sᵀ * (S * V * Uᵀ) * U = (Sᵀ * S) * V * (Uᵀ * U) := by simp only [Matrix.mul_assoc]
        _ = V := by rw [hS2, hU2, Matrix.one_mul, Matrix.mul_one]
    rwa [this]

theorem nonzeroT_congr {h w : Nat} {a b : Img Bool} (he : ∀ p : Px, InMap h w p → a p.2 p.1 = b p.2 p.1) :
    nonzeroT h w a = nonzeroT h w b := by
  unfold nonzeroT
  have : ∀ x ∈ List.range w, ((List.range h).filter fun (y : Nat) => a y x) =
      (List.range h).filter fun (y : Nat) => b y x := by
    intro x hx
    refine List.filter_congr fun y hy => ?_
    have hx' := List.mem_range.mp hx
    have hy' := List.mem_range.mp hy
    exact he ((x : Int), (y : Int)) ⟨by simp, by simpa using hx', by simp, by simpa using hy'⟩
  rw [List.flatMap_def, List.flatMap_def]
  congr 1
  refine List.map_congr_left fun x hx => ?_
  rw [this x hx]

variable {h w : Nat} {g : SymGroup} {ori ori' : Img (Quat ℝ)} {phase : Img Int} {tol : ℝ}
  {S : Px → Matrix (Fin 3) (Fin 3) ℝ} {T : Matrix (Fin 3) (Fin 3) ℝ}

/-- Give every pixel another of its equivalent orientations, each pixel with its own rotation of the
crystal into itself, and turn the whole sample by one rotation: the boundaries are the same. -/
theorem C128_invariant (hunit : ∀ p : Px, InMap h w p → (ori p.2 p.1).IsUnit)
    (hunit' : ∀ p : Px, InMap h w p → (ori' p.2 p.1).IsUnit) (htol : 0 ≤ tol)
    (hT : Spec.Rotation T) (hS : ∀ p, InMap h w p → CrystalRotation g (S p))
    (heq : ∀ p : Px, InMap h w p →
      rotMatrix (ori' p.2 p.1) = S p * rotMatrix (ori p.2 p.1) * T) :
    boundariesOf h w g ori' phase tol = boundariesOf h w g ori phase tol := by
  have ht := tol_nonneg htol
  have key : ∀ p q : Px, InMap h w p → InMap h w q →
      (tol * (Real.pi / 180) < neighbourAngle (symEqv g) (ori' p.2 p.1) (ori' q.2 q.1) ↔
        tol * (Real.pi / 180) < neighbourAngle (symEqv g) (ori p.2 p.1) (ori q.2 q.1)) := by
    intro p q hp hq
    rw [← not_le, ← not_le, neighbourAngle_le g (hunit' p hp) (hunit' q hq),
      neighbourAngle_le g (hunit p hp) (hunit q hq), heq p hp, heq q hq,
      close_invariant g tol (hS p hp) (hS q hq) hT.1]
  unfold boundariesOf findBoundaries BoundarySet.fromImage
  refine Prod.ext rfl ?_
  simp only [BoundarySet.mk.injEq]
  constructor
  · refine nonzeroT_congr fun p hp => ?_
    rw [Bool.eq_iff_iff, grainBoundaryX_iff ht hp, grainBoundaryX_iff ht hp]
    refine and_congr_right fun hl => ?_
    have hq : InMap h w (p.1 + 1, p.2) := ⟨by have := hp.1; simp only; omega, hl, hp.2.2⟩
    rw [key p _ hp hq]
  · refine nonzeroT_congr fun p hp => ?_
    rw [Bool.eq_iff_iff, grainBoundaryY_iff ht hp, grainBoundaryY_iff ht hp]
    refine and_congr_right fun hl => ?_
    have hq : InMap h w (p.1, p.2 + 1) := ⟨hp.1, hp.2.1, by have := hp.2.2.1; simp only; omega, hl⟩
    rw [key p _ hp hq]

/-- And so are the grains: the same labels, the same grains in the same order. -/
theorem C128_invariant_grains (hunit : ∀ p : Px, InMap h w p → (ori p.2 p.1).IsUnit)
    (hunit' : ∀ p : Px, InMap h w p → (ori' p.2 p.1).IsUnit) (htol : 0 ≤ tol)
    (hT : Spec.Rotation T) (hS : ∀ p, InMap h w p → CrystalRotation g (S p))
    (heq : ∀ p : Px, InMap h w p →
      rotMatrix (ori' p.2 p.1) = S p * rotMatrix (ori p.2 p.1) * T) (numPhases minSize : Nat) :
    grainsOf h w g ori' phase numPhases tol minSize =
      grainsOf h w g ori phase numPhases tol minSize := by
  unfold grainsOf
  rw [C128_invariant hunit hunit' htol hT hS heq]

/-- The hypotheses are met: a map of identical orientations, and the map with the quarter turn, an
equivalent of a cubic crystal, in one column. -/
example (h w : Nat) : boundariesOf h w .cubic
    (fun _ x => if x = 1 then quarterTurn else ⟨1, 0, 0, 0⟩) (fun _ _ => 1) 10 =
      boundariesOf h w .cubic (fun _ _ => ⟨1, 0, 0, 0⟩) (fun _ _ => 1) 10 := by
  have hone : rotMatrix (⟨1, 0, 0, 0⟩ : Quat ℝ) = 1 := by
    ext i j; fin_cases i <;> fin_cases j <;> simp [rotMatrix]
  refine C128_invariant (S := fun p => if p.1 = 1 then rotMatrix quarterTurn else 1) (T := 1)
    (fun _ _ => one_unit) ?_ (by norm_num) ⟨by simp, by simp⟩ ?_ ?_
  · intro p _
    split
    · exact quarterTurn_unit
    · exact one_unit
  · intro p _
    split
    · rw [crystalRotation_iff]
      refine ⟨quarterTurn, ?_, rfl⟩
      refine List.mem_map.mpr ⟨⟨sr, s0, s0, sr⟩, by simp [cubicExact], ?_⟩
      simp [Quat.real, quarterTurn, real_sr, real_s0]
    · rw [crystalRotation_iff]
      exact ⟨⟨1, 0, 0, 0⟩, List.mem_of_getElem? (symEqv_table .cubic).head, hone⟩
  · intro p _
    split <;> simp [hone]

end DefDAP
