import Verif.Props.Families

/-! C89: families of hexagonal slip systems. -/

namespace DefDAP

open Quat Matrix

/-- Four indices after a symmetry of the hexagonal prism: the three axes of the base in any order,
all with the same sign `s`, and the axis of the prism with the sign `t`. -/
def Spec.hexVariant (σ : Equiv.Perm (Fin 3)) (s t : Bool) (v : (Fin 3 → Int) × Int) :
    (Fin 3 → Int) × Int :=
  (fun i => Spec.sgn s * v.1 (σ i), Spec.sgn t * v.2)

/-- Four indices as the code keeps them. -/
def Spec.idc4 (v : (Fin 3 → Int) × Int) : List Int := [v.1 0, v.1 1, v.1 2, v.2]

/-- The axes of the base, exactly; `b` tells the conventions for Cartesian axes apart. -/
def hexAxis (b : Bool) (j i : Fin 3) : Surd 3 :=
  if b then
    ![![⟨1, 0⟩, ⟨0, 0⟩, ⟨0, 0⟩], ![⟨-1 / 2, 0⟩, ⟨0, 1 / 2⟩, ⟨0, 0⟩],
      ![⟨-1 / 2, 0⟩, ⟨0, -1 / 2⟩, ⟨0, 0⟩]] j i
  else
    ![![⟨0, 1 / 2⟩, ⟨-1 / 2, 0⟩, ⟨0, 0⟩], ![⟨0, 0⟩, ⟨1, 0⟩, ⟨0, 0⟩],
      ![⟨0, -1 / 2⟩, ⟨-1 / 2, 0⟩, ⟨0, 0⟩]] j i

/-- What the symmetry operator does to the axes. -/
def HexAction (b : Bool) (q : Quat (Surd 3)) (σ : Equiv.Perm (Fin 3)) (s t : Bool) : Prop :=
  (∀ j i, exactRotT q i 0 * hexAxis b (σ j) 0 + exactRotT q i 1 * hexAxis b (σ j) 1 +
      exactRotT q i 2 * hexAxis b (σ j) 2 = surdInt (Spec.sgn s) * hexAxis b j i) ∧
  (∀ j i, exactRotT q 0 i * hexAxis b j 0 + exactRotT q 1 i * hexAxis b j 1 +
      exactRotT q 2 i * hexAxis b j 2 = surdInt (Spec.sgn s) * hexAxis b (σ j) i) ∧
  (∀ i, exactRotT q i 2 = surdInt (if i = 2 then Spec.sgn t else 0)) ∧
  (∀ i, exactRotT q 2 i = surdInt (if i = 2 then Spec.sgn t else 0))

instance (b : Bool) (q : Quat (Surd 3)) (σ : Equiv.Perm (Fin 3)) (s t : Bool) :
    Decidable (HexAction b q σ s t) := by unfold HexAction; infer_instance

theorem hex_signed : ∀ b, ∀ q ∈ hexagonalExact, ∃ σ : Equiv.Perm (Fin 3), ∃ s t : Bool,
    HexAction b q σ s t := by
  decide +kernel

theorem hex_all : ∀ b, ∀ σ : Equiv.Perm (Fin 3), ∀ s t : Bool, ∃ q ∈ hexagonalExact,
    HexAction b q σ s t ∨ HexAction b q σ (!s) (!t) := by
  decide +kernel

/-- The lattice matrix of either convention. -/
noncomputable def hexMat (b : Bool) (ca : ℝ) : Matrix (Fin 3) (Fin 3) ℝ :=
  if b then hexTsl ca else hexHkl ca

/-- The axes of the base. -/
noncomputable def hexAxisR (b : Bool) (j : Fin 3) : Fin 3 → ℝ := fun i => (hexAxis b j i).real

/-- The axis of the prism, of unit length. -/
def prismAxis : Fin 3 → ℝ := ![0, 0, 1]

theorem hexMat_mulVec (b : Bool) (ca : ℝ) (d : Fin 3 → ℝ) (w : ℝ) :
    hexMat b ca *ᵥ ![d 0 - d 2, d 1 - d 2, w] =
      (∑ j, d j • hexAxisR b j) + (w * ca) • prismAxis := by
  have h3 : Real.sqrt 3 = Real.sqrt ((3 : ℕ) : ℝ) := by norm_num
  cases b <;> ext i <;> fin_cases i <;>
    simp [hexMat, hexHkl, hexTsl, hexAxisR, hexAxis, Surd.real, prismAxis, Matrix.mulVec,
      dotProduct, Fin.sum_univ_three] <;> ring

theorem hexMat_transpose (b : Bool) (ca : ℝ) (w : Fin 3 → ℝ) :
    (hexMat b ca)ᵀ *ᵥ w = ![hexAxisR b 0 ⬝ᵥ w, hexAxisR b 1 ⬝ᵥ w, (ca • prismAxis) ⬝ᵥ w] := by
  cases b <;> ext i <;> fin_cases i <;>
    simp [hexMat, hexHkl, hexTsl, hexAxisR, hexAxis, Surd.real, prismAxis, Matrix.mulVec,
      dotProduct, Fin.sum_univ_three] <;> ring

theorem hexAxis_sum (b : Bool) : hexAxisR b 2 = -(hexAxisR b 0 + hexAxisR b 1) := by
  cases b <;> ext i <;> fin_cases i <;>
    simp [hexAxisR, hexAxis, Surd.real] <;> ring

theorem hexMat_det (b : Bool) (ca : ℝ) (h : 0 < ca) : 0 < (hexMat b ca).det := by
  have h3 := Real.sqrt_pos.2 (by norm_num : (0 : ℝ) < 3)
  cases b <;> simp [hexMat, hexHkl, hexTsl, Matrix.det_fin_three] <;> positivity

theorem hexL_mat (dflt : String) (ca : ℝ) (h : 1 / 10 ^ 10 ≤ ca)
    (hd : dflt.toLower = "hkl" ∨ dflt.toLower = "oi" ∨ dflt.toLower = "tsl") :
    ∃ b, hexL dflt ca = .ok (hexMat b ca) := by
  obtain ⟨h1, h2⟩ := hexL_eq dflt ca h
  rcases hd with e | e | e
  · exact ⟨false, h1 (Or.inl e)⟩
  · exact ⟨false, h1 (Or.inr e)⟩
  · exact ⟨true, h2 e⟩

section
variable {b : Bool} {q : Quat (Surd 3)} {σ : Equiv.Perm (Fin 3)} {s t : Bool}

theorem act_axis (h : HexAction b q σ s t) (j : Fin 3) :
    (rotMatrix q.real)ᵀ *ᵥ hexAxisR b (σ j) = (Spec.sgn s : ℝ) • hexAxisR b j := by
  ext i
  have := congrArg Surd.real (h.1 j i)
  rw [Matrix.mulVec, dotProduct, Fin.sum_univ_three, exactRotT_real, exactRotT_real,
    exactRotT_real]
  simpa [Surd.real_add, Surd.real_mul, real_surdInt, hexAxisR] using this

theorem act_axis' (h : HexAction b q σ s t) (j : Fin 3) :
    rotMatrix q.real *ᵥ hexAxisR b j = (Spec.sgn s : ℝ) • hexAxisR b (σ j) := by
  ext i
  have := congrArg Surd.real (h.2.1 j i)
  have e : ∀ k, rotMatrix q.real i k = (exactRotT q k i).real := fun k => exactRotT_real q k i
  rw [Matrix.mulVec, dotProduct, Fin.sum_univ_three, e, e, e]
  simpa [Surd.real_add, Surd.real_mul, real_surdInt, hexAxisR] using this

theorem act_prism (h : HexAction b q σ s t) :
    (rotMatrix q.real)ᵀ *ᵥ prismAxis = (Spec.sgn t : ℝ) • prismAxis := by
  ext i
  have := congrArg Surd.real (h.2.2.1 i)
  rw [Matrix.mulVec, dotProduct, Fin.sum_univ_three, exactRotT_real, exactRotT_real,
    exactRotT_real, this, real_surdInt]
  fin_cases i <;> simp [prismAxis]

theorem act_prism' (h : HexAction b q σ s t) :
    rotMatrix q.real *ᵥ prismAxis = (Spec.sgn t : ℝ) • prismAxis := by
  ext i
  have := congrArg Surd.real (h.2.2.2 i)
  have e : ∀ k, rotMatrix q.real i k = (exactRotT q k i).real := fun k => exactRotT_real q k i
  rw [Matrix.mulVec, dotProduct, Fin.sum_univ_three, e, e, e, this, real_surdInt]
  fin_cases i <;> simp [prismAxis]

/-- A direction under the symmetry. -/
theorem hex_dir (h : HexAction b q σ s t) {ca : ℝ} (hca : 0 < ca) (d : (Fin 3 → Int) × Int) :
    (createQ (hexMat b ca))ᵀ *ᵥ transformVector (conjugate q.real)
        (hexMat b ca *ᵥ ![(d.1 0 : ℝ) - d.1 2, (d.1 1 : ℝ) - d.1 2, (d.2 : ℝ)]) =
      ![((Spec.hexVariant σ s t d).1 0 : ℝ) - (Spec.hexVariant σ s t d).1 2,
        ((Spec.hexVariant σ s t d).1 1 : ℝ) - (Spec.hexVariant σ s t d).1 2,
        ((Spec.hexVariant σ s t d).2 : ℝ)] := by
  have e1 : hexMat b ca *ᵥ ![(d.1 0 : ℝ) - d.1 2, (d.1 1 : ℝ) - d.1 2, (d.2 : ℝ)] = _ :=
    hexMat_mulVec b ca (fun i => (d.1 i : ℝ)) d.2
  have e2 := hexMat_mulVec b ca (fun i => ((Spec.hexVariant σ s t d).1 i : ℝ))
    ((Spec.hexVariant σ s t d).2)
  have e3 : (rotMatrix q.real)ᵀ *ᵥ ((∑ j, (d.1 j : ℝ) • hexAxisR b j) +
      ((d.2 : ℝ) * ca) • prismAxis) = (∑ j, ((Spec.hexVariant σ s t d).1 j : ℝ) • hexAxisR b j) +
      (((Spec.hexVariant σ s t d).2 : ℝ) * ca) • prismAxis := by
    rw [Matrix.mulVec_add, Matrix.mulVec_smul, act_prism h]
    congr 1
    · rw [← Equiv.sum_comp σ (fun j => (d.1 j : ℝ) • hexAxisR b j), Matrix.mulVec_sum]
      refine Finset.sum_congr rfl fun j _ => ?_
      rw [Matrix.mulVec_smul, act_axis h, smul_smul]
      congr 1
      simp [Spec.hexVariant, mul_comm]
    · rw [smul_smul]
      congr 1
      simp only [Spec.hexVariant]
      push_cast
      ring
  rw [conj_matrix, e1, e3, ← e2, Matrix.mulVec_mulVec, (C48_dual _ (hexMat_det b ca hca)).1,
    Matrix.one_mulVec]

/-- A plane under the symmetry. -/
theorem hex_plane (h : HexAction b q σ s t) {ca : ℝ} (hca : 0 < ca) (p : (Fin 3 → Int) × Int)
    (hp : p.1 0 + p.1 1 + p.1 2 = 0) :
    (hexMat b ca)ᵀ *ᵥ transformVector (conjugate q.real)
        (createQ (hexMat b ca) *ᵥ ![(p.1 0 : ℝ), (p.1 1 : ℝ), (p.2 : ℝ)]) =
      ![((Spec.hexVariant σ s t p).1 0 : ℝ), ((Spec.hexVariant σ s t p).1 1 : ℝ),
        ((Spec.hexVariant σ s t p).2 : ℝ)] := by
  have hdet := hexMat_det b ca hca
  set n := createQ (hexMat b ca) *ᵥ ![(p.1 0 : ℝ), (p.1 1 : ℝ), (p.2 : ℝ)] with hn
  have dual := fun d => createQ_dual (hexMat b ca) hdet ![(p.1 0 : ℝ), (p.1 1 : ℝ), (p.2 : ℝ)] d
  have hax : ∀ j, n ⬝ᵥ hexAxisR b j = (p.1 j : ℝ) := by
    have h0 : n ⬝ᵥ hexAxisR b 0 = (p.1 0 : ℝ) := by
      have e := hexMat_mulVec b ca ![1, 0, 0] 0
      have := dual ![1, 0, 0]
      simp [Fin.sum_univ_three] at e this
      rw [e] at this
      rw [hn, this]
    have h1 : n ⬝ᵥ hexAxisR b 1 = (p.1 1 : ℝ) := by
      have e := hexMat_mulVec b ca ![0, 1, 0] 0
      have := dual ![0, 1, 0]
      simp [Fin.sum_univ_three] at e this
      rw [e] at this
      rw [hn, this]
    intro j
    fin_cases j
    · exact h0
    · exact h1
    · show n ⬝ᵥ hexAxisR b 2 = (p.1 2 : ℝ)
      rw [hexAxis_sum, dotProduct_neg, dotProduct_add, h0, h1]
      have : ((p.1 0 + p.1 1 + p.1 2 : Int) : ℝ) = 0 := by rw [hp]; simp
      push_cast at this
      linarith
  have hz : n ⬝ᵥ (ca • prismAxis) = (p.2 : ℝ) := by
    have e := hexMat_mulVec b ca ![0, 0, 0] 1
    have := dual ![0, 0, 1]
    simp [Fin.sum_univ_three] at e this
    rw [e] at this
    rw [hn]
    simpa using this
  have mv : ∀ w : Fin 3 → ℝ, w ⬝ᵥ ((rotMatrix q.real)ᵀ *ᵥ n) = n ⬝ᵥ (rotMatrix q.real *ᵥ w) := by
    intro w
    rw [Matrix.mulVec_transpose, dotProduct_comm, ← Matrix.dotProduct_mulVec]
  rw [conj_matrix, hexMat_transpose, mv, mv, mv, act_axis' h, act_axis' h, Matrix.mulVec_smul,
    act_prism' h, dotProduct_smul, dotProduct_smul, hax, hax, smul_comm, dotProduct_smul, hz]
  simp [Spec.hexVariant]

end

/-- Four indices of a hexagonal plane or direction: the first three add up to zero, they are in
lowest terms, and small enough that no 8-bit number in the code overflows (the indices are cast to
8 bits before `convert_idc` forms `2 * u - v` and `3 * w`). -/
def Spec.HexIdc (v : (Fin 3 → Int) × Int) : Prop :=
  v.1 0 + v.1 1 + v.1 2 = 0 ∧ Spec.Lowest (Spec.idc4 v) ∧ (∀ i j, |v.1 i - v.1 j| ≤ 42) ∧
    |v.2| ≤ 42

/-- All four indices multiplied by the same number. -/
def Spec.scale (g : Nat) (v : (Fin 3 → Int) × Int) : (Fin 3 → Int) × Int :=
  (fun i => g * v.1 i, g * v.2)

/-- The bounds of `Spec.HexIdc`, without lowest terms. -/
def Spec.HexSmall (v : (Fin 3 → Int) × Int) : Prop :=
  v.1 0 + v.1 1 + v.1 2 = 0 ∧ (∀ i j, |v.1 i - v.1 j| ≤ 42) ∧ |v.2| ≤ 42

theorem hexSmall_bound {v : (Fin 3 → Int) × Int} (h : Spec.HexSmall v) :
    ∀ x ∈ Spec.idc4 v, |x| ≤ 42 := by
  obtain ⟨h0, h1, h2⟩ := h
  have a := abs_le.1 (h1 0 1)
  have b := abs_le.1 (h1 0 2)
  have c := abs_le.1 (h1 1 2)
  intro x hx
  simp only [Spec.idc4, List.mem_cons, List.not_mem_nil, or_false] at hx
  rcases hx with rfl | rfl | rfl | rfl
  · rw [abs_le]; omega
  · rw [abs_le]; omega
  · rw [abs_le]; omega
  · exact h2

theorem hexIdc_bound {v : (Fin 3 → Int) × Int} (h : Spec.HexIdc v) :
    ∀ x ∈ Spec.idc4 v, |x| ≤ 42 := hexSmall_bound ⟨h.1, h.2.2⟩

theorem sgn_mul_sgn (s : Bool) (z : Int) : Spec.sgn s * (Spec.sgn s * z) = z := by
  cases s <;> simp [Spec.sgn]

theorem sgn_dvd {d : Int} (s : Bool) {z : Int} : d ∣ Spec.sgn s * z ↔ d ∣ z := by
  cases s <;> simp [Spec.sgn]

theorem abs_sgn_mul (s : Bool) (z : Int) : |Spec.sgn s * z| = |z| := by
  cases s <;> simp [Spec.sgn]

theorem hexIdc_variant {v : (Fin 3 → Int) × Int} (h : Spec.HexIdc v) (σ : Equiv.Perm (Fin 3))
    (s t : Bool) : Spec.HexIdc (Spec.hexVariant σ s t v) := by
  obtain ⟨h0, hl, h1, h2⟩ := h
  refine ⟨?_, ?_, ?_, ?_⟩
  · simp only [Spec.hexVariant]
    rw [← mul_add, ← mul_add]
    have : v.1 (σ 0) + v.1 (σ 1) + v.1 (σ 2) = v.1 0 + v.1 1 + v.1 2 := by
      have := Equiv.sum_comp σ v.1
      rwa [Fin.sum_univ_three, Fin.sum_univ_three] at this
    rw [this, h0, mul_zero]
  · intro d hd
    refine hl d ?_
    have hi : ∀ i, d ∣ v.1 i := by
      intro i
      have : d ∣ Spec.sgn s * v.1 (σ (σ.symm i)) := by
        generalize σ.symm i = j
        fin_cases j <;> exact hd _ (by simp [Spec.idc4, Spec.hexVariant])
      rwa [sgn_dvd, Equiv.apply_symm_apply] at this
    have h3 : d ∣ v.2 := by
      have : d ∣ Spec.sgn t * v.2 := hd _ (by simp [Spec.idc4, Spec.hexVariant])
      rwa [sgn_dvd] at this
    intro x hx
    simp only [Spec.idc4, List.mem_cons, List.not_mem_nil, or_false] at hx
    rcases hx with rfl | rfl | rfl | rfl
    · exact hi 0
    · exact hi 1
    · exact hi 2
    · exact h3
  · intro i j
    simp only [Spec.hexVariant]
    rw [← mul_sub, abs_sgn_mul]
    exact h1 _ _
  · simp only [Spec.hexVariant]
    rw [abs_sgn_mul]
    exact h2

theorem asInts_cast (l : List Int) : asInts (l.map fun (z : Int) => (z : Rat)) = .ok l := by
  unfold asInts
  rw [if_pos (by simp), List.map_map]
  congr 1
  exact (List.map_congr_left fun x _ => by simp).trans (List.map_id _)

theorem hexSmall_variant {v : (Fin 3 → Int) × Int} (h : Spec.HexSmall v) (σ : Equiv.Perm (Fin 3))
    (s t : Bool) : Spec.HexSmall (Spec.hexVariant σ s t v) := by
  obtain ⟨h0, h1, h2⟩ := h
  refine ⟨?_, ?_, ?_⟩
  · simp only [Spec.hexVariant]
    rw [← mul_add, ← mul_add]
    have : v.1 (σ 0) + v.1 (σ 1) + v.1 (σ 2) = v.1 0 + v.1 1 + v.1 2 := by
      have := Equiv.sum_comp σ v.1
      rwa [Fin.sum_univ_three, Fin.sum_univ_three] at this
    rw [this, h0, mul_zero]
  · intro i j
    simp only [Spec.hexVariant]
    rw [← mul_sub, abs_sgn_mul]
    exact h1 _ _
  · simp only [Spec.hexVariant]
    rw [abs_sgn_mul]
    exact h2

theorem variant_scale (σ : Equiv.Perm (Fin 3)) (s t : Bool) (g : Nat) (v : (Fin 3 → Int) × Int) :
    Spec.hexVariant σ s t (Spec.scale g v) = Spec.scale g (Spec.hexVariant σ s t v) := by
  unfold Spec.hexVariant Spec.scale
  ext <;> simp <;> ring

theorem reduce_hex {v : (Fin 3 → Int) × Int} (h : Spec.HexIdc v) (g : Nat) (hg : 0 < g)
    (nan : Int) : reduceIdc nan (Spec.idc4 (Spec.scale g v)) = Spec.idc4 v := by
  have := C51_reduced nan (Spec.idc4 v) g hg h.2.1 (fun x hx => by
    have := abs_le.1 (hexIdc_bound h x hx)
    omega)
  simpa [Spec.idc4, Spec.scale] using this

theorem m_lower : "m".toLower = "m" := by with_unfolding_all rfl
theorem mb_lower : "mb".toLower = "mb" := by with_unfolding_all rfl

theorem backPlane_hex {v : (Fin 3 → Int) × Int} (h : v.1 0 + v.1 1 + v.1 2 = 0) (nan : Int) :
    backPlane nan [v.1 0, v.1 1, v.2] = .ok (reduceIdc nan (Spec.idc4 v)) := by
  unfold backPlane
  have hs : v.1 2 = -(v.1 0 + v.1 1) := by omega
  have e : convertIdc "m" none (some ([v.1 0, v.1 1, v.2].map fun (z : Int) => (z : Rat))) =
      .ok ((Spec.idc4 v).map fun (z : Int) => (z : Rat)) := by
    have := (C49_plane_roundtrip (K := Rat) "m" "mb" m_lower mb_lower (v.1 0) (v.1 1) v.2).1
    simp only [List.map_cons, List.map_nil, Spec.idc4, hs]
    rw [this]
    push_cast
    rfl
  rw [e]
  simp only [Except.bind]
  rw [asInts_cast]

theorem backDir_hex {v : (Fin 3 → Int) × Int} (h : Spec.HexSmall v) (nan : Int) :
    backDir nan [v.1 0 - v.1 2, v.1 1 - v.1 2, v.2] = .ok (reduceIdc nan (Spec.idc4 v)) := by
  unfold backDir
  obtain ⟨d, e1, e2⟩ := C49_dir_roundtrip4 (K := Rat) "m" "mb" m_lower mb_lower (v.1 0) (v.1 1)
    (v.1 2) v.2 h.1 (fun x hx => by
      have := abs_le.1 (hexSmall_bound h x hx)
      omega)
  have e : convertIdc "m" (some ([v.1 0 - v.1 2, v.1 1 - v.1 2, v.2].map
      fun (z : Int) => (z : Rat))) none = .ok ((Spec.idc4 v).map fun (z : Int) => (z : Rat)) := by
    have hd : d = [(v.1 0 : Rat) - v.1 2, (v.1 1 : Rat) - v.1 2, (v.2 : Rat)] := by
      have hne : ¬ ("mb" = "m") := by decide
      simp [convertIdc, convertDir, mb_lower] at e1
      exact e1.symm
    rw [hd] at e2
    simp only [List.map_cons, List.map_nil, Spec.idc4]
    push_cast
    exact e2
  rw [e]
  simp only [Except.bind]
  rw [asInts_cast]

theorem idc4_nonzero {v : (Fin 3 → Int) × Int} (h : Spec.HexIdc v) : ∃ x ∈ Spec.idc4 v, x ≠ 0 := by
  by_contra hc
  push Not at hc
  have := h.2.1 0 (fun x hx => by rw [hc x hx])
  omega

/-- The opposite of four indices. -/
def negIdc (v : (Fin 3 → Int) × Int) : (Fin 3 → Int) × Int := (-v.1, -v.2)

theorem negIdc_variant (v : (Fin 3 → Int) × Int) : negIdc v = Spec.hexVariant 1 true true v := by
  unfold negIdc Spec.hexVariant
  ext <;> simp [Spec.sgn]

theorem idc4_neg (v : (Fin 3 → Int) × Int) :
    Spec.idc4 (negIdc v) = Spec.opposite (Spec.idc4 v) := by
  simp [Spec.idc4, negIdc, Spec.opposite]

/-- A hexagonal slip system as the constructor makes it. -/
def Spec.HexSystem (dflt : String) (ca : ℝ) (x : SlipSystem) : Prop :=
  ∃ p d, Spec.HexIdc p ∧ Spec.HexIdc d ∧
    slipSystem dflt .hexagonal (Spec.idc4 p) (Spec.idc4 d) (some ca) = .ok x

theorem hex_pos {v : (Fin 3 → Int) × Int} (h : Spec.HexIdc v) : ∃ w, Spec.HexIdc w ∧
    posIdc (Spec.idc4 v) = some (Spec.idc4 w) ∧ posIdc (Spec.idc4 w) = posIdc (Spec.idc4 v) := by
  obtain ⟨w, h1, h2, h3⟩ := posIdc_some (idc4_nonzero h)
  rcases h3 with rfl | rfl
  · exact ⟨v, h, h1, rfl⟩
  · refine ⟨negIdc v, negIdc_variant v ▸ hexIdc_variant h _ _ _, ?_, ?_⟩
    · rw [idc4_neg]; exact h1
    · rw [idc4_neg, h1]; exact h2

theorem slipSystem_hex_ok (dflt : String) (ca : ℝ) (b : Bool) (hl : hexL dflt ca = .ok (hexMat b ca))
    (p d : (Fin 3 → Int) × Int) :
    ∃ x, slipSystem dflt .hexagonal (Spec.idc4 p) (Spec.idc4 d) (some ca) = .ok x ∧
      x.planeIdc = Spec.idc4 p ∧ x.dirIdc = Spec.idc4 d ∧ x.cOverA = some ca := by
  have hne : ¬ ("mb" = "m") := by decide
  refine ⟨⟨Spec.idc4 p, Spec.idc4 d,
    unitVec (createQ (hexMat b ca) *ᵥ ![(p.1 0 : ℝ), (p.1 1 : ℝ), (p.2 : ℝ)]),
    unitVec (hexMat b ca *ᵥ ![(d.1 0 : ℝ) - d.1 2, (d.1 1 : ℝ) - d.1 2, (d.2 : ℝ)]), some ca⟩,
    ?_, rfl, rfl, rfl⟩
  unfold slipSystem
  simp only [convertIdc, convertPlane, convertDir, mb_lower, asReals, Spec.idc4, List.map_cons,
    List.map_nil, if_neg hne, if_true, Except.bind, hl, matVec]

theorem member_hex (dflt : String) (ca : ℝ) (b : Bool) (hl : hexL dflt ca = .ok (hexMat b ca))
    {p d : (Fin 3 → Int) × Int} (hp : Spec.HexIdc p) (hd : Spec.HexIdc d) :
    ∃ x, familyMember dflt .hexagonal (some ca) (Spec.idc4 p) (Spec.idc4 d) = .ok x ∧
      Spec.HexSystem dflt ca x ∧ posIdc x.planeIdc = posIdc (Spec.idc4 p) ∧
      posIdc x.dirIdc = posIdc (Spec.idc4 d) := by
  obtain ⟨p', hp', e1, e2⟩ := hex_pos hp
  obtain ⟨d', hd', e3, e4⟩ := hex_pos hd
  obtain ⟨x, hx, i1, i2, -⟩ := slipSystem_hex_ok dflt ca b hl p' d'
  refine ⟨x, ?_, ⟨p', d', hp', hd', hx⟩, ?_, ?_⟩
  · unfold familyMember
    rw [e1, e3]
    exact hx
  · rw [i1]; exact e2
  · rw [i2]; exact e4

theorem cast_small {l : List Int} (h : ∀ x ∈ l, |x| ≤ 127) :
    safeIntCast (l.map fun (z : Int) => (z : ℝ)) = .ok l := by
  rw [safeIntCast_int _ _ (by norm_num)]
  congr 1
  refine (List.map_congr_left fun x hx => ?_).trans (List.map_id _)
  exact int8_small (h x hx)

theorem round_hex (dflt : String) (nan : Int) {ca : ℝ} (hca : 0 < ca) (b : Bool)
    (hl : hexL dflt ca = .ok (hexMat b ca))
    {p d p0 d0 : (Fin 3 → Int) × Int} (hp0 : Spec.HexIdc p0) (hd0 : Spec.HexIdc d0)
    {g k : Nat} (hg : 0 < g) (hk : 0 < k) (ep : p = Spec.scale g p0) (ed : d = Spec.scale k d0)
    (hp : Spec.HexSmall p) (hd : Spec.HexSmall d)
    {q : Quat (Surd 3)} {σ : Equiv.Perm (Fin 3)} {s t : Bool} (h : HexAction b q σ s t) :
    ∃ x, Spec.HexSystem dflt ca x ∧
      posIdc x.planeIdc = posIdc (Spec.idc4 (Spec.hexVariant σ s t p0)) ∧
      posIdc x.dirIdc = posIdc (Spec.idc4 (Spec.hexVariant σ s t d0)) ∧
      ∀ fam, familyHex dflt nan ca (hexMat b ca) (createQ (hexMat b ca))
        (createQ (hexMat b ca) *ᵥ ![(p.1 0 : ℝ), (p.1 1 : ℝ), (p.2 : ℝ)])
        (hexMat b ca *ᵥ ![(d.1 0 : ℝ) - d.1 2, (d.1 1 : ℝ) - d.1 2, (d.2 : ℝ)])
        q.real fam = .ok (familyAdd fam x) := by
  have hp0' := hexIdc_variant hp0 σ s t
  have hd0' := hexIdc_variant hd0 σ s t
  have hp' := hexSmall_variant hp σ s t
  have hd' := hexSmall_variant hd σ s t
  have ep' : Spec.hexVariant σ s t p = Spec.scale g (Spec.hexVariant σ s t p0) := by
    rw [ep, variant_scale]
  have ed' : Spec.hexVariant σ s t d = Spec.scale k (Spec.hexVariant σ s t d0) := by
    rw [ed, variant_scale]
  obtain ⟨x, hx, hgx, e1, e2⟩ := member_hex dflt ca b hl hp0' hd0'
  refine ⟨x, hgx, e1, e2, fun fam => ?_⟩
  unfold familyHex
  rw [hex_plane h hca p hp.1, hex_dir h hca d]
  generalize Spec.hexVariant σ s t p = p' at *
  generalize Spec.hexVariant σ s t d = d' at *
  generalize Spec.hexVariant σ s t p0 = p0' at *
  generalize Spec.hexVariant σ s t d0 = d0' at *
  have bp := hexSmall_bound hp'
  have c1 : safeIntCast (vecList ![(p'.1 0 : ℝ), (p'.1 1 : ℝ), (p'.2 : ℝ)]) =
      .ok [p'.1 0, p'.1 1, p'.2] := by
    have := cast_small (l := [p'.1 0, p'.1 1, p'.2]) (fun x hx => by
      have : |x| ≤ 42 := bp x (by
        simp only [List.mem_cons, List.not_mem_nil, or_false] at hx
        rcases hx with rfl | rfl | rfl <;> simp [Spec.idc4])
      omega)
    simpa [vecList] using this
  have c2 : safeIntCast (vecList ![(d'.1 0 : ℝ) - d'.1 2, (d'.1 1 : ℝ) - d'.1 2, (d'.2 : ℝ)]) =
      .ok [d'.1 0 - d'.1 2, d'.1 1 - d'.1 2, d'.2] := by
    have := cast_small (l := [d'.1 0 - d'.1 2, d'.1 1 - d'.1 2, d'.2]) (fun x hx => by
      have : |x| ≤ 42 := by
        simp only [List.mem_cons, List.not_mem_nil, or_false] at hx
        rcases hx with rfl | rfl | rfl
        · exact hd'.2.1 _ _
        · exact hd'.2.1 _ _
        · exact hd'.2.2
      omega)
    simpa [vecList] using this
  have c3 : ∀ v : (Fin 3 → Int) × Int, Spec.HexIdc v →
      safeIntCast (asReals (Spec.idc4 v)) = .ok (Spec.idc4 v) := by
    intro v hv
    exact cast_small fun x hx => le_trans (hexIdc_bound hv x hx) (by norm_num)
  rw [c1]
  simp only [Except.bind]
  rw [backPlane_hex hp'.1, ep', reduce_hex hp0' g hg]
  simp only
  rw [c2]
  simp only
  rw [backDir_hex hd', ed', reduce_hex hd0' k hk]
  simp only
  rw [c3 _ hp0', c3 _ hd0']
  simp only
  rw [hx]

theorem hexVariant_neg (σ : Equiv.Perm (Fin 3)) (s t : Bool) (v : (Fin 3 → Int) × Int) :
    Spec.hexVariant σ (!s) (!t) v = negIdc (Spec.hexVariant σ s t v) := by
  unfold Spec.hexVariant negIdc
  cases s <;> cases t <;> ext <;> simp [Spec.sgn]

/-- The family of a hexagonal slip system. -/
theorem hex_family (dflt : String) (nan : Int) {ca : ℝ} (hca : 0 < ca) (b : Bool)
    (hl : hexL dflt ca = .ok (hexMat b ca)) (ss : SlipSystem) {p d : (Fin 3 → Int) × Int}
    (hp : Spec.HexIdc p) (hd : Spec.HexIdc d) {g k : Nat} (hg : 0 < g) (hk : 0 < k)
    (hgp : Spec.HexSmall (Spec.scale g p)) (hkd : Spec.HexSmall (Spec.scale k d))
    (h1 : ss.planeIdc = Spec.idc4 (Spec.scale g p)) (h2 : ss.dirIdc = Spec.idc4 (Spec.scale k d)) (h3 : ss.cOverA = some ca) :
    ∃ fam, generateFamily dflt nan .hexagonal ss = .ok fam ∧
      fam.Pairwise (fun a b => slipEq a b = false) ∧
      (∀ g : Equiv.Perm (Fin 3) × Bool × Bool, ∃ x ∈ fam,
        posIdc x.planeIdc = posIdc (Spec.idc4 (Spec.hexVariant g.1 g.2.1 g.2.2 p)) ∧
        posIdc x.dirIdc = posIdc (Spec.idc4 (Spec.hexVariant g.1 g.2.1 g.2.2 d))) ∧
      ∀ x ∈ fam, Spec.HexSystem dflt ca x ∧ ∃ g : Equiv.Perm (Fin 3) × Bool × Bool,
        posIdc x.planeIdc = posIdc (Spec.idc4 (Spec.hexVariant g.1 g.2.1 g.2.2 p)) ∧
        posIdc x.dirIdc = posIdc (Spec.idc4 (Spec.hexVariant g.1 g.2.1 g.2.2 d)) := by
  classical
  have hch : ∀ s : Quat ℝ, ∃ g : Equiv.Perm (Fin 3) × Bool × Bool, s ∈ symEqv .hexagonal →
      ∃ q : Quat (Surd 3), s = q.real ∧ HexAction b q g.1 g.2.1 g.2.2 := by
    intro s
    by_cases hs : s ∈ symEqv .hexagonal
    · obtain ⟨q, hq, rfl⟩ := List.mem_map.1 hs
      obtain ⟨σ, s, t, h⟩ := hex_signed b q hq
      exact ⟨(σ, s, t), fun _ => ⟨q, rfl, h⟩⟩
    · exact ⟨(1, false, false), fun h => absurd h hs⟩
  choose φ hφ using hch
  have hne : ¬ ("mb" = "m") := by decide
  obtain ⟨fam, hf, r⟩ := family_loop (fun g => Spec.idc4 (Spec.hexVariant g.1 g.2.1 g.2.2 p))
    (fun g => Spec.idc4 (Spec.hexVariant g.1 g.2.1 g.2.2 d)) (Spec.HexSystem dflt ca)
    (symEqv .hexagonal)
    (familyHex dflt nan ca (hexMat b ca) (createQ (hexMat b ca))
      (createQ (hexMat b ca) *ᵥ ![((Spec.scale g p).1 0 : ℝ), ((Spec.scale g p).1 1 : ℝ),
        ((Spec.scale g p).2 : ℝ)])
      (hexMat b ca *ᵥ ![((Spec.scale k d).1 0 : ℝ) - (Spec.scale k d).1 2,
        ((Spec.scale k d).1 1 : ℝ) - (Spec.scale k d).1 2, ((Spec.scale k d).2 : ℝ)])) φ (by
      intro s hs
      obtain ⟨q, rfl, hq⟩ := hφ s hs
      exact round_hex dflt nan hca b hl hp hd hg hk rfl rfl hgp hkd hq) (by
      rintro ⟨σ, s, t⟩
      obtain ⟨q, hq, h⟩ := hex_all b σ s t
      have hs : q.real ∈ symEqv .hexagonal := List.mem_map.2 ⟨q, hq, rfl⟩
      refine ⟨q.real, hs, ?_⟩
      obtain ⟨q', e', hq'⟩ := hφ q.real hs
      -- both actions give the same indices, computed by the same round of the loop
      have same : ∀ {σ' s' t'}, HexAction b q σ' s' t' →
          (Spec.idc4 (Spec.hexVariant (φ q.real).1 (φ q.real).2.1 (φ q.real).2.2 p) =
            Spec.idc4 (Spec.hexVariant σ' s' t' p)) ∧
          (Spec.idc4 (Spec.hexVariant (φ q.real).1 (φ q.real).2.1 (φ q.real).2.2 d) =
            Spec.idc4 (Spec.hexVariant σ' s' t' d)) := by
        intro σ' s' t' h'
        have sum0 : ∀ v : (Fin 3 → Int) × Int, Spec.HexIdc v → v.1 2 = -(v.1 0 + v.1 1) := by
          intro v hv; have := hv.1; omega
        have a1 := hex_plane hq' hca p hp.1
        have a2 := hex_plane h' hca p hp.1
        rw [← e', a2] at a1
        have b1 := hex_dir hq' hca d
        have b2 := hex_dir h' hca d
        rw [← e', b2] at b1
        have gp := sum0 _ (hexIdc_variant hp (φ q.real).1 (φ q.real).2.1 (φ q.real).2.2)
        have gp' := sum0 _ (hexIdc_variant hp σ' s' t')
        have gd := sum0 _ (hexIdc_variant hd (φ q.real).1 (φ q.real).2.1 (φ q.real).2.2)
        have gd' := sum0 _ (hexIdc_variant hd σ' s' t')
        generalize Spec.hexVariant (φ q.real).1 (φ q.real).2.1 (φ q.real).2.2 p = x1 at *
        generalize Spec.hexVariant (φ q.real).1 (φ q.real).2.1 (φ q.real).2.2 d = x2 at *
        generalize Spec.hexVariant σ' s' t' p = x3 at *
        generalize Spec.hexVariant σ' s' t' d = x4 at *
        have a10 := congrFun a1 0
        have a11 := congrFun a1 1
        have a12 := congrFun a1 2
        have b10 := congrFun b1 0
        have b11 := congrFun b1 1
        have b12 := congrFun b1 2
        simp only [Matrix.cons_val_zero, Matrix.cons_val_one, Matrix.cons_val] at a10 a11 a12 b10 b11 b12
        norm_cast at a10 a11 a12 b10 b11 b12
        constructor
        · simp only [Spec.idc4, List.cons.injEq, and_true]
          omega
        · simp only [Spec.idc4, List.cons.injEq, and_true]
          omega
      rcases h with h | h
      · obtain ⟨s1, s2⟩ := same h
        exact ⟨by rw [s1], by rw [s2]⟩
      · obtain ⟨s1, s2⟩ := same h
        rw [hexVariant_neg, idc4_neg] at s1 s2
        exact ⟨by rw [s1, posIdc_neg_line], by rw [s2, posIdc_neg_line]⟩)
  refine ⟨fam, ?_, r⟩
  unfold generateFamily
  simp only
  rw [h1, h2, h3]
  simp only [hl, convertIdc, convertPlane, convertDir, mb_lower, asReals, Spec.idc4, List.map_cons,
    List.map_nil, if_neg hne, if_true, Except.bind, matVec]
  exact hf

theorem scale_one (v : (Fin 3 → Int) × Int) : Spec.scale 1 v = v := by
  unfold Spec.scale
  ext <;> simp

theorem hex_family_one (dflt : String) (nan : Int) {ca : ℝ} (hca : 0 < ca) (b : Bool)
    (hl : hexL dflt ca = .ok (hexMat b ca)) (ss : SlipSystem) {p d : (Fin 3 → Int) × Int}
    (hp : Spec.HexIdc p) (hd : Spec.HexIdc d)
    (h1 : ss.planeIdc = Spec.idc4 p) (h2 : ss.dirIdc = Spec.idc4 d) (h3 : ss.cOverA = some ca) :
    ∃ fam, generateFamily dflt nan .hexagonal ss = .ok fam ∧
      fam.Pairwise (fun a b => slipEq a b = false) ∧
      (∀ g : Equiv.Perm (Fin 3) × Bool × Bool, ∃ x ∈ fam,
        posIdc x.planeIdc = posIdc (Spec.idc4 (Spec.hexVariant g.1 g.2.1 g.2.2 p)) ∧
        posIdc x.dirIdc = posIdc (Spec.idc4 (Spec.hexVariant g.1 g.2.1 g.2.2 d))) ∧
      ∀ x ∈ fam, Spec.HexSystem dflt ca x ∧ ∃ g : Equiv.Perm (Fin 3) × Bool × Bool,
        posIdc x.planeIdc = posIdc (Spec.idc4 (Spec.hexVariant g.1 g.2.1 g.2.2 p)) ∧
        posIdc x.dirIdc = posIdc (Spec.idc4 (Spec.hexVariant g.1 g.2.1 g.2.2 d)) :=
  hex_family dflt nan hca b hl ss hp hd (g := 1) (k := 1) (by omega) (by omega)
    (by rw [scale_one]; exact ⟨hp.1, hp.2.2⟩) (by rw [scale_one]; exact ⟨hd.1, hd.2.2⟩)
    (by rw [scale_one]; exact h1) (by rw [scale_one]; exact h2) h3

theorem family_unique {fam : List SlipSystem}
    (hpw : fam.Pairwise (fun a b => slipEq a b = false)) :
    ∀ x ∈ fam, ∀ y ∈ fam, slipEq x y = true → x = y := by
  intro x hx y hy e
  by_contra hne
  haveI : Std.Symm (fun a b : SlipSystem => slipEq a b = false) := ⟨fun a b h => by
    cases h' : slipEq b a with
    | false => rfl
    | true => rw [C54_equivalence.symm h'] at h; cases h⟩
  have := hpw.forall hx hy hne
  rw [this] at e
  cases e

/-- **C89** The family of a hexagonal slip system: for every symmetric variant (the three axes of
the base in any order, with a common sign, and either sign for the axis of the prism; of plane and
direction together) it has exactly one member denoting the same plane and direction up to sign, and
it has no other members. -/
theorem C89_family (dflt : String)
    (hdflt : dflt.toLower = "hkl" ∨ dflt.toLower = "oi" ∨ dflt.toLower = "tsl")
    (nan : Int) (ca : ℝ) (hca : 1 / 10 ^ 10 ≤ ca) (ss : SlipSystem) (p d : (Fin 3 → Int) × Int)
    (hp : Spec.HexIdc p) (hd : Spec.HexIdc d)
    (hss : slipSystem dflt .hexagonal (Spec.idc4 p) (Spec.idc4 d) (some ca) = .ok ss) :
    ∃ fam, generateFamily dflt nan .hexagonal ss = .ok fam ∧
      (∃! x, x ∈ fam ∧ slipEq x ss = true) ∧
      (∀ (σ : Equiv.Perm (Fin 3)) (s t : Bool), ∃! x, x ∈ fam ∧
        Spec.SameLine x.planeIdc (Spec.idc4 (Spec.hexVariant σ s t p)) ∧
        Spec.SameLine x.dirIdc (Spec.idc4 (Spec.hexVariant σ s t d))) ∧
      (∀ x ∈ fam, Spec.HexSystem dflt ca x ∧ ∃ (σ : Equiv.Perm (Fin 3)) (s t : Bool),
        Spec.SameLine x.planeIdc (Spec.idc4 (Spec.hexVariant σ s t p)) ∧
        Spec.SameLine x.dirIdc (Spec.idc4 (Spec.hexVariant σ s t d))) ∧
      fam.Nodup := by
  have hpos : (0 : ℝ) < ca := lt_of_lt_of_le (by positivity) hca
  obtain ⟨b, hl⟩ := hexL_mat dflt ca hca hdflt
  obtain ⟨x0, hx0, i1, i2, i3⟩ := slipSystem_hex_ok dflt ca b hl p d
  rw [hss] at hx0
  cases hx0
  obtain ⟨fam, hf, hpw, ha, hm⟩ := hex_family_one dflt nan hpos b hl ss hp hd i1 i2 i3
  have uniq := family_unique hpw
  have eq1 : ∀ (σ : Equiv.Perm (Fin 3)) (s t : Bool), ∃! x, x ∈ fam ∧
        Spec.SameLine x.planeIdc (Spec.idc4 (Spec.hexVariant σ s t p)) ∧
        Spec.SameLine x.dirIdc (Spec.idc4 (Spec.hexVariant σ s t d)) := by
    intro σ s t
    obtain ⟨x, hx, e1, e2⟩ := ha (σ, s, t)
    refine ⟨x, ⟨hx, (posIdc_eq_iff _ _).1 e1, (posIdc_eq_iff _ _).1 e2⟩, ?_⟩
    rintro y ⟨hy, e3, e4⟩
    refine uniq y hy x hx ((slipEq_iff _ _).2 ⟨?_, ?_⟩)
    · rw [(posIdc_eq_iff _ _).2 e3, e1]
    · rw [(posIdc_eq_iff _ _).2 e4, e2]
  refine ⟨fam, hf, ?_, eq1, ?_, ?_⟩
  · obtain ⟨x, ⟨hx, e1, e2⟩, hu⟩ := eq1 1 false false
    have hid : ∀ v, Spec.hexVariant 1 false false v = v := by
      intro v; ext <;> simp [Spec.hexVariant, Spec.sgn]
    rw [hid] at e1 e2
    refine ⟨x, ⟨hx, (C54_equal _ _).2 ⟨i1 ▸ e1, i2 ▸ e2⟩⟩, ?_⟩
    rintro y ⟨hy, e⟩
    refine hu y ⟨hy, ?_⟩
    rw [hid, hid, ← i1, ← i2]
    exact (C54_equal _ _).1 e
  · intro x hx
    obtain ⟨hg, g, e1, e2⟩ := hm x hx
    exact ⟨hg, g.1, g.2.1, g.2.2, (posIdc_eq_iff _ _).1 e1, (posIdc_eq_iff _ _).1 e2⟩
  · refine hpw.imp ?_
    intro a b h e
    rw [e, C54_equivalence.refl] at h
    cases h

theorem hexVariant_comp (σ τ : Equiv.Perm (Fin 3)) (s t s' t' : Bool) (v : (Fin 3 → Int) × Int) :
    Spec.hexVariant σ s t (Spec.hexVariant τ s' t' v) =
      Spec.hexVariant (σ.trans τ) (s.xor s') (t.xor t') v := by
  unfold Spec.hexVariant
  cases s <;> cases s' <;> cases t <;> cases t' <;> ext <;> simp [Spec.sgn]

theorem hexVariant_reach (σ τ : Equiv.Perm (Fin 3)) (s t s' t' : Bool) (v : (Fin 3 → Int) × Int) :
    Spec.hexVariant (σ.trans τ.symm) (s.xor s') (t.xor t') (Spec.hexVariant τ s' t' v) =
      Spec.hexVariant σ s t v := by
  unfold Spec.hexVariant
  cases s <;> cases s' <;> cases t <;> cases t' <;> ext <;> simp [Spec.sgn]

theorem idc4_injective {v w : (Fin 3 → Int) × Int} (h : Spec.idc4 v = Spec.idc4 w) : v = w := by
  simp only [Spec.idc4, List.cons.injEq, and_true] at h
  refine Prod.ext (funext fun i => ?_) h.2.2.2
  fin_cases i
  · exact h.1
  · exact h.2.1
  · exact h.2.2.1

theorem hexVariant_line (σ : Equiv.Perm (Fin 3)) (s t : Bool) {v w : (Fin 3 → Int) × Int}
    (hv : Spec.HexIdc v) (h : posIdc (Spec.idc4 v) = posIdc (Spec.idc4 w)) :
    posIdc (Spec.idc4 (Spec.hexVariant σ s t v)) =
      posIdc (Spec.idc4 (Spec.hexVariant σ s t w)) := by
  rcases (C50_same_line _ _ (idc4_nonzero hv)).1 h with e | e
  · rw [idc4_injective e]
  · rw [← idc4_neg] at e
    rw [idc4_injective e]
    have : Spec.hexVariant σ s t (negIdc w) = negIdc (Spec.hexVariant σ s t w) := by
      unfold Spec.hexVariant negIdc
      ext <;> simp
    rw [this, idc4_neg, posIdc_neg_line]

/-- **C89** The family is the same set whichever member it is generated from. -/
theorem C89_same (dflt : String)
    (hdflt : dflt.toLower = "hkl" ∨ dflt.toLower = "oi" ∨ dflt.toLower = "tsl")
    (nan : Int) (ca : ℝ) (hca : 1 / 10 ^ 10 ≤ ca) (ss : SlipSystem) (p d : (Fin 3 → Int) × Int)
    (hp : Spec.HexIdc p) (hd : Spec.HexIdc d)
    (hss : slipSystem dflt .hexagonal (Spec.idc4 p) (Spec.idc4 d) (some ca) = .ok ss)
    (fam : List SlipSystem) (hfam : generateFamily dflt nan .hexagonal ss = .ok fam)
    (x : SlipSystem) (hx : x ∈ fam) :
    ∃ fam', generateFamily dflt nan .hexagonal x = .ok fam' ∧ Spec.SameFamily fam fam' := by
  have hpos : (0 : ℝ) < ca := lt_of_lt_of_le (by positivity) hca
  obtain ⟨b, hl⟩ := hexL_mat dflt ca hca hdflt
  obtain ⟨x0, hx0, i1, i2, i3⟩ := slipSystem_hex_ok dflt ca b hl p d
  rw [hss] at hx0
  cases hx0
  obtain ⟨fam0, hf, hpw, ha, hm⟩ := hex_family_one dflt nan hpos b hl ss hp hd i1 i2 i3
  rw [hfam] at hf
  cases hf
  obtain ⟨⟨p', d', hp', hd', hs⟩, ⟨τ, s', t'⟩, e1, e2⟩ := hm x hx
  obtain ⟨x1, hx1, j1, j2, j3⟩ := slipSystem_hex_ok dflt ca b hl p' d'
  rw [hs] at hx1
  cases hx1
  obtain ⟨fam', hf', -, ha', hm'⟩ := hex_family_one dflt nan hpos b hl x hp' hd' j1 j2 j3
  refine ⟨fam', hf', ?_, ?_⟩
  · intro y hy
    obtain ⟨-, ⟨σ, s, t⟩, e3, e4⟩ := hm y hy
    obtain ⟨z, hz, e5, e6⟩ := ha' (σ.trans τ.symm, s.xor s', t.xor t')
    refine ⟨z, hz, (slipEq_iff _ _).2 ⟨?_, ?_⟩⟩
    · rw [e3, e5, hexVariant_line _ _ _ hp' (j1 ▸ e1), hexVariant_reach]
    · rw [e4, e6, hexVariant_line _ _ _ hd' (j2 ▸ e2), hexVariant_reach]
  · intro y hy
    obtain ⟨-, ⟨σ, s, t⟩, e3, e4⟩ := hm' y hy
    obtain ⟨z, hz, e5, e6⟩ := ha (σ.trans τ, s.xor s', t.xor t')
    refine ⟨z, hz, (slipEq_iff _ _).2 ⟨?_, ?_⟩⟩
    · rw [e3, e5, hexVariant_line _ _ _ hp' (j1 ▸ e1), hexVariant_comp]
    · rw [e4, e6, hexVariant_line _ _ _ hd' (j2 ▸ e2), hexVariant_comp]

/-- **C89** Indices that are not in lowest terms: the family is that of the reduced indices. -/
theorem C89_reduced (dflt : String)
    (hdflt : dflt.toLower = "hkl" ∨ dflt.toLower = "oi" ∨ dflt.toLower = "tsl")
    (nan : Int) (ca : ℝ) (hca : 1 / 10 ^ 10 ≤ ca) (p d : (Fin 3 → Int) × Int)
    (hp : Spec.HexIdc p) (hd : Spec.HexIdc d) (g k : Nat) (hg : 0 < g) (hk : 0 < k)
    (hgp : Spec.HexSmall (Spec.scale g p)) (hkd : Spec.HexSmall (Spec.scale k d))
    (s0 s1 : SlipSystem)
    (hs0 : slipSystem dflt .hexagonal (Spec.idc4 p) (Spec.idc4 d) (some ca) = .ok s0)
    (hs1 : slipSystem dflt .hexagonal (Spec.idc4 (Spec.scale g p)) (Spec.idc4 (Spec.scale k d))
      (some ca) = .ok s1) :
    ∃ f0 f1, generateFamily dflt nan .hexagonal s0 = .ok f0 ∧
      generateFamily dflt nan .hexagonal s1 = .ok f1 ∧ Spec.SameFamily f0 f1 := by
  have hpos : (0 : ℝ) < ca := lt_of_lt_of_le (by positivity) hca
  obtain ⟨b, hl⟩ := hexL_mat dflt ca hca hdflt
  obtain ⟨x0, hx0, i1, i2, i3⟩ := slipSystem_hex_ok dflt ca b hl p d
  rw [hs0] at hx0
  cases hx0
  obtain ⟨x1, hx1, j1, j2, j3⟩ := slipSystem_hex_ok dflt ca b hl (Spec.scale g p) (Spec.scale k d)
  rw [hs1] at hx1
  cases hx1
  obtain ⟨f0, hf0, -, a0, m0⟩ := hex_family_one dflt nan hpos b hl s0 hp hd i1 i2 i3
  obtain ⟨f1, hf1, -, a1, m1⟩ := hex_family dflt nan hpos b hl s1 hp hd hg hk hgp hkd j1 j2 j3
  refine ⟨f0, f1, hf0, hf1, ?_, ?_⟩
  · intro x hx
    obtain ⟨-, v, e1, e2⟩ := m0 x hx
    obtain ⟨y, hy, e3, e4⟩ := a1 v
    exact ⟨y, hy, (slipEq_iff _ _).2 ⟨by rw [e1, e3], by rw [e2, e4]⟩⟩
  · intro x hx
    obtain ⟨-, v, e1, e2⟩ := m1 x hx
    obtain ⟨y, hy, e3, e4⟩ := a0 v
    exact ⟨y, hy, (slipEq_iff _ _).2 ⟨by rw [e1, e3], by rw [e2, e4]⟩⟩

theorem hexIdc_basal : Spec.HexIdc (![0, 0, 0], 1) ∧ Spec.HexIdc (![1, 1, -2], 0) := by
  refine ⟨⟨by simp, fun d h => ?_, fun i j => ?_, by simp⟩, ⟨by simp, fun d h => ?_, fun i j => ?_, by simp⟩⟩
  · have : d ∣ 1 := h 1 (by simp [Spec.idc4])
    rcases Int.isUnit_iff.1 (isUnit_of_dvd_one this) with e | e <;> simp [e]
  · fin_cases i <;> fin_cases j <;> simp
  · have : d ∣ 1 := h 1 (by simp [Spec.idc4])
    rcases Int.isUnit_iff.1 (isUnit_of_dvd_one this) with e | e <;> simp [e]
  · fin_cases i <;> fin_cases j <;> simp

/-- **C89** So a slip system given with indices that are not in lowest terms is not in its own
family: basal slip written as (0002)[11-20]. -/
theorem C89_not_reduced (dflt : String)
    (hdflt : dflt.toLower = "hkl" ∨ dflt.toLower = "oi" ∨ dflt.toLower = "tsl")
    (nan : Int) (ca : ℝ) (hca : 1 / 10 ^ 10 ≤ ca) : ∃ ss fam,
    slipSystem dflt .hexagonal [0, 0, 0, 2] [1, 1, -2, 0] (some ca) = .ok ss ∧
    generateFamily dflt nan .hexagonal ss = .ok fam ∧ ∀ x ∈ fam, slipEq x ss = false := by
  have hpos : (0 : ℝ) < ca := lt_of_lt_of_le (by positivity) hca
  obtain ⟨b, hl⟩ := hexL_mat dflt ca hca hdflt
  have e2 : Spec.scale 2 (![0, 0, 0], 1) = (![0, 0, 0], 2) := by
    unfold Spec.scale
    ext i
    · fin_cases i <;> simp
    · simp
  obtain ⟨ss, hs, i1, i2, i3⟩ := slipSystem_hex_ok dflt ca b hl (![0, 0, 0], 2) (![1, 1, -2], 0)
  obtain ⟨fam, hf, -, -, hm⟩ := hex_family dflt nan hpos b hl ss hexIdc_basal.1 hexIdc_basal.2
    (g := 2) (k := 1) (by omega) (by omega)
    (by
      rw [e2]
      refine ⟨by simp, fun i j => ?_, by simp⟩
      fin_cases i <;> fin_cases j <;> simp)
    (by rw [scale_one]; exact ⟨hexIdc_basal.2.1, hexIdc_basal.2.2.2⟩)
    (by rw [e2]; exact i1) (by rw [scale_one]; exact i2) i3
  refine ⟨ss, fam, hs, hf, fun x hx => ?_⟩
  obtain ⟨-, ⟨σ, s, t⟩, e1, -⟩ := hm x hx
  cases h : slipEq x ss with
  | false => rfl
  | true =>
    have h' := ((slipEq_iff _ _).1 h).1
    rw [e1, i1] at h'
    exfalso
    simp only at h'
    have hz : ∀ j : Fin 3, (![0, 0, 0] : Fin 3 → Int) j = 0 := by intro j; fin_cases j <;> rfl
    cases t <;> simp [Spec.idc4, Spec.hexVariant, hz, Spec.sgn, posIdc, posIdcLoop] at h'

end DefDAP
