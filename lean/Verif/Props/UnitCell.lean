import Verif.Model.UnitCell
import Verif.Props.EquivIdc
import Verif.Props.QuatEuler

/-! C105: the plot of the unit cell. -/

namespace DefDAP

open Quat Matrix

/-- What is drawn at the corners. -/
theorem cell_corner (g : SymGroup) (oi : Bool) (q : Quat ℝ) (x : Fin 3 → ℝ) :
    x ∈ (unitCell g oi q).flatten ↔ x ∈ cellPoints g oi q := by
  have hl : (cellPoints g oi q).length = match g with | .cubic => 8 | .hexagonal => 12 := by
    unfold cellPoints
    rw [List.length_map]
    cases g <;> rfl
  have h1 : ∀ k ∈ (cellFaces g).flatten, k < (cellPoints g oi q).length := by
    rw [hl]; cases g <;> decide
  have h2 : ∀ k, k < (cellPoints g oi q).length → k ∈ (cellFaces g).flatten := by
    rw [hl]; cases g <;> decide
  unfold unitCell
  constructor
  · intro h
    obtain ⟨f, hf, hx⟩ := List.mem_flatten.1 h
    obtain ⟨f', hf', rfl⟩ := List.mem_map.1 hf
    obtain ⟨k, hk, rfl⟩ := List.mem_map.1 hx
    have := h1 k (List.mem_flatten.2 ⟨f', hf', hk⟩)
    rw [List.getD_eq_getElem?_getD, List.getElem?_eq_getElem this]
    exact List.getElem_mem this
  · intro h
    obtain ⟨k, hk, rfl⟩ := List.mem_iff_getElem.1 h
    obtain ⟨f, hf, hkf⟩ := List.mem_flatten.1 (h2 k hk)
    refine List.mem_flatten.2 ⟨_, List.mem_map_of_mem hf, List.mem_map.2 ⟨k, hkf, ?_⟩⟩
    rw [List.getD_eq_getElem?_getD, List.getElem?_eq_getElem hk]; rfl

theorem half_cases {x : ℝ} : |x| = 1 / 2 ↔ x = -0.5 ∨ x = 0.5 := by
  rw [abs_eq (by norm_num)]
  norm_num
  tauto

theorem cube_vert (v : Fin 3 → ℝ) : v ∈ cubicVerts ↔ ∀ i, |v i| = 1 / 2 := by
  constructor
  · intro h
    simp only [cubicVerts, List.mem_cons, List.not_mem_nil, or_false] at h
    rcases h with rfl | rfl | rfl | rfl | rfl | rfl | rfl | rfl <;> intro i <;> fin_cases i <;>
      rw [half_cases] <;> simp
  · intro h
    have e : v = ![v 0, v 1, v 2] := by funext i; fin_cases i <;> rfl
    rw [e]
    rcases half_cases.1 (h 0) with h0 | h0 <;> rcases half_cases.1 (h 1) with h1 | h1 <;>
      rcases half_cases.1 (h 2) with h2 | h2 <;> rw [h0, h1, h2] <;> simp [cubicVerts]

theorem rot_back {q : Quat ℝ} (hq : q.IsUnit) {x y : Fin 3 → ℝ} :
    x = (rotMatrix q)ᵀ *ᵥ y ↔ rotMatrix q *ᵥ x = y := by
  obtain ⟨h1, h2, -⟩ := C36_rotation q hq
  constructor
  · rintro rfl; rw [mulVec_mulVec, h1, one_mulVec]
  · rintro rfl; rw [mulVec_mulVec, h2, one_mulVec]

/-- **C105** The cell of a cubic crystal: a point is a corner exactly if, in the axes of the crystal, it is a
corner of a cube around the origin with the edges along the axes. -/
theorem C105_cubic (oi : Bool) (q : Quat ℝ) (hq : q.IsUnit) (x : Fin 3 → ℝ) :
    x ∈ (unitCell .cubic oi q).flatten ↔ ∀ i, |(rotMatrix q *ᵥ x) i| = 0.25 / 2 := by
  rw [cell_corner]
  simp only [cellPoints, cellVerts, cellMatrix, cellSize, List.mem_map]
  constructor
  · rintro ⟨v, hv, rfl⟩ i
    rw [mulVec_smul, (rot_back hq).1 rfl, Pi.smul_apply, smul_eq_mul, abs_mul, (cube_vert v).1 hv i]
    norm_num [abs_of_pos]
  · intro h
    refine ⟨(4 : ℝ) • (rotMatrix q *ᵥ x), (cube_vert _).2 fun i => ?_, ?_⟩
    · rw [Pi.smul_apply, smul_eq_mul, abs_mul, h i]
      norm_num [abs_of_pos]
    · rw [mulVec_smul, smul_smul, ← (rot_back hq).2 rfl]
      norm_num

/-! ### The hexagonal prism -/

/-- A corner of the prism with the axes of the base `a` and the height `h`. -/
def Spec.PrismCorner (a : Fin 3 → Fin 3 → ℝ) (c : Fin 3 → ℝ) (y : Fin 3 → ℝ) : Prop :=
  ∃ j, ∃ s t : Bool, y = (Spec.sgn s : ℝ) • a j + ((Spec.sgn t : ℝ) / 2) • c

theorem hex_vert (v : Fin 3 → ℝ) :
    v ∈ hexVerts ↔ Spec.PrismCorner (hexAxisR true) ((1.633 : ℝ) • prismAxis) v := by
  have ax : hexAxisR true = ![![1, 0, 0], ![-0.5, Real.sqrt 3 / 2, 0], ![-0.5, -(Real.sqrt 3 / 2), 0]] := by
    funext j i
    fin_cases j <;> fin_cases i <;> simp [hexAxisR, hexAxis, Surd.real] <;> norm_num <;> ring
  have pr : ∀ t : Bool, ((Spec.sgn t : ℝ) / 2) • ((1.633 : ℝ) • prismAxis) =
      ![0, 0, if t then -cellRatio else cellRatio] := by
    intro t
    funext i
    cases t <;> fin_cases i <;> simp [prismAxis, Spec.sgn, cellRatio] <;> norm_num
  unfold Spec.PrismCorner
  simp only [pr, ax]
  constructor
  · intro h
    simp only [hexVerts, List.mem_cons, List.not_mem_nil, or_false] at h
    rcases h with rfl | rfl | rfl | rfl | rfl | rfl | rfl | rfl | rfl | rfl | rfl | rfl
    · exact ⟨0, false, true, by funext i; fin_cases i <;> simp [Spec.sgn]⟩
    · exact ⟨2, true, true, by funext i; fin_cases i <;> simp [Spec.sgn]⟩
    · exact ⟨1, false, true, by funext i; fin_cases i <;> simp [Spec.sgn]⟩
    · exact ⟨0, true, true, by funext i; fin_cases i <;> simp [Spec.sgn]⟩
    · exact ⟨2, false, true, by funext i; fin_cases i <;> simp [Spec.sgn]⟩
    · exact ⟨1, true, true, by funext i; fin_cases i <;> simp [Spec.sgn]⟩
    · exact ⟨0, false, false, by funext i; fin_cases i <;> simp [Spec.sgn]⟩
    · exact ⟨2, true, false, by funext i; fin_cases i <;> simp [Spec.sgn]⟩
    · exact ⟨1, false, false, by funext i; fin_cases i <;> simp [Spec.sgn]⟩
    · exact ⟨0, true, false, by funext i; fin_cases i <;> simp [Spec.sgn]⟩
    · exact ⟨2, false, false, by funext i; fin_cases i <;> simp [Spec.sgn]⟩
    · exact ⟨1, true, false, by funext i; fin_cases i <;> simp [Spec.sgn]⟩
  · rintro ⟨j, s, t, rfl⟩
    have e : ∀ w : Fin 3 → ℝ, w = ![w 0, w 1, w 2] := fun w => by funext i; fin_cases i <;> rfl
    rw [e (_ + _)]
    fin_cases j <;> cases s <;> cases t <;> simp [Spec.sgn, hexVerts]

/-- Turning about the axis of the prism by 30 degrees. -/
noncomputable def turn30 : Matrix (Fin 3) (Fin 3) ℝ :=
  !![Real.sqrt 3 / 2, -(1 / 2), 0; 1 / 2, Real.sqrt 3 / 2, 0; 0, 0, 1]

theorem fromEuler_turn (a b c : ℝ) :
    rotMatrix (fromEuler a b (c + Real.pi / 6)) = turn30ᵀ * rotMatrix (fromEuler a b c) := by
  have e : eulerRaw a b (c + Real.pi / 6) =
      mulRaw ⟨Real.cos (Real.pi / 6 / 2), 0, 0, -Real.sin (Real.pi / 6 / 2)⟩ (eulerRaw a b c) := by
    have h1 : (a + (c + Real.pi / 6)) / 2 = (a + c) / 2 + Real.pi / 6 / 2 := by ring
    have h2 : (a - (c + Real.pi / 6)) / 2 = (a - c) / 2 - Real.pi / 6 / 2 := by ring
    simp only [eulerRaw, mulRaw, h1, h2, Real.cos_add, Real.sin_add, Real.cos_sub, Real.sin_sub]
    congr 1 <;> ring
  rw [fromEuler_eq, fromEuler_eq, rotMatrix_make, rotMatrix_make, e, rotMatrix_mulRaw]
  congr 1
  have c1 : Real.cos (Real.pi / 6 / 2) ^ 2 - Real.sin (Real.pi / 6 / 2) ^ 2 = Real.sqrt 3 / 2 := by
    rw [← Real.cos_two_mul', ← Real.cos_pi_div_six]; ring_nf
  have c2 : 2 * Real.sin (Real.pi / 6 / 2) * Real.cos (Real.pi / 6 / 2) = 1 / 2 := by
    rw [← Real.sin_two_mul, ← Real.sin_pi_div_six]; ring_nf
  have c3 := Real.sin_sq_add_cos_sq (Real.pi / 6 / 2)
  ext i j
  fin_cases i <;> fin_cases j <;> simp [rotMatrix, turn30, Matrix.transpose] <;> linarith

theorem turn_back (y : Fin 3 → ℝ) : turn30ᵀ *ᵥ (turn30 *ᵥ y) = y := by
  have h33 : Real.sqrt 3 * Real.sqrt 3 = 3 := Real.mul_self_sqrt (by norm_num)
  funext i
  fin_cases i <;> simp [turn30, mulVec, dotProduct, Fin.sum_univ_three, Matrix.transpose]
  · linear_combination (y 0 / 4) * h33
  · linear_combination (y 1 / 4) * h33

theorem turn_fwd (y : Fin 3 → ℝ) : turn30 *ᵥ (turn30ᵀ *ᵥ y) = y := by
  have h33 : Real.sqrt 3 * Real.sqrt 3 = 3 := Real.mul_self_sqrt (by norm_num)
  funext i
  fin_cases i <;> simp [turn30, mulVec, dotProduct, Fin.sum_univ_three, Matrix.transpose]
  · linear_combination (y 0 / 4) * h33
  · linear_combination (y 1 / 4) * h33

theorem turn_prism : turn30 *ᵥ prismAxis = prismAxis := by
  funext i
  fin_cases i <;> simp [turn30, prismAxis, mulVec, dotProduct, Fin.sum_univ_three]

/-- The axes of one convention go to those of the other, or their opposites. -/
theorem turn_axes : turn30 *ᵥ hexAxisR true 0 = (-1 : ℝ) • hexAxisR false 2 ∧
    turn30 *ᵥ hexAxisR true 1 = (-1 : ℝ) • hexAxisR false 0 ∧
    turn30 *ᵥ hexAxisR true 2 = (-1 : ℝ) • hexAxisR false 1 := by
  have h33 : Real.sqrt 3 * Real.sqrt 3 = 3 := Real.mul_self_sqrt (by norm_num)
  refine ⟨?_, ?_, ?_⟩ <;> funext i <;> fin_cases i <;>
    simp [turn30, hexAxisR, hexAxis, Surd.real, mulVec, dotProduct, Fin.sum_univ_three] <;> nlinarith

theorem turn_axis (y : Fin 3 → ℝ) (c : ℝ) :
    Spec.PrismCorner (hexAxisR true) (c • prismAxis) y ↔
      Spec.PrismCorner (hexAxisR false) (c • prismAxis) (turn30 *ᵥ y) := by
  obtain ⟨h0, h1, h2⟩ := turn_axes
  have key : ∀ (j k : Fin 3), turn30 *ᵥ hexAxisR true j = (-1 : ℝ) • hexAxisR false k → ∀ s t : Bool,
      turn30 *ᵥ ((Spec.sgn s : ℝ) • hexAxisR true j + ((Spec.sgn t : ℝ) / 2) • c • prismAxis) =
        (Spec.sgn (!s) : ℝ) • hexAxisR false k + ((Spec.sgn t : ℝ) / 2) • c • prismAxis := by
    intro j k h s t
    rw [mulVec_add, mulVec_smul, mulVec_smul, mulVec_smul, turn_prism, h, smul_smul]
    cases s <;> simp [Spec.sgn]
  constructor
  · rintro ⟨j, s, t, rfl⟩
    fin_cases j
    · exact ⟨2, _, _, key 0 2 h0 s t⟩
    · exact ⟨0, _, _, key 1 0 h1 s t⟩
    · exact ⟨1, _, _, key 2 1 h2 s t⟩
  · rintro ⟨k, s, t, e⟩
    have back : ∀ j, turn30 *ᵥ hexAxisR true j = (-1 : ℝ) • hexAxisR false k →
        y = (Spec.sgn (!s) : ℝ) • hexAxisR true j + ((Spec.sgn t : ℝ) / 2) • c • prismAxis := by
      intro j h
      have := key j k h (!s) t
      rw [Bool.not_not, ← e] at this
      rw [← turn_back y, ← this, turn_back]
    fin_cases k
    · exact ⟨1, _, _, back 1 h1⟩
    · exact ⟨2, _, _, back 2 h2⟩
    · exact ⟨0, _, _, back 0 h0⟩

theorem cellMatrix_oi {q : Quat ℝ} (hq : q.IsUnit) :
    cellMatrix .hexagonal true q = (rotMatrix q)ᵀ * turn30 := by
  have := (C37_roundtrip q hq).2.2
  simp only [cellMatrix, if_true, fromEuler_turn]
  rw [this, transpose_mul, transpose_transpose]

/-- The corners in the axes of the crystal. -/
theorem hex_corners (oi : Bool) (q : Quat ℝ) (hq : q.IsUnit) (x : Fin 3 → ℝ) :
    x ∈ (unitCell .hexagonal oi q).flatten ↔ ∃ y, Spec.PrismCorner (hexAxisR !oi) ((1.633 : ℝ) • prismAxis) y ∧
      rotMatrix q *ᵥ x = (0.18 : ℝ) • y := by
  rw [cell_corner]
  simp only [cellPoints, cellVerts, cellSize, List.mem_map, hex_vert]
  cases oi
  · simp only [Bool.not_false]
    refine exists_congr fun y => and_congr_right fun _ => ?_
    rw [← rot_back hq, mulVec_smul]
    exact eq_comm
  · simp only [Bool.not_true, cellMatrix_oi hq]
    constructor
    · rintro ⟨v, hv, rfl⟩
      refine ⟨_, (turn_axis v _).1 hv, ?_⟩
      rw [← rot_back hq, mulVec_smul, mulVec_mulVec]
    · rintro ⟨y, hy, e⟩
      refine ⟨turn30ᵀ *ᵥ y, ?_, ?_⟩
      · rw [turn_axis, turn_fwd]; exact hy
      · rw [← mulVec_mulVec, turn_fwd, ← mulVec_smul]
        exact ((rot_back hq).2 e).symm

/-- The lattice vectors of the base. -/
def Spec.baseVec (l : Matrix (Fin 3) (Fin 3) ℝ) : Fin 3 → Fin 3 → ℝ :=
  ![fun i => l i 0, fun i => l i 1, fun i => -(l i 0 + l i 1)]

theorem baseVec_hex (b : Bool) (ca : ℝ) : Spec.baseVec (hexMat b ca) = hexAxisR b ∧
    (fun i => hexMat b ca i 2) = ca • prismAxis := by
  constructor
  · funext j i
    cases b <;> fin_cases j <;> fin_cases i <;>
      simp [Spec.baseVec, hexMat, hexHkl, hexTsl, hexAxisR, hexAxis, Surd.real] <;> ring
  · funext i
    cases b <;> fin_cases i <;> simp [hexMat, hexHkl, hexTsl, prismAxis]

/-- **C105** The cell of a hexagonal crystal: a point is a corner exactly if, in the axes of the crystal, it is a
lattice vector of the base or its opposite, up or down by half of the third lattice vector, for the ideal ratio of
the lattice parameters. The option for the software has to match the convention for the axes. -/
theorem C105_hexagonal (dflt : String) (oi : Bool)
    (hd : if oi then dflt.toLower = "hkl" ∨ dflt.toLower = "oi" else dflt.toLower = "tsl")
    (q : Quat ℝ) (hq : q.IsUnit) (x : Fin 3 → ℝ) :
    ∃ l, hexL dflt 1.633 = .ok l ∧ (x ∈ (unitCell .hexagonal oi q).flatten ↔
      ∃ y, Spec.PrismCorner (Spec.baseVec l) (fun i => l i 2) y ∧ rotMatrix q *ᵥ x = (0.18 : ℝ) • y) := by
  have h := hexL_eq dflt 1.633 (by norm_num)
  refine ⟨hexMat (!oi) 1.633, ?_, ?_⟩
  · cases oi
    · exact h.2 (by simpa using hd)
    · exact h.1 (by simpa using hd)
  · rw [(baseVec_hex _ _).1, (baseVec_hex _ _).2]
    exact hex_corners oi q hq x

theorem prism_not_both {y : Fin 3 → ℝ} {c : Fin 3 → ℝ} (hc : c 0 = 0)
    (h : Spec.PrismCorner (hexAxisR true) c y) : ¬ Spec.PrismCorner (hexAxisR false) c y := by
  have h3 := Real.sqrt_pos.2 (by norm_num : (0 : ℝ) < 3)
  have h33 : Real.sqrt 3 * Real.sqrt 3 = 3 := Real.mul_self_sqrt (by norm_num)
  obtain ⟨j, s, t, rfl⟩ := h
  rintro ⟨j', s', t', e⟩
  have e := congrFun e 0
  simp only [Pi.add_apply, Pi.smul_apply, smul_eq_mul, hc, mul_zero, add_zero] at e
  fin_cases j <;> fin_cases j' <;> cases s <;> cases s' <;>
    simp [hexAxisR, hexAxis, Surd.real, Spec.sgn] at e <;> nlinarith

/-- **C105** With the other option no corner is at such a place. -/
theorem C105_option (dflt : String) (oi : Bool)
    (hd : if oi then dflt.toLower = "tsl" else dflt.toLower = "hkl" ∨ dflt.toLower = "oi")
    (q : Quat ℝ) (hq : q.IsUnit) (x : Fin 3 → ℝ) (hx : x ∈ (unitCell .hexagonal oi q).flatten) :
    ∃ l, hexL dflt 1.633 = .ok l ∧ ¬ ∃ y, Spec.PrismCorner (Spec.baseVec l) (fun i => l i 2) y ∧
      rotMatrix q *ᵥ x = (0.18 : ℝ) • y := by
  have h := hexL_eq dflt 1.633 (by norm_num)
  refine ⟨hexMat oi 1.633, ?_, ?_⟩
  · cases oi
    · exact h.1 (by simpa using hd)
    · exact h.2 (by simpa using hd)
  · rw [(baseVec_hex _ _).1, (baseVec_hex _ _).2]
    rintro ⟨y, hy, e⟩
    obtain ⟨y', hy', e'⟩ := (hex_corners oi q hq x).1 hx
    have : y = y' := by
      have := e.symm.trans e'
      exact smul_right_injective _ (by norm_num : (0.18 : ℝ) ≠ 0) this
    subst this
    cases oi
    · exact prism_not_both (by simp [prismAxis]) hy' hy
    · exact prism_not_both (by simp [prismAxis]) hy hy'

/-! ### Symmetry -/

theorem prism_move {b : Bool} {p : Quat (Surd 3)} {σ : Equiv.Perm (Fin 3)} {s t : Bool}
    (h : HexAction b p σ s t) (c : ℝ) (y : Fin 3 → ℝ) :
    (Spec.PrismCorner (hexAxisR b) (c • prismAxis) y →
      Spec.PrismCorner (hexAxisR b) (c • prismAxis) (rotMatrix p.real *ᵥ y)) ∧
    (Spec.PrismCorner (hexAxisR b) (c • prismAxis) y →
      Spec.PrismCorner (hexAxisR b) (c • prismAxis) ((rotMatrix p.real)ᵀ *ᵥ y)) := by
  have hs : ∀ u w : Bool, ∃ z : Bool, (Spec.sgn u : ℝ) * Spec.sgn w = Spec.sgn z := by
    intro u w
    refine ⟨u ^^ w, ?_⟩
    cases u <;> cases w <;> simp [Spec.sgn]
  constructor
  · rintro ⟨j, s', t', rfl⟩
    obtain ⟨u, hu⟩ := hs s' s
    obtain ⟨w, hw⟩ := hs t' t
    refine ⟨σ j, u, w, ?_⟩
    rw [mulVec_add, mulVec_smul, mulVec_smul, mulVec_smul, act_axis' h, act_prism' h, smul_smul, hu,
      smul_smul, smul_smul, smul_smul, ← hw]
    congr 2
    ring
  · rintro ⟨j, s', t', rfl⟩
    obtain ⟨u, hu⟩ := hs s' s
    obtain ⟨w, hw⟩ := hs t' t
    refine ⟨σ.symm j, u, w, ?_⟩
    have := act_axis h (σ.symm j)
    rw [Equiv.apply_symm_apply] at this
    rw [mulVec_add, mulVec_smul, mulVec_smul, mulVec_smul, this, act_prism h, smul_smul, hu,
      smul_smul, smul_smul, smul_smul, ← hw]
    congr 2
    ring

theorem cube_abs {p : Quat (Surd 2)} (hp : p ∈ cubicExact) :
    ∃ σ : Equiv.Perm (Fin 3), ∀ (y : Fin 3 → ℝ) i, |(rotMatrix p.real *ᵥ y) i| = |y (σ i)| := by
  obtain ⟨σ, ε, h⟩ := cubic_signed' p hp
  refine ⟨σ, fun y i => ?_⟩
  have e : ∀ j, rotMatrix p.real i j = if j = σ i then (Spec.sgn (ε i) : ℝ) else 0 := by
    intro j
    have := congrArg Surd.real (h i j)
    rw [← exactRotT_real, real_surdInt, real_conjRaw, rot_conjRaw] at this
    rw [this]
    split <;> simp
  rw [mulVec, dotProduct]
  simp only [e, ite_mul, zero_mul, Finset.sum_ite_eq', Finset.mem_univ, if_true]
  cases ε i <;> simp [Spec.sgn]

/-- **C105** Orientations that are equivalent by the symmetry of the crystal have the same cell. -/
theorem C105_symmetric (g : SymGroup) (oi : Bool) (q s : Quat ℝ) (hq : q.IsUnit) (hs : s ∈ symEqv g)
    (x : Fin 3 → ℝ) :
    x ∈ (unitCell g oi (mul s q)).flatten ↔ x ∈ (unitCell g oi q).flatten := by
  have hu := (symEqv_table g).unit s hs
  have hm : (mul s q).IsUnit := isUnit_mul hu hq
  have hr : rotMatrix (mul s q) *ᵥ x = rotMatrix s *ᵥ (rotMatrix q *ᵥ x) := by
    rw [mul, rotMatrix_make, rotMatrix_mulRaw, mulVec_mulVec]
  cases g with
  | cubic =>
    obtain ⟨p, hp, rfl⟩ := List.mem_map.1 (show s ∈ cubicExact.map Quat.real from hs)
    obtain ⟨σ, hσ⟩ := cube_abs hp
    rw [C105_cubic oi _ hm, C105_cubic oi _ hq, hr]
    simp only [hσ]
    constructor
    · intro h i
      have := h (σ.symm i)
      rwa [Equiv.apply_symm_apply] at this
    · intro h i; exact h _
  | hexagonal =>
    obtain ⟨p, hp, rfl⟩ := List.mem_map.1 (show s ∈ hexagonalExact.map Quat.real from hs)
    obtain ⟨σ, a, b, hact⟩ := hex_signed (!oi) p hp
    rw [hex_corners oi _ hm, hex_corners oi _ hq, hr]
    constructor
    · rintro ⟨y, hy, e⟩
      refine ⟨_, (prism_move hact _ y).2 hy, ?_⟩
      rw [← mulVec_smul, ← e, mulVec_mulVec, (C36_rotation _ hu).2.1, one_mulVec]
    · rintro ⟨y, hy, e⟩
      refine ⟨_, (prism_move hact _ y).1 hy, ?_⟩
      rw [e, mulVec_smul]

/-! ### Faces and edges -/

/-- The corners, exactly. -/
def vertsExact : SymGroup → List (Fin 3 → Surd 3)
  | .cubic => [![⟨-1 / 2, 0⟩, ⟨-1 / 2, 0⟩, ⟨-1 / 2, 0⟩], ![⟨1 / 2, 0⟩, ⟨-1 / 2, 0⟩, ⟨-1 / 2, 0⟩],
      ![⟨1 / 2, 0⟩, ⟨1 / 2, 0⟩, ⟨-1 / 2, 0⟩], ![⟨-1 / 2, 0⟩, ⟨1 / 2, 0⟩, ⟨-1 / 2, 0⟩],
      ![⟨-1 / 2, 0⟩, ⟨-1 / 2, 0⟩, ⟨1 / 2, 0⟩], ![⟨1 / 2, 0⟩, ⟨-1 / 2, 0⟩, ⟨1 / 2, 0⟩],
      ![⟨1 / 2, 0⟩, ⟨1 / 2, 0⟩, ⟨1 / 2, 0⟩], ![⟨-1 / 2, 0⟩, ⟨1 / 2, 0⟩, ⟨1 / 2, 0⟩]]
  | .hexagonal =>
    [-1633 / 2000, 1633 / 2000].flatMap fun z =>
      [![⟨1, 0⟩, ⟨0, 0⟩, ⟨z, 0⟩], ![⟨1 / 2, 0⟩, ⟨0, 1 / 2⟩, ⟨z, 0⟩], ![⟨-1 / 2, 0⟩, ⟨0, 1 / 2⟩, ⟨z, 0⟩],
       ![⟨-1, 0⟩, ⟨0, 0⟩, ⟨z, 0⟩], ![⟨-1 / 2, 0⟩, ⟨0, -1 / 2⟩, ⟨z, 0⟩], ![⟨1 / 2, 0⟩, ⟨0, -1 / 2⟩, ⟨z, 0⟩]]

/-- A normal of each face and its distance. -/
def normalsExact : SymGroup → List ((Fin 3 → Surd 3) × Rat)
  | .cubic => [(![⟨0, 0⟩, ⟨0, 0⟩, ⟨-1, 0⟩], 1 / 2), (![⟨0, 0⟩, ⟨0, 0⟩, ⟨1, 0⟩], 1 / 2),
      (![⟨0, 0⟩, ⟨-1, 0⟩, ⟨0, 0⟩], 1 / 2), (![⟨1, 0⟩, ⟨0, 0⟩, ⟨0, 0⟩], 1 / 2),
      (![⟨0, 0⟩, ⟨1, 0⟩, ⟨0, 0⟩], 1 / 2), (![⟨-1, 0⟩, ⟨0, 0⟩, ⟨0, 0⟩], 1 / 2)]
  | .hexagonal => [(![⟨0, 0⟩, ⟨0, 0⟩, ⟨-1, 0⟩], 1633 / 2000), (![⟨0, 0⟩, ⟨0, 0⟩, ⟨1, 0⟩], 1633 / 2000),
      (![⟨3 / 2, 0⟩, ⟨0, 1 / 2⟩, ⟨0, 0⟩], 3 / 2), (![⟨0, 0⟩, ⟨0, 1⟩, ⟨0, 0⟩], 3 / 2),
      (![⟨-3 / 2, 0⟩, ⟨0, 1 / 2⟩, ⟨0, 0⟩], 3 / 2), (![⟨-3 / 2, 0⟩, ⟨0, -1 / 2⟩, ⟨0, 0⟩], 3 / 2),
      (![⟨0, 0⟩, ⟨0, -1⟩, ⟨0, 0⟩], 3 / 2), (![⟨3 / 2, 0⟩, ⟨0, -1 / 2⟩, ⟨0, 0⟩], 3 / 2)]

def dotExact (u v : Fin 3 → Surd 3) : Surd 3 := u 0 * v 0 + u 1 * v 1 + u 2 * v 2

noncomputable def realVec (u : Fin 3 → Surd 3) : Fin 3 → ℝ := fun i => (u i).real

theorem dotExact_real (u v : Fin 3 → Surd 3) : (dotExact u v).real = realVec u ⬝ᵥ realVec v := by
  simp [dotExact, realVec, dotProduct, Fin.sum_univ_three, Surd.real_add, Surd.real_mul]

theorem verts_real (g : SymGroup) : (vertsExact g).map realVec = cellVerts g := by
  cases g <;>
    simp only [vertsExact, List.flatMap_cons, List.flatMap_nil, List.cons_append, List.nil_append, List.append_nil,
      List.map_cons, List.map_nil, cellVerts, cubicVerts, hexVerts, List.cons.injEq, and_true] <;>
    repeat' apply And.intro
  all_goals
    funext i
    fin_cases i <;> simp [realVec, Surd.real, cellRatio] <;> norm_num <;> ring

theorem cell_orth (g : SymGroup) (oi : Bool) {q : Quat ℝ} (hq : q.IsUnit) (u v : Fin 3 → ℝ) :
    (cellMatrix g oi q *ᵥ u) ⬝ᵥ (cellMatrix g oi q *ᵥ v) = u ⬝ᵥ v := by
  have key : ∀ p : Quat ℝ, p.IsUnit → ((rotMatrix p)ᵀ *ᵥ u) ⬝ᵥ ((rotMatrix p)ᵀ *ᵥ v) = u ⬝ᵥ v := by
    intro p hp
    rw [dotProduct_mulVec, vecMul_mulVec, transpose_transpose, (C36_rotation p hp).1, vecMul_one]
  cases g
  · exact key q hq
  · cases oi
    · exact key q hq
    · exact key _ (C37_unit _ _ _).1

theorem cellPoints_get (g : SymGroup) (oi : Bool) (q : Quat ℝ) (k : Nat) (hk : k < (vertsExact g).length) :
    (cellPoints g oi q)[k]? = some (cellSize g • (cellMatrix g oi q *ᵥ realVec (vertsExact g)[k])) := by
  unfold cellPoints
  rw [← verts_real, List.getElem?_map, List.getElem?_map, List.getElem?_eq_getElem hk]
  rfl

theorem cellPoints_length (g : SymGroup) (oi : Bool) (q : Quat ℝ) :
    (cellPoints g oi q).length = (vertsExact g).length := by
  unfold cellPoints
  rw [← verts_real, List.length_map, List.length_map]

theorem cell_point {g : SymGroup} {oi : Bool} {q : Quat ℝ} {x : Fin 3 → ℝ}
    (h : x ∈ (unitCell g oi q).flatten) : ∃ k, ∃ hk : k < (vertsExact g).length,
      cellSize g • (cellMatrix g oi q *ᵥ realVec (vertsExact g)[k]) = x := by
  rw [cell_corner] at h
  obtain ⟨k, hk, e⟩ := List.mem_iff_getElem.1 h
  have hk' : k < (vertsExact g).length := by rwa [cellPoints_length] at hk
  refine ⟨k, hk', ?_⟩
  have := cellPoints_get g oi q k hk'
  rw [List.getElem?_eq_getElem hk, Option.some.injEq] at this
  rw [← this, e]

theorem faces_exact : ∀ g, (normalsExact g).length = (cellFaces g).length ∧
    ∀ i, (h : i < (normalsExact g).length) → (h' : i < (cellFaces g).length) →
      (∀ k ∈ (cellFaces g)[i], k < (vertsExact g).length) ∧
      ∀ k, (hk : k < (vertsExact g).length) →
        (dotExact (normalsExact g)[i].1 (vertsExact g)[k]).b = 0 ∧
        (dotExact (normalsExact g)[i].1 (vertsExact g)[k]).a ≤ (normalsExact g)[i].2 ∧
        ((dotExact (normalsExact g)[i].1 (vertsExact g)[k]).a = (normalsExact g)[i].2 ↔ k ∈ (cellFaces g)[i]) := by
  intro g
  cases g <;> decide +kernel

/-- **C105** Each face that is drawn is a face of the solid: all its corners are in one plane, and all other
corners strictly on one side of it. -/
theorem C105_faces (g : SymGroup) (oi : Bool) (q : Quat ℝ) (hq : q.IsUnit) :
    ∀ f ∈ unitCell g oi q, ∃ (n : Fin 3 → ℝ) (c : ℝ), ∀ x ∈ (unitCell g oi q).flatten,
      n ⬝ᵥ x ≤ c ∧ (n ⬝ᵥ x = c ↔ x ∈ f) := by
  intro f hf
  obtain ⟨i, hi, rfl⟩ := List.mem_iff_getElem.1 hf
  have hi' : i < (cellFaces g).length := by unfold unitCell at hi; rwa [List.length_map] at hi
  obtain ⟨e, h⟩ := faces_exact g
  obtain ⟨hin, h⟩ := h i (by omega) hi'
  have hs : 0 < cellSize g := by cases g <;> norm_num [cellSize]
  have val : ∀ k, (hk : k < (vertsExact g).length) →
      (cellMatrix g oi q *ᵥ realVec (normalsExact g)[i].1) ⬝ᵥ
        (cellSize g • (cellMatrix g oi q *ᵥ realVec (vertsExact g)[k])) =
      cellSize g * ((dotExact (normalsExact g)[i].1 (vertsExact g)[k]).a : ℝ) := by
    intro k hk
    rw [dotProduct_smul, cell_orth g oi hq, ← dotExact_real, Surd.real, (h k hk).1]
    simp
  have mem : ∀ k, (hk : k < (vertsExact g).length) → k ∈ (cellFaces g)[i] →
      cellSize g • (cellMatrix g oi q *ᵥ realVec (vertsExact g)[k]) ∈ (unitCell g oi q)[i] := by
    intro k hk hm
    simp only [unitCell, List.getElem_map]
    refine List.mem_map.2 ⟨k, hm, ?_⟩
    rw [List.getD_eq_getElem?_getD, cellPoints_get g oi q k hk]
    rfl
  refine ⟨cellMatrix g oi q *ᵥ realVec (normalsExact g)[i].1, cellSize g * ((normalsExact g)[i].2 : ℝ), ?_⟩
  intro x hx
  obtain ⟨k, hk, rfl⟩ := cell_point hx
  rw [val k hk]
  obtain ⟨-, h2, h3⟩ := h k hk
  refine ⟨mul_le_mul_of_nonneg_left (by exact_mod_cast h2) hs.le, fun he => ?_, fun hm => ?_⟩
  · exact mem k hk (h3.1 (by exact_mod_cast mul_left_cancel₀ hs.ne' he))
  · simp only [unitCell, List.getElem_map] at hm
    obtain ⟨k', hk', e'⟩ := List.mem_map.1 hm
    have hl := hin k' hk'
    rw [List.getD_eq_getElem?_getD, cellPoints_get g oi q k' hl, Option.getD_some] at e'
    rw [← val k hk, ← e', val k' hl, (h k' hl).2.2.2 hk']

/-- Neighbouring corners of a face, in the order in which they are drawn. -/
def Spec.Side {α : Type} (f : List α) (u w : α) : Prop :=
  ∃ k, f[k]? = some u ∧ f[(k + 1) % f.length]? = some w

/-- The squares of the lengths of the edges. -/
def edgeSquares : SymGroup → List Rat
  | .cubic => [1]
  | .hexagonal => [1, (1633 / 1000) ^ 2]

def sideB (f : List Nat) (k l : Nat) : Bool :=
  (List.range f.length).any fun j => f[j]? == some k && f[(j + 1) % f.length]? == some l

theorem sideB_iff (f : List Nat) (k l : Nat) : sideB f k l = true ↔ Spec.Side f k l := by
  unfold sideB Spec.Side
  simp only [List.any_eq_true, List.mem_range, Bool.and_eq_true, beq_iff_eq]
  constructor
  · rintro ⟨j, -, h⟩; exact ⟨j, h⟩
  · rintro ⟨j, h⟩; exact ⟨j, (List.getElem?_eq_some_iff.1 h.1).1, h⟩

def subExact (u v : Fin 3 → Surd 3) : Fin 3 → Surd 3 := fun i => u i - v i

theorem edges_exact : ∀ g, ∀ k, (hk : k < (vertsExact g).length) → ∀ l, (hl : l < (vertsExact g).length) →
    (dotExact (subExact (vertsExact g)[k] (vertsExact g)[l]) (subExact (vertsExact g)[k] (vertsExact g)[l])).b =
      0 ∧
    ((cellFaces g).any (fun f => sideB f k l || sideB f l k) = true ↔
      (dotExact (subExact (vertsExact g)[k] (vertsExact g)[l])
        (subExact (vertsExact g)[k] (vertsExact g)[l])).a ∈ edgeSquares g) := by
  intro g
  cases g <;> decide +kernel

/-- **C105** The edges that are drawn are the edges of the solid: two corners are joined exactly if they are as
far apart as neighbouring corners of a cube, or those of the base or the height of the prism. -/
theorem C105_edges (g : SymGroup) (oi : Bool) (q : Quat ℝ) (hq : q.IsUnit) (u w : Fin 3 → ℝ) :
    (∃ f ∈ unitCell g oi q, Spec.Side f u w ∨ Spec.Side f w u) ↔
      u ∈ (unitCell g oi q).flatten ∧ w ∈ (unitCell g oi q).flatten ∧
      match g with
      | .cubic => (u - w) ⬝ᵥ (u - w) = 0.25 ^ 2
      | .hexagonal => (u - w) ⬝ᵥ (u - w) = 0.18 ^ 2 ∨ (u - w) ⬝ᵥ (u - w) = (0.18 * 1.633) ^ 2 := by
  set pt : Nat → Fin 3 → ℝ := fun k => (cellPoints g oi q).getD k 0 with hpt
  have pte : ∀ k, (hk : k < (vertsExact g).length) →
      pt k = cellSize g • (cellMatrix g oi q *ᵥ realVec (vertsExact g)[k]) := by
    intro k hk
    rw [hpt]
    simp only
    rw [List.getD_eq_getElem?_getD, cellPoints_get g oi q k hk]
    rfl
  have hin : ∀ f ∈ cellFaces g, ∀ k ∈ f, k < (vertsExact g).length := by
    intro f hf
    obtain ⟨i, hi, rfl⟩ := List.mem_iff_getElem.1 hf
    obtain ⟨e, h⟩ := faces_exact g
    exact (h i (by omega) hi).1
  have dist : ∀ k, (hk : k < (vertsExact g).length) → ∀ l, (hl : l < (vertsExact g).length) →
      (pt k - pt l) ⬝ᵥ (pt k - pt l) = cellSize g ^ 2 *
        ((dotExact (subExact (vertsExact g)[k] (vertsExact g)[l])
          (subExact (vertsExact g)[k] (vertsExact g)[l])).a : ℝ) := by
    intro k hk l hl
    have e : realVec (subExact (vertsExact g)[k] (vertsExact g)[l]) =
        realVec (vertsExact g)[k] - realVec (vertsExact g)[l] := by
      funext i
      simp [realVec, subExact, Surd.real_sub]
    rw [pte k hk, pte l hl, ← smul_sub, ← mulVec_sub, ← e, smul_dotProduct, dotProduct_smul,
      cell_orth g oi hq, ← dotExact_real, Surd.real, (edges_exact g k hk l hl).1]
    simp only [smul_eq_mul]
    push_cast
    ring
  have side : ∀ k, (hk : k < (vertsExact g).length) → ∀ l, (hl : l < (vertsExact g).length) →
      ((cellFaces g).any (fun f => sideB f k l || sideB f l k) = true ↔
        match g with
        | .cubic => (pt k - pt l) ⬝ᵥ (pt k - pt l) = 0.25 ^ 2
        | .hexagonal => (pt k - pt l) ⬝ᵥ (pt k - pt l) = 0.18 ^ 2 ∨
            (pt k - pt l) ⬝ᵥ (pt k - pt l) = (0.18 * 1.633) ^ 2) := by
    intro k hk l hl
    rw [(edges_exact g k hk l hl).2, dist k hk l hl]
    cases g with
    | cubic =>
      simp only [edgeSquares, List.mem_singleton, cellSize]
      rw [← Rat.cast_inj (α := ℝ)]
      push_cast
      constructor
      · intro h; rw [h]; norm_num
      · intro h; linarith
    | hexagonal =>
      simp only [edgeSquares, List.mem_cons, List.not_mem_nil, or_false, cellSize]
      rw [← Rat.cast_inj (α := ℝ), ← Rat.cast_inj (α := ℝ)]
      push_cast
      refine or_congr ⟨fun h => ?_, fun h => ?_⟩ ⟨fun h => ?_, fun h => ?_⟩
      · rw [h]; norm_num
      · linarith
      · rw [h]; norm_num
      · nlinarith
  have find : ∀ f ∈ cellFaces g, ∀ u w, Spec.Side (f.map pt) u w → ∃ k l, k < (vertsExact g).length ∧
      l < (vertsExact g).length ∧ u = pt k ∧ w = pt l ∧ Spec.Side f k l := by
    rintro f hf u w ⟨j, h1, h2⟩
    rw [List.getElem?_map] at h1 h2
    rw [List.length_map] at h2
    obtain ⟨k, hk, rfl⟩ := Option.map_eq_some_iff.1 h1
    obtain ⟨l, hl, rfl⟩ := Option.map_eq_some_iff.1 h2
    exact ⟨k, l, hin f hf k (List.mem_of_getElem? hk), hin f hf l (List.mem_of_getElem? hl), rfl, rfl, j, hk, hl⟩
  have found : ∀ f k l, Spec.Side f k l → Spec.Side (f.map pt) (pt k) (pt l) := by
    rintro f k l ⟨j, h1, h2⟩
    refine ⟨j, ?_, ?_⟩
    · rw [List.getElem?_map, h1]; rfl
    · rw [List.length_map, List.getElem?_map, h2]; rfl
  have cell : unitCell g oi q = (cellFaces g).map fun f => f.map pt := rfl
  have corner : ∀ k, k < (vertsExact g).length → pt k ∈ (unitCell g oi q).flatten := by
    intro k hk
    rw [cell_corner, hpt]
    have hk' : k < (cellPoints g oi q).length := by rw [cellPoints_length]; exact hk
    simp only
    rw [List.getD_eq_getElem?_getD, List.getElem?_eq_getElem hk']
    exact List.getElem_mem hk'
  constructor
  · rintro ⟨f', hf', h⟩
    rw [cell] at hf'
    obtain ⟨f, hf, rfl⟩ := List.mem_map.1 hf'
    obtain ⟨k, l, hk, hl, rfl, rfl, hkl⟩ : ∃ k l, k < (vertsExact g).length ∧ l < (vertsExact g).length ∧
        u = pt k ∧ w = pt l ∧ (Spec.Side f k l ∨ Spec.Side f l k) := by
      rcases h with h | h
      · obtain ⟨k, l, a, b, c, d, e⟩ := find f hf _ _ h
        exact ⟨k, l, a, b, c, d, .inl e⟩
      · obtain ⟨k, l, a, b, c, d, e⟩ := find f hf _ _ h
        exact ⟨l, k, b, a, d, c, .inr e⟩
    refine ⟨corner k hk, corner l hl, (side k hk l hl).1 (List.any_eq_true.2 ⟨f, hf, ?_⟩)⟩
    rw [Bool.or_eq_true, sideB_iff, sideB_iff]
    exact hkl
  · rintro ⟨hu, hw, h⟩
    obtain ⟨k, hk, rfl⟩ := cell_point hu
    obtain ⟨l, hl, rfl⟩ := cell_point hw
    rw [← pte k hk, ← pte l hl] at h ⊢
    obtain ⟨f, hf, h⟩ := List.any_eq_true.1 ((side k hk l hl).2 h)
    rw [Bool.or_eq_true, sideB_iff, sideB_iff] at h
    refine ⟨f.map pt, by rw [cell]; exact List.mem_map_of_mem hf, ?_⟩
    rcases h with h | h
    · exact .inl (found _ _ _ h)
    · exact .inr (found _ _ _ h)

/-- An orientation to which this applies, with a corner in the expected place. -/
example : (⟨4 / 5, 0, 3 / 5, 0⟩ : Quat ℝ).IsUnit ∧
    ![0.125, 0.125, 0.125] ∈ (unitCell .cubic true ⟨1, 0, 0, 0⟩).flatten := by
  refine ⟨by simp only [Quat.IsUnit]; norm_num, ?_⟩
  rw [C105_cubic true ⟨1, 0, 0, 0⟩ (by simp [Quat.IsUnit])]
  intro i
  fin_cases i <;> simp [rotMatrix, mulVec, dotProduct, Fin.sum_univ_three] <;> norm_num [abs_of_pos]

end DefDAP
