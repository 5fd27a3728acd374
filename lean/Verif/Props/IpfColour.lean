import Verif.Proofs.IpfColour

/-! C91: inverse pole figure colours. -/

namespace DefDAP

open Quat Matrix

/-! ### Specification -/

/-- The side of the standard triangle opposite the corner of colour `k` (red `[001]`, green `[011]`
or `[01-10]`, blue `[-111]` or `[-12-10]`), as a plane through the origin. -/
def Spec.OppositeSide : SymGroup → Fin 3 → Vec → Prop
  | .cubic, 0, v => v 1 = v 2
  | .cubic, 1, v => v 0 = -v 1
  | .cubic, 2, v => v 0 = 0
  | .hexagonal, 0, v => v 2 = 0
  | .hexagonal, 1, v => Real.sqrt 3 * v 0 = -v 1
  | .hexagonal, 2, v => v 0 = 0

/-- `q'` is a symmetric variant of the orientation `q`. -/
def Spec.Variant (g : SymGroup) (q q' : Quat ℝ) : Prop := ∃ s ∈ symEqv g, q' = mul s q

/-! ### Sides -/

theorem opposite_iff (g : SymGroup) {dir : Vec} (hd : UnitV dir) (k : Fin 3) :
    ipfColour g dir k = 0 ↔ Spec.OppositeSide g k dir := by
  have p := sq2_pos
  have q := sq3_pos
  rw [colour_zero g hd]
  have e0 : ipfRaw g dir 0 = 0 ↔ _ := ipfPart_zero hd (unit_red g) (triple_ne g)
  have e1 : ipfRaw g dir 1 = 0 ↔ _ := ipfPart_zero hd (unit_green g) (triple_green g)
  have e2 : ipfRaw g dir 2 = 0 ↔ _ := ipfPart_zero hd (unit_blue g) (triple_blue g)
  fin_cases k
  · show ipfRaw g dir 0 = 0 ↔ _
    rw [e0]
    cases g
    · have e : dotV dir (crossV (poleBlue .cubic) (poleGreen .cubic)) =
          (dir 1 - dir 2) * (1 / (Real.sqrt 2 * Real.sqrt 3)) := by
        simp [dotV, crossV, poleBlue, poleGreen]; field_simp; ring
      rw [e, mul_eq_zero, or_iff_left (by positivity)]
      exact sub_eq_zero
    · have e : dotV dir (crossV (poleBlue .hexagonal) (poleGreen .hexagonal)) = dir 2 * (-1 / 2) := by
        simp [dotV, crossV, poleBlue, poleGreen]; norm_num
      rw [e, mul_eq_zero, or_iff_left (by norm_num)]
      exact Iff.rfl
  · show ipfRaw g dir 1 = 0 ↔ _
    rw [e1]
    cases g
    · have e : dotV dir (crossV (poleRed .cubic) (poleBlue .cubic)) =
          (dir 0 - -dir 1) * (-1 / Real.sqrt 3) := by
        simp [dotV, crossV, poleBlue, poleRed]; field_simp; ring
      rw [e, mul_eq_zero, or_iff_left (by simp [q.ne'])]
      exact sub_eq_zero
    · have e : dotV dir (crossV (poleRed .hexagonal) (poleBlue .hexagonal)) =
          (Real.sqrt 3 * dir 0 - -dir 1) * (-1 / 2) := by
        simp [dotV, crossV, poleBlue, poleRed]; ring
      rw [e, mul_eq_zero, or_iff_left (by norm_num)]
      exact sub_eq_zero
  · show ipfRaw g dir 2 = 0 ↔ _
    rw [e2]
    cases g
    · have e : dotV dir (crossV (poleGreen .cubic) (poleRed .cubic)) =
          dir 0 * (1 / Real.sqrt 2) := by
        simp [dotV, crossV, poleGreen, poleRed]
      rw [e, mul_eq_zero, or_iff_left (by positivity)]
      exact Iff.rfl
    · have e : dotV dir (crossV (poleGreen .hexagonal) (poleRed .hexagonal)) = dir 0 := by
        simp [dotV, crossV, poleGreen, poleRed]
      rw [e]
      exact Iff.rfl

/-- If two components vanish, the third is one. -/
theorem pure_colour (g : SymGroup) {dir : Vec} (hd : UnitV dir) (k : Fin 3)
    (h : ∀ j, j ≠ k → Spec.OppositeSide g j dir) :
    ipfColour g dir = fun j => if j = k then 1 else 0 := by
  obtain ⟨-, m, hm⟩ := colour_range g hd
  have hz : ∀ j, j ≠ k → ipfColour g dir j = 0 := fun j hj => (opposite_iff g hd j).2 (h j hj)
  funext j
  by_cases hj : j = k
  · rw [if_pos hj]
    have : m = k := by
      by_contra hne
      rw [hz m hne] at hm
      norm_num at hm
    rw [hj, ← this, hm]
  · rw [if_neg hj, hz j hj]

/-! ### The direction is determined -/

theorem eqv_unit {g : SymGroup} {c v : Vec} (h : Spec.EqvDir g c v) (hc : Spec.UnitDir c) :
    Spec.UnitDir v := by
  obtain ⟨s, hs, e⟩ := h
  have hu := rot_unitDir ((symEqv_table g).unit s hs) hc
  rcases e with e | e <;> rw [e]
  · exact hu
  · unfold Spec.UnitDir at *
    simpa using hu

theorem cubic_abs {c v : Vec} (h : Spec.EqvDir .cubic c v) :
    ∃ σ : Equiv.Perm (Fin 3), ∀ i, |v (σ i)| = |c i| := by
  obtain ⟨s, hs, e⟩ := h
  obtain ⟨σ, hσ⟩ := cubic_components c hs
  refine ⟨σ, fun i => ?_⟩
  rw [← hσ i]
  rcases e with e | e <;> rw [e]
  rw [Pi.neg_apply, abs_neg]

theorem triangle_abs {v : Vec} (h : Spec.CubicTriangle v) :
    |v 0| = -v 0 ∧ |v 1| = v 1 ∧ |v 2| = v 2 := by
  obtain ⟨a, b, c⟩ := h
  exact ⟨abs_of_nonpos a, abs_of_nonneg (by linarith), abs_of_nonneg (by linarith)⟩

/-- Directions with the same components up to order and sign have one representative in the
triangle. -/
theorem triangle_unique {v w : Vec} (hv : Spec.CubicTriangle v) (hw : Spec.CubicTriangle w)
    (σ : Equiv.Perm (Fin 3)) (h : ∀ i, |v (σ i)| = |w i|) : v = w := by
  obtain ⟨a0, a1, a2⟩ := triangle_abs hv
  obtain ⟨b0, b1, b2⟩ := triangle_abs hw
  obtain ⟨-, v1, v2⟩ := hv
  obtain ⟨-, w1, w2⟩ := hw
  have hsum : |v 0| + |v 1| + |v 2| = |w 0| + |w 1| + |w 2| := by
    have := Equiv.sum_comp σ (fun i => |v i|)
    simp only [h, Fin.sum_univ_three] at this
    exact this.symm
  have vmax : ∀ i, |v i| ≤ |v 2| := by
    intro i; fin_cases i <;> simp only [Fin.zero_eta, Fin.mk_one, Fin.reduceFinMk] <;> linarith
  have vmin : ∀ i, |v 0| ≤ |v i| := by
    intro i; fin_cases i <;> simp only [Fin.zero_eta, Fin.mk_one, Fin.reduceFinMk] <;> linarith
  have wmax : ∀ i, |w i| ≤ |w 2| := by
    intro i; fin_cases i <;> simp only [Fin.zero_eta, Fin.mk_one, Fin.reduceFinMk] <;> linarith
  have wmin : ∀ i, |w 0| ≤ |w i| := by
    intro i; fin_cases i <;> simp only [Fin.zero_eta, Fin.mk_one, Fin.reduceFinMk] <;> linarith
  have h' : ∀ i, |w (σ.symm i)| = |v i| := fun i => by rw [← h, σ.apply_symm_apply]
  have e2 : |v 2| = |w 2| := le_antisymm (by rw [← h' 2]; exact wmax _) (by rw [← h 2]; exact vmax _)
  have e0 : |v 0| = |w 0| := le_antisymm (by rw [← h 0]; exact vmin _) (by rw [← h' 0]; exact wmin _)
  funext i
  fin_cases i <;> simp only [Fin.zero_eta, Fin.mk_one, Fin.reduceFinMk] <;> linarith

/-- The sixth power of `x + i y`, real part: the symmetries of a hexagonal crystal keep it. -/
def hexInv (x y : ℝ) : ℝ := x ^ 6 - 15 * x ^ 4 * y ^ 2 + 15 * x ^ 2 * y ^ 4 - y ^ 6

theorem hex_block : ∀ q ∈ hexagonalExact,
    ((exactRotT q 1 1 = exactRotT q 0 0 ∧ exactRotT q 1 0 = -exactRotT q 0 1) ∨
      (exactRotT q 1 1 = -exactRotT q 0 0 ∧ exactRotT q 1 0 = exactRotT q 0 1)) ∧
    ((exactRotT q 0 0, exactRotT q 0 1) ∈ [((⟨1, 0⟩ : Surd 3), (⟨0, 0⟩ : Surd 3)), (⟨-1, 0⟩, ⟨0, 0⟩),
      (⟨1 / 2, 0⟩, ⟨0, 1 / 2⟩), (⟨1 / 2, 0⟩, ⟨0, -1 / 2⟩), (⟨-1 / 2, 0⟩, ⟨0, 1 / 2⟩),
      (⟨-1 / 2, 0⟩, ⟨0, -1 / 2⟩)]) := by decide +kernel

theorem hex_inv (c : Vec) {s : Quat ℝ} (hs : s ∈ symEqv .hexagonal) :
    hexInv ((rotMatrix s *ᵥ c) 0) ((rotMatrix s *ᵥ c) 1) = hexInv (c 0) (c 1) := by
  obtain ⟨q, hq, rfl⟩ := List.mem_map.1 hs
  obtain ⟨h1, h2, -⟩ := hex_axis_exact q hq
  obtain ⟨hb, hv⟩ := hex_block q hq
  have e : ∀ i j, rotMatrix q.real i j = (exactRotT q j i).real := fun i j => by
    rw [← exactRotT_real]; rfl
  have hr : ∀ i, (rotMatrix q.real *ᵥ c) i = (exactRotT q 0 i).real * c 0 +
      (exactRotT q 1 i).real * c 1 + (exactRotT q 2 i).real * c 2 := by
    intro i
    simp only [Matrix.mulVec, dotProduct, Fin.sum_univ_three, e]
  rw [hr 0, hr 1, h2 0 (by decide), h2 1 (by decide)]
  have hsq := sq3
  have hA : (exactRotT q 0 0).real ^ 6 - 15 * (exactRotT q 0 0).real ^ 4 * (exactRotT q 0 1).real ^ 2 +
      15 * (exactRotT q 0 0).real ^ 2 * (exactRotT q 0 1).real ^ 4 - (exactRotT q 0 1).real ^ 6 = 1 ∧
      6 * (exactRotT q 0 0).real ^ 5 * (exactRotT q 0 1).real -
        20 * (exactRotT q 0 0).real ^ 3 * (exactRotT q 0 1).real ^ 3 +
        6 * (exactRotT q 0 0).real * (exactRotT q 0 1).real ^ 5 = 0 := by
    have s2 : Real.sqrt 3 ^ 2 = 3 := by rw [sq, hsq]
    have s4 : Real.sqrt 3 ^ 4 = 9 := by
      rw [show (4 : ℕ) = 2 * 2 from rfl, pow_mul, s2]; norm_num
    have s6 : Real.sqrt 3 ^ 6 = 27 := by
      rw [show (6 : ℕ) = 2 * 3 from rfl, pow_mul, s2]; norm_num
    have s3 : Real.sqrt 3 ^ 3 = 3 * Real.sqrt 3 := by
      rw [show (3 : ℕ) = 2 + 1 from rfl, pow_succ, s2]
    have s5 : Real.sqrt 3 ^ 5 = 9 * Real.sqrt 3 := by
      rw [show (5 : ℕ) = 4 + 1 from rfl, pow_succ, s4]
    simp only [List.mem_cons, List.not_mem_nil, or_false, Prod.mk.injEq] at hv
    rcases hv with ⟨x, y⟩ | ⟨x, y⟩ | ⟨x, y⟩ | ⟨x, y⟩ | ⟨x, y⟩ | ⟨x, y⟩ <;> rw [x, y] <;>
      simp only [Surd.real] <;> push_cast <;> constructor <;> ring_nf <;>
      (try rw [s2, s4, s6]) <;> (try rw [s3, s5]) <;> (try ring)
  obtain ⟨hA, hB⟩ := hA
  have z : ((⟨0, 0⟩ : Surd 3)).real = 0 := by simp [Surd.real]
  rw [z]
  unfold hexInv
  rcases hb with ⟨x, y⟩ | ⟨x, y⟩
  · rw [x, y, Surd.real_neg]
    generalize (exactRotT q 0 0).real = a at *
    generalize (exactRotT q 0 1).real = b at *
    linear_combination
      (c 0 ^ 6 - 15 * c 0 ^ 4 * c 1 ^ 2 + 15 * c 0 ^ 2 * c 1 ^ 4 - c 1 ^ 6) * hA -
      (6 * c 0 ^ 5 * c 1 - 20 * c 0 ^ 3 * c 1 ^ 3 + 6 * c 0 * c 1 ^ 5) * hB
  · rw [x, y, Surd.real_neg]
    generalize (exactRotT q 0 0).real = a at *
    generalize (exactRotT q 0 1).real = b at *
    linear_combination
      (c 0 ^ 6 - 15 * c 0 ^ 4 * c 1 ^ 2 + 15 * c 0 ^ 2 * c 1 ^ 4 - c 1 ^ 6) * hA +
      (6 * c 0 ^ 5 * c 1 - 20 * c 0 ^ 3 * c 1 ^ 3 + 6 * c 0 * c 1 ^ 5) * hB

theorem hex_inv_eqv {c v : Vec} (h : Spec.EqvDir .hexagonal c v) :
    hexInv (v 0) (v 1) = hexInv (c 0) (c 1) := by
  obtain ⟨s, hs, e⟩ := h
  rw [← hex_inv c hs]
  rcases e with e | e <;> rw [e]
  simp only [Pi.neg_apply, hexInv]
  ring

theorem hex_height {c v : Vec} (h : Spec.EqvDir .hexagonal c v) : |v 2| = |c 2| := by
  obtain ⟨s, hs, e⟩ := h
  have := hex_axis c hs
  have hn := northern_abs (rotMatrix s *ᵥ c) 2
  rw [this, abs_abs] at hn
  rcases e with e | e <;> rw [e]
  · exact hn.symm
  · rw [Pi.neg_apply, abs_neg]; exact hn.symm

theorem hexInv_pole (a b : ℝ) : hexInv (Spec.poleDir (a, b) 0) (Spec.poleDir (a, b) 1) =
    Real.sin a ^ 6 * Real.cos (6 * b) := by
  have h6 : Real.cos (6 * b) = 2 * (4 * Real.cos b ^ 3 - 3 * Real.cos b) ^ 2 - 1 := by
    rw [← Real.cos_three_mul, show 6 * b = 2 * (3 * b) by ring, Real.cos_two_mul]
  have hs : Real.sin b ^ 2 = 1 - Real.cos b ^ 2 := by
    have := Real.sin_sq_add_cos_sq b; linarith
  have h4 : Real.sin b ^ 4 = (1 - Real.cos b ^ 2) ^ 2 := by rw [← hs]; ring
  have h6' : Real.sin b ^ 6 = (1 - Real.cos b ^ 2) ^ 3 := by rw [← hs]; ring
  rw [h6]
  simp only [hexInv, Spec.poleDir, Matrix.cons_val_zero, Matrix.cons_val_one]
  have : (Real.sin a * Real.cos b) ^ 6 - 15 * (Real.sin a * Real.cos b) ^ 4 * (Real.sin a * Real.sin b) ^ 2 +
      15 * (Real.sin a * Real.cos b) ^ 2 * (Real.sin a * Real.sin b) ^ 4 - (Real.sin a * Real.sin b) ^ 6 =
      Real.sin a ^ 6 * (Real.cos b ^ 6 - 15 * Real.cos b ^ 4 * Real.sin b ^ 2 +
        15 * Real.cos b ^ 2 * Real.sin b ^ 4 - Real.sin b ^ 6) := by ring
  rw [this, hs, h4, h6']
  ring

/-- Two representatives in the hexagonal triangle are equal, off the axis. -/
theorem hex_unique {x y : ℝ × ℝ} (hx : 0 ≤ x.1 ∧ x.1 ≤ Real.pi / 2) (hy : 0 ≤ y.1 ∧ y.1 ≤ Real.pi / 2)
    (bx : Real.pi / 2 ≤ x.2 ∧ x.2 ≤ 2 / 3 * Real.pi) (by' : Real.pi / 2 ≤ y.2 ∧ y.2 ≤ 2 / 3 * Real.pi)
    (hz : |Spec.poleDir x 2| = |Spec.poleDir y 2|) (h1 : |Spec.poleDir x 2| ≠ 1)
    (hi : hexInv (Spec.poleDir x 0) (Spec.poleDir x 1) = hexInv (Spec.poleDir y 0) (Spec.poleDir y 1)) :
    x = y := by
  have px : 0 ≤ Real.cos x.1 := Real.cos_nonneg_of_neg_pi_div_two_le_of_le (by linarith) hx.2
  have py : 0 ≤ Real.cos y.1 := Real.cos_nonneg_of_neg_pi_div_two_le_of_le (by linarith) hy.2
  have z2 : ∀ ab : ℝ × ℝ, Spec.poleDir ab 2 = Real.cos ab.1 := fun ab => rfl
  rw [z2, abs_of_nonneg px] at hz h1
  rw [z2, abs_of_nonneg py] at hz
  have pi := Real.pi_pos
  have ea : x.1 = y.1 := Real.injOn_cos ⟨hx.1, by linarith⟩ ⟨hy.1, by linarith⟩ hz
  have hpos : 0 < Real.sin x.1 := by
    apply Real.sin_pos_of_pos_of_lt_pi
    · apply lt_of_le_of_ne hx.1
      intro h0
      apply h1
      rw [← h0, Real.cos_zero]
    · linarith
  have e1 := hexInv_pole x.1 x.2
  have e2 := hexInv_pole y.1 y.2
  rw [Prod.mk.eta] at e1 e2
  rw [e1, e2, ← ea] at hi
  have hc : Real.cos (6 * x.2) = Real.cos (6 * y.2) :=
    mul_left_cancel₀ (pow_pos hpos 6).ne' hi
  have hp : ∀ t : ℝ, Real.cos (4 * Real.pi - 6 * t) = Real.cos (6 * t) := by
    intro t
    rw [show 4 * Real.pi - 6 * t = -(6 * t) + (2 : ℕ) * (2 * Real.pi) by push_cast; ring,
      Real.cos_add_nat_mul_two_pi, Real.cos_neg]
  have eb : 4 * Real.pi - 6 * x.2 = 4 * Real.pi - 6 * y.2 := by
    apply Real.injOn_cos ⟨by linarith, by linarith⟩ ⟨by linarith, by linarith⟩
    rw [hp, hp, hc]
  exact Prod.ext ea (by linarith)

/-! ### Results -/

theorem calcIpf_of {g : SymGroup} {quats : List (Quat ℝ)} {d : Vec} {P : Quat ℝ → ℝ × ℝ → Prop}
    (h : ∃ out, calcFundDirs g "up" quats d = .ok out ∧ List.Forall₂ P quats out) :
    ∃ cols, calcIpfColours g quats d = .ok cols ∧
      List.Forall₂ (fun q c => ∃ ab, P q ab ∧ c = ipfColour g (dirVec ab)) quats cols := by
  obtain ⟨out, e, hf⟩ := h
  refine ⟨out.map fun ab => ipfColour g (dirVec ab), by unfold calcIpfColours; rw [e]; rfl, ?_⟩
  rw [List.forall₂_map_right_iff]
  exact hf.imp fun _ ab hp => ⟨ab, hp, rfl⟩

theorem fund_exists (g : SymGroup) (quats : List (Quat ℝ)) (hq : ∀ q ∈ quats, q.IsUnit) (d : Vec)
    (hd : d ≠ 0) : ∃ out, calcFundDirs g "up" quats d = .ok out ∧
      List.Forall₂ (fun q ab => Spec.EqvDir g (Spec.inCrystal q d) (Spec.poleDir ab)) quats out := by
  cases g
  · obtain ⟨out, e, h⟩ := C45_cubic "up" quats hq d hd
    exact ⟨out, e, h.imp fun _ _ hp => hp.1⟩
  · obtain ⟨out, e, h⟩ := C45_hexagonal_axis (Or.inl rfl) quats hq d hd
    exact ⟨out, e, h.imp fun _ _ hp => hp.1⟩

/-- C91: every orientation gets a colour, its components lie between zero and one, and the largest
is one. -/
theorem C91_range (g : SymGroup) (quats : List (Quat ℝ)) (hq : ∀ q ∈ quats, q.IsUnit) (d : Vec)
    (hd : d ≠ 0) :
    ∃ cols, calcIpfColours g quats d = .ok cols ∧ cols.length = quats.length ∧
      ∀ c ∈ cols, (∀ k, 0 ≤ c k ∧ c k ≤ 1) ∧ ∃ k, c k = 1 := by
  obtain ⟨cols, e, h⟩ := calcIpf_of (fund_exists g quats hq d hd)
  refine ⟨cols, e, h.length_eq.symm, ?_⟩
  intro c hc
  obtain ⟨i, hi, rfl⟩ := List.mem_iff_getElem.1 hc
  obtain ⟨ab, -, hab⟩ := (List.forall₂_iff_get.1 h).2 i (by rw [h.length_eq]; exact hi) hi
  simp only [List.get_eq_getElem] at hab
  rw [hab]
  exact colour_range g (dirVec_unit ab)

/-- C91: the colour is read off at a direction equivalent to the sample direction, and a component
is zero exactly if that direction is on the side of the triangle opposite its corner. -/
theorem C91_sides (g : SymGroup) (quats : List (Quat ℝ)) (hq : ∀ q ∈ quats, q.IsUnit) (d : Vec)
    (hd : d ≠ 0) :
    ∃ cols, calcIpfColours g quats d = .ok cols ∧
      List.Forall₂ (fun q c => ∃ v, Spec.EqvDir g (Spec.inCrystal q d) v ∧
        ∀ k, c k = 0 ↔ Spec.OppositeSide g k v) quats cols := by
  obtain ⟨cols, e, h⟩ := calcIpf_of (fund_exists g quats hq d hd)
  refine ⟨cols, e, h.imp ?_⟩
  rintro q c ⟨ab, hab, rfl⟩
  exact ⟨Spec.poleDir ab, hab, fun k => opposite_iff g (dirVec_unit ab) k⟩

theorem intersect_scaled {dir p n u : Vec} {c : ℝ} (hc : 0 < c) (hu : UnitV u)
    (h : crossV (crossV dir p) n = fun k => c * u k) : ipfIntersect dir p n = u := by
  unfold ipfIntersect
  rw [h]
  have hu' : dotV u u = 1 := hu
  have e : dotV (fun k => c * u k) (fun k => c * u k) = c ^ 2 := by
    simp only [dotV] at *
    linear_combination c ^ 2 * hu'
  funext k
  simp only [e]
  rw [Real.sqrt_sq hc.le, if_neg hc.ne']
  field_simp

theorem arccos_half_sqrt : Real.arccos (1 / Real.sqrt 2) = Real.pi / 4 := by
  have e : 1 / Real.sqrt 2 = Real.cos (Real.pi / 4) := by
    rw [Real.cos_pi_div_four]
    have := sq2; have := sq2_pos
    field_simp; nlinarith
  rw [e, Real.arccos_cos] <;> linarith [Real.pi_pos]

/-- The colour of the cubic direction `[010]`, which is not in the triangle. -/
theorem colour_axis : ipfColour .cubic (dirVec (Real.pi / 2, Real.pi / 2)) = ![1, 2 / 3, 0] := by
  have hd : dirVec (Real.pi / 2, Real.pi / 2) = ![0, 1, 0] := by
    simp [dirVec]
  have hu := dirVec_unit (Real.pi / 2, Real.pi / 2)
  rw [hd] at hu ⊢
  have p := sq2_pos
  have q := sq3_pos
  have hb : ipfRaw .cubic ![0, 1, 0] 2 = 0 := by
    rw [← colour_zero .cubic hu, opposite_iff .cubic hu]
    simp [Spec.OppositeSide]
  have pi := Real.pi_pos
  have h2 := sq2
  have hr : ipfRaw .cubic ![0, 1, 0] 0 = 1 := by
    show ipfPart ![0, 1, 0] (poleRed .cubic) (crossV (poleBlue .cubic) (poleGreen .cubic)) = 1
    have ei : ipfIntersect ![0, 1, 0] (poleRed .cubic) (crossV (poleBlue .cubic) (poleGreen .cubic)) =
        poleGreen .cubic := by
      apply intersect_scaled (c := 1 / Real.sqrt 3) (by positivity) (unit_green .cubic)
      funext k
      fin_cases k <;> simp [crossV, poleRed, poleBlue, poleGreen] <;> field_simp
    have e1 : dotV ![0, 1, 0] (poleGreen .cubic) = 1 / Real.sqrt 2 := by simp [dotV, poleGreen]
    have e2 : dotV (poleRed .cubic) (poleGreen .cubic) = 1 / Real.sqrt 2 := by
      simp [dotV, poleGreen, poleRed]
    have es : ipfSide ![0, 1, 0] (poleGreen .cubic) = poleGreen .cubic := by
      rcases side_cases ![0, 1, 0] (poleGreen .cubic) with ⟨e, -⟩ | ⟨-, e⟩
      · exact e
      · rw [e1] at e
        have : 0 < 1 / Real.sqrt 2 := by positivity
        linarith
    unfold ipfPart
    simp only [ei, es, e1, e2, arccosClip_eq, arccos_half_sqrt]
    exact div_self (by positivity)
  have hg : ipfRaw .cubic ![0, 1, 0] 1 = 2 / 3 := by
    show ipfPart ![0, 1, 0] (poleGreen .cubic) (crossV (poleRed .cubic) (poleBlue .cubic)) = 2 / 3
    have ei : ipfIntersect ![0, 1, 0] (poleGreen .cubic) (crossV (poleRed .cubic) (poleBlue .cubic)) =
        ![0, 0, -1] := by
      apply intersect_scaled (c := 1 / (Real.sqrt 2 * Real.sqrt 3)) (by positivity)
        (by simp [UnitV, dotV])
      funext k
      fin_cases k <;> simp [crossV, poleRed, poleBlue, poleGreen] <;> field_simp
    have e1 : dotV ![0, 1, 0] ![0, 0, -1] = 0 := by simp [dotV]
    have e2 : dotV (poleGreen .cubic) ![0, 0, -1] = -(1 / Real.sqrt 2) := by
      simp [dotV, poleGreen]
    have es : ipfSide ![0, 1, 0] ![0, 0, -1] = ![0, 0, -1] := by
      rcases side_cases ![0, 1, 0] ![0, 0, -1] with ⟨e, -⟩ | ⟨-, e⟩
      · exact e
      · rw [e1] at e
        linarith
    unfold ipfPart
    simp only [ei, es, e1, e2, arccosClip_eq, Real.arccos_zero, Real.arccos_neg, arccos_half_sqrt]
    field_simp
    ring
  funext k
  unfold ipfColour
  simp only [hr, hg, hb]
  fin_cases k <;> simp [hr, hg, hb] <;> norm_num

/-- C91: an orientation with a cube axis exactly along the sample direction is orange, not red. -/
theorem C91_cube_axis (quats : List (Quat ℝ)) (hq : ∀ q ∈ quats, q.IsUnit) (d : Vec) (hd : d ≠ 0) :
    ∃ cols, calcIpfColours .cubic quats d = .ok cols ∧
      List.Forall₂ (fun q c => (∃ i, |Spec.inCrystal q d i| = 1) → c = ![1, 2 / 3, 0]) quats cols := by
  obtain ⟨cols, e, h⟩ := calcIpf_of (C45_cube_axis "up" quats hq d hd)
  refine ⟨cols, e, h.imp ?_⟩
  rintro q c ⟨ab, hab, rfl⟩ hi
  rw [(hab hi).1]
  exact colour_axis

/-- C91: the other corners are pure green (`<011>`) and pure blue (`<111>`). -/
theorem C91_cubic_corners (quats : List (Quat ℝ)) (hq : ∀ q ∈ quats, q.IsUnit) (d : Vec) (hd : d ≠ 0) :
    ∃ cols, calcIpfColours .cubic quats d = .ok cols ∧
      List.Forall₂ (fun q c =>
        (Spec.EqvDir .cubic ![0, 1 / Real.sqrt 2, 1 / Real.sqrt 2] (Spec.inCrystal q d) →
          c = ![0, 1, 0]) ∧
        (Spec.EqvDir .cubic ![-1 / Real.sqrt 3, 1 / Real.sqrt 3, 1 / Real.sqrt 3] (Spec.inCrystal q d) →
          c = ![0, 0, 1])) quats cols := by
  obtain ⟨cols, e, h⟩ := calcIpf_of (C45_cubic "up" quats hq d hd)
  refine ⟨cols, e, h.imp ?_⟩
  have p := sq2_pos
  have q3 := sq3_pos
  have h2 := sq2
  have h3 := sq3
  rintro q c ⟨ab, ⟨hab, -, -, htri⟩, rfl⟩
  have key : ∀ w : Vec, Spec.CubicTriangle w → (∀ i, |w i| ≠ 1) →
      Spec.EqvDir .cubic w (Spec.inCrystal q d) → dirVec ab = w := by
    intro w hw hne hwq
    obtain ⟨σ, hσ⟩ := cubic_abs hwq
    obtain ⟨τ, hτ⟩ := cubic_abs hab
    refine triangle_unique (htri fun i => ?_) hw (σ.trans τ) fun i => ?_
    · rw [show i = σ (σ.symm i) by simp, hσ]
      exact hne _
    · show |Spec.poleDir ab (τ (σ i))| = |w i|
      rw [hτ, hσ]
  have ne2 : |1 / Real.sqrt 2| ≠ 1 := by
    rw [abs_of_pos (by positivity)]
    intro hh
    field_simp at hh
    rw [← hh] at h2
    norm_num at h2
  have ne3 : |1 / Real.sqrt 3| ≠ 1 := by
    rw [abs_of_pos (by positivity)]
    intro hh
    field_simp at hh
    rw [← hh] at h3
    norm_num at h3
  constructor
  · intro hw
    have := key _ ⟨by simp, by simp, by simp⟩ (by
      intro i
      fin_cases i
      · simp
      · exact ne2
      · exact ne2) hw
    rw [this]
    rw [pure_colour .cubic (by rw [← this]; exact dirVec_unit ab) 1 ?_]
    · funext j; fin_cases j <;> simp
    · intro j hj
      fin_cases j <;> simp_all [Spec.OppositeSide]
  · intro hw
    have := key _ ⟨by simp [neg_div], by simp [neg_div], by simp⟩ (by
      intro i
      fin_cases i
      · show |-1 / Real.sqrt 3| ≠ 1
        rw [neg_div, abs_neg]; exact ne3
      · exact ne3
      · exact ne3) hw
    rw [this]
    rw [pure_colour .cubic (by rw [← this]; exact dirVec_unit ab) 2 ?_]
    · funext j; fin_cases j <;> simp
    · intro j hj
      fin_cases j <;> simp_all [Spec.OppositeSide, neg_div]

/-- C91: a hexagonal crystal with its axis along the sample direction is pure red. -/
theorem C91_hexagonal_axis (quats : List (Quat ℝ)) (hq : ∀ q ∈ quats, q.IsUnit) (d : Vec) (hd : d ≠ 0) :
    ∃ cols, calcIpfColours .hexagonal quats d = .ok cols ∧
      List.Forall₂ (fun q c => (Spec.inCrystal q d 0 = 0 ∧ Spec.inCrystal q d 1 = 0) →
        c = ![1, 0, 0]) quats cols := by
  obtain ⟨cols, e, h⟩ := calcIpf_of (C45_hexagonal_axis (Or.inl rfl) quats hq d hd)
  refine ⟨cols, e, h.imp ?_⟩
  rintro q c ⟨ab, ⟨-, -, hab, -⟩, rfl⟩ hi
  rw [hab hi, pure_colour .hexagonal (dirVec_unit _) 0 ?_]
  · funext j; fin_cases j <;> simp
  · intro j hj
    fin_cases j <;> simp_all [Spec.OppositeSide, dirVec]

theorem off_axis {d : Vec} (hd : d ≠ 0) (q : Quat ℝ) (hu : q.IsUnit) (hne : |Spec.inCrystal q d 2| ≠ 1) :
    Spec.inCrystal q d 0 ≠ 0 ∨ Spec.inCrystal q d 1 ≠ 0 := by
  by_contra hh
  push Not at hh
  have := inCrystal_unit hu hd
  unfold Spec.UnitDir at this
  rw [hh.1, hh.2] at this
  apply hne
  rw [← sq_eq_sq₀ (abs_nonneg _) zero_le_one, sq_abs]
  linarith

/-- C91: the corners in the basal plane are pure green and pure blue, if no orientation has its axis
exactly along the sample direction. -/
theorem C91_hexagonal_corners (quats : List (Quat ℝ)) (hq : ∀ q ∈ quats, q.IsUnit) (d : Vec)
    (hd : d ≠ 0) (hoff : ∀ q ∈ quats, |Spec.inCrystal q d 2| ≠ 1) :
    ∃ cols, calcIpfColours .hexagonal quats d = .ok cols ∧
      List.Forall₂ (fun q c =>
        (Spec.EqvDir .hexagonal ![0, 1, 0] (Spec.inCrystal q d) → c = ![0, 1, 0]) ∧
        (Spec.EqvDir .hexagonal ![-1 / 2, Real.sqrt 3 / 2, 0] (Spec.inCrystal q d) →
          c = ![0, 0, 1])) quats cols := by
  obtain ⟨cols, e, h⟩ := calcIpf_of (C45_hexagonal (Or.inl rfl) quats hq d hd
    fun q h => off_axis hd q (hq q h) (hoff q h))
  refine ⟨cols, e, h.imp ?_⟩
  have pi := Real.pi_pos
  have q3 := sq3_pos
  have h3 := sq3
  rintro q c ⟨ab, ⟨hab, h1, hb⟩, rfl⟩
  have hbe : Spec.hexBounds "up" = (Real.pi / 2, 2 / 3 * Real.pi) := by
    simp [Spec.hexBounds]
    ring
  rw [hbe] at hb
  have key : ∀ y : ℝ × ℝ, (0 ≤ y.1 ∧ y.1 ≤ Real.pi / 2) →
      (Real.pi / 2 ≤ y.2 ∧ y.2 ≤ 2 / 3 * Real.pi) → |Spec.poleDir y 2| ≠ 1 →
      Spec.EqvDir .hexagonal (Spec.poleDir y) (Spec.inCrystal q d) → ab = y := by
    intro y a1 a2 a3 hy
    refine hex_unique h1 a1 hb a2 ?_ ?_ ?_
    · rw [hex_height hab, hex_height hy]
    · rw [hex_height hab, hex_height hy]; exact a3
    · rw [hex_inv_eqv hab, hex_inv_eqv hy]
  have e1 : (![0, 1, 0] : Vec) = Spec.poleDir (Real.pi / 2, Real.pi / 2) := by
    simp [Spec.poleDir]
  have e2 : (![-1 / 2, Real.sqrt 3 / 2, 0] : Vec) = Spec.poleDir (Real.pi / 2, 2 / 3 * Real.pi) := by
    have c1 : Real.cos (2 / 3 * Real.pi) = -1 / 2 := by
      rw [show 2 / 3 * Real.pi = Real.pi - Real.pi / 3 by ring, Real.cos_pi_sub, Real.cos_pi_div_three]
      ring
    have s1 : Real.sin (2 / 3 * Real.pi) = Real.sqrt 3 / 2 := by
      rw [show 2 / 3 * Real.pi = Real.pi - Real.pi / 3 by ring, Real.sin_pi_sub, Real.sin_pi_div_three]
    simp [Spec.poleDir, c1, s1]
  constructor
  · intro hw
    rw [e1] at hw
    rw [key _ ⟨by positivity, le_refl _⟩ ⟨le_refl _, by linarith⟩ (by simp [Spec.poleDir]) hw]
    rw [pure_colour .hexagonal (dirVec_unit _) 1 ?_]
    · funext j; fin_cases j <;> simp
    · intro j hj
      fin_cases j
      · exact Real.cos_pi_div_two
      · exact absurd rfl hj
      · show Real.sin (Real.pi / 2) * Real.cos (Real.pi / 2) = 0
        rw [Real.cos_pi_div_two, mul_zero]
  · intro hw
    rw [e2] at hw
    rw [key _ ⟨by positivity, le_refl _⟩ ⟨by linarith, le_refl _⟩ (by simp [Spec.poleDir]) hw]
    rw [pure_colour .hexagonal (dirVec_unit _) 2 ?_]
    · funext j; fin_cases j <;> simp
    · have e3 : dirVec (Real.pi / 2, 2 / 3 * Real.pi) = ![-1 / 2, Real.sqrt 3 / 2, 0] := e2.symm
      rw [e3]
      intro j hj
      fin_cases j
      · simp [Spec.OppositeSide]
      · show Real.sqrt 3 * (-1 / 2) = -(Real.sqrt 3 / 2)
        ring
      · exact absurd rfl hj

theorem variant_eqv {g : SymGroup} {q q' : Quat ℝ} (h : Spec.Variant g q q') (d : Vec) :
    Spec.EqvDir g (Spec.inCrystal q d) (Spec.inCrystal q' d) := by
  obtain ⟨s, hs, rfl⟩ := h
  exact ⟨s, hs, Or.inl (inCrystal_mul s q d)⟩

/-- C91: symmetric variants of cubic orientations have the same colours. -/
theorem C91_cubic_variants (quats quats' : List (Quat ℝ)) (hq : ∀ q ∈ quats, q.IsUnit)
    (hq' : ∀ q ∈ quats', q.IsUnit) (d : Vec) (hd : d ≠ 0)
    (hv : List.Forall₂ (Spec.Variant .cubic) quats quats') :
    calcIpfColours .cubic quats' d = calcIpfColours .cubic quats d := by
  have both : ∀ qs : List (Quat ℝ), (∀ q ∈ qs, q.IsUnit) →
      ∃ out, calcFundDirs .cubic "up" qs d = .ok out ∧
      List.Forall₂ (fun q ab => Spec.EqvDir .cubic (Spec.inCrystal q d) (Spec.poleDir ab) ∧
        ((∀ i, |Spec.inCrystal q d i| ≠ 1) → Spec.CubicTriangle (Spec.poleDir ab)) ∧
        ((∃ i, |Spec.inCrystal q d i| = 1) → ab = (Real.pi / 2, Real.pi / 2))) qs out := by
    intro qs h
    obtain ⟨o1, e1, h1⟩ := C45_cubic "up" qs h d hd
    obtain ⟨o2, e2, h2⟩ := C45_cube_axis "up" qs h d hd
    rw [e1] at e2
    cases e2
    refine ⟨o1, e1, ?_⟩
    rw [List.forall₂_iff_get] at h1 h2 ⊢
    exact ⟨h1.1, fun i a b => ⟨(h1.2 i a b).1, (h1.2 i a b).2.2.2, fun hx => (h2.2 i a b hx).1⟩⟩
  obtain ⟨o1, e1, h1⟩ := both quats hq
  obtain ⟨o2, e2, h2⟩ := both quats' hq'
  have hcol : o2.map (fun ab => ipfColour .cubic (dirVec ab)) =
      o1.map (fun ab => ipfColour .cubic (dirVec ab)) := by
    apply List.ext_getElem
    · simp [← h1.length_eq, ← h2.length_eq, hv.length_eq]
    · intro i a b
      simp only [List.length_map] at a b
      rw [List.forall₂_iff_get] at h1 h2 hv
      have i1 : i < quats.length := by rw [h1.1]; exact b
      have i2 : i < quats'.length := by rw [h2.1]; exact a
      obtain ⟨a1, a2, a3⟩ := h1.2 i i1 b
      obtain ⟨b1, b2, b3⟩ := h2.2 i i2 a
      have hvi := variant_eqv (hv.2 i i1 i2) d
      simp only [List.get_eq_getElem] at a1 a2 a3 b1 b2 b3 hvi
      simp only [List.getElem_map]
      congr 1
      obtain ⟨σ, hσ⟩ := cubic_abs hvi
      by_cases hax : ∃ k, |Spec.inCrystal quats[i] d k| = 1
      · obtain ⟨k, hk⟩ := hax
        rw [a3 ⟨k, hk⟩, b3 ⟨σ k, by rw [hσ, hk]⟩]
      · have n1 : ∀ k, |Spec.inCrystal quats[i] d k| ≠ 1 := fun k hk => hax ⟨k, hk⟩
        have n2 : ∀ k, |Spec.inCrystal quats'[i] d k| ≠ 1 := fun k hk =>
          n1 (σ.symm k) (by rw [← hσ, σ.apply_symm_apply, hk])
        obtain ⟨α, hα⟩ := cubic_abs a1
        obtain ⟨β, hβ⟩ := cubic_abs b1
        show Spec.poleDir o2[i] = Spec.poleDir o1[i]
        refine triangle_unique (b2 n2) (a2 n1) ((α.symm.trans σ).trans β) fun k => ?_
        rw [Equiv.trans_apply, hβ, Equiv.trans_apply, hσ, ← hα, α.apply_symm_apply]
  unfold calcIpfColours
  rw [e1, e2]
  exact congrArg Except.ok hcol

/-- C91: symmetric variants of hexagonal orientations have the same colours, if no orientation has
its axis exactly along the sample direction. -/
theorem C91_hexagonal_variants (quats quats' : List (Quat ℝ)) (hq : ∀ q ∈ quats, q.IsUnit)
    (hq' : ∀ q ∈ quats', q.IsUnit) (d : Vec) (hd : d ≠ 0)
    (hoff : ∀ q ∈ quats, |Spec.inCrystal q d 2| ≠ 1)
    (hv : List.Forall₂ (Spec.Variant .hexagonal) quats quats') :
    calcIpfColours .hexagonal quats' d = calcIpfColours .hexagonal quats d := by
  have hoff' : ∀ q ∈ quats', |Spec.inCrystal q d 2| ≠ 1 := by
    intro q hq2
    obtain ⟨i, hi, rfl⟩ := List.mem_iff_getElem.1 hq2
    rw [List.forall₂_iff_get] at hv
    have := hex_height (variant_eqv (hv.2 i (by rw [hv.1]; exact hi) hi) d)
    simp only [List.get_eq_getElem] at this
    rw [this]
    exact hoff _ (List.getElem_mem _)
  obtain ⟨o1, e1, h1⟩ := C45_hexagonal (Or.inl rfl) quats hq d hd fun q h => off_axis hd q (hq q h) (hoff q h)
  obtain ⟨o2, e2, h2⟩ := C45_hexagonal (Or.inl rfl) quats' hq' d hd fun q h => off_axis hd q (hq' q h) (hoff' q h)
  have : o2 = o1 := by
    apply List.ext_getElem
    · simp [← h1.length_eq, ← h2.length_eq, hv.length_eq]
    · intro i a b
      rw [List.forall₂_iff_get] at h1 h2 hv
      have i1 : i < quats.length := by rw [h1.1]; exact b
      have i2 : i < quats'.length := by rw [h2.1]; exact a
      obtain ⟨a1, a2, a3⟩ := h1.2 i i1 b
      obtain ⟨b1, b2, b3⟩ := h2.2 i i2 a
      have hvi := variant_eqv (hv.2 i i1 i2) d
      simp only [List.get_eq_getElem] at a1 a2 a3 b1 b2 b3 hvi
      have hb : Spec.hexBounds "up" = (Real.pi / 2, 2 / 3 * Real.pi) := by
        simp [Spec.hexBounds]
        ring
      rw [hb] at a3 b3
      refine hex_unique b2 a2 b3 a3 ?_ ?_ ?_
      · rw [hex_height b1, hex_height hvi, ← hex_height a1]
      · rw [hex_height b1]; exact hoff' _ (List.getElem_mem _)
      · rw [hex_inv_eqv b1, hex_inv_eqv hvi, ← hex_inv_eqv a1]
  unfold calcIpfColours
  rw [e1, e2, this]

/-- The reference orientation and a direction off all axes meet the hypotheses of the theorems on
variants. -/
example : (⟨1, 0, 0, 0⟩ : Quat ℝ).IsUnit ∧ (![1, 2, 2] : Vec) ≠ 0 ∧
    |Spec.inCrystal ⟨1, 0, 0, 0⟩ ![1, 2, 2] 2| ≠ 1 := by
  refine ⟨by simp [Quat.IsUnit, dot], ?_, ?_⟩
  · intro h
    have := congrFun h 0
    simp at this
  · have e : Real.sqrt ((1 : ℝ) + 2 * 2 + 2 * 2) = 3 := by
      rw [show (1 : ℝ) + 2 * 2 + 2 * 2 = 3 ^ 2 by norm_num, Real.sqrt_sq (by norm_num)]
    simp [Spec.inCrystal, rotMatrix, Matrix.mulVec, dotProduct, Fin.sum_univ_three, e]
    norm_num

/-- The cube orientation seen along an edge of the cube is at the corner that should be red. -/
example : |Spec.inCrystal ⟨1, 0, 0, 0⟩ ![0, 0, 1] 2| = 1 := by
  simp [Spec.inCrystal, rotMatrix, Matrix.mulVec, dotProduct, Fin.sum_univ_three]

end DefDAP
