import Verif.Props.Kam
import Verif.Props.MisoriGrains

/-! C144: kernel average misorientation, the misorientations of the neighbours and equivalent orientations. -/

namespace DefDAP

open Quat Spec Matrix

/-- Two pixels side by side or above each other. -/
def Spec.NextTo (i j r c : Int) : Prop := |r - i| + |c - j| = 1

theorem mean_lt (n : Nat) (hn : 2 ≤ n) (i : Int) (h0 : 0 ≤ i) (h1 : i < n) (v : Int → ℝ) {b : ℝ}
    (hb : ∀ k ∈ Spec.lineNeighbours n i, v k < b) : Spec.neighbourMean n i v < b := by
  unfold Spec.neighbourMean
  by_cases c : i = 0
  · subst c
    rw [neighbours_first n hn] at hb ⊢
    simpa using hb 1 (by simp)
  · by_cases d : i = (n : Int) - 1
    · rw [neighbours_last n hn i d] at hb ⊢
      simpa using hb _ (by simp)
    · rw [neighbours_mid n i (by omega) (by omega)] at hb ⊢
      have b1 := hb (i - 1) (by simp)
      have b2 := hb (i + 1) (by simp)
      simp only [List.map_cons, List.map_nil, List.sum_cons, List.sum_nil, List.length_cons, List.length_nil]
      norm_num
      linarith

theorem mean_ge (n : Nat) (hn : 2 ≤ n) (i : Int) (h0 : 0 ≤ i) (h1 : i < n) (v : Int → ℝ) {a : ℝ}
    (ha : ∀ k ∈ Spec.lineNeighbours n i, a ≤ v k) : a ≤ Spec.neighbourMean n i v := by
  unfold Spec.neighbourMean
  by_cases c : i = 0
  · subst c
    rw [neighbours_first n hn] at ha ⊢
    simpa using ha 1 (by simp)
  · by_cases d : i = (n : Int) - 1
    · rw [neighbours_last n hn i d] at ha ⊢
      simpa using ha _ (by simp)
    · rw [neighbours_mid n i (by omega) (by omega)] at ha ⊢
      have a1 := ha (i - 1) (by simp)
      have a2 := ha (i + 1) (by simp)
      simp only [List.map_cons, List.map_nil, List.sum_cons, List.sum_nil, List.length_cons, List.length_nil]
      norm_num
      linarith

theorem mem_lineNeighbours {n : Nat} {i k : Int} :
    k ∈ Spec.lineNeighbours n i ↔ (k = i - 1 ∨ k = i + 1) ∧ 0 ≤ k ∧ k < n := by
  simp [Spec.lineNeighbours, List.mem_filter]

theorem kam_sizes {rows cols : Nat} {q : Int → Int → Quat ℝ} {kam : Int → Int → ℝ}
    (hk : calcKam rows cols q = .ok kam) : 2 ≤ rows ∧ 2 ≤ cols := by
  by_contra h
  rw [C63_small _ _ _ (by omega)] at hk
  cases hk

theorem overlap_neighbours {rows cols : Nat} {i j : Int} (hm : InGrid rows cols i j) {P : Int → Int → Prop}
    (h : ∀ r c, InGrid rows cols r c → NextTo i j r c → P r c) :
    (∀ k ∈ Spec.lineNeighbours rows i, P k j) ∧ ∀ k ∈ Spec.lineNeighbours cols j, P i k := by
  obtain ⟨h0, h1, h2, h3⟩ := hm
  constructor
  · intro k hk
    obtain ⟨hx, a, b⟩ := mem_lineNeighbours.1 hk
    exact h k j ⟨a, b, h2, h3⟩ (by unfold NextTo; rcases hx with rfl | rfl <;> simp)
  · intro k hk
    obtain ⟨hx, a, b⟩ := mem_lineNeighbours.1 hk
    exact h i k ⟨h0, h1, a, b⟩ (by unfold NextTo; rcases hx with rfl | rfl <;> simp)

theorem half_angle {p r : Quat ℝ} (hp : p.IsUnit) (hr : r.IsUnit) :
    rotationAngle (rotMatrix p * (rotMatrix r)ᵀ) = 2 * Real.arccos (overlap p r) := by
  rw [rotationAngle_eq hp hr, overlap_eq]

/-- **C144** The kernel average of a pixel is at most any bound of the angles between its orientation and
those of its neighbours. -/
theorem C144_at_most (rows cols : Nat) (q : Int → Int → Quat ℝ) (kam : Int → Int → ℝ)
    (hk : calcKam rows cols q = .ok kam) (hu : Spec.UnitMap rows cols q) (i j : Int)
    (hm : InGrid rows cols i j) (hi : ℝ)
    (hn : ∀ r c, InGrid rows cols r c → NextTo i j r c →
      rotationAngle (rotMatrix (q i j) * (rotMatrix (q r c))ᵀ) ≤ hi) : kam i j ≤ hi := by
  obtain ⟨hr, hc⟩ := kam_sizes hk
  obtain ⟨kam', hk', hv⟩ := C63_value rows cols hr hc q hu
  rw [hk] at hk'
  cases hk'
  rw [hv i j hm]
  have hpi := Real.pi_pos
  have g := overlap_neighbours hm hn
  have m1 := mean_nonneg rows i (fun r => Spec.overlap (q i j) (q r j)) fun _ => abs_nonneg _
  have m2 := mean_nonneg cols j (fun c => Spec.overlap (q i j) (q i c)) fun _ => abs_nonneg _
  obtain ⟨h0, h1, h2, h3⟩ := hm
  rcases le_or_gt Real.pi hi with hbig | hsm
  · have := Real.arccos_le_pi_div_two.2 (div_nonneg (add_nonneg m1 m2) zero_le_two)
    linarith
  have key : ∀ x : ℝ, x ≤ 1 → 0 ≤ x → 2 * Real.arccos x ≤ hi → Real.cos (hi / 2) ≤ x := by
    intro x x1 x0 hx
    rw [← Real.cos_arccos (by linarith : -1 ≤ x) x1]
    exact Real.cos_le_cos_of_nonneg_of_le_pi (Real.arccos_nonneg _) (by linarith) (by linarith)
  have e1 : Real.cos (hi / 2) ≤ Spec.neighbourMean rows i fun r => Spec.overlap (q i j) (q r j) := by
    refine mean_ge rows hr i h0 h1 _ fun k hkn => ?_
    have hb := (mem_lineNeighbours.1 hkn).2
    have u1 := hu i j ⟨h0, h1, h2, h3⟩
    have u2 := hu k j ⟨hb.1, hb.2, h2, h3⟩
    refine key _ (abs_dot_le_one u1 u2) (abs_nonneg _) ?_
    rw [← half_angle u1 u2]
    exact g.1 k hkn
  have e2 : Real.cos (hi / 2) ≤ Spec.neighbourMean cols j fun c => Spec.overlap (q i j) (q i c) := by
    refine mean_ge cols hc j h2 h3 _ fun k hkn => ?_
    have hb := (mem_lineNeighbours.1 hkn).2
    have u1 := hu i j ⟨h0, h1, h2, h3⟩
    have u2 := hu i k ⟨h0, h1, hb.1, hb.2⟩
    refine key _ (abs_dot_le_one u1 u2) (abs_nonneg _) ?_
    rw [← half_angle u1 u2]
    exact g.2 k hkn
  have hi0 : 0 ≤ hi := by
    obtain ⟨k, hkn⟩ : ∃ k, k ∈ Spec.lineNeighbours rows i := by
      by_cases c : i = 0
      · exact ⟨1, mem_lineNeighbours.2 (by omega)⟩
      · exact ⟨i - 1, mem_lineNeighbours.2 (by omega)⟩
    exact (Real.arccos_nonneg _).trans (g.1 k hkn)
  have := Real.arccos_le_arccos (show Real.cos (hi / 2) ≤ _ from (by linarith : Real.cos (hi / 2) ≤
    ((Spec.neighbourMean rows i fun r => Spec.overlap (q i j) (q r j)) +
      Spec.neighbourMean cols j fun c => Spec.overlap (q i j) (q i c)) / 2))
  rw [Real.arccos_cos (by linarith) (by linarith)] at this
  linarith

/-- **C144** If the kernel average of a pixel is at most some angle, it is that close to one of its
neighbours: a pixel further than the angle from each of its neighbours, even up to crystal symmetry, has a
larger kernel average. -/
theorem C144_isolated (rows cols : Nat) (q : Int → Int → Quat ℝ) (kam : Int → Int → ℝ)
    (hk : calcKam rows cols q = .ok kam) (hu : Spec.UnitMap rows cols q) (i j : Int)
    (hm : InGrid rows cols i j) (g : SymGroup) (deg : ℝ)
    (hn : ∀ r c, InGrid rows cols r c → NextTo i j r c →
      ¬ Close g deg (rotMatrix (q i j)) (rotMatrix (q r c))) : deg * (Real.pi / 180) < kam i j := by
  obtain ⟨hr, hc⟩ := kam_sizes hk
  obtain ⟨kam', hk', hv⟩ := C63_value rows cols hr hc q hu
  rw [hk] at hk'
  cases hk'
  rw [hv i j hm]
  have hpi := Real.pi_pos
  have hn' : ∀ r c, InGrid rows cols r c → NextTo i j r c →
      deg * (Real.pi / 180) < 2 * Real.arccos (overlap (q i j) (q r c)) := by
    intro r c hrc hnx
    by_contra hle
    refine hn r c hrc hnx ?_
    rw [← neighbourAngle_le g (hu i j hm) (hu r c hrc)]
    refine le_trans ?_ (not_lt.1 hle)
    obtain ⟨-, hl⟩ := largestOverlap_spec (symEqv_table g) (hu i j hm) (hu r c hrc)
    have h1 := hl ⟨1, 0, 0, 0⟩ (by cases g <;> simp [symEqv, cubicExact, hexagonalExact, Quat.real, s0, s1, Surd.real])
    have e : mulRaw ⟨1, 0, 0, 0⟩ (q r c) = q r c := by
      ext <;> simp [mulRaw]
    rw [e] at h1
    have := Real.arccos_le_arccos h1
    unfold neighbourAngle
    rw [overlap_eq]
    linarith
  have gg := overlap_neighbours hm hn'
  have m1 := mean_nonneg rows i (fun r => Spec.overlap (q i j) (q r j)) fun _ => abs_nonneg _
  have m2 := mean_nonneg cols j (fun c => Spec.overlap (q i j) (q i c)) fun _ => abs_nonneg _
  obtain ⟨h0, h1, h2, h3⟩ := hm
  set D := deg * (Real.pi / 180) with hD
  rcases lt_or_ge D 0 with hneg | hpos
  · exact lt_of_lt_of_le hneg (mul_nonneg zero_le_two (Real.arccos_nonneg _))
  have key : ∀ x : ℝ, x ≤ 1 → 0 ≤ x → D < 2 * Real.arccos x → x < Real.cos (D / 2) := by
    intro x x1 x0 hx
    rw [← Real.cos_arccos (by linarith : -1 ≤ x) x1]
    exact Real.cos_lt_cos_of_nonneg_of_le_pi (by linarith) (Real.arccos_le_pi _) (by linarith)
  have e1 : (Spec.neighbourMean rows i fun r => Spec.overlap (q i j) (q r j)) < Real.cos (D / 2) := by
    refine mean_lt rows hr i h0 h1 _ fun k hkn => ?_
    have hb := (mem_lineNeighbours.1 hkn).2
    exact key _ (abs_dot_le_one (hu i j ⟨h0, h1, h2, h3⟩) (hu k j ⟨hb.1, hb.2, h2, h3⟩)) (abs_nonneg _)
      (gg.1 k hkn)
  have e2 : (Spec.neighbourMean cols j fun c => Spec.overlap (q i j) (q i c)) < Real.cos (D / 2) := by
    refine mean_lt cols hc j h2 h3 _ fun k hkn => ?_
    have hb := (mem_lineNeighbours.1 hkn).2
    exact key _ (abs_dot_le_one (hu i j ⟨h0, h1, h2, h3⟩) (hu i k ⟨h0, h1, hb.1, hb.2⟩)) (abs_nonneg _)
      (gg.2 k hkn)
  have hlt : ((Spec.neighbourMean rows i fun r => Spec.overlap (q i j) (q r j)) +
      Spec.neighbourMean cols j fun c => Spec.overlap (q i j) (q i c)) / 2 < Real.cos (D / 2) := by linarith
  have := Real.arccos_lt_arccos (by linarith) hlt (Real.cos_le_one _)
  have hd : D / 2 ≤ Real.pi := by
    obtain ⟨k, hkn⟩ : ∃ k, k ∈ Spec.lineNeighbours rows i := by
      by_cases c : i = 0
      · exact ⟨1, mem_lineNeighbours.2 (by omega)⟩
      · exact ⟨i - 1, mem_lineNeighbours.2 (by omega)⟩
    have a := gg.1 k hkn
    have b := Real.arccos_le_pi (overlap (q i j) (q k j))
    linarith
  rw [Real.arccos_cos (by linarith) hd] at this
  linarith

/-- **C144** is false for equivalent orientations, for both crystal types: there is a map on which all
pixels have equivalent orientations and a pixel has a kernel average of 180 degrees. -/
theorem C144_equivalents (g : SymGroup) : ∃ (q : Int → Int → Quat ℝ) (kam : Int → Int → ℝ),
    Spec.UnitMap 2 2 q ∧ (∀ i j r c, Close g 0 (rotMatrix (q i j)) (rotMatrix (q r c))) ∧
    calcKam 2 2 q = .ok kam ∧ kam 0 0 = Real.pi := by
  have hu : Spec.UnitMap 2 2 fun i j => if i = 0 ∧ j = 0 then ⟨1, 0, 0, 0⟩ else ⟨0, 1, 0, 0⟩ := by
    intro i j _
    dsimp only
    split_ifs <;> simp [Quat.IsUnit]
  obtain ⟨kam, hk, hv⟩ := C63_value 2 2 (le_refl _) (le_refl _) _ hu
  refine ⟨_, kam, hu, ?_, hk, ?_⟩
  · intro i j r c
    have u1 : (⟨1, 0, 0, 0⟩ : Quat ℝ).IsUnit := by simp [Quat.IsUnit]
    have u2 : (⟨0, 1, 0, 0⟩ : Quat ℝ).IsUnit := by simp [Quat.IsUnit]
    have m1 : (⟨1, 0, 0, 0⟩ : Quat ℝ) ∈ symEqv g := by
      cases g <;> simp [symEqv, cubicExact, hexagonalExact, Quat.real, s0, s1, Surd.real]
    have m2 : (⟨0, 1, 0, 0⟩ : Quat ℝ) ∈ symEqv g := by
      cases g <;> simp [symEqv, cubicExact, hexagonalExact, Quat.real, s0, s1, Surd.real]
    have key : ∀ {p r s : Quat ℝ}, p.IsUnit → r.IsUnit → s ∈ symEqv g → |dot p (mulRaw s r)| = 1 →
        Close g 0 (rotMatrix p) (rotMatrix r) := by
      intro p r s hp hr hs h1
      rw [← neighbourAngle_le g hp hr]
      obtain ⟨-, hl⟩ := largestOverlap_spec (symEqv_table g) hp hr
      have := hl s hs
      rw [h1] at this
      unfold neighbourAngle
      rw [Real.arccos_eq_zero.2 this]
      simp
    split_ifs
    · exact key u1 u1 m1 (by simp [dot, mulRaw])
    · exact key u1 u2 m2 (by simp [dot, mulRaw])
    · exact key u2 u1 m2 (by simp [dot, mulRaw])
    · exact key u2 u2 m1 (by simp [dot, mulRaw])
  · rw [hv 0 0 ⟨by simp, by simp, by simp, by simp⟩]
    unfold Spec.neighbourMean
    rw [neighbours_first 2 (le_refl _)]
    simp [Spec.overlap]
    ring

/-- **C144** The kernel averages of a map turned by half a turn, with the orientations in any other sample
frame, are those of the map, turned. -/
theorem C144_turned (rows cols : Nat) (q q' : Int → Int → Quat ℝ) (t : Quat ℝ) (ht : t.IsUnit)
    (hu : Spec.UnitMap rows cols q) (hu' : Spec.UnitMap rows cols q')
    (hq : ∀ i j, InGrid rows cols i j →
      rotMatrix (q' i j) = rotMatrix (q (rows - 1 - i) (cols - 1 - j)) * rotMatrix t)
    (kam kam' : Int → Int → ℝ) (hk : calcKam rows cols q = .ok kam)
    (hk' : calcKam rows cols q' = .ok kam') (i j : Int) (hm : InGrid rows cols i j) :
    kam' i j = kam (rows - 1 - i) (cols - 1 - j) := by
  obtain ⟨hr, hc⟩ := kam_sizes hk
  have flip : ∀ {i j : Int}, InGrid rows cols i j → InGrid rows cols (rows - 1 - i) (cols - 1 - j) := by
    rintro i j ⟨h0, h1, h2, h3⟩
    exact ⟨by omega, by omega, by omega, by omega⟩
  have hu2 : Spec.UnitMap rows cols fun i j => q (rows - 1 - i) (cols - 1 - j) := fun i j h => hu _ _ (flip h)
  obtain ⟨k2, hk2, hv2⟩ := C63_value rows cols hr hc _ hu2
  rw [C63_rotated rows cols _ q' t ht hu2 hu' (.inl hq) k2 kam' hk2 hk' i j hm]
  obtain ⟨_, hk1, hv⟩ := C63_value rows cols hr hc q hu
  rw [hk] at hk1; cases hk1
  rw [hv2 i j hm, hv _ _ (flip hm)]
  have rev : ∀ (n : Nat), 2 ≤ n → ∀ (i : Int), 0 ≤ i → i < n → ∀ v : Int → ℝ,
      Spec.neighbourMean n i (fun k => v (n - 1 - k)) = Spec.neighbourMean n (n - 1 - i) v := by
    intro n hn i h0 h1 v
    unfold Spec.neighbourMean
    by_cases c : i = 0
    · subst c
      rw [neighbours_first n hn, neighbours_last n hn _ (by omega)]
      simp
    · by_cases d : i = (n : Int) - 1
      · rw [neighbours_last n hn i d]
        have : (n : Int) - 1 - i = 0 := by omega
        rw [this, neighbours_first n hn]
        have : (n : Int) - 1 - (i - 1) = 1 := by omega
        simp [this]
      · rw [neighbours_mid n i (by omega) (by omega), neighbours_mid n _ (by omega) (by omega)]
        have e1 : (n : Int) - 1 - (i - 1) = n - 1 - i + 1 := by omega
        have e2 : (n : Int) - 1 - (i + 1) = n - 1 - i - 1 := by omega
        simp only [List.map_cons, List.map_nil, List.sum_cons, List.sum_nil, List.length_cons,
          List.length_nil, e1, e2]
        ring
  obtain ⟨h0, h1, h2, h3⟩ := hm
  rw [← rev rows hr i h0 h1 fun r => Spec.overlap (q (rows - 1 - i) (cols - 1 - j)) (q r (cols - 1 - j)),
    ← rev cols hc j h2 h3 fun c => Spec.overlap (q (rows - 1 - i) (cols - 1 - j)) (q (rows - 1 - i) c)]

/-- A map to which the bounds apply: one pixel turned by 90 degrees about the normal against the others.
Its kernel average is at most 90 degrees, and for a hexagonal crystal more than 29 degrees. -/
example : ∃ (q : Int → Int → Quat ℝ) (kam : Int → Int → ℝ), Spec.UnitMap 2 2 q ∧ calcKam 2 2 q = .ok kam ∧
    29 * (Real.pi / 180) < kam 0 0 := by
  have hu : Spec.UnitMap 2 2 fun i j => if i = 0 ∧ j = 0 then quarterTurn else ⟨1, 0, 0, 0⟩ := by
    intro i j _
    dsimp only
    split_ifs
    · exact quarterTurn_unit
    · exact one_unit
  obtain ⟨kam, hk, -⟩ := C63_value 2 2 (le_refl _) (le_refl _) _ hu
  refine ⟨_, kam, hu, hk, C144_isolated 2 2 _ kam hk hu 0 0 ⟨by simp, by simp, by simp, by simp⟩ .hexagonal 29 ?_⟩
  intro r c _ hnx
  have : ¬ (r = 0 ∧ c = 0) := by
    rintro ⟨rfl, rfl⟩
    simp [NextTo] at hnx
  simp only [this, if_false, and_self, if_true]
  exact quarterTurn_prism (by norm_num)

end DefDAP
