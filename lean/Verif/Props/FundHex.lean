import Verif.Props.FundTables

/-! C45: the fundamental direction of hexagonal crystals. -/

namespace DefDAP

open Quat Matrix

/-- The direction with inclination `ab.1` from the pole and azimuth `ab.2`. -/
noncomputable def Spec.poleDir (ab : ℝ × ℝ) : Fin 3 → ℝ :=
  ![Real.sin ab.1 * Real.cos ab.2, Real.sin ab.1 * Real.sin ab.2, Real.cos ab.1]

/-- `v` is the image of the direction `c` or of its opposite under a symmetry of the crystal. -/
def Spec.EqvDir (g : SymGroup) (c v : Fin 3 → ℝ) : Prop :=
  ∃ s ∈ symEqv g, v = rotMatrix s *ᵥ c ∨ v = -(rotMatrix s *ᵥ c)

/-! ### What the function does for each orientation -/

theorem mapM_forall {α β : Type} {f : α → Except Err β} {P : α → β → Prop} :
    ∀ l : List α, (∀ a ∈ l, ∃ b, f a = .ok b ∧ P a b) →
      ∃ out, l.mapM f = .ok out ∧ List.Forall₂ P l out
  | [], _ => ⟨[], rfl, .nil⟩
  | a :: t, h => by
    obtain ⟨b, hb, pb⟩ := h a (by simp)
    obtain ⟨out, ho, po⟩ := mapM_forall t fun x hx => h x (List.mem_cons_of_mem _ hx)
    refine ⟨b :: out, ?_, .cons pb po⟩
    rw [List.mapM_cons, hb, ho]
    rfl

theorem fund_angles (g : SymGroup) {quats : List (Quat ℝ)} (hq : ∀ q ∈ quats, q.IsUnit)
    {d : Fin 3 → ℝ} (hd : d ≠ 0) :
    ((List.range quats.length).map fun k =>
      (column (calcSymEqvs (symEqv g) quats) k).map fun q => crystalAngles q d) =
    quats.map fun q => groupAngles (symEqv g) (Spec.inCrystal q d) := by
  apply List.ext_getElem
  · simp
  · intro k h1 h2
    simp only [List.length_map, List.length_range] at h1
    simp only [List.getElem_map, List.getElem_range]
    exact column_angles (symEqv_table g) quats k quats[k] (List.getElem?_eq_getElem h1)
      (hq _ (List.getElem_mem h1)) hd

/-- The function searches the table of each orientation, with `delta` zero unless some orientation
has too few poles. -/
theorem fund_dirs (g : SymGroup) {triangle : String} {quats : List (Quat ℝ)}
    (hq : ∀ q ∈ quats, q.IsUnit) {d : Fin 3 → ℝ} (hd : d ≠ 0) {r : ℝ × ℝ × Nat}
    (hr : betaRange g triangle = .ok r) {P : Quat ℝ → ℝ × ℝ → Prop} {delta : ℝ}
    (hdelta : delta = if (∃ q ∈ quats, (trialPoles r.1 r.2.1 0
      (groupAngles (symEqv g) (Spec.inCrystal q d))).count true < r.2.2) then 1 / 10 ^ 8 else 0)
    (h : ∀ q ∈ quats, ∃ ab, fundPick g r.1 r.2.1 delta
      (groupAngles (symEqv g) (Spec.inCrystal q d)) = .ok ab ∧ P q ab) :
    ∃ out, calcFundDirs g triangle quats d = .ok out ∧ List.Forall₂ P quats out := by
  obtain ⟨out, ho, hp⟩ := mapM_forall (P := P)
    (f := fun q => fundPick g r.1 r.2.1 delta (groupAngles (symEqv g) (Spec.inCrystal q d))) quats h
  refine ⟨out, ?_, hp⟩
  unfold calcFundDirs
  simp only [fund_angles g hq hd, hr, Except.bind]
  rw [List.mapM_map]
  have e : (if ((quats.map fun q => groupAngles (symEqv g) (Spec.inCrystal q d)).any fun a =>
      decide ((trialPoles r.1 r.2.1 0 a).count true < r.2.2)) = true then (1 / 10 ^ 8 : ℝ) else 0) =
      delta := by
    rw [hdelta]
    congr 1
    simp [List.any_eq_true]
  rw [e]
  exact ho

theorem fund_dirs_wide (g : SymGroup) {triangle : String} {quats : List (Quat ℝ)}
    (hq : ∀ q ∈ quats, q.IsUnit) {d : Fin 3 → ℝ} (hd : d ≠ 0) {r : ℝ × ℝ × Nat}
    (hr : betaRange g triangle = .ok r) {P : Quat ℝ → ℝ × ℝ → Prop}
    (h : ∀ delta : ℝ, 0 ≤ delta → delta ≤ 1 / 10 ^ 8 → ∀ q ∈ quats, ∃ ab,
      fundPick g r.1 r.2.1 delta (groupAngles (symEqv g) (Spec.inCrystal q d)) = .ok ab ∧ P q ab) :
    ∃ out, calcFundDirs g triangle quats d = .ok out ∧ List.Forall₂ P quats out := by
  refine fund_dirs g hq hd hr rfl (h _ ?_ ?_)
  · split_ifs <;> norm_num
  · split_ifs <;> norm_num

theorem groupAngles_mem {l : List (Quat ℝ)} (hl : SymTable l) {c : Fin 3 → ℝ}
    (hc : Spec.UnitDir c) {ab : ℝ × ℝ} (h : ab ∈ groupAngles l c) :
    ∃ s ∈ l, Spec.poleDir ab = Spec.northern (rotMatrix s *ᵥ c) ∧
      ab = (Real.arccos (Spec.northern (rotMatrix s *ᵥ c) 2),
        arctan2 (Spec.northern (rotMatrix s *ᵥ c) 1) (Spec.northern (rotMatrix s *ᵥ c) 0)) ∧
      0 ≤ ab.1 ∧ ab.1 ≤ Real.pi / 2 := by
  obtain ⟨s, hs, rfl⟩ := List.mem_map.1 h
  refine ⟨s, hs, ?_, rfl, Real.arccos_nonneg _, ?_⟩
  · have hu := northern_unit (rot_unitDir (hl.unit s hs) hc)
    set w := Spec.northern (rotMatrix s *ᵥ c)
    unfold Spec.UnitDir at hu
    have hz : Real.sin (Real.arccos (w 2)) = Real.sqrt (w 0 ^ 2 + w 1 ^ 2) := by
      rw [Real.sin_arccos]; congr 1; linarith
    have hcz : Real.cos (Real.arccos (w 2)) = w 2 :=
      Real.cos_arccos (by nlinarith [sq_nonneg (w 0), sq_nonneg (w 1)])
        (by nlinarith [sq_nonneg (w 0), sq_nonneg (w 1)])
    by_cases hne : w 0 ^ 2 + w 1 ^ 2 = 0
    · have hx : w 0 = 0 := by nlinarith [sq_nonneg (w 0), sq_nonneg (w 1)]
      have hy : w 1 = 0 := by nlinarith [sq_nonneg (w 0), sq_nonneg (w 1)]
      ext i
      fin_cases i <;> simp [Spec.poleDir, hz, hcz, hx, hy, w]
    · have hr : Real.sqrt (w 0 ^ 2 + w 1 ^ 2) ≠ 0 := by
        rw [Real.sqrt_ne_zero']
        exact lt_of_le_of_ne (by positivity) (Ne.symm hne)
      have e1 := cos_azimuth hne
      have e2 := sin_azimuth hne
      ext i
      fin_cases i
      · show Real.sin (Real.arccos (w 2)) * Real.cos (arctan2 (w 1) (w 0)) = w 0
        rw [hz, e1]; field_simp
      · show Real.sin (Real.arccos (w 2)) * Real.sin (arctan2 (w 1) (w 0)) = w 1
        rw [hz, e2]; field_simp
      · exact hcz
  · rw [Real.arccos_le_pi_div_two]
    exact northern_nonneg _

theorem eqvDir_northern {g : SymGroup} {c v : Fin 3 → ℝ} {s : Quat ℝ} (hs : s ∈ symEqv g)
    (h : v = Spec.northern (rotMatrix s *ᵥ c)) : Spec.EqvDir g c v := by
  refine ⟨s, hs, ?_⟩
  rcases northern_cases (rotMatrix s *ᵥ c) with ⟨e, -⟩ | ⟨e, -⟩
  · exact .inl (h.trans e)
  · exact .inr (h.trans e)

/-! ### Hexagonal -/

theorem hex_axis_exact : ∀ q ∈ hexagonalExact,
    (∀ j : Fin 3, j ≠ 2 → exactRotT q j 2 = ⟨0, 0⟩) ∧ (∀ j : Fin 3, j ≠ 2 → exactRotT q 2 j = ⟨0, 0⟩) ∧
    (exactRotT q 2 2 = ⟨1, 0⟩ ∨ exactRotT q 2 2 = ⟨-1, 0⟩) := by decide +kernel

/-- The symmetries of a hexagonal crystal keep its axis. -/
theorem hex_axis (c : Fin 3 → ℝ) {s : Quat ℝ} (hs : s ∈ symEqv .hexagonal) :
    Spec.northern (rotMatrix s *ᵥ c) 2 = |c 2| := by
  obtain ⟨q, hq, rfl⟩ := List.mem_map.1 hs
  obtain ⟨h1, -, h2⟩ := hex_axis_exact q hq
  have e : ∀ i j, rotMatrix q.real i j = (exactRotT q j i).real := fun i j => by
    rw [← exactRotT_real]; rfl
  have v : (rotMatrix q.real *ᵥ c) 2 = c 2 ∨ (rotMatrix q.real *ᵥ c) 2 = -c 2 := by
    simp only [Matrix.mulVec, dotProduct, Fin.sum_univ_three, e]
    rw [h1 0 (by decide), h1 1 (by decide)]
    rcases h2 with h | h <;> rw [h] <;> simp [Surd.real]
  have a : |(rotMatrix q.real *ᵥ c) 2| = |c 2| := by
    rcases v with v | v <;> rw [v]
    rw [abs_neg]
  rw [← a]
  rcases northern_cases (rotMatrix q.real *ᵥ c) with ⟨x, y⟩ | ⟨x, y⟩
  · rw [x, abs_of_nonneg y]
  · rw [x, Pi.neg_apply, abs_of_neg y]

/-- The bounds of the azimuth in the two triangles. -/
noncomputable def Spec.hexBounds (triangle : String) : ℝ × ℝ :=
  if triangle = "up" then (Real.pi / 2, 2 * Real.pi / 3) else (Real.pi / 3, Real.pi / 2)

theorem hex_range {triangle : String} (h : triangle = "up" ∨ triangle = "down") :
    betaRange .hexagonal triangle =
      .ok ((Spec.hexBounds triangle).1, (Spec.hexBounds triangle).2, 1) := by
  rcases h with rfl | rfl
  · simp only [betaRange, Spec.hexBounds, if_true]
    norm_num; ring
  · have e : ¬ ("down" = "up") := by decide
    simp only [betaRange, Spec.hexBounds, if_neg e, if_true]
    norm_num; ring

theorem trial_count {lo hi delta : ℝ} {angles : List (ℝ × ℝ)} :
    (trialPoles lo hi delta angles).count true = 0 ↔
      ∀ ab ∈ angles, ¬(lo - delta ≤ ab.2 ∧ ab.2 ≤ hi + delta) := by
  rw [List.count_eq_zero]
  simp [trialPoles]

/-- A direction off the axis has an image in the range of azimuths. -/
theorem hex_some {triangle : String} (h : triangle = "up" ∨ triangle = "down") {c : Fin 3 → ℝ}
    (hc : Spec.UnitDir c) (hoff : c 0 ≠ 0 ∨ c 1 ≠ 0) :
    ∃ ab ∈ groupAngles (symEqv .hexagonal) c, (Spec.hexBounds triangle).1 ≤ ab.2 ∧
      ab.2 ≤ (Spec.hexBounds triangle).2 := by
  have off : ∀ s ∈ symEqv .hexagonal, 0 < Spec.northern (rotMatrix s *ᵥ c) 0 ^ 2 +
      Spec.northern (rotMatrix s *ᵥ c) 1 ^ 2 := by
    intro s hs
    have hu := northern_unit (rot_unitDir ((symEqv_table .hexagonal).unit s hs) hc)
    unfold Spec.UnitDir at hu hc
    have := hex_axis c hs
    rw [this, sq_abs] at hu
    have : 0 < c 0 ^ 2 + c 1 ^ 2 := by
      rcases hoff with h | h <;> positivity
    linarith
  have h3 : 0 < Real.sqrt 3 := Real.sqrt_pos.2 (by norm_num)
  obtain ⟨⟨s, hs, a, b⟩, ⟨t, ht, a', b'⟩⟩ := hex_exists c
  rcases h with rfl | rfl
  · refine ⟨_, List.mem_map.2 ⟨s, hs, rfl⟩, ?_⟩
    have hy : 0 < Spec.northern (rotMatrix s *ᵥ c) 1 := by
      have := off s hs
      by_contra hn
      have h1 : Spec.northern (rotMatrix s *ᵥ c) 0 = 0 := by nlinarith
      have h2 : Spec.northern (rotMatrix s *ᵥ c) 1 = 0 := by rw [h1] at b; linarith
      rw [h1, h2] at this
      norm_num at this
    have := (hex_sector_up _ _).2 ⟨a, b, hy⟩
    simp only [Spec.hexBounds, if_true]
    exact ⟨this.1, by linarith [this.2]⟩
  · refine ⟨_, List.mem_map.2 ⟨t, ht, rfl⟩, ?_⟩
    have hy : 0 < Spec.northern (rotMatrix t *ᵥ c) 1 := by
      have := off t ht
      by_contra hn
      have h1 : Spec.northern (rotMatrix t *ᵥ c) 0 = 0 := by nlinarith
      have h2 : Spec.northern (rotMatrix t *ᵥ c) 1 = 0 := by rw [h1] at b'; linarith
      rw [h1, h2] at this
      norm_num at this
    have := (hex_sector_down _ _).2 ⟨a', b', hy⟩
    have e : Spec.hexBounds "down" = (Real.pi / 3, Real.pi / 2) := by simp [Spec.hexBounds]
    rw [e]
    exact ⟨by linarith [this.1], this.2⟩

/-- The first row that is in range, or the first row. -/
theorem hex_pick (lo hi delta : ℝ) {angles : List (ℝ × ℝ)} (hne : angles ≠ []) :
    ∃ ab ∈ angles, fundPick .hexagonal lo hi delta angles = .ok ab ∧
      ((∃ x ∈ angles, lo - delta ≤ x.2 ∧ x.2 ≤ hi + delta) → lo - delta ≤ ab.2 ∧ ab.2 ≤ hi + delta) := by
  classical
  unfold fundPick fundIdx
  simp only [Except.bind]
  by_cases hc : (trialPoles lo hi delta angles).contains true = true
  · rw [if_pos hc]
    have hm : true ∈ trialPoles lo hi delta angles := by simpa using hc
    have hlt := List.idxOf_lt_length_of_mem hm
    have hg : (trialPoles lo hi delta angles)[(trialPoles lo hi delta angles).idxOf true] = true :=
      List.getElem_idxOf hlt
    have hlt' : (trialPoles lo hi delta angles).idxOf true < angles.length := by
      simpa [trialPoles] using hlt
    rw [List.getElem?_eq_getElem hlt']
    refine ⟨_, List.getElem_mem hlt', rfl, fun _ => ?_⟩
    have : ∀ k (h1 : k < (trialPoles lo hi delta angles).length) (h2 : k < angles.length),
        (trialPoles lo hi delta angles)[k] = true →
          lo - delta ≤ angles[k].2 ∧ angles[k].2 ≤ hi + delta := by
      intro k h1 h2 h
      simpa [trialPoles] using h
    exact this _ hlt hlt' hg
  · rw [if_neg hc]
    cases angles with
    | nil => exact absurd rfl hne
    | cons a t =>
      refine ⟨a, by simp, rfl, ?_⟩
      rintro ⟨x, hx, hr⟩
      exfalso
      apply hc
      simp only [List.contains_iff_mem, trialPoles, List.mem_map]
      exact ⟨x, hx, by simpa using hr⟩

theorem groupAngles_ne {g : SymGroup} {c : Fin 3 → ℝ} : groupAngles (symEqv g) c ≠ [] := by
  unfold groupAngles
  simpa using symEqv_ne_nil g

/-- C45: for hexagonal crystals and sample directions that are not along the axis of any of the
crystals, the result is a symmetric equivalent of the direction, in the hemisphere of the axis, with
azimuth between 90 and 120 degrees for the triangle `up` and between 60 and 90 for `down`. -/
theorem C45_hexagonal {triangle : String} (ht : triangle = "up" ∨ triangle = "down")
    (quats : List (Quat ℝ)) (hq : ∀ q ∈ quats, q.IsUnit) (d : Fin 3 → ℝ) (hd : d ≠ 0)
    (hoff : ∀ q ∈ quats, Spec.inCrystal q d 0 ≠ 0 ∨ Spec.inCrystal q d 1 ≠ 0) :
    ∃ out, calcFundDirs .hexagonal triangle quats d = .ok out ∧
      List.Forall₂ (fun q ab => Spec.EqvDir .hexagonal (Spec.inCrystal q d) (Spec.poleDir ab) ∧
        (0 ≤ ab.1 ∧ ab.1 ≤ Real.pi / 2) ∧
        (Spec.hexBounds triangle).1 ≤ ab.2 ∧ ab.2 ≤ (Spec.hexBounds triangle).2) quats out := by
  refine fund_dirs .hexagonal hq hd (hex_range ht) (delta := 0) ?_ ?_
  · rw [if_neg]
    rintro ⟨q, hm, h⟩
    obtain ⟨ab, hab, hb⟩ := hex_some ht (inCrystal_unit (hq q hm) hd) (hoff q hm)
    have := trial_count.1 (Nat.lt_one_iff.1 h) ab hab
    apply this
    simpa using hb
  · intro q hm
    have hu := inCrystal_unit (hq q hm) hd
    obtain ⟨ab, hab, e, hr⟩ := hex_pick (Spec.hexBounds triangle).1 (Spec.hexBounds triangle).2 0
      (groupAngles_ne (g := .hexagonal) (c := Spec.inCrystal q d))
    obtain ⟨s, hs, e2, -, e3⟩ := groupAngles_mem (symEqv_table .hexagonal) hu hab
    refine ⟨ab, e, eqvDir_northern hs e2, e3, ?_⟩
    simpa using hr (by simpa using hex_some ht hu (hoff q hm))

/-- C45: if the sample direction may be along the axis of some crystal, the result for these is the
axis itself, and for all crystals of the list the range of azimuths is wider by 1e-8. -/
theorem C45_hexagonal_axis {triangle : String} (ht : triangle = "up" ∨ triangle = "down")
    (quats : List (Quat ℝ)) (hq : ∀ q ∈ quats, q.IsUnit) (d : Fin 3 → ℝ) (hd : d ≠ 0) :
    ∃ out, calcFundDirs .hexagonal triangle quats d = .ok out ∧
      List.Forall₂ (fun q ab => Spec.EqvDir .hexagonal (Spec.inCrystal q d) (Spec.poleDir ab) ∧
        (0 ≤ ab.1 ∧ ab.1 ≤ Real.pi / 2) ∧
        (Spec.inCrystal q d 0 = 0 ∧ Spec.inCrystal q d 1 = 0 → ab = (0, 0)) ∧
        (Spec.inCrystal q d 0 ≠ 0 ∨ Spec.inCrystal q d 1 ≠ 0 →
          (Spec.hexBounds triangle).1 - 1 / 10 ^ 8 ≤ ab.2 ∧
          ab.2 ≤ (Spec.hexBounds triangle).2 + 1 / 10 ^ 8)) quats out := by
  refine fund_dirs_wide .hexagonal hq hd (hex_range ht) ?_
  intro delta hd1 hd2 q hm
  have hdel' : 0 ≤ delta ∧ delta ≤ 1 / 10 ^ 8 := ⟨hd1, hd2⟩
  have hu := inCrystal_unit (hq q hm) hd
  obtain ⟨ab, hab, e, hr⟩ := hex_pick (Spec.hexBounds triangle).1 (Spec.hexBounds triangle).2 delta
    (groupAngles_ne (g := .hexagonal) (c := Spec.inCrystal q d))
  obtain ⟨s, hs, e2, e4, e3⟩ := groupAngles_mem (symEqv_table .hexagonal) hu hab
  refine ⟨ab, e, eqvDir_northern hs e2, e3, ?_, ?_⟩
  · rintro ⟨h0, h1⟩
    have hn := northern_unit (rot_unitDir ((symEqv_table .hexagonal).unit s hs) hu)
    have hz := hex_axis (Spec.inCrystal q d) hs
    unfold Spec.UnitDir at hu hn
    rw [h0, h1] at hu
    have hz2 : |Spec.inCrystal q d 2| ^ 2 = 1 := by rw [sq_abs]; linarith
    have hz1 : |Spec.inCrystal q d 2| = 1 := by
      nlinarith [abs_nonneg (Spec.inCrystal q d 2)]
    rw [hz1] at hz
    rw [hz] at hn
    have hx : Spec.northern (rotMatrix s *ᵥ Spec.inCrystal q d) 0 = 0 := by
      nlinarith [sq_nonneg (Spec.northern (rotMatrix s *ᵥ Spec.inCrystal q d) 0),
        sq_nonneg (Spec.northern (rotMatrix s *ᵥ Spec.inCrystal q d) 1)]
    have hy : Spec.northern (rotMatrix s *ᵥ Spec.inCrystal q d) 1 = 0 := by
      nlinarith [sq_nonneg (Spec.northern (rotMatrix s *ᵥ Spec.inCrystal q d) 0),
        sq_nonneg (Spec.northern (rotMatrix s *ᵥ Spec.inCrystal q d) 1)]
    rw [e4, hz, hx, hy, Real.arccos_one, arctan2_zero]
  · intro hoff
    obtain ⟨x, hx, a, b⟩ := hex_some ht hu hoff
    have := hr ⟨x, hx, by linarith [hdel'.1], by linarith [hdel'.1]⟩
    exact ⟨by linarith [this.1, hdel'.2], by linarith [this.2, hdel'.2]⟩

/-- C45: an unknown triangle is not reported as such. -/
theorem C45_unknown_triangle (triangle : String) (h : triangle ≠ "up") (h' : triangle ≠ "down")
    (quats : List (Quat ℝ)) (d : Fin 3 → ℝ) :
    calcFundDirs .hexagonal triangle quats d = .error .unboundLocalError := by
  unfold calcFundDirs betaRange
  simp only [if_neg h, if_neg h']
  rfl

/-- A direction of the basal plane in a crystal of the reference orientation meets the hypotheses
of `C45_hexagonal`. -/
example : (∀ q ∈ [(⟨1, 0, 0, 0⟩ : Quat ℝ)], q.IsUnit) ∧ (![1, 0, 0] : Fin 3 → ℝ) ≠ 0 ∧
    ∀ q ∈ [(⟨1, 0, 0, 0⟩ : Quat ℝ)], Spec.inCrystal q ![1, 0, 0] 0 ≠ 0 ∨
      Spec.inCrystal q ![1, 0, 0] 1 ≠ 0 := by
  refine ⟨?_, ?_, ?_⟩
  · simp [Quat.IsUnit, dot]
  · intro h
    have := congrFun h 0
    simp at this
  · intro q hq
    left
    simp only [List.mem_singleton] at hq
    subst hq
    simp [Spec.inCrystal, rotMatrix, dotProduct, Fin.sum_univ_three]

end DefDAP
