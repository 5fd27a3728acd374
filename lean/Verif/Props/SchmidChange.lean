import Mathlib.Analysis.SpecialFunctions.Trigonometric.Bounds
import Verif.Props.LargestSchmid
import Verif.Props.MisoriDistance
import Verif.Props.Average

/-! C154: how much Schmid factors change with the orientation. -/

namespace DefDAP
open Spec Quat Matrix

theorem rotation_keeps (r : Quat ℝ) (hr : r.IsUnit) (v : Fin 3 → ℝ) (hv : v ⬝ᵥ v = 1) :
    2 * r.q0 ^ 2 - 1 ≤ v ⬝ᵥ (rotMatrix r *ᵥ v) := by
  have hr' : r.q0 ^ 2 + r.q1 ^ 2 + r.q2 ^ 2 + r.q3 ^ 2 = 1 := hr
  have hv' : v 0 * v 0 + v 1 * v 1 + v 2 * v 2 = 1 := by
    rw [← hv]; simp [dotProduct, Fin.sum_univ_three]
  have e : v ⬝ᵥ (rotMatrix r *ᵥ v) = (2 * r.q0 ^ 2 - (r.q0 ^ 2 + r.q1 ^ 2 + r.q2 ^ 2 + r.q3 ^ 2)) *
      (v 0 * v 0 + v 1 * v 1 + v 2 * v 2) + 2 * (r.q1 * v 0 + r.q2 * v 1 + r.q3 * v 2) ^ 2 := by
    simp [rotMatrix, dotProduct, Matrix.mulVec, Fin.sum_univ_three]
    ring
  rw [e, hr', hv']
  nlinarith [sq_nonneg (r.q1 * v 0 + r.q2 * v 1 + r.q3 * v 2)]

/-- The load directions of two crystals are no further apart than the crystals. -/
theorem loads_close {p q : Quat ℝ} (hp : p.IsUnit) (hq : q.IsUnit) {v : Fin 3 → ℝ} (hv : v ⬝ᵥ v = 1) :
    2 * (dot p q) ^ 2 - 1 ≤ (rotMatrix p *ᵥ v) ⬝ᵥ (rotMatrix q *ᵥ v) := by
  have hp' : p.q0 ^ 2 + p.q1 ^ 2 + p.q2 ^ 2 + p.q3 ^ 2 = 1 := hp
  have hc : (⟨p.q0, -p.q1, -p.q2, -p.q3⟩ : Quat ℝ).IsUnit := by
    show p.q0 ^ 2 + (-p.q1) ^ 2 + (-p.q2) ^ 2 + (-p.q3) ^ 2 = 1
    rw [← hp']; ring
  have h := rotation_keeps _ (isUnit_mulRaw hc hq) v hv
  have e : (mulRaw ⟨p.q0, -p.q1, -p.q2, -p.q3⟩ q).q0 = dot p q := by
    simp only [mulRaw, dot]
    ring
  have et : rotMatrix (⟨p.q0, -p.q1, -p.q2, -p.q3⟩ : Quat ℝ) = (rotMatrix p)ᵀ := by
    ext i j
    fin_cases i <;> fin_cases j <;> simp [rotMatrix] <;> ring
  rw [e, rotMatrix_mulRaw, et, ← Matrix.mulVec_mulVec] at h
  rwa [rot_dotT]

theorem dotSelf_nonneg (v : Fin 3 → ℝ) : 0 ≤ v ⬝ᵥ v := by
  simp only [dotProduct, Fin.sum_univ_three]
  nlinarith [mul_self_nonneg (v 0), mul_self_nonneg (v 1), mul_self_nonneg (v 2)]

/-- The change of a Schmid factor between two load directions in the crystal. -/
theorem factor_change (l m n s : Fin 3 → ℝ) (hl : l ⬝ᵥ l = 1) (hm : m ⬝ᵥ m = 1) (hn : n ⬝ᵥ n = 1)
    (hs : s ⬝ᵥ s = 1) (hns : n ⬝ᵥ s = 0) :
    ((l ⬝ᵥ n) * (l ⬝ᵥ s) - (m ⬝ᵥ n) * (m ⬝ᵥ s)) ^ 2 ≤ 1 - (l ⬝ᵥ m) ^ 2 := by
  -- Bessel's inequality for the difference and the sum of the directions
  have bessel : ∀ w : Fin 3 → ℝ, (w ⬝ᵥ n) ^ 2 + (w ⬝ᵥ s) ^ 2 ≤ w ⬝ᵥ w := by
    intro w
    have h0 : 0 ≤ (w - (w ⬝ᵥ n) • n - (w ⬝ᵥ s) • s) ⬝ᵥ (w - (w ⬝ᵥ n) • n - (w ⬝ᵥ s) • s) :=
      dotSelf_nonneg _
    have e : (w - (w ⬝ᵥ n) • n - (w ⬝ᵥ s) • s) ⬝ᵥ (w - (w ⬝ᵥ n) • n - (w ⬝ᵥ s) • s) =
        w ⬝ᵥ w - (w ⬝ᵥ n) ^ 2 - (w ⬝ᵥ s) ^ 2 := by
      simp only [sub_dotProduct, dotProduct_sub, smul_dotProduct, dotProduct_smul, smul_eq_mul, hn, hs,
        hns, dotProduct_comm s n, dotProduct_comm n w, dotProduct_comm s w]
      ring
    linarith
  have hd : (l - m) ⬝ᵥ (l - m) = 2 - 2 * (l ⬝ᵥ m) := by
    simp only [sub_dotProduct, dotProduct_sub, hl, hm, dotProduct_comm m l]
    ring
  have ha : (l + m) ⬝ᵥ (l + m) = 2 + 2 * (l ⬝ᵥ m) := by
    simp only [add_dotProduct, dotProduct_add, hl, hm, dotProduct_comm m l]
    ring
  have b1 := bessel (l - m)
  have b2 := bessel (l + m)
  rw [hd] at b1
  rw [ha] at b2
  simp only [sub_dotProduct, add_dotProduct] at b1 b2
  set a := l ⬝ᵥ n
  set b := l ⬝ᵥ s
  set c := m ⬝ᵥ n
  set d := m ⬝ᵥ s
  set k := l ⬝ᵥ m
  have hmul : ((a - c) ^ 2 + (b - d) ^ 2) * ((a + c) ^ 2 + (b + d) ^ 2) ≤ (2 - 2 * k) * (2 + 2 * k) :=
    mul_le_mul b1 b2 (by positivity) (le_trans (by positivity) b1)
  nlinarith [sq_nonneg ((a - c) * (a + c) - (b - d) * (b + d))]

/-- The angle between two orientations, and what bounds by it follow. -/
theorem angle_bound {p q : Quat ℝ} (hp : p.IsUnit) (hq : q.IsUnit) {k x : ℝ}
    (hk : 2 * (dot p q) ^ 2 - 1 ≤ k) (hx : x ^ 2 ≤ 1 - k ^ 2) :
    let angle := rotationAngle (rotMatrix p * (rotMatrix q)ᵀ)
    |x| ≤ angle ∧ (angle ≤ Real.pi / 2 → |x| ≤ Real.sin angle) := by
  intro angle
  have hc : Real.cos angle = 2 * (dot p q) ^ 2 - 1 := by
    show Real.cos (rotationAngle _) = _
    rw [rotationAngle_eq hp hq, Real.cos_two_mul, Real.cos_arccos (by linarith [abs_nonneg (dot p q)])
      (abs_dot_le_one hp hq), sq_abs]
  have h0 : 0 ≤ angle := Real.arccos_nonneg _
  have hpi : angle ≤ Real.pi := Real.arccos_le_pi _
  have hk0 : -1 ≤ k := by nlinarith [sq_nonneg (dot p q)]
  have hsin : |x| ≤ Real.sin (Real.arccos k) := by
    rw [Real.sin_arccos, ← Real.sqrt_sq_eq_abs]
    exact Real.sqrt_le_sqrt hx
  have hac : Real.arccos k ≤ angle := by
    rw [← Real.arccos_cos h0 hpi, hc]
    exact Real.arccos_le_arccos hk
  refine ⟨hsin.trans ((Real.sin_le (Real.arccos_nonneg k)).trans hac), fun h => hsin.trans ?_⟩
  exact Real.sin_le_sin_of_le_of_le_pi_div_two (by linarith [Real.arccos_nonneg k, Real.pi_pos]) h hac

/-- **C154**: a change of orientation by some angle changes a Schmid factor by at most the angle, in
radians, and for angles up to 90 degrees by at most its sine. -/
theorem C154_factor (p q : Quat ℝ) (hp : p.IsUnit) (hq : q.IsUnit) (hpn : p.North) (hqn : q.North)
    (load : Fin 3 → ℝ) (hl : load ⬝ᵥ load = 1) (ss : SlipSystem) (h1 : ss.normal ⬝ᵥ ss.normal = 1)
    (h2 : ss.slip ⬝ᵥ ss.slip = 1) (h3 : ss.normal ⬝ᵥ ss.slip = 0) :
    let angle := rotationAngle (rotMatrix p * (rotMatrix q)ᵀ)
    let change := |schmidFactor (transformVector p load) ss - schmidFactor (transformVector q load) ss|
    change ≤ angle ∧ (angle ≤ Real.pi / 2 → change ≤ Real.sin angle) := by
  intro angle change
  have ul := transform_dot p hp load load
  have um := transform_dot q hq load load
  rw [hl] at ul um
  have hf := factor_change _ _ _ _ ul um h1 h2 h3
  have hk := loads_close hp hq hl
  rw [← transform_matrix p hpn, ← transform_matrix q hqn] at hk
  obtain ⟨a1, a2⟩ := angle_bound hp hq hk hf
  have hc : change ≤ |(transformVector p load ⬝ᵥ ss.normal) * (transformVector p load ⬝ᵥ ss.slip) -
      (transformVector q load ⬝ᵥ ss.normal) * (transformVector q load ⬝ᵥ ss.slip)| :=
    abs_abs_sub_abs_le_abs_sub _ _
  exact ⟨hc.trans a1, fun h => hc.trans (a2 h)⟩

/-- **C154**: the largest Schmid factor changes no more than that. -/
theorem C154_largest (p q : Quat ℝ) (hp : p.IsUnit) (hq : q.IsUnit) (hpn : p.North) (hqn : q.North)
    (load : Fin 3 → ℝ) (hl : load ⬝ᵥ load = 1) (gs : List (List SlipSystem))
    (hss : ∀ ss ∈ gs.flatten, ss.normal ⬝ᵥ ss.normal = 1 ∧ ss.slip ⬝ᵥ ss.slip = 1 ∧
      ss.normal ⬝ᵥ ss.slip = 0) (m m' : ℝ)
    (hm : maxSchmid (schmidFactors p load gs) none none = .ok m)
    (hm' : maxSchmid (schmidFactors q load gs) none none = .ok m') :
    let angle := rotationAngle (rotMatrix p * (rotMatrix q)ᵀ)
    |m - m'| ≤ angle ∧ (angle ≤ Real.pi / 2 → |m - m'| ≤ Real.sin angle) := by
  intro angle
  have hne : gs.flatten ≠ [] := by
    intro e
    unfold maxSchmid schmidFactors at hm
    rw [← List.map_flatten, e] at hm
    cases hm
  obtain ⟨_, e1, ⟨s1, g1, f1⟩, b1⟩ := largest_exists (ori := p) (load := load) hne
  obtain ⟨_, e2, ⟨s2, g2, f2⟩, b2⟩ := largest_exists (ori := q) (load := load) hne
  rw [hm] at e1
  cases e1
  rw [hm'] at e2
  cases e2
  have c : ∀ ss ∈ gs.flatten, _ := fun ss hs => C154_factor p q hp hq hpn hqn load hl ss (hss ss hs).1
    (hss ss hs).2.1 (hss ss hs).2.2
  have key : ∀ x : ℝ, (∀ ss ∈ gs.flatten, |schmidFactor (transformVector p load) ss -
      schmidFactor (transformVector q load) ss| ≤ x) → |m - m'| ≤ x := by
    intro x hx
    have c1 := (abs_le.1 (hx s1 g1)).2
    have c2 := (abs_le.1 (hx s2 g2)).1
    have d1 := b2 s1 g1
    have d2 := b1 s2 g2
    rw [abs_le]
    constructor <;> linarith
  exact ⟨key _ fun ss hs => (c ss hs).1, fun h => key _ fun ss hs => (c ss hs).2 h⟩

/-- The symmetry group used for a crystal structure with slip systems. -/
def Spec.groupFor : CrystalName → SymGroup
  | .cubic => .cubic
  | _ => .hexagonal

/-- **C154**: with a shipped file other than `cubic_bcc` the largest Schmid factors of two crystals
differ by no more than the misorientation angle between them. -/
theorem C154_misori (dflt : String) (ca : Option ℝ) (cs : CrystalName) (file : SlipFile)
    (hld : Spec.Loadable dflt cs ca) (hf : (cs, file) ∈ symmetricFiles) (gs : List (List SlipSystem))
    (cols : List String) (h : loadSlip dflt cs ca file = .ok (gs, cols)) (p q : Quat ℝ)
    (hp : p.IsUnit) (hq : q.IsUnit) (hpn : p.North) (hqn : q.North) (load : Fin 3 → ℝ)
    (hl : load ⬝ᵥ load = 1) :
    ∃ m m', maxSchmid (schmidFactors p load gs) none none = .ok m ∧
      maxSchmid (schmidFactors q load gs) none none = .ok m' ∧
      |m - m'| ≤ misAngle (Spec.groupFor cs) p q := by
  have hgood : fileGood (Spec.indexCount cs) file.rows = true := by
    simp only [symmetricFiles, List.mem_cons, Prod.mk.injEq, List.not_mem_nil, or_false] at hf
    rcases hf with ⟨rfl, rfl⟩ | ⟨rfl, rfl⟩ | ⟨rfl, rfl⟩ | ⟨rfl, rfl⟩ | ⟨rfl, rfl⟩ <;> decide +kernel
  obtain ⟨gs', e1, hlen, hss, -⟩ := file_consistent dflt cs ca hld file hgood
  rw [h] at e1
  cases e1
  have hne : gs.flatten ≠ [] := by
    intro e
    rw [e] at hlen
    have : 0 < file.rows.length := by
      simp only [symmetricFiles, List.mem_cons, Prod.mk.injEq, List.not_mem_nil, or_false] at hf
      rcases hf with ⟨rfl, rfl⟩ | ⟨rfl, rfl⟩ | ⟨rfl, rfl⟩ | ⟨rfl, rfl⟩ | ⟨rfl, rfl⟩ <;> decide
    simp at hlen
    omega
  obtain ⟨m, hm, -⟩ := largest_exists (ori := p) (load := load) hne
  obtain ⟨m', hm', -⟩ := largest_exists (ori := q) (load := load) hne
  refine ⟨m, m', hm, hm', ?_⟩
  obtain ⟨s, hs, e⟩ := misOri_mem (Spec.groupFor cs) hp hq
  have us := (symEqv_table (Spec.groupFor cs)).unit s hs
  have uq := isUnit_mulRaw us hq
  -- the equivalent of the second orientation that is nearest to the first
  have hr : rotMatrix (make false (mulRaw s q)) = rotMatrix s * rotMatrix q := by
    rw [rotMatrix_make, rotMatrix_mulRaw]
  have hS : Spec.StructureRotation cs (rotMatrix s) := by
    have hc := (crystalRotation_iff (Spec.groupFor cs) _).2 ⟨s, hs, rfl⟩
    simp only [symmetricFiles, List.mem_cons, Prod.mk.injEq, List.not_mem_nil, or_false] at hf
    rcases hf with ⟨rfl, -⟩ | ⟨rfl, -⟩ | ⟨rfl, -⟩ | ⟨rfl, -⟩ | ⟨rfl, -⟩
    · exact Or.inl ⟨rfl, hc⟩
    · exact Or.inl ⟨rfl, hc⟩
    · exact Or.inl ⟨rfl, hc⟩
    · exact Or.inr ⟨rfl, hc⟩
    · exact Or.inr ⟨rfl, hc⟩
  have hsame := C129_largest hld hf h hS hqn (north_make (mulRaw s q)) hr load
  rw [hm'] at hsame
  have um : (make false (mulRaw s q)).IsUnit := isUnit_make.2 uq
  have hb := (C154_largest p _ hp um hpn (north_make _) load hl gs hss m m' hm hsame).1
  have ea : rotationAngle (rotMatrix p * (rotMatrix (make false (mulRaw s q)))ᵀ) =
      misAngle (Spec.groupFor cs) p q := by
    rw [rotMatrix_make, rotationAngle_eq hp uq]
    unfold misAngle
    rw [e]
  rwa [ea] at hb

/-- **C154**: the largest Schmid factors of two points of a grain differ by at most the angle tolerance of
the grain detection, in radians, times the number of points of the grain less one. -/
theorem C154_grain (dflt : String) (ca : Option ℝ) (cs : CrystalName) (file : SlipFile)
    (hld : Spec.Loadable dflt cs ca) (hf : (cs, file) ∈ symmetricFiles) (gs : List (List SlipSystem))
    (cols : List String) (hs : loadSlip dflt cs ca file = .ok (gs, cols)) (h w : Nat) (hw : 2 ≤ w)
    (hh : 2 ≤ h) (ori : Img (Quat ℝ))
    (hunit : ∀ p : Px, InMap h w p → (ori p.2 p.1).IsUnit ∧ (ori p.2 p.1).North) (tol : ℝ) (htol : 0 ≤ tol)
    (phase : Img Int) (numPhases minSize : Nat) (r : FGResult)
    (hr : grainsOf h w (Spec.groupFor cs) ori phase numPhases tol minSize = .ok r) (i : Nat)
    (hi : i < r.list.length) (p q : Px) (hp : p ∈ r.points i) (hq : q ∈ r.points i)
    (load : Fin 3 → ℝ) (hl : load ⬝ᵥ load = 1) :
    ∃ m m', maxSchmid (schmidFactors (ori p.2 p.1) load gs) none none = .ok m ∧
      maxSchmid (schmidFactors (ori q.2 q.1) load gs) none none = .ok m' ∧
      |m - m'| ≤ ((r.points i).length - 1 : ℝ) * (tol * (Real.pi / 180)) := by
  have hin : ∀ p ∈ r.points i, InMap h w p := by
    obtain ⟨bx, by', e1, e2, -⟩ := images_of (g := Spec.groupFor cs) (phase := phase)
      (fun p hp => (hunit p hp).1) htol
    have e : grainsOf h w (Spec.groupFor cs) ori phase numPhases tol minSize =
        findGrains h w phase numPhases bx by' minSize := by
      unfold grainsOf findGrainsOf
      rw [e1, e2]
      rfl
    rw [e] at hr
    exact ((C04_numbering hw hh bx by' phase numPhases minSize r hr).1 i hi).2.2.2.2
  have hpm := hin p hp
  have hqm := hin q hq
  obtain ⟨m, m', e1, e2, hb⟩ := C154_misori dflt ca cs file hld hf gs cols hs _ _ (hunit p hpm).1
    (hunit q hqm).1 (hunit p hpm).2 (hunit q hqm).2 load hl
  exact ⟨m, m', e1, e2, hb.trans (C139_grain hw hh (fun p hp => (hunit p hp).1) htol numPhases minSize r hr
    i hi p q hp hq)⟩

/-- **C154**: the Schmid factor map, which is calculated from the average orientation of each grain, is right
for its points: if the points of a grain are within 30 degrees of each other, and on one side of the border
between the hemispheres, the largest Schmid factor of a point differs from that of the average by at most the
largest angle between two points. -/
theorem C154_average (g : SymGroup) (q : Quat ℝ) (qs : List (Quat ℝ)) (c : ℝ) (hc : 0 < c)
    (hc2 : (2 + Real.sqrt 3) / 4 < c ^ 2) (hq : 0 < q.q0) (hu : ∀ p ∈ q :: qs, p.IsUnit)
    (hn : ∀ p ∈ q :: qs, p.North) (hclose : ∀ p ∈ q :: qs, ∀ r ∈ q :: qs, c ≤ dot p r)
    (load : Fin 3 → ℝ) (hl : load ⬝ᵥ load = 1) (gs : List (List SlipSystem))
    (hss : ∀ ss ∈ gs.flatten, ss.normal ⬝ᵥ ss.normal = 1 ∧ ss.slip ⬝ᵥ ss.slip = 1 ∧
      ss.normal ⬝ᵥ ss.slip = 0) (hne : gs.flatten ≠ []) :
    ∃ av m, grainMeanOri g (q :: qs) = .ok av ∧ maxSchmid (schmidFactors av load gs) none none = .ok m ∧
      ∀ p ∈ q :: qs, ∃ m', maxSchmid (schmidFactors p load gs) none none = .ok m' ∧
        |m - m'| ≤ 2 * Real.arccos c := by
  obtain ⟨av, e1, u1, n1⟩ := C43_unit g q qs hq fun p hp => hn p (List.mem_cons_of_mem _ hp)
  obtain ⟨av', e2, h2⟩ := C43_close g q qs c hc hc2 hu hn hclose
  rw [e1] at e2
  cases e2
  obtain ⟨m, hm, -⟩ := largest_exists (ori := av) (load := load) hne
  refine ⟨av, m, e1, hm, fun p hp => ?_⟩
  obtain ⟨m', hm', -⟩ := largest_exists (ori := p) (load := load) hne
  refine ⟨m', hm', (C154_largest av p u1 (hu p hp) n1 (hn p hp) load hl gs hss m m' hm hm').1.trans ?_⟩
  rw [rotationAngle_eq u1 (hu p hp)]
  have : Real.arccos |dot av p| ≤ Real.arccos c :=
    Real.arccos_le_arccos ((h2 p hp).trans (le_abs_self _))
  linarith

/-- Two nickel crystals, one turned from the other about the z axis. -/
example : ∃ gs cols m m', loadSlip "hkl" .cubic none fccFile = .ok (gs, cols) ∧
    maxSchmid (schmidFactors ⟨1, 0, 0, 0⟩ ![1, 0, 0] gs) none none = .ok m ∧
    maxSchmid (schmidFactors ⟨3 / 5, 0, 0, 4 / 5⟩ ![1, 0, 0] gs) none none = .ok m' ∧
    |m - m'| ≤ misAngle .cubic ⟨1, 0, 0, 0⟩ ⟨3 / 5, 0, 0, 4 / 5⟩ := by
  obtain ⟨gs, h, -⟩ := file_consistent "hkl" .cubic none (Or.inl rfl) fccFile (by decide +kernel)
  obtain ⟨m, m', hm⟩ := C154_misori "hkl" none .cubic fccFile (Or.inl rfl) (by simp [symmetricFiles]) gs _ h
    ⟨1, 0, 0, 0⟩ ⟨3 / 5, 0, 0, 4 / 5⟩ (by simp [Quat.IsUnit]) (by norm_num [Quat.IsUnit])
    (by norm_num [Quat.North]) (by norm_num [Quat.North]) ![1, 0, 0] (by simp [dotProduct, Fin.sum_univ_three])
  exact ⟨gs, _, m, m', h, hm⟩

end DefDAP
