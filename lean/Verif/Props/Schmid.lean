import Verif.Model.GrainMech
import Verif.Props.Quat
import Verif.Props.SlipFiles
import Mathlib.Analysis.SpecialFunctions.Trigonometric.Inverse
import Mathlib.Analysis.SpecialFunctions.Complex.Arg

/-! C58, C59, C86, C87: Schmid factors, slip traces, displacement ratios. -/

namespace DefDAP

open Quat Matrix

/-! ### Rotations -/

theorem rotMatrix_dot (q : Quat ℝ) (hq : q.IsUnit) (a b : Fin 3 → ℝ) :
    (rotMatrix q *ᵥ a) ⬝ᵥ (rotMatrix q *ᵥ b) = a ⬝ᵥ b := by
  rw [Matrix.dotProduct_mulVec, Matrix.vecMul_mulVec, (C36_rotation q hq).2.1, Matrix.vecMul_one]

theorem transform_dot (q : Quat ℝ) (hq : q.IsUnit) (a b : Fin 3 → ℝ) :
    transformVector q a ⬝ᵥ transformVector q b = a ⬝ᵥ b := by
  rw [← rotMatrix_dot q hq a b]
  by_cases hn : q.North
  · rw [transform_matrix q hn, transform_matrix q hn]
  · have hn' : q.q0 < 0 := not_le.1 hn
    rw [transform_south q hn', transform_south q hn', neg_dotProduct, dotProduct_neg, neg_neg]

theorem rotMatrix_cross (q : Quat ℝ) (hq : q.IsUnit) (a b : Fin 3 → ℝ) :
    rotMatrix q *ᵥ (crossProduct a b) = crossProduct (rotMatrix q *ᵥ a) (rotMatrix q *ᵥ b) := by
  have hu : q.q0 ^ 2 + q.q1 ^ 2 + q.q2 ^ 2 + q.q3 ^ 2 = 1 := hq
  have key : crossProduct (rotMatrix q *ᵥ a) (rotMatrix q *ᵥ b) =
      (q.q0 ^ 2 + q.q1 ^ 2 + q.q2 ^ 2 + q.q3 ^ 2) • (rotMatrix q *ᵥ (crossProduct a b)) := by
    funext i
    fin_cases i <;>
      simp [cross_apply, rotMatrix, Matrix.mulVec, dotProduct, Fin.sum_univ_three] <;> ring
  rw [key, hu, one_smul]

theorem north_conj (q : Quat ℝ) : (conjugate q).North := north_make _

theorem conj_matrix (q : Quat ℝ) (v : Fin 3 → ℝ) :
    transformVector (conjugate q) v = (rotMatrix q)ᵀ *ᵥ v := by
  rw [transform_matrix _ (north_conj q), conjugate, rotMatrix_make]
  congr 1
  ext i j
  fin_cases i <;> fin_cases j <;> simp [rotMatrix, Matrix.transpose] <;> ring

theorem isUnit_conj {q : Quat ℝ} (hq : q.IsUnit) : (conjugate q).IsUnit := by
  unfold conjugate
  rw [isUnit_make]
  have hu : q.q0 ^ 2 + q.q1 ^ 2 + q.q2 ^ 2 + q.q3 ^ 2 = 1 := hq
  show q.q0 ^ 2 + (-q.q1) ^ 2 + (-q.q2) ^ 2 + (-q.q3) ^ 2 = 1
  linarith

/-! ### C58 -/

/-- In three dimensions the components along two perpendicular unit vectors have squares adding
up to at most the square of the length. -/
theorem bessel (l n s : Fin 3 → ℝ) (hn : n ⬝ᵥ n = 1) (hs : s ⬝ᵥ s = 1) (hp : n ⬝ᵥ s = 0) :
    (l ⬝ᵥ n) ^ 2 + (l ⬝ᵥ s) ^ 2 ≤ l ⬝ᵥ l := by
  have key : (l ⬝ᵥ l) - (l ⬝ᵥ n) ^ 2 - (l ⬝ᵥ s) ^ 2 =
      (l - (l ⬝ᵥ n) • n - (l ⬝ᵥ s) • s) ⬝ᵥ (l - (l ⬝ᵥ n) • n - (l ⬝ᵥ s) • s) := by
    simp only [sub_dotProduct, dotProduct_sub, smul_dotProduct, dotProduct_smul, smul_eq_mul, hn, hs,
      hp, dotProduct_comm s n, dotProduct_comm n l, dotProduct_comm s l]
    ring
  have h0 : 0 ≤ (l - (l ⬝ᵥ n) • n - (l ⬝ᵥ s) • s) ⬝ᵥ (l - (l ⬝ᵥ n) • n - (l ⬝ᵥ s) • s) := by
    generalize l - (l ⬝ᵥ n) • n - (l ⬝ᵥ s) • s = w
    simp only [dotProduct, Fin.sum_univ_three]
    nlinarith [mul_self_nonneg (w 0), mul_self_nonneg (w 1), mul_self_nonneg (w 2)]
  linarith

/-- **C58 (range).** For a unit orientation and load, and slip systems with unit normals and slip
directions lying in their planes, all Schmid factors are between 0 and 1/2. -/
theorem C58_range (ori : Quat ℝ) (ho : ori.IsUnit) (load : Fin 3 → ℝ) (hl : load ⬝ᵥ load = 1)
    (groups : List (List SlipSystem))
    (hss : ∀ grp ∈ groups, ∀ ss ∈ grp, ss.normal ⬝ᵥ ss.normal = 1 ∧ ss.slip ⬝ᵥ ss.slip = 1 ∧
      ss.normal ⬝ᵥ ss.slip = 0) :
    ∀ row ∈ schmidFactors ori load groups, ∀ sf ∈ row, 0 ≤ sf ∧ sf ≤ 1 / 2 := by
  intro row hrow sf hsf
  obtain ⟨grp, hg, rfl⟩ := List.mem_map.1 hrow
  obtain ⟨ss, hs, rfl⟩ := List.mem_map.1 hsf
  obtain ⟨h1, h2, h3⟩ := hss grp hg ss hs
  refine ⟨abs_nonneg _, ?_⟩
  have hb := bessel (transformVector ori load) ss.normal ss.slip h1 h2 h3
  rw [transform_dot ori ho, hl] at hb
  unfold schmidFactor
  generalize transformVector ori load ⬝ᵥ ss.normal = a at hb ⊢
  generalize transformVector ori load ⬝ᵥ ss.slip = b at hb ⊢
  rw [abs_le]
  constructor <;> nlinarith [sq_nonneg (a - b), sq_nonneg (a + b)]

/-- **C58 (shape and value).** The factors are grouped as the slip systems are, each being the
product of the cosines between load and plane normal and between load and slip direction, all in
the sample frame, without its sign. -/
theorem C58_value (ori : Quat ℝ) (ho : ori.IsUnit) (hn : ori.North) (load : Fin 3 → ℝ)
    (groups : List (List SlipSystem)) (i j : Nat) (grp : List SlipSystem) (ss : SlipSystem)
    (hi : groups[i]? = some grp) (hj : grp[j]? = some ss) :
    ((schmidFactors ori load groups)[i]?.bind fun (r : List ℝ) => r[j]?) =
      some |(load ⬝ᵥ transformVector (conjugate ori) ss.normal) *
        (load ⬝ᵥ transformVector (conjugate ori) ss.slip)| := by
  have back : ∀ v : Fin 3 → ℝ, transformVector ori load ⬝ᵥ v =
      load ⬝ᵥ transformVector (conjugate ori) v := by
    intro v
    have e := transform_dot (conjugate ori) (isUnit_conj ho) (transformVector ori load) v
    rw [(C34_conjugate ori ho).2.2 hn] at e
    exact e.symm
  simp only [schmidFactors, List.getElem?_map, hi, Option.map_some, Option.bind_some, hj,
    schmidFactor, back]

theorem unitVec_sameLine3 {a b : List Int} {h k l h' k' l' : Int} (ha : a = [h, k, l])
    (hb : b = [h', k', l']) (hab : Spec.SameLine a b) :
    unitVec ![(h : ℝ), (k : ℝ), (l : ℝ)] = unitVec ![(h' : ℝ), (k' : ℝ), (l' : ℝ)] ∨
    unitVec ![(h : ℝ), (k : ℝ), (l : ℝ)] = -unitVec ![(h' : ℝ), (k' : ℝ), (l' : ℝ)] := by
  subst ha hb
  rcases hab with e | e | ⟨e1, e2⟩
  · left
    cases e; rfl
  · right
    simp only [Spec.opposite, List.map_cons, List.map_nil, List.cons.injEq, and_true] at e
    obtain ⟨rfl, rfl, rfl⟩ := e
    rw [← unitVec_neg]
    congr 1
    funext i; fin_cases i <;> simp
  · left
    simp only [List.mem_cons, List.not_mem_nil, or_false, forall_eq_or_imp, forall_eq] at e1 e2
    obtain ⟨rfl, rfl, rfl⟩ := e1
    obtain ⟨rfl, rfl, rfl⟩ := e2
    rfl

/-- Slip systems that compare equal have the same vectors up to sign. -/
theorem slip_vectors (dflt : String) (cs : CrystalName) (ca : Option ℝ) (p d p' d' : List Int)
    (a b : SlipSystem) (ha : slipSystem dflt cs p d ca = .ok a)
    (hb : slipSystem dflt cs p' d' ca = .ok b) (hab : slipEq a b = true) :
    (a.normal = b.normal ∨ a.normal = -b.normal) ∧ (a.slip = b.slip ∨ a.slip = -b.slip) := by
  rw [C54_equal] at hab
  cases cs with
  | cubic =>
    obtain ⟨e1, e2, _, _, _, _, _, _, hp, hd, hn, hs⟩ := slipSystem_cubic _ _ _ _ _ ha
    obtain ⟨e1', e2', _, _, _, _, _, _, hp', hd', hn', hs'⟩ := slipSystem_cubic _ _ _ _ _ hb
    rw [e1, e2, e1', e2'] at hab
    rw [hn, hs, hn', hs']
    exact ⟨unitVec_sameLine3 hp hp' hab.1, unitVec_sameLine3 hd hd' hab.2⟩
  | hexagonal =>
    cases ca with
    | none => cases ha
    | some ca =>
      obtain ⟨e1, e2, p0, p1, p2, p3, d0, d1, d2, d3, l, hp, hd, hl, hn, hs⟩ :=
        slipSystem_hex _ _ _ _ _ ha
      obtain ⟨e1', e2', p0', p1', p2', p3', d0', d1', d2', d3', l', hp', hd', hl', hn', hs'⟩ :=
        slipSystem_hex _ _ _ _ _ hb
      rw [hl] at hl'
      cases hl'
      rw [e1, e2, e1', e2'] at hab
      rw [hn, hs, hn', hs']
      subst hp hp' hd hd'
      constructor
      · rcases hab.1 with e | e | ⟨z1, z2⟩
        · left; cases e; rfl
        · right
          simp only [Spec.opposite, List.map_cons, List.map_nil, List.cons.injEq, and_true] at e
          obtain ⟨rfl, rfl, rfl, rfl⟩ := e
          rw [← unitVec_neg, ← Matrix.mulVec_neg]
          congr 2
          funext i; fin_cases i <;> simp
        · left
          simp only [List.mem_cons, List.not_mem_nil, or_false, forall_eq_or_imp, forall_eq] at z1 z2
          obtain ⟨rfl, rfl, rfl, rfl⟩ := z1
          obtain ⟨rfl, rfl, rfl, rfl⟩ := z2
          rfl
      · rcases hab.2 with e | e | ⟨z1, z2⟩
        · left; cases e; rfl
        · right
          simp only [Spec.opposite, List.map_cons, List.map_nil, List.cons.injEq, and_true] at e
          obtain ⟨rfl, rfl, rfl, rfl⟩ := e
          rw [← unitVec_neg, ← Matrix.mulVec_neg]
          congr 2
          funext i; fin_cases i <;> simp <;> ring
        · left
          simp only [List.mem_cons, List.not_mem_nil, or_false, forall_eq_or_imp, forall_eq] at z1 z2
          obtain ⟨rfl, rfl, rfl, rfl⟩ := z1
          obtain ⟨rfl, rfl, rfl, rfl⟩ := z2
          rfl
  | other => cases ha

/-- **C58 (signs).** Slip systems that compare equal (the indices of plane and direction agree up
to sign) have the same Schmid factor. -/
theorem C58_signs (dflt : String) (cs : CrystalName) (ca : Option ℝ) (p d p' d' : List Int)
    (a b : SlipSystem) (ha : slipSystem dflt cs p d ca = .ok a)
    (hb : slipSystem dflt cs p' d' ca = .ok b) (hab : slipEq a b = true) (ori : Quat ℝ)
    (load : Fin 3 → ℝ) : schmidFactors ori load [[a]] = schmidFactors ori load [[b]] := by
  obtain ⟨h1, h2⟩ := slip_vectors dflt cs ca p d p' d' a b ha hb hab
  simp only [schmidFactors, schmidFactor, List.map_cons, List.map_nil]
  rcases h1 with h1 | h1 <;> rcases h2 with h2 | h2 <;> rw [h1, h2] <;>
    simp [dotProduct_neg, abs_mul]

/-- **C58 (rotation).** Rotating the sample and the load together by any rotation `r`, and turning
the load round, changes no Schmid factor. -/
theorem C58_rotation (ori r : Quat ℝ) (ho : ori.North) (hr : r.IsUnit) (hrn : r.North)
    (load : Fin 3 → ℝ) (groups : List (List SlipSystem)) :
    schmidFactors (mul ori (conjugate r)) (transformVector r load) groups =
      schmidFactors ori load groups ∧
    schmidFactors ori (-load) groups = schmidFactors ori load groups := by
  constructor
  · unfold schmidFactors
    rw [C34_compose ori (conjugate r) ho (north_make _), (C34_conjugate r hr).2.2 hrn]
  · unfold schmidFactors schmidFactor
    have : transformVector ori (-load) = -transformVector ori load := by
      rw [transform_matrix ori ho, transform_matrix ori ho, Matrix.mulVec_neg]
    rw [this]
    simp [neg_dotProduct]

/-- **C58 (slip systems with the direction out of the plane).** For the slip system (1 2 3)[1 1 1]
of `cubic_bcc` and a crystal aligned with the sample, a load along the plane normal has a Schmid
factor of more than 0.9. -/
theorem C58_exceeds (dflt : String) (ca : Option ℝ) : ∃ ss, ∃ load : Fin 3 → ℝ,
    slipSystem dflt .cubic [1, 2, 3] [1, 1, 1] ca = .ok ss ∧ load ⬝ᵥ load = 1 ∧
    ∃ sf, schmidFactors ⟨1, 0, 0, 0⟩ load [[ss]] = [[sf]] ∧ 9 / 10 < sf := by
  obtain ⟨ss, hss, _, _⟩ := slipSystem_ok dflt .cubic ca (Or.inl rfl) [1, 2, 3] [1, 1, 1] rfl rfl
  obtain ⟨_, _, x, k, m, u, v, w, e1, e2, hn, hs⟩ := slipSystem_cubic _ _ _ _ _ hss
  simp only [List.cons.injEq, and_true] at e1 e2
  obtain ⟨rfl, rfl, rfl⟩ := e1
  obtain ⟨rfl, rfl, rfl⟩ := e2
  have hu : ss.normal ⬝ᵥ ss.normal = 1 := by
    rw [hn]
    exact unitVec_unit _ fun h => by have := congrFun h 0; simp at this
  refine ⟨ss, ss.normal, hss, hu, _, rfl, ?_⟩
  have hid : transformVector ⟨1, 0, 0, 0⟩ ss.normal = ss.normal := by
    rw [transform_matrix _ (by simp [North])]
    funext i
    fin_cases i <;> simp [rotMatrix, Matrix.mulVec, dotProduct, Fin.sum_univ_three]
  unfold schmidFactor
  rw [hid, hu, one_mul, hn, hs, unitVec_dot]
  have hd1 : (![((1 : Int) : ℝ), ((2 : Int) : ℝ), ((3 : Int) : ℝ)] ⬝ᵥ
      ![((1 : Int) : ℝ), ((1 : Int) : ℝ), ((1 : Int) : ℝ)]) = 6 := by
    simp [dotProduct, Fin.sum_univ_three]; norm_num
  have hd2 : (![((1 : Int) : ℝ), ((2 : Int) : ℝ), ((3 : Int) : ℝ)] ⬝ᵥ
      ![((1 : Int) : ℝ), ((2 : Int) : ℝ), ((3 : Int) : ℝ)]) = 14 := by
    simp [dotProduct, Fin.sum_univ_three]; norm_num
  have hd3 : (![((1 : Int) : ℝ), ((1 : Int) : ℝ), ((1 : Int) : ℝ)] ⬝ᵥ
      ![((1 : Int) : ℝ), ((1 : Int) : ℝ), ((1 : Int) : ℝ)]) = 3 := by
    simp [dotProduct, Fin.sum_univ_three]; norm_num
  rw [hd1, hd2, hd3, ← Real.sqrt_mul (by norm_num)]
  refine lt_of_lt_of_le ?_ (le_abs_self _)
  rw [lt_div_iff₀ (Real.sqrt_pos.2 (by norm_num))]
  have : Real.sqrt (14 * 3) < 20 / 3 := by
    rw [Real.sqrt_lt' (by norm_num)]
    norm_num
  linarith

/-! ### C59 -/

/-- The slip plane normal in the sample frame. -/
noncomputable def Spec.sampleNormal (ori : Quat ℝ) (n : Fin 3 → ℝ) : Fin 3 → ℝ :=
  transformVector (conjugate ori) n

/-- The unit vector in the surface at angle `t` from the vertical, counted counter-clockwise. -/
noncomputable def Spec.traceDir (t : ℝ) : Fin 3 → ℝ := ![-Real.sin t, Real.cos t, 0]

theorem transform_north_z (ori : Quat ℝ) (ho : ori.IsUnit) (hn : ori.North) (n : Fin 3 → ℝ) :
    transformVector ori ![0, 0, 1] ⬝ᵥ n = Spec.sampleNormal ori n 2 ∧
    transformVector (conjugate ori) (crossProduct (transformVector ori ![0, 0, 1]) n) =
      ![-Spec.sampleNormal ori n 1, Spec.sampleNormal ori n 0, 0] := by
  have hc := isUnit_conj ho
  constructor
  · have e := transform_dot (conjugate ori) hc (transformVector ori ![0, 0, 1]) n
    rw [(C34_conjugate ori ho).2.2 hn] at e
    rw [← e]
    simp [dotProduct, Fin.sum_univ_three, Spec.sampleNormal]
  · have e := rotMatrix_cross (conjugate ori) hc (transformVector ori ![0, 0, 1]) n
    rw [← transform_matrix _ (north_conj ori), ← transform_matrix _ (north_conj ori),
      ← transform_matrix _ (north_conj ori), (C34_conjugate ori ho).2.2 hn] at e
    rw [e]
    funext i
    fin_cases i <;> simp [cross_apply, Spec.sampleNormal]

/-- Cosine and sine of the trace angle. -/
theorem slipTrace_angle (ori : Quat ℝ) (ho : ori.IsUnit) (hn : ori.North) (n : Fin 3 → ℝ)
    (hp : Spec.sampleNormal ori n 0 ≠ 0 ∨ Spec.sampleNormal ori n 1 ≠ 0) :
    ∃ σ r : ℝ, (σ = 1 ∨ σ = -1) ∧ 0 < r ∧
      r ^ 2 = Spec.sampleNormal ori n 0 ^ 2 + Spec.sampleNormal ori n 1 ^ 2 ∧
      Real.cos (slipTrace ori n).1 = σ * Spec.sampleNormal ori n 0 / r ∧
      Real.sin (slipTrace ori n).1 = σ * Spec.sampleNormal ori n 1 / r ∧
      0 ≤ σ * Spec.sampleNormal ori n 1 := by
  obtain ⟨_, hi⟩ := transform_north_z ori ho hn n
  unfold slipTrace
  simp only [hi]
  generalize Spec.sampleNormal ori n 0 = M at hp ⊢
  generalize Spec.sampleNormal ori n 1 = K at hp ⊢
  have hd : (![-K, M, 0] ⬝ᵥ ![-K, M, 0] : ℝ) = M ^ 2 + K ^ 2 := by
    simp [dotProduct, Fin.sum_univ_three]; ring
  have hpos : 0 < M ^ 2 + K ^ 2 := by
    rcases hp with h | h
    · have := sq_pos_of_pos (abs_pos.2 h); rw [sq_abs] at this; nlinarith [sq_nonneg K]
    · have := sq_pos_of_pos (abs_pos.2 h); rw [sq_abs] at this; nlinarith [sq_nonneg M]
  rw [hd]
  have hr2 : Real.sqrt (M ^ 2 + K ^ 2) ^ 2 = M ^ 2 + K ^ 2 := Real.sq_sqrt hpos.le
  have hr : 0 < Real.sqrt (M ^ 2 + K ^ 2) := Real.sqrt_pos.2 hpos
  generalize Real.sqrt (M ^ 2 + K ^ 2) = r at hr2 hr ⊢
  have hle : |M| ≤ r := abs_le_of_sq_le_sq (by nlinarith [sq_nonneg K]) hr.le
  obtain ⟨hl1, hl2⟩ := abs_le.1 hle
  have hb1 : -1 ≤ M / r := by rw [le_div_iff₀ hr]; linarith
  have hb2 : M / r ≤ 1 := by rw [div_le_iff₀ hr]; linarith
  have hsin : Real.sqrt (1 - (M / r) ^ 2) = |K| / r := by
    have habs : |K| / r = |K / r| := by rw [abs_div, abs_of_pos hr]
    rw [habs, ← Real.sqrt_sq_eq_abs]
    congr 1
    rw [div_pow, div_pow, eq_div_iff (by positivity), sub_mul, div_mul_cancel₀ _ (by positivity)]
    linarith
  by_cases hK : K < 0
  · refine ⟨-1, r, Or.inr rfl, hr, hr2, ?_, ?_, by linarith⟩
    · rw [if_pos (by simpa using div_pos (neg_pos.2 hK) hr)]
      rw [show (fun k => (![-K, M, 0] k : ℝ) / r * -1) ⬝ᵥ ![0, 1, 0] = -(M / r) by
        simp [dotProduct, Fin.sum_univ_three]]
      rw [Real.cos_arccos (by linarith) (by linarith)]
      ring
    · rw [if_pos (by simpa using div_pos (neg_pos.2 hK) hr)]
      rw [show (fun k => (![-K, M, 0] k : ℝ) / r * -1) ⬝ᵥ ![0, 1, 0] = -(M / r) by
        simp [dotProduct, Fin.sum_univ_three]]
      rw [Real.sin_arccos, neg_sq, hsin, abs_of_neg hK]
      ring
  · have hnot : ¬ (0 < (![-K, M, 0] 0 : ℝ) / r) := by
      simp only [cons_val_zero, not_lt]
      exact div_nonpos_of_nonpos_of_nonneg (by linarith) hr.le
    refine ⟨1, r, Or.inl rfl, hr, hr2, ?_, ?_, by linarith⟩
    · rw [if_neg hnot]
      rw [show (fun k => (![-K, M, 0] k : ℝ) / r) ⬝ᵥ ![0, 1, 0] = M / r by
        simp [dotProduct, Fin.sum_univ_three]]
      rw [Real.cos_arccos hb1 hb2, one_mul]
    · rw [if_neg hnot]
      rw [show (fun k => (![-K, M, 0] k : ℝ) / r) ⬝ᵥ ![0, 1, 0] = M / r by
        simp [dotProduct, Fin.sum_univ_three]]
      rw [Real.sin_arccos, hsin, abs_of_nonneg (not_lt.1 hK), one_mul]

/-- **C59.** For a plane not parallel to the surface (its normal in the sample frame is not along
z): the trace angle is between 0 and 180 degrees, the direction at that angle lies in the slip
plane, and every other angle whose direction lies in the slip plane differs from it by a multiple
of 180 degrees. -/
theorem C59_trace (ori : Quat ℝ) (ho : ori.IsUnit) (hn : ori.North) (n : Fin 3 → ℝ)
    (hp : Spec.sampleNormal ori n 0 ≠ 0 ∨ Spec.sampleNormal ori n 1 ≠ 0) :
    0 ≤ (slipTrace ori n).1 ∧ (slipTrace ori n).1 ≤ Real.pi ∧
    Spec.traceDir (slipTrace ori n).1 ⬝ᵥ Spec.sampleNormal ori n = 0 ∧
    (∀ t, Spec.traceDir t ⬝ᵥ Spec.sampleNormal ori n = 0 →
      ∃ k : Int, t = (slipTrace ori n).1 + k * Real.pi) := by
  obtain ⟨σ, r, hσ, hr, hr2, hc, hs, _⟩ := slipTrace_angle ori ho hn n hp
  refine ⟨Real.arccos_nonneg _, Real.arccos_le_pi _, ?_, ?_⟩
  · simp only [Spec.traceDir, dotProduct, Fin.sum_univ_three, cons_val_zero, cons_val_one, cons_val,
      hc, hs]
    ring
  · intro t ht
    simp only [Spec.traceDir, dotProduct, Fin.sum_univ_three, cons_val_zero, cons_val_one,
      cons_val, zero_mul, add_zero] at ht
    have h0 : Real.sin (t - (slipTrace ori n).1) = 0 := by
      rw [Real.sin_sub, hc, hs]
      have : Real.sin t * (σ * Spec.sampleNormal ori n 0 / r) -
          Real.cos t * (σ * Spec.sampleNormal ori n 1 / r) =
          -(σ / r) * (-Real.sin t * Spec.sampleNormal ori n 0 +
            Real.cos t * Spec.sampleNormal ori n 1) := by ring
      rw [this, ht, mul_zero]
    obtain ⟨k, hk⟩ := Real.sin_eq_zero_iff.1 h0
    exact ⟨k, by linarith⟩

/-- **C59 (inclination).** The inclination is between 0 and 90 degrees, and its cosine is that of
the angle between the slip plane and the surface. -/
theorem C59_inclination (ori : Quat ℝ) (ho : ori.IsUnit) (hn : ori.North) (n : Fin 3 → ℝ)
    (hu : n ⬝ᵥ n = 1) :
    0 ≤ (slipTrace ori n).2 ∧ (slipTrace ori n).2 ≤ Real.pi / 2 ∧
    Real.cos (slipTrace ori n).2 = |Spec.sampleNormal ori n 2| := by
  obtain ⟨hz, _⟩ := transform_north_z ori ho hn n
  have hN : Spec.sampleNormal ori n ⬝ᵥ Spec.sampleNormal ori n = 1 := by
    rw [Spec.sampleNormal, transform_dot _ (isUnit_conj ho), hu]
  unfold slipTrace
  simp only [hz]
  have hle : |Spec.sampleNormal ori n 2| ≤ 1 := by
    refine abs_le_of_sq_le_sq ?_ (by norm_num)
    simp only [dotProduct, Fin.sum_univ_three] at hN
    nlinarith [mul_self_nonneg (Spec.sampleNormal ori n 0), mul_self_nonneg (Spec.sampleNormal ori n 1)]
  generalize Spec.sampleNormal ori n 2 = w at hle ⊢
  obtain ⟨h1, h2⟩ := abs_le.1 hle
  have ha0 := Real.arccos_nonneg w
  have hap := Real.arccos_le_pi w
  split
  · rename_i h
    refine ⟨by linarith, by linarith, ?_⟩
    rw [Real.cos_pi_sub, Real.cos_arccos h1 h2]
    have : w ≤ 0 := by
      by_contra hw
      have := Real.arccos_le_pi_div_two.2 (not_le.1 hw).le
      linarith
    rw [abs_of_nonpos this]
  · rename_i h
    refine ⟨ha0, not_lt.1 h, ?_⟩
    rw [Real.cos_arccos h1 h2, abs_of_nonneg]
    exact Real.arccos_le_pi_div_two.1 (not_lt.1 h)

/-- **C59 (sign of the normal).** The opposite plane normal gives the same inclination and the
same trace angle, except for a vertical trace, which is at 0 for one and at 180 degrees for the
other. -/
theorem C59_sign (ori : Quat ℝ) (ho : ori.IsUnit) (hn : ori.North) (n : Fin 3 → ℝ)
    (hu : n ⬝ᵥ n = 1)
    (hp : Spec.sampleNormal ori n 0 ≠ 0 ∨ Spec.sampleNormal ori n 1 ≠ 0) :
    (slipTrace ori (-n)).2 = (slipTrace ori n).2 ∧
    ((slipTrace ori (-n)).1 = (slipTrace ori n).1 ∨
      (slipTrace ori (-n)).1 = 0 ∧ (slipTrace ori n).1 = Real.pi ∨
      (slipTrace ori (-n)).1 = Real.pi ∧ (slipTrace ori n).1 = 0) := by
  have hneg : Spec.sampleNormal ori (-n) = -Spec.sampleNormal ori n := by
    unfold Spec.sampleNormal
    rw [transform_matrix _ (north_conj ori), transform_matrix _ (north_conj ori), Matrix.mulVec_neg]
  have hp' : Spec.sampleNormal ori (-n) 0 ≠ 0 ∨ Spec.sampleNormal ori (-n) 1 ≠ 0 := by
    rw [hneg]; simpa using hp
  constructor
  · obtain ⟨a1, a2, a3⟩ := C59_inclination ori ho hn n hu
    obtain ⟨b1, b2, b3⟩ := C59_inclination ori ho hn (-n) (by simpa using hu)
    have hpi := Real.pi_pos
    refine Real.injOn_cos ⟨b1, by linarith⟩ ⟨a1, by linarith⟩ ?_
    rw [a3, b3, hneg, Pi.neg_apply, abs_neg]
  · obtain ⟨p1, p2, p3, p4⟩ := C59_trace ori ho hn n hp
    obtain ⟨q1, q2, q3, q4⟩ := C59_trace ori ho hn (-n) hp'
    rw [hneg, dotProduct_neg, neg_eq_zero] at q3
    obtain ⟨k, hk⟩ := p4 _ q3
    have hpi := Real.pi_pos
    have hk1 : k < 2 := by
      have : (k : ℝ) < 2 := by
        by_contra h
        nlinarith [not_lt.1 h]
      exact_mod_cast this
    have hk2 : -2 < k := by
      have : (-2 : ℝ) < k := by
        by_contra h
        nlinarith [not_lt.1 h]
      exact_mod_cast this
    have : k = -1 ∨ k = 0 ∨ k = 1 := by omega
    rcases this with rfl | rfl | rfl
    · right; left
      push_cast at hk
      constructor <;> linarith
    · left
      push_cast at hk
      linarith
    · right; right
      push_cast at hk
      constructor <;> linarith

/-- **C59 (groups).** There is one trace angle and inclination for each group, that of the plane
of its first member; the sign-insensitive grouping makes it that of all members (`C55_partition`,
`C59_sign`). -/
theorem C59_groups (ori : Quat ℝ) (groups : List (List SlipSystem)) (hne : ∀ g ∈ groups, g ≠ []) :
    ∃ out, slipTraces ori groups = .ok out ∧ out.length = groups.length ∧
      ∀ (i : Nat) (ss : SlipSystem) (t : List SlipSystem), groups[i]? = some (ss :: t) →
        out[i]? = some (slipTrace ori ss.normal) := by
  induction groups with
  | nil => exact ⟨[], rfl, rfl, by simp⟩
  | cons g gs ih =>
    obtain ⟨out, h1, h2, h3⟩ := ih fun x hx => hne x (List.mem_cons_of_mem _ hx)
    cases g with
    | nil => exact absurd rfl (hne [] (List.mem_cons_self ..))
    | cons s t =>
      refine ⟨slipTrace ori s.normal :: out, ?_, by simp [h2], ?_⟩
      · unfold slipTraces at h1 ⊢
        rw [List.mapM_cons, h1]
        rfl
      · intro i ss t' hi
        cases i with
        | zero => simp at hi; rw [hi.1]; rfl
        | succ i => simp at hi ⊢; exact h3 i ss t' hi

/-! ### C86 -/

/-- **C86.** The displacement ratio of a slip system with slip vector `s` in the sample frame is
`-s x / s y`; it is the same for slip systems that compare equal. -/
theorem C86_rdr (ori : Quat ℝ) (groups : List (List SlipSystem)) (i j : Nat)
    (grp : List SlipSystem) (ss : SlipSystem) (hi : groups[i]? = some grp)
    (hj : grp[j]? = some ss) :
    ((grainRdr ori groups)[i]?.bind fun (r : List ℝ) => r[j]?) =
      some (-(transformVector (conjugate ori) ss.slip 0) /
        transformVector (conjugate ori) ss.slip 1) := by
  simp only [grainRdr, List.getElem?_map, hi, Option.map_some, Option.bind_some, hj]

/-- **C86 (signs).** Slip systems that compare equal have the same displacement ratio. -/
theorem C86_sign (dflt : String) (cs : CrystalName) (ca : Option ℝ) (p d p' d' : List Int)
    (a b : SlipSystem) (ha : slipSystem dflt cs p d ca = .ok a)
    (hb : slipSystem dflt cs p' d' ca = .ok b) (hab : slipEq a b = true) (ori : Quat ℝ) :
    grainRdr ori [[a]] = grainRdr ori [[b]] := by
  obtain ⟨_, h2⟩ := slip_vectors dflt cs ca p d p' d' a b ha hb hab
  simp only [grainRdr, List.map_cons, List.map_nil]
  rcases h2 with h2 | h2
  · rw [h2]
  · rw [h2, transform_matrix _ (north_conj ori), transform_matrix _ (north_conj ori),
      Matrix.mulVec_neg]
    simp [div_neg, neg_div]

/-! ### C87 -/

theorem foldl_max_real (t : List ℝ) : ∀ a : ℝ, (t.foldl max a ∈ a :: t) ∧
    ∀ x ∈ a :: t, x ≤ t.foldl max a := by
  induction t with
  | nil => intro a; simp
  | cons b t ih =>
    intro a
    obtain ⟨h1, h2⟩ := ih (max a b)
    rw [List.foldl_cons]
    constructor
    · rcases List.mem_cons.1 h1 with h | h
      · rw [h]
        rcases max_choice a b with h' | h' <;> rw [h'] <;> simp
      · exact List.mem_cons_of_mem _ (List.mem_cons_of_mem _ h)
    · intro x hx
      rcases List.mem_cons.1 hx with rfl | hx
      · exact le_trans (le_max_left _ _) (h2 _ (List.mem_cons_self ..))
      · rcases List.mem_cons.1 hx with rfl | hx
        · exact le_trans (le_max_right _ _) (h2 _ (List.mem_cons_self ..))
        · exact h2 x (List.mem_cons_of_mem _ hx)

theorem listMax_spec (l : List ℝ) (m : ℝ) : listMax l = .ok m ↔ m ∈ l ∧ ∀ x ∈ l, x ≤ m := by
  cases l with
  | nil => simp [listMax]
  | cons a t =>
    obtain ⟨h1, h2⟩ := foldl_max_real t a
    constructor
    · intro h
      cases h
      exact ⟨h1, h2⟩
    · rintro ⟨h3, h4⟩
      simp only [listMax]
      rw [le_antisymm (h4 _ h1) (h2 _ h3)]

theorem mapM_ok_mem {α β : Type} (f : α → Except Err β) (l : List α) (r : List β)
    (h : l.mapM f = .ok r) : ∀ y, y ∈ r ↔ ∃ x ∈ l, f x = .ok y := by
  induction l generalizing r with
  | nil => cases h; simp
  | cons a l ih =>
    rw [List.mapM_cons] at h
    cases ha : f a with
    | error e => rw [ha] at h; cases h
    | ok b =>
      cases hl : l.mapM f with
      | error e => rw [ha, hl] at h; cases h
      | ok r' =>
        rw [ha, hl] at h
        cases h
        intro y
        rw [List.mem_cons, ih r' hl]
        constructor
        · rintro (rfl | ⟨x, hx, e⟩)
          · exact ⟨a, List.mem_cons_self .., ha⟩
          · exact ⟨x, List.mem_cons_of_mem _ hx, e⟩
        · rintro ⟨x, hx, e⟩
          rcases List.mem_cons.1 hx with rfl | hx
          · rw [ha] at e; cases e; exact Or.inl rfl
          · exact Or.inr ⟨x, hx, e⟩

/-- The Schmid factor in plane `p`, direction `d` of a table (Python indices). -/
def Spec.Entry (sf : List (List ℝ)) (p d : Int) (x : ℝ) : Prop :=
  ∃ grp, listAt sf p = .ok grp ∧ listAt grp d = .ok x

/-- **C87.** The value shown for a grain is the largest of the chosen Schmid factors: of all; of
those in the chosen planes; or of the chosen directions of the chosen planes. -/
theorem C87_maximum (sf : List (List ℝ)) (m : ℝ) :
    (maxSchmid sf none none = .ok m → (∃ g ∈ sf, m ∈ g) ∧ ∀ g ∈ sf, ∀ x ∈ g, x ≤ m) ∧
    (∀ ps, maxSchmid sf (some ps) none = .ok m →
      (∃ p ∈ ps, ∃ g, listAt sf p = .ok g ∧ m ∈ g) ∧
      ∀ p ∈ ps, ∀ g, listAt sf p = .ok g → ∀ x ∈ g, x ≤ m) ∧
    (∀ ps ds, maxSchmid sf (some ps) (some ds) = .ok m →
      (∃ p ∈ ps, ∃ d ∈ ds, Spec.Entry sf p d m) ∧
      ∀ p ∈ ps, ∀ d ∈ ds, ∀ x, Spec.Entry sf p d x → x ≤ m) := by
  refine ⟨?_, ?_, ?_⟩
  · intro h
    obtain ⟨h1, h2⟩ := (listMax_spec _ _).1 h
    exact ⟨List.mem_flatten.1 h1, fun g hg x hx => h2 x (List.mem_flatten.2 ⟨g, hg, hx⟩)⟩
  · intro ps h
    unfold maxSchmid at h
    simp only at h
    cases hm : ps.mapM fun p => chosenInPlane sf none p with
    | error e => rw [hm] at h; cases h
    | ok l =>
      rw [hm] at h
      obtain ⟨h1, h2⟩ := (listMax_spec _ _).1 h
      have hmem := mapM_ok_mem _ _ _ hm
      have hc : ∀ p g, chosenInPlane sf none p = .ok g ↔ listAt sf p = .ok g := by
        intro p g
        unfold chosenInPlane
        cases listAt sf p <;> simp [Except.bind]
      constructor
      · obtain ⟨g, hg, hmg⟩ := List.mem_flatten.1 h1
        obtain ⟨p, hp, e⟩ := (hmem g).1 hg
        exact ⟨p, hp, g, (hc p g).1 e, hmg⟩
      · intro p hp g hg x hx
        exact h2 x (List.mem_flatten.2 ⟨g, (hmem g).2 ⟨p, hp, (hc p g).2 hg⟩, hx⟩)
  · intro ps ds h
    unfold maxSchmid at h
    simp only at h
    cases hm : ps.mapM fun p => chosenInPlane sf (some ds) p with
    | error e => rw [hm] at h; cases h
    | ok l =>
      rw [hm] at h
      obtain ⟨h1, h2⟩ := (listMax_spec _ _).1 h
      have hmem := mapM_ok_mem _ _ _ hm
      constructor
      · obtain ⟨r, hr, hmr⟩ := List.mem_flatten.1 h1
        obtain ⟨p, hp, e⟩ := (hmem r).1 hr
        unfold chosenInPlane at e
        cases hg : listAt sf p with
        | error e' => rw [hg] at e; cases e
        | ok g =>
          rw [hg] at e
          obtain ⟨d, hd, e⟩ := (mapM_ok_mem _ _ _ e m).1 hmr
          exact ⟨p, hp, d, hd, g, hg, e⟩
      · rintro p hp d hd x ⟨g, hg, hx⟩
        have : ∃ r ∈ l, x ∈ r := by
          have hall : ∀ p ∈ ps, ∃ r, chosenInPlane sf (some ds) p = .ok r := by
            intro p hp
            by_contra hno
            have : ∀ (ps : List Int) (l : List (List ℝ)), p ∈ ps →
                (ps.mapM fun p => chosenInPlane sf (some ds) p) = .ok l → False := by
              intro ps
              induction ps with
              | nil => intro _ h; cases h
              | cons q ps ih =>
                intro l hq hl
                rw [List.mapM_cons] at hl
                cases hc : chosenInPlane sf (some ds) q with
                | error e => rw [hc] at hl; cases hl
                | ok r =>
                  rw [hc] at hl
                  cases hl' : ps.mapM fun p => chosenInPlane sf (some ds) p with
                  | error e => rw [hl'] at hl; cases hl
                  | ok l' =>
                    rcases List.mem_cons.1 hq with rfl | hq
                    · exact hno ⟨r, hc⟩
                    · exact ih l' hq hl'
            exact this ps l hp hm
          obtain ⟨r, hr⟩ := hall p hp
          refine ⟨r, (hmem r).2 ⟨p, hp, hr⟩, ?_⟩
          unfold chosenInPlane at hr
          rw [hg] at hr
          exact (mapM_ok_mem _ _ _ hr x).2 ⟨d, hd, hx⟩
        obtain ⟨r, hr, hxr⟩ := this
        exact h2 x (List.mem_flatten.2 ⟨r, hr, hxr⟩)

/-- **C87 (directions alone are ignored).** Directions chosen without planes make no difference, so
that the value shown need not be one of the chosen directions: here direction 0 is asked for and
the value of direction 1 is shown. -/
theorem C87_directions_ignored (sf : List (List ℝ)) (ds : List Int) :
    maxSchmid sf none (some ds) = maxSchmid sf none none ∧
    maxSchmid [[1 / 4, 1 / 2]] none (some [0]) = .ok (1 / 2) := by
  refine ⟨rfl, ?_⟩
  rw [maxSchmid, listMax_spec]
  refine ⟨by simp, ?_⟩
  intro x hx
  simp at hx
  rcases hx with rfl | rfl <;> norm_num

/-- **C87 (all factors in range).** For slip systems as in `C58_range` the value is between 0 and
1/2. -/
theorem C87_range (ori : Quat ℝ) (ho : ori.IsUnit) (load : Fin 3 → ℝ) (hl : load ⬝ᵥ load = 1)
    (groups : List (List SlipSystem))
    (hss : ∀ grp ∈ groups, ∀ ss ∈ grp, ss.normal ⬝ᵥ ss.normal = 1 ∧ ss.slip ⬝ᵥ ss.slip = 1 ∧
      ss.normal ⬝ᵥ ss.slip = 0) (m : ℝ)
    (h : maxSchmid (schmidFactors ori load groups) none none = .ok m) : 0 ≤ m ∧ m ≤ 1 / 2 := by
  obtain ⟨⟨g, hg, hm⟩, _⟩ := (C87_maximum _ m).1 h
  exact C58_range ori ho load hl groups hss g hg m hm

/-! ### Concrete cases -/

/-- **C58**, **C87** non-vacuity: face-centred cubic slip systems with a load along x in a crystal
aligned with the sample. -/
example : ∃ gs cols, loadSlip "hkl" .cubic none fccFile = .ok (gs, cols) ∧
    (∀ row ∈ schmidFactors ⟨1, 0, 0, 0⟩ ![1, 0, 0] gs, ∀ sf ∈ row, 0 ≤ sf ∧ sf ≤ 1 / 2) ∧
    (schmidFactors ⟨1, 0, 0, 0⟩ ![1, 0, 0] gs).length = 4 := by
  obtain ⟨gs, h1, h2⟩ := file_groups "hkl" .cubic none (Or.inl rfl) fccFile
    (by decide +kernel) (by decide +kernel) 4 (by decide +kernel)
  obtain ⟨gs', h1', _, h3, _⟩ := file_consistent "hkl" .cubic none (Or.inl rfl) fccFile
    (by decide +kernel)
  rw [h1] at h1'
  cases h1'
  refine ⟨gs, _, h1, ?_, by simp [schmidFactors, h2]⟩
  refine C58_range _ (by simp [Quat.IsUnit]) _ (by simp [dotProduct, Fin.sum_univ_three]) gs ?_
  intro grp hg ss hs
  exact h3 ss (List.mem_flatten.2 ⟨grp, hg, hs⟩)

/-- **C59** non-vacuity: a plane with normal along x has a trace at 0 or 180 degrees (here along y)
and is at 90 degrees to the surface. -/
example : Spec.sampleNormal ⟨1, 0, 0, 0⟩ ![1, 0, 0] 0 ≠ 0 ∧
    (slipTrace ⟨1, 0, 0, 0⟩ ![1, 0, 0]).2 = Real.pi / 2 := by
  have hc : Spec.sampleNormal ⟨1, 0, 0, 0⟩ ![1, 0, 0] = ![1, 0, 0] := by
    unfold Spec.sampleNormal
    rw [conj_matrix]
    funext i
    fin_cases i <;> simp [rotMatrix, Matrix.mulVec, dotProduct, Fin.sum_univ_three]
  refine ⟨by rw [hc]; simp, ?_⟩
  obtain ⟨h1, h2, h3⟩ := C59_inclination ⟨1, 0, 0, 0⟩ (by simp [Quat.IsUnit]) (by simp [North])
    ![1, 0, 0] (by simp [dotProduct, Fin.sum_univ_three])
  rw [hc] at h3
  have hpi := Real.pi_pos
  refine Real.injOn_cos ⟨h1, by linarith⟩ ⟨by linarith, by linarith⟩ ?_
  rw [h3, Real.cos_pi_div_two]
  simp

end DefDAP
