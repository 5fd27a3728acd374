import Verif.Model.GrainMech
import Verif.Props.Average
import Verif.Props.Schmid

/-! C88: grain reference orientation deviation. -/

namespace DefDAP

open Quat Matrix

theorem grodDelta_eq (r v : Quat ℝ) : grodDelta r v = mul v (conjugate r) := by
  have h : (⟨(conjugate r).q0 * v.q0 - (conjugate r).q1 * v.q1 - (conjugate r).q2 * v.q2 -
        (conjugate r).q3 * v.q3,
      (conjugate r).q1 * v.q0 + (conjugate r).q0 * v.q1 + (conjugate r).q3 * v.q2 -
        (conjugate r).q2 * v.q3,
      (conjugate r).q2 * v.q0 + (conjugate r).q0 * v.q2 + (conjugate r).q1 * v.q3 -
        (conjugate r).q3 * v.q1,
      (conjugate r).q3 * v.q0 + (conjugate r).q0 * v.q3 + (conjugate r).q2 * v.q1 -
        (conjugate r).q1 * v.q2⟩ : Quat ℝ) = mulRaw v (conjugate r) := by
    ext <;> simp only [mulRaw] <;> ring
  show (open Classical in if (Quat.q0 _ : ℝ) < 0 then Quat.neg _ else _) = _
  rw [h]
  unfold mul make
  simp

/-- **C88 (axis).** The axis in the list is that of the pairwise calculation with the reference. -/
theorem C88_axis (r v : Quat ℝ) : grodAxis (grodDelta r v) = misOriAxis r v := by
  rw [grodDelta_eq]
  rfl

/-- Facts about the axis and angle of a northern unit quaternion. -/
theorem grodAxis_spec (d : Quat ℝ) (hd : d.IsUnit) (hn : d.North) :
    0 ≤ 2 * Real.arccos d.q0 ∧
    (2 * Real.arccos d.q0 ≠ 0 →
      Real.sqrt (grodAxis d 0 * grodAxis d 0 + grodAxis d 1 * grodAxis d 1 +
        grodAxis d 2 * grodAxis d 2) = 2 * Real.arccos d.q0 ∧
      fromAxisAngle (-grodAxis d) (2 * Real.arccos d.q0) = d) := by
  have hu : d.q0 ^ 2 + d.q1 ^ 2 + d.q2 ^ 2 + d.q3 ^ 2 = 1 := hd
  have hn0 : 0 ≤ d.q0 := hn
  have hle : d.q0 ≤ 1 := by nlinarith [sq_nonneg d.q1, sq_nonneg d.q2, sq_nonneg d.q3]
  have ha := Real.arccos_nonneg d.q0
  refine ⟨by linarith, fun hne => ?_⟩
  have hapos : 0 < Real.arccos d.q0 := lt_of_le_of_ne ha fun h => hne (by rw [← h]; ring)
  have hlt : d.q0 < 1 := Real.arccos_pos.1 hapos
  have hs2 : Real.sqrt (1 - d.q0 ^ 2) ^ 2 = 1 - d.q0 ^ 2 := Real.sq_sqrt (by nlinarith)
  have hs : 0 < Real.sqrt (1 - d.q0 ^ 2) := Real.sqrt_pos.2 (by nlinarith)
  have hsin : Real.sin (Real.arccos d.q0) = Real.sqrt (1 - d.q0 ^ 2) := Real.sin_arccos _
  have hcos : Real.cos (Real.arccos d.q0) = d.q0 := Real.cos_arccos (by linarith) hle
  have e0 : grodAxis d 0 = 2 * d.q1 * Real.arccos d.q0 / Real.sqrt (1 - d.q0 ^ 2) := rfl
  have e1 : grodAxis d 1 = 2 * d.q2 * Real.arccos d.q0 / Real.sqrt (1 - d.q0 ^ 2) := rfl
  have e2 : grodAxis d 2 = 2 * d.q3 * Real.arccos d.q0 / Real.sqrt (1 - d.q0 ^ 2) := rfl
  have hnorm : grodAxis d 0 * grodAxis d 0 + grodAxis d 1 * grodAxis d 1 +
      grodAxis d 2 * grodAxis d 2 = (2 * Real.arccos d.q0) ^ 2 := by
    rw [e0, e1, e2]
    generalize Real.arccos d.q0 = a at *
    generalize Real.sqrt (1 - d.q0 ^ 2) = s at *
    have : d.q1 ^ 2 + d.q2 ^ 2 + d.q3 ^ 2 = s ^ 2 := by linarith
    field_simp
    nlinarith
  have hsq : Real.sqrt (grodAxis d 0 * grodAxis d 0 + grodAxis d 1 * grodAxis d 1 +
      grodAxis d 2 * grodAxis d 2) = 2 * Real.arccos d.q0 := by
    rw [hnorm, Real.sqrt_sq (by linarith)]
  refine ⟨hsq, ?_⟩
  unfold fromAxisAngle
  simp only [Pi.neg_apply, neg_mul_neg]
  rw [hsq, show 2 * Real.arccos d.q0 / 2 = Real.arccos d.q0 by ring, hsin, hcos]
  have hq : (⟨d.q0, -Real.sqrt (1 - d.q0 ^ 2) * (-grodAxis d 0 / (2 * Real.arccos d.q0)),
      -Real.sqrt (1 - d.q0 ^ 2) * (-grodAxis d 1 / (2 * Real.arccos d.q0)),
      -Real.sqrt (1 - d.q0 ^ 2) * (-grodAxis d 2 / (2 * Real.arccos d.q0))⟩ : Quat ℝ) = d := by
    rw [e0, e1, e2]
    generalize Real.arccos d.q0 = a at *
    generalize Real.sqrt (1 - d.q0 ^ 2) = s at *
    ext
    · rfl
    all_goals simp only; field_simp
  rw [hq, make_north hn]

theorem mulRaw_conj_cancel (r v : Quat ℝ) (hr : r.IsUnit) :
    mulRaw (mulRaw v ⟨r.q0, -r.q1, -r.q2, -r.q3⟩) r = v := by
  have hu : r.q0 ^ 2 + r.q1 ^ 2 + r.q2 ^ 2 + r.q3 ^ 2 = 1 := hr
  have key : mulRaw (mulRaw v ⟨r.q0, -r.q1, -r.q2, -r.q3⟩) r =
      ⟨(r.q0 ^ 2 + r.q1 ^ 2 + r.q2 ^ 2 + r.q3 ^ 2) * v.q0,
       (r.q0 ^ 2 + r.q1 ^ 2 + r.q2 ^ 2 + r.q3 ^ 2) * v.q1,
       (r.q0 ^ 2 + r.q1 ^ 2 + r.q2 ^ 2 + r.q3 ^ 2) * v.q2,
       (r.q0 ^ 2 + r.q1 ^ 2 + r.q2 ^ 2 + r.q3 ^ 2) * v.q3⟩ := by
    ext <;> simp only [mulRaw] <;> ring
  rw [key, hu]
  ext <;> simp

/-- **C88 (deviation).** For unit orientations and a unit northern reference: for every point the
deviation is the misorientation angle to the reference, between 0 and 120 degrees; and, unless it
is zero, the axis vector has the deviation as its length, and rotating the reference by that angle
about that axis (in the sense of the library, whose axes are turned round) gives a symmetric
equivalent of the point's orientation. -/
theorem C88_grod (g : SymGroup) (quats : List (Quat ℝ)) (hu : ∀ q ∈ quats, q.IsUnit)
    (ref : Quat ℝ) (hr : ref.IsUnit) (hrn : ref.North) :
    ∃ out, calcGrod g quats (some ref) = .ok out ∧ out.length = quats.length ∧
      ∀ (k : Nat) (q : Quat ℝ), quats[k]? = some q → ∃ (angle : ℝ) (axis : Fin 3 → ℝ),
        out[k]? = some (some (angle, axis)) ∧
        Real.cos (angle / 2) = misOri (symEqv g) q ref ∧ 0 ≤ angle ∧ angle ≤ 2 * Real.pi / 3 ∧
        (angle ≠ 0 →
          Real.sqrt (axis 0 * axis 0 + axis 1 * axis 1 + axis 2 * axis 2) = angle ∧
          ∃ s ∈ symEqv g, mul (fromAxisAngle (-axis) angle) ref = mul s q ∨
            mul (fromAxisAngle (-axis) angle) ref = (mul s q).neg) := by
  obtain ⟨hlen, hlist⟩ := C44_list g quats hu ref hr
  refine ⟨_, rfl, by simp [hlen], ?_⟩
  intro k q hq
  obtain ⟨v, h1, ⟨s, hs, hv⟩, h3, h4, _⟩ := hlist k q hq
  have huq := hu q (List.mem_of_getElem? hq)
  have hhalf := (C41_variant g q ref huq hr).1
  have hvu : v.IsUnit := by
    have := isUnit_mul ((symEqv_table g).unit s hs) huq
    rcases hv with rfl | rfl
    · exact this
    · exact isUnit_neg.2 this
  have hconj : conjugate ref = ⟨ref.q0, -ref.q1, -ref.q2, -ref.q3⟩ :=
    make_north (q := ⟨ref.q0, -ref.q1, -ref.q2, -ref.q3⟩) hrn
  have hdu : (grodDelta ref v).IsUnit := by
    rw [grodDelta_eq]; exact isUnit_mul hvu (isUnit_conj hr)
  have hdn : (grodDelta ref v).North := by rw [grodDelta_eq]; exact north_make _
  have hraw : (mulRaw v (conjugate ref)).q0 = dot v ref := by
    rw [hconj]; simp only [mulRaw, dot]; ring
  have hd0 : (grodDelta ref v).q0 = misOri (symEqv g) q ref := by
    rw [← h3, grodDelta_eq]
    unfold mul
    rcases make_cases false (mulRaw v (conjugate ref)) with ⟨e, e'⟩ | ⟨e, _, e'⟩
    · rw [e, hraw, abs_of_nonneg]
      rw [← hraw]; exact e'.resolve_left (by simp)
    · rw [e]
      show -(mulRaw v (conjugate ref)).q0 = _
      rw [hraw, abs_of_neg]
      rw [← hraw]; exact e'
  refine ⟨2 * Real.arccos (misOri (symEqv g) q ref), grodAxis (grodDelta ref v), ?_, ?_, ?_, ?_, ?_⟩
  · simp [h1]
  · rw [show 2 * Real.arccos (misOri (symEqv g) q ref) / 2 =
      Real.arccos (misOri (symEqv g) q ref) by ring]
    exact Real.cos_arccos (by linarith) h4
  · have := Real.arccos_nonneg (misOri (symEqv g) q ref); linarith
  · have : Real.arccos (misOri (symEqv g) q ref) ≤ Real.arccos (1 / 2) :=
      Real.arccos_le_arccos hhalf
    have h3 : Real.arccos (1 / 2) = Real.pi / 3 := by
      rw [← Real.cos_pi_div_three, Real.arccos_cos (by positivity) (by linarith [Real.pi_pos])]
    rw [h3] at this
    linarith
  · intro hne
    have hsp := (grodAxis_spec (grodDelta ref v) hdu hdn).2
    rw [hd0] at hsp
    obtain ⟨e1, e2⟩ := hsp hne
    refine ⟨e1, s, hs, ?_⟩
    rw [e2, grodDelta_eq]
    have hres : mul (mul v (conjugate ref)) ref = v ∨ mul (mul v (conjugate ref)) ref = v.neg := by
      unfold mul
      have hc := mulRaw_conj_cancel ref v hr
      rw [← hconj] at hc
      have hneg : mulRaw (mulRaw v (conjugate ref)).neg ref = v.neg := by
        rw [show mulRaw (mulRaw v (conjugate ref)).neg ref =
          (mulRaw (mulRaw v (conjugate ref)) ref).neg by
            ext <;> simp only [mulRaw, Quat.neg] <;> ring, hc]
      have hnn : v.neg.neg = v := by ext <;> simp [Quat.neg]
      rcases make_cases false (mulRaw v (conjugate ref)) with ⟨e, _⟩ | ⟨e, _⟩ <;> rw [e]
      · rw [hc]
        rcases make_cases false v with ⟨e, _⟩ | ⟨e, _⟩
        · exact Or.inl e
        · exact Or.inr e
      · rw [hneg]
        rcases make_cases false v.neg with ⟨e, _⟩ | ⟨e, _⟩
        · exact Or.inr e
        · rw [hnn] at e
          exact Or.inl e
    have hnn : ((mul s q).neg).neg = mul s q := by ext <;> simp [Quat.neg]
    rcases hv with hv | hv
    · rw [← hv]; exact hres
    · rcases hres with h | h
      · right; rw [h, hv]
      · left; rw [h, hv, hnn]

/-- **C88 (reference).** A reference orientation that is already set is used as it is; without one
the reference is the average of the points. -/
theorem C88_reference (g : SymGroup) (quats : List (Quat ℝ)) (r : Quat ℝ) :
    grainRef g quats (some r) = .ok r ∧ grainRef g quats none = grainMeanOri g quats ∧
    (grainMeanOri g quats = .ok r → calcGrod g quats none = calcGrod g quats (some r) ∧
      buildMisOriList g quats none = buildMisOriList g quats (some r)) := by
  refine ⟨rfl, rfl, fun h => ⟨?_, ?_⟩⟩
  · simp only [calcGrod, grainRef, h]
  · simp only [buildMisOriList, grainRef, h]

theorem overlap_sum_bounds (l : List ℝ) (h : ∀ x ∈ l, 1 / 2 ≤ x ∧ x ≤ 1) :
    1 / 2 * (l.length : ℝ) ≤ l.sum ∧ l.sum ≤ l.length := by
  induction l with
  | nil => simp
  | cons a l ih =>
    obtain ⟨i1, i2⟩ := ih fun x hx => h x (List.mem_cons_of_mem _ hx)
    obtain ⟨a1, a2⟩ := h a (List.mem_cons_self ..)
    rw [List.sum_cons, List.length_cons]
    push_cast
    constructor <;> linarith

/-- **C88 (misorientation list).** The list of misorientations holds, for every point, the pairwise
misorientation to the reference (as a cosine) and the axis reported by the deviation, and its mean
is between one half and one for a grain with points. -/
theorem C88_list (g : SymGroup) (quats : List (Quat ℝ)) (hu : ∀ q ∈ quats, q.IsUnit)
    (ref : Quat ℝ) (hr : ref.IsUnit) (hne : quats ≠ []) :
    ∃ l mean axes, buildMisOriList g quats (some ref) = .ok (l, mean, axes) ∧
      l = quats.map (fun q => some (misOri (symEqv g) q ref)) ∧
      mean = (quats.map fun q => misOri (symEqv g) q ref).sum / quats.length ∧
      1 / 2 ≤ mean ∧ mean ≤ 1 ∧
      ∃ grod, calcGrod g quats (some ref) = .ok grod ∧
        axes = grod.map fun o => o.map fun av => av.2 := by
  obtain ⟨hlen, hlist⟩ := C44_list g quats hu ref hr
  have hl : ∀ out, calcMisOri (calcSymEqvs (symEqv g) quats) quats.length ref = out →
      out.map (fun o => o.map fun mv => mv.1) =
        quats.map fun q => some (misOri (symEqv g) q ref) := by
    rintro out rfl
    refine List.ext_getElem? fun k => ?_
    rw [List.getElem?_map, List.getElem?_map]
    cases hq : quats[k]? with
    | none =>
      rw [List.getElem?_eq_none_iff] at hq
      rw [List.getElem?_eq_none_iff.2 (by rw [hlen]; exact hq)]
      rfl
    | some q =>
      obtain ⟨v, h1, _⟩ := hlist k q hq
      rw [h1]
      rfl
  have hfm : ∀ (out : List (Option (ℝ × Quat ℝ))),
      (out.filterMap fun o => o.map fun mv => mv.1) =
        (out.map fun o => o.map fun mv => mv.1).filterMap id := by
    intro out
    rw [List.filterMap_map]
    rfl
  have hsum : ((calcMisOri (calcSymEqvs (symEqv g) quats) quats.length ref).filterMap
      fun o => o.map fun mv => mv.1) = quats.map fun q => misOri (symEqv g) q ref := by
    rw [hfm, hl _ rfl, List.filterMap_map]
    show List.filterMap (fun q => some (misOri (symEqv g) q ref)) quats = _
    rw [List.filterMap_eq_map']
  refine ⟨_, _, _, rfl, hl _ rfl, ?_, ?_, ?_, _, rfl, ?_⟩
  · rw [hsum, hlen]
  · rw [hsum, hlen]
    have hpos : (0 : ℝ) < quats.length := by exact_mod_cast List.length_pos_iff.2 hne
    rw [le_div_iff₀ hpos]
    have := (overlap_sum_bounds (quats.map fun q => misOri (symEqv g) q ref) (by
      intro x hx
      obtain ⟨q, hq, rfl⟩ := List.mem_map.1 hx
      exact ⟨(C41_variant g q ref (hu q hq) hr).1, (C40_range g q ref (hu q hq) hr).2.1⟩)).1
    rwa [List.length_map] at this
  · rw [hsum, hlen]
    have hpos : (0 : ℝ) < quats.length := by exact_mod_cast List.length_pos_iff.2 hne
    rw [div_le_one hpos]
    have := (overlap_sum_bounds (quats.map fun q => misOri (symEqv g) q ref) (by
      intro x hx
      obtain ⟨q, hq, rfl⟩ := List.mem_map.1 hx
      exact ⟨(C41_variant g q ref (hu q hq) hr).1, (C40_range g q ref (hu q hq) hr).2.1⟩)).2
    rwa [List.length_map] at this
  · rw [List.map_map]
    congr 1
    funext o
    cases o <;> rfl

/-- **C88** non-vacuity: two points, one of them at the reference. -/
example : ∃ out, calcGrod .cubic [⟨1, 0, 0, 0⟩, ⟨4 / 5, 3 / 5, 0, 0⟩] (some ⟨1, 0, 0, 0⟩) = .ok out ∧
    out.length = 2 := by
  obtain ⟨out, h1, h2, _⟩ := C88_grod .cubic [⟨1, 0, 0, 0⟩, ⟨4 / 5, 3 / 5, 0, 0⟩] (by
    intro q hq
    simp at hq
    rcases hq with rfl | rfl
    · simp [Quat.IsUnit]
    · simp [Quat.IsUnit]; norm_num) ⟨1, 0, 0, 0⟩ (by simp [Quat.IsUnit]) (by simp [North])
  exact ⟨out, h1, h2⟩

end DefDAP
