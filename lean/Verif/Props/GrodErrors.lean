import Verif.Props.AverageBest
import Verif.Props.GrodInvariant
import Verif.Props.MisoriDistance
import Mathlib.Analysis.SpecialFunctions.Trigonometric.Bounds

/-! C173: how far errors of orientation reach in the deviations from the reference orientation. -/

namespace DefDAP
open Quat Spec Matrix

variable {g : SymGroup} {c : ℝ}

/-- The deviation angles reported for the points of a grain. -/
noncomputable def Spec.deviations (out : List (Option (ℝ × (Fin 3 → ℝ)))) : List (Option ℝ) :=
  out.map fun o => o.map Prod.fst

/-- Two orientations are, up to the symmetry of the crystal, at most an angle apart. -/
def Spec.WrongBy (g : SymGroup) (δ : ℝ) (p p' : Quat ℝ) : Prop := Spec.misAngle g p p' ≤ δ

theorem grod_angles (g : SymGroup) (quats : List (Quat ℝ)) (hu : ∀ q ∈ quats, q.IsUnit) (ref : Quat ℝ)
    (hr : ref.IsUnit) : ∃ out, calcGrod g quats (some ref) = .ok out ∧
      Spec.deviations out = quats.map fun q => some (Spec.misAngle g q ref) := by
  obtain ⟨hlen, hlist⟩ := C44_list g quats hu ref hr
  refine ⟨_, rfl, ?_⟩
  unfold Spec.deviations
  rw [List.map_map]
  refine List.ext_getElem? fun k => ?_
  rw [List.getElem?_map, List.getElem?_map]
  cases hq : quats[k]? with
  | none =>
    rw [List.getElem?_eq_none_iff] at hq
    rw [List.getElem?_eq_none_iff.2 (by rw [hlen]; exact hq)]
    rfl
  | some q =>
    obtain ⟨v, h1, -⟩ := hlist k q hq
    rw [h1]
    rfl

/-- Errors of two orientations add up. -/
theorem misAngle_errors (g : SymGroup) {p p' r r' : Quat ℝ} (hp : p.IsUnit) (hp' : p'.IsUnit)
    (hr : r.IsUnit) (hr' : r'.IsUnit) :
    |Spec.misAngle g p' r' - Spec.misAngle g p r| ≤ Spec.misAngle g p p' + Spec.misAngle g r r' := by
  have h1 := C139_triangle g p' p r' hp' hp hr'
  have h2 := C139_triangle g p r r' hp hr hr'
  have h3 := C139_triangle g p p' r hp hp' hr
  have h4 := C139_triangle g p' r' r hp' hr' hr
  rw [C139_symmetric g p' p hp' hp] at h1
  rw [C139_symmetric g r' r hr' hr] at h4
  rw [abs_le]
  constructor <;> linarith

/-- **C173 (given).** With a given reference: if every orientation is wrong by at most `δ` and the reference
by at most `δ'`, up to the symmetry of the crystal, every deviation is wrong by at most `δ + δ'`. -/
theorem C173_given (g : SymGroup) (quats quats' : List (Quat ℝ)) (hu : ∀ q ∈ quats, q.IsUnit)
    (hu' : ∀ q ∈ quats', q.IsUnit) (ref ref' : Quat ℝ) (hr : ref.IsUnit) (hr' : ref'.IsUnit) (δ δ' : ℝ)
    (hδ : List.Forall₂ (Spec.WrongBy g δ) quats quats') (hδ' : Spec.WrongBy g δ' ref ref') :
    ∃ out out', calcGrod g quats (some ref) = .ok out ∧ calcGrod g quats' (some ref') = .ok out' ∧
      (Spec.deviations out).length = quats.length ∧ (Spec.deviations out').length = quats.length ∧
      ∀ k, k < quats.length → ∃ a a' : ℝ, (Spec.deviations out)[k]? = some (some a) ∧
        (Spec.deviations out')[k]? = some (some a') ∧ |a' - a| ≤ δ + δ' := by
  obtain ⟨out, h1, e1⟩ := grod_angles g quats hu ref hr
  obtain ⟨out', h2, e2⟩ := grod_angles g quats' hu' ref' hr'
  have hlen := hδ.length_eq
  refine ⟨out, out', h1, h2, by rw [e1]; simp, by rw [e2]; simp [hlen], ?_⟩
  intro k hk
  have hk' : k < quats'.length := by omega
  refine ⟨_, _, by rw [e1, List.getElem?_map, List.getElem?_eq_getElem hk]; rfl,
    by rw [e2, List.getElem?_map, List.getElem?_eq_getElem hk']; rfl, ?_⟩
  have hw : Spec.WrongBy g δ quats[k] quats'[k] := (List.forall₂_iff_get.1 hδ).2 k hk hk'
  have := misAngle_errors g (hu _ (List.getElem_mem hk)) (hu' _ (List.getElem_mem hk')) hr hr'
  unfold Spec.WrongBy at hw hδ'
  linarith

/-- **C173 (mean).** So is the mean that is listed for the grain, of the cosines of half the deviations, by
at most half as much. -/
theorem C173_mean (g : SymGroup) (quats quats' : List (Quat ℝ)) (hu : ∀ q ∈ quats, q.IsUnit)
    (hu' : ∀ q ∈ quats', q.IsUnit) (hne : quats ≠ []) (ref ref' : Quat ℝ) (hr : ref.IsUnit)
    (hr' : ref'.IsUnit) (δ δ' : ℝ)
    (hδ : List.Forall₂ (Spec.WrongBy g δ) quats quats') (hδ' : Spec.WrongBy g δ' ref ref') :
    ∃ l l' mean mean' axes axes', buildMisOriList g quats (some ref) = .ok (l, mean, axes) ∧
      buildMisOriList g quats' (some ref') = .ok (l', mean', axes') ∧
      |mean' - mean| ≤ (δ + δ') / 2 := by
  have hlen := hδ.length_eq
  have hne' : quats' ≠ [] := by
    rintro rfl
    exact hne (List.length_eq_zero_iff.1 hlen)
  obtain ⟨l, mean, axes, h1, -, m1, -⟩ := C88_list g quats hu ref hr hne
  obtain ⟨l', mean', axes', h2, -, m2, -⟩ := C88_list g quats' hu' ref' hr' hne'
  refine ⟨l, l', mean, mean', axes, axes', h1, h2, ?_⟩
  rw [m1, m2, ← hlen]
  have hpos : (0 : ℝ) < quats.length := by
    have := List.length_pos_iff.mpr hne
    exact_mod_cast this
  have one : ∀ p p' : Quat ℝ, p.IsUnit → p'.IsUnit → Spec.WrongBy g δ p p' →
      |misOri (symEqv g) p' ref' - misOri (symEqv g) p ref| ≤ (δ + δ') / 2 := by
    intro p p' hp hp' hw
    have ha := misAngle_errors g hp hp' hr hr'
    have cos1 : ∀ {x y : Quat ℝ}, x.IsUnit → y.IsUnit →
        misOri (symEqv g) x y = Real.cos (Spec.misAngle g x y / 2) := by
      intro x y hx hy
      obtain ⟨b0, b1, -⟩ := C40_range g x y hx hy
      unfold Spec.misAngle
      rw [mul_div_cancel_left₀ _ (two_ne_zero), Real.cos_arccos (by linarith) b1]
    rw [cos1 hp' hr', cos1 hp hr]
    have hl := Real.abs_cos_sub_cos_le (Spec.misAngle g p' ref' / 2) (Spec.misAngle g p ref / 2)
    rw [← sub_div, abs_div, abs_two] at hl
    unfold Spec.WrongBy at hw hδ'
    linarith
  have key : ∀ {a b : List (Quat ℝ)}, List.Forall₂ (Spec.WrongBy g δ) a b → (∀ q ∈ a, q.IsUnit) →
      (∀ q ∈ b, q.IsUnit) →
      |(b.map fun q => misOri (symEqv g) q ref').sum - (a.map fun q => misOri (symEqv g) q ref).sum| ≤
        a.length * ((δ + δ') / 2) := by
    intro a b hf
    induction hf with
    | nil => simp
    | cons h0 _ ih =>
      intro ha hb
      have i1 := ih (fun q hq => ha q (List.mem_cons_of_mem _ hq)) fun q hq => hb q (List.mem_cons_of_mem _ hq)
      have i2 := one _ _ (ha _ List.mem_cons_self) (hb _ List.mem_cons_self) h0
      simp only [List.map_cons, List.sum_cons, List.length_cons]
      push_cast
      rw [abs_le] at i1 i2 ⊢
      constructor <;> linarith
  rw [← sub_div, abs_div, abs_of_pos hpos, div_le_iff₀ hpos]
  have := key hδ hu hu'
  linarith

/-- **C173 (uniform).** In a grain of one orientation, measured at every point with an error of at most an
angle `δ` of at most 90 degrees, the deviations from the average orientation are at most `2 δ`: larger ones
show that the orientation varies. The points may have any of the equivalent orientations. -/
theorem C173_uniform {q : Quat ℝ} {qs qs' : List (Quat ℝ)} (hl : Cluster c (q :: qs))
    (hi : List.Forall₂ (Instead g) qs qs') (t : Quat ℝ) (ht : t.IsUnit) (δ : ℝ) (hδ : δ ≤ Real.pi / 2)
    (he : ∀ p ∈ q :: qs, rotationAngle (rotMatrix p * (rotMatrix t)ᵀ) ≤ δ) :
    ∃ out, calcGrod g (q :: qs') none = .ok out ∧ (Spec.deviations out).length = (q :: qs').length ∧
      ∀ o ∈ Spec.deviations out, ∃ a, o = some a ∧ 0 ≤ a ∧ a ≤ 2 * δ := by
  have hne : q :: qs ≠ [] := by simp
  obtain ⟨m, hm, herr⟩ := C158_error hl hi t ht δ hδ he
  rw [C132_average hl hi] at hm
  injection hm with hm
  subst hm
  have um := clusterMean_unit hl hne
  refine ⟨_, C136_grod hl hi, ?_, ?_⟩
  · simp [Spec.deviations, hi.length_eq]
  · intro o ho
    unfold Spec.deviations at ho
    rw [List.map_map] at ho
    obtain ⟨p, hp, rfl⟩ := List.mem_map.1 ho
    refine ⟨2 * Real.arccos (dot p (meanQuat (q :: qs))), rfl, ?_, ?_⟩
    · have := Real.arccos_nonneg (dot p (meanQuat (q :: qs)))
      linarith
    · have up := cluster_unit hl hp
      have hpos : 0 ≤ dot p (meanQuat (q :: qs)) := by
        rw [dot_comm, meanQuat_dot]
        exact div_nonneg (sum_pos hl.pos (cluster_near hl) _ hne (fun _ h => h) p hp).le (Real.sqrt_nonneg _)
      have htri := arccos_triangle up ht um
      have h1 := he p hp
      rw [rotationAngle_eq up ht] at h1
      rw [rotationAngle_eq um ht, dot_comm] at herr
      rw [abs_of_nonneg hpos] at htri
      linarith

/-! ### Concrete cases -/

/-- Two measured orientations, one of them given by an equivalent one. -/
example : ∃ out, calcGrod .cubic [Spec.bend, quarterTurn] none = .ok out ∧
    (Spec.deviations out).length = 2 ∧
    ∀ o ∈ Spec.deviations out, ∃ a, o = some a ∧ 0 ≤ a ∧ a ≤ 2 * (2 * Real.arccos (7 / Real.sqrt 50)) := by
  obtain ⟨hl, hi⟩ := cluster_example
  have u1 : (⟨1, 0, 0, 0⟩ : Quat ℝ).IsUnit := by simp [Quat.IsUnit]
  refine C173_uniform hl hi _ u1 _ ?_ ?_
  · have h1 : Real.arccos (7 / Real.sqrt 50) ≤ Real.arccos (Real.cos (Real.pi / 4)) := by
      apply Real.arccos_le_arccos
      rw [Real.cos_pi_div_four, le_div_iff₀ (by positivity), div_mul_eq_mul_div, ← Real.sqrt_mul (by norm_num),
        show (2 * 50 : ℝ) = 10 ^ 2 by norm_num, Real.sqrt_sq (by norm_num)]
      norm_num
    have hpi := Real.pi_pos
    rw [Real.arccos_cos (by linarith) (by linarith)] at h1
    linarith
  · intro p hp
    rw [rotationAngle_eq (cluster_unit hl hp) u1]
    have h := cluster_dot hl hp (List.mem_cons_of_mem _ List.mem_cons_self)
    have := Real.arccos_le_arccos (h.trans (le_abs_self _))
    linarith

/-- Two orientations in place of two others. -/
example : List.Forall₂ (Spec.WrongBy .cubic (Spec.misAngle .cubic Spec.bend ⟨1, 0, 0, 0⟩))
    [Spec.bend, Spec.bend] [⟨1, 0, 0, 0⟩, ⟨1, 0, 0, 0⟩] :=
  .cons le_rfl (.cons le_rfl .nil)

end DefDAP
