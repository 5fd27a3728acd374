import Verif.Props.AverageInvariant
import Verif.Props.MisoriGrains

/-!
C158: the average orientation of a grain is the orientation closest to its points, and is not further from
the true orientation than the worst of them.
-/

namespace DefDAP
open Quat Spec Matrix

/-- The sum of the quaternions, each with the sign of its product with `u`. -/
noncomputable def signedSum (u : Quat ℝ) : List (Quat ℝ) → Quat ℝ
  | [] => ⟨0, 0, 0, 0⟩
  | p :: l => (if 0 ≤ dot p u then p else p.neg).plus (signedSum u l)

theorem signedSum_dot (u : Quat ℝ) : ∀ l : List (Quat ℝ), dot (signedSum u l) u = (l.map fun p => |dot p u|).sum
  | [] => by simp [signedSum, dot]
  | p :: l => by
    rw [signedSum, dot_plus_left, signedSum_dot u l, List.map_cons, List.sum_cons]
    split_ifs with h
    · rw [abs_of_nonneg h]
    · rw [dot_neg_left, abs_of_neg (not_le.1 h)]

theorem quatSum_dot (u : Quat ℝ) : ∀ l : List (Quat ℝ), dot (quatSum l) u = (l.map fun p => dot p u).sum
  | [] => by simp [quatSum, dot]
  | p :: l => by rw [quatSum_cons, dot_plus_left, quatSum_dot u l, List.map_cons, List.sum_cons]

theorem neg_plus (x y : Quat ℝ) : (x.plus y).neg = x.neg.plus y.neg := by
  simp only [Quat.plus, Quat.neg]
  ext <;> simp only [] <;> ring

theorem neg_neg' (x : Quat ℝ) : x.neg.neg = x := by
  simp [Quat.neg]

theorem sum_pos {L : List (Quat ℝ)} {c : ℝ} (hc : 0 < c) (h : ∀ p ∈ L, ∀ r ∈ L, c ≤ dot p r) :
    ∀ l : List (Quat ℝ), l ≠ [] → (∀ p ∈ l, p ∈ L) → ∀ r ∈ L, 0 < dot (quatSum l) r
  | [], hne, _, _, _ => absurd rfl hne
  | p :: l, _, hl, r, hr => by
    rw [quatSum_cons, dot_plus_left]
    have h1 := h p (hl p List.mem_cons_self) r hr
    by_cases e : l = []
    · subst e
      have : dot (quatSum []) r = 0 := by simp [quatSum, dot]
      linarith
    · have := sum_pos hc h l e (fun x hx => hl x (List.mem_cons_of_mem _ hx)) r hr
      linarith

theorem signedSum_cases {L : List (Quat ℝ)} {c : ℝ} (hc : 0 < c) (h : ∀ p ∈ L, ∀ r ∈ L, c ≤ dot p r)
    (u : Quat ℝ) : ∀ l : List (Quat ℝ), l ≠ [] → (∀ p ∈ l, p ∈ L) →
    signedSum u l = quatSum l ∨ signedSum u l = (quatSum l).neg ∨
      (dot (signedSum u l) (signedSum u l) < dot (quatSum l) (quatSum l) ∧
        ∀ r ∈ L, |dot (signedSum u l) r| < dot (quatSum l) r)
  | [], hne, _ => absurd rfl hne
  | p :: l, _, hl => by
    have hp := hl p List.mem_cons_self
    have hl' : ∀ x ∈ l, x ∈ L := fun x hx => hl x (List.mem_cons_of_mem _ hx)
    by_cases e : l = []
    · subst e
      simp only [signedSum]
      split_ifs
      · left; simp [quatSum, Quat.plus]
      · right; left; simp [quatSum, Quat.plus, Quat.neg]
    have hS := sum_pos hc h l e hl'
    -- the sum of the vectors of two directions
    have mixed : ∀ a b : Quat ℝ, (a = p ∧ b = (quatSum l).neg ∨ a = p.neg ∧ b = quatSum l) →
        dot (a.plus b) (a.plus b) < dot (p.plus (quatSum l)) (p.plus (quatSum l)) ∧
        ∀ r ∈ L, |dot (a.plus b) r| < dot (p.plus (quatSum l)) r := by
      rintro a b (⟨rfl, rfl⟩ | ⟨rfl, rfl⟩)
      · constructor
        · have := hS a hp
          simp only [dot, Quat.plus, Quat.neg] at this ⊢
          nlinarith
        · intro r hr
          have h1 := hS r hr
          have h2 := h a hp r hr
          rw [dot_plus_left, dot_plus_left, dot_neg_left, abs_lt]
          constructor <;> linarith
      · constructor
        · have := hS p hp
          simp only [dot, Quat.plus, Quat.neg] at this ⊢
          nlinarith
        · intro r hr
          have h1 := hS r hr
          have h2 := h p hp r hr
          rw [dot_plus_left, dot_plus_left, dot_neg_left, abs_lt]
          constructor <;> linarith
    rw [signedSum, quatSum_cons]
    rcases signedSum_cases hc h u l e hl' with e1 | e1 | ⟨e1, e2⟩
    · rw [e1]
      split_ifs
      · exact .inl rfl
      · exact .inr (.inr (mixed _ _ (.inr ⟨rfl, rfl⟩)))
    · rw [e1]
      split_ifs
      · exact .inr (.inr (mixed _ _ (.inl ⟨rfl, rfl⟩)))
      · exact .inr (.inl (neg_plus _ _).symm)
    · right; right
      have hpp := abs_lt.1 (e2 p hp)
      constructor
      · split_ifs
        · have h1 : dot (p.plus (signedSum u l)) (p.plus (signedSum u l)) =
              dot p p + 2 * dot (signedSum u l) p + dot (signedSum u l) (signedSum u l) := by
            simp only [dot, Quat.plus]; ring
          have h2 : dot (p.plus (quatSum l)) (p.plus (quatSum l)) =
              dot p p + 2 * dot (quatSum l) p + dot (quatSum l) (quatSum l) := by
            simp only [dot, Quat.plus]; ring
          rw [h1, h2]
          linarith
        · have h1 : dot (p.neg.plus (signedSum u l)) (p.neg.plus (signedSum u l)) =
              dot p p - 2 * dot (signedSum u l) p + dot (signedSum u l) (signedSum u l) := by
            simp only [dot, Quat.plus, Quat.neg]; ring
          have h2 : dot (p.plus (quatSum l)) (p.plus (quatSum l)) =
              dot p p + 2 * dot (quatSum l) p + dot (quatSum l) (quatSum l) := by
            simp only [dot, Quat.plus]; ring
          rw [h1, h2]
          linarith
      · intro r hr
        have h1 := abs_lt.1 (e2 r hr)
        have h2 := h p hp r hr
        rw [dot_plus_left, dot_plus_left, abs_lt]
        split_ifs
        · constructor <;> linarith
        · rw [dot_neg_left]
          constructor <;> linarith

/-- The mean quaternion as the sum divided by its length. -/
theorem meanQuat_dot (l : List (Quat ℝ)) (w : Quat ℝ) :
    dot (meanQuat l) w = dot (quatSum l) w / Real.sqrt (dot (quatSum l) (quatSum l)) := by
  have : (quatSum l).q0 ^ 2 + (quatSum l).q1 ^ 2 + (quatSum l).q2 ^ 2 + (quatSum l).q3 ^ 2 =
      dot (quatSum l) (quatSum l) := by simp only [dot]; ring
  simp only [meanQuat, this]
  simp only [dot]
  ring

variable {g : SymGroup} {c : ℝ}

theorem cluster_near {l : List (Quat ℝ)} (h : Cluster c l) : ∀ p ∈ l, ∀ r ∈ l, c ≤ dot p r :=
  fun _ hp _ hr => cluster_dot h hp hr

theorem cluster_unit {l : List (Quat ℝ)} (h : Cluster c l) {p : Quat ℝ} (hp : p ∈ l) : p.IsUnit := by
  have := h.unit p hp
  rw [isUnit_iff]
  simp only [dot]
  linarith

theorem sum_norm_pos {l : List (Quat ℝ)} (h : Cluster c l) (hne : l ≠ []) :
    0 < dot (quatSum l) (quatSum l) := by
  obtain ⟨p, l', rfl⟩ := List.exists_cons_of_ne_nil hne
  have h1 := sum_pos h.pos (cluster_near h) _ hne (fun _ h => h) p List.mem_cons_self
  have h2 := dot_sq_le (quatSum (p :: l')) p
  rw [(isUnit_iff p).1 (cluster_unit h List.mem_cons_self), mul_one] at h2
  nlinarith

theorem clusterMean_unit {l : List (Quat ℝ)} (h : Cluster c l) (hne : l ≠ []) : (meanQuat l).IsUnit := by
  have hp := sum_norm_pos h hne
  rw [isUnit_iff, meanQuat_dot, dot_comm, meanQuat_dot, div_div, Real.mul_self_sqrt hp.le, div_self hp.ne']

/-- The cosine of half the angle between two orientations. -/
theorem cos_half {p u : Quat ℝ} (hp : p.IsUnit) (hu : u.IsUnit) :
    Real.cos (rotationAngle (rotMatrix p * (rotMatrix u)ᵀ) / 2) = |dot p u| := by
  rw [rotationAngle_eq hp hu, mul_div_cancel_left₀ _ two_ne_zero,
    Real.cos_arccos (by linarith [abs_nonneg (dot p u)]) (abs_dot_le_one hp hu)]

/-- How well an orientation fits the points of a grain: the sum of the cosines of half the angles between
them. -/
noncomputable def Spec.fit (l : List (Quat ℝ)) (u : Quat ℝ) : ℝ :=
  (l.map fun p => Real.cos (rotationAngle (rotMatrix p * (rotMatrix u)ᵀ) / 2)).sum

theorem fit_eq {l : List (Quat ℝ)} (h : Cluster c l) {u : Quat ℝ} (hu : u.IsUnit) :
    Spec.fit l u = (l.map fun p => |dot p u|).sum := by
  unfold Spec.fit
  congr 1
  exact List.map_congr_left fun p hp => cos_half (cluster_unit h hp) hu

theorem fit_mean {l : List (Quat ℝ)} (h : Cluster c l) (hne : l ≠ []) :
    Spec.fit l (meanQuat l) = Real.sqrt (dot (quatSum l) (quatSum l)) := by
  have hp := sum_norm_pos h hne
  rw [fit_eq h (clusterMean_unit h hne)]
  have : (l.map fun p => |dot p (meanQuat l)|) = l.map fun p => dot p (meanQuat l) := by
    refine List.map_congr_left fun p hm => abs_of_nonneg ?_
    rw [dot_comm, meanQuat_dot]
    exact div_nonneg (sum_pos h.pos (cluster_near h) _ hne (fun _ h => h) p hm).le (Real.sqrt_nonneg _)
  rw [this, ← quatSum_dot, dot_comm, meanQuat_dot, Real.div_sqrt]

/-- **C158** The average orientation of a grain fits its points best, and every other orientation fits
them less well. -/
theorem C158_best {q : Quat ℝ} {qs qs' : List (Quat ℝ)} (hl : Cluster c (q :: qs))
    (hi : List.Forall₂ (Instead g) qs qs') :
    ∃ m, grainMeanOri g (q :: qs') = .ok m ∧ m.IsUnit ∧ ∀ u : Quat ℝ, u.IsUnit →
      rotMatrix u ≠ rotMatrix m → Spec.fit (q :: qs) u < Spec.fit (q :: qs) m := by
  have hne : q :: qs ≠ [] := by simp
  refine ⟨_, C132_average hl hi, clusterMean_unit hl hne, fun u hu hd => ?_⟩
  have hp := sum_norm_pos hl hne
  rw [fit_mean hl hne, fit_eq hl hu, ← signedSum_dot]
  set S := quatSum (q :: qs) with hS
  set T := signedSum u (q :: qs) with hT
  have hcs := dot_sq_le T u
  rw [(isUnit_iff u).1 hu, mul_one] at hcs
  -- equality would make `u` a multiple of the sum
  have strict : dot T T = dot S S → (T = S ∨ T = S.neg) → dot T u < Real.sqrt (dot S S) := by
    intro hTT hTS
    rw [hTT] at hcs
    refine lt_of_le_of_ne (Real.le_sqrt_of_sq_le hcs) fun he => hd ?_
    set n := Real.sqrt (dot S S) with hn
    have hnp : 0 < n := Real.sqrt_pos.2 hp
    have hnn : n * n = dot S S := Real.mul_self_sqrt hp.le
    have hz : dot (⟨n * u.q0 - T.q0, n * u.q1 - T.q1, n * u.q2 - T.q2, n * u.q3 - T.q3⟩ : Quat ℝ)
        ⟨n * u.q0 - T.q0, n * u.q1 - T.q1, n * u.q2 - T.q2, n * u.q3 - T.q3⟩ = 0 := by
      have hu1 := (isUnit_iff u).1 hu
      have : dot (⟨n * u.q0 - T.q0, n * u.q1 - T.q1, n * u.q2 - T.q2, n * u.q3 - T.q3⟩ : Quat ℝ)
          ⟨n * u.q0 - T.q0, n * u.q1 - T.q1, n * u.q2 - T.q2, n * u.q3 - T.q3⟩ =
          n * n * dot u u - 2 * n * dot T u + dot T T := by simp only [dot]; ring
      rw [this, hu1, he, hTT, ← hnn]
      ring
    simp only [dot] at hz
    have z0 : n * u.q0 = T.q0 := by nlinarith [sq_nonneg (n * u.q0 - T.q0), sq_nonneg (n * u.q1 - T.q1), sq_nonneg (n * u.q2 - T.q2), sq_nonneg (n * u.q3 - T.q3)]
    have z1 : n * u.q1 = T.q1 := by nlinarith [sq_nonneg (n * u.q0 - T.q0), sq_nonneg (n * u.q1 - T.q1), sq_nonneg (n * u.q2 - T.q2), sq_nonneg (n * u.q3 - T.q3)]
    have z2 : n * u.q2 = T.q2 := by nlinarith [sq_nonneg (n * u.q0 - T.q0), sq_nonneg (n * u.q1 - T.q1), sq_nonneg (n * u.q2 - T.q2), sq_nonneg (n * u.q3 - T.q3)]
    have z3 : n * u.q3 = T.q3 := by nlinarith [sq_nonneg (n * u.q0 - T.q0), sq_nonneg (n * u.q1 - T.q1), sq_nonneg (n * u.q2 - T.q2), sq_nonneg (n * u.q3 - T.q3)]
    have hm : meanQuat (q :: qs) = ⟨S.q0 / n, S.q1 / n, S.q2 / n, S.q3 / n⟩ := by
      have : S.q0 ^ 2 + S.q1 ^ 2 + S.q2 ^ 2 + S.q3 ^ 2 = dot S S := by simp only [dot]; ring
      simp only [meanQuat, ← hS, this, ← hn]
    rw [hm]
    rcases hTS with e | e
    · rw [e] at z0 z1 z2 z3
      have : u = ⟨S.q0 / n, S.q1 / n, S.q2 / n, S.q3 / n⟩ := by
        ext <;> simp only [] <;> rw [eq_div_iff hnp.ne'] <;> linarith
      rw [this]
    · rw [e] at z0 z1 z2 z3
      simp only [Quat.neg] at z0 z1 z2 z3
      have : u = (⟨S.q0 / n, S.q1 / n, S.q2 / n, S.q3 / n⟩ : Quat ℝ).neg := by
        ext <;> simp only [Quat.neg] <;> rw [← neg_div, eq_div_iff hnp.ne'] <;> linarith
      rw [this, rotMatrix_neg]
  rcases signedSum_cases hl.pos (cluster_near hl) u _ hne (fun _ h => h) with e | e | ⟨e, -⟩
  · exact strict (by rw [hT, e]) (.inl e)
  · exact strict (by rw [hT, e, dot_neg_left, dot_comm, dot_neg_left, neg_neg]) (.inr e)
  · exact lt_of_le_of_lt (Real.le_sqrt_of_sq_le hcs) (Real.sqrt_lt_sqrt (by simp only [dot]; nlinarith [sq_nonneg T.q0, sq_nonneg T.q1, sq_nonneg T.q2, sq_nonneg T.q3]) e)

/-- **C158** If every point of a grain is wrong by at most an angle, so is the average. -/
theorem C158_error {q : Quat ℝ} {qs qs' : List (Quat ℝ)} (hl : Cluster c (q :: qs))
    (hi : List.Forall₂ (Instead g) qs qs') (t : Quat ℝ) (ht : t.IsUnit) (δ : ℝ) (hδ : δ ≤ Real.pi / 2)
    (he : ∀ p ∈ q :: qs, rotationAngle (rotMatrix p * (rotMatrix t)ᵀ) ≤ δ) :
    ∃ m, grainMeanOri g (q :: qs') = .ok m ∧ rotationAngle (rotMatrix m * (rotMatrix t)ᵀ) ≤ δ := by
  have hne : q :: qs ≠ [] := by simp
  refine ⟨_, C132_average hl hi, ?_⟩
  have hpi := Real.pi_pos
  have hp := sum_norm_pos hl hne
  have hnp := Real.sqrt_pos.2 hp
  have hδ0 : 0 ≤ δ := le_trans (Real.arccos_nonneg _) (he q List.mem_cons_self)
  set k := Real.cos (δ / 2) with hk
  have k0 : 0 ≤ k := Real.cos_nonneg_of_neg_pi_div_two_le_of_le (by linarith) (by linarith)
  have k2 : 1 ≤ 2 * k ^ 2 := by
    have h1 := Real.cos_sq (δ / 2)
    have h2 : 0 ≤ Real.cos δ := Real.cos_nonneg_of_neg_pi_div_two_le_of_le (by linarith) hδ
    rw [mul_div_cancel₀ δ two_ne_zero, ← hk] at h1
    linarith
  have hov : ∀ p ∈ q :: qs, k ≤ |dot p t| := by
    intro p hp
    rw [← cos_half (cluster_unit hl hp) ht]
    exact Real.cos_le_cos_of_nonneg_of_le_pi (div_nonneg (Real.arccos_nonneg _) zero_le_two) (by linarith)
      (by linarith [he p hp])
  -- the true orientation with the sign of the points
  have main : ∀ t' : Quat ℝ, t'.IsUnit → (∀ p ∈ q :: qs, k ≤ |dot p t'|) → 0 ≤ dot q t' →
      k ≤ dot (meanQuat (q :: qs)) t' := by
    intro t' ht' hov hq
    have same : ∀ p ∈ q :: qs, k ≤ dot p t' := by
      intro p hp
      have h1 := hov p hp
      have h2 := hov q List.mem_cons_self
      rw [abs_of_nonneg hq] at h2
      by_contra hneg
      have hneg' : dot p t' ≤ -k := by
        rcases abs_cases (dot p t') with ⟨e, -⟩ | ⟨e, -⟩ <;> rw [e] at h1 <;> linarith
      have hcs := dot_sq_le (q.plus p.neg) t'
      rw [(isUnit_iff t').1 ht', mul_one, dot_plus_left, dot_neg_left] at hcs
      have hpq := cluster_dot hl (List.mem_cons_self) hp
      have hd : dot (q.plus p.neg) (q.plus p.neg) = dot q q + dot p p - 2 * dot q p := by
        simp only [dot, Quat.plus, Quat.neg]; ring
      rw [hd, (isUnit_iff q).1 (cluster_unit hl List.mem_cons_self),
        (isUnit_iff p).1 (cluster_unit hl hp)] at hcs
      have := hl.pos
      nlinarith
    have lower : ∀ l : List (Quat ℝ), (∀ p ∈ l, p ∈ q :: qs) →
        (l.length : ℝ) * k ≤ (l.map fun p => dot p t').sum := by
      intro l
      induction l with
      | nil => simp
      | cons p l ih =>
        intro h
        have h1 := ih fun x hx => h x (List.mem_cons_of_mem _ hx)
        have h2 := same p (h p List.mem_cons_self)
        rw [List.length_cons, List.map_cons, List.sum_cons]
        push_cast
        linarith
    have upper : ∀ (l : List (Quat ℝ)) (u : Quat ℝ), Spec.fit l u ≤ l.length := by
      intro l u
      induction l with
      | nil => simp [Spec.fit]
      | cons p l ih =>
        have := Real.cos_le_one (rotationAngle (rotMatrix p * (rotMatrix u)ᵀ) / 2)
        simp only [Spec.fit, List.map_cons, List.sum_cons, List.length_cons] at ih ⊢
        push_cast
        linarith
    have h1 := lower _ fun _ h => h
    have h2 := upper (q :: qs) (meanQuat (q :: qs))
    rw [fit_mean hl hne] at h2
    rw [← quatSum_dot] at h1
    rw [meanQuat_dot, le_div_iff₀ hnp]
    nlinarith
  have hm : k ≤ |dot (meanQuat (q :: qs)) t| := by
    rcases le_total 0 (dot q t) with h | h
    · exact (main t ht hov h).trans (le_abs_self _)
    · have hflip : ∀ x : Quat ℝ, dot x t.neg = -dot x t := fun x => by rw [dot_neg_right]
      have := main t.neg (by rwa [isUnit_iff, dot_neg_left, dot_neg_right, neg_neg, ← isUnit_iff])
        (fun p hp => by rw [hflip, abs_neg]; exact hov p hp) (by rw [hflip]; linarith)
      rw [hflip] at this
      exact this.trans (neg_le_abs _)
  rw [rotationAngle_eq (clusterMean_unit hl hne) ht]
  have := Real.arccos_le_arccos hm
  rw [hk, Real.arccos_cos (by linarith) (by linarith)] at this
  linarith

/-- Hypotheses of C158 met: two points, one of them given by an equivalent orientation, both within 17
degrees of the unturned crystal. -/
example : (∃ m, grainMeanOri .cubic [Spec.bend, quarterTurn] = .ok m ∧ m.IsUnit ∧ ∀ u : Quat ℝ, u.IsUnit →
      rotMatrix u ≠ rotMatrix m →
      Spec.fit [Spec.bend, ⟨1, 0, 0, 0⟩] u < Spec.fit [Spec.bend, ⟨1, 0, 0, 0⟩] m) ∧
    ∃ m, grainMeanOri .cubic [Spec.bend, quarterTurn] = .ok m ∧
      rotationAngle (rotMatrix m * (rotMatrix ⟨1, 0, 0, 0⟩)ᵀ) ≤ 2 * Real.arccos (7 / Real.sqrt 50) := by
  obtain ⟨hl, hi⟩ := cluster_example
  have u1 : (⟨1, 0, 0, 0⟩ : Quat ℝ).IsUnit := by simp [Quat.IsUnit]
  refine ⟨C158_best hl hi, C158_error hl hi _ u1 _ ?_ ?_⟩
  · have h1 : Real.arccos (7 / Real.sqrt 50) ≤ Real.arccos (Real.cos (Real.pi / 4)) := by
      apply Real.arccos_le_arccos
      rw [Real.cos_pi_div_four, le_div_iff₀ (by positivity), div_mul_eq_mul_div, ← Real.sqrt_mul (by norm_num),
        show (2 * 50 : ℝ) = 10 ^ 2 by norm_num, Real.sqrt_sq (by norm_num)]
      norm_num
    have hpi := Real.pi_pos
    rw [Real.arccos_cos (by linarith) (by linarith)] at h1
    linarith
  · intro p hp
    rw [rotationAngle_eq (cluster_unit hl hp) u1]
    have h := cluster_dot hl hp (List.mem_cons_of_mem _ List.mem_cons_self)
    have := Real.arccos_le_arccos (h.trans (le_abs_self _))
    linarith

end DefDAP
