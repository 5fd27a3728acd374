import Verif.Spec.AverageInvariant
import Verif.Model.GrainMech
import Verif.Props.NyeInvariant

/-!
C132: the average orientation of a grain depends neither on the order of its points nor on which of the
equivalent orientations they have.
-/

namespace DefDAP

open Quat Spec Matrix

theorem cluster_dot {c : ℝ} {l : List (Quat ℝ)} (h : Cluster c l) {p r : Quat ℝ} (hp : p ∈ l)
    (hr : r ∈ l) : c ≤ dot p r := by
  have := h.near p hp r hr
  simp only [dot]
  linarith

/-- Every other equivalent is further away. -/
theorem other_further (g : SymGroup) {c : ℝ} (hc : 0 < c) (hc2 : (2 + Real.sqrt 3) / 4 < c ^ 2)
    {p w r : Quat ℝ} (hp : p.IsUnit) (hw : w.IsUnit) (hr : r.IsUnit) (h : c ≤ dot p r)
    {S : Matrix (Fin 3) (Fin 3) ℝ} (hS : CrystalRotation g S) (he : rotMatrix w = S * rotMatrix p)
    (hne : S ≠ 1) : |dot w r| < dot p r := by
  have hl := symEqv_table g
  obtain ⟨s, hs, rfl⟩ := (crystalRotation_iff g _).mp hS
  have h1 := overlap_triangle hr hp hw
  rw [dot_comm r p, dot_comm r w, abs_of_pos (hc.trans_le h)] at h1
  have h2 : |dot p w| = |s.q0| := by
    have hw' : w = mulRaw s p ∨ w = (mulRaw s p).neg :=
      rotMatrix_inj hw (isUnit_mulRaw (hl.unit s hs) hp) (by rw [he, rotMatrix_mulRaw])
    have h3 : dot p (mulRaw s p) = s.q0 * dot p p := by simp only [dot, mulRaw]; ring
    rcases hw' with rfl | rfl
    · rw [h3, (isUnit_iff p).1 hp, mul_one]
    · rw [dot_neg_right, abs_neg, h3, (isUnit_iff p).1 hp, mul_one]
  rcases hl.far s hs with rfl | hfar
  · exfalso
    refine hne ?_
    ext i j; fin_cases i <;> fin_cases j <;> simp [rotMatrix]
  · rw [h2] at h1
    by_contra hcon
    push Not at hcon
    have : (2 * c) ^ 2 ≤ (dot p r + |dot w r|) ^ 2 := pow_le_pow_left₀ (by linarith) (by linarith) 2
    nlinarith

theorem quatSum_cons (p : Quat ℝ) (l : List (Quat ℝ)) : quatSum (p :: l) = p.plus (quatSum l) := by
  simp [quatSum, Quat.plus]

theorem quatSum_snoc (p : Quat ℝ) (l : List (Quat ℝ)) : quatSum (l ++ [p]) = (quatSum l).plus p := by
  simp [quatSum, Quat.plus]

theorem dot_zero_right (w : Quat ℝ) : dot w (quatSum []) = 0 := by simp [dot, quatSum]

theorem sum_further {p w : Quat ℝ} : ∀ {l : List (Quat ℝ)}, (∀ r ∈ l, |dot w r| < dot p r) →
    |dot w (quatSum l)| ≤ dot p (quatSum l) ∧ (l ≠ [] → |dot w (quatSum l)| < dot p (quatSum l))
  | [], _ => by simp [dot_zero_right]
  | r :: l, h => by
    have h1 := (sum_further (l := l) fun x hx => h x (List.mem_cons_of_mem _ hx)).1
    have h2 := h r List.mem_cons_self
    rw [quatSum_cons, dot_plus_right, dot_plus_right]
    have h3 := abs_add_le (dot w r) (dot w (quatSum l))
    exact ⟨by linarith, fun _ => by linarith⟩

/-- A point of a grain that has, instead of the orientation `p`, the equivalent `p'`. -/
def Spec.Instead (g : SymGroup) (p p' : Quat ℝ) : Prop :=
  p'.IsUnit ∧ 0 ≤ p'.q0 ∧ ∃ S, CrystalRotation g S ∧ rotMatrix p' = S * rotMatrix p

theorem instead_refl (g : SymGroup) {p : Quat ℝ} (hu : p.IsUnit) (hn : 0 ≤ p.q0) : Instead g p p := by
  refine ⟨hu, hn, 1, ?_, by rw [Matrix.one_mul]⟩
  rw [crystalRotation_iff]
  refine ⟨⟨1, 0, 0, 0⟩, List.mem_of_getElem? (symEqv_table g).head, ?_⟩
  ext i j; fin_cases i <;> fin_cases j <;> simp [rotMatrix]

theorem variants_rot (g : SymGroup) {p w : Quat ℝ} (hp : p.IsUnit) (hw : w ∈ variants (symEqv g) p) :
    ∃ S, CrystalRotation g S ∧ w.IsUnit ∧ rotMatrix w = S * rotMatrix p := by
  have hl := symEqv_table g
  rcases mem_variants hw with rfl | ⟨s, hs, rfl⟩
  · refine ⟨1, ?_, hp, by rw [Matrix.one_mul]⟩
    rw [crystalRotation_iff]
    refine ⟨⟨1, 0, 0, 0⟩, List.mem_of_getElem? hl.head, ?_⟩
    ext i j; fin_cases i <;> fin_cases j <;> simp [rotMatrix]
  · refine ⟨rotMatrix s, (crystalRotation_iff g _).mpr ⟨s, hs, rfl⟩, isUnit_mul (hl.unit s hs) hp, ?_⟩
    rw [mul, rotMatrix_make, rotMatrix_mulRaw]

theorem variants_all (g : SymGroup) {p : Quat ℝ} {S : Matrix (Fin 3) (Fin 3) ℝ}
    (hS : CrystalRotation g S) : ∃ w ∈ variants (symEqv g) p, rotMatrix w = S * rotMatrix p := by
  have hl := symEqv_table g
  obtain ⟨s, hs, rfl⟩ := (crystalRotation_iff g _).mp hS
  have hh := hl.head
  cases he : symEqv g with
  | nil => rw [he] at hs; cases hs
  | cons a t =>
    rw [he] at hs hh
    simp only [List.getElem?_cons_zero, Option.some.injEq] at hh
    rcases List.mem_cons.1 hs with rfl | hs
    · refine ⟨p, by simp [variants], ?_⟩
      rw [hh, ← rotMatrix_mulRaw]
      congr 1
      ext <;> simp [mulRaw]
    · refine ⟨mul s p, ?_, by rw [mul, rotMatrix_make, rotMatrix_mulRaw]⟩
      simp only [variants, List.tail_cons, List.mem_cons, List.mem_map]
      exact .inr ⟨s, hs, rfl⟩

/-- One round adds the equivalent that belongs to the cluster, whichever the point has. -/
theorem step_cluster (g : SymGroup) {c : ℝ} {l pre : List (Quat ℝ)} (hl : Cluster c l)
    (hpre : ∀ r ∈ pre, r ∈ l) (hne : pre ≠ []) {p p' : Quat ℝ} (hp : p ∈ l) (hi : Instead g p p') :
    averageStep (quatSum pre) (variants (symEqv g) p') = (quatSum pre).plus p := by
  obtain ⟨up', np', S, hS, hSe⟩ := hi
  have up : p.IsUnit := hl.unit p hp
  obtain ⟨hS', hS1, hS2⟩ := crystalRotation_inv g hS
  obtain ⟨w, hw, hwe⟩ := variants_all g (p := p') hS'
  have hwp : rotMatrix w = rotMatrix p := by
    rw [hwe, hSe, ← Matrix.mul_assoc, hS2, Matrix.one_mul]
  obtain ⟨-, -, uw, -⟩ := variants_rot g up' hw
  obtain ⟨i, v, hv, hstep, hmax, -⟩ := averageStep_spec (quatSum pre) (variants (symEqv g) p')
    (by simp [variants])
  rw [hstep]
  have hvm := List.mem_of_getElem? hv
  obtain ⟨V, hV, uv, hve⟩ := variants_rot g up' hvm
  have hdw : |dot w (quatSum pre)| = |dot p (quatSum pre)| := by
    rcases rotMatrix_inj uw up hwp with rfl | rfl
    · rfl
    · rw [dot_neg_left, abs_neg]
  have hVS : V * S = 1 := by
    by_contra hcon
    have := (sum_further (l := pre) (p := p) (w := v) fun r hr => other_further g hl.pos hl.small up uv
      (hl.unit r (hpre r hr)) (cluster_dot hl hp (hpre r hr)) (crystalRotation_mul g hV hS)
      (by rw [hve, hSe, Matrix.mul_assoc]) hcon).2 hne
    have h2 := hmax w hw
    rw [hdw] at h2
    exact absurd (lt_of_lt_of_le (lt_of_lt_of_le this (le_abs_self _)) h2) (lt_irrefl _)
  have hvp : rotMatrix v = rotMatrix p := by
    rw [hve, hSe, ← Matrix.mul_assoc, hVS, Matrix.one_mul]
  have nv : 0 ≤ v.q0 := by
    rcases mem_variants hvm with rfl | ⟨s, -, rfl⟩
    · exact np'
    · exact north_make _
  have np := hl.north p hp
  rcases rotMatrix_inj uv up hvp with rfl | rfl
  · rfl
  · simp only [Quat.neg] at nv
    linarith

theorem fold_cluster (g : SymGroup) {c : ℝ} {l : List (Quat ℝ)} (hl : Cluster c l) :
    ∀ {ps ps' pre : List (Quat ℝ)}, List.Forall₂ (Instead g) ps ps' → (∀ r ∈ pre, r ∈ l) → pre ≠ [] →
      (∀ r ∈ ps, r ∈ l) →
      ps'.foldl (fun av p => averageStep av (variants (symEqv g) p)) (quatSum pre) =
        quatSum (pre ++ ps)
  | [], [], pre, _, _, _, _ => by simp
  | p :: ps, p' :: ps', pre, h, hpre, hne, hps => by
    cases h with
    | cons h0 h1 =>
      rw [List.foldl_cons, step_cluster g hl hpre hne (hps p List.mem_cons_self) h0, ← quatSum_snoc,
        fold_cluster g hl h1 ?_ (by simp) fun r hr => hps r (List.mem_cons_of_mem _ hr)]
      · simp
      · intro r hr
        rcases List.mem_append.mp hr with hr | hr
        · exact hpre r hr
        · rw [List.mem_singleton.mp hr]; exact hps p List.mem_cons_self

theorem mean_eq {l : List (Quat ℝ)} (h : ∀ p ∈ l, 0 < p.q0) :
    normalise (make false (quatSum l)) = meanQuat l := by
  have h0 : 0 ≤ (quatSum l).q0 := by
    refine List.sum_nonneg fun x hx => ?_
    obtain ⟨p, hp, rfl⟩ := List.mem_map.mp hx
    exact (h p hp).le
  rw [make_north h0]
  simp only [normalise, meanQuat, Quat.norm, dot, sq]

variable {g : SymGroup} {c : ℝ}

/-- **C132** The average orientation of a grain is the normalised sum of its orientations, taken close
together, whichever of the equivalent orientations its points have. Only the first point has its own. -/
theorem C132_average {q : Quat ℝ} {qs qs' : List (Quat ℝ)} (hl : Cluster c (q :: qs))
    (hi : List.Forall₂ (Instead g) qs qs') :
    grainMeanOri g (q :: qs') = .ok (meanQuat (q :: qs)) := by
  have h := average_eq (symEqv_table g) q qs'
  have e : quatSum [q] = q := by simp [quatSum]
  have hf := fold_cluster g hl (pre := [q]) hi (by simp) (by simp)
    fun r hr => List.mem_cons_of_mem _ hr
  rw [e] at hf
  rw [grainMeanOri, List.length_cons, h, hf]
  simp only [List.singleton_append]
  rw [mean_eq hl.north]

theorem mean_cluster {l : List (Quat ℝ)} (hl : Cluster c l) (hne : l ≠ []) :
    grainMeanOri g l = .ok (meanQuat l) := by
  have refl : ∀ k : List (Quat ℝ), (∀ p ∈ k, p.IsUnit ∧ 0 ≤ p.q0) → List.Forall₂ (Instead g) k k := by
    intro k
    induction k with
    | nil => intro _; exact .nil
    | cons a t ih =>
      intro h
      exact .cons (instead_refl g (h a List.mem_cons_self).1 (h a List.mem_cons_self).2)
        (ih fun p hp => h p (List.mem_cons_of_mem _ hp))
  cases l with
  | nil => exact absurd rfl hne
  | cons q qs => exact C132_average hl (refl qs fun p h => ⟨hl.unit p (List.mem_cons_of_mem _ h),
      (hl.north p (List.mem_cons_of_mem _ h)).le⟩)

/-- **C132** It does not depend on the order of the points. -/
theorem C132_order {l l' : List (Quat ℝ)} (hl : Cluster c l) (hp : l.Perm l') :
    grainMeanOri g l = grainMeanOri g l' := by
  have hl' : Cluster c l' := ⟨hl.pos, hl.small, fun p h => hl.unit p (hp.mem_iff.mpr h),
    fun p h => hl.north p (hp.mem_iff.mpr h),
    fun p h r hr => hl.near p (hp.mem_iff.mpr h) r (hp.mem_iff.mpr hr)⟩
  have hs : meanQuat l = meanQuat l' := by
    have : quatSum l = quatSum l' := by
      simp only [quatSum, (hp.map _).sum_eq]
    simp only [meanQuat, this]
  by_cases hne : l = []
  · subst hne
    rw [List.nil_perm.mp hp]
  · rw [mean_cluster hl hne, mean_cluster hl' (fun h => hne (List.perm_nil.mp (h ▸ hp))), hs]

/-- The quaternion of a rotation after a second and before a third. -/
noncomputable def between (s t p : Quat ℝ) : Quat ℝ := mulRaw (mulRaw s p) t

theorem between_dot {s t : Quat ℝ} (hs : s.IsUnit) (ht : t.IsUnit) (p r : Quat ℝ) :
    dot (between s t p) (between s t r) = dot p r := by
  have h : dot (between s t p) (between s t r) = dot s s * dot p r * dot t t := by
    simp only [dot, between, mulRaw]; ring
  rw [h, (isUnit_iff s).1 hs, (isUnit_iff t).1 ht, one_mul, mul_one]

theorem between_sum (s t : Quat ℝ) (e : ℝ) : ∀ {l l' : List (Quat ℝ)},
    List.Forall₂ (fun p p' => p' = ⟨e * (between s t p).q0, e * (between s t p).q1,
      e * (between s t p).q2, e * (between s t p).q3⟩) l l' →
    quatSum l' = ⟨e * (between s t (quatSum l)).q0, e * (between s t (quatSum l)).q1,
      e * (between s t (quatSum l)).q2, e * (between s t (quatSum l)).q3⟩
  | [], [], _ => by simp [quatSum, between, mulRaw]
  | p :: l, p' :: l', h => by
    cases h with
    | cons h0 h1 =>
      rw [quatSum_cons, quatSum_cons, between_sum s t e h1, h0]
      simp only [Quat.plus, between, mulRaw]
      ext <;> simp only [] <;> ring

/-- **C132** If the sample is turned, or all orientations are replaced by those of the crystal turned into
itself in the same way, the average turns with them. -/
theorem C132_turned {l l' : List (Quat ℝ)} {S T : Matrix (Fin 3) (Fin 3) ℝ} {s t : Quat ℝ}
    (hl : Cluster c l) (hl' : Cluster c l') (hne : l ≠ []) (hs : s.IsUnit) (ht : t.IsUnit)
    (eS : S = rotMatrix s) (eT : T = rotMatrix t)
    (h : List.Forall₂ (fun p p' => rotMatrix p' = S * rotMatrix p * T) l l') :
    ∃ m m', grainMeanOri g l = .ok m ∧ grainMeanOri g l' = .ok m' ∧
      rotMatrix m' = S * rotMatrix m * T := by
  have hne' : l' ≠ [] := by
    rintro rfl
    cases h
    exact hne rfl
  refine ⟨_, _, mean_cluster hl hne, mean_cluster hl' hne', ?_⟩
  subst eS eT
  have sign : ∀ {p p' : Quat ℝ}, p ∈ l → p' ∈ l' → rotMatrix p' = rotMatrix s * rotMatrix p * rotMatrix t →
      p' = between s t p ∨ p' = (between s t p).neg := by
    intro p p' hp hp' he
    refine rotMatrix_inj (hl'.unit p' hp') ?_ ?_
    · rw [isUnit_iff, between_dot hs ht, ← isUnit_iff]; exact hl.unit p hp
    · rw [he, between, rotMatrix_mulRaw, rotMatrix_mulRaw]
  obtain ⟨e, he, hall⟩ : ∃ e : ℝ, (e = 1 ∨ e = -1) ∧ List.Forall₂ (fun p p' => p' =
      (⟨e * (between s t p).q0, e * (between s t p).q1, e * (between s t p).q2,
        e * (between s t p).q3⟩ : Quat ℝ)) l l' := by
    cases h with
    | nil => exact absurd rfl hne
    | @cons q q' qs qs' h0 h1 =>
      obtain ⟨e, he, hq⟩ : ∃ e : ℝ, (e = 1 ∨ e = -1) ∧ q' =
          ⟨e * (between s t q).q0, e * (between s t q).q1, e * (between s t q).q2,
            e * (between s t q).q3⟩ := by
        rcases sign List.mem_cons_self List.mem_cons_self h0 with rfl | rfl
        · exact ⟨1, .inl rfl, by simp⟩
        · exact ⟨-1, .inr rfl, by simp [Quat.neg]⟩
      refine ⟨e, he, ?_⟩
      refine List.Forall₂.cons hq ?_
      rw [List.forall₂_iff_get] at h1 ⊢
      refine ⟨h1.1, fun i hi hi' => ?_⟩
      have hp : qs.get ⟨i, hi⟩ ∈ q :: qs := List.mem_cons_of_mem _ (List.get_mem _ _)
      have hp' : qs'.get ⟨i, hi'⟩ ∈ q' :: qs' := List.mem_cons_of_mem _ (List.get_mem _ _)
      have d1 := hl.pos.trans_le (cluster_dot hl List.mem_cons_self hp)
      have d2 := hl'.pos.trans_le (cluster_dot hl' List.mem_cons_self hp')
      rw [← between_dot hs ht] at d1
      have hsg := sign hp hp' (h1.2 i hi hi')
      generalize qs.get ⟨i, hi⟩ = p at *
      generalize qs'.get ⟨i, hi'⟩ = p' at *
      rcases hsg with rfl | rfl <;> rcases he with rfl | rfl
      · simp
      · exfalso
        rw [hq] at d2
        simp only [dot] at d1 d2
        linarith
      · exfalso
        rw [hq, dot_neg_right] at d2
        simp only [dot] at d1 d2
        linarith
      · simp [Quat.neg]
  have hsum := between_sum s t e hall
  have ee : e * e = 1 := by rcases he with rfl | rfl <;> norm_num
  have hnorm : (quatSum l').q0 ^ 2 + (quatSum l').q1 ^ 2 + (quatSum l').q2 ^ 2 + (quatSum l').q3 ^ 2 =
      (quatSum l).q0 ^ 2 + (quatSum l).q1 ^ 2 + (quatSum l).q2 ^ 2 + (quatSum l).q3 ^ 2 := by
    have := between_dot hs ht (quatSum l) (quatSum l)
    simp only [dot] at this
    rw [hsum]
    simp only []
    linear_combination this + (((between s t (quatSum l)).q0 ^ 2 + (between s t (quatSum l)).q1 ^ 2 +
      (between s t (quatSum l)).q2 ^ 2 + (between s t (quatSum l)).q3 ^ 2)) * ee
  have hm : meanQuat l' = between s t (meanQuat l) ∨ meanQuat l' = (between s t (meanQuat l)).neg := by
    simp only [meanQuat, hnorm]
    generalize Real.sqrt ((quatSum l).q0 ^ 2 + (quatSum l).q1 ^ 2 + (quatSum l).q2 ^ 2 +
      (quatSum l).q3 ^ 2) = n
    rw [hsum]
    rcases he with rfl | rfl
    · left
      ext <;> simp only [between, mulRaw] <;> ring
    · right
      ext <;> simp only [between, mulRaw, Quat.neg] <;> ring
  rcases hm with hm | hm
  · rw [hm, between, rotMatrix_mulRaw, rotMatrix_mulRaw]
  · rw [hm, rotMatrix_neg, between, rotMatrix_mulRaw, rotMatrix_mulRaw]

/-- The hypotheses are met: two orientations 16 degrees apart, the second replaced by the quarter turn,
an equivalent of a cubic crystal. -/
theorem cluster_example : Cluster (7 / Real.sqrt 50) [Spec.bend, ⟨1, 0, 0, 0⟩] ∧
    List.Forall₂ (Instead .cubic) [⟨1, 0, 0, 0⟩] [quarterTurn] := by
  have s50 : Real.sqrt 50 ^ 2 = 50 := Real.sq_sqrt (by norm_num)
  have s3 : Real.sqrt 3 ^ 2 = 3 := Real.sq_sqrt (by norm_num)
  have hpos : 0 < 7 / Real.sqrt 50 := by positivity
  have hle : 7 / Real.sqrt 50 ≤ 1 := by
    rw [div_le_one (by positivity)]
    exact Real.le_sqrt_of_sq_le (by norm_num)
  refine ⟨⟨hpos, ?_, ?_, ?_, ?_⟩, .cons ⟨quarterTurn_unit, ?_, rotMatrix quarterTurn, ?_, ?_⟩ .nil⟩
  · rw [div_pow, s50]
    nlinarith [Real.sqrt_nonneg 3]
  · intro p hp
    rcases List.mem_pair.mp hp with rfl | rfl
    · exact bend_unit
    · simp
  · intro p hp
    rcases List.mem_pair.mp hp with rfl | rfl
    · exact hpos
    · simp
  · intro p hp r hr
    have hb := (isUnit_iff _).mp bend_unit
    simp only [dot] at hb
    rcases List.mem_pair.mp hp with rfl | rfl <;> rcases List.mem_pair.mp hr with rfl | rfl
    · linarith
    · simp [Spec.bend]
    · simp [Spec.bend]
    · simpa using hle
  · simp only [quarterTurn]; positivity
  · rw [crystalRotation_iff]
    refine ⟨quarterTurn, ?_, rfl⟩
    refine List.mem_map.mpr ⟨⟨sr, s0, s0, sr⟩, by simp [cubicExact], ?_⟩
    simp [Quat.real, quarterTurn, real_sr, real_s0]
  · have hone : rotMatrix (⟨1, 0, 0, 0⟩ : Quat ℝ) = 1 := by
      ext i j; fin_cases i <;> fin_cases j <;> simp [rotMatrix]
    rw [hone, Matrix.mul_one]

end DefDAP
