import Verif.Props.AverageInvariant
import Verif.Props.Grod

/-!
C136: the misorientations within a grain do not depend on which of the equivalent orientations its points
have.
-/

namespace DefDAP

open Quat Spec Matrix

variable {g : SymGroup} {c : ℝ}

/-- Equivalent orientations have the same overlap with every reference. -/
theorem instead_misOri {p p' r : Quat ℝ} (hp : p.IsUnit) (hr : r.IsUnit) (hi : Instead g p p') :
    misOri (symEqv g) p' r = misOri (symEqv g) p r := by
  have hl := symEqv_table g
  obtain ⟨up', -, S, hS, he⟩ := hi
  obtain ⟨s, hs, rfl⟩ := (crystalRotation_iff g _).mp hS
  have um : (mul s p).IsUnit := isUnit_mul (hl.unit s hs) hp
  have e : rotMatrix p' = rotMatrix (mul s p) := by rw [he, mul, rotMatrix_make, rotMatrix_mulRaw]
  have key : misOri (symEqv g) r p' = misOri (symEqv g) r (mul s p) := by
    have le : ∀ {a b : Quat ℝ}, a.IsUnit → b.IsUnit → (a = b ∨ a = b.neg) →
        misOri (symEqv g) r a ≤ misOri (symEqv g) r b := by
      intro a b ha hb hab
      refine misOri_le hl _ _ _ _ hr ha fun t ht => ⟨t, ht, ?_⟩
      rcases hab with rfl | rfl
      · rfl
      · have : mulRaw t b.neg = (mulRaw t b).neg := by
          simp only [mulRaw, Quat.neg]; ext <;> ring
        rw [this, dot_neg_right, abs_neg]
    have h1 := rotMatrix_inj up' um e
    have h2 := rotMatrix_inj um up' e.symm
    exact le_antisymm (le up' um h1) (le um up' h2)
  rw [misOri_symm hl _ _ up' hr, key, misOri_variant hl _ _ _ hr hp hs, misOri_symm hl _ _ hr hp]

theorem instead_list {quats quats' : List (Quat ℝ)} {r : Quat ℝ} (hu : ∀ q ∈ quats, q.IsUnit)
    (hr : r.IsUnit) (hi : List.Forall₂ (Instead g) quats quats') :
    quats'.map (fun q => misOri (symEqv g) q r) = quats.map fun q => misOri (symEqv g) q r := by
  induction hi with
  | nil => rfl
  | cons h0 _ ih =>
    rw [List.map_cons, List.map_cons, ih fun q hq => hu q (List.mem_cons_of_mem _ hq),
      instead_misOri (hu _ List.mem_cons_self) hr h0]

theorem instead_unit {quats quats' : List (Quat ℝ)} (hi : List.Forall₂ (Instead g) quats quats') :
    ∀ q ∈ quats', q.IsUnit := by
  induction hi with
  | nil => simp
  | cons h0 _ ih =>
    intro q hq
    rcases List.mem_cons.mp hq with rfl | hq
    · exact h0.1
    · exact ih q hq

/-- **C136** The misorientations of the points of a grain from a given reference, and their mean, do not
depend on which of the equivalent orientations the points have. -/
theorem C136_reference {quats quats' : List (Quat ℝ)} {ref : Quat ℝ} (hu : ∀ q ∈ quats, q.IsUnit)
    (hr : ref.IsUnit) (hne : quats ≠ []) (hi : List.Forall₂ (Instead g) quats quats') :
    ∃ l mean axes axes', buildMisOriList g quats (some ref) = .ok (l, mean, axes) ∧
      buildMisOriList g quats' (some ref) = .ok (l, mean, axes') := by
  have hne' : quats' ≠ [] := by
    rintro rfl
    cases hi
    exact hne rfl
  obtain ⟨l, m, a, h1, h2, h3, -⟩ := C88_list g quats hu ref hr hne
  obtain ⟨l', m', a', h1', h2', h3', -⟩ := C88_list g quats' (instead_unit hi) ref hr hne'
  have e := instead_list hu hr hi
  refine ⟨l, m, a, a', h1, ?_⟩
  rw [h1', h2', h3', h2, h3, e, hi.length_eq]
  congr 2
  have := congrArg (List.map some) e
  rw [List.map_map, List.map_map] at this
  exact this

/-- The equivalent that is compared with a reference that belongs to the cluster. -/
theorem column_cluster {p p' r : Quat ℝ} (up : p.IsUnit) (np : 0 < p.q0) (hr : r.IsUnit)
    (hi : Instead g p p') (hpos : 0 ≤ dot p r)
    (hfar : ∀ (w : Quat ℝ) (S : Matrix (Fin 3) (Fin 3) ℝ), w.IsUnit → CrystalRotation g S →
      rotMatrix w = S * rotMatrix p → S ≠ 1 → |dot w r| < dot p r) :
    misOriColumn (variants (symEqv g) p') r = some (dot p r, p) := by
  obtain ⟨up', np', S, hS, hSe⟩ := hi
  obtain ⟨hS', hS1, hS2⟩ := crystalRotation_inv g hS
  obtain ⟨w, hw, hwe⟩ := variants_all g (p := p') hS'
  have hwp : rotMatrix w = rotMatrix p := by
    rw [hwe, hSe, ← Matrix.mul_assoc, hS2, Matrix.one_mul]
  obtain ⟨-, -, uw, -⟩ := variants_rot g up' hw
  have hdw : |dot w r| = dot p r := by
    rcases rotMatrix_inj uw up hwp with rfl | rfl
    · rw [abs_of_nonneg hpos]
    · rw [dot_neg_left, abs_neg, abs_of_nonneg hpos]
  obtain ⟨m, h1, h2, -⟩ := argmax_spec ((variants (symEqv g) p').map fun v => |dot v r|)
    (by simp [variants])
  obtain ⟨v, hv, hvm⟩ : ∃ v, (variants (symEqv g) p')[argmax ((variants (symEqv g) p').map
      fun v => |dot v r|)]? = some v ∧ |dot v r| = m := by
    rw [List.getElem?_map] at h1
    cases h : (variants (symEqv g) p')[argmax ((variants (symEqv g) p').map fun v => |dot v r|)]? with
    | none => rw [h] at h1; simp at h1
    | some v => rw [h] at h1; exact ⟨v, rfl, by simpa using h1⟩
  have hvmem := List.mem_of_getElem? hv
  obtain ⟨V, hV, uv, hve⟩ := variants_rot g up' hvmem
  have hm := h2 _ (List.mem_map.mpr ⟨w, hw, rfl⟩)
  have hVS : V * S = 1 := by
    by_contra hcon
    have := hfar v (V * S) uv (crystalRotation_mul g hV hS) (by rw [hve, hSe, Matrix.mul_assoc]) hcon
    rw [hdw, ← hvm] at hm
    exact absurd (lt_of_lt_of_le this hm) (lt_irrefl _)
  have hvp : rotMatrix v = rotMatrix p := by
    rw [hve, hSe, ← Matrix.mul_assoc, hVS, Matrix.one_mul]
  have nv : 0 ≤ v.q0 := by
    rcases mem_variants hvmem with rfl | ⟨s, -, rfl⟩
    · exact np'
    · exact north_make _
  have hvp' : v = p := by
    rcases rotMatrix_inj uv up hvp with rfl | rfl
    · rfl
    · simp only [Quat.neg] at nv
      linarith
  subst hvp'
  have hle := abs_dot_le_one up hr
  rw [abs_of_nonneg hpos] at hvm hle
  subst hvm
  simp only [misOriColumn]
  rw [h1, hv]
  simp only [if_neg (not_lt.mpr hle)]

/-- The average of a cluster is a unit quaternion. -/
theorem mean_unit {l : List (Quat ℝ)} (hl : Cluster c l) (hne : l ≠ []) : (meanQuat l).IsUnit ∧
    0 < (quatSum l).q0 ^ 2 + (quatSum l).q1 ^ 2 + (quatSum l).q2 ^ 2 + (quatSum l).q3 ^ 2 := by
  have h0 : 0 < (quatSum l).q0 := by
    refine List.sum_pos _ (fun x hx => ?_) (by simpa using hne)
    obtain ⟨p, hp, rfl⟩ := List.mem_map.mp hx
    exact hl.north p hp
  have hs : 0 < (quatSum l).q0 ^ 2 + (quatSum l).q1 ^ 2 + (quatSum l).q2 ^ 2 + (quatSum l).q3 ^ 2 := by
    positivity
  refine ⟨?_, hs⟩
  have hn := Real.sq_sqrt hs.le
  have hn0 := Real.sqrt_pos.mpr hs
  simp only [meanQuat, Quat.IsUnit, div_pow]
  rw [hn, ← add_div, ← add_div, ← add_div, div_self hs.ne']

theorem dot_mean (p : Quat ℝ) (l : List (Quat ℝ)) : dot p (meanQuat l) = dot p (quatSum l) /
    Real.sqrt ((quatSum l).q0 ^ 2 + (quatSum l).q1 ^ 2 + (quatSum l).q2 ^ 2 + (quatSum l).q3 ^ 2) := by
  simp only [dot, meanQuat]
  ring

theorem calcMisOri_cluster {l l' : List (Quat ℝ)} (hl : Cluster c l) (hne : l ≠ [])
    (hi : List.Forall₂ (Instead g) l l') :
    calcMisOri (calcSymEqvs (symEqv g) l') l'.length (meanQuat l) =
      l.map fun p => some (dot p (meanQuat l), p) := by
  obtain ⟨um, hs⟩ := mean_unit hl hne
  have hn0 := Real.sqrt_pos.mpr hs
  refine List.ext_getElem? fun k => ?_
  rw [calcMisOri, List.getElem?_map, List.getElem?_map]
  by_cases hk : k < l'.length
  · have hk' : k < l.length := by rw [hi.length_eq]; exact hk
    rw [List.getElem?_eq_getElem (by simpa using hk), List.getElem?_eq_getElem hk', List.getElem_range,
      Option.map_some, Option.map_some, column_table (symEqv_table g) _ k l'[k]
        (List.getElem?_eq_getElem hk)]
    have hp : l[k] ∈ l := List.getElem_mem hk'
    have hik := List.Forall₂.get hi hk' hk
    simp only [List.get_eq_getElem] at hik
    have hsum : ∀ r ∈ l, 0 < dot l[k] r := fun r hr => hl.pos.trans_le (cluster_dot hl hp hr)
    have hfar : ∀ (w : Quat ℝ) (S : Matrix (Fin 3) (Fin 3) ℝ), w.IsUnit → CrystalRotation g S →
        rotMatrix w = S * rotMatrix l[k] → S ≠ 1 →
        |dot w (meanQuat l)| < dot l[k] (meanQuat l) := by
      intro w S uw hS he hS1
      have h := (sum_further (l := l) (p := l[k]) (w := w) fun r hr => other_further g hl.pos hl.small
        (hl.unit _ hp) uw (hl.unit r hr) (cluster_dot hl hp hr) hS he hS1).2 hne
      rw [dot_mean, dot_mean, abs_div, abs_of_pos hn0]
      exact div_lt_div_of_pos_right h hn0
    have hpos : 0 ≤ dot l[k] (meanQuat l) := by
      rw [dot_mean]
      refine div_nonneg ?_ hn0.le
      have h := (sum_further (l := l) (p := l[k]) (w := ⟨0, 0, 0, 0⟩) fun r hr => by
        have := hsum r hr
        simpa [dot] using this).1
      simpa [dot] using h
    exact congrArg some (column_cluster (hl.unit _ hp) (hl.north _ hp) um hik hpos hfar)
  · rw [List.getElem?_eq_none (by simpa using hk), List.getElem?_eq_none (by rw [hi.length_eq]; omega)]
    rfl

/-- **C136** The misorientation angle and axis of every point of a grain from the average orientation are
those of the orientation, taken close to the others, whichever of the equivalent orientations the points
have. Only the first point has its own. -/
theorem C136_grod {q : Quat ℝ} {qs qs' : List (Quat ℝ)} (hl : Cluster c (q :: qs))
    (hi : List.Forall₂ (Instead g) qs qs') :
    calcGrod g (q :: qs') none = .ok ((q :: qs).map fun p =>
      some (2 * Real.arccos (dot p (meanQuat (q :: qs))), misOriAxis (meanQuat (q :: qs)) p)) := by
  have h0 : Instead g q q := instead_refl g (hl.unit q List.mem_cons_self)
    (hl.north q List.mem_cons_self).le
  have hm := C132_average hl hi
  have hc := calcMisOri_cluster hl (by simp) (List.Forall₂.cons h0 hi)
  simp only [calcGrod, grainRef, hm, Except.bind]
  rw [hc, List.map_map]
  refine congrArg Except.ok (List.map_congr_left fun p _ => ?_)
  simp only [Function.comp, Option.map_some, C88_axis]

/-- **C136** So are the list of misorientations, its mean and the axes. -/
theorem C136_list {q : Quat ℝ} {qs qs' : List (Quat ℝ)} (hl : Cluster c (q :: qs))
    (hi : List.Forall₂ (Instead g) qs qs') :
    buildMisOriList g (q :: qs') none = .ok
      ((q :: qs).map (fun p => some (dot p (meanQuat (q :: qs)))),
        ((q :: qs).map fun p => dot p (meanQuat (q :: qs))).sum / (q :: qs).length,
        (q :: qs).map fun p => some (misOriAxis (meanQuat (q :: qs)) p)) := by
  have h0 : Instead g q q := instead_refl g (hl.unit q List.mem_cons_self)
    (hl.north q List.mem_cons_self).le
  have hm := C132_average hl hi
  have hc := calcMisOri_cluster hl (by simp) (List.Forall₂.cons h0 hi)
  simp only [buildMisOriList, grainRef, hm, Except.bind]
  rw [hc]
  refine congrArg Except.ok (Prod.ext ?_ (Prod.ext ?_ ?_))
  · rw [List.map_map]; rfl
  · simp only [List.filterMap_map, List.length_map]
    congr 2
    exact congrFun List.filterMap_eq_map' _
  · dsimp only
    rw [List.map_map]
    refine List.map_congr_left fun p _ => ?_
    simp only [Function.comp, Option.map_some, C88_axis]

/-! ### Another sample frame -/

theorem turned_dot {T : Matrix (Fin 3) (Fin 3) ℝ} (hT : T * Tᵀ = 1) {p r p' r' : Quat ℝ} (hp : p.IsUnit)
    (hr : r.IsUnit) (hp' : p'.IsUnit) (hr' : r'.IsUnit) (e1 : rotMatrix p' = rotMatrix p * T)
    (e2 : rotMatrix r' = rotMatrix r * T) : |dot p' r'| = |dot p r| := by
  have h1 := trace_rot p' r'
  have h2 := trace_rot p r
  have e : rotMatrix p' * (rotMatrix r')ᵀ = rotMatrix p * (rotMatrix r)ᵀ := by
    rw [e1, e2, Matrix.transpose_mul, Matrix.mul_assoc, ← Matrix.mul_assoc T, hT, Matrix.one_mul]
  rw [e, h2, (isUnit_iff p).1 hp, (isUnit_iff r).1 hr, (isUnit_iff p').1 hp', (isUnit_iff r').1 hr'] at h1
  rw [← sq_eq_sq_iff_abs_eq_abs]
  linarith

theorem turned_misOri {T : Matrix (Fin 3) (Fin 3) ℝ} (hT : T * Tᵀ = 1) {p r p' r' : Quat ℝ} (hp : p.IsUnit)
    (hr : r.IsUnit) (hp' : p'.IsUnit) (hr' : r'.IsUnit) (e1 : rotMatrix p' = rotMatrix p * T)
    (e2 : rotMatrix r' = rotMatrix r * T) : misOri (symEqv g) p' r' = misOri (symEqv g) p r := by
  have hl := symEqv_table g
  have key : ∀ s ∈ symEqv g, |dot p' (mulRaw s r')| = |dot p (mulRaw s r)| := fun s hs =>
    turned_dot hT hp (isUnit_mulRaw (hl.unit s hs) hr) hp' (isUnit_mulRaw (hl.unit s hs) hr') e1
      (by rw [rotMatrix_mulRaw, rotMatrix_mulRaw, e2, Matrix.mul_assoc])
  exact le_antisymm (misOri_le hl _ _ _ _ hp' hr' fun s hs => ⟨s, hs, key s hs⟩)
    (misOri_le hl _ _ _ _ hp hr fun s hs => ⟨s, hs, (key s hs).symm⟩)

/-- **C136** If the orientations and the reference are given in another sample frame, the misorientations
and their mean are the same. -/
theorem C136_turned {T : Matrix (Fin 3) (Fin 3) ℝ} (hT : T * Tᵀ = 1) {quats quats' : List (Quat ℝ)}
    {ref ref' : Quat ℝ} (hu : ∀ q ∈ quats, q.IsUnit) (hu' : ∀ q ∈ quats', q.IsUnit) (hr : ref.IsUnit)
    (hr' : ref'.IsUnit) (hne : quats ≠ [])
    (ht : List.Forall₂ (fun q q' => rotMatrix q' = rotMatrix q * T) quats quats')
    (htr : rotMatrix ref' = rotMatrix ref * T) :
    ∃ l mean axes axes', buildMisOriList g quats (some ref) = .ok (l, mean, axes) ∧
      buildMisOriList g quats' (some ref') = .ok (l, mean, axes') := by
  have hne' : quats' ≠ [] := by
    rintro rfl
    cases ht
    exact hne rfl
  obtain ⟨l, m, a, h1, h2, h3, -⟩ := C88_list g quats hu ref hr hne
  obtain ⟨l', m', a', h1', h2', h3', -⟩ := C88_list g quats' hu' ref' hr' hne'
  have e : ∀ {k k' : List (Quat ℝ)}, (∀ q ∈ k, q.IsUnit) → (∀ q ∈ k', q.IsUnit) →
      List.Forall₂ (fun q q' => rotMatrix q' = rotMatrix q * T) k k' →
      k'.map (fun q => misOri (symEqv g) q ref') = k.map fun q => misOri (symEqv g) q ref := by
    intro k k' hk hk' hf
    induction hf with
    | nil => rfl
    | cons h0 _ ih =>
      rw [List.map_cons, List.map_cons, ih (fun q hq => hk q (List.mem_cons_of_mem _ hq))
        (fun q hq => hk' q (List.mem_cons_of_mem _ hq)),
        turned_misOri hT (hk _ List.mem_cons_self) hr (hk' _ List.mem_cons_self) hr' h0 htr]
  have e := e hu hu' ht
  refine ⟨l, m, a, a', h1, ?_⟩
  rw [h1', h2', h3', h2, h3, e, ht.length_eq]
  congr 2
  have := congrArg (List.map some) e
  rw [List.map_map, List.map_map] at this
  exact this

/-- **C136** The same holds for the misorientations from the average orientation of close orientations. -/
theorem C136_turned_mean {t : Quat ℝ} (htu : t.IsUnit) {quats quats' : List (Quat ℝ)}
    (hl : Cluster c quats) (hl' : Cluster c quats') (hne : quats ≠ [])
    (ht : List.Forall₂ (fun q q' => rotMatrix q' = rotMatrix q * rotMatrix t) quats quats') :
    ∃ l mean axes axes', buildMisOriList g quats none = .ok (l, mean, axes) ∧
      buildMisOriList g quats' none = .ok (l, mean, axes') := by
  have hne' : quats' ≠ [] := by
    rintro rfl
    cases ht
    exact hne rfl
  have one1 : rotMatrix ⟨1, 0, 0, 0⟩ = 1 := by
    ext i j; fin_cases i <;> fin_cases j <;> simp [rotMatrix]
  obtain ⟨m, m', hm, hm', he⟩ := C132_turned (g := g) hl hl' hne (s := ⟨1, 0, 0, 0⟩) (by simp [Quat.IsUnit])
    htu rfl rfl (by simpa only [one1, Matrix.one_mul] using ht)
  rw [one1, Matrix.one_mul] at he
  have um : m.IsUnit := by
    rw [mean_cluster hl hne] at hm
    cases hm
    exact (mean_unit hl hne).1
  have um' : m'.IsUnit := by
    rw [mean_cluster hl' hne'] at hm'
    cases hm'
    exact (mean_unit hl' hne').1
  rw [((C88_reference g quats m).2.2 hm).2, ((C88_reference g quats' m').2.2 hm').2]
  exact C136_turned (C36_rotation t htu).1 hl.unit hl'.unit um um' hne ht he

/-- The hypotheses are met, with a point that has another of the equivalent orientations. -/
example : Cluster (7 / Real.sqrt 50) [Spec.bend, ⟨1, 0, 0, 0⟩] ∧
    List.Forall₂ (Instead .cubic) [⟨1, 0, 0, 0⟩] [quarterTurn] := cluster_example

/-- Two close orientations in another sample frame. -/
example : Cluster (7 / Real.sqrt 50) [Spec.bend, ⟨1, 0, 0, 0⟩] ∧
    Cluster (7 / Real.sqrt 50) [mulRaw Spec.bend Spec.bend, Spec.bend] ∧
    List.Forall₂ (fun q q' => rotMatrix q' = rotMatrix q * rotMatrix Spec.bend) [Spec.bend, ⟨1, 0, 0, 0⟩]
      [mulRaw Spec.bend Spec.bend, Spec.bend] := by
  have h1 := cluster_example.1
  have s50 : Real.sqrt 50 ^ 2 = 50 := Real.sq_sqrt (by norm_num)
  have h50 : 0 < Real.sqrt 50 := by positivity
  have one1 : rotMatrix ⟨1, 0, 0, 0⟩ = 1 := by
    ext i j; fin_cases i <;> fin_cases j <;> simp [rotMatrix]
  have hb2 : mulRaw Spec.bend Spec.bend = ⟨48 / 50, 14 / 50, 0, 0⟩ := by
    simp only [mulRaw, Spec.bend]
    ext <;> simp only [] <;> field_simp <;> (try rw [s50]) <;> norm_num
  have hle := h1.near _ (List.mem_cons_of_mem _ List.mem_cons_self) _ (List.mem_cons_of_mem _ List.mem_cons_self)
  norm_num at hle
  refine ⟨h1, ⟨h1.pos, h1.small, ?_, ?_, ?_⟩, .cons (rotMatrix_mulRaw _ _) (.cons ?_ .nil)⟩
  · intro p hp
    rcases List.mem_pair.mp hp with rfl | rfl
    · rw [hb2]; norm_num
    · exact bend_unit
  · intro p hp
    rcases List.mem_pair.mp hp with rfl | rfl
    · rw [hb2]; norm_num
    · exact h1.pos
  · have hb := (isUnit_iff _).mp bend_unit
    simp only [dot] at hb
    have hc : (48 / 50 : ℝ) * (7 / Real.sqrt 50) + 14 / 50 * (1 / Real.sqrt 50) = 7 / Real.sqrt 50 := by
      field_simp; norm_num
    intro p hp r hr
    rcases List.mem_pair.mp hp with rfl | rfl <;> rcases List.mem_pair.mp hr with rfl | rfl
    · rw [hb2]; norm_num; exact hle
    · rw [hb2]; simp only [Spec.bend]; linarith
    · rw [hb2]; simp only [Spec.bend]; linarith
    · linarith
  · rw [one1, Matrix.one_mul]

end DefDAP
