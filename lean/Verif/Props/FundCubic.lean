import Verif.Props.FundHex

/-! C45: the fundamental direction of cubic crystals. -/

namespace DefDAP

open Quat Matrix

/-! ### The search -/

/-- The search keeps the least inclination among the trial poles. -/
theorem nanArgmin_best (all : List (Bool × ℝ)) :
    ∀ (l pre : List (Bool × ℝ)) (best : Option (Nat × ℝ)), all = pre ++ l →
      (∀ b, best = some b → all[b.1]? = some (true, b.2) ∧ ∀ x ∈ pre, x.1 = true → b.2 ≤ x.2) →
      (best = none → ∀ x ∈ pre, x.1 = false) →
      (∀ k, nanArgmin l pre.length best = some k →
        ∃ a, all[k]? = some (true, a) ∧ ∀ x ∈ all, x.1 = true → a ≤ x.2) ∧
      (nanArgmin l pre.length best = none → ∀ x ∈ all, x.1 = false)
  | [], pre, best, hall, hb, hn => by
    simp only [List.append_nil] at hall
    subst hall
    constructor
    · intro k hk
      cases best with
      | none => simp [nanArgmin] at hk
      | some b =>
        simp only [nanArgmin, Option.map_some, Option.some.injEq] at hk
        subst hk
        exact ⟨b.2, (hb b rfl).1, (hb b rfl).2⟩
    · intro hk
      cases best with
      | none => exact hn rfl
      | some b => simp [nanArgmin] at hk
  | (t, a) :: l, pre, best, hall, hb, hn => by
    have hlen : (pre ++ [(t, a)]).length = pre.length + 1 := by simp
    have hall' : all = (pre ++ [(t, a)]) ++ l := by simp [hall]
    have hat : all[pre.length]? = some (t, a) := by rw [hall]; simp
    have step : nanArgmin ((t, a) :: l) pre.length best =
        nanArgmin l (pre.length + 1) (nanBest pre.length t a best) := rfl
    rw [step, ← hlen]
    refine nanArgmin_best all l (pre ++ [(t, a)]) _ hall' ?_ ?_
    · intro b hbb
      by_cases ht : t = false
      · have hbb' : best = some b := by
          cases best <;> simpa [nanBest, ht] using hbb
        refine ⟨(hb b hbb').1, ?_⟩
        intro x hx hx1
        rcases List.mem_append.1 hx with hx | hx
        · exact (hb b hbb').2 x hx hx1
        · simp only [List.mem_singleton] at hx
          rw [hx] at hx1
          exact absurd (ht.symm.trans hx1) (by decide)
      · have ht' : t = true := by simpa using ht
        cases best with
        | none =>
          simp only [nanBest, if_neg ht, Option.some.injEq] at hbb
          subst hbb
          refine ⟨by rw [← ht']; exact hat, ?_⟩
          intro x hx hx1
          rcases List.mem_append.1 hx with hx | hx
          · have := hn rfl x hx
            rw [this] at hx1
            exact absurd hx1 (by decide)
          · simp only [List.mem_singleton] at hx
            rw [hx]
        | some b' =>
          simp only [nanBest, if_neg ht] at hbb
          split_ifs at hbb with hlt
          · simp only [Option.some.injEq] at hbb
            subst hbb
            refine ⟨by rw [← ht']; exact hat, ?_⟩
            intro x hx hx1
            rcases List.mem_append.1 hx with hx | hx
            · exact hlt.le.trans ((hb b' rfl).2 x hx hx1)
            · simp only [List.mem_singleton] at hx
              rw [hx]
          · simp only [Option.some.injEq] at hbb
            subst hbb
            refine ⟨(hb b' rfl).1, ?_⟩
            intro x hx hx1
            rcases List.mem_append.1 hx with hx | hx
            · exact (hb b' rfl).2 x hx hx1
            · simp only [List.mem_singleton] at hx
              rw [hx]
              exact not_lt.1 hlt
    · intro hbb x hx
      cases best with
      | none =>
        by_cases ht : t = false
        · rcases List.mem_append.1 hx with hx | hx
          · exact hn rfl x hx
          · simp only [List.mem_singleton] at hx
            rw [hx]; exact ht
        · simp [nanBest, ht] at hbb
      | some b' =>
        simp only [nanBest] at hbb
        split_ifs at hbb

/-- The result for cubic crystals: among the rows in range, one with the least inclination. -/
theorem cubic_pick (lo hi : ℝ) {angles : List (ℝ × ℝ)}
    (h : ∃ x ∈ angles, lo ≤ x.2 ∧ x.2 ≤ hi) :
    ∃ ab ∈ angles, fundPick .cubic lo hi 0 angles = .ok ab ∧ (lo ≤ ab.2 ∧ ab.2 ≤ hi) ∧
      ∀ x ∈ angles, lo ≤ x.2 ∧ x.2 ≤ hi → ab.1 ≤ x.1 := by
  classical
  unfold fundPick fundIdx
  simp only
  have hz : (trialPoles lo hi 0 angles).zip (angles.map fun ab => ab.1) =
      angles.map fun ab => (decide (lo ≤ ab.2 ∧ ab.2 ≤ hi), ab.1) := by
    unfold trialPoles
    rw [List.zip_map']
    apply List.map_congr_left
    intro a _
    simp
  rw [hz]
  have main := nanArgmin_best (angles.map fun ab => (decide (lo ≤ ab.2 ∧ ab.2 ≤ hi), ab.1)) _ []
    none rfl (by simp) (by simp)
  simp only [List.length_nil] at main
  cases hk : nanArgmin (angles.map fun ab => (decide (lo ≤ ab.2 ∧ ab.2 ≤ hi), ab.1)) 0 none with
  | none =>
    exfalso
    obtain ⟨x, hx, hr⟩ := h
    have := main.2 hk _ (List.mem_map.2 ⟨x, hx, rfl⟩)
    simp only [decide_eq_false_iff_not] at this
    exact this hr
  | some k =>
    obtain ⟨a, ha, hmin⟩ := main.1 k hk
    rw [List.getElem?_map] at ha
    cases hab : angles[k]? with
    | none => rw [hab] at ha; simp at ha
    | some ab =>
      rw [hab] at ha
      simp only [Option.map_some, Option.some.injEq, Prod.mk.injEq, decide_eq_true_eq] at ha
      refine ⟨ab, List.mem_of_getElem? hab, ?_, ha.1, ?_⟩
      · simp only [Except.bind, hab]
      · intro x hx hr
        rw [ha.2]
        exact hmin _ (List.mem_map.2 ⟨x, hx, rfl⟩) (by simpa using hr)

/-! ### The table -/

/-- Rotations used to move images into the triangle: two versions of the mirrors `x = 0` and
`x = -y`, the mirror `y = z` with a change of sign, and three that bring a third axis to the `y`
axis. -/
def cubicMove (k : Fin 8) (i j : Fin 3) : Int :=
  ![![![1, 0, 0], ![0, -1, 0], ![0, 0, -1]],
    ![![-1, 0, 0], ![0, 1, 0], ![0, 0, -1]],
    ![![0, 1, 0], ![1, 0, 0], ![0, 0, -1]],
    ![![0, -1, 0], ![-1, 0, 0], ![0, 0, -1]],
    ![![-1, 0, 0], ![0, 0, -1], ![0, -1, 0]],
    ![![0, -1, 0], ![0, 0, 1], ![-1, 0, 0]],
    ![![1, 0, 0], ![0, 0, 1], ![0, -1, 0]],
    ![![0, 1, 0], ![0, 0, 1], ![1, 0, 0]]] k i j

theorem cubic_moves : ∀ k, ∀ q ∈ cubicExact, ∃ t ∈ cubicExact, ∀ i j,
    exactRotT t j i = exactImage (fun i j => surdInt (cubicMove k i j)) q i j := by decide +kernel

noncomputable def moveReal (k : Fin 8) : Matrix (Fin 3) (Fin 3) ℝ :=
  Matrix.of fun i j => (cubicMove k i j : ℝ)

theorem cubic_move (k : Fin 8) : HasImage (symEqv .cubic) (moveReal k) := by
  have := hasImage_of_exact (cubic_moves k)
  have e : exactReal (fun i j => surdInt (d := 2) (cubicMove k i j)) = moveReal k := by
    ext i j
    simp [exactReal, real_surdInt, moveReal]
  rw [e] at this
  exact this

theorem move_apply (k : Fin 8) (v : Fin 3 → ℝ) : moveReal k *ᵥ v = fun i =>
    (cubicMove k i 0 : ℝ) * v 0 + (cubicMove k i 1 : ℝ) * v 1 + (cubicMove k i 2 : ℝ) * v 2 := by
  ext i
  simp [moveReal, Matrix.mulVec, dotProduct, Fin.sum_univ_three]

/-- The components of an image are, up to order and sign, those of the direction. -/
theorem cubic_components (c : Fin 3 → ℝ) {s : Quat ℝ} (hs : s ∈ symEqv .cubic) :
    ∃ σ : Equiv.Perm (Fin 3), ∀ i, |(rotMatrix s *ᵥ c) (σ i)| = |c i| := by
  obtain ⟨q, hq, rfl⟩ := List.mem_map.1 hs
  obtain ⟨σ, ε, h⟩ := cubic_signed q hq
  refine ⟨σ, fun i => ?_⟩
  have e : ∀ i j, rotMatrix q.real i j = (exactRotT q j i).real := fun i j => by
    rw [← exactRotT_real]; rfl
  have key : (rotMatrix q.real *ᵥ c) (σ i) = (Spec.sgn (ε i) : ℝ) * c i := by
    simp only [Matrix.mulVec, dotProduct, e, h, real_surdInt]
    rw [Finset.sum_eq_single i]
    · simp
    · intro b _ hb
      rw [if_neg (fun hh => hb (σ.injective hh).symm)]
      simp
    · simp
  rw [key, abs_mul]
  cases ε i <;> simp [Spec.sgn]

theorem northern_abs (v : Fin 3 → ℝ) (i : Fin 3) : |Spec.northern v i| = |v i| := by
  rcases northern_cases v with ⟨e, -⟩ | ⟨e, -⟩
  · rw [e]
  · rw [e, Pi.neg_apply, abs_neg]

/-- The standard triangle of cubic crystals, with corners `[001]`, `[011]` and `[-111]`. -/
def Spec.CubicTriangle (v : Fin 3 → ℝ) : Prop := v 0 ≤ 0 ∧ -v 0 ≤ v 1 ∧ v 1 ≤ v 2

/-- Some image is in the triangle. -/
theorem cubic_exists (c : Fin 3 → ℝ) :
    ∃ s ∈ symEqv .cubic, Spec.CubicTriangle (Spec.northern (rotMatrix s *ᵥ c)) := by
  obtain ⟨s, hs, hm⟩ := image_max (symEqv_ne_nil .cubic)
    (fun s => -Spec.northern (rotMatrix s *ᵥ c) 0 + 2 * Spec.northern (rotMatrix s *ᵥ c) 1 +
      3 * Spec.northern (rotMatrix s *ᵥ c) 2)
  have mir : ∀ M : Matrix (Fin 3) (Fin 3) ℝ, (∀ j, M 2 j = if j = 2 then 1 else 0) →
      HasImage (symEqv .cubic) (-M) →
      HasImage (symEqv .cubic) (Matrix.of fun i j => if i = 2 then -M i j else M i j) →
      ∃ t ∈ symEqv .cubic, Spec.northern (rotMatrix t *ᵥ c) =
        M *ᵥ Spec.northern (rotMatrix s *ᵥ c) :=
    fun M h h1 h2 => mirror_image h h1 h2 c s hs
  have hz := northern_nonneg (rotMatrix s *ᵥ c)
  have h1 : Spec.northern (rotMatrix s *ᵥ c) 0 ≤ 0 := by
    obtain ⟨t, ht, e⟩ := mir (-moveReal 0)
      (by intro j; fin_cases j <;> simp [moveReal, cubicMove])
      (by rw [neg_neg]; exact cubic_move 0)
      (by
        convert cubic_move 1 using 1
        ext i j
        fin_cases i <;> fin_cases j <;> simp [moveReal, cubicMove])
    have := hm t ht
    rw [e, Matrix.neg_mulVec, move_apply] at this
    simp [cubicMove] at this
    linarith
  have h2 : -Spec.northern (rotMatrix s *ᵥ c) 0 ≤ Spec.northern (rotMatrix s *ᵥ c) 1 := by
    obtain ⟨t, ht, e⟩ := mir (-moveReal 2)
      (by intro j; fin_cases j <;> simp [moveReal, cubicMove])
      (by rw [neg_neg]; exact cubic_move 2)
      (by
        convert cubic_move 3 using 1
        ext i j
        fin_cases i <;> fin_cases j <;> simp [moveReal, cubicMove])
    have := hm t ht
    rw [e, Matrix.neg_mulVec, move_apply] at this
    simp [cubicMove] at this
    linarith
  refine ⟨s, hs, h1, h2, ?_⟩
  by_cases hy : 0 < Spec.northern (rotMatrix s *ᵥ c) 1
  · obtain ⟨t, ht, e⟩ := cubic_move 4 s hs
    have hn : Spec.northern (rotMatrix t *ᵥ c) = -(moveReal 4 *ᵥ Spec.northern (rotMatrix s *ᵥ c)) := by
      apply northern_of_pos
      · rw [e, ← Matrix.mulVec_mulVec]
        rcases northern_cases (rotMatrix s *ᵥ c) with ⟨x, -⟩ | ⟨x, -⟩
        · rw [x, neg_neg]; exact .inr rfl
        · rw [x, Matrix.mulVec_neg, neg_neg]; exact .inl rfl
      · rw [Pi.neg_apply, move_apply]
        simp [cubicMove]
        exact hy
    have := hm t ht
    rw [hn, move_apply] at this
    simp [cubicMove] at this
    linarith
  · linarith

/-! ### Three images in the range of azimuths -/

/-- The range of azimuths. -/
def InSector (w : Fin 3 → ℝ) : Prop := w 0 ≤ 0 ∧ -w 0 ≤ w 1 ∧ 0 < w 1

theorem image_inj {s : Quat ℝ} (hs : s.IsUnit) {M N : Matrix (Fin 3) (Fin 3) ℝ}
    (h : M * rotMatrix s = N * rotMatrix s) : M = N := by
  have h1 := (C36_rotation s hs).1
  have := congrArg (· * (rotMatrix s).transpose) h
  simpa [Matrix.mul_assoc, h1] using this

theorem three_poles {c : Fin 3 → ℝ} {a b e : Quat ℝ} (ha : a ∈ symEqv .cubic)
    (hb : b ∈ symEqv .cubic) (he : e ∈ symEqv .cubic) (hab : a ≠ b) (hae : a ≠ e) (hbe : b ≠ e)
    (sa : InSector (Spec.northern (rotMatrix a *ᵥ c)))
    (sb : InSector (Spec.northern (rotMatrix b *ᵥ c)))
    (se : InSector (Spec.northern (rotMatrix e *ᵥ c))) :
    3 ≤ (trialPoles (Real.pi / 2) (3 / 4 * Real.pi) 0 (groupAngles (symEqv .cubic) c)).count true := by
  classical
  have hcount : (trialPoles (Real.pi / 2) (3 / 4 * Real.pi) 0
      (groupAngles (symEqv .cubic) c)).count true =
      ((symEqv .cubic).filter fun s =>
        decide (InSector (Spec.northern (rotMatrix s *ᵥ c)))).length := by
    rw [← List.countP_eq_length_filter]
    unfold trialPoles groupAngles
    rw [List.map_map, List.count, List.countP_map]
    congr 1
    funext s
    simp only [Function.comp, sub_zero, add_zero, cubic_sector, InSector, beq_true]
    exact decide_eq_decide.2 Iff.rfl
  rw [hcount]
  have hsub : [a, b, e] ⊆ (symEqv .cubic).filter fun s =>
      decide (InSector (Spec.northern (rotMatrix s *ᵥ c))) := by
    intro x hx
    simp only [List.mem_cons, List.not_mem_nil, or_false] at hx
    rcases hx with rfl | rfl | rfl
    · simp [ha, sa]
    · simp [hb, sb]
    · simp [he, se]
  have hnd : [a, b, e].Nodup := by simp [hab, hae, hbe]
  exact (List.subperm_of_subset hnd hsub).length_le

theorem move_ne {k k' : Fin 8} (h : ∃ i j, cubicMove k i j ≠ cubicMove k' i j) :
    moveReal k ≠ moveReal k' := by
  obtain ⟨i, j, h⟩ := h
  intro e
  have := congrFun (congrFun e i) j
  simp only [moveReal, Matrix.of_apply, Int.cast_inj] at this
  exact h this

theorem move_ne_one {k : Fin 8} (h : ∃ i j : Fin 3, cubicMove k i j ≠ if i = j then 1 else 0) :
    (1 : Matrix (Fin 3) (Fin 3) ℝ) ≠ moveReal k := by
  obtain ⟨i, j, h⟩ := h
  intro e
  have := congrFun (congrFun e i) j
  simp only [moveReal, Matrix.of_apply, Matrix.one_apply] at this
  apply h
  split_ifs at this ⊢ with hh
  · exact_mod_cast this.symm
  · exact_mod_cast this.symm

/-- Every direction has at least three images in the range, so that the search is never widened. -/
theorem cubic_three {c : Fin 3 → ℝ} (hc : Spec.UnitDir c) :
    3 ≤ (trialPoles (Real.pi / 2) (3 / 4 * Real.pi) 0 (groupAngles (symEqv .cubic) c)).count true := by
  obtain ⟨s, hs, ht⟩ := cubic_exists c
  have hsu := (symEqv_table .cubic).unit s hs
  have hu := northern_unit (rot_unitDir hsu hc)
  have ne : ∀ {t t' : Quat ℝ} {r : Quat ℝ} {M N : Matrix (Fin 3) (Fin 3) ℝ}, r ∈ symEqv .cubic →
      rotMatrix t = M * rotMatrix r → rotMatrix t' = N * rotMatrix r → M ≠ N → t ≠ t' := by
    intro t t' r M N hr h1 h2 h3 h4
    apply h3
    apply image_inj ((symEqv_table .cubic).unit r hr)
    rw [← h1, ← h2, h4]
  rcases lt_or_eq_of_le ht.1 with hx | hx
  · obtain ⟨t1, ht1, e1⟩ := cubic_move 4 s hs
    obtain ⟨t2, ht2, e2⟩ := cubic_move 5 s hs
    obtain ⟨-, hxy, hyz⟩ := ht
    have pm : rotMatrix s *ᵥ c = Spec.northern (rotMatrix s *ᵥ c) ∨
        rotMatrix s *ᵥ c = -Spec.northern (rotMatrix s *ᵥ c) := by
      rcases northern_cases (rotMatrix s *ᵥ c) with ⟨x, -⟩ | ⟨x, -⟩
      · exact .inl x.symm
      · right; rw [x, neg_neg]
    set w := Spec.northern (rotMatrix s *ᵥ c) with hw
    have n1 : Spec.northern (rotMatrix t1 *ᵥ c) = -(moveReal 4 *ᵥ w) := by
      apply northern_of_pos
      · rw [e1, ← Matrix.mulVec_mulVec, neg_neg]
        rcases pm with x | x
        · rw [x]; exact .inr rfl
        · rw [x, Matrix.mulVec_neg]; exact .inl rfl
      · rw [Pi.neg_apply, move_apply]
        simp [cubicMove]
        linarith
    have n2 : Spec.northern (rotMatrix t2 *ᵥ c) = moveReal 5 *ᵥ w := by
      apply northern_of_pos
      · rw [e2, ← Matrix.mulVec_mulVec]
        rcases pm with x | x
        · rw [x]; exact .inl rfl
        · rw [x, Matrix.mulVec_neg]; exact .inr rfl
      · rw [move_apply]
        simp [cubicMove]
        linarith
    have h0 : rotMatrix s = 1 * rotMatrix s := by rw [Matrix.one_mul]
    refine three_poles hs ht1 ht2 (ne hs h0 e1 (move_ne_one (by decide)))
      (ne hs h0 e2 (move_ne_one (by decide))) (ne hs e1 e2 (move_ne (by decide))) ?_ ?_ ?_
    · rw [← hw]; exact ⟨hx.le, hxy, by linarith⟩
    · rw [n1, move_apply]
      refine ⟨?_, ?_, ?_⟩ <;> simp [cubicMove] <;> linarith
    · rw [n2, move_apply]
      refine ⟨?_, ?_, ?_⟩ <;> simp [cubicMove] <;> linarith
  · -- the sign of the image can be chosen
    have hz : 0 < Spec.northern (rotMatrix s *ᵥ c) 2 := by
      unfold Spec.UnitDir at hu
      obtain ⟨-, hxy, hyz⟩ := ht
      by_contra hn
      have a : Spec.northern (rotMatrix s *ᵥ c) 1 = 0 := by linarith
      have b : Spec.northern (rotMatrix s *ᵥ c) 2 = 0 := by
        linarith [northern_nonneg (rotMatrix s *ᵥ c)]
      rw [hx, a, b] at hu
      norm_num at hu
    obtain ⟨r, hr, er⟩ : ∃ r ∈ symEqv .cubic,
        rotMatrix r *ᵥ c = Spec.northern (rotMatrix s *ᵥ c) := by
      rcases northern_cases (rotMatrix s *ᵥ c) with ⟨x, -⟩ | ⟨x, -⟩
      · exact ⟨s, hs, x.symm⟩
      · obtain ⟨t, ht', e⟩ := cubic_move 0 s hs
        refine ⟨t, ht', ?_⟩
        have : rotMatrix s *ᵥ c = -Spec.northern (rotMatrix s *ᵥ c) := by rw [x, neg_neg]
        rw [e, ← Matrix.mulVec_mulVec, this, Matrix.mulVec_neg, move_apply]
        rw [← this]
        ext i
        fin_cases i
        · simp [cubicMove, hx]
        · simp [cubicMove]
        · simp [cubicMove]
    obtain ⟨-, hxy, hyz⟩ := ht
    set w := Spec.northern (rotMatrix s *ᵥ c) with hw
    have h0 : rotMatrix r = 1 * rotMatrix r := by rw [Matrix.one_mul]
    obtain ⟨t1, ht1, e1⟩ := cubic_move 4 r hr
    obtain ⟨t2, ht2, e2⟩ := cubic_move 5 r hr
    obtain ⟨t3, ht3, e3⟩ := cubic_move 6 r hr
    obtain ⟨t4, ht4, e4⟩ := cubic_move 7 r hr
    have n2 : Spec.northern (rotMatrix t2 *ᵥ c) = moveReal 5 *ᵥ w := by
      rw [e2, ← Matrix.mulVec_mulVec, er]
      apply northern_of_nonneg
      rw [move_apply]
      simp [cubicMove, hx]
    have s2 : InSector (Spec.northern (rotMatrix t2 *ᵥ c)) := by
      rw [n2, move_apply]
      refine ⟨?_, ?_, ?_⟩ <;> simp [cubicMove] <;> linarith
    rcases lt_or_eq_of_le (show 0 ≤ w 1 by linarith) with hy | hy
    · have n0 : Spec.northern (rotMatrix r *ᵥ c) = w := by
        rw [er]; exact northern_of_nonneg hz.le
      have n1 : Spec.northern (rotMatrix t1 *ᵥ c) = -(moveReal 4 *ᵥ w) := by
        apply northern_of_pos
        · rw [e1, ← Matrix.mulVec_mulVec, neg_neg, er]
          exact .inr rfl
        · rw [Pi.neg_apply, move_apply]
          simp [cubicMove]
          exact hy
      refine three_poles hr ht1 ht2 (ne hr h0 e1 (move_ne_one (by decide)))
        (ne hr h0 e2 (move_ne_one (by decide))) (ne hr e1 e2 (move_ne (by decide))) ?_ ?_ s2
      · rw [n0]; exact ⟨hx.le, hxy, hy⟩
      · rw [n1, move_apply]
        refine ⟨?_, ?_, ?_⟩ <;> simp [cubicMove] <;> linarith
    · have n3 : Spec.northern (rotMatrix t3 *ᵥ c) = moveReal 6 *ᵥ w := by
        rw [e3, ← Matrix.mulVec_mulVec, er]
        apply northern_of_nonneg
        rw [move_apply]
        simp [cubicMove, ← hy]
      have n4 : Spec.northern (rotMatrix t4 *ᵥ c) = moveReal 7 *ᵥ w := by
        rw [e4, ← Matrix.mulVec_mulVec, er]
        apply northern_of_nonneg
        rw [move_apply]
        simp [cubicMove, hx]
      refine three_poles ht3 ht4 ht2 (ne hr e3 e4 (move_ne (by decide)))
        (ne hr e3 e2 (move_ne (by decide))) (ne hr e4 e2 (move_ne (by decide))) ?_ ?_ s2
      · rw [n3, move_apply]
        refine ⟨?_, ?_, ?_⟩ <;> simp [cubicMove] <;> linarith
      · rw [n4, move_apply]
        refine ⟨?_, ?_, ?_⟩ <;> simp [cubicMove] <;> linarith

/-! ### The property -/

/-- What the function returns for cubic crystals: the image in the range that is nearest to the
pole. -/
theorem cubic_result {triangle : String} {quats : List (Quat ℝ)} (hq : ∀ q ∈ quats, q.IsUnit)
    {d : Fin 3 → ℝ} (hd : d ≠ 0) {P : Quat ℝ → ℝ × ℝ → Prop}
    (h : ∀ q ∈ quats, ∀ s ∈ symEqv .cubic, ∀ ab,
      Spec.poleDir ab = Spec.northern (rotMatrix s *ᵥ Spec.inCrystal q d) →
      0 ≤ ab.1 → ab.1 ≤ Real.pi / 2 → Real.pi / 2 ≤ ab.2 → ab.2 ≤ 3 / 4 * Real.pi →
      InSector (Spec.poleDir ab) →
      (∀ t ∈ symEqv .cubic, InSector (Spec.northern (rotMatrix t *ᵥ Spec.inCrystal q d)) →
        Spec.northern (rotMatrix t *ᵥ Spec.inCrystal q d) 2 ≤ Spec.poleDir ab 2) →
      ab = (Real.arccos (Spec.poleDir ab 2), arctan2 (Spec.poleDir ab 1) (Spec.poleDir ab 0)) →
      P q ab) :
    ∃ out, calcFundDirs .cubic triangle quats d = .ok out ∧ List.Forall₂ P quats out := by
  refine fund_dirs .cubic hq hd (r := (Real.pi / 2, 3 / 4 * Real.pi, 3)) rfl (delta := 0) ?_ ?_
  · rw [if_neg]
    rintro ⟨q, hm, hlt⟩
    have := cubic_three (inCrystal_unit (hq q hm) hd)
    simp only at hlt
    omega
  · intro q hm
    have hu := inCrystal_unit (hq q hm) hd
    have h3 := cubic_three hu
    have hex : ∃ x ∈ groupAngles (symEqv .cubic) (Spec.inCrystal q d),
        Real.pi / 2 ≤ x.2 ∧ x.2 ≤ 3 / 4 * Real.pi := by
      by_contra hn
      have : (trialPoles (Real.pi / 2) (3 / 4 * Real.pi) 0
          (groupAngles (symEqv .cubic) (Spec.inCrystal q d))).count true = 0 := by
        rw [trial_count]
        intro ab hab hr
        exact hn ⟨ab, hab, by simpa using hr⟩
      omega
    obtain ⟨ab, hab, e, hr, hmin⟩ := cubic_pick _ _ hex
    obtain ⟨s, hs, e2, e3, e4⟩ := groupAngles_mem (symEqv_table .cubic) hu hab
    have e3' : ab = (Real.arccos (Spec.poleDir ab 2),
        arctan2 (Spec.poleDir ab 1) (Spec.poleDir ab 0)) := by
      rw [e2]; exact e3
    refine ⟨ab, e, h q hm s hs ab e2 e4.1 e4.2 hr.1 hr.2 ?_ ?_ e3'⟩
    · have : Real.pi / 2 ≤ arctan2 (Spec.poleDir ab 1) (Spec.poleDir ab 0) ∧
          arctan2 (Spec.poleDir ab 1) (Spec.poleDir ab 0) ≤ 3 / 4 * Real.pi := by
        have : ab.2 = arctan2 (Spec.poleDir ab 1) (Spec.poleDir ab 0) := congrArg Prod.snd e3'
        rw [← this]; exact hr
      exact (cubic_sector _ _).1 this
    · intro t ht hsec
      have := hmin _ (List.mem_map.2 ⟨t, ht, rfl⟩) ((cubic_sector _ _).2 hsec)
      have hb := unitDir_bound (northern_unit (rot_unitDir ((symEqv_table .cubic).unit t ht) hu))
      have := Real.strictAntiOn_cos.antitoneOn ⟨e4.1, by linarith [Real.pi_pos]⟩
        ⟨Real.arccos_nonneg _, Real.arccos_le_pi _⟩ this
      rw [Real.cos_arccos hb.1 hb.2] at this
      exact this

/-- C45: for cubic crystals the result is a symmetric equivalent of the sample direction and lies
in the standard triangle, unless the direction is exactly a cube axis of the crystal. -/
theorem C45_cubic (triangle : String) (quats : List (Quat ℝ)) (hq : ∀ q ∈ quats, q.IsUnit)
    (d : Fin 3 → ℝ) (hd : d ≠ 0) :
    ∃ out, calcFundDirs .cubic triangle quats d = .ok out ∧
      List.Forall₂ (fun q ab => Spec.EqvDir .cubic (Spec.inCrystal q d) (Spec.poleDir ab) ∧
        (0 ≤ ab.1 ∧ ab.1 ≤ Real.pi / 2) ∧ (Real.pi / 2 ≤ ab.2 ∧ ab.2 ≤ 3 * Real.pi / 4) ∧
        ((∀ i, |Spec.inCrystal q d i| ≠ 1) → Spec.CubicTriangle (Spec.poleDir ab))) quats out := by
  refine cubic_result hq hd ?_
  intro q hm s hs ab e a1 a2 b1 b2 hsec hmin _
  refine ⟨eqvDir_northern hs e, ⟨a1, a2⟩, ⟨b1, by linarith⟩, ?_⟩
  intro hne
  have hu := inCrystal_unit (hq q hm) hd
  obtain ⟨t, ht, htri⟩ := cubic_exists (Spec.inCrystal q d)
  have hu2 := northern_unit (rot_unitDir ((symEqv_table .cubic).unit t ht) hu)
  obtain ⟨σ, hσ⟩ := cubic_components (Spec.inCrystal q d) ht
  obtain ⟨τ, hτ⟩ := cubic_components (Spec.inCrystal q d) hs
  have hbound : ∀ i, |Spec.inCrystal q d i| ≤ Spec.northern (rotMatrix t *ᵥ Spec.inCrystal q d) 2 := by
    intro i
    rw [← hσ i, ← northern_abs]
    obtain ⟨t1, t2, t3⟩ := htri
    have all : ∀ k : Fin 3, |Spec.northern (rotMatrix t *ᵥ Spec.inCrystal q d) k| ≤
        Spec.northern (rotMatrix t *ᵥ Spec.inCrystal q d) 2 := by
      intro k
      rw [abs_le]
      fin_cases k
      · exact ⟨by simp only [Fin.zero_eta]; linarith, by simp only [Fin.zero_eta]; linarith⟩
      · exact ⟨by simp only [Fin.mk_one]; linarith, by simp only [Fin.mk_one]; linarith⟩
      · exact ⟨by simp only [Fin.reduceFinMk]; linarith, le_refl _⟩
    exact all _
  have hy : 0 < Spec.northern (rotMatrix t *ᵥ Spec.inCrystal q d) 1 := by
    obtain ⟨t1, t2, t3⟩ := htri
    by_contra hn
    have e1 : Spec.northern (rotMatrix t *ᵥ Spec.inCrystal q d) 1 = 0 := by linarith
    have e0 : Spec.northern (rotMatrix t *ᵥ Spec.inCrystal q d) 0 = 0 := by linarith
    unfold Spec.UnitDir at hu2
    rw [e0, e1] at hu2
    apply hne (σ.symm 2)
    rw [← hσ, Equiv.apply_symm_apply, ← northern_abs]
    have h2 := northern_nonneg (rotMatrix t *ᵥ Spec.inCrystal q d)
    rw [abs_of_nonneg h2]
    nlinarith
  refine ⟨hsec.1, hsec.2.1, ?_⟩
  have hz := hmin t ht ⟨htri.1, htri.2.1, hy⟩
  refine le_trans ?_ hz
  refine le_trans (le_abs_self _) ?_
  have := hbound (τ.symm 1)
  rw [← hτ, Equiv.apply_symm_apply, ← northern_abs, ← e] at this
  exact this

/-- C45: if the sample direction is exactly a cube axis of the crystal the result is at 90 degrees
from the pole, outside the triangle. -/
theorem C45_cube_axis (triangle : String) (quats : List (Quat ℝ)) (hq : ∀ q ∈ quats, q.IsUnit)
    (d : Fin 3 → ℝ) (hd : d ≠ 0) :
    ∃ out, calcFundDirs .cubic triangle quats d = .ok out ∧
      List.Forall₂ (fun q ab => (∃ i, |Spec.inCrystal q d i| = 1) →
        ab = (Real.pi / 2, Real.pi / 2) ∧ ¬ Spec.CubicTriangle (Spec.poleDir ab)) quats out := by
  refine cubic_result hq hd ?_
  intro q hm s hs ab e a1 a2 b1 b2 hsec hmin e3
  rintro ⟨i, hi⟩
  have hu := inCrystal_unit (hq q hm) hd
  obtain ⟨τ, hτ⟩ := cubic_components (Spec.inCrystal q d) hs
  have hu2 := northern_unit (rot_unitDir ((symEqv_table .cubic).unit s hs) hu)
  have h1 : |Spec.northern (rotMatrix s *ᵥ Spec.inCrystal q d) (τ i)| = 1 := by
    rw [northern_abs, hτ, hi]
  rw [← e] at hu2 h1
  generalize τ i = k at h1
  have hk : Spec.poleDir ab k ^ 2 = 1 := by rw [← sq_abs, h1]; norm_num
  obtain ⟨s1, s2, s3⟩ := hsec
  unfold Spec.UnitDir at hu2
  set v := Spec.poleDir ab with hv
  have hy2 : v 0 = 0 ∧ v 1 = 1 ∧ v 2 = 0 := by
    fin_cases k
    · simp only [Fin.zero_eta] at hk
      nlinarith [sq_nonneg (v 2)]
    · simp only [Fin.mk_one] at hk
      refine ⟨?_, by nlinarith, ?_⟩
      · nlinarith [sq_nonneg (v 2), sq_nonneg (v 0)]
      · nlinarith [sq_nonneg (v 2), sq_nonneg (v 0)]
    · simp only [Fin.reduceFinMk] at hk
      nlinarith [sq_nonneg (v 0)]
  have ea : ab = (Real.pi / 2, Real.pi / 2) := by
    rw [e3, hy2.1, hy2.2.1, hy2.2.2, Real.arccos_zero]
    congr 1
    unfold arctan2
    have : (⟨0, 1⟩ : ℂ) = Complex.I := rfl
    rw [this, Complex.arg_I]
  refine ⟨ea, ?_⟩
  rintro ⟨-, -, h⟩
  rw [hy2.2.1, hy2.2.2] at h
  norm_num at h

/-- A crystal of the reference orientation seen along `z` is such a case, and one seen along `3x + 4y`
is not. -/
example : (∃ i, |Spec.inCrystal ⟨1, 0, 0, 0⟩ ![0, 0, 1] i| = 1) ∧
    (∀ i, |Spec.inCrystal ⟨1, 0, 0, 0⟩ ![3, 4, 0] i| ≠ 1) := by
  have h5 : Real.sqrt (3 * 3 + 4 * 4) = 5 := by
    rw [show (3 * 3 + 4 * 4 : ℝ) = 5 ^ 2 by norm_num]
    exact Real.sqrt_sq (by norm_num)
  constructor
  · refine ⟨2, ?_⟩
    simp [Spec.inCrystal, rotMatrix, dotProduct, Fin.sum_univ_three]
  · intro i
    fin_cases i <;>
      simp [Spec.inCrystal, rotMatrix, dotProduct, Fin.sum_univ_three, h5] <;> norm_num

end DefDAP
