import Verif.Proofs.Symmetry
import Mathlib.LinearAlgebra.Matrix.NonsingularInverse

/-! C39–C42, C44: symmetry operators and misorientation. -/

namespace DefDAP

open Quat
open scoped Quaternion Matrix

/-! ### C39 -/

/-- A rotation matrix determines the unit quaternion up to sign. -/
theorem rotMatrix_inj {p q : Quat ℝ} (hp : p.IsUnit) (hq : q.IsUnit)
    (h : rotMatrix p = rotMatrix q) : p = q ∨ p = q.neg := by
  have e : ∀ i j, rotMatrix p i j = rotMatrix q i j := fun i j => by rw [h]
  have e00 := e 0 0
  have e01 := e 0 1
  have e02 := e 0 2
  have e10 := e 1 0
  have e11 := e 1 1
  have e12 := e 1 2
  have e20 := e 2 0
  have e21 := e 2 1
  have e22 := e 2 2
  simp [rotMatrix] at e00 e01 e02 e10 e11 e12 e20 e21 e22
  simp only [Quat.IsUnit] at hp hq
  refine quat_of_products p q hq ?_ ?_ ?_ ?_ ?_ ?_ ?_ ?_ ?_ ?_ <;> nlinarith

/-- **C39.** The 24 cubic and 12 hexagonal operators: unit and northern, the identity first,
pairwise different rotations, and the rotations are closed under composition and inverse. -/
theorem C39_group (g : SymGroup) :
    (symEqv g).length = (match g with | .cubic => 24 | .hexagonal => 12) ∧
    (∀ s ∈ symEqv g, s.IsUnit ∧ s.North) ∧
    (symEqv g)[0]? = some ⟨1, 0, 0, 0⟩ ∧
    (∀ (i j : Nat) (s t : Quat ℝ), (symEqv g)[i]? = some s → (symEqv g)[j]? = some t → i ≠ j →
      rotMatrix s ≠ rotMatrix t) ∧
    (∀ s ∈ symEqv g, ∀ t ∈ symEqv g, ∃ u ∈ symEqv g,
      rotMatrix u = rotMatrix s * rotMatrix t ∧ (toH u = toH s * toH t ∨ toH u = -(toH s * toH t))) ∧
    (∀ s ∈ symEqv g, ∃ u ∈ symEqv g, rotMatrix u = (rotMatrix s)⁻¹) := by
  have ht := symEqv_table g
  refine ⟨by cases g <;> rfl, fun s hs => ⟨ht.unit s hs, ht.north s hs⟩, ht.head, ?_, ?_, ?_⟩
  · intro i j s t hi hj hij heq
    have key : ∀ (i j : Nat) (s t : Quat ℝ), (symEqv g)[i]? = some s → (symEqv g)[j]? = some t → i < j →
        s ≠ t ∧ s ≠ t.neg := by
      intro i j s t hi hj hlt
      obtain ⟨hi', rfl⟩ := List.getElem?_eq_some_iff.1 hi
      obtain ⟨hj', rfl⟩ := List.getElem?_eq_some_iff.1 hj
      exact List.pairwise_iff_getElem.1 ht.distinct i j hi' hj' hlt
    have hs := List.mem_of_getElem? hi
    have htm := List.mem_of_getElem? hj
    rcases lt_or_gt_of_ne hij with h | h
    · rcases rotMatrix_inj (ht.unit s hs) (ht.unit t htm) heq with e | e
      · exact (key _ _ _ _ hi hj h).1 e
      · exact (key _ _ _ _ hi hj h).2 e
    · rcases rotMatrix_inj (ht.unit t htm) (ht.unit s hs) heq.symm with e | e
      · exact (key _ _ _ _ hj hi h).1 e
      · exact (key _ _ _ _ hj hi h).2 e
  · intro s hs t htm
    rcases ht.mul s hs t htm with h | h
    · exact ⟨_, h, rotMatrix_mulRaw s t, .inl (toH_mulRaw s t)⟩
    · refine ⟨_, h, ?_, .inr ?_⟩
      · rw [rotMatrix_neg, rotMatrix_mulRaw]
      · rw [toH_neg, toH_mulRaw]
  · intro s hs
    have hinv : rotMatrix (conjRaw s) = (rotMatrix s)⁻¹ := by
      symm
      apply Matrix.inv_eq_right_inv
      have : rotMatrix (conjRaw s) = (rotMatrix s)ᵀ := by
        ext i j
        fin_cases i <;> fin_cases j <;> simp [rotMatrix, conjRaw] <;> ring
      rw [this]
      exact (C36_rotation s (ht.unit s hs)).1
    rcases ht.conj s hs with h | h
    · exact ⟨_, h, hinv⟩
    · exact ⟨_, h, by rw [rotMatrix_neg, hinv]⟩

/-! ### C40 and C41 -/

theorem dot_neg_right (p q : Quat ℝ) : dot p q.neg = -dot p q := by simp only [dot, neg]; ring
theorem dot_neg_left (p q : Quat ℝ) : dot p.neg q = -dot p q := by simp only [dot, neg]; ring
theorem dot_comm (p q : Quat ℝ) : dot p q = dot q p := by simp only [dot]; ring

theorem abs_dot_make (p : Quat ℝ) (b : Bool) (q : Quat ℝ) : |dot p (make b q)| = |dot p q| := by
  rcases make_cases b q with ⟨h, -⟩ | ⟨h, -⟩ <;> rw [h]
  rw [dot_neg_right, abs_neg]

theorem abs_dot_mul (p s r : Quat ℝ) : |dot p (mul s r)| = |dot p (mulRaw s r)| := abs_dot_make _ _ _

/-- Cauchy and Schwarz. -/
theorem abs_dot_le_one {p q : Quat ℝ} (hp : p.IsUnit) (hq : q.IsUnit) : |dot p q| ≤ 1 := by
  rw [isUnit_iff] at hp hq
  rw [abs_le]
  have h1 : 0 ≤ dot ⟨p.q0 + q.q0, p.q1 + q.q1, p.q2 + q.q2, p.q3 + q.q3⟩
      ⟨p.q0 + q.q0, p.q1 + q.q1, p.q2 + q.q2, p.q3 + q.q3⟩ := by
    simp only [dot]
    nlinarith [mul_self_nonneg (p.q0 + q.q0), mul_self_nonneg (p.q1 + q.q1),
      mul_self_nonneg (p.q2 + q.q2), mul_self_nonneg (p.q3 + q.q3)]
  have h2 : 0 ≤ dot ⟨p.q0 - q.q0, p.q1 - q.q1, p.q2 - q.q2, p.q3 - q.q3⟩
      ⟨p.q0 - q.q0, p.q1 - q.q1, p.q2 - q.q2, p.q3 - q.q3⟩ := by
    simp only [dot]
    nlinarith [mul_self_nonneg (p.q0 - q.q0), mul_self_nonneg (p.q1 - q.q1),
      mul_self_nonneg (p.q2 - q.q2), mul_self_nonneg (p.q3 - q.q3)]
  simp only [dot] at *
  constructor <;> nlinarith

theorem eq_of_dot_one {p q : Quat ℝ} (hp : p.IsUnit) (hq : q.IsUnit) (h : dot p q = 1) : p = q := by
  rw [isUnit_iff] at hp hq
  simp only [dot] at *
  have : (p.q0 - q.q0) ^ 2 + (p.q1 - q.q1) ^ 2 + (p.q2 - q.q2) ^ 2 + (p.q3 - q.q3) ^ 2 = 0 := by
    nlinarith
  ext <;> nlinarith [sq_nonneg (p.q0 - q.q0), sq_nonneg (p.q1 - q.q1), sq_nonneg (p.q2 - q.q2),
    sq_nonneg (p.q3 - q.q3)]

theorem abs_dot_one_iff {p q : Quat ℝ} (hp : p.IsUnit) (hq : q.IsUnit) :
    |dot p q| = 1 ↔ p = q ∨ p = q.neg := by
  constructor
  · intro h
    rcases (abs_eq zero_le_one).1 h with e | e
    · exact .inl (eq_of_dot_one hp hq e)
    · refine .inr (eq_of_dot_one hp (isUnit_neg.2 hq) ?_)
      rw [dot_neg_right, e, neg_neg]
  · rintro (rfl | h)
    · rw [(isUnit_iff _).1 hp, abs_one]
    · rw [h, dot_neg_left, (isUnit_iff _).1 hq, abs_neg, abs_one]

/-- The loop of `mis_ori` finds the largest overlap, starting from `st`. -/
theorem misOri_fold (p r : Quat ℝ) (syms : List (Quat ℝ)) (st : ℝ × Option (Quat ℝ)) :
    let out := syms.foldl (misOriStep p r) st
    st.1 ≤ out.1 ∧ (∀ s ∈ syms, |dot p (mul s r)| ≤ out.1) ∧
    (out = st ∨ ∃ s ∈ syms, out = (|dot p (mul s r)|, some (mul s r)) ∧ st.1 < out.1) := by
  induction syms generalizing st with
  | nil => simp
  | cons s t ih =>
    simp only [List.foldl_cons]
    obtain ⟨h1, h2, h3⟩ := ih (misOriStep p r st s)
    have hst : st.1 ≤ (misOriStep p r st s).1 ∧ |dot p (mul s r)| ≤ (misOriStep p r st s).1 := by
      simp only [misOriStep]; split <;> constructor <;> simp_all <;> linarith
    refine ⟨hst.1.trans h1, ?_, ?_⟩
    · intro u hu
      rcases List.mem_cons.1 hu with rfl | hu
      · exact hst.2.trans h1
      · exact h2 u hu
    · rcases h3 with h3 | ⟨u, hu, h3, h4⟩
      · rw [h3]
        simp only [misOriStep]
        split
        · rename_i h
          exact .inr ⟨s, List.mem_cons_self, rfl, h⟩
        · exact .inl rfl
      · exact .inr ⟨u, List.mem_cons_of_mem _ hu, h3, hst.1.trans_lt h4⟩

theorem misOri_ge (syms : List (Quat ℝ)) (p r : Quat ℝ) (s : Quat ℝ) (hs : s ∈ syms) :
    |dot p (mulRaw s r)| ≤ misOri syms p r := by
  rw [← abs_dot_mul]; exact (misOri_fold p r syms (0, none)).2.1 s hs

theorem sum_sq_half (p r : Quat ℝ) (hp : p.IsUnit) (hr : r.IsUnit) :
    dot p (mulRaw ⟨1, 0, 0, 0⟩ r) ^ 2 + dot p (mulRaw ⟨0, 1, 0, 0⟩ r) ^ 2 +
    dot p (mulRaw ⟨0, 0, 1, 0⟩ r) ^ 2 + dot p (mulRaw ⟨0, 0, 0, 1⟩ r) ^ 2 = 1 := by
  rw [isUnit_iff] at hp hr
  have : dot p p * dot r r = 1 := by rw [hp, hr, one_mul]
  refine Eq.trans ?_ this
  simp only [dot, mulRaw]; ring

theorem head_mem {l : List (Quat ℝ)} (h : SymTable l) : (⟨1, 0, 0, 0⟩ : Quat ℝ) ∈ l :=
  List.mem_of_getElem? h.head

theorem misOri_half {l : List (Quat ℝ)} (hl : SymTable l) (p r : Quat ℝ) (hp : p.IsUnit)
    (hr : r.IsUnit) : 1 / 2 ≤ misOri l p r := by
  by_contra hcon
  push Not at hcon
  have h0 := misOri_ge l p r _ (head_mem hl)
  have h1 := misOri_ge l p r _ hl.half.1
  have h2 := misOri_ge l p r _ hl.half.2.1
  have h3 := misOri_ge l p r _ hl.half.2.2
  have hs := sum_sq_half p r hp hr
  have sq : ∀ x : ℝ, |x| ≤ misOri l p r → x ^ 2 < 1 / 4 := by
    intro x hx
    have : |x| < 1 / 2 := lt_of_le_of_lt hx hcon
    rw [← sq_abs]
    nlinarith [abs_nonneg x]
  linarith [sq _ h0, sq _ h1, sq _ h2, sq _ h3]

/-- The result of the loop for unit orientations. -/
theorem misOri_found {l : List (Quat ℝ)} (hl : SymTable l) (p r : Quat ℝ) (hp : p.IsUnit)
    (hr : r.IsUnit) : ∃ s ∈ l, misOriLoop l p r = (|dot p (mul s r)|, some (mul s r)) := by
  have h := (misOri_fold p r l (0, none)).2.2
  rcases h with h | ⟨s, hs, h, -⟩
  · have := misOri_half hl p r hp hr
    rw [misOri, misOriLoop, h] at this
    norm_num at this
  · exact ⟨s, hs, h⟩

/-- **C41.** For unit orientations the reported overlap is at least one half (an angle of at most
120 degrees), so a variant is always returned; it is a symmetric equivalent of the second
orientation and has exactly the reported overlap, which no equivalent exceeds. -/
theorem C41_variant (g : SymGroup) (p r : Quat ℝ) (hp : p.IsUnit) (hr : r.IsUnit) :
    1 / 2 ≤ misOri (symEqv g) p r ∧
    (∃ s ∈ symEqv g, misOriQuat (symEqv g) p r = .ok (mul s r) ∧
      misOri (symEqv g) p r = |dot p (mul s r)|) ∧
    ∀ s ∈ symEqv g, |dot p (mul s r)| ≤ misOri (symEqv g) p r := by
  have hl := symEqv_table g
  refine ⟨misOri_half hl p r hp hr, ?_, ?_⟩
  · obtain ⟨s, hs, h⟩ := misOri_found hl p r hp hr
    refine ⟨s, hs, ?_, ?_⟩
    · rw [misOriQuat, h]
    · rw [misOri, h]
  · intro s hs
    rw [abs_dot_mul]; exact misOri_ge _ _ _ _ hs

/-- The overlap is the greatest element of the set of overlaps. -/
theorem misOri_greatest {l : List (Quat ℝ)} (hl : SymTable l) (p r : Quat ℝ) (hp : p.IsUnit)
    (hr : r.IsUnit) : IsGreatest {c | ∃ s ∈ l, c = |dot p (mulRaw s r)|} (misOri l p r) := by
  constructor
  · obtain ⟨s, hs, h⟩ := misOri_found hl p r hp hr
    exact ⟨s, hs, by rw [misOri, h, ← abs_dot_mul]⟩
  · rintro c ⟨s, hs, rfl⟩
    exact misOri_ge _ _ _ _ hs

theorem dot_conj_left (s p r : Quat ℝ) : dot (mulRaw s p) r = dot p (mulRaw (conjRaw s) r) := by
  simp only [dot, mulRaw, conjRaw]; ring

theorem mulRaw_assoc (p q r : Quat ℝ) : mulRaw (mulRaw p q) r = mulRaw p (mulRaw q r) := by
  ext <;> simp only [mulRaw] <;> ring

theorem neg_mulRaw (p q : Quat ℝ) : mulRaw p.neg q = (mulRaw p q).neg := by
  ext <;> simp only [mulRaw, neg] <;> ring

theorem mulRaw_neg' (p q : Quat ℝ) : mulRaw p q.neg = (mulRaw p q).neg := by
  ext <;> simp only [mulRaw, neg] <;> ring

theorem mem_of_signed {l : List (Quat ℝ)} {u : Quat ℝ} (h : u ∈ l ∨ u.neg ∈ l) (p r : Quat ℝ) :
    ∃ v ∈ l, |dot p (mulRaw v r)| = |dot p (mulRaw u r)| := by
  rcases h with h | h
  · exact ⟨_, h, rfl⟩
  · exact ⟨_, h, by rw [neg_mulRaw, dot_neg_right, abs_neg]⟩

theorem misOri_le {l : List (Quat ℝ)} (hl : SymTable l) (p r p' r' : Quat ℝ) (hp : p.IsUnit)
    (hr : r.IsUnit)
    (h : ∀ s ∈ l, ∃ v ∈ l, |dot p (mulRaw s r)| = |dot p' (mulRaw v r')|) :
    misOri l p r ≤ misOri l p' r' := by
  obtain ⟨s, hs, e⟩ := (misOri_greatest hl p r hp hr).1
  obtain ⟨v, hv, e'⟩ := h s hs
  rw [e, e']
  exact misOri_ge _ _ _ _ hv

theorem misOri_symm_le {l : List (Quat ℝ)} (hl : SymTable l) (p r : Quat ℝ) (hp : p.IsUnit)
    (hr : r.IsUnit) : misOri l p r ≤ misOri l r p := by
  apply misOri_le hl p r r p hp hr
  intro s hs
  obtain ⟨v, hv, e⟩ := mem_of_signed (hl.conj s hs) r p
  refine ⟨v, hv, ?_⟩
  rw [e, dot_comm p, dot_conj_left, ]

theorem misOri_symm {l : List (Quat ℝ)} (hl : SymTable l) (p r : Quat ℝ) (hp : p.IsUnit)
    (hr : r.IsUnit) : misOri l p r = misOri l r p :=
  le_antisymm (misOri_symm_le hl p r hp hr) (misOri_symm_le hl r p hr hp)

theorem conjRaw_mul_cancel {t : Quat ℝ} (ht : t.IsUnit) (r : Quat ℝ) :
    mulRaw (conjRaw t) (mulRaw t r) = r := by
  simp only [Quat.IsUnit] at ht
  ext <;> simp only [mulRaw, conjRaw]
  · linear_combination r.q0 * ht
  · linear_combination r.q1 * ht
  · linear_combination r.q2 * ht
  · linear_combination r.q3 * ht

theorem misOri_make_right (p r : Quat ℝ) (s : Quat ℝ) :
    |dot p (mulRaw s (make false r))| = |dot p (mulRaw s r)| := by
  rcases make_cases false r with ⟨h, -⟩ | ⟨h, -⟩ <;> rw [h]
  rw [mulRaw_neg', dot_neg_right, abs_neg]

theorem misOri_variant {l : List (Quat ℝ)} (hl : SymTable l) (p r t : Quat ℝ) (hp : p.IsUnit)
    (hr : r.IsUnit) (ht : t ∈ l) : misOri l p (mul t r) = misOri l p r := by
  have htr : (mul t r).IsUnit := isUnit_mul (hl.unit t ht) hr
  apply le_antisymm
  · apply misOri_le hl _ _ _ _ hp htr
    intro s hs
    obtain ⟨v, hv, e⟩ := mem_of_signed (hl.mul s hs t ht) p r
    refine ⟨v, hv, ?_⟩
    rw [e, mul, misOri_make_right, mulRaw_assoc]
  · apply misOri_le hl _ _ _ _ hp hr
    intro s hs
    obtain ⟨c, hc⟩ : ∃ c ∈ l, c = conjRaw t ∨ c = (conjRaw t).neg := by
      rcases hl.conj t ht with h | h
      · exact ⟨_, h, .inl rfl⟩
      · exact ⟨_, h, .inr rfl⟩
    obtain ⟨v, hv, e⟩ := mem_of_signed (hl.mul s hs c hc.1) p (mul t r)
    refine ⟨v, hv, ?_⟩
    rw [e, mul, misOri_make_right, mulRaw_assoc]
    rcases hc.2 with rfl | rfl
    · rw [conjRaw_mul_cancel (hl.unit t ht)]
    · rw [neg_mulRaw, conjRaw_mul_cancel (hl.unit t ht), mulRaw_neg', dot_neg_right, abs_neg]

/-- **C40 (range).** As a cosine the misorientation of unit orientations is between zero and one,
and it is one exactly for symmetrically equivalent orientations. -/
theorem C40_range (g : SymGroup) (p r : Quat ℝ) (hp : p.IsUnit) (hr : r.IsUnit) :
    0 ≤ misOri (symEqv g) p r ∧ misOri (symEqv g) p r ≤ 1 ∧
    (misOri (symEqv g) p r = 1 ↔ ∃ s ∈ symEqv g, p = mul s r ∨ p = (mul s r).neg) := by
  have hl := symEqv_table g
  have hle : ∀ s ∈ symEqv g, |dot p (mul s r)| ≤ 1 := fun s hs =>
    abs_dot_le_one hp (isUnit_mul (hl.unit s hs) hr)
  obtain ⟨s, hs, hf⟩ := misOri_found hl p r hp hr
  have hv : misOri (symEqv g) p r = |dot p (mul s r)| := by rw [misOri, hf]
  refine ⟨by rw [hv]; exact abs_nonneg _, by rw [hv]; exact hle s hs, ?_, ?_⟩
  · intro h
    exact ⟨s, hs, (abs_dot_one_iff hp (isUnit_mul (hl.unit s hs) hr)).1 (hv ▸ h)⟩
  · rintro ⟨u, hu, h⟩
    have h1 := (abs_dot_one_iff hp (isUnit_mul (hl.unit u hu) hr)).2 h
    apply le_antisymm
    · rw [hv]; exact hle s hs
    · rw [← h1]; exact (C41_variant g p r hp hr).2.2 u hu

/-- **C40 (symmetry).** Misorientation is symmetric. -/
theorem C40_symmetric (g : SymGroup) (p r : Quat ℝ) (hp : p.IsUnit) (hr : r.IsUnit) :
    misOri (symEqv g) p r = misOri (symEqv g) r p := misOri_symm (symEqv_table g) p r hp hr

/-- **C40 (variants).** Replacing either orientation by a symmetric equivalent changes nothing. -/
theorem C40_variants (g : SymGroup) (p r : Quat ℝ) (hp : p.IsUnit) (hr : r.IsUnit)
    (s t : Quat ℝ) (hs : s ∈ symEqv g) (ht : t ∈ symEqv g) :
    misOri (symEqv g) (mul s p) (mul t r) = misOri (symEqv g) p r := by
  have hl := symEqv_table g
  have hsp : (mul s p).IsUnit := isUnit_mul (hl.unit s hs) hp
  rw [misOri_variant hl _ _ _ hsp hr ht, misOri_symm hl _ _ hsp hr, misOri_variant hl _ _ _ hr hp hs,
    misOri_symm hl _ _ hr hp]

end DefDAP
