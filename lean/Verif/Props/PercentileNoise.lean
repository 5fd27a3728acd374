import Verif.Props.StatsTable

/-! C168: percentiles of noisy, rescaled and wrong data. -/

namespace DefDAP

/-- Two maps with data at the same points, the values in a relation. -/
def Spec.SamePoints (R : ℝ → ℝ → Prop) (l l' : List (Option ℝ)) : Prop := List.Forall₂ (Option.Rel R) l l'

/-- Two maps with data at the same points, the values different at no more than a number of them. -/
inductive Spec.Wrong : Nat → List (Option ℝ) → List (Option ℝ) → Prop
  | nil : Spec.Wrong 0 [] []
  | same {j : Nat} {l l' : List (Option ℝ)} (a : Option ℝ) : Spec.Wrong j l l' → Spec.Wrong j (a :: l) (a :: l')
  | other {j : Nat} {l l' : List (Option ℝ)} (a b : ℝ) : Spec.Wrong j l l' → Spec.Wrong (j + 1) (some a :: l) (some b :: l')

open Spec

theorem present_forall2 {R : ℝ → ℝ → Prop} {l l' : List (Option ℝ)} (h : SamePoints R l l') :
    List.Forall₂ R (present l) (present l') := by
  induction h with
  | nil => exact .nil
  | cons h1 _ ih =>
    cases h1 with
    | some h => exact .cons h ih
    | none => exact ih

theorem present_rel {l l' : List (Option ℝ)} {p a b : ℝ}
    (ha : nanPercentile l p = .ok (some a)) (hb : nanPercentile l' p = .ok (some b)) :
    (0 ≤ p ∧ p ≤ 100) ∧ present l ≠ [] ∧ present l' ≠ [] := by
  have hp : 0 ≤ p ∧ p ≤ 100 := by
    unfold nanPercentile at ha
    by_cases h1 : p < 0 ∨ 100 < p
    · rw [if_pos h1] at ha; cases ha
    · push Not at h1
      exact h1
  refine ⟨hp, fun h => ?_, fun h => ?_⟩
  · rw [nanPercentile_empty hp.1 hp.2 h] at ha; cases ha
  · rw [nanPercentile_empty hp.1 hp.2 h] at hb; cases hb

theorem getD_le_of_count {s : List ℝ} (hs : s.Pairwise (· ≤ ·)) {k : Nat} {r : ℝ}
    (hk : k < (s.filter fun v => decide (v ≤ r)).length) : s.getD k 0 ≤ r := by
  by_contra hc
  rw [not_le] at hc
  have hlen : (s.filter fun v => decide (v ≤ r)).length ≤ s.length := List.length_filter_le _ _
  have h1 := count_ge_sorted hs (k := k) (by omega) (le_refl (s.getD k 0))
  have h2 := List.length_eq_length_filter_add (l := s) (fun v => decide (v ≤ r))
  have h3 : (s.filter fun v => decide (s.getD k 0 ≤ v)).length ≤ (s.filter fun v => !decide (v ≤ r)).length := by
    rw [← List.countP_eq_length_filter, ← List.countP_eq_length_filter]
    refine List.countP_mono_left fun v _ hv => ?_
    simp only [decide_eq_true_eq] at hv
    simp only [Bool.not_eq_true', decide_eq_false_iff_not, not_le]
    exact lt_of_lt_of_le hc hv
  omega

theorem kth_shift {l l' : List ℝ} {j : Nat} (hlen : l.length = l'.length)
    (hc : ∀ r, (l'.filter fun v => decide (v ≤ r)).length ≤ (l.filter fun v => decide (v ≤ r)).length + j) {k : Nat}
    (hk : k + j < l.length) : (sortReal l).getD k 0 ≤ (sortReal l').getD (k + j) 0 := by
  have h1 := count_le_sorted (sortReal_sorted l') (k := k + j) (by rw [(sortReal_perm l').length_eq]; omega)
    (le_refl _)
  rw [perm_filter_length (sortReal_perm l')] at h1
  have h2 := hc ((sortReal l').getD (k + j) 0)
  refine getD_le_of_count (sortReal_sorted l) ?_
  rw [perm_filter_length (sortReal_perm l)]
  omega

theorem lerp_shift {s s' : List ℝ} {j : Nat} (hlen : s.length = s'.length)
    (hk : ∀ k, k + j < s.length → s.getD k 0 ≤ s'.getD (k + j) 0) {h : ℝ} (h0 : 0 ≤ h)
    (h1 : h + j ≤ (s.length - 1 : ℕ)) (hne : 0 < s.length) : lerpAt s h ≤ lerpAt s' (h + j) := by
  unfold lerpAt
  rw [Nat.floor_add_natCast h0, ← hlen]
  have hm : ⌊h⌋₊ + j ≤ s.length - 1 := by
    have := Nat.floor_le_floor h1
    rwa [Nat.floor_natCast, Nat.floor_add_natCast h0] at this
  have hf0 : 0 ≤ h - ⌊h⌋₊ := by have := Nat.floor_le h0; linarith
  have hf1 : h - ⌊h⌋₊ ≤ 1 := by have := Nat.lt_floor_add_one h; linarith
  have e : h + j - ((⌊h⌋₊ + j : ℕ) : ℝ) = h - ⌊h⌋₊ := by push_cast; ring
  rw [e]
  have k1 := hk ⌊h⌋₊ (by omega)
  rcases Nat.lt_or_ge (⌊h⌋₊ + j) (s.length - 1) with hlt | hge
  · have k2 := hk (⌊h⌋₊ + 1) (by omega)
    rw [Nat.min_eq_left (by omega), Nat.min_eq_left (by omega), show ⌊h⌋₊ + j + 1 = ⌊h⌋₊ + 1 + j by omega]
    have a1 := mul_le_mul_of_nonneg_left k1 (show 0 ≤ 1 - (h - ⌊h⌋₊) by linarith)
    have a2 := mul_le_mul_of_nonneg_left k2 hf0
    linarith
  · have hz : h - ⌊h⌋₊ = 0 := by
      have hj : (s.length - 1 : ℕ) = ⌊h⌋₊ + j := by omega
      rw [hj] at h1
      push_cast at h1
      linarith
    rw [hz, zero_mul, zero_mul, add_zero, add_zero]
    exact k1

theorem percentile_shift {l l' : List (Option ℝ)} {j : Nat} (hlen : (present l).length = (present l').length)
    (hc : ∀ r, ((present l').filter fun v => decide (v ≤ r)).length
      ≤ ((present l).filter fun v => decide (v ≤ r)).length + j) {p q a b : ℝ} (hp : 0 ≤ p) (hq : q ≤ 100) (hpq : p ≤ q)
    (hj : j ≤ (q - p) / 100 * ((present l).length - 1 : ℕ)) (hne : present l ≠ []) (hne' : present l' ≠ [])
    (ha : nanPercentile l p = .ok (some a)) (hb : nanPercentile l' q = .ok (some b)) : a ≤ b := by
  rw [nanPercentile_ok hp (le_trans hpq hq) hne] at ha
  rw [nanPercentile_ok (le_trans hp hpq) hq hne'] at hb
  cases ha
  cases hb
  have r1 := pos_range (l := present l) hp (le_trans hpq hq)
  have r2 := pos_range (l := present l') (le_trans hp hpq) hq
  have l1 := (sortReal_perm (present l)).length_eq
  have l2 := (sortReal_perm (present l')).length_eq
  have hpos : 0 < (present l).length := List.length_pos_iff.2 hne
  have hstep : p / 100 * ((present l).length - 1 : ℕ) + j ≤ q / 100 * ((present l').length - 1 : ℕ) := by
    rw [← hlen]
    have : q / 100 * (((present l).length - 1 : ℕ) : ℝ) - p / 100 * ((present l).length - 1 : ℕ)
      = (q - p) / 100 * ((present l).length - 1 : ℕ) := by ring
    linarith
  have h2 : p / 100 * ((present l).length - 1 : ℕ) + j ≤ (((sortReal (present l)).length - 1 : ℕ) : ℝ) := by
    refine le_trans hstep ?_
    have r3 := r2.2
    rw [l2] at r3
    rw [l1, hlen]
    exact r3
  refine le_trans (lerp_shift (s' := sortReal (present l')) (j := j) (by omega) (fun k hk => ?_) r1.1 h2 (by omega)) ?_
  · exact kth_shift hlen hc (by omega)
  · exact lerpAt_mono (sortReal_sorted _) (by linarith [r1.1, (Nat.cast_nonneg j : (0 : ℝ) ≤ (j : ℝ))]) hstep r2.2
      (sortReal_ne hne')

/-- **C168**: with larger values at every point every percentile is larger. -/
theorem C168_larger (l l' : List (Option ℝ)) (h : SamePoints (· ≤ ·) l l') (p a b : ℝ)
    (ha : nanPercentile l p = .ok (some a)) (hb : nanPercentile l' p = .ok (some b)) : a ≤ b := by
  have hf := present_forall2 h
  have hlen := hf.length_eq
  obtain ⟨hp, hne, hne'⟩ := present_rel ha hb
  refine percentile_shift (j := 0) hlen (fun r => ?_) hp.1 hp.2 le_rfl (by simp) hne hne' ha hb
  rw [Nat.add_zero]
  clear ha hb hne hne' hlen
  generalize present l = s at hf ⊢
  generalize present l' = s' at hf ⊢
  induction hf with
  | nil => simp
  | @cons x y _ _ h1 _ ih =>
    rw [List.filter_cons, List.filter_cons]
    by_cases h2 : y ≤ r
    · have h3 : x ≤ r := le_trans h1 h2
      simp only [h2, h3, decide_true, if_true, List.length_cons]
      omega
    · simp only [h2, decide_false, Bool.false_eq_true, if_false]
      split_ifs
      · rw [List.length_cons]; omega
      · exact ih

theorem present_map (g : ℝ → ℝ) (l : List (Option ℝ)) : present (l.map (Option.map g)) = (present l).map g := by
  unfold present
  rw [List.filterMap_map, List.map_filterMap]
  rfl

theorem sortReal_map {c d : ℝ} (hc : 0 ≤ c) (l : List ℝ) :
    sortReal (l.map fun v => c * v + d) = (sortReal l).map fun v => c * v + d := by
  refine List.Perm.eq_of_pairwise (fun a b _ _ h1 h2 => le_antisymm h1 h2) (sortReal_sorted _) ?_
    ((sortReal_perm _).trans ((sortReal_perm l).symm.map _))
  rw [List.pairwise_map]
  refine (sortReal_sorted l).imp fun h => ?_
  have := mul_le_mul_of_nonneg_left h hc
  linarith

theorem lerpAt_map {s : List ℝ} {c d h : ℝ} (h1 : h ≤ (s.length - 1 : ℕ)) (hne : 0 < s.length) :
    lerpAt (s.map fun v => c * v + d) h = c * lerpAt s h + d := by
  have hk : ⌊h⌋₊ ≤ s.length - 1 := by
    have := Nat.floor_le_floor h1
    rwa [Nat.floor_natCast] at this
  have hget : ∀ i, i < s.length → (s.map fun v => c * v + d).getD i 0 = c * s.getD i 0 + d := by
    intro i hi
    rw [List.getD_eq_getElem _ _ (by rw [List.length_map]; exact hi), List.getElem_map, List.getD_eq_getElem _ _ hi]
  unfold lerpAt
  rw [List.length_map, hget _ (by omega), hget _ (by omega)]
  ring

/-- **C168**: in other units, `c` times the values and moved by `d`, the percentiles are the same in the other
units. -/
theorem C168_units (l : List (Option ℝ)) (c d : ℝ) (hc : 0 ≤ c) (p a : ℝ) (ha : nanPercentile l p = .ok (some a)) :
    nanPercentile (l.map (Option.map fun v => c * v + d)) p = .ok (some (c * a + d)) := by
  obtain ⟨hp, hne, -⟩ := present_rel ha ha
  have hlen : (present (l.map (Option.map fun v => c * v + d))).length = (present l).length := by
    rw [present_map, List.length_map]
  have hne' : present (l.map (Option.map fun v => c * v + d)) ≠ [] := by
    intro h0
    rw [h0] at hlen
    exact hne (List.length_eq_zero_iff.1 hlen.symm)
  rw [nanPercentile_ok hp.1 hp.2 hne] at ha
  rw [nanPercentile_ok hp.1 hp.2 hne', hlen, present_map, sortReal_map hc]
  cases ha
  have r1 := pos_range (l := present l) hp.1 hp.2
  rw [lerpAt_map r1.2 (List.length_pos_iff.2 (sortReal_ne hne))]

/-- **C168**: with noise of at most `ε` at every point the percentiles are at most `ε` off. -/
theorem C168_noise (l l' : List (Option ℝ)) (ε : ℝ) (h : SamePoints (fun v v' => |v - v'| ≤ ε) l l') (p a b : ℝ)
    (ha : nanPercentile l p = .ok (some a)) (hb : nanPercentile l' p = .ok (some b)) : |a - b| ≤ ε := by
  have ha' := C168_units l 1 ε zero_le_one p a ha
  have hb' := C168_units l' 1 ε zero_le_one p b hb
  have key : ∀ {m m' : List (Option ℝ)}, SamePoints (fun v v' => v ≤ v' + ε) m m' →
      SamePoints (· ≤ ·) m (m'.map (Option.map fun v => 1 * v + ε)) := by
    intro m m' hm
    induction hm with
    | nil => exact .nil
    | cons h1 _ ih =>
      refine .cons ?_ ih
      cases h1 with
      | some h => exact .some (by linarith)
      | none => exact .none
  have h1 : SamePoints (fun v v' => v ≤ v' + ε) l l' := h.imp fun x y hxy => by
    cases hxy with
    | some h => exact .some (by linarith [(abs_le.1 h).2])
    | none => exact .none
  have h2 : SamePoints (fun v v' => v ≤ v' + ε) l' l := h.flip.imp fun x y hxy => by
    cases hxy with
    | some h => exact .some (by linarith [(abs_le.1 h).1])
    | none => exact .none
  have k1 := C168_larger _ _ (key h1) p _ _ ha hb'
  have k2 := C168_larger _ _ (key h2) p _ _ hb ha'
  rw [abs_le]
  constructor <;> linarith

theorem wrong_symm {j : Nat} {l l' : List (Option ℝ)} (h : Wrong j l l') : Wrong j l' l := by
  induction h with
  | nil => exact .nil
  | same a _ ih => exact .same a ih
  | other a b _ ih => exact .other b a ih

theorem wrong_length {j : Nat} {l l' : List (Option ℝ)} (h : Wrong j l l') : (present l).length = (present l').length := by
  induction h with
  | nil => rfl
  | same a _ ih =>
    cases a with
    | none => exact ih
    | some v => exact congrArg (· + 1) ih
  | other a b _ ih => exact congrArg (· + 1) ih

theorem wrong_count {j : Nat} {l l' : List (Option ℝ)} (h : Wrong j l l') (r : ℝ) :
    ((present l').filter fun v => decide (v ≤ r)).length ≤ ((present l).filter fun v => decide (v ≤ r)).length + j := by
  induction h with
  | nil => simp [present]
  | @same j l l' a _ ih =>
    cases a with
    | none => exact ih
    | some v =>
      show ((v :: present l').filter _).length ≤ ((v :: present l).filter _).length + j
      rw [List.filter_cons, List.filter_cons]
      split_ifs
      · rw [List.length_cons, List.length_cons]; omega
      · exact ih
  | @other j l l' a b _ ih =>
    show ((b :: present l').filter _).length ≤ ((a :: present l).filter _).length + (j + 1)
    rw [List.filter_cons, List.filter_cons]
    split_ifs <;> (try simp only [List.length_cons]) <;> omega

/-- **C168**: if the values at `j` of the points are wrong, by whatever amount, each percentile is between those of the
right values that are lower and higher by `100 j / (n - 1)`, `n` the number of points with data. -/
theorem C168_wrong (l l' : List (Option ℝ)) (j : Nat) (h : Wrong j l l') (o p q : ℝ) (ho : 0 ≤ o) (hop : o ≤ p) (hpq : p ≤ q)
    (hq : q ≤ 100) (hlow : j ≤ (p - o) / 100 * ((present l).length - 1 : ℕ))
    (hhigh : j ≤ (q - p) / 100 * ((present l).length - 1 : ℕ)) (lo b hi : ℝ) (hl : nanPercentile l o = .ok (some lo))
    (hb : nanPercentile l' p = .ok (some b)) (hh : nanPercentile l q = .ok (some hi)) : lo ≤ b ∧ b ≤ hi := by
  have hlen := wrong_length h
  obtain ⟨-, hne, -⟩ := present_rel hl hl
  obtain ⟨-, hne', -⟩ := present_rel hb hb
  constructor
  · exact percentile_shift hlen (wrong_count h) ho (le_trans hpq hq) hop hlow hne hne' hl hb
  · exact percentile_shift hlen.symm (wrong_count (wrong_symm h)) (le_trans ho hop) hq hpq (by rw [← hlen]; exact hhigh)
      hne' hne hb hh

/-- Points with data and noise; two of five values wrong; the median between the least and the greatest. -/
example : SamePoints (fun v v' => |v - v'| ≤ 1) [some 1, none, some 3] [some 2, none, some (5 / 2)] ∧
    Wrong 2 [some 1, none, some 3, some 4, some 5, some 9] [some 1, none, some 3, some 1000, some 5, some (-7)] ∧
    ((2 : Nat) : ℝ) ≤ ((50 : ℝ) - 0) / 100 *
      ((present [some 1, none, some 3, some 4, some 5, some 9]).length - 1 : ℕ) := by
  refine ⟨.cons (.some ?_) (.cons .none (.cons (.some ?_) .nil)), ?_, ?_⟩
  · norm_num
  · norm_num [abs_le]
  · exact .same _ (.same _ (.same _ (.other _ _ (.same _ (.other _ _ .nil)))))
  · simp [present]; norm_num

end DefDAP
