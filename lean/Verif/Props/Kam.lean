import Verif.Model.EbsdMap
import Verif.Props.Average
import Verif.Props.Deformation
import Mathlib.Tactic.Ring
import Mathlib.Tactic.Linarith

/-! C63: kernel average misorientation. -/

namespace DefDAP

open Quat

/-- The neighbours of position `i` on a line of `n` points. -/
def Spec.lineNeighbours (n : Nat) (i : Int) : List Int :=
  [i - 1, i + 1].filter fun k => 0 ≤ k ∧ k < n

/-- Mean of the values at the neighbours. -/
noncomputable def Spec.neighbourMean (n : Nat) (i : Int) (v : Int → ℝ) : ℝ :=
  ((Spec.lineNeighbours n i).map v).sum / (Spec.lineNeighbours n i).length

/-- The overlap of two orientations: the cosine of half of the angle between them. -/
noncomputable def Spec.overlap (p r : Quat ℝ) : ℝ := |p.q0 * r.q0 + p.q1 * r.q1 + p.q2 * r.q2 + p.q3 * r.q3|

theorem overlap_eq (p r : Quat ℝ) : Spec.overlap p r = |dot p r| := rfl

theorem neighbours_first (n : Nat) (hn : 2 ≤ n) : Spec.lineNeighbours n 0 = [1] := by
  have h1 : ¬ (0 ≤ (0 : Int) - 1 ∧ (0 : Int) - 1 < n) := by omega
  have h2 : 0 ≤ (0 : Int) + 1 ∧ (0 : Int) + 1 < n := by omega
  rw [Spec.lineNeighbours, List.filter_cons_of_neg (by simpa using h1),
    List.filter_cons_of_pos (by simpa using h2), List.filter_nil]
  rfl

theorem neighbours_last (n : Nat) (hn : 2 ≤ n) (i : Int) (hi : i = (n : Int) - 1) :
    Spec.lineNeighbours n i = [i - 1] := by
  have h1 : 0 ≤ i - 1 ∧ i - 1 < n := by omega
  have h2 : ¬ (0 ≤ i + 1 ∧ i + 1 < n) := by omega
  rw [Spec.lineNeighbours, List.filter_cons_of_pos (by simpa using h1),
    List.filter_cons_of_neg (by simpa using h2), List.filter_nil]

theorem neighbours_mid (n : Nat) (i : Int) (h0 : 0 < i) (h1 : i < (n : Int) - 1) :
    Spec.lineNeighbours n i = [i - 1, i + 1] := by
  have h1 : 0 ≤ i - 1 ∧ i - 1 < n := by omega
  have h2 : 0 ≤ i + 1 ∧ i + 1 < n := by omega
  rw [Spec.lineNeighbours, List.filter_cons_of_pos (by simpa using h1),
    List.filter_cons_of_pos (by simpa using h2), List.filter_nil]

theorem kamLine_eq (n : Nat) (hn : 2 ≤ n) (f : Int → Quat ℝ) (i : Int) (h0 : 0 ≤ i) (h1 : i < n) :
    kamLine n f i = Spec.neighbourMean n i fun k => Spec.overlap (f i) (f k) := by
  unfold kamLine Spec.neighbourMean
  simp only [overlap_eq]
  split_ifs with a b
  · subst a
    simp [neighbours_first n hn]
  · have e4 : (n : Int) - 2 = i - 1 := by omega
    rw [← b, e4, neighbours_last n hn i b]
    simp
  · rw [neighbours_mid n i (by omega) (by omega)]
    simp
    ring

theorem mean_le_one (n : Nat) (hn : 2 ≤ n) (i : Int) (h0 : 0 ≤ i) (h1 : i < n) (v : Int → ℝ)
    (hv : ∀ k : Int, 0 ≤ k → k < n → v k ≤ 1) :
    Spec.neighbourMean n i v ≤ 1 ∧
    (Spec.neighbourMean n i v = 1 ↔ ∀ k ∈ Spec.lineNeighbours n i, v k = 1) := by
  unfold Spec.neighbourMean
  by_cases a : i = 0
  · subst a
    rw [neighbours_first n hn]
    simpa using hv 1 (by omega) (by omega)
  · by_cases b : i = (n : Int) - 1
    · rw [neighbours_last n hn i b]
      simpa using hv (i - 1) (by omega) (by omega)
    · rw [neighbours_mid n i (by omega) (by omega)]
      have va := hv (i - 1) (by omega) (by omega)
      have vb := hv (i + 1) (by omega) (by omega)
      simp only [List.map_cons, List.map_nil, List.sum_cons, List.sum_nil, List.length_cons,
        List.length_nil, List.mem_cons, List.not_mem_nil, or_false, forall_eq_or_imp, forall_eq]
      constructor
      · norm_num; linarith
      · norm_num
        constructor
        · intro h; constructor <;> linarith
        · rintro ⟨x, y⟩; rw [x, y]; norm_num

theorem mean_nonneg (n : Nat) (i : Int) (v : Int → ℝ) (hv : ∀ k, 0 ≤ v k) :
    0 ≤ Spec.neighbourMean n i v := by
  unfold Spec.neighbourMean
  refine div_nonneg (List.sum_nonneg ?_) (Nat.cast_nonneg _)
  intro x hx
  obtain ⟨k, -, rfl⟩ := List.mem_map.1 hx
  exact hv k

theorem clip1_le {x : ℝ} (h : x ≤ 1) : clip1 x = x := if_neg (not_lt.2 h)

/-- Every pixel of the map has a unit orientation. -/
def Spec.UnitMap (rows cols : Nat) (q : Int → Int → Quat ℝ) : Prop :=
  ∀ i j, Spec.InGrid rows cols i j → (q i j).IsUnit

/-- **C63** The value: twice the angle whose cosine is the average of the mean overlap with the
neighbours in the column and the mean overlap with the neighbours in the row. -/
theorem C63_value (rows cols : Nat) (hr : 2 ≤ rows) (hc : 2 ≤ cols) (q : Int → Int → Quat ℝ)
    (hu : Spec.UnitMap rows cols q) :
    ∃ kam, calcKam rows cols q = .ok kam ∧ ∀ i j, Spec.InGrid rows cols i j →
      kam i j = 2 * Real.arccos
        ((Spec.neighbourMean rows i (fun r => Spec.overlap (q i j) (q r j)) +
          Spec.neighbourMean cols j (fun c => Spec.overlap (q i j) (q i c))) / 2) := by
  refine ⟨_, by rw [calcKam, if_neg (by omega)], ?_⟩
  rintro i j ⟨h0, h1, h2, h3⟩
  have e1 := kamLine_eq rows hr (fun r => q r j) i h0 h1
  have e2 := kamLine_eq cols hc (fun c => q i c) j h2 h3
  have l1 := (mean_le_one rows hr i h0 h1 (fun r => Spec.overlap (q i j) (q r j)) (fun k a b =>
    abs_dot_le_one (hu _ _ ⟨h0, h1, h2, h3⟩) (hu _ _ ⟨a, b, h2, h3⟩))).1
  have l2 := (mean_le_one cols hc j h2 h3 (fun c => Spec.overlap (q i j) (q i c)) (fun k a b =>
    abs_dot_le_one (hu _ _ ⟨h0, h1, h2, h3⟩) (hu _ _ ⟨h0, h1, a, b⟩))).1
  rw [e1, e2, clip1_le l1, clip1_le (by linarith)]

/-- **C63** Maps with a single row or column have no kernel average: an `IndexError`. -/
theorem C63_small (rows cols : Nat) (q : Int → Int → Quat ℝ) (h : rows < 2 ∨ cols < 2) :
    calcKam rows cols q = .error .indexError := by
  rw [calcKam, if_pos h]

/-- **C63** The value lies between 0 and 180 degrees. -/
theorem C63_range (rows cols : Nat) (q : Int → Int → Quat ℝ) (kam : Int → Int → ℝ)
    (hk : calcKam rows cols q = .ok kam) (hu : Spec.UnitMap rows cols q) (i j : Int)
    (hm : Spec.InGrid rows cols i j) : 0 ≤ kam i j ∧ kam i j ≤ Real.pi := by
  have hs : ¬ (rows < 2 ∨ cols < 2) := by
    intro h; rw [C63_small _ _ _ h] at hk; cases hk
  obtain ⟨kam', hk', hv⟩ := C63_value rows cols (by omega) (by omega) q hu
  rw [hk] at hk'
  cases hk'
  rw [hv i j hm]
  have n1 := mean_nonneg rows i (fun r => Spec.overlap (q i j) (q r j)) fun _ => abs_nonneg _
  have n2 := mean_nonneg cols j (fun c => Spec.overlap (q i j) (q i c)) fun _ => abs_nonneg _
  refine ⟨mul_nonneg zero_le_two (Real.arccos_nonneg _), ?_⟩
  have := Real.arccos_le_pi_div_two.2 (div_nonneg (add_nonneg n1 n2) zero_le_two)
  linarith

/-- **C63** It is zero exactly if the pixel has the same orientation as its neighbours above,
below, left and right. -/
theorem C63_zero (rows cols : Nat) (q : Int → Int → Quat ℝ) (kam : Int → Int → ℝ)
    (hk : calcKam rows cols q = .ok kam) (hu : Spec.UnitMap rows cols q) (i j : Int)
    (hm : Spec.InGrid rows cols i j) :
    kam i j = 0 ↔ ∀ r c, Spec.InGrid rows cols r c → |r - i| + |c - j| = 1 →
      rotMatrix (q r c) = rotMatrix (q i j) := by
  have hs : ¬ (rows < 2 ∨ cols < 2) := by
    intro h; rw [C63_small _ _ _ h] at hk; cases hk
  obtain ⟨kam', hk', hv⟩ := C63_value rows cols (by omega) (by omega) q hu
  rw [hk] at hk'
  cases hk'
  obtain ⟨h0, h1, h2, h3⟩ := hm
  have m1 := mean_le_one rows (by omega) i h0 h1 (fun r => Spec.overlap (q i j) (q r j))
    (fun k a b => abs_dot_le_one (hu _ _ ⟨h0, h1, h2, h3⟩) (hu _ _ ⟨a, b, h2, h3⟩))
  have m2 := mean_le_one cols (by omega) j h2 h3 (fun c => Spec.overlap (q i j) (q i c))
    (fun k a b => abs_dot_le_one (hu _ _ ⟨h0, h1, h2, h3⟩) (hu _ _ ⟨h0, h1, a, b⟩))
  rw [hv i j ⟨h0, h1, h2, h3⟩]
  have key : ∀ r c, Spec.InGrid rows cols r c →
      (Spec.overlap (q i j) (q r c) = 1 ↔ rotMatrix (q r c) = rotMatrix (q i j)) := by
    intro r c hrc
    rw [overlap_eq, abs_dot_one_iff (hu _ _ ⟨h0, h1, h2, h3⟩) (hu _ _ hrc)]
    constructor
    · rintro (h | h)
      · rw [h]
      · rw [h, rotMatrix_neg]
    · intro h
      exact rotMatrix_inj (hu _ _ ⟨h0, h1, h2, h3⟩) (hu _ _ hrc) h.symm
  have e : (2 * Real.arccos
        ((Spec.neighbourMean rows i (fun r => Spec.overlap (q i j) (q r j)) +
          Spec.neighbourMean cols j (fun c => Spec.overlap (q i j) (q i c))) / 2) = 0) ↔
      (Spec.neighbourMean rows i (fun r => Spec.overlap (q i j) (q r j)) = 1 ∧
        Spec.neighbourMean cols j (fun c => Spec.overlap (q i j) (q i c)) = 1) := by
    rw [mul_eq_zero, or_iff_right two_ne_zero, Real.arccos_eq_zero]
    constructor
    · intro h; constructor <;> linarith [m1.1, m2.1]
    · rintro ⟨a, b⟩; rw [a, b]; norm_num
  rw [e, m1.2, m2.2]
  unfold Spec.lineNeighbours
  simp only [List.mem_filter, List.mem_cons, List.not_mem_nil, or_false, decide_eq_true_eq]
  constructor
  · rintro ⟨a, b⟩ r c hrc hd
    obtain ⟨r0, r1, c0, c1⟩ := hrc
    have : (c = j ∧ (r = i - 1 ∨ r = i + 1)) ∨ (r = i ∧ (c = j - 1 ∨ c = j + 1)) := by
      rcases abs_cases (r - i) with ⟨x, _⟩ | ⟨x, _⟩ <;> rcases abs_cases (c - j) with ⟨y, _⟩ | ⟨y, _⟩ <;>
        rw [x, y] at hd <;> omega
    rcases this with ⟨rfl, hx⟩ | ⟨rfl, hx⟩
    · exact (key _ _ ⟨r0, r1, c0, c1⟩).1 (a r ⟨hx, r0, r1⟩)
    · exact (key _ _ ⟨r0, r1, c0, c1⟩).1 (b c ⟨hx, c0, c1⟩)
  · intro h
    constructor
    · rintro k ⟨hx, a, b⟩
      refine (key _ _ ⟨a, b, h2, h3⟩).2 (h k j ⟨a, b, h2, h3⟩ ?_)
      rcases hx with rfl | rfl <;> simp
    · rintro k ⟨hx, a, b⟩
      refine (key _ _ ⟨h0, h1, a, b⟩).2 (h i k ⟨h0, h1, a, b⟩ ?_)
      rcases hx with rfl | rfl <;> simp

/-- **C63** It is zero everywhere on a map of one orientation. -/
theorem C63_uniform (rows cols : Nat) (hr : 2 ≤ rows) (hc : 2 ≤ cols) (p : Quat ℝ)
    (hp : p.IsUnit) :
    ∃ kam, calcKam rows cols (fun _ _ => p) = .ok kam ∧
      ∀ i j, Spec.InGrid rows cols i j → kam i j = 0 := by
  obtain ⟨kam, hk, -⟩ := C63_value rows cols hr hc (fun _ _ => p) fun _ _ _ => hp
  exact ⟨kam, hk, fun i j hm =>
    (C63_zero rows cols _ kam hk (fun _ _ _ => hp) i j hm).2 fun _ _ _ _ => rfl⟩

/-- **C63** It does not change if every orientation is combined with one rotation, on either side,
and with any choice of sign. -/
theorem C63_rotated (rows cols : Nat) (q q' : Int → Int → Quat ℝ) (t : Quat ℝ) (ht : t.IsUnit)
    (hu : Spec.UnitMap rows cols q) (hu' : Spec.UnitMap rows cols q')
    (hq : (∀ i j, Spec.InGrid rows cols i j →
        rotMatrix (q' i j) = rotMatrix (q i j) * rotMatrix t) ∨
      (∀ i j, Spec.InGrid rows cols i j → rotMatrix (q' i j) = rotMatrix t * rotMatrix (q i j)))
    (kam kam' : Int → Int → ℝ) (hk : calcKam rows cols q = .ok kam)
    (hk' : calcKam rows cols q' = .ok kam') (i j : Int) (hm : Spec.InGrid rows cols i j) :
    kam' i j = kam i j := by
  have hs : ¬ (rows < 2 ∨ cols < 2) := by
    intro h; rw [C63_small _ _ _ h] at hk; cases hk
  obtain ⟨_, hk1, hv⟩ := C63_value rows cols (by omega) (by omega) q hu
  obtain ⟨_, hk2, hv'⟩ := C63_value rows cols (by omega) (by omega) q' hu'
  rw [hk] at hk1; cases hk1
  rw [hk'] at hk2; cases hk2
  have ov : ∀ a b c d, Spec.InGrid rows cols a b → Spec.InGrid rows cols c d →
      Spec.overlap (q' a b) (q' c d) = Spec.overlap (q a b) (q c d) := by
    intro a b c d hab hcd
    rw [overlap_eq, overlap_eq]
    have tt : dot t t = 1 := (isUnit_iff t).1 ht
    rcases hq with hq | hq
    · have s1 := rotMatrix_inj (hu' _ _ hab) (isUnit_mulRaw (hu _ _ hab) ht)
        (by rw [rotMatrix_mulRaw]; exact hq a b hab)
      have s2 := rotMatrix_inj (hu' _ _ hcd) (isUnit_mulRaw (hu _ _ hcd) ht)
        (by rw [rotMatrix_mulRaw]; exact hq c d hcd)
      have e : dot (mulRaw (q a b) t) (mulRaw (q c d) t) = dot (q a b) (q c d) := by
        have : dot (mulRaw (q a b) t) (mulRaw (q c d) t) = dot (q a b) (q c d) * dot t t := by
          simp only [dot, mulRaw]; ring
        rw [this, tt, mul_one]
      rcases s1 with s1 | s1 <;> rcases s2 with s2 | s2 <;> rw [s1, s2] <;>
        simp only [dot_neg_left, dot_neg_right, abs_neg, neg_neg, e]
    · have s1 := rotMatrix_inj (hu' _ _ hab) (isUnit_mulRaw ht (hu _ _ hab))
        (by rw [rotMatrix_mulRaw]; exact hq a b hab)
      have s2 := rotMatrix_inj (hu' _ _ hcd) (isUnit_mulRaw ht (hu _ _ hcd))
        (by rw [rotMatrix_mulRaw]; exact hq c d hcd)
      have e : dot (mulRaw t (q a b)) (mulRaw t (q c d)) = dot (q a b) (q c d) := by
        have : dot (mulRaw t (q a b)) (mulRaw t (q c d)) = dot t t * dot (q a b) (q c d) := by
          simp only [dot, mulRaw]; ring
        rw [this, tt, one_mul]
      rcases s1 with s1 | s1 <;> rcases s2 with s2 | s2 <;> rw [s1, s2] <;>
        simp only [dot_neg_left, dot_neg_right, abs_neg, neg_neg, e]
  obtain ⟨h0, h1, h2, h3⟩ := hm
  rw [hv i j ⟨h0, h1, h2, h3⟩, hv' i j ⟨h0, h1, h2, h3⟩]
  have c1 : Spec.neighbourMean rows i (fun r => Spec.overlap (q' i j) (q' r j)) =
      Spec.neighbourMean rows i (fun r => Spec.overlap (q i j) (q r j)) := by
    unfold Spec.neighbourMean
    congr 2
    apply List.map_congr_left
    intro r hr
    have := (List.mem_filter.1 hr).2
    simp only [decide_eq_true_eq] at this
    exact ov _ _ _ _ ⟨h0, h1, h2, h3⟩ ⟨this.1, this.2, h2, h3⟩
  have c2 : Spec.neighbourMean cols j (fun c => Spec.overlap (q' i j) (q' i c)) =
      Spec.neighbourMean cols j (fun c => Spec.overlap (q i j) (q i c)) := by
    unfold Spec.neighbourMean
    congr 2
    apply List.map_congr_left
    intro r hr
    have := (List.mem_filter.1 hr).2
    simp only [decide_eq_true_eq] at this
    exact ov _ _ _ _ ⟨h0, h1, h2, h3⟩ ⟨h0, h1, this.1, this.2⟩
  rw [c1, c2]

/-- A map with two different orientations: the hypotheses hold and the value is not zero. -/
example : ∃ (q : Int → Int → Quat ℝ) (kam : Int → Int → ℝ), Spec.UnitMap 2 2 q ∧
    calcKam 2 2 q = .ok kam ∧ kam 0 0 ≠ 0 := by
  have hu : Spec.UnitMap 2 2 fun _ j => if j = 0 then ⟨1, 0, 0, 0⟩ else ⟨0, 1, 0, 0⟩ := by
    intro i j _
    dsimp only
    split_ifs <;> simp [Quat.IsUnit]
  obtain ⟨kam, hk, -⟩ := C63_value 2 2 (le_refl _) (le_refl _) _ hu
  refine ⟨_, kam, hu, hk, fun h => ?_⟩
  have := (C63_zero 2 2 _ kam hk hu 0 0 ⟨by simp, by simp, by simp, by simp⟩).1 h 0 1
    ⟨by simp, by simp, by simp, by simp⟩ (by simp)
  have h11 := congrFun (congrFun this 1) 1
  simp [rotMatrix] at h11
  norm_num at h11

end DefDAP
