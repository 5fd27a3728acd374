import Verif.Model.Filter
import Verif.Props.SymTables

/-! # C97: filtering orientations -/

namespace DefDAP

open Quat

/-- The angle of the rotation between two orientations, in degrees, without crystal symmetry. -/
noncomputable def Spec.angleDeg (p q : Quat ℝ) : ℝ :=
  2 * Real.arccos |p.q0 * q.q0 + p.q1 * q.q1 + p.q2 * q.q2 + p.q3 * q.q3| * (180 / Real.pi)

/-- The pixels `(row, column)` of the block of three by three with this first row and column. -/
def Spec.blockPixels (r c : Int) : List (Int × Int) :=
  [(r, c), (r, c + 1), (r, c + 2), (r + 1, c), (r + 1, c + 1), (r + 1, c + 2),
   (r + 2, c), (r + 2, c + 1), (r + 2, c + 2)]

/-- The blocks of three by three that contain the pixel, other than in the middle. -/
def Spec.Quadrant (i j r c : Int) : Prop :=
  (i - 2 ≤ r ∧ r ≤ i) ∧ (j - 2 ≤ c ∧ c ≤ j) ∧ ¬ (r = i - 1 ∧ c = j - 1)

/-- The pixels of the block with an orientation less than the tolerance from that of pixel
`(i, j)`. -/
noncomputable def Spec.nearPixels (tol : ℝ) (ori : Img (Quat ℝ)) (i j r c : Int) : List (Int × Int) :=
  open Classical in (Spec.blockPixels r c).filter fun p =>
    Spec.angleDeg (ori p.1 p.2) (ori i j) < tol

/-- How near they are: the mean cosine of half the angle. -/
noncomputable def Spec.similarity (tol : ℝ) (ori : Img (Quat ℝ)) (i j r c : Int) : ℝ :=
  ((Spec.nearPixels tol ori i j r c).map fun p =>
      Real.cos (Spec.angleDeg (ori p.1 p.2) (ori i j) * (Real.pi / 180) / 2)).sum /
    (Spec.nearPixels tol ori i j r c).length

/-- The sum of the orientations of some pixels. -/
noncomputable def Spec.total (ori : Img (Quat ℝ)) (l : List (Int × Int)) : Quat ℝ :=
  ⟨(l.map fun p => (ori p.1 p.2).q0).sum, (l.map fun p => (ori p.1 p.2).q1).sum,
   (l.map fun p => (ori p.1 p.2).q2).sum, (l.map fun p => (ori p.1 p.2).q3).sum⟩

/-- The orientation in the direction of a sum, none for zero. -/
noncomputable def Spec.direction (s : Quat ℝ) : Option (Quat ℝ) :=
  open Classical in if s = ⟨0, 0, 0, 0⟩ then none else some (make false (normalise s))

/-- A map of orientations as the code makes them. -/
def Spec.Oriented (ori : Img (Quat ℝ)) : Prop := ∀ i j, IsUnit (ori i j) ∧ 0 ≤ (ori i j).q0

theorem angleDeg_eq (p q : Quat ℝ) : Spec.angleDeg p q = 2 * Real.arccos |dot p q| * (180 / Real.pi) := rfl

/-- The test of the code. -/
theorem near_iff {p q : Quat ℝ} (hp : IsUnit p) (hq : IsUnit q) {tol : ℝ} (h0 : 0 ≤ tol) (h1 : tol ≤ 360) :
    filterCos tol < |dot p q| ↔ Spec.angleDeg p q < tol := by
  have hpi := Real.pi_pos
  have ha := abs_dot_le_one hp hq
  have hb := abs_nonneg (dot p q)
  have hc : |dot p q| = Real.cos (Real.arccos |dot p q|) := (Real.cos_arccos (by linarith) ha).symm
  have t0 : 0 ≤ tol * (Real.pi / 180) / 2 := by positivity
  have t1 : tol * (Real.pi / 180) / 2 ≤ Real.pi := by
    have : tol * (Real.pi / 180) / 2 = tol / 360 * Real.pi := by ring
    rw [this]
    nlinarith
  unfold filterCos
  rw [hc, Real.strictAntiOn_cos.lt_iff_gt ⟨t0, t1⟩ ⟨Real.arccos_nonneg _, Real.arccos_le_pi _⟩, angleDeg_eq]
  have e : 2 * Real.arccos |dot p q| * (180 / Real.pi) < tol ↔
      Real.arccos |dot p q| < tol * (Real.pi / 180) / 2 := by
    rw [← mul_lt_mul_iff_of_pos_right (show 0 < Real.pi / 180 / 2 by positivity)]
    have : 2 * Real.arccos |dot p q| * (180 / Real.pi) * (Real.pi / 180 / 2) = Real.arccos |dot p q| := by
      field_simp
    rw [this]
    constructor <;> intro h <;> linarith
  exact e.symm

theorem cos_angleDeg {p q : Quat ℝ} (hp : IsUnit p) (hq : IsUnit q) :
    Real.cos (Spec.angleDeg p q * (Real.pi / 180) / 2) = |dot p q| := by
  have hpi := Real.pi_pos
  rw [angleDeg_eq]
  have : 2 * Real.arccos |dot p q| * (180 / Real.pi) * (Real.pi / 180) / 2 = Real.arccos |dot p q| := by
    field_simp
  rw [this, Real.cos_arccos (by linarith [abs_nonneg (dot p q)]) (abs_dot_le_one hp hq)]

theorem closeOris_near {ori : Img (Quat ℝ)} (ho : Spec.Oriented ori) {tol : ℝ} (h0 : 0 ≤ tol) (h1 : tol ≤ 360)
    (i j r c : Int) : closeOris (filterCos tol) (ori i j) (blockOris ori r c) =
      (Spec.nearPixels tol ori i j r c).map fun p => ori p.1 p.2 := by
  have hb : blockOris ori r c = (Spec.blockPixels r c).map fun p => ori p.1 p.2 := rfl
  unfold closeOris Spec.nearPixels
  rw [hb, List.filter_map]
  congr 1
  apply List.filter_congr
  intro p _
  simp only [Function.comp_apply]
  congr 1
  exact propext (near_iff (ho _ _).1 (ho _ _).1 h0 h1)

theorem sumOris_total (ori : Img (Quat ℝ)) (l : List (Int × Int)) :
    sumOris (l.map fun p => ori p.1 p.2) = Spec.total ori l := by
  simp [sumOris, Spec.total, Function.comp_def]

theorem dot_self_zero {s : Quat ℝ} : dot s s = 0 ↔ s = ⟨0, 0, 0, 0⟩ := by
  constructor
  · intro h
    unfold dot at h
    have h0 := mul_self_nonneg s.q0
    have h1 := mul_self_nonneg s.q1
    have h2 := mul_self_nonneg s.q2
    have h3 := mul_self_nonneg s.q3
    ext
    · exact mul_self_eq_zero.1 (by linarith)
    · exact mul_self_eq_zero.1 (by linarith)
    · exact mul_self_eq_zero.1 (by linarith)
    · exact mul_self_eq_zero.1 (by linarith)
  · rintro rfl; simp [dot]

theorem filterPixel_direction (rows cols : Nat) (c : ℝ) (ori : Img (Quat ℝ)) (i j : Int) :
    filterPixel rows cols c ori i j = Spec.direction (filterSum rows cols c ori i j) := by
  unfold filterPixel Spec.direction
  simp only [dot_self_zero]

/-- A pixel is in all of its blocks. -/
theorem mem_block {i j r c : Int} (h : Spec.Quadrant i j r c) : (i, j) ∈ Spec.blockPixels r c := by
  obtain ⟨⟨h1, h2⟩, ⟨h3, h4⟩, -⟩ := h
  have hr : r = i - 2 ∨ r = i - 1 ∨ r = i := by omega
  have hc : c = j - 2 ∨ c = j - 1 ∨ c = j := by omega
  rcases hr with rfl | rfl | rfl <;> rcases hc with rfl | rfl | rfl <;> simp [Spec.blockPixels]

theorem angleDeg_self {q : Quat ℝ} (hq : IsUnit q) : Spec.angleDeg q q = 0 := by
  have : dot q q = 1 := by unfold Quat.IsUnit at hq; unfold dot; nlinarith
  rw [angleDeg_eq, this]; simp

theorem near_self {ori : Img (Quat ℝ)} (ho : Spec.Oriented ori) {tol : ℝ} (h0 : 0 < tol) {i j r c : Int}
    (h : Spec.Quadrant i j r c) : (i, j) ∈ Spec.nearPixels tol ori i j r c := by
  unfold Spec.nearPixels
  rw [List.mem_filter]
  exact ⟨mem_block h, by simpa [angleDeg_self (ho i j).1] using h0⟩

theorem quadrant_iff {i j r c : Int} : Spec.Quadrant i j r c ↔ (r - i, c - j) ∈ quadrantStarts := by
  unfold Spec.Quadrant quadrantStarts
  simp only [List.mem_cons, Prod.mk.injEq, List.not_mem_nil, or_false]
  omega

theorem score_similarity {ori : Img (Quat ℝ)} (ho : Spec.Oriented ori) {tol : ℝ} (h0 : 0 < tol) (h1 : tol ≤ 360)
    {i j r c : Int} (h : Spec.Quadrant i j r c) :
    quadrantScore (filterCos tol) (ori i j) (blockOris ori r c) = some (Spec.similarity tol ori i j r c) := by
  unfold quadrantScore
  rw [closeOris_near ho h0.le h1]
  have hne : Spec.nearPixels tol ori i j r c ≠ [] := List.ne_nil_of_mem (near_self ho h0 h)
  simp only [List.map_map, List.map_eq_nil_iff, hne, if_false, List.length_map]
  unfold Spec.similarity
  congr 3
  apply List.map_congr_left
  intro p _
  simp only [Function.comp_apply]
  exact (cos_angleDeg (ho _ _).1 (ho _ _).1).symm

/-- **C97**: away from the border, the new orientation of a pixel is the direction of the sum of the
orientations within the tolerance in one of the blocks around it: a block where they are most similar
to that of the pixel. -/
theorem C97_choice {rows cols : Nat} {ori : Img (Quat ℝ)} (ho : Spec.Oriented ori) {tol : ℝ}
    (h0 : 0 < tol) (h1 : tol ≤ 360) {i j : Int} (hi : 2 ≤ i ∧ i < rows - 2) (hj : 2 ≤ j ∧ j < cols - 2) :
    ∃ r c, Spec.Quadrant i j r c ∧
      (filterData rows cols tol ori).2 i j =
        Spec.direction (Spec.total ori (Spec.nearPixels tol ori i j r c)) ∧
      ∀ r' c', Spec.Quadrant i j r' c' →
        Spec.similarity tol ori i j r' c' ≤ Spec.similarity tol ori i j r c := by
  set f : Int × Int → Option ℝ := fun s =>
    quadrantScore (filterCos tol) (ori i j) (blockOris ori (i + s.1) (j + s.2)) with hf
  have hq : ∀ s ∈ quadrantStarts, Spec.Quadrant i j (i + s.1) (j + s.2) := by
    intro s hs
    rw [quadrant_iff]
    simpa using hs
  have hs : ∀ s ∈ quadrantStarts, f s = some (Spec.similarity tol ori i j (i + s.1) (j + s.2)) :=
    fun s hs => score_similarity ho h0 h1 (hq s hs)
  have hnone : (quadrantStarts.map f).findIdx? Option.isNone = none := by
    rw [List.findIdx?_eq_none_iff]
    intro v hv
    obtain ⟨s, hs', rfl⟩ := List.mem_map.1 hv
    rw [hs s hs']; rfl
  set g : List ℝ := (quadrantStarts.map f).map fun v => v.getD 0 with hg
  have hgl : g = quadrantStarts.map fun s => Spec.similarity tol ori i j (i + s.1) (j + s.2) := by
    rw [hg, List.map_map]
    apply List.map_congr_left
    intro s hs'
    simp only [Function.comp_apply, hs s hs', Option.getD_some]
  obtain ⟨m, hm1, hm2, -⟩ := argmax_spec g (by rw [hgl]; simp [quadrantStarts])
  have hk : argmaxNan (quadrantStarts.map f) = argmax g := by
    unfold argmaxNan
    rw [hnone]
  rw [hgl, List.getElem?_map] at hm1
  obtain ⟨s, hs1, hs2⟩ := Option.map_eq_some_iff.1 hm1
  rw [← hgl] at hs1
  have hmem : s ∈ quadrantStarts := List.mem_of_getElem? hs1
  have hquad : filterQuadrant (filterCos tol) ori i j = s := by
    unfold filterQuadrant
    simp only [← hf, hk, List.getD_eq_getElem?_getD, hs1, Option.getD_some]
  refine ⟨i + s.1, j + s.2, hq s hmem, ?_, ?_⟩
  · show filterPixel rows cols (filterCos tol) ori i j = _
    rw [filterPixel_direction]
    unfold filterSum
    rw [if_pos ⟨hi, hj⟩, hquad]
    simp only
    rw [closeOris_near ho h0.le h1, sumOris_total]
  · intro r' c' h'
    rw [hs2]
    apply hm2
    rw [hgl]
    refine List.mem_map.2 ⟨(r' - i, c' - j), quadrant_iff.1 h', ?_⟩
    simp

theorem direction_unit {s : Quat ℝ} (h : s ≠ ⟨0, 0, 0, 0⟩) :
    ∃ q, Spec.direction s = some q ∧ IsUnit q ∧ 0 ≤ q.q0 ∧ (q = normalise s ∨ q = (normalise s).neg) := by
  refine ⟨make false (normalise s), by simp [Spec.direction, h], ?_, ?_, ?_⟩
  · have hd : 0 < dot s s := by
      rcases lt_or_eq_of_le (show 0 ≤ dot s s by
        unfold dot; nlinarith [mul_self_nonneg s.q0, mul_self_nonneg s.q1, mul_self_nonneg s.q2,
          mul_self_nonneg s.q3]) with h' | h'
      · exact h'
      · exact absurd (dot_self_zero.1 h'.symm) h
    have hn : IsUnit (normalise s) := by
      unfold Quat.IsUnit normalise
      have : norm s ^ 2 = dot s s := Real.sq_sqrt hd.le
      simp only [div_pow, this]
      rw [← add_div, ← add_div, ← add_div, div_eq_one_iff_eq hd.ne']
      unfold dot; ring
    unfold make
    split_ifs
    · unfold Quat.IsUnit neg at *; simpa using hn
    · exact hn
  · unfold make
    split_ifs with h'
    · simp only [neg]; linarith [h'.2]
    · simp only [Bool.false_eq_true, true_and, not_lt] at h'
      exact h'
  · unfold make
    split_ifs
    · exact .inr rfl
    · exact .inl rfl

theorem direction_self {q : Quat ℝ} (hq : IsUnit q) (h0 : 0 ≤ q.q0) {n : ℝ} (hn : 0 < n) :
    Spec.direction ⟨n * q.q0, n * q.q1, n * q.q2, n * q.q3⟩ = some q := by
  have hd : dot (⟨n * q.q0, n * q.q1, n * q.q2, n * q.q3⟩ : Quat ℝ) ⟨n * q.q0, n * q.q1, n * q.q2, n * q.q3⟩ = n ^ 2 := by
    unfold Quat.IsUnit at hq
    unfold dot
    have : n * q.q0 * (n * q.q0) + n * q.q1 * (n * q.q1) + n * q.q2 * (n * q.q2) + n * q.q3 * (n * q.q3) =
      n ^ 2 * (q.q0 ^ 2 + q.q1 ^ 2 + q.q2 ^ 2 + q.q3 ^ 2) := by ring
    rw [this, hq, mul_one]
  have hne : (⟨n * q.q0, n * q.q1, n * q.q2, n * q.q3⟩ : Quat ℝ) ≠ ⟨0, 0, 0, 0⟩ := by
    intro h
    rw [← dot_self_zero, hd] at h
    have := pow_pos hn 2
    linarith
  unfold Spec.direction
  rw [if_neg hne]
  have hnorm : normalise ⟨n * q.q0, n * q.q1, n * q.q2, n * q.q3⟩ = q := by
    unfold normalise Quat.norm
    rw [hd, Real.sqrt_sq hn.le]
    simp only [mul_div_cancel_left₀ _ hn.ne']
  rw [hnorm]
  unfold make
  rw [if_neg (by simpa using h0)]

/-- **C97**: the two rows and columns at each side of the map keep their orientations. -/
theorem C97_border {rows cols : Nat} {ori : Img (Quat ℝ)} (ho : Spec.Oriented ori) (tol : ℝ) {i j : Int}
    (h : i < 2 ∨ (rows : Int) - 2 ≤ i ∨ j < 2 ∨ (cols : Int) - 2 ≤ j) :
    (filterData rows cols tol ori).2 i j = some (ori i j) := by
  show filterPixel rows cols (filterCos tol) ori i j = _
  rw [filterPixel_direction]
  unfold filterSum
  rw [if_neg (by omega)]
  have := direction_self (ho i j).1 (ho i j).2 one_pos
  simpa using this

theorem total_dot (ori : Img (Quat ℝ)) (q : Quat ℝ) : ∀ l : List (Int × Int),
    dot q (Spec.total ori l) = (l.map fun p => dot q (ori p.1 p.2)).sum
  | [] => by simp [Spec.total, dot]
  | p :: l => by
    rw [List.map_cons, List.sum_cons, ← total_dot ori q l]
    simp only [Spec.total, dot, List.map_cons, List.sum_cons]
    ring

theorem dot_comm' (p q : Quat ℝ) : dot p q = dot q p := by unfold dot; ring

theorem cauchy4 (p q : Quat ℝ) : dot p q ^ 2 ≤ dot p p * dot q q := by
  unfold dot
  nlinarith [sq_nonneg (p.q0 * q.q1 - p.q1 * q.q0), sq_nonneg (p.q0 * q.q2 - p.q2 * q.q0),
    sq_nonneg (p.q0 * q.q3 - p.q3 * q.q0), sq_nonneg (p.q1 * q.q2 - p.q2 * q.q1),
    sq_nonneg (p.q1 * q.q3 - p.q3 * q.q1), sq_nonneg (p.q2 * q.q3 - p.q3 * q.q2)]

/-- The sum of `n` unit quaternions has length at most `n`. -/
theorem total_length {ori : Img (Quat ℝ)} (ho : Spec.Oriented ori) (l : List (Int × Int)) :
    dot (Spec.total ori l) (Spec.total ori l) ≤ (l.length : ℝ) ^ 2 := by
  have hself : ∀ i j, dot (ori i j) (ori i j) = 1 := by
    intro i j; have := (ho i j).1; unfold Quat.IsUnit at this; unfold dot; nlinarith
  induction l with
  | nil => simp [Spec.total, dot]
  | cons p l ih =>
    have e : dot (Spec.total ori (p :: l)) (Spec.total ori (p :: l)) =
        dot (Spec.total ori l) (Spec.total ori l) + 2 * dot (ori p.1 p.2) (Spec.total ori l) + 1 := by
      rw [← hself p.1 p.2]
      simp only [Spec.total, dot, List.map_cons, List.sum_cons]
      ring
    have hc := cauchy4 (ori p.1 p.2) (Spec.total ori l)
    rw [hself, one_mul] at hc
    have hl : (0 : ℝ) ≤ l.length := Nat.cast_nonneg _
    have hb : dot (ori p.1 p.2) (Spec.total ori l) ≤ l.length := abs_le_of_sq_le_sq' (le_trans hc ih) hl |>.2
    rw [e, List.length_cons]
    push_cast
    nlinarith

theorem sum_gt : ∀ (l : List ℝ) (c : ℝ), l ≠ [] → (∀ x ∈ l, c < x) → c * l.length < l.sum
  | [], _, h, _ => absurd rfl h
  | [a], c, _, h => by simpa using h a (by simp)
  | a :: b :: t, c, _, h => by
    have h1 := h a (by simp)
    have h2 := sum_gt (b :: t) c (by simp) (fun x hx => h x (by simp [hx]))
    rw [List.sum_cons, List.length_cons]
    push_cast at h2 ⊢
    linarith

/-- **C97**: if the orientations near that of a pixel are on the same side of it, as quaternions, the
new orientation is less than the tolerance from the old one. -/
theorem C97_tolerance {rows cols : Nat} {ori : Img (Quat ℝ)} (ho : Spec.Oriented ori) {tol : ℝ}
    (h0 : 0 < tol) (h1 : tol ≤ 180) {i j : Int} (hi : 2 ≤ i ∧ i < rows - 2) (hj : 2 ≤ j ∧ j < cols - 2)
    (hside : ∀ y x, (i - 2 ≤ y ∧ y ≤ i + 2) → (j - 2 ≤ x ∧ x ≤ j + 2) →
      Spec.angleDeg (ori y x) (ori i j) < tol → 0 ≤ dot (ori y x) (ori i j)) :
    ∃ q, (filterData rows cols tol ori).2 i j = some q ∧ IsUnit q ∧ 0 ≤ q.q0 ∧
      Spec.angleDeg q (ori i j) < tol := by
  obtain ⟨r, c, hq, hres, -⟩ := C97_choice ho h0 (by linarith) hi hj
  set l := Spec.nearPixels tol ori i j r c with hl
  have hne : l ≠ [] := List.ne_nil_of_mem (near_self ho h0 hq)
  have hlen : (0 : ℝ) < l.length := by exact_mod_cast List.length_pos_iff.2 hne
  have hpi := Real.pi_pos
  have hc0 : 0 ≤ filterCos tol := by
    unfold filterCos
    apply Real.cos_nonneg_of_neg_pi_div_two_le_of_le
    · have : 0 ≤ tol * (Real.pi / 180) / 2 := by positivity
      linarith
    · have : tol * (Real.pi / 180) / 2 = tol / 180 * (Real.pi / 2) := by ring
      rw [this]; nlinarith
  have hin : ∀ p ∈ l, (i - 2 ≤ p.1 ∧ p.1 ≤ i + 2) ∧ (j - 2 ≤ p.2 ∧ p.2 ≤ j + 2) ∧
      Spec.angleDeg (ori p.1 p.2) (ori i j) < tol := by
    intro p hp
    rw [hl, Spec.nearPixels, List.mem_filter] at hp
    obtain ⟨hp1, hp2⟩ := hp
    obtain ⟨⟨a1, a2⟩, ⟨a3, a4⟩, -⟩ := hq
    have : (r ≤ p.1 ∧ p.1 ≤ r + 2) ∧ c ≤ p.2 ∧ p.2 ≤ c + 2 := by
      simp only [Spec.blockPixels, List.mem_cons, List.not_mem_nil, or_false] at hp1
      rcases hp1 with rfl | rfl | rfl | rfl | rfl | rfl | rfl | rfl | rfl <;> simp only <;> omega
    exact ⟨by omega, by omega, by simpa using hp2⟩
  have hdot : ∀ p ∈ l, filterCos tol < dot (ori i j) (ori p.1 p.2) := by
    intro p hp
    obtain ⟨b1, b2, b3⟩ := hin p hp
    have := (near_iff (ho p.1 p.2).1 (ho i j).1 h0.le (by linarith)).2 b3
    rw [abs_of_nonneg (hside _ _ b1 b2 b3)] at this
    rwa [dot_comm']
  have hsum : filterCos tol * l.length < dot (ori i j) (Spec.total ori l) := by
    rw [total_dot]
    have := sum_gt (l.map fun p => dot (ori i j) (ori p.1 p.2)) (filterCos tol) (by simpa using hne)
      (by
        intro x hx
        obtain ⟨p, hp, rfl⟩ := List.mem_map.1 hx
        exact hdot p hp)
    simpa using this
  have hs0 : Spec.total ori l ≠ ⟨0, 0, 0, 0⟩ := by
    intro h
    rw [h] at hsum
    have : dot (ori i j) (⟨0, 0, 0, 0⟩ : Quat ℝ) = 0 := by simp [dot]
    rw [this] at hsum
    have := mul_nonneg hc0 hlen.le
    linarith
  obtain ⟨q, hq1, hq2, hq3, hq4⟩ := direction_unit hs0
  refine ⟨q, by rw [hres, hq1], hq2, hq3, ?_⟩
  rw [← near_iff hq2 (ho i j).1 h0.le (by linarith)]
  have hN : norm (Spec.total ori l) ≤ l.length := by
    unfold Quat.norm
    rw [Real.sqrt_le_left hlen.le]
    exact total_length ho l
  have hN0 : 0 < norm (Spec.total ori l) := by
    unfold Quat.norm
    apply Real.sqrt_pos.2
    rcases lt_or_eq_of_le (show 0 ≤ dot (Spec.total ori l) (Spec.total ori l) by
      unfold dot; nlinarith [mul_self_nonneg (Spec.total ori l).q0, mul_self_nonneg (Spec.total ori l).q1,
        mul_self_nonneg (Spec.total ori l).q2, mul_self_nonneg (Spec.total ori l).q3]) with h' | h'
    · exact h'
    · exact absurd (dot_self_zero.1 h'.symm) hs0
  have habs : |dot q (ori i j)| = |dot (normalise (Spec.total ori l)) (ori i j)| := by
    rcases hq4 with rfl | rfl
    · rfl
    · rw [show dot (normalise (Spec.total ori l)).neg (ori i j) = -dot (normalise (Spec.total ori l)) (ori i j) by
        unfold dot neg; ring, abs_neg]
  have hd : dot (normalise (Spec.total ori l)) (ori i j) =
      dot (ori i j) (Spec.total ori l) / norm (Spec.total ori l) := by
    unfold normalise dot
    ring
  rw [habs, hd]
  refine lt_of_lt_of_le ?_ (le_abs_self _)
  rw [lt_div_iff₀ hN0]
  calc filterCos tol * norm (Spec.total ori l) ≤ filterCos tol * l.length := by
        exact mul_le_mul_of_nonneg_left hN hc0
    _ < _ := hsum

/-- **C97**: edges are kept: if orientations of the map are either the same or at least the tolerance
apart, nothing changes. In particular a map of a single orientation stays as it is. -/
theorem C97_edges {rows cols : Nat} {ori : Img (Quat ℝ)} (ho : Spec.Oriented ori) {tol : ℝ}
    (h0 : 0 < tol) (h1 : tol ≤ 360)
    (hsharp : ∀ y x y' x', ori y x = ori y' x' ∨ tol ≤ Spec.angleDeg (ori y x) (ori y' x')) (i j : Int) :
    (filterData rows cols tol ori).2 i j = some (ori i j) := by
  by_cases hb : i < 2 ∨ (rows : Int) - 2 ≤ i ∨ j < 2 ∨ (cols : Int) - 2 ≤ j
  · exact C97_border ho tol hb
  · obtain ⟨r, c, hq, hres, -⟩ := C97_choice (rows := rows) (cols := cols) ho h0 h1
      (i := i) (j := j) ⟨by omega, by omega⟩ ⟨by omega, by omega⟩
    rw [hres]
    set l := Spec.nearPixels tol ori i j r c with hl
    have hne : l ≠ [] := List.ne_nil_of_mem (near_self ho h0 hq)
    have hlen : (0 : ℝ) < l.length := by exact_mod_cast List.length_pos_iff.2 hne
    have hsame : ∀ p ∈ l, ori p.1 p.2 = ori i j := by
      intro p hp
      rw [hl, Spec.nearPixels, List.mem_filter] at hp
      have hp2 : Spec.angleDeg (ori p.1 p.2) (ori i j) < tol := by simpa using hp.2
      rcases hsharp p.1 p.2 i j with h | h
      · exact h
      · exact absurd hp2 (not_lt.2 h)
    have ht : Spec.total ori l = ⟨l.length * (ori i j).q0, l.length * (ori i j).q1, l.length * (ori i j).q2,
        l.length * (ori i j).q3⟩ := by
      have : ∀ f : Quat ℝ → ℝ, (l.map fun p => f (ori p.1 p.2)).sum = l.length * f (ori i j) := by
        intro f
        rw [show (l.map fun p => f (ori p.1 p.2)) = l.map fun _ => f (ori i j) from
          List.map_congr_left fun p hp => by rw [hsame p hp]]
        simp
      unfold Spec.total
      rw [this Quat.q0, this Quat.q1, this Quat.q2, this Quat.q3]
    rw [ht]
    exact direction_self (ho i j).1 (ho i j).2 hlen

/-- **C97**: a map with fewer than five rows or columns has no pixel to filter: nothing changes, and
the call ends with an error. -/
theorem C97_small {rows cols : Nat} {ori : Img (Quat ℝ)} (ho : Spec.Oriented ori) (tol : ℝ)
    (h : rows < 5 ∨ cols < 5) :
    (filterData rows cols tol ori).1 = .error .unboundLocalError ∧
    ∀ i j, (filterData rows cols tol ori).2 i j = some (ori i j) := by
  refine ⟨?_, fun i j => C97_border ho tol (by omega)⟩
  unfold filterData
  simp only
  rw [if_neg (by omega)]

/-- **C97** fails for tolerance 0: all orientations but those near the border are lost. -/
theorem C97_zero {rows cols : Nat} {ori : Img (Quat ℝ)} (ho : Spec.Oriented ori)
    (hs : 5 ≤ rows ∧ 5 ≤ cols) :
    (filterData rows cols 0 ori).1 = .ok () ∧
    ∀ i j, (2 ≤ i ∧ i < (rows : Int) - 2) → (2 ≤ j ∧ j < (cols : Int) - 2) →
      (filterData rows cols 0 ori).2 i j = none := by
  refine ⟨by simp [filterData, hs], fun i j hi hj => ?_⟩
  show filterPixel rows cols (filterCos 0) ori i j = _
  rw [filterPixel_direction]
  unfold filterSum
  rw [if_pos ⟨hi, hj⟩]
  simp only
  have : ∀ r c, closeOris (filterCos 0) (ori i j) (blockOris ori r c) = [] := by
    intro r c
    rw [closeOris_near ho le_rfl (by norm_num)]
    unfold Spec.nearPixels
    rw [List.map_eq_nil_iff, List.filter_eq_nil_iff]
    intro p _
    simp only [decide_eq_true_eq, not_lt]
    unfold Spec.angleDeg
    have := Real.pi_pos
    have := Real.arccos_nonneg |(ori p.1 p.2).q0 * (ori i j).q0 + (ori p.1 p.2).q1 * (ori i j).q1 +
      (ori p.1 p.2).q2 * (ori i j).q2 + (ori p.1 p.2).q3 * (ori i j).q3|
    positivity
  rw [this]
  simp [sumOris, Spec.direction]

/-! ### Signs -/

/-- Two orientations of half turns, with opposite signs, in the pattern of a chess board. -/
noncomputable def Spec.chess (C : ℝ) : Img (Quat ℝ) := fun i j =>
  if (i + j) % 2 = 0 then ⟨0, 1, 0, 0⟩ else ⟨0, -C, -Real.sqrt (1 - C ^ 2), 0⟩

theorem chess_oriented {C : ℝ} (h0 : 0 ≤ C) (h1 : C ≤ 1) : Spec.Oriented (Spec.chess C) := by
  intro i j
  unfold Spec.chess Quat.IsUnit
  split_ifs
  · simp
  · have : Real.sqrt (1 - C ^ 2) ^ 2 = 1 - C ^ 2 := Real.sq_sqrt (by nlinarith)
    refine ⟨?_, le_rfl⟩
    simp only
    nlinarith

theorem chess_dot {C : ℝ} (h0 : 0 ≤ C) (h1 : C ≤ 1) (i j k l : Int) :
    |dot (Spec.chess C i j) (Spec.chess C k l)| = if (i + j) % 2 = (k + l) % 2 then 1 else C := by
  have hs : Real.sqrt (1 - C ^ 2) * Real.sqrt (1 - C ^ 2) = 1 - C ^ 2 := Real.mul_self_sqrt (by nlinarith)
  unfold Spec.chess
  have hm : ∀ n : Int, n % 2 = 0 ∨ n % 2 = 1 := fun n => by omega
  rcases hm (i + j) with a | a <;> rcases hm (k + l) with b | b
  · simp [a, b, dot]
  · simp [a, b, dot, abs_of_nonneg h0]
  · simp [a, b, dot, abs_of_nonneg h0]
  · simp only [a, b, one_ne_zero, if_false, if_true, dot]
    rw [show (0 : ℝ) * 0 + -C * -C + -Real.sqrt (1 - C ^ 2) * -Real.sqrt (1 - C ^ 2) + 0 * 0 = 1 by nlinarith]
    simp

/-- **C97** fails in general: for every tolerance up to 90 degrees there is a map, with all its
orientations within the tolerance of each other, in which the filter moves the orientation of a pixel by
more than the tolerance. Quaternions of opposite sign are added as they are. -/
theorem C97_signs {tol : ℝ} (h0 : 0 < tol) (h1 : tol ≤ 90) :
    ∃ ori : Img (Quat ℝ), Spec.Oriented ori ∧
      (∀ i j k l, Spec.angleDeg (ori i j) (ori k l) < tol) ∧
      ∃ q, (filterData 5 5 tol ori).2 2 2 = some q ∧ tol < Spec.angleDeg q (ori 2 2) := by
  have hpi := Real.pi_pos
  set c := filterCos tol with hc
  have hc1 : c < 1 := by
    have := (near_iff (p := ⟨1, 0, 0, 0⟩) (q := ⟨1, 0, 0, 0⟩) (by simp [Quat.IsUnit]) (by simp [Quat.IsUnit])
      h0.le (by linarith)).2 (by rw [angleDeg_self (by simp [Quat.IsUnit])]; exact h0)
    simpa [dot] using this
  have hc2 : 7 / 10 ≤ c := by
    have h45 : Real.cos (Real.pi / 4) ≤ c := by
      rw [hc]; unfold filterCos
      apply Real.cos_le_cos_of_nonneg_of_le_pi
      · positivity
      · linarith
      · nlinarith
    rw [Real.cos_pi_div_four] at h45
    have h2 : (7 : ℝ) / 5 ≤ Real.sqrt 2 := Real.le_sqrt_of_sq_le (by norm_num)
    linarith
  set C := (1 + 3 * c) / 4 with hC
  have hC0 : 0 ≤ C := by rw [hC]; linarith
  have hC1 : C ≤ 1 := by rw [hC]; linarith
  have hcC : c < C := by rw [hC]; linarith
  have ho := chess_oriented hC0 hC1
  have hnear : ∀ i j k l, Spec.angleDeg (Spec.chess C i j) (Spec.chess C k l) < tol := by
    intro i j k l
    rw [← near_iff (ho _ _).1 (ho _ _).1 h0.le (by linarith), chess_dot hC0 hC1]
    split_ifs
    · exact hc1
    · exact hcC
  refine ⟨Spec.chess C, ho, hnear, ?_⟩
  obtain ⟨r, k, hq, hres, -⟩ := C97_choice (rows := 5) (cols := 5) ho h0 (by linarith) (i := 2) (j := 2)
    (by norm_num) (by norm_num)
  have hall : Spec.nearPixels tol (Spec.chess C) 2 2 r k = Spec.blockPixels r k := by
    unfold Spec.nearPixels
    rw [List.filter_eq_self]
    intro p _
    simpa using hnear p.1 p.2 2 2
  rw [hall] at hres
  have hS : Real.sqrt (1 - C ^ 2) * Real.sqrt (1 - C ^ 2) = 1 - C ^ 2 := Real.mul_self_sqrt (by nlinarith)
  set S := Real.sqrt (1 - C ^ 2) with hSd
  have htot : Spec.total (Spec.chess C) (Spec.blockPixels r k) =
      if (r + k) % 2 = 0 then ⟨0, 5 - 4 * C, -4 * S, 0⟩ else ⟨0, 4 - 5 * C, -5 * S, 0⟩ := by
    have hm : (r + k) % 2 = 0 ∨ (r + k) % 2 = 1 := by omega
    have e1 : ∀ n : Int, (r + (k + n)) % 2 = ((r + k) % 2 + n) % 2 := fun n => by omega
    have e2 : ∀ n : Int, (r + n + k) % 2 = ((r + k) % 2 + n) % 2 := fun n => by omega
    have e3 : ∀ n m : Int, (r + n + (k + m)) % 2 = ((r + k) % 2 + n + m) % 2 := fun n m => by omega
    rcases hm with h | h
    · simp only [Spec.total, Spec.blockPixels, Spec.chess, List.map_cons, List.map_nil, List.sum_cons,
        List.sum_nil, e1, e2, e3, h]
      norm_num
      constructor <;> ring
    · simp only [Spec.total, Spec.blockPixels, Spec.chess, List.map_cons, List.map_nil, List.sum_cons,
        List.sum_nil, e1, e2, e3, h]
      norm_num
      constructor <;> ring
  set T := Spec.total (Spec.chess C) (Spec.blockPixels r k) with hT
  have hdd : dot T T = 41 - 40 * C := by
    rw [htot]
    split_ifs <;> simp only [dot] <;> nlinarith
  have hpos : 0 < 41 - 40 * C := by linarith
  have hT0 : T ≠ ⟨0, 0, 0, 0⟩ := by
    intro h
    rw [← dot_self_zero, hdd] at h
    linarith
  obtain ⟨q, hq1, hq2, -, hq4⟩ := direction_unit hT0
  refine ⟨q, by rw [hres, hq1], ?_⟩
  have hlt : |dot q (Spec.chess C 2 2)| < c := by
    have habs : |dot q (Spec.chess C 2 2)| = |dot (normalise T) (Spec.chess C 2 2)| := by
      rcases hq4 with rfl | rfl
      · rfl
      · rw [show dot (normalise T).neg (Spec.chess C 2 2) = -dot (normalise T) (Spec.chess C 2 2) by
          unfold dot neg; ring, abs_neg]
    have hd : dot (normalise T) (Spec.chess C 2 2) = T.q1 / Quat.norm T := by
      simp [normalise, Spec.chess, dot]
    have hn : Quat.norm T = Real.sqrt (41 - 40 * C) := by unfold Quat.norm; rw [hdd]
    rw [habs, hd, hn, abs_div, abs_of_pos (Real.sqrt_pos.2 hpos), div_lt_iff₀ (Real.sqrt_pos.2 hpos)]
    apply abs_lt_of_sq_lt_sq _ (by positivity)
    rw [mul_pow, Real.sq_sqrt hpos.le, htot]
    split_ifs
    · simp only
      rw [hC]
      nlinarith [mul_pos (sub_pos.2 hc1) (sub_pos.2 hc1)]
    · simp only
      rw [hC]
      nlinarith [mul_pos (sub_pos.2 hc1) (sub_pos.2 hc1)]
  by_contra hle
  rw [not_lt] at hle
  rcases lt_or_eq_of_le hle with h | h
  · have := (near_iff hq2 (ho 2 2).1 h0.le (by linarith)).2 h
    linarith
  · have e := cos_angleDeg hq2 (ho 2 2).1
    rw [h] at e
    unfold filterCos at hc
    linarith

/-- The hypotheses of `C97_edges` for a map of two grains. -/
example : ∃ ori : Img (Quat ℝ), Spec.Oriented ori ∧ ori 0 0 ≠ ori 0 9 ∧
    ∀ y x y' x', ori y x = ori y' x' ∨ (5 : ℝ) ≤ Spec.angleDeg (ori y x) (ori y' x') := by
  refine ⟨fun _ j => if j < 4 then ⟨1, 0, 0, 0⟩ else ⟨0, 1, 0, 0⟩, ?_, by simp, ?_⟩
  · intro i j
    simp only
    split_ifs <;> simp [Quat.IsUnit]
  · intro y x y' x'
    have hpi := Real.pi_pos
    have : (180 : ℝ) = 2 * (Real.pi / 2) * (180 / Real.pi) := by field_simp
    simp only
    split_ifs
    · exact .inl rfl
    · right; simp only [Spec.angleDeg]; norm_num; rw [← this]; norm_num
    · right; simp only [Spec.angleDeg]; norm_num; rw [← this]; norm_num
    · exact .inl rfl

end DefDAP
