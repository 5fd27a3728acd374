import Verif.Model.QuatText
import Verif.Proofs.NumText
import Verif.Props.MisoriGrains
import Verif.Props.QuatValues
import Mathlib.Analysis.SpecialFunctions.Trigonometric.Bounds
import Mathlib.Analysis.Real.Pi.Bounds

/-! C153: what the text of a quaternion says. -/

namespace DefDAP
open Spec Quat Matrix

/-! ### Specification -/

/-- The text is a list of four numbers in brackets, separated by commas, and reads as the numbers
`v`. -/
def Spec.ReadsAs (s : Str) (v : List ℚ) : Prop :=
  ∃ body, s = '[' :: body ++ [']'] ∧ (splitSep ',' body).map parseFloat = v.map .ok

/-! ### Proofs -/

theorem comma_fixed (n : Nat) (x : ℝ) : ',' ∉ fixedStr n x := by
  intro h
  exact absurd (fixedStr_num n x _ h) (by decide)

theorem parseFloat_space (s : Str) : parseFloat (' ' :: s) = parseFloat s := by
  have : strip (' ' :: s) = strip s := by
    unfold strip
    rw [List.dropWhile_cons_of_pos (by decide)]
  unfold parseFloat
  rw [this]

/-- **C153**: the text reads as four numbers, each within half of the last digit of its
coefficient. -/
theorem C153_read (q : Quat ℝ) : ∃ a b c d : ℚ, Spec.ReadsAs (quatRepr q) [a, b, c, d] ∧
    |(a : ℝ) - q.q0| ≤ 5 / 100000 ∧ |(b : ℝ) - q.q1| ≤ 5 / 100000 ∧
    |(c : ℝ) - q.q2| ≤ 5 / 100000 ∧ |(d : ℝ) - q.q3| ≤ 5 / 100000 := by
  have e : (1 / 2 / 10 ^ (3 + 1) : ℝ) = 5 / 100000 := by norm_num
  obtain ⟨a, ha, ha', -⟩ := parseFloat_fixedStr 3 q.q0
  obtain ⟨b, hb, hb', -⟩ := parseFloat_fixedStr 3 q.q1
  obtain ⟨c, hc, hc', -⟩ := parseFloat_fixedStr 3 q.q2
  obtain ⟨d, hd, hd', -⟩ := parseFloat_fixedStr 3 q.q3
  rw [e] at ha' hb' hc' hd'
  refine ⟨a, b, c, d, ⟨fixedStr 4 q.q0 ++ ',' :: ((' ' :: fixedStr 4 q.q1) ++ ',' ::
    ((' ' :: fixedStr 4 q.q2) ++ ',' :: (' ' :: fixedStr 4 q.q3))), ?_, ?_⟩, ha', hb', hc', hd'⟩
  · simp [quatRepr]
  · have h : ∀ x, ',' ∉ ' ' :: fixedStr 4 x := by
      intro x hx
      rcases List.mem_cons.1 hx with hx | hx
      · exact absurd hx (by decide)
      · exact comma_fixed 4 x hx
    rw [splitSep_cons (comma_fixed _ _), splitSep_cons (h _), splitSep_cons (h _),
      splitSep_one (h _)]
    simp only [List.map_cons, List.map_nil, parseFloat_space, ha, hb, hc, hd]

theorem readsAs_unique {s : Str} {v w : List ℚ} (h : Spec.ReadsAs s v) (h' : Spec.ReadsAs s w) :
    v = w := by
  obtain ⟨b, e, m⟩ := h
  obtain ⟨b', e', m'⟩ := h'
  rw [e] at e'
  have hb : b = b' := by
    have := List.cons.inj e'
    exact List.append_cancel_right this.2
  subst hb
  rw [m] at m'
  exact List.map_injective_iff.2 (fun a b h => by injection h) m'

/-- The coefficients of two quaternions with the same text. -/
theorem same_text {p q : Quat ℝ} (h : quatRepr p = quatRepr q) :
    |p.q0 - q.q0| ≤ 1 / 10000 ∧ |p.q1 - q.q1| ≤ 1 / 10000 ∧ |p.q2 - q.q2| ≤ 1 / 10000 ∧
      |p.q3 - q.q3| ≤ 1 / 10000 := by
  obtain ⟨a, b, c, d, hr, h0, h1, h2, h3⟩ := C153_read p
  obtain ⟨a', b', c', d', hr', h0', h1', h2', h3'⟩ := C153_read q
  rw [h] at hr
  have e := readsAs_unique hr hr'
  simp only [List.cons.injEq, and_true] at e
  obtain ⟨rfl, rfl, rfl, rfl⟩ := e
  have key : ∀ u x y : ℝ, |u - x| ≤ 5 / 100000 → |u - y| ≤ 5 / 100000 → |x - y| ≤ 1 / 10000 := by
    intro u x y h h'
    rw [abs_le] at h h' ⊢
    constructor <;> linarith
  exact ⟨key _ _ _ h0 h0', key _ _ _ h1 h1', key _ _ _ h2 h2', key _ _ _ h3 h3'⟩

theorem sq_small {x e : ℝ} (h : |x| ≤ e) : x ^ 2 ≤ e ^ 2 := by
  have := abs_nonneg x
  rw [← sq_abs]
  nlinarith

/-- **C153**: two orientations with the same text are at most 0.03 degrees apart. -/
theorem C153_same (p q : Quat ℝ) (hp : p.IsUnit) (hq : q.IsUnit) (h : quatRepr p = quatRepr q) :
    rotationAngle (rotMatrix p * (rotMatrix q)ᵀ) ≤ 3 / 100 * (Real.pi / 180) := by
  obtain ⟨h0, h1, h2, h3⟩ := same_text h
  have hp' : p.q0 ^ 2 + p.q1 ^ 2 + p.q2 ^ 2 + p.q3 ^ 2 = 1 := hp
  have hq' : q.q0 ^ 2 + q.q1 ^ 2 + q.q2 ^ 2 + q.q3 ^ 2 = 1 := hq
  have hd : 1 - 2 / 100000000 ≤ |dot p q| := by
    refine le_trans ?_ (le_abs_self _)
    have s0 := sq_small h0
    have s1 := sq_small h1
    have s2 := sq_small h2
    have s3 := sq_small h3
    have e : dot p q = 1 - ((p.q0 - q.q0) ^ 2 + (p.q1 - q.q1) ^ 2 + (p.q2 - q.q2) ^ 2 +
        (p.q3 - q.q3) ^ 2) / 2 := by
      unfold dot
      linear_combination (1 / 2) * hp' + (1 / 2) * hq'
    rw [e]
    norm_num at s0 s1 s2 s3
    linarith
  rw [rotationAngle_eq hp hq]
  have ha : Real.arccos |dot p q| ≤ 1 / 4000 := by
    have hcos : Real.cos (1 / 4000) ≤ |dot p q| := by
      refine le_trans ?_ hd
      have hb := Real.cos_bound (x := 1 / 4000) (by rw [abs_of_nonneg] <;> norm_num)
      have := (abs_le.1 hb).2
      rw [abs_of_nonneg (by norm_num)] at this
      norm_num at this ⊢
      linarith
    have := Real.arccos_le_arccos hcos
    rwa [Real.arccos_cos (by norm_num) (by linarith [Real.pi_gt_three])] at this
  have := Real.pi_gt_three
  linarith

/-- **C153**: a quaternion and its negative, which are the same orientation, never have the same
text. -/
theorem C153_sign (q : Quat ℝ) (hq : q.IsUnit) :
    rotMatrix q.neg = rotMatrix q ∧ quatRepr q.neg ≠ quatRepr q := by
  refine ⟨by ext i j; fin_cases i <;> fin_cases j <;> simp [rotMatrix, Quat.neg], ?_⟩
  intro h
  obtain ⟨h0, h1, h2, h3⟩ := same_text h
  have hq' : q.q0 ^ 2 + q.q1 ^ 2 + q.q2 ^ 2 + q.q3 ^ 2 = 1 := hq
  have s0 := sq_small h0
  have s1 := sq_small h1
  have s2 := sq_small h2
  have s3 := sq_small h3
  simp only [Quat.neg] at s0 s1 s2 s3
  norm_num at s0 s1 s2 s3
  nlinarith

/-! ### Non-vacuity -/

/-- No rotation at all, and a rotation by about 0.002 degrees: two orientations, one text. -/
noncomputable def exNear : Quat ℝ := ⟨9999999999 / 10000000001, 200000 / 10000000001, 0, 0⟩

example : (⟨1, 0, 0, 0⟩ : Quat ℝ).IsUnit ∧ exNear.IsUnit ∧ exNear ≠ ⟨1, 0, 0, 0⟩ ∧
    quatRepr exNear = quatRepr ⟨1, 0, 0, 0⟩ := by
  have h1 : npRound (|9999999999 / 10000000001| * 10 ^ 4 : ℝ) = npRound (|1| * 10 ^ 4 : ℝ) := by
    have f1 : ⌊(|9999999999 / 10000000001| * 10 ^ 4 : ℝ)⌋ = 9999 := by
      rw [Int.floor_eq_iff, abs_of_pos (by norm_num)]
      constructor <;> norm_num
    have f2 : ⌊(|1| * 10 ^ 4 : ℝ)⌋ = 10000 := by
      rw [Int.floor_eq_iff, abs_of_pos (by norm_num)]
      constructor <;> norm_num
    unfold npRound
    rw [f1, f2, abs_of_pos (by norm_num), abs_of_pos (by norm_num)]
    norm_num
  have h2 : npRound (|200000 / 10000000001| * 10 ^ 4 : ℝ) = npRound (|0| * 10 ^ 4 : ℝ) := by
    have f1 : ⌊(|200000 / 10000000001| * 10 ^ 4 : ℝ)⌋ = 0 := by
      rw [Int.floor_eq_iff, abs_of_pos (by norm_num)]
      constructor <;> norm_num
    unfold npRound
    rw [f1, abs_of_pos (by norm_num)]
    norm_num
  refine ⟨by norm_num [Quat.IsUnit], by norm_num [Quat.IsUnit, exNear], ?_, ?_⟩
  · intro h
    have := congrArg Quat.q1 h
    norm_num [exNear] at this
  · have e1 : fixedStr 4 (9999999999 / 10000000001) = fixedStr 4 1 := by
      unfold fixedStr
      rw [h1, if_neg (by norm_num), if_neg (by norm_num)]
    have e2 : fixedStr 4 (200000 / 10000000001) = fixedStr 4 0 := by
      unfold fixedStr
      rw [h2, if_neg (by norm_num), if_neg (by norm_num)]
    unfold quatRepr exNear
    rw [e1, e2]

end DefDAP
