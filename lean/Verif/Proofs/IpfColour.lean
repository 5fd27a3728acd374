import Verif.Model.IpfColour
import Verif.Props.FundCubic

/-! Geometry of inverse pole figure colours. -/

namespace DefDAP

open Quat

theorem arccosClip_nonneg (x : ℝ) : 0 ≤ arccosClip x := Real.arccos_nonneg _

theorem arccosClip_eq (x : ℝ) : arccosClip x = Real.arccos x := by
  unfold arccosClip
  rcases le_total x 1 with h | h
  · rw [min_eq_left h]
    rcases le_total (-1) x with h' | h'
    · rw [max_eq_right h']
    · rw [max_eq_left h', Real.arccos_neg_one, Real.arccos_of_le_neg_one h']
  · rw [min_eq_right h, max_eq_right (by norm_num), Real.arccos_one, Real.arccos_of_one_le h]

theorem arccosClip_zero {x : ℝ} : arccosClip x = 0 ↔ 1 ≤ x := by
  rw [arccosClip_eq, Real.arccos_eq_zero]

theorem arccosClip_side {x : ℝ} : Real.pi / 2 < arccosClip x ↔ x < 0 := by
  rw [arccosClip_eq, ← not_le, Real.arccos_le_pi_div_two, not_le]

/-- Of length one. -/
def UnitV (a : Vec) : Prop := dotV a a = 1

theorem dotV_self_nonneg (a : Vec) : 0 ≤ dotV a a := by
  unfold dotV; nlinarith [mul_self_nonneg (a 0), mul_self_nonneg (a 1), mul_self_nonneg (a 2)]

theorem dotV_self_zero {a : Vec} (h : dotV a a = 0) : a = fun _ => 0 := by
  unfold dotV at h
  have h0 := mul_self_nonneg (a 0)
  have h1 := mul_self_nonneg (a 1)
  have h2 := mul_self_nonneg (a 2)
  funext k
  fin_cases k <;> simp <;> nlinarith

/-- Two directions with a scalar product of one are equal. -/
theorem unitV_eq {a b : Vec} (ha : UnitV a) (hb : dotV b b ≤ 1) (h : 1 ≤ dotV a b) : a = b := by
  unfold UnitV dotV at *
  have : dotV (fun k => a k - b k) (fun k => a k - b k) = 0 := by
    apply le_antisymm _ (dotV_self_nonneg _)
    unfold dotV
    nlinarith
  have := dotV_self_zero this
  funext k
  have := congrFun this k
  linarith

/-- `(a × b) × c`. -/
theorem cross_cross (a b c : Vec) :
    crossV (crossV a b) c = fun k => dotV a c * b k - dotV b c * a k := by
  funext k
  fin_cases k <;> simp [crossV, dotV] <;> ring

theorem intersect_normal (dir p n : Vec) : dotV (ipfIntersect dir p n) n = 0 := by
  have e := cross_cross dir p n
  unfold ipfIntersect
  simp only [e, dotV]
  ring

theorem intersect_length (dir p n : Vec) : dotV (ipfIntersect dir p n) (ipfIntersect dir p n) ≤ 1 := by
  unfold ipfIntersect
  generalize crossV (crossV dir p) n = i
  by_cases h : Real.sqrt (dotV i i) = 0
  · simp only [if_pos h]
    have h0 : dotV i i = 0 := by
      have := Real.sqrt_eq_zero (dotV_self_nonneg i)
      exact this.1 h
    rw [dotV_self_zero h0]
    simp [dotV]
  · simp only [if_neg h]
    have hs := Real.mul_self_sqrt (dotV_self_nonneg i)
    have : dotV (fun k => i k / Real.sqrt (dotV i i)) (fun k => i k / Real.sqrt (dotV i i)) =
        dotV i i / (Real.sqrt (dotV i i) * Real.sqrt (dotV i i)) := by
      simp only [dotV]
      field_simp
    rw [this, hs, div_self]
    intro h0
    exact h (by rw [h0, Real.sqrt_zero])

theorem side_cases (dir i : Vec) :
    (ipfSide dir i = i ∧ 0 ≤ dotV dir i) ∨ (ipfSide dir i = (fun k => i k * -1) ∧ dotV dir i < 0) := by
  unfold ipfSide
  by_cases h : Real.pi / 2 < arccosClip (dotV dir i)
  · right; rw [if_pos h]; exact ⟨rfl, arccosClip_side.1 h⟩
  · left; rw [if_neg h]; exact ⟨rfl, not_lt.1 fun hh => h (arccosClip_side.2 hh)⟩

theorem side_normal (dir p n : Vec) : dotV (ipfSide dir (ipfIntersect dir p n)) n = 0 := by
  have h := intersect_normal dir p n
  rcases side_cases dir (ipfIntersect dir p n) with ⟨e, -⟩ | ⟨e, -⟩
  · rw [e, h]
  · rw [e]
    unfold dotV at *
    simp only
    linarith

theorem side_length (dir p n : Vec) :
    dotV (ipfSide dir (ipfIntersect dir p n)) (ipfSide dir (ipfIntersect dir p n)) ≤ 1 := by
  have h := intersect_length dir p n
  rcases side_cases dir (ipfIntersect dir p n) with ⟨e, -⟩ | ⟨e, -⟩
  · rw [e]; exact h
  · rw [e]
    unfold dotV at *
    simp only
    linarith

/-- The angle that divides is never zero. -/
theorem part_denominator {dir p n : Vec} (hp : UnitV p) (hn : dotV p n ≠ 0) :
    0 < arccosClip (dotV p (ipfSide dir (ipfIntersect dir p n))) := by
  apply lt_of_le_of_ne (arccosClip_nonneg _)
  intro h
  have h1 := arccosClip_zero.1 h.symm
  have e := unitV_eq hp (side_length dir p n) h1
  apply hn
  conv_lhs => rw [e]
  exact side_normal dir p n

theorem ipfPart_nonneg (dir p n : Vec) : 0 ≤ ipfPart dir p n :=
  div_nonneg (arccosClip_nonneg _) (arccosClip_nonneg _)

theorem intersect_of_side {dir p n : Vec} (hd : UnitV dir) (hn : dotV p n ≠ 0) (h : dotV dir n = 0) :
    ipfSide dir (ipfIntersect dir p n) = dir := by
  have e : ipfIntersect dir p n = fun k => (-dotV p n / |dotV p n|) * dir k := by
    unfold ipfIntersect
    rw [cross_cross, h]
    have e2 : dotV (fun k => 0 * p k - dotV p n * dir k) (fun k => 0 * p k - dotV p n * dir k) =
        dotV p n ^ 2 := by
      have hd' : dotV dir dir = 1 := hd
      generalize dotV p n = c
      simp only [dotV] at *
      linear_combination c ^ 2 * hd'
    funext k
    simp only [e2, Real.sqrt_sq_eq_abs]
    rw [if_neg (by simpa using hn)]
    ring
  have hd' : dotV dir dir = 1 := hd
  have hdot : dotV dir (ipfIntersect dir p n) = -dotV p n / |dotV p n| := by
    rw [e]
    generalize -dotV p n / |dotV p n| = c
    simp only [dotV] at *
    linear_combination c * hd'
  rcases lt_or_gt_of_ne hn with hlt | hgt
  · have hc : -dotV p n / |dotV p n| = 1 := by
      rw [abs_of_neg hlt, div_self]; linarith
    rcases side_cases dir (ipfIntersect dir p n) with ⟨e1, -⟩ | ⟨-, e2⟩
    · rw [e1, e, hc]; funext k; ring
    · rw [hdot, hc] at e2; linarith
  · have hc : -dotV p n / |dotV p n| = -1 := by
      rw [abs_of_pos hgt, neg_div, div_self]; linarith
    rcases side_cases dir (ipfIntersect dir p n) with ⟨-, e2⟩ | ⟨e1, -⟩
    · rw [hdot, hc] at e2; linarith
    · rw [e1, e, hc]; funext k; ring

/-- A component vanishes exactly on the plane through the other two corners. -/
theorem ipfPart_zero {dir p n : Vec} (hd : UnitV dir) (hp : UnitV p) (hn : dotV p n ≠ 0) :
    ipfPart dir p n = 0 ↔ dotV dir n = 0 := by
  have hden := part_denominator (dir := dir) hp hn
  unfold ipfPart
  simp only
  rw [div_eq_zero_iff, or_iff_left hden.ne', arccosClip_zero]
  constructor
  · intro h
    have e := unitV_eq hd (side_length dir p n) h
    conv_lhs => rw [e]
    exact side_normal dir p n
  · intro h
    rw [intersect_of_side hd hn h]
    exact le_of_eq hd.symm

/-! ### The corners -/

theorem sq2 : Real.sqrt 2 * Real.sqrt 2 = 2 := Real.mul_self_sqrt (by norm_num)
theorem sq3 : Real.sqrt 3 * Real.sqrt 3 = 3 := Real.mul_self_sqrt (by norm_num)
theorem sq2_pos : 0 < Real.sqrt 2 := Real.sqrt_pos.2 (by norm_num)
theorem sq3_pos : 0 < Real.sqrt 3 := Real.sqrt_pos.2 (by norm_num)

theorem unit_red (g : SymGroup) : UnitV (poleRed g) := by
  cases g <;> simp [UnitV, dotV, poleRed]

theorem unit_green (g : SymGroup) : UnitV (poleGreen g) := by
  have h := sq2; have p := sq2_pos
  cases g <;> simp [UnitV, dotV, poleGreen]
  field_simp
  nlinarith

theorem unit_blue (g : SymGroup) : UnitV (poleBlue g) := by
  have h := sq3; have p := sq3_pos
  cases g <;> simp [UnitV, dotV, poleBlue]
  · field_simp; nlinarith
  · nlinarith

/-- The corners of a triangle are independent. -/
theorem triple_ne (g : SymGroup) : dotV (poleRed g) (crossV (poleBlue g) (poleGreen g)) ≠ 0 := by
  have p := sq2_pos; have q := sq3_pos
  cases g <;> simp [dotV, crossV, poleRed, poleGreen, poleBlue]
  norm_num

theorem triple_green (g : SymGroup) : dotV (poleGreen g) (crossV (poleRed g) (poleBlue g)) ≠ 0 := by
  have h := triple_ne g
  intro hh
  apply h
  rw [← hh]
  simp [dotV, crossV]; ring

theorem triple_blue (g : SymGroup) : dotV (poleBlue g) (crossV (poleGreen g) (poleRed g)) ≠ 0 := by
  have h := triple_ne g
  intro hh
  apply h
  rw [← hh]
  simp [dotV, crossV]; ring

/-- A direction on all three sides is no direction. -/
theorem not_all_sides (g : SymGroup) {dir : Vec} (hd : UnitV dir)
    (h1 : dotV dir (crossV (poleBlue g) (poleGreen g)) = 0)
    (h2 : dotV dir (crossV (poleRed g) (poleBlue g)) = 0)
    (h3 : dotV dir (crossV (poleGreen g) (poleRed g)) = 0) : False := by
  have ht := triple_ne g
  generalize poleRed g = r at *
  generalize poleGreen g = s at *
  generalize poleBlue g = b at *
  have e : ∀ k, dotV r (crossV b s) * dir k =
      dotV dir (crossV b s) * r k + dotV dir (crossV r b) * s k + dotV dir (crossV s r) * b k := by
    intro k
    fin_cases k <;> simp [dotV, crossV] <;> ring
  have z : ∀ k, dir k = 0 := by
    intro k
    have := e k
    rw [h1, h2, h3] at this
    have : dotV r (crossV b s) * dir k = 0 := by rw [this]; ring
    exact (mul_eq_zero.1 this).resolve_left ht
  unfold UnitV dotV at hd
  rw [z 0, z 1, z 2] at hd
  norm_num at hd

theorem max3_pos (g : SymGroup) {dir : Vec} (hd : UnitV dir) :
    0 < max (max (ipfRaw g dir 0) (ipfRaw g dir 1)) (ipfRaw g dir 2) := by
  by_contra h
  have h0 : ipfRaw g dir 0 = 0 :=
    le_antisymm (le_trans (le_trans (le_max_left _ _) (le_max_left _ _)) (not_lt.1 h)) (ipfPart_nonneg _ _ _)
  have h1 : ipfRaw g dir 1 = 0 :=
    le_antisymm (le_trans (le_trans (le_max_right _ _) (le_max_left _ _)) (not_lt.1 h)) (ipfPart_nonneg _ _ _)
  have h2 : ipfRaw g dir 2 = 0 :=
    le_antisymm (le_trans (le_max_right _ _) (not_lt.1 h)) (ipfPart_nonneg _ _ _)
  exact not_all_sides g hd ((ipfPart_zero hd (unit_red g) (triple_ne g)).1 h0)
    ((ipfPart_zero hd (unit_green g) (triple_green g)).1 h1)
    ((ipfPart_zero hd (unit_blue g) (triple_blue g)).1 h2)

theorem raw_nonneg (g : SymGroup) (dir : Vec) (k : Fin 3) : 0 ≤ ipfRaw g dir k := by
  fin_cases k <;> exact ipfPart_nonneg _ _ _

theorem raw_le_max (g : SymGroup) (dir : Vec) (k : Fin 3) :
    ipfRaw g dir k ≤ max (max (ipfRaw g dir 0) (ipfRaw g dir 1)) (ipfRaw g dir 2) := by
  fin_cases k
  · exact le_trans (le_max_left _ _) (le_max_left _ _)
  · exact le_trans (le_max_right _ _) (le_max_left _ _)
  · exact le_max_right _ _

theorem max_is_raw (g : SymGroup) (dir : Vec) :
    ∃ k, ipfRaw g dir k = max (max (ipfRaw g dir 0) (ipfRaw g dir 1)) (ipfRaw g dir 2) := by
  rcases max_choice (max (ipfRaw g dir 0) (ipfRaw g dir 1)) (ipfRaw g dir 2) with h | h
  · rcases max_choice (ipfRaw g dir 0) (ipfRaw g dir 1) with h' | h'
    · exact ⟨0, by rw [h, h']⟩
    · exact ⟨1, by rw [h, h']⟩
  · exact ⟨2, by rw [h]⟩

theorem colour_range (g : SymGroup) {dir : Vec} (hd : UnitV dir) :
    (∀ k, 0 ≤ ipfColour g dir k ∧ ipfColour g dir k ≤ 1) ∧ ∃ k, ipfColour g dir k = 1 := by
  have hp := max3_pos g hd
  refine ⟨fun k => ⟨div_nonneg (raw_nonneg g dir k) hp.le, ?_⟩, ?_⟩
  · exact (div_le_one hp).2 (raw_le_max g dir k)
  · obtain ⟨k, hk⟩ := max_is_raw g dir
    exact ⟨k, by unfold ipfColour; rw [hk, div_self hp.ne']⟩

theorem colour_zero (g : SymGroup) {dir : Vec} (hd : UnitV dir) (k : Fin 3) :
    ipfColour g dir k = 0 ↔ ipfRaw g dir k = 0 := by
  have hp := max3_pos g hd
  unfold ipfColour
  rw [div_eq_zero_iff, or_iff_left hp.ne']

theorem dirVec_unit (ab : ℝ × ℝ) : UnitV (dirVec ab) := by
  have h1 := Real.sin_sq_add_cos_sq ab.1
  have h2 := Real.sin_sq_add_cos_sq ab.2
  simp [UnitV, dotV, dirVec]
  linear_combination h1 + Real.sin ab.1 ^ 2 * h2

end DefDAP
