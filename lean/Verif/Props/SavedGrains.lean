import Verif.Props.CtfRoundTrip
import Verif.Props.MisoriGrains
import Verif.Props.MisoriInvariant
import Verif.Props.Average

/-!
C138: grains of slightly different orientations, and of a map that is saved as CTF and loaded again.
-/

namespace DefDAP

open Quat Spec Matrix

/-! ### Specification -/

/-- The values of the pixels of a map; `o` outside. -/
def Spec.onMap {α : Type} (rows cols : Nat) (o : α) (f : Nat → Nat → α) : Img α :=
  fun y x => if 0 ≤ y ∧ y < rows ∧ 0 ≤ x ∧ x < cols then f y.toNat x.toNat else o

/-- Row `r` and column `c` of a list of values in row-major order. -/
def Spec.entry {α : Type} (cols : Nat) (o : α) (l : List α) (r c : Nat) : α :=
  l.getD (r * cols + c) o

/-- Two pixels side by side or one above the other. -/
def Spec.Touch (p q : Px) : Prop :=
  q = (p.1 + 1, p.2) ∨ q = (p.1, p.2 + 1)

/-! ### Angles between rotations -/

/-- The rotations of three quaternions: angles add at most. -/
theorem arccos_triangle {p q r : Quat ℝ} (hp : p.IsUnit) (hq : q.IsUnit) (hr : r.IsUnit) :
    Real.arccos |dot p r| ≤ Real.arccos |dot p q| + Real.arccos |dot q r| := by
  have hn : ∀ a : Quat ℝ, a.IsUnit → a.neg.IsUnit := by
    intro a ha
    rw [isUnit_iff] at ha ⊢
    rw [dot_neg_neg, ha]
  have key : ∀ p r : Quat ℝ, p.IsUnit → r.IsUnit → 0 ≤ dot p q → 0 ≤ dot q r →
      Real.arccos |dot p r| ≤ Real.arccos (dot p q) + Real.arccos (dot q r) := by
    intro p r hp hr h1 h2
    have b1 := abs_dot_le_one hp hq
    have b2 := abs_dot_le_one hq hr
    rw [abs_of_nonneg h1] at b1
    rw [abs_of_nonneg h2] at b2
    have hp' := (isUnit_iff p).1 hp
    have hq' := (isUnit_iff q).1 hq
    have hr' := (isUnit_iff r).1 hr
    have n1 := Real.arccos_nonneg (dot p q)
    have n2 := Real.arccos_nonneg (dot q r)
    have m1 := Real.arccos_le_pi_div_two.mpr h1
    have m2 := Real.arccos_le_pi_div_two.mpr h2
    have hcs : (dot p r - dot p q * dot q r) ^ 2 ≤ (1 - dot p q ^ 2) * (1 - dot q r ^ 2) := by
      have h := dot_sq_le
        (⟨p.q0 - dot p q * q.q0, p.q1 - dot p q * q.q1, p.q2 - dot p q * q.q2,
          p.q3 - dot p q * q.q3⟩ : Quat ℝ)
        (⟨r.q0 - dot q r * q.q0, r.q1 - dot q r * q.q1, r.q2 - dot q r * q.q2,
          r.q3 - dot q r * q.q3⟩ : Quat ℝ)
      have gen : ∀ a b : ℝ, dot
          (⟨p.q0 - a * q.q0, p.q1 - a * q.q1, p.q2 - a * q.q2, p.q3 - a * q.q3⟩ : Quat ℝ)
          (⟨r.q0 - b * q.q0, r.q1 - b * q.q1, r.q2 - b * q.q2, r.q3 - b * q.q3⟩ : Quat ℝ) =
          dot p r - b * dot p q - a * dot q r + a * b * dot q q := by
        intro a b; simp only [dot]; ring
      have gen1 : ∀ a : ℝ, dot
          (⟨p.q0 - a * q.q0, p.q1 - a * q.q1, p.q2 - a * q.q2, p.q3 - a * q.q3⟩ : Quat ℝ)
          (⟨p.q0 - a * q.q0, p.q1 - a * q.q1, p.q2 - a * q.q2, p.q3 - a * q.q3⟩ : Quat ℝ) =
          dot p p - 2 * a * dot p q + a * a * dot q q := by
        intro a; simp only [dot]; ring
      have gen2 : ∀ b : ℝ, dot
          (⟨r.q0 - b * q.q0, r.q1 - b * q.q1, r.q2 - b * q.q2, r.q3 - b * q.q3⟩ : Quat ℝ)
          (⟨r.q0 - b * q.q0, r.q1 - b * q.q1, r.q2 - b * q.q2, r.q3 - b * q.q3⟩ : Quat ℝ) =
          dot r r - 2 * b * dot q r + b * b * dot q q := by
        intro b; simp only [dot]; ring
      rw [gen, gen1, gen2, hp', hq', hr'] at h
      nlinarith [h]
    have hcos : Real.cos (Real.arccos (dot p q) + Real.arccos (dot q r)) ≤ dot p r := by
      rw [Real.cos_add, Real.cos_arccos (by linarith) b1, Real.cos_arccos (by linarith) b2,
        Real.sin_arccos, Real.sin_arccos]
      have s1 : 0 ≤ 1 - dot p q ^ 2 := by nlinarith
      have s2 : 0 ≤ 1 - dot q r ^ 2 := by nlinarith
      rw [← Real.sqrt_mul s1]
      have := Real.abs_le_sqrt hcs
      have := (abs_le.1 this).1
      linarith
    calc Real.arccos |dot p r| ≤ Real.arccos (dot p r) := Real.arccos_le_arccos (le_abs_self _)
      _ ≤ Real.arccos (Real.cos (Real.arccos (dot p q) + Real.arccos (dot q r))) :=
        Real.arccos_le_arccos hcos
      _ = _ := Real.arccos_cos (by linarith) (by linarith)
  have pick : ∀ a : Quat ℝ, a.IsUnit → ∃ b : Quat ℝ, b.IsUnit ∧ (b = a ∨ b = a.neg) ∧
      dot q b = |dot q a| := by
    intro a ha
    rcases abs_cases (dot q a) with ⟨e, -⟩ | ⟨e, -⟩
    · exact ⟨a, ha, Or.inl rfl, e.symm⟩
    · exact ⟨a.neg, hn a ha, Or.inr rfl, by rw [dot_neg_right, e]⟩
  obtain ⟨p', hp', ep, dp⟩ := pick p hp
  obtain ⟨r', hr', er, dr⟩ := pick r hr
  have h := key p' r' hp' hr' (by rw [dot_comm, dp]; exact abs_nonneg _)
    (by rw [dr]; exact abs_nonneg _)
  rw [dot_comm p' q, dp, dr] at h
  rw [dot_comm p q]
  refine le_trans (le_of_eq ?_) h
  congr 1
  rcases ep with rfl | rfl <;> rcases er with rfl | rfl <;>
    simp [dot_neg_left, dot_neg_right]

theorem dot_mulRaw_left {s : Quat ℝ} (hs : s.IsUnit) (p q : Quat ℝ) :
    dot (mulRaw s p) (mulRaw s q) = dot p q := by
  have h := (isUnit_iff s).1 hs
  have : dot (mulRaw s p) (mulRaw s q) = dot s s * dot p q := by
    simp only [dot, mulRaw]; ring
  rw [this, h, one_mul]

/-- Close orientations stay close, up to the changes of the two. -/
theorem close_near (g : SymGroup) {p q p' q' : Quat ℝ} (hp : p.IsUnit) (hq : q.IsUnit)
    (hp' : p'.IsUnit) (hq' : q'.IsUnit) {t a b : ℝ}
    (h1 : rotationAngle (rotMatrix p * (rotMatrix p')ᵀ) ≤ a * (Real.pi / 180))
    (h2 : rotationAngle (rotMatrix q * (rotMatrix q')ᵀ) ≤ b * (Real.pi / 180))
    (h : Close g t (rotMatrix p) (rotMatrix q)) : Close g (t + a + b) (rotMatrix p') (rotMatrix q') := by
  obtain ⟨S, hS, h⟩ := h
  refine ⟨S, hS, ?_⟩
  obtain ⟨s, hs, rfl⟩ := (crystalRotation_iff g S).mp hS
  have hu := (symEqv_table g).unit s hs
  rw [← rotMatrix_mulRaw, rotationAngle_eq hp (isUnit_mulRaw hu hq)] at h
  rw [rotationAngle_eq hp hp'] at h1
  rw [rotationAngle_eq hq hq'] at h2
  rw [← rotMatrix_mulRaw, rotationAngle_eq hp' (isUnit_mulRaw hu hq')]
  have t1 := arccos_triangle hp' hp (isUnit_mulRaw hu hq')
  have t2 := arccos_triangle hp (isUnit_mulRaw hu hq) (isUnit_mulRaw hu hq')
  rw [dot_mulRaw_left hu] at t2
  rw [dot_comm p' p] at t1
  linarith

theorem angle_symm {p q : Quat ℝ} (hp : p.IsUnit) (hq : q.IsUnit) :
    rotationAngle (rotMatrix p * (rotMatrix q)ᵀ) = rotationAngle (rotMatrix q * (rotMatrix p)ᵀ) := by
  rw [rotationAngle_eq hp hq, rotationAngle_eq hq hp, dot_comm]

/-! ### Euler angles -/

theorem arccos_abs_cos_le (x : ℝ) : Real.arccos |Real.cos x| ≤ |x| := by
  rcases le_total |x| (Real.pi / 2) with h | h
  · have h0 := abs_nonneg x
    have hpi := Real.pi_pos
    have : 0 ≤ Real.cos x := by
      rw [← Real.cos_abs]
      exact Real.cos_nonneg_of_mem_Icc ⟨by linarith, h⟩
    rw [abs_of_nonneg this, ← Real.cos_abs, Real.arccos_cos h0 (by linarith)]
  · exact le_trans (Real.arccos_le_pi_div_two.mpr (abs_nonneg _)) h

/-- Orientations with slightly different Euler angles. -/
theorem euler_near (a b c a' b' c' : ℝ) :
    rotationAngle (rotMatrix (fromEuler a b c) * (rotMatrix (fromEuler a' b' c'))ᵀ) ≤
      |a - a'| + |b - b'| + |c - c'| := by
  rw [rotationAngle_eq (C37_unit a b c).1 (C37_unit a' b' c').1]
  have u := eulerRaw_unit
  have e : |dot (fromEuler a b c) (fromEuler a' b' c')| =
      |dot (eulerRaw a b c) (eulerRaw a' b' c')| := by
    rw [fromEuler_eq, fromEuler_eq, abs_dot_make, dot_comm, abs_dot_make, dot_comm]
  rw [e]
  have d1 : dot (eulerRaw a b c) (eulerRaw a' b c) = Real.cos ((a - a') / 2) := by
    have h := Real.sin_sq_add_cos_sq (b / 2)
    have e1 := Real.cos_sub ((a + c) / 2) ((a' + c) / 2)
    have e2 := Real.cos_sub ((a - c) / 2) ((a' - c) / 2)
    rw [show (a + c) / 2 - (a' + c) / 2 = (a - a') / 2 by ring] at e1
    rw [show (a - c) / 2 - (a' - c) / 2 = (a - a') / 2 by ring] at e2
    simp only [dot, eulerRaw]
    linear_combination (-Real.cos (b / 2) ^ 2) * e1 - Real.sin (b / 2) ^ 2 * e2 +
      Real.cos ((a - a') / 2) * h
  have d3 : dot (eulerRaw a' b' c) (eulerRaw a' b' c') = Real.cos ((c - c') / 2) := by
    have h := Real.sin_sq_add_cos_sq (b' / 2)
    have e1 := Real.cos_sub ((a' + c) / 2) ((a' + c') / 2)
    have e2 := Real.cos_sub ((a' - c') / 2) ((a' - c) / 2)
    rw [show (a' + c) / 2 - (a' + c') / 2 = (c - c') / 2 by ring] at e1
    rw [show (a' - c') / 2 - (a' - c) / 2 = (c - c') / 2 by ring] at e2
    simp only [dot, eulerRaw]
    linear_combination (-Real.cos (b' / 2) ^ 2) * e1 - Real.sin (b' / 2) ^ 2 * e2 +
      Real.cos ((c - c') / 2) * h
  have d2 : dot (eulerRaw a' b c) (eulerRaw a' b' c) = Real.cos ((b - b') / 2) := by
    have h1 := Real.sin_sq_add_cos_sq ((a' + c) / 2)
    have h2 := Real.sin_sq_add_cos_sq ((a' - c) / 2)
    have e1 := Real.cos_sub (b / 2) (b' / 2)
    rw [show b / 2 - b' / 2 = (b - b') / 2 by ring] at e1
    simp only [dot, eulerRaw]
    linear_combination Real.cos (b / 2) * Real.cos (b' / 2) * h1 +
      Real.sin (b / 2) * Real.sin (b' / 2) * h2 - e1
  have t1 := arccos_triangle (u a b c) (u a' b c) (u a' b' c')
  have t2 := arccos_triangle (u a' b c) (u a' b' c) (u a' b' c')
  rw [d1] at t1
  rw [d2, d3] at t2
  have l1 := arccos_abs_cos_le ((a - a') / 2)
  have l2 := arccos_abs_cos_le ((b - b') / 2)
  have l3 := arccos_abs_cos_le ((c - c') / 2)
  rw [abs_div, abs_two] at l1 l2 l3
  linarith

/-! ### Grains -/

section Stable

variable {h w : Nat} {g : SymGroup} {ori ori' : Img (Quat ℝ)} {phase : Img Int} {tol δ : ℝ}

/-- **C138 (misorientations).** If every orientation changes by at most `δ` degrees, the smallest
misorientation of two pixels changes by at most `2 δ` degrees. -/
theorem C138_misorientation (hunit : ∀ p : Px, InMap h w p → (ori p.2 p.1).IsUnit)
    (hunit' : ∀ p : Px, InMap h w p → (ori' p.2 p.1).IsUnit)
    (hδ : ∀ p : Px, InMap h w p → rotationAngle (rotMatrix (ori p.2 p.1) *
      (rotMatrix (ori' p.2 p.1))ᵀ) ≤ δ * (Real.pi / 180))
    (p q : Px) (hp : InMap h w p) (hq : InMap h w q) (t : ℝ) :
    (Close g t (rotMatrix (ori p.2 p.1)) (rotMatrix (ori q.2 q.1)) →
      Close g (t + 2 * δ) (rotMatrix (ori' p.2 p.1)) (rotMatrix (ori' q.2 q.1))) ∧
    (Close g t (rotMatrix (ori' p.2 p.1)) (rotMatrix (ori' q.2 q.1)) →
      Close g (t + 2 * δ) (rotMatrix (ori p.2 p.1)) (rotMatrix (ori q.2 q.1))) := by
  constructor
  · intro h
    have := close_near g (hunit p hp) (hunit q hq) (hunit' p hp) (hunit' q hq) (hδ p hp) (hδ q hq) h
    rwa [show t + 2 * δ = t + δ + δ by ring]
  · intro h
    have := close_near g (hunit' p hp) (hunit' q hq) (hunit p hp) (hunit q hq)
      (by rw [angle_symm (hunit' p hp) (hunit p hp)]; exact hδ p hp)
      (by rw [angle_symm (hunit' q hq) (hunit q hq)]; exact hδ q hq) h
    rwa [show t + 2 * δ = t + δ + δ by ring]

/-- **C138 (stability).** If every orientation changes by at most `δ` degrees and no misorientation of
two neighbours of one phase is within `2 δ` degrees of the tolerance, the boundaries and the grains, with
their numbers, points and order, are the same. -/
theorem C138_stable (hunit : ∀ p : Px, InMap h w p → (ori p.2 p.1).IsUnit)
    (hunit' : ∀ p : Px, InMap h w p → (ori' p.2 p.1).IsUnit)
    (hδ : ∀ p : Px, InMap h w p → rotationAngle (rotMatrix (ori p.2 p.1) *
      (rotMatrix (ori' p.2 p.1))ᵀ) ≤ δ * (Real.pi / 180))
    (htol : 0 ≤ tol)
    (hgap : ∀ p q : Px, InMap h w p → InMap h w q → Touch p q → phase p.2 p.1 = phase q.2 q.1 →
      Close g (tol + 2 * δ) (rotMatrix (ori p.2 p.1)) (rotMatrix (ori q.2 q.1)) →
      Close g (tol - 2 * δ) (rotMatrix (ori p.2 p.1)) (rotMatrix (ori q.2 q.1)))
    (numPhases minSize : Nat) :
    boundariesOf h w g ori' phase tol = boundariesOf h w g ori phase tol ∧
    grainsOf h w g ori' phase numPhases tol minSize = grainsOf h w g ori phase numPhases tol minSize := by
  have hpi : (0 : ℝ) < Real.pi / 180 := by have := Real.pi_pos; positivity
  have hmono : ∀ (p q : Px) (s t : ℝ), s ≤ t →
      Close g s (rotMatrix (ori p.2 p.1)) (rotMatrix (ori q.2 q.1)) →
      Close g t (rotMatrix (ori p.2 p.1)) (rotMatrix (ori q.2 q.1)) := by
    rintro p q s t hst ⟨S, hS, h⟩
    exact ⟨S, hS, h.trans (mul_le_mul_of_nonneg_right hst hpi.le)⟩
  have key : ∀ p q : Px, InMap h w p → InMap h w q → Touch p q → phase p.2 p.1 = phase q.2 q.1 →
      (Close g tol (rotMatrix (ori' p.2 p.1)) (rotMatrix (ori' q.2 q.1)) ↔
        Close g tol (rotMatrix (ori p.2 p.1)) (rotMatrix (ori q.2 q.1))) := by
    intro p q hp hq ht he
    have hδ0 : 0 ≤ δ := by
      have h1 := hδ p hp
      have h2 : 0 ≤ rotationAngle (rotMatrix (ori p.2 p.1) * (rotMatrix (ori' p.2 p.1))ᵀ) :=
        Real.arccos_nonneg _
      by_contra hn
      have := mul_neg_of_neg_of_pos (not_le.1 hn) hpi
      linarith
    constructor
    · intro hc
      have := (C138_misorientation (g := g) hunit hunit' hδ p q hp hq tol).2 hc
      exact hmono p q _ _ (by linarith) (hgap p q hp hq ht he this)
    · intro hc
      have h1 := hgap p q hp hq ht he (hmono p q _ _ (by linarith) hc)
      have := (C138_misorientation (g := g) hunit hunit' hδ p q hp hq (tol - 2 * δ)).1 h1
      rwa [show tol - 2 * δ + 2 * δ = tol by ring] at this
  have hB : boundariesOf h w g ori' phase tol = boundariesOf h w g ori phase tol := by
    have hbd : ∀ (below : Bool) (p : Px),
        BoundaryAt h w g (fun p => rotMatrix (ori' p.2 p.1)) phase tol below p ↔
          BoundaryAt h w g (fun p => rotMatrix (ori p.2 p.1)) phase tol below p := by
      intro below p
      simp only [BoundaryAt]
      constructor
      · rintro ⟨a, b, c⟩
        refine ⟨a, b, fun ⟨d, e⟩ => c ⟨d, (key _ _ a b ?_ d).2 e⟩⟩
        cases below <;> simp [Touch]
      · rintro ⟨a, b, c⟩
        refine ⟨a, b, fun ⟨d, e⟩ => c ⟨d, (key _ _ a b ?_ d).1 e⟩⟩
        cases below <;> simp [Touch]
    have hx : nonzeroT h w (grainBoundaryX w (fun p q : Px => neighbourAngle (symEqv g)
          (ori' p.2 p.1) (ori' q.2 q.1)) phase (tol * (Real.pi / 180))) =
        nonzeroT h w (grainBoundaryX w (fun p q : Px => neighbourAngle (symEqv g)
          (ori p.2 p.1) (ori q.2 q.1)) phase (tol * (Real.pi / 180))) := by
      apply nonzeroT_congr
      intro p hp
      have h1 := (C128_boundary (g := g) (phase := phase) hunit htol p).1
      have h2 := (C128_boundary (g := g) (phase := phase) hunit' htol p).1
      rw [hbd, ← h1] at h2
      have h3 := (mem_nonzeroT (h := h) (w := w) (im := grainBoundaryX w (fun p q : Px =>
        neighbourAngle (symEqv g) (ori' p.2 p.1) (ori' q.2 q.1)) phase (tol * (Real.pi / 180)))
        (p := p)).symm.trans (h2.trans mem_nonzeroT)
      rw [Bool.eq_iff_iff]
      exact ⟨fun e => (h3.1 ⟨hp, e⟩).2, fun e => (h3.2 ⟨hp, e⟩).2⟩
    have hy : nonzeroT h w (grainBoundaryY h (fun p q : Px => neighbourAngle (symEqv g)
          (ori' p.2 p.1) (ori' q.2 q.1)) phase (tol * (Real.pi / 180))) =
        nonzeroT h w (grainBoundaryY h (fun p q : Px => neighbourAngle (symEqv g)
          (ori p.2 p.1) (ori q.2 q.1)) phase (tol * (Real.pi / 180))) := by
      apply nonzeroT_congr
      intro p hp
      have h1 := (C128_boundary (g := g) (phase := phase) hunit htol p).2
      have h2 := (C128_boundary (g := g) (phase := phase) hunit' htol p).2
      rw [hbd, ← h1] at h2
      have h3 := (mem_nonzeroT (h := h) (w := w) (im := grainBoundaryY h (fun p q : Px =>
        neighbourAngle (symEqv g) (ori' p.2 p.1) (ori' q.2 q.1)) phase (tol * (Real.pi / 180)))
        (p := p)).symm.trans (h2.trans mem_nonzeroT)
      rw [Bool.eq_iff_iff]
      exact ⟨fun e => (h3.1 ⟨hp, e⟩).2, fun e => (h3.2 ⟨hp, e⟩).2⟩
    unfold boundariesOf findBoundaries BoundarySet.fromImage
    rw [hx, hy]
  refine ⟨hB, ?_⟩
  unfold grainsOf
  rw [hB]

end Stable

/-! ### The saved map -/

theorem pixels_entry {rows cols r c : Nat} (hr : r < rows) (hc : c < cols) :
    (Spec.pixels rows cols)[r * cols + c]? = some (r, c) := by
  unfold Spec.pixels
  induction rows generalizing r with
  | zero => omega
  | succ n ih =>
    have hlen : ((List.range n).flatMap fun r => (List.range cols).map fun c => (r, c)).length =
        n * cols := pixels_length n cols
    rw [List.range_succ, List.flatMap_append]
    rcases Nat.lt_or_ge r n with h | h
    · rw [List.getElem?_append_left]
      · exact ih h
      · rw [hlen]
        calc r * cols + c < r * cols + cols := by omega
          _ = (r + 1) * cols := by ring
          _ ≤ n * cols := Nat.mul_le_mul_right _ h
    · have : r = n := by omega
      subst this
      rw [List.getElem?_append_right (by rw [hlen]; omega), hlen]
      simp [hc]

theorem roundedAngle_near {b a : ℝ} (h : Spec.RoundedAngle b a) :
    |a - b| ≤ 0.0005 * (Real.pi / 180) := by
  have hpi := Real.pi_pos
  obtain ⟨d, ⟨-, h⟩, rfl⟩ := h
  have e : a - d * Real.pi / 180 = -(d - a * 180 / Real.pi) * (Real.pi / 180) := by
    field_simp; ring
  rw [e, abs_mul, abs_neg, abs_of_pos (by positivity : 0 < Real.pi / 180)]
  refine mul_le_mul_of_nonneg_right (h.trans ?_) (by positivity)
  norm_num

/-- **C138 (saved and loaded).** A map is saved as CTF and loaded again. The loaded phases are those of
the map, every loaded orientation is at most 0.0015 degrees from the orientation in the map, and the
boundaries and grains found are the same for every tolerance that is not within 0.003 degrees of the
misorientation of two neighbours of one phase. -/
theorem C138_saved (m : CtfMap) (hm : Spec.Writable m) (hp : m.phases ≠ [])
    (hunit : ∀ r c, r < m.rows → c < m.cols → (m.quat r c).IsUnit) :
    ∃ text d, writeCtf false m = .ok text ∧ loadCtf text = .ok d ∧
      let q : Nat → Nat → Quat ℝ := fun r c =>
        let e := entry m.cols (0, 0, 0) d.euler r c
        fromEuler e.1 e.2.1 e.2.2
      let phase : Img Int := onMap m.rows m.cols 0 fun r c => (m.phase r c : Int)
      let ori : Img (Quat ℝ) := onMap m.rows m.cols ⟨1, 0, 0, 0⟩ m.quat
      (∀ r c, r < m.rows → c < m.cols → entry m.cols 0 d.phase r c = (m.phase r c : ℚ)) ∧
      (∀ r c, r < m.rows → c < m.cols →
        rotationAngle (rotMatrix (m.quat r c) * (rotMatrix (q r c))ᵀ) ≤ 0.0015 * (Real.pi / 180)) ∧
      ∀ (g : SymGroup) (tol : ℝ), 0 ≤ tol →
        (∀ p p' : Px, InMap m.rows m.cols p → InMap m.rows m.cols p' → Touch p p' →
          phase p.2 p.1 = phase p'.2 p'.1 →
          Close g (tol + 0.003) (rotMatrix (ori p.2 p.1)) (rotMatrix (ori p'.2 p'.1)) →
          Close g (tol - 0.003) (rotMatrix (ori p.2 p.1)) (rotMatrix (ori p'.2 p'.1))) →
        ∀ numPhases minSize : Nat,
        boundariesOf m.rows m.cols g (onMap m.rows m.cols ⟨1, 0, 0, 0⟩ q)
            (onMap m.rows m.cols 0 fun r c => ⌊entry m.cols 0 d.phase r c⌋) tol =
          boundariesOf m.rows m.cols g ori phase tol ∧
        grainsOf m.rows m.cols g (onMap m.rows m.cols ⟨1, 0, 0, 0⟩ q)
            (onMap m.rows m.cols 0 fun r c => ⌊entry m.cols 0 d.phase r c⌋) numPhases tol minSize =
          grainsOf m.rows m.cols g ori phase numPhases tol minSize := by
  obtain ⟨text, d, hw, hl, -, -, -, -, -, hph, -, -, -, heul, -⟩ := C65_round_trip m hm hp
  have hphase : ∀ r c, r < m.rows → c < m.cols → entry m.cols 0 d.phase r c = (m.phase r c : ℚ) := by
    intro r c hr hc
    unfold entry
    rw [hph, List.getD_eq_getElem?_getD, List.getElem?_map, pixels_entry hr hc]
    rfl
  have hnear : ∀ r c, r < m.rows → c < m.cols →
      rotationAngle (rotMatrix (m.quat r c) * (rotMatrix (fromEuler
        (entry m.cols (0, 0, 0) d.euler r c).1 (entry m.cols (0, 0, 0) d.euler r c).2.1
        (entry m.cols (0, 0, 0) d.euler r c).2.2))ᵀ) ≤ 0.0015 * (Real.pi / 180) := by
    intro r c hr hc
    have hc2 : Spec.CloseAngles (entry m.cols (0, 0, 0) d.euler r c) (m.quat r c).eulerAngles := by
      have hpx := pixels_entry hr hc
      obtain ⟨hlen, hall⟩ := List.forall₂_iff_get.1 heul
      obtain ⟨hi, he⟩ := List.getElem?_eq_some_iff.1 hpx
      have := hall (r * m.cols + c) hi (by rw [← hlen]; exact hi)
      rw [List.get_eq_getElem, List.get_eq_getElem, he] at this
      unfold entry
      rw [List.getD_eq_getElem?_getD, List.getElem?_eq_getElem (by rw [← hlen]; exact hi)]
      exact this
    obtain ⟨h1, h2, h3⟩ := hc2
    rw [← (C37_roundtrip (m.quat r c) (hunit r c hr hc)).2.2]
    refine (euler_near _ _ _ _ _ _).trans ?_
    have := roundedAngle_near h1
    have := roundedAngle_near h2
    have := roundedAngle_near h3
    linarith
  refine ⟨text, d, hw, hl, hphase, hnear, ?_⟩
  intro g tol htol hgap numPhases minSize
  have hsame : (onMap m.rows m.cols 0 fun r c => ⌊entry m.cols 0 d.phase r c⌋) =
      onMap m.rows m.cols 0 fun r c => (m.phase r c : Int) := by
    funext y x
    unfold onMap
    split_ifs with hin
    · dsimp only
      rw [hphase y.toNat x.toNat (by omega) (by omega)]
      simp
    · rfl
  rw [hsame]
  have hon : ∀ (f : Nat → Nat → Quat ℝ) (p : Px), InMap m.rows m.cols p →
      onMap m.rows m.cols ⟨1, 0, 0, 0⟩ f p.2 p.1 = f p.2.toNat p.1.toNat := by
    rintro f p ⟨a, b, c, e⟩
    unfold onMap
    rw [if_pos ⟨c, e, a, b⟩]
  have hin : ∀ p : Px, InMap m.rows m.cols p → p.2.toNat < m.rows ∧ p.1.toNat < m.cols := by
    rintro p ⟨a, b, c, e⟩
    omega
  refine C138_stable (δ := 0.0015) ?_ ?_ ?_ htol ?_ numPhases minSize
  · intro p hp
    rw [hon _ p hp]
    exact hunit _ _ (hin p hp).1 (hin p hp).2
  · intro p hp
    rw [hon _ p hp]
    exact (C37_unit _ _ _).1
  · intro p hp
    rw [hon _ p hp, hon _ p hp]
    exact hnear _ _ (hin p hp).1 (hin p hp).2
  · intro p p' h1 h2 h3 h4
    have e : (2 : ℝ) * 0.0015 = 0.003 := by norm_num
    rw [e]
    exact hgap p p' h1 h2 h3 h4

/-- A hexagonal map with one pixel turned by 30 degrees can be saved, and no misorientation is near a
tolerance of 10 degrees. -/
example : ∃ m : CtfMap, Spec.Writable m ∧ m.phases ≠ [] ∧ 2 ≤ m.rows ∧ 2 ≤ m.cols ∧
    (∀ r c, r < m.rows → c < m.cols → (m.quat r c).IsUnit) ∧
    (∀ p p' : Px, InMap m.rows m.cols p → InMap m.rows m.cols p' → Touch p p' →
      Close .hexagonal (10 + 0.003) (rotMatrix (onMap m.rows m.cols ⟨1, 0, 0, 0⟩ m.quat p.2 p.1))
        (rotMatrix (onMap m.rows m.cols ⟨1, 0, 0, 0⟩ m.quat p'.2 p'.1)) →
      Close .hexagonal (10 - 0.003) (rotMatrix (onMap m.rows m.cols ⟨1, 0, 0, 0⟩ m.quat p.2 p.1))
        (rotMatrix (onMap m.rows m.cols ⟨1, 0, 0, 0⟩ m.quat p'.2 p'.1))) ∧
    ¬ Close .hexagonal 10 (rotMatrix (m.quat 0 0)) (rotMatrix (m.quat 0 1)) := by
  refine ⟨⟨2, 2, 1, ⟨1, 0, 0, 0⟩, [⟨lit "Zr", 9, 0, fun _ => 1, fun _ => 1⟩], fun _ _ => 1,
    fun _ _ => 100, fun r c => if r = 0 ∧ c = 0 then quarterTurn else ⟨1, 0, 0, 0⟩⟩,
    ?_, by simp, le_refl _, le_refl _, ?_, ?_, ?_⟩
  · refine ⟨?_, fun r c _ _ => ⟨by norm_num, by norm_num⟩⟩
    intro p hp
    simp only [List.mem_singleton] at hp
    subst hp
    exact ⟨Or.inl rfl, by decide +kernel, by decide +kernel⟩
  · intro r c _ _
    dsimp only
    split_ifs
    · exact quarterTurn_unit
    · exact one_unit
  · intro p p' h1 h2 ht hc
    have hself : Close .hexagonal (10 - 0.003) (rotMatrix ⟨1, 0, 0, 0⟩) (rotMatrix ⟨1, 0, 0, 0⟩) := by
      refine ⟨rotMatrix ⟨1, 0, 0, 0⟩, (crystalRotation_iff _ _).2 ⟨_, List.mem_of_mem_head? ?_, rfl⟩, ?_⟩
      · exact (symEqv_table .hexagonal).head
      · rw [← rotMatrix_mulRaw, mul_one_left, rotationAngle_eq one_unit one_unit]
        have hpi := Real.pi_pos
        have : dot (⟨1, 0, 0, 0⟩ : Quat ℝ) ⟨1, 0, 0, 0⟩ = 1 := by norm_num [dot]
        rw [this, abs_one, Real.arccos_one, mul_zero]
        have : (0 : ℝ) ≤ 10 - 0.003 := by norm_num
        positivity
    obtain ⟨a, b, c, e⟩ := h1
    obtain ⟨a', b', c', e'⟩ := h2
    have hv : ∀ p : Px, 0 ≤ p.2 ∧ p.2 < ((2 : Nat) : Int) ∧ 0 ≤ p.1 ∧ p.1 < ((2 : Nat) : Int) →
        onMap 2 2 (⟨1, 0, 0, 0⟩ : Quat ℝ) (fun r c => if r = 0 ∧ c = 0 then quarterTurn
          else ⟨1, 0, 0, 0⟩) p.2 p.1 =
        if p = (0, 0) then quarterTurn else ⟨1, 0, 0, 0⟩ := by
      rintro ⟨x, y⟩ hp
      unfold onMap
      rw [if_pos hp]
      have hiff : (y.toNat = 0 ∧ x.toNat = 0) ↔ ((x, y) : Px) = (0, 0) := by
        rw [Prod.mk.injEq]
        have h1 := hp.1
        have h2 := hp.2.2.1
        dsimp only at h1 h2
        omega
      simp only [hiff]
    dsimp only at hc ⊢
    rw [hv p ⟨c, e, a, b⟩, hv p' ⟨c', e', a', b'⟩] at hc ⊢
    have hne : p' ≠ (0, 0) := by
      rintro rfl
      rcases ht with h | h <;> simp only [Prod.mk.injEq] at h <;> omega
    rw [if_neg hne] at hc ⊢
    by_cases h0 : p = (0, 0)
    · rw [if_pos h0] at hc
      exact absurd hc (quarterTurn_prism (by norm_num))
    · rw [if_neg h0]
      exact hself
  · simpa using quarterTurn_prism (tol := 10) (by norm_num)

end DefDAP
