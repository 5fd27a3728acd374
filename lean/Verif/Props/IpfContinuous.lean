import Mathlib.Topology.MetricSpace.ProperSpace.Lemmas
import Mathlib.Topology.UniformSpace.HeineCantor
import Mathlib.Geometry.Euclidean.Angle.Unoriented.TriangleInequality
import Mathlib.Analysis.InnerProductSpace.PiL2
import Verif.Props.IpfNear

/-! C164: inverse pole figure colours of orientations close to each other. -/

namespace DefDAP
open Spec Quat Matrix

/-! ### Geometry -/

theorem dotV_smul (a : ℝ) (u v : Vec) : dotV u (fun k => a * v k) = a * dotV u v := by
  simp only [dotV]; ring

theorem dotV_comm (u v : Vec) : dotV u v = dotV v u := by
  simp only [dotV]; ring

theorem dotV_cauchy (u v : Vec) : dotV u v ^ 2 ≤ dotV u u * dotV v v := by
  simp only [dotV]
  nlinarith [sq_nonneg (u 0 * v 1 - u 1 * v 0), sq_nonneg (u 0 * v 2 - u 2 * v 0),
    sq_nonneg (u 1 * v 2 - u 2 * v 1)]

theorem angle_triangle {a b c : Vec} (ha : UnitV a) (hb : UnitV b) (hc : UnitV c) :
    Real.arccos (dotV a c) ≤ Real.arccos (dotV a b) + Real.arccos (dotV b c) := by
  have key : ∀ u v : Vec, UnitV u → UnitV v →
      InnerProductGeometry.angle (WithLp.toLp 2 u) (WithLp.toLp 2 v) = Real.arccos (dotV u v) := by
    intro u v hu hv
    have n : ∀ w : Vec, UnitV w → ‖WithLp.toLp 2 w‖ = 1 := by
      intro w hw
      rw [EuclideanSpace.norm_eq, Fin.sum_univ_three]
      unfold UnitV dotV at hw
      simp only [Real.norm_eq_abs, sq_abs]
      rw [show w 0 ^ 2 + w 1 ^ 2 + w 2 ^ 2 = 1 by linarith, Real.sqrt_one]
    unfold InnerProductGeometry.angle
    rw [n u hu, n v hv]
    simp [dotV, PiLp.inner_apply, Fin.sum_univ_three]
    congr 1
    ring
  rw [← key a c ha hc, ← key a b ha hb, ← key b c hb hc]
  exact InnerProductGeometry.angle_le_angle_add_angle _ _ _

/-- The directions in the sphere whose height over the side opposite to `p` is at most that of `p`. -/
def Cap (p n : Vec) (v : Vec) : Prop := UnitV v ∧ ∃ t, 0 ≤ t ∧ t ≤ 1 ∧ dotV v n = t * dotV p n

/-- The part of a direction in the plane with normal `n`, along `p`. -/
noncomputable def onSide (p n v : Vec) : Vec := fun k => v k - dotV v n / dotV p n * p k

theorem unit_lt {u v : Vec} (hu : UnitV u) (hv : UnitV v) (h : u ≠ v) : dotV u v < 1 := by
  by_contra hh
  exact h (unitV_eq hu (le_of_eq hv) (not_lt.1 hh))

theorem onSide_pos {p n v : Vec} (hp : UnitV p) (hn : dotV p n ≠ 0) (hv : Cap p n v) (hne : v ≠ p) :
    0 < dotV v (onSide p n v) := by
  obtain ⟨hu, t, t0, t1, ht⟩ := hv
  have h1 := unit_lt hu hp hne
  have e : dotV v (onSide p n v) = 1 - t * dotV v p := by
    have : dotV v n / dotV p n = t := by rw [ht]; field_simp
    unfold onSide
    rw [this]
    unfold UnitV at hu
    simp only [dotV] at hu ⊢
    linear_combination hu
  rw [e]
  rcases le_or_gt (dotV v p) 0 with h | h
  · nlinarith
  · nlinarith

theorem onSide_norm {p n v : Vec} (hp : UnitV p) (hn : dotV p n ≠ 0) (hv : Cap p n v) (hne : v ≠ p) :
    0 < Real.sqrt (dotV (onSide p n v) (onSide p n v)) := by
  rw [Real.sqrt_pos]
  refine lt_of_le_of_ne (dotV_self_nonneg _) fun h => ?_
  have := onSide_pos hp hn hv hne
  rw [dotV_self_zero h.symm] at this
  simp [dotV] at this

/-- The foot of the direction on the opposite side. -/
theorem side_eq {p n v : Vec} (hp : UnitV p) (hn : dotV p n ≠ 0) (hv : Cap p n v) (hne : v ≠ p) :
    ipfSide v (ipfIntersect v p n) =
      fun k => (1 / Real.sqrt (dotV (onSide p n v) (onSide p n v))) * onSide p n v k := by
  have hs := onSide_norm hp hn hv hne
  have hpos := onSide_pos hp hn hv hne
  have e1 : crossV (crossV v p) n = fun k => -dotV p n * onSide p n v k := by
    rw [cross_cross]
    funext k
    unfold onSide
    field_simp
    ring
  have e2 : Real.sqrt (dotV (fun k => -dotV p n * onSide p n v k) fun k => -dotV p n * onSide p n v k) =
      |dotV p n| * Real.sqrt (dotV (onSide p n v) (onSide p n v)) := by
    rw [← Real.sqrt_sq_eq_abs, ← Real.sqrt_mul (sq_nonneg _)]
    congr 1
    simp only [dotV]
    ring
  have ha : 0 < |dotV p n| := abs_pos.2 hn
  have e3 : ipfIntersect v p n = fun k => (-dotV p n / |dotV p n|) *
      ((1 / Real.sqrt (dotV (onSide p n v) (onSide p n v))) * onSide p n v k) := by
    unfold ipfIntersect
    rw [e1]
    funext k
    simp only [e2]
    rw [if_neg (by positivity)]
    field_simp
  have hd : dotV v (ipfIntersect v p n) = (-dotV p n / |dotV p n|) *
      ((1 / Real.sqrt (dotV (onSide p n v) (onSide p n v))) * dotV v (onSide p n v)) := by
    rw [e3, dotV_smul, dotV_smul]
  have hq : 0 < (1 / Real.sqrt (dotV (onSide p n v) (onSide p n v))) * dotV v (onSide p n v) := by positivity
  rcases lt_or_gt_of_ne hn with hlt | hgt
  · have hc : -dotV p n / |dotV p n| = 1 := by
      rw [abs_of_neg hlt, div_self]; linarith
    rw [hc] at e3 hd
    rcases side_cases v (ipfIntersect v p n) with ⟨a, -⟩ | ⟨-, b⟩
    · rw [a, e3]; funext k; ring
    · rw [hd] at b; linarith
  · have hc : -dotV p n / |dotV p n| = -1 := by
      rw [abs_of_pos hgt, neg_div, div_self]; linarith
    rw [hc] at e3 hd
    rcases side_cases v (ipfIntersect v p n) with ⟨-, b⟩ | ⟨a, -⟩
    · rw [hd] at b; linarith
    · rw [a, e3]; funext k; ring

theorem side_unit {p n v : Vec} (hp : UnitV p) (hn : dotV p n ≠ 0) (hv : Cap p n v) (hne : v ≠ p) :
    UnitV (ipfSide v (ipfIntersect v p n)) := by
  have hs := onSide_norm hp hn hv hne
  rw [side_eq hp hn hv hne]
  unfold UnitV
  have := Real.mul_self_sqrt (dotV_self_nonneg (onSide p n v))
  rw [dotV_smul, dotV_comm (fun k => _ * _), dotV_smul]
  field_simp
  linarith

/-! ### Continuity -/

theorem dotV_continuous {f h : Vec → Vec} {S : Set Vec} {x : Vec} (hf : ∀ k, ContinuousWithinAt (fun v => f v k) S x)
    (hh : ∀ k, ContinuousWithinAt (fun v => h v k) S x) : ContinuousWithinAt (fun v => dotV (f v) (h v)) S x := by
  unfold dotV
  exact (((hf 0).mul (hh 0)).add ((hf 1).mul (hh 1))).add ((hf 2).mul (hh 2))

theorem coord_continuous (S : Set Vec) (x : Vec) (k : Fin 3) : ContinuousWithinAt (fun v : Vec => v k) S x :=
  (continuous_apply k).continuousWithinAt

theorem dotV_to_continuous (a : Vec) (S : Set Vec) (x : Vec) : ContinuousWithinAt (fun v => dotV v a) S x :=
  dotV_continuous (f := fun v => v) (h := fun _ => a) (fun k => coord_continuous S x k)
    fun _ => continuousWithinAt_const

theorem onSide_continuous (p n : Vec) (S : Set Vec) (x : Vec) (k : Fin 3) :
    ContinuousWithinAt (fun v => onSide p n v k) S x := by
  have h1 : ContinuousWithinAt (fun v => dotV v n / dotV p n * p k) S x :=
    ((dotV_to_continuous n S x).div_const _).mul continuousWithinAt_const
  exact (coord_continuous S x k).sub h1

/-- The distance of a corner from the opposite side. -/
theorem far_from_side {p n j : Vec} (hp : UnitV p) (hj : dotV j j ≤ 1) (hz : dotV j n = 0) :
    dotV p j ≤ Real.sqrt (1 - dotV p n ^ 2 / dotV n n) := by
  apply Real.le_sqrt_of_sq_le
  by_cases h0 : dotV n n = 0
  · rw [h0, div_zero, sub_zero]
    have := dotV_cauchy p j
    unfold UnitV at hp
    rw [hp] at this
    linarith
  · obtain ⟨q, hq⟩ : ∃ q : Vec, q = fun k => p k - dotV p n / dotV n n * n k := ⟨_, rfl⟩
    have e1 : dotV q j = dotV p j := by
      rw [hq]
      generalize dotV p n / dotV n n = c
      simp only [dotV] at hz ⊢
      linear_combination -c * hz
    have e2 : dotV q q = 1 - dotV p n ^ 2 / dotV n n := by
      have : dotV q q = dotV p p - 2 * (dotV p n / dotV n n) * dotV p n +
          (dotV p n / dotV n n) ^ 2 * dotV n n := by
        rw [hq]
        generalize dotV p n / dotV n n = c
        simp only [dotV]
        ring
      rw [this, show dotV p p = 1 from hp]
      field_simp
      ring
    have := dotV_cauchy q j
    rw [e1, e2] at this
    have hnn : 0 ≤ 1 - dotV p n ^ 2 / dotV n n := e2 ▸ dotV_self_nonneg q
    nlinarith

theorem part_corner {p n : Vec} : ipfPart p p n = 1 := by
  have e : ipfIntersect p p n = fun _ => 0 := by
    unfold ipfIntersect
    rw [cross_cross]
    funext k
    simp
  have e2 : ipfSide p (fun _ => 0) = fun _ => 0 := by
    rcases side_cases p (fun _ => 0) with ⟨a, -⟩ | ⟨a, -⟩
    · exact a
    · rw [a]; funext k; simp
  unfold ipfPart
  simp only [e, e2]
  rw [show dotV p (fun _ => 0) = 0 by simp [dotV], arccosClip_eq, Real.arccos_zero]
  exact div_self (by have := Real.pi_pos; positivity)

theorem part_near_corner {p n v : Vec} (hp : UnitV p) (hn : dotV p n ≠ 0) (hv : Cap p n v) :
    |ipfPart v p n - 1| ≤ Real.arccos (dotV v p) / Real.arccos (Real.sqrt (1 - dotV p n ^ 2 / dotV n n)) ∧
    0 < Real.arccos (Real.sqrt (1 - dotV p n ^ 2 / dotV n n)) := by
  have hc : 0 < Real.arccos (Real.sqrt (1 - dotV p n ^ 2 / dotV n n)) := by
    rw [Real.arccos_pos, Real.sqrt_lt' one_pos]
    have : 0 < dotV n n := by
      refine lt_of_le_of_ne (dotV_self_nonneg _) fun h => hn ?_
      rw [dotV_self_zero h.symm]
      simp [dotV]
    have : 0 < dotV p n ^ 2 / dotV n n := by positivity
    linarith
  refine ⟨?_, hc⟩
  by_cases hne : v = p
  · rw [hne, part_corner, sub_self, abs_zero]
    exact div_nonneg (Real.arccos_nonneg _) hc.le
  · have hu := side_unit hp hn hv hne
    have hz := side_normal v p n
    have hd := part_denominator (dir := v) hp hn
    unfold ipfPart
    simp only
    rw [arccosClip_eq] at hd
    rw [arccosClip_eq, arccosClip_eq]
    generalize ipfSide v (ipfIntersect v p n) = j at hu hz hd
    have h1 := angle_triangle hv.1 hp hu
    have h2 := angle_triangle hp hv.1 hu
    rw [dotV_comm p v] at h2
    have hle : Real.arccos (Real.sqrt (1 - dotV p n ^ 2 / dotV n n)) ≤ Real.arccos (dotV p j) :=
      Real.arccos_le_arccos (far_from_side hp (le_of_eq hu) hz)
    rw [div_sub_one hd.ne', abs_div, abs_of_pos hd]
    refine div_le_div₀ (Real.arccos_nonneg _) ?_ hc hle
    rw [abs_le]
    constructor <;> linarith

theorem part_continuous {p n : Vec} (hp : UnitV p) (hn : dotV p n ≠ 0) {S : Set Vec} (hS : ∀ v ∈ S, Cap p n v) :
    ContinuousOn (fun v => ipfPart v p n) S := by
  intro x hx
  by_cases hne : x = p
  · subst hne
    have hc := (part_near_corner hp hn (hS x hx)).2
    rw [ContinuousWithinAt, part_corner, tendsto_iff_dist_tendsto_zero]
    have hlim : Filter.Tendsto (fun v => Real.arccos (dotV v x) /
        Real.arccos (Real.sqrt (1 - dotV x n ^ 2 / dotV n n))) (nhdsWithin x S) (nhds 0) := by
      have c1 : ContinuousWithinAt (fun v => Real.arccos (dotV v x) /
          Real.arccos (Real.sqrt (1 - dotV x n ^ 2 / dotV n n))) S x :=
        (Real.continuous_arccos.continuousAt.comp_continuousWithinAt (dotV_to_continuous x S x)).div_const _
      have := c1.tendsto
      rwa [show dotV x x = 1 from hp, Real.arccos_one, zero_div] at this
    refine squeeze_zero' (Filter.Eventually.of_forall fun _ => dist_nonneg) ?_ hlim
    filter_upwards [self_mem_nhdsWithin] with v hv
    rw [Real.dist_eq]
    exact (part_near_corner hp hn (hS v hv)).1
  · have hs := onSide_norm hp hn (hS x hx) hne
    have hden := part_denominator (dir := x) hp hn
    have hcong : ∀ v ∈ S, v ≠ p → ipfPart v p n =
        Real.arccos (1 / Real.sqrt (dotV (onSide p n v) (onSide p n v)) * dotV v (onSide p n v)) /
        Real.arccos (1 / Real.sqrt (dotV (onSide p n v) (onSide p n v)) * dotV p (onSide p n v)) := by
      intro v hv hvp
      unfold ipfPart
      simp only
      rw [side_eq hp hn (hS v hv) hvp, dotV_smul, dotV_smul, arccosClip_eq, arccosClip_eq]
    have hcont : ContinuousWithinAt (fun v =>
        Real.arccos (1 / Real.sqrt (dotV (onSide p n v) (onSide p n v)) * dotV v (onSide p n v)) /
        Real.arccos (1 / Real.sqrt (dotV (onSide p n v) (onSide p n v)) * dotV p (onSide p n v))) S x := by
      have cs : ContinuousWithinAt (fun v => Real.sqrt (dotV (onSide p n v) (onSide p n v))) S x :=
        Real.continuous_sqrt.continuousAt.comp_continuousWithinAt
          (dotV_continuous (f := onSide p n) (h := onSide p n) (onSide_continuous p n S x)
            (onSide_continuous p n S x))
      have ci : ContinuousWithinAt (fun v => 1 / Real.sqrt (dotV (onSide p n v) (onSide p n v))) S x :=
        continuousWithinAt_const.div cs hs.ne'
      have c1 : ContinuousWithinAt (fun v => dotV v (onSide p n v)) S x :=
        dotV_continuous (f := fun v => v) (fun k => coord_continuous S x k) (onSide_continuous p n S x)
      have c2 : ContinuousWithinAt (fun v => dotV p (onSide p n v)) S x :=
        dotV_continuous (f := fun _ => p) (fun k => continuousWithinAt_const) (onSide_continuous p n S x)
      have c3 : ContinuousWithinAt (fun v => Real.arccos
          (1 / Real.sqrt (dotV (onSide p n v) (onSide p n v)) * dotV v (onSide p n v))) S x :=
        Real.continuous_arccos.continuousAt.comp_continuousWithinAt (ci.mul c1)
      have c4 : ContinuousWithinAt (fun v => Real.arccos
          (1 / Real.sqrt (dotV (onSide p n v) (onSide p n v)) * dotV p (onSide p n v))) S x :=
        Real.continuous_arccos.continuousAt.comp_continuousWithinAt (ci.mul c2)
      refine c3.div c4 ?_
      rw [side_eq hp hn (hS x hx) hne, dotV_smul, arccosClip_eq] at hden
      exact hden.ne'
    refine hcont.congr_of_eventuallyEq ?_ (hcong x hx hne)
    have : ∀ᶠ v in nhdsWithin x S, v ≠ p :=
      (isOpen_ne.eventually_mem hne).filter_mono nhdsWithin_le_nhds
    filter_upwards [self_mem_nhdsWithin, this] with v hv hvp
    exact hcong v hv hvp

/-! ### The triangle -/

/-- The directions of the triangle of the colours. -/
noncomputable def colourTriangle (g : SymGroup) : Set Vec :=
  {v | UnitV v ∧
    0 ≤ dotV v (crossV (poleBlue g) (poleGreen g)) / dotV (poleRed g) (crossV (poleBlue g) (poleGreen g)) ∧
    0 ≤ dotV v (crossV (poleRed g) (poleBlue g)) / dotV (poleRed g) (crossV (poleBlue g) (poleGreen g)) ∧
    0 ≤ dotV v (crossV (poleGreen g) (poleRed g)) / dotV (poleRed g) (crossV (poleBlue g) (poleGreen g))}

theorem corner_products (g : SymGroup) : 0 ≤ dotV (poleRed g) (poleGreen g) ∧
    0 ≤ dotV (poleRed g) (poleBlue g) ∧ 0 ≤ dotV (poleGreen g) (poleBlue g) := by
  have := sq2_pos; have := sq3_pos
  cases g <;> simp [dotV, poleRed, poleGreen, poleBlue]
  positivity

theorem combination {g : SymGroup} {v : Vec} (hv : v ∈ colourTriangle g) :
    ∃ x y z, (0 ≤ x ∧ x ≤ 1) ∧ (0 ≤ y ∧ y ≤ 1) ∧ (0 ≤ z ∧ z ≤ 1) ∧
      dotV v (crossV (poleBlue g) (poleGreen g)) = x * dotV (poleRed g) (crossV (poleBlue g) (poleGreen g)) ∧
      dotV v (crossV (poleRed g) (poleBlue g)) = y * dotV (poleGreen g) (crossV (poleRed g) (poleBlue g)) ∧
      dotV v (crossV (poleGreen g) (poleRed g)) = z * dotV (poleBlue g) (crossV (poleGreen g) (poleRed g)) := by
  obtain ⟨hu, hx, hy, hz⟩ := hv
  have ht := triple_ne g
  obtain ⟨p1, p2, p3⟩ := corner_products g
  have u1 := unit_red g
  have u2 := unit_green g
  have u3 := unit_blue g
  generalize poleRed g = r at *
  generalize poleGreen g = s at *
  generalize poleBlue g = b at *
  have e : ∀ k, dotV r (crossV b s) * v k =
      dotV v (crossV b s) * r k + dotV v (crossV r b) * s k + dotV v (crossV s r) * b k := by
    intro k
    fin_cases k <;> simp [dotV, crossV] <;> ring
  have t2 : dotV s (crossV r b) = dotV r (crossV b s) := by simp [dotV, crossV]; ring
  have t3 : dotV b (crossV s r) = dotV r (crossV b s) := by simp [dotV, crossV]; ring
  rw [t2, t3]
  generalize dotV r (crossV b s) = D at *
  obtain ⟨x, ex⟩ : ∃ x, dotV v (crossV b s) / D = x := ⟨_, rfl⟩
  obtain ⟨y, ey⟩ : ∃ y, dotV v (crossV r b) / D = y := ⟨_, rfl⟩
  obtain ⟨z, ez⟩ : ∃ z, dotV v (crossV s r) / D = z := ⟨_, rfl⟩
  rw [ex] at hx; rw [ey] at hy; rw [ez] at hz
  rw [div_eq_iff ht] at ex ey ez
  have ev : v = fun k => x * r k + y * s k + z * b k := by
    funext k
    have := e k
    rw [ex, ey, ez] at this
    apply mul_left_cancel₀ ht
    rw [this]; ring
  have hsum : x ^ 2 + y ^ 2 + z ^ 2 + 2 * (x * y * dotV r s) + 2 * (x * z * dotV r b) +
      2 * (y * z * dotV s b) = 1 := by
    unfold UnitV at hu u1 u2 u3
    rw [← hu, ev]
    have : ∀ r s b : Vec, dotV (fun k => x * r k + y * s k + z * b k) (fun k => x * r k + y * s k + z * b k) =
        x ^ 2 * dotV r r + y ^ 2 * dotV s s + z ^ 2 * dotV b b + 2 * (x * y * dotV r s) +
        2 * (x * z * dotV r b) + 2 * (y * z * dotV s b) := by
      intro r s b
      simp only [dotV]; ring
    rw [this, u1, u2, u3]
    ring
  have q1 := mul_nonneg (mul_nonneg hx hy) p1
  have q2 := mul_nonneg (mul_nonneg hx hz) p2
  have q3 := mul_nonneg (mul_nonneg hy hz) p3
  exact ⟨x, y, z, ⟨hx, by nlinarith⟩, ⟨hy, by nlinarith⟩, ⟨hz, by nlinarith⟩, ex, ey, ez⟩

theorem raw_continuous (g : SymGroup) (k : Fin 3) : ContinuousOn (fun v => ipfRaw g v k) (colourTriangle g) := by
  have h0 := part_continuous (S := colourTriangle g) (unit_red g) (triple_ne g) fun v hv => by
    obtain ⟨x, y, z, a, b, c, d, e, f⟩ := combination hv
    exact ⟨hv.1, x, a.1, a.2, d⟩
  have h1 := part_continuous (S := colourTriangle g) (unit_green g) (triple_green g) fun v hv => by
    obtain ⟨x, y, z, a, b, c, d, e, f⟩ := combination hv
    exact ⟨hv.1, y, b.1, b.2, e⟩
  have h2 := part_continuous (S := colourTriangle g) (unit_blue g) (triple_blue g) fun v hv => by
    obtain ⟨x, y, z, a, b, c, d, e, f⟩ := combination hv
    exact ⟨hv.1, z, c.1, c.2, f⟩
  fin_cases k
  · exact h0
  · exact h1
  · exact h2

theorem colour_continuous (g : SymGroup) : ContinuousOn (ipfColour g) (colourTriangle g) := by
  rw [continuousOn_pi]
  intro k
  unfold ipfColour
  refine (raw_continuous g k).div (((raw_continuous g 0).sup (raw_continuous g 1)).sup (raw_continuous g 2)) ?_
  intro v hv
  exact (max3_pos g hv.1).ne'

theorem unit_coord {v : Vec} (hv : UnitV v) (k : Fin 3) : |v k| ≤ 1 := by
  unfold UnitV dotV at hv
  rw [← sq_le_one_iff_abs_le_one]
  fin_cases k <;> simp only [Fin.zero_eta, Fin.mk_one, Fin.reduceFinMk] <;>
    nlinarith [sq_nonneg (v 0), sq_nonneg (v 1), sq_nonneg (v 2)]

theorem triangle_compact (g : SymGroup) : IsCompact (colourTriangle g) := by
  have c : ∀ a : Vec, Continuous fun v : Vec => dotV v a := fun a => by
    unfold dotV
    fun_prop
  have cc : Continuous fun v : Vec => dotV v v := by
    unfold dotV
    fun_prop
  refine Metric.isCompact_of_isClosed_isBounded ?_ ?_
  · refine IsClosed.inter (isClosed_eq cc continuous_const) (IsClosed.inter ?_ (IsClosed.inter ?_ ?_))
    · exact isClosed_le continuous_const ((c _).div_const _)
    · exact isClosed_le continuous_const ((c _).div_const _)
    · exact isClosed_le continuous_const ((c _).div_const _)
  · refine (Metric.isBounded_closedBall (x := (0 : Vec)) (r := 1)).subset fun v hv => ?_
    rw [mem_closedBall_zero_iff, pi_norm_le_iff_of_nonneg zero_le_one]
    exact fun k => unit_coord hv.1 k

/-- Directions at an angle are no farther apart than the angle, in each coordinate. -/
theorem coord_le_angle {u v : Vec} (hu : UnitV u) (hv : UnitV v) (k : Fin 3) :
    |u k - v k| ≤ Real.arccos (dotV u v) := by
  refine abs_le_of_sq_le_sq ?_ (Real.arccos_nonneg _)
  have hb : -1 ≤ dotV u v ∧ dotV u v ≤ 1 := by
    have := dotV_cauchy u v
    unfold UnitV at hu hv
    rw [hu, hv] at this
    constructor <;> nlinarith
  have h1 := Real.one_sub_sq_div_two_le_cos (x := Real.arccos (dotV u v))
  rw [Real.cos_arccos hb.1 hb.2] at h1
  have h2 : (u k - v k) ^ 2 ≤ 2 - 2 * dotV u v := by
    unfold UnitV at hu hv
    simp only [dotV] at hu hv ⊢
    fin_cases k <;> simp <;>
      nlinarith [sq_nonneg (u 0 - v 0), sq_nonneg (u 1 - v 1), sq_nonneg (u 2 - v 2)]
  linarith

/-- One bound for the whole triangle. -/
theorem colour_uniform (g : SymGroup) {ε : ℝ} (hε : 0 < ε) : ∃ δ > 0, ∀ u ∈ colourTriangle g,
    ∀ v ∈ colourTriangle g, Real.arccos (dotV u v) < δ → ∀ k, |ipfColour g u k - ipfColour g v k| < ε := by
  have h := (triangle_compact g).uniformContinuousOn_of_continuous (colour_continuous g)
  rw [Metric.uniformContinuousOn_iff] at h
  obtain ⟨δ, h0, h1⟩ := h ε hε
  refine ⟨δ, h0, fun u hu v hv ha k => ?_⟩
  have hd : dist u v < δ := by
    rw [dist_pi_lt_iff h0]
    intro k
    rw [Real.dist_eq]
    exact (coord_le_angle hu.1 hv.1 k).trans_lt ha
  have := (dist_pi_lt_iff hε).1 (h1 u hu v hv hd) k
  rwa [Real.dist_eq] at this

theorem triangle_of_cubic {v : Vec} (hu : UnitV v) (h : CubicTriangle v) : v ∈ colourTriangle .cubic := by
  obtain ⟨h1, h2, h3⟩ := h
  have p := sq2_pos; have q := sq3_pos
  have e : dotV (poleRed .cubic) (crossV (poleBlue .cubic) (poleGreen .cubic)) = -(1 / (Real.sqrt 3 * Real.sqrt 2)) := by
    simp [dotV, crossV, poleRed, poleGreen, poleBlue]
    field_simp
  refine ⟨hu, ?_, ?_, ?_⟩ <;> rw [e, div_neg, ← neg_div] <;> refine div_nonneg ?_ (by positivity)
  · simp [dotV, crossV, poleGreen, poleBlue]
    field_simp
    linarith
  · simp [dotV, crossV, poleRed, poleBlue]
    field_simp
    linarith
  · simp [dotV, crossV, poleRed, poleGreen]
    field_simp
    linarith

theorem triangle_of_hex {v : Vec} (hu : UnitV v) (h : HexSector 1 v) : v ∈ colourTriangle .hexagonal := by
  obtain ⟨h1, h2, h3⟩ := h
  have q := sq3_pos
  rw [one_mul] at h1 h2
  have e : dotV (poleRed .hexagonal) (crossV (poleBlue .hexagonal) (poleGreen .hexagonal)) = -(1 / 2) := by
    simp [dotV, crossV, poleRed, poleGreen, poleBlue]
    norm_num
  refine ⟨hu, ?_, ?_, ?_⟩ <;> rw [e, div_neg, ← neg_div] <;> refine div_nonneg ?_ (by positivity)
  · simp [dotV, crossV, poleGreen, poleBlue]
    norm_num
    linarith
  · simp [dotV, crossV, poleRed, poleBlue]
    norm_num
    nlinarith
  · simp [dotV, crossV, poleRed, poleGreen]
    linarith

theorem dotProduct_dotV (u v : Vec) : u ⬝ᵥ v = dotV u v := by
  simp [dotProduct, Fin.sum_univ_three, dotV]

/-! ### Colours -/

/-- **C164**: for every difference of colour there is an angle such that cubic crystals misoriented by less have
colours that differ by less, unless a cube axis of one of them is exactly along the sample direction. -/
theorem C164_cubic {ε : ℝ} (hε : 0 < ε) : ∃ δ > 0, ∀ (quats : List (Quat ℝ)), (∀ q ∈ quats, q.IsUnit) →
    ∀ d : Vec, d ≠ 0 → ∃ cols, calcIpfColours .cubic quats d = .ok cols ∧ cols.length = quats.length ∧
      ∀ (i j : Nat) (p q : Quat ℝ) (c c' : Vec), quats[i]? = some p → quats[j]? = some q →
        cols[i]? = some c → cols[j]? = some c' →
        (∀ k, |inCrystal p d k| ≠ 1) → (∀ k, |inCrystal q d k| ≠ 1) →
        misAngle .cubic p q < δ → ∀ k, |c k - c' k| < ε := by
  obtain ⟨δ, h0, hδ⟩ := colour_uniform .cubic hε
  refine ⟨δ, h0, fun quats hq d hd => ?_⟩
  obtain ⟨cols, e, h⟩ := calcIpf_of (C45_cubic "up" quats hq d hd)
  refine ⟨cols, e, h.length_eq.symm, ?_⟩
  intro i j p q c c' hi hj oi oj hp hp' hm
  obtain ⟨ab, ⟨e1, -, -, t1⟩, rfl⟩ := forall₂_at h hi oi
  obtain ⟨ab', ⟨e2, -, -, t2⟩, rfl⟩ := forall₂_at h hj oj
  have ha := angle_le_mis .cubic (hq p (List.mem_of_getElem? hi)) (hq q (List.mem_of_getElem? hj)) hd e1 e2
    fun a b ha hb => cubic_nearest (t1 hp) (t2 hp') ha hb
  rw [dotProduct_dotV] at ha
  exact hδ _ (triangle_of_cubic (dirVec_unit ab) (t1 hp)) _ (triangle_of_cubic (dirVec_unit ab') (t2 hp'))
    (ha.trans_lt hm)

/-- **C164**: so have hexagonal crystals, if none of them has its axis exactly along the sample direction. -/
theorem C164_hexagonal {ε : ℝ} (hε : 0 < ε) : ∃ δ > 0, ∀ (quats : List (Quat ℝ)), (∀ q ∈ quats, q.IsUnit) →
    ∀ d : Vec, d ≠ 0 → (∀ q ∈ quats, inCrystal q d 0 ≠ 0 ∨ inCrystal q d 1 ≠ 0) →
    ∃ cols, calcIpfColours .hexagonal quats d = .ok cols ∧ cols.length = quats.length ∧
      ∀ (i j : Nat) (p q : Quat ℝ) (c c' : Vec), quats[i]? = some p → quats[j]? = some q →
        cols[i]? = some c → cols[j]? = some c' →
        misAngle .hexagonal p q < δ → ∀ k, |c k - c' k| < ε := by
  obtain ⟨δ, h0, hδ⟩ := colour_uniform .hexagonal hε
  refine ⟨δ, h0, fun quats hq d hd hoff => ?_⟩
  obtain ⟨cols, e, h⟩ := calcIpf_of (C45_hexagonal (.inl rfl) quats hq d hd hoff)
  refine ⟨cols, e, h.length_eq.symm, ?_⟩
  intro i j p q c c' hi hj oi oj hm
  obtain ⟨ab, ⟨e1, a1, b1⟩, rfl⟩ := forall₂_at h hi oi
  obtain ⟨ab', ⟨e2, a2, b2⟩, rfl⟩ := forall₂_at h hj oj
  have s1 := hexSector_of (.inl rfl) a1 b1
  have s2 := hexSector_of (.inl rfl) a2 b2
  rw [if_pos rfl] at s1 s2
  have ha := angle_le_mis .hexagonal (hq p (List.mem_of_getElem? hi)) (hq q (List.mem_of_getElem? hj)) hd e1 e2
    fun a b ha hb => hex_nearest (.inl rfl) s1 s2 ha hb
  rw [dotProduct_dotV] at ha
  exact hδ _ (triangle_of_hex (dirVec_unit ab) s1) _ (triangle_of_hex (dirVec_unit ab') s2) (ha.trans_lt hm)

/-- A direction along a cube axis is equivalent to the corner `[001]`. -/
theorem axis_corner {v : Vec} (hv : UnitDir v) {i : Fin 3} (hi : |v i| = 1) : EqvDir .cubic v ![0, 0, 1] := by
  obtain ⟨s, hs, ht⟩ := cubic_exists v
  have he : EqvDir .cubic v (northern (rotMatrix s *ᵥ v)) := by
    refine ⟨s, hs, ?_⟩
    unfold northern
    split_ifs
    · exact .inr rfl
    · exact .inl rfl
  obtain ⟨σ, hσ⟩ := cubic_abs he
  have hu := eqv_unit he hv
  generalize northern (rotMatrix s *ᵥ v) = w at *
  have h1 := hσ i
  rw [hi] at h1
  have hw : w = ![0, 0, 1] := by
    obtain ⟨t1, t2, t3⟩ := ht
    unfold UnitDir at hu
    have h2 : w (σ i) ^ 2 = 1 := by rw [← sq_abs, h1, one_pow]
    have h3 : w 2 ^ 2 = 1 := by
      generalize σ i = j at h2
      fin_cases j <;> simp only [Fin.zero_eta, Fin.mk_one, Fin.reduceFinMk] at h2 <;> nlinarith
    have h4 : w 2 = 1 := by nlinarith
    have h5 : w 0 = 0 := by nlinarith
    have h6 : w 1 = 0 := by nlinarith
    funext k
    fin_cases k
    · simpa using h5
    · simpa using h6
    · simpa using h4
  rw [← hw]
  exact he

/-- **C164** is false for a cube axis exactly along the sample direction: every orientation close enough to such
a one has a colour whose green differs from its green by more than one half. -/
theorem C164_cube_axis : ∃ δ > 0, ∀ (quats : List (Quat ℝ)), (∀ q ∈ quats, q.IsUnit) →
    ∀ d : Vec, d ≠ 0 → ∃ cols, calcIpfColours .cubic quats d = .ok cols ∧ cols.length = quats.length ∧
      ∀ (i j : Nat) (p q : Quat ℝ) (c c' : Vec), quats[i]? = some p → quats[j]? = some q →
        cols[i]? = some c → cols[j]? = some c' →
        (∃ k, |inCrystal p d k| = 1) → (∀ k, |inCrystal q d k| ≠ 1) →
        misAngle .cubic p q < δ → 1 / 2 < |c 1 - c' 1| := by
  obtain ⟨δ, h0, hδ⟩ := colour_uniform .cubic (ε := 1 / 6) (by norm_num)
  refine ⟨δ, h0, fun quats hq d hd => ?_⟩
  obtain ⟨cols, e, h⟩ := calcIpf_of (C45_cubic "up" quats hq d hd)
  obtain ⟨cols', e', h'⟩ := C91_cube_axis quats hq d hd
  rw [e] at e'
  cases e'
  refine ⟨cols, e, h.length_eq.symm, ?_⟩
  intro i j p q c c' hi hj oi oj hp hp' hm
  have ec := forall₂_at h' hi oi hp
  obtain ⟨ab', ⟨e2, -, -, t2⟩, rfl⟩ := forall₂_at h hj oj
  obtain ⟨k, hk⟩ := hp
  have up := hq p (List.mem_of_getElem? hi)
  have e1 := axis_corner (inCrystal_unit up hd) hk
  have tr : CubicTriangle ![0, 0, 1] := by simp [CubicTriangle]
  have ur : UnitV ![0, 0, 1] := by simp [UnitV, dotV]
  have ha := angle_le_mis .cubic up (hq q (List.mem_of_getElem? hj)) hd e1 e2
    fun a b ha hb => cubic_nearest tr (t2 hp') ha hb
  rw [dotProduct_dotV] at ha
  have hc := hδ _ (triangle_of_cubic ur tr) _ (triangle_of_cubic (dirVec_unit ab') (t2 hp')) (ha.trans_lt hm) 1
  have hz : ipfColour .cubic ![0, 0, 1] 1 = 0 := by
    rw [opposite_iff .cubic ur 1]
    simp [OppositeSide]
  rw [hz] at hc
  rw [ec]
  have h3 : |ipfColour .cubic (dirVec ab') 1| < 1 / 6 := by rwa [zero_sub, abs_neg] at hc
  have := abs_lt.1 h3
  simp only [cons_val_one, cons_val_zero]
  rw [lt_abs]
  left
  linarith

/-- As close as one likes to a crystal with a cube axis along `z` there is one without. -/
example (δ : ℝ) (hδ : 0 < δ) : ∃ p q : Quat ℝ, p.IsUnit ∧ q.IsUnit ∧ (![0, 0, 1] : Vec) ≠ 0 ∧
    (∃ k, |inCrystal p ![0, 0, 1] k| = 1) ∧ (∀ k, |inCrystal q ![0, 0, 1] k| ≠ 1) ∧ misAngle .cubic p q < δ := by
  have hm : 0 < min (δ / 2) (1 / 2) := lt_min (by linarith) (by norm_num)
  have hm1 : min (δ / 2) (1 / 2) ≤ 1 / 2 := min_le_right _ _
  have hpi := Real.two_le_pi
  have hd : (![0, 0, 1] : Fin 3 → ℝ) ≠ 0 := fun h => by simpa using congrFun h 2
  set c := Real.cos (min (δ / 2) (1 / 2) / 2) with hc
  set s := Real.sin (min (δ / 2) (1 / 2) / 2) with hs
  have cs : s ^ 2 + c ^ 2 = 1 := Real.sin_sq_add_cos_sq _
  have c0 : 0 < c := Real.cos_pos_of_mem_Ioo ⟨by linarith, by linarith⟩
  have s0 : 0 < s := Real.sin_pos_of_pos_of_lt_pi (by linarith) (by linarith)
  have sc : s < c := by
    have := Real.sin_lt_sin_of_lt_of_le_pi_div_two (x := min (δ / 2) (1 / 2) / 2)
      (y := Real.pi / 2 - min (δ / 2) (1 / 2) / 2) (by linarith) (by linarith) (by linarith)
    rwa [Real.sin_pi_div_two_sub] at this
  have up : (⟨1, 0, 0, 0⟩ : Quat ℝ).IsUnit := by simp [Quat.IsUnit]
  have uq : (⟨c, s, 0, 0⟩ : Quat ℝ).IsUnit := by
    show c ^ 2 + s ^ 2 + 0 ^ 2 + 0 ^ 2 = 1
    linarith
  have ip : inCrystal ⟨1, 0, 0, 0⟩ ![0, 0, 1] = ![0, 0, 1] := by
    funext i
    fin_cases i <;> simp [inCrystal, rotMatrix, dotProduct, Fin.sum_univ_three]
  have iq : inCrystal ⟨c, s, 0, 0⟩ ![0, 0, 1] = ![0, inCrystal ⟨c, s, 0, 0⟩ ![0, 0, 1] 1, c ^ 2 - s ^ 2] := by
    funext i
    fin_cases i <;> simp [inCrystal, rotMatrix, dotProduct, Fin.sum_univ_three]
  refine ⟨⟨1, 0, 0, 0⟩, ⟨c, s, 0, 0⟩, up, uq, hd, ⟨2, by rw [ip]; simp⟩, ?_, ?_⟩
  · have un := inCrystal_unit uq hd
    unfold UnitDir at un
    rw [iq] at un ⊢
    generalize inCrystal ⟨c, s, 0, 0⟩ ![0, 0, 1] 1 = y at un
    simp only [cons_val_zero, cons_val_one, cons_val] at un
    have s2 : 0 < s ^ 2 := by positivity
    have d2 : 0 < c ^ 2 - s ^ 2 := by nlinarith
    intro i hi
    have := congrArg (· ^ 2) hi
    simp only [sq_abs, one_pow] at this
    fin_cases i
    · simp at this
    · have : y ^ 2 = 1 := by simpa using this
      nlinarith
    · have : (c ^ 2 - s ^ 2) ^ 2 = 1 := by simpa using this
      nlinarith
  · have hg := misOri_ge (symEqv .cubic) ⟨1, 0, 0, 0⟩ ⟨c, s, 0, 0⟩ _ (head_mem (symEqv_table .cubic))
    have ed : |dot (⟨1, 0, 0, 0⟩ : Quat ℝ) (mulRaw ⟨1, 0, 0, 0⟩ ⟨c, s, 0, 0⟩)| = c := by
      simp only [dot, mulRaw]
      rw [← abs_of_pos c0]
      congr 1
      rw [abs_of_pos c0]
      ring
    rw [ed] at hg
    unfold misAngle
    have := Real.arccos_le_arccos hg
    rw [hc, Real.arccos_cos (by linarith) (by linarith)] at this
    linarith [min_le_left (δ / 2) (1 / 2)]

end DefDAP
