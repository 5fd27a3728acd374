import Verif.Props.Frames
import Mathlib.Tactic.Linarith
import Mathlib.Tactic.LinearCombination
import Mathlib.Tactic.FieldSimp
import Mathlib.Algebra.Order.Ring.Abs
import Mathlib.Algebra.Order.Field.Basic

/-! C166: affine links of frames by homologous points: exact points, a third frame, wrong points. -/

namespace DefDAP

/-- Twice the signed area of a triangle: not 0 if its corners are not on one line. -/
def Spec.area2 (p q r : Rat × Rat) : Rat := (q.1 - p.1) * (r.2 - p.2) - (q.2 - p.2) * (r.1 - p.1)

/-- An affine map of the plane. -/
def Spec.IsAffine (A : Rat × Rat → Rat × Rat) : Prop :=
  ∃ a b c d e f : Rat, ∀ p, A p = (a * p.1 + b * p.2 + e, c * p.1 + d * p.2 + f)

/-- Points that are not all on one line. -/
def Spec.NotOnLine (l : List (Rat × Rat)) : Prop :=
  ∃ p ∈ l, ∃ q ∈ l, ∃ r ∈ l, Spec.area2 p q r ≠ 0

/-- What is asked of scikit-image: an affine transform estimated from points that some affine map takes to
each other is an affine map that does so, and the inverse of an affine map that has one is its inverse. -/
structure Spec.FitsAffine {T : Type} (ops : TransOps (List (Rat × Rat)) T) : Prop where
  fit : ∀ (src : List (Rat × Rat)) (A : Rat × Rat → Rat × Rat), Spec.IsAffine A → Spec.NotOnLine src →
    Spec.IsAffine (ops.apply (ops.estimate "affine" src (src.map A) [])) ∧
    src.map (ops.apply (ops.estimate "affine" src (src.map A) [])) = src.map A
  inv : ∀ t, Spec.IsAffine (ops.apply t) → Function.Bijective (ops.apply t) →
    ∀ p, ops.apply (ops.inverse t) (ops.apply t p) = p

/-- Two frames linked by an affine transform, from the one to the other or from the other to the one. -/
def Spec.AffineLinked (h : List ((Nat × Nat) × List (String × MVal))) (f1 f2 : Nat) : Prop :=
  (Spec.latestLink h f1 f2 = some [("type", .str "affine")] ∧ Spec.latestLink h f2 f1 = none) ∨
  (Spec.latestLink h f2 f1 = some [("type", .str "affine")] ∧ Spec.latestLink h f1 f2 = none)

open Spec

theorem affine_zero {p q r : Rat × Rat} (hD : area2 p q r ≠ 0) {a b e : Rat}
    (hp : a * p.1 + b * p.2 + e = 0) (hq : a * q.1 + b * q.2 + e = 0) (hr : a * r.1 + b * r.2 + e = 0) :
    a = 0 ∧ b = 0 ∧ e = 0 := by
  have ha : a * area2 p q r = 0 := by
    unfold area2
    linear_combination (r.2 - p.2) * (hq - hp) - (q.2 - p.2) * (hr - hp)
  have hb : b * area2 p q r = 0 := by
    unfold area2
    linear_combination (q.1 - p.1) * (hr - hp) - (r.1 - p.1) * (hq - hp)
  have ha := (mul_eq_zero.1 ha).resolve_right hD
  have hb := (mul_eq_zero.1 hb).resolve_right hD
  subst ha hb
  exact ⟨rfl, rfl, by linarith⟩

theorem affine_unique {l : List (Rat × Rat)} (hl : NotOnLine l) {A B : Rat × Rat → Rat × Rat}
    (hA : IsAffine A) (hB : IsAffine B) (h : ∀ p ∈ l, A p = B p) : ∀ p, A p = B p := by
  obtain ⟨p, hp, q, hq, r, hr, hD⟩ := hl
  obtain ⟨a, b, c, d, e, f, hA⟩ := hA
  obtain ⟨a', b', c', d', e', f', hB⟩ := hB
  have h1 := h p hp
  have h2 := h q hq
  have h3 := h r hr
  simp only [hA, hB, Prod.mk.injEq] at h1 h2 h3
  obtain ⟨x1, x2, x3⟩ := affine_zero hD (a := a - a') (b := b - b') (e := e - e')
    (by linear_combination h1.1) (by linear_combination h2.1) (by linear_combination h3.1)
  obtain ⟨y1, y2, y3⟩ := affine_zero hD (a := c - c') (b := d - d') (e := f - f')
    (by linear_combination h1.2) (by linear_combination h2.2) (by linear_combination h3.2)
  intro z
  simp only [hA, hB, Prod.mk.injEq]
  constructor
  · linear_combination x1 * z.1 + x2 * z.2 + x3
  · linear_combination y1 * z.1 + y2 * z.2 + y3

theorem affine_comp {A B : Rat × Rat → Rat × Rat} (hA : IsAffine A) (hB : IsAffine B) :
    IsAffine fun p => B (A p) := by
  obtain ⟨a, b, c, d, e, f, hA⟩ := hA
  obtain ⟨a', b', c', d', e', f', hB⟩ := hB
  refine ⟨a' * a + b' * c, a' * b + b' * d, c' * a + d' * c, c' * b + d' * d, a' * e + b' * f + e',
    c' * e + d' * f + f', fun p => ?_⟩
  simp only [hA, hB, Prod.mk.injEq]
  constructor <;> ring

theorem affine_id : IsAffine fun p => p :=
  ⟨1, 0, 0, 1, 0, 0, fun p => by ext <;> simp⟩

theorem affine_three {p q r : Rat × Rat} (hD : area2 p q r ≠ 0) (p' q' r' : Rat × Rat) :
    ∃ A, IsAffine A ∧ A p = p' ∧ A q = q' ∧ A r = r' := by
  set D := area2 p q r with hDdef
  let u : Rat × Rat → Rat := fun z => ((z.1 - p.1) * (r.2 - p.2) - (z.2 - p.2) * (r.1 - p.1)) / D
  let v : Rat × Rat → Rat := fun z => ((q.1 - p.1) * (z.2 - p.2) - (q.2 - p.2) * (z.1 - p.1)) / D
  have up : u p = 0 := by simp [u]
  have vp : v p = 0 := by simp [v]
  have uq : u q = 1 := by simp only [u]; rw [div_eq_one_iff_eq hD, hDdef]; unfold area2; ring
  have vq : v q = 0 := by simp only [v]; rw [div_eq_zero_iff]; left; ring
  have ur : u r = 0 := by simp only [u]; rw [div_eq_zero_iff]; left; ring
  have vr : v r = 1 := by simp only [v]; rw [div_eq_one_iff_eq hD, hDdef]; unfold area2; ring
  refine ⟨fun z => (p'.1 + u z * (q'.1 - p'.1) + v z * (r'.1 - p'.1),
    p'.2 + u z * (q'.2 - p'.2) + v z * (r'.2 - p'.2)), ?_, ?_, ?_, ?_⟩
  · refine ⟨(r.2 - p.2) / D * (q'.1 - p'.1) - (q.2 - p.2) / D * (r'.1 - p'.1),
      -((r.1 - p.1) / D) * (q'.1 - p'.1) + (q.1 - p.1) / D * (r'.1 - p'.1),
      (r.2 - p.2) / D * (q'.2 - p'.2) - (q.2 - p.2) / D * (r'.2 - p'.2),
      -((r.1 - p.1) / D) * (q'.2 - p'.2) + (q.1 - p.1) / D * (r'.2 - p'.2),
      p'.1 + (-p.1 * (r.2 - p.2) + p.2 * (r.1 - p.1)) / D * (q'.1 - p'.1)
        + (-(q.1 - p.1) * p.2 + (q.2 - p.2) * p.1) / D * (r'.1 - p'.1),
      p'.2 + (-p.1 * (r.2 - p.2) + p.2 * (r.1 - p.1)) / D * (q'.2 - p'.2)
        + (-(q.1 - p.1) * p.2 + (q.2 - p.2) * p.1) / D * (r'.2 - p'.2), fun z => ?_⟩
    simp only [u, v, Prod.mk.injEq]
    constructor <;> ring
  · ext <;> simp [up, vp]
  · ext <;> simp [uq, vq]
  · ext <;> simp [ur, vr]

theorem area_affine {A : Rat × Rat → Rat × Rat} (hA : IsAffine A) :
    ∃ k : Rat, ∀ p q r, area2 (A p) (A q) (A r) = k * area2 p q r := by
  obtain ⟨a, b, c, d, e, f, hA⟩ := hA
  refine ⟨a * d - b * c, fun p q r => ?_⟩
  simp only [hA, area2]
  ring

theorem notOnLine_map {A B : Rat × Rat → Rat × Rat} (hB : IsAffine B) (hBA : ∀ p, B (A p) = p)
    {l : List (Rat × Rat)} (hl : NotOnLine l) : NotOnLine (l.map A) := by
  obtain ⟨p, hp, q, hq, r, hr, hD⟩ := hl
  obtain ⟨k, hk⟩ := area_affine hB
  refine ⟨A p, List.mem_map_of_mem hp, A q, List.mem_map_of_mem hq, A r, List.mem_map_of_mem hr, fun h => hD ?_⟩
  rw [← hBA p, ← hBA q, ← hBA r, hk, h, mul_zero]

theorem map_self {l : List (Rat × Rat)} {f : Rat × Rat → Rat × Rat} (h : ∀ p, f p = p) : l.map f = l := by
  induction l with
  | nil => rfl
  | cons a t ih => rw [List.map_cons, h, ih]

theorem estimate_apply {T : Type} {ops : TransOps (List (Rat × Rat)) T} (hops : FitsAffine ops)
    {src : List (Rat × Rat)} (hs : NotOnLine src) {A : Rat × Rat → Rat × Rat} (hA : IsAffine A) :
    ∀ p, ops.apply (ops.estimate "affine" src (src.map A) []) p = A p := by
  obtain ⟨h1, h2⟩ := hops.fit src A hA hs
  exact affine_unique hs h1 hA fun p hp => (List.map_inj_left.1 h2) p hp

/-- **C166**: if the points marked in one frame are the images of those marked in another by an affine map with
an affine inverse, and not all on one line, the transform between the frames is this map, at every point and in whichever
direction the frames were linked. -/
theorem C166_exact {T : Type} (ops : TransOps (List (Rat × Rat)) T) (hops : FitsAffine ops)
    (pts : Nat → List (Rat × Rat)) (h : List ((Nat × Nat) × List (String × MVal))) (f1 f2 : Nat)
    (hl : AffineLinked h f1 f2) (A B : Rat × Rat → Rat × Rat) (hA : IsAffine A) (hB : IsAffine B)
    (hBA : ∀ p, B (A p) = p) (hAB : ∀ p, A (B p) = p) (hs : NotOnLine (pts f1)) (hp : pts f2 = (pts f1).map A) :
    ∃ t, getFrameTransform ops pts (relationsOf h) f1 f2 = .ok t ∧ ∀ p, ops.apply t p = A p := by
  rcases hl with ⟨h1, h2⟩ | ⟨h1, h2⟩
  · have hf := C33_forward ops pts h f1 f2 _ "affine" h1 h2 (by simp [dget]) (by simp [transformTypes])
    refine ⟨_, hf, fun p => ?_⟩
    have hfilter : ([("type", MVal.str "affine")].filter fun kv => kv.1 ≠ "type") = [] := by simp
    rw [hfilter, hp]
    exact estimate_apply hops hs hA p
  · obtain ⟨t, ht, hr⟩ := (C33_reverse ops pts h f2 f1 _ "affine" h1 h2 (by simp [dget])
      (by simp [transformTypes])).1 (by decide)
    have hf := C33_forward ops pts h f2 f1 _ "affine" h1 h2 (by simp [dget]) (by simp [transformTypes])
    have hfilter : ([("type", MVal.str "affine")].filter fun kv => kv.1 ≠ "type") = [] := by simp
    rw [hfilter] at hf
    rw [hf, Except.ok.injEq] at ht
    have hback : pts f1 = (pts f2).map B := by
      rw [hp, List.map_map]
      exact (map_self fun p => hBA p).symm
    have hs2 : NotOnLine (pts f2) := by rw [hp]; exact notOnLine_map hB hBA hs
    have hest := estimate_apply hops hs2 hB
    rw [← hback, ht] at hest
    refine ⟨_, hr, fun p => ?_⟩
    have hfun : ops.apply t = B := funext hest
    have hinv := hops.inv t (by rw [hfun]; exact hB)
      (by rw [hfun]; exact ⟨fun x y hxy => by rw [← hAB x, hxy, hAB], fun y => ⟨A y, hBA y⟩⟩) (A p)
    rwa [hfun, hBA] at hinv

/-- Affine maps between triangles. -/
theorem triangle_maps {p q r p' q' r' : Rat × Rat} (hD : area2 p q r ≠ 0) (hD' : area2 p' q' r' ≠ 0) :
    ∃ A B, IsAffine A ∧ IsAffine B ∧ (∀ z, B (A z) = z) ∧ (∀ z, A (B z) = z) ∧ A p = p' ∧ A q = q' ∧ A r = r' := by
  obtain ⟨A, hA, a1, a2, a3⟩ := affine_three hD p' q' r'
  obtain ⟨B, hB, b1, b2, b3⟩ := affine_three hD' p q r
  refine ⟨A, B, hA, hB, ?_, ?_, a1, a2, a3⟩
  · refine affine_unique (l := [p, q, r]) ⟨p, by simp, q, by simp, r, by simp, hD⟩ (affine_comp hA hB) affine_id ?_
    intro z hz
    simp only [List.mem_cons, List.not_mem_nil, or_false] at hz
    rcases hz with rfl | rfl | rfl
    · rw [a1, b1]
    · rw [a2, b2]
    · rw [a3, b3]
  · refine affine_unique (l := [p', q', r']) ⟨p', by simp, q', by simp, r', by simp, hD'⟩ (affine_comp hB hA)
      affine_id ?_
    intro z hz
    simp only [List.mem_cons, List.not_mem_nil, or_false] at hz
    rcases hz with rfl | rfl | rfl
    · rw [b1, a1]
    · rw [b2, a2]
    · rw [b3, a3]

/-- The transform between two frames with three marked points each. -/
theorem three_points {T : Type} (ops : TransOps (List (Rat × Rat)) T) (hops : FitsAffine ops)
    (pts : Nat → List (Rat × Rat)) (h : List ((Nat × Nat) × List (String × MVal))) (f1 f2 : Nat)
    (hl : AffineLinked h f1 f2) {p q r p' q' r' : Rat × Rat} (h1 : pts f1 = [p, q, r]) (h2 : pts f2 = [p', q', r'])
    (hD : area2 p q r ≠ 0) (hD' : area2 p' q' r' ≠ 0) :
    ∃ t, getFrameTransform ops pts (relationsOf h) f1 f2 = .ok t ∧ IsAffine (ops.apply t) ∧
      ops.apply t p = p' ∧ ops.apply t q = q' ∧ ops.apply t r = r' := by
  obtain ⟨A, B, hA, hB, hBA, hAB, a1, a2, a3⟩ := triangle_maps hD hD'
  obtain ⟨t, ht, happ⟩ := C166_exact ops hops pts h f1 f2 hl A B hA hB hBA hAB
    (by rw [h1]; exact ⟨p, by simp, q, by simp, r, by simp, hD⟩) (by rw [h1, h2]; simp [a1, a2, a3])
  refine ⟨t, ht, ?_, by rw [happ, a1], by rw [happ, a2], by rw [happ, a3]⟩
  rw [show ops.apply t = A from funext happ]
  exact hA

/-- **C166**: with three points marked in each of three frames, in none of them on one line, going from the first to
the third by the second is the same as going directly, at every point and whichever way the frames were linked. -/
theorem C166_third_frame {T : Type} (ops : TransOps (List (Rat × Rat)) T) (hops : FitsAffine ops)
    (pts : Nat → List (Rat × Rat)) (h : List ((Nat × Nat) × List (String × MVal))) (f1 f2 f3 : Nat)
    (h12 : AffineLinked h f1 f2) (h23 : AffineLinked h f2 f3) (h13 : AffineLinked h f1 f3)
    (p q r : Nat → Rat × Rat) (hpts : ∀ f, pts f = [p f, q f, r f]) (hD : ∀ f, area2 (p f) (q f) (r f) ≠ 0) :
    ∃ t12 t23 t13, getFrameTransform ops pts (relationsOf h) f1 f2 = .ok t12 ∧
      getFrameTransform ops pts (relationsOf h) f2 f3 = .ok t23 ∧
      getFrameTransform ops pts (relationsOf h) f1 f3 = .ok t13 ∧
      ∀ z, ops.apply t23 (ops.apply t12 z) = ops.apply t13 z := by
  obtain ⟨t12, e12, a12, p12, q12, r12⟩ := three_points ops hops pts h f1 f2 h12 (hpts _) (hpts _) (hD _) (hD _)
  obtain ⟨t23, e23, a23, p23, q23, r23⟩ := three_points ops hops pts h f2 f3 h23 (hpts _) (hpts _) (hD _) (hD _)
  obtain ⟨t13, e13, a13, p13, q13, r13⟩ := three_points ops hops pts h f1 f3 h13 (hpts _) (hpts _) (hD _) (hD _)
  refine ⟨t12, t23, t13, e12, e23, e13, ?_⟩
  refine affine_unique (l := [p f1, q f1, r f1]) ⟨p f1, by simp, q f1, by simp, r f1, by simp, hD _⟩
    (affine_comp a12 a23) a13 ?_
  intro z hz
  simp only [List.mem_cons, List.not_mem_nil, or_false] at hz
  rcases hz with rfl | rfl | rfl
  · rw [p12, p23, p13]
  · rw [q12, q23, q13]
  · rw [r12, r23, r13]

theorem affine_bary {A : Rat × Rat → Rat × Rat} (hA : IsAffine A) (p q r : Rat × Rat) {l m n : Rat}
    (hs : l + m + n = 1) : A (l * p.1 + m * q.1 + n * r.1, l * p.2 + m * q.2 + n * r.2) =
      (l * (A p).1 + m * (A q).1 + n * (A r).1, l * (A p).2 + m * (A q).2 + n * (A r).2) := by
  obtain ⟨a, b, c, d, e, f, hA⟩ := hA
  simp only [hA, Prod.mk.injEq]
  constructor
  · linear_combination -e * hs
  · linear_combination -f * hs

theorem bary_bound {l m n x y z ε : Rat} (hx : |x| ≤ ε) (hy : |y| ≤ ε) (hz : |z| ≤ ε) :
    |l * x + m * y + n * z| ≤ (|l| + |m| + |n|) * ε := by
  calc |l * x + m * y + n * z| ≤ |l * x| + |m * y| + |n * z| := abs_add_three _ _ _
    _ = |l| * |x| + |m| * |y| + |n| * |z| := by rw [abs_mul, abs_mul, abs_mul]
    _ ≤ |l| * ε + |m| * ε + |n| * ε := by
      have := mul_le_mul_of_nonneg_left hx (abs_nonneg l)
      have := mul_le_mul_of_nonneg_left hy (abs_nonneg m)
      have := mul_le_mul_of_nonneg_left hz (abs_nonneg n)
      linarith
    _ = _ := by ring

/-- **C166**: three points are marked in each of two frames whose true relation is an affine map `A`, those in the second
frame up to `ε` off in each direction. At the point with weights `l`, `m`, `n` of the marked points the transform is off
by at most `(|l| + |m| + |n|) ε`, so inside their triangle by at most `ε`. -/
theorem C166_error {T : Type} (ops : TransOps (List (Rat × Rat)) T) (hops : FitsAffine ops)
    (pts : Nat → List (Rat × Rat)) (h : List ((Nat × Nat) × List (String × MVal))) (f1 f2 : Nat)
    (hl : AffineLinked h f1 f2) {p q r p' q' r' : Rat × Rat} (h1 : pts f1 = [p, q, r]) (h2 : pts f2 = [p', q', r'])
    (hD : area2 p q r ≠ 0) (hD' : area2 p' q' r' ≠ 0) (A : Rat × Rat → Rat × Rat) (hA : IsAffine A) (ε : Rat)
    (hp : |p'.1 - (A p).1| ≤ ε ∧ |p'.2 - (A p).2| ≤ ε) (hq : |q'.1 - (A q).1| ≤ ε ∧ |q'.2 - (A q).2| ≤ ε)
    (hr : |r'.1 - (A r).1| ≤ ε ∧ |r'.2 - (A r).2| ≤ ε) :
    ∃ t, getFrameTransform ops pts (relationsOf h) f1 f2 = .ok t ∧
      ∀ (l m n : Rat) (z : Rat × Rat), l + m + n = 1 →
        z = (l * p.1 + m * q.1 + n * r.1, l * p.2 + m * q.2 + n * r.2) →
        (|(ops.apply t z).1 - (A z).1| ≤ (|l| + |m| + |n|) * ε ∧
          |(ops.apply t z).2 - (A z).2| ≤ (|l| + |m| + |n|) * ε) ∧
        (0 ≤ l → 0 ≤ m → 0 ≤ n →
          |(ops.apply t z).1 - (A z).1| ≤ ε ∧ |(ops.apply t z).2 - (A z).2| ≤ ε) := by
  obtain ⟨t, ht, ha, e1, e2, e3⟩ := three_points ops hops pts h f1 f2 hl h1 h2 hD hD'
  refine ⟨t, ht, fun l m n z hs hz => ?_⟩
  have key : |(ops.apply t z).1 - (A z).1| ≤ (|l| + |m| + |n|) * ε ∧
      |(ops.apply t z).2 - (A z).2| ≤ (|l| + |m| + |n|) * ε := by
    rw [hz, affine_bary ha p q r hs, affine_bary hA p q r hs, e1, e2, e3]
    constructor
    · rw [show l * p'.1 + m * q'.1 + n * r'.1 - (l * (A p).1 + m * (A q).1 + n * (A r).1)
        = l * (p'.1 - (A p).1) + m * (q'.1 - (A q).1) + n * (r'.1 - (A r).1) by ring]
      exact bary_bound hp.1 hq.1 hr.1
    · rw [show l * p'.2 + m * q'.2 + n * r'.2 - (l * (A p).2 + m * (A q).2 + n * (A r).2)
        = l * (p'.2 - (A p).2) + m * (q'.2 - (A q).2) + n * (r'.2 - (A r).2) by ring]
      exact bary_bound hp.2 hq.2 hr.2
  refine ⟨key, fun hl hm hn => ?_⟩
  rwa [abs_of_nonneg hl, abs_of_nonneg hm, abs_of_nonneg hn, hs, one_mul] at key

/-- **C166**: outside the triangle the error does grow so: with marks off by `ε` to the sides of the signs of the
weights, the transform is off by `(|l| + |m| + |n|) ε`. -/
theorem C166_outside {T : Type} (ops : TransOps (List (Rat × Rat)) T) (hops : FitsAffine ops)
    (pts : Nat → List (Rat × Rat)) (h : List ((Nat × Nat) × List (String × MVal))) (f1 f2 : Nat)
    (hl : AffineLinked h f1 f2) {p q r p' q' r' : Rat × Rat} (h1 : pts f1 = [p, q, r]) (h2 : pts f2 = [p', q', r'])
    (hD : area2 p q r ≠ 0) (hD' : area2 p' q' r' ≠ 0) (A : Rat × Rat → Rat × Rat) (hA : IsAffine A) (ε : Rat)
    (hε : 0 ≤ ε) (l m n : Rat) (hs : l + m + n = 1)
    (hp : p'.1 = (A p).1 + if 0 ≤ l then ε else -ε) (hq : q'.1 = (A q).1 + if 0 ≤ m then ε else -ε)
    (hr : r'.1 = (A r).1 + if 0 ≤ n then ε else -ε) :
    ∃ t, getFrameTransform ops pts (relationsOf h) f1 f2 = .ok t ∧
      |(ops.apply t (l * p.1 + m * q.1 + n * r.1, l * p.2 + m * q.2 + n * r.2)).1
        - (A (l * p.1 + m * q.1 + n * r.1, l * p.2 + m * q.2 + n * r.2)).1| = (|l| + |m| + |n|) * ε := by
  obtain ⟨t, ht, ha, e1, e2, e3⟩ := three_points ops hops pts h f1 f2 hl h1 h2 hD hD'
  refine ⟨t, ht, ?_⟩
  rw [affine_bary ha p q r hs, affine_bary hA p q r hs, e1, e2, e3]
  have hk : ∀ x : Rat, x * (if 0 ≤ x then ε else -ε) = |x| * ε := by
    intro x
    by_cases hx : 0 ≤ x
    · rw [if_pos hx, abs_of_nonneg hx]
    · rw [if_neg hx, abs_of_neg (not_le.1 hx)]; ring
  have : l * p'.1 + m * q'.1 + n * r'.1 - (l * (A p).1 + m * (A q).1 + n * (A r).1) = (|l| + |m| + |n|) * ε := by
    rw [hp, hq, hr, add_mul, add_mul, ← hk l, ← hk m, ← hk n]
    ring
  simp only [this]
  exact abs_of_nonneg (mul_nonneg (by positivity) hε)

/-- Operations as asked for exist. -/
theorem fitsAffine_exists : ∃ ops : TransOps (List (Rat × Rat)) (Rat × Rat → Rat × Rat), FitsAffine ops := by
  classical
  refine ⟨⟨fun _ src dst _ => if h : ∃ A, IsAffine A ∧ src.map A = dst then h.choose else id,
    fun t => Function.invFun t, fun t => t⟩, ⟨fun src A hA _ => ?_, fun t _ hb p => ?_⟩⟩
  · have hex : ∃ B, IsAffine B ∧ src.map B = src.map A := ⟨A, hA, rfl⟩
    simp only [dif_pos hex]
    exact hex.choose_spec
  · exact Function.leftInverse_invFun hb.1 p

/-- Three frames linked in different directions. -/
example : AffineLinked [((0, 1), [("type", .str "affine")]), ((2, 1), [("type", .str "affine")]),
      ((0, 2), [("type", .str "affine")])] 0 1 ∧
    AffineLinked [((0, 1), [("type", .str "affine")]), ((2, 1), [("type", .str "affine")]),
      ((0, 2), [("type", .str "affine")])] 1 2 ∧
    AffineLinked [((0, 1), [("type", .str "affine")]), ((2, 1), [("type", .str "affine")]),
      ((0, 2), [("type", .str "affine")])] 0 2 ∧
    area2 (0, 0) (10, 1) (2, 8) ≠ 0 := by
  refine ⟨.inl ?_, .inr ?_, .inl ?_, ?_⟩
  · simp [latestLink]
  · simp [latestLink]
  · simp [latestLink]
  · norm_num [area2]

/-- Marks off by at most one pixel, and a map and points as in the theorem on exact points. -/
example : let A : Rat × Rat → Rat × Rat := fun p => (2 * p.1 + 0 * p.2 + 3, 0 * p.1 + 2 * p.2 + 5)
    IsAffine A ∧ area2 (4, 5) (23, 6) (6, 21) ≠ 0 ∧
    (|(4 : Rat) - (A (0, 0)).1| ≤ 1 ∧ |(5 : Rat) - (A (0, 0)).2| ≤ 1) ∧
    (|(23 : Rat) - (A (10, 1)).1| ≤ 1 ∧ |(6 : Rat) - (A (10, 1)).2| ≤ 1) ∧
    (|(6 : Rat) - (A (2, 8)).1| ≤ 1 ∧ |(21 : Rat) - (A (2, 8)).2| ≤ 1) ∧
    NotOnLine [(0, 0), (10, 1), (2, 8), (5, 5)] := by
  refine ⟨⟨2, 0, 0, 2, 3, 5, fun p => rfl⟩, ?_, ?_, ?_, ?_, ?_⟩
  · norm_num [area2]
  · norm_num
  · norm_num [abs_le]
  · norm_num [abs_le]
  · exact ⟨(0, 0), by simp, (10, 1), by simp, (2, 8), by simp, by norm_num [area2]⟩

/-- Marks as in `C166_outside`, for the same points and the identity. -/
example : area2 (1, 0) (9, 1) (3, 8) ≠ 0 ∧ (2 : Rat) + -1 + 0 = 1 ∧
    (1 : Rat) = 0 + (if (0 : Rat) ≤ 2 then 1 else -1) ∧ (9 : Rat) = 10 + (if (0 : Rat) ≤ -1 then 1 else -1) ∧
    (3 : Rat) = 2 + (if (0 : Rat) ≤ 0 then 1 else -1) := by
  norm_num [area2]

end DefDAP
