import Mathlib.Tactic.Ring
import Mathlib.Tactic.FieldSimp
import Mathlib.Tactic.Linarith
import Mathlib.Tactic.LinearCombination
import Mathlib.Tactic.NormNum
import Verif.Model.WarpPoints
import Verif.Props.Boundaries

/-! C100: boundaries of the EBSD map in the DIC frame. -/

namespace DefDAP

open Spec (InMap)

theorem roundHalfEven_close (q : ℝ) : |(roundHalfEven q : ℝ) - q| ≤ 1 / 2 := by
  have h1 := Int.floor_le q
  have h2 := Int.lt_floor_add_one q
  unfold roundHalfEven
  rw [abs_le]
  split_ifs with a b c
  · constructor <;> linarith
  · push_cast; constructor <;> linarith
  · constructor <;> linarith
  · push_cast; constructor <;> linarith

theorem sliceOf_nonneg {n : Nat} {c : Int} {k : Nat} (hc : 0 ≤ c) :
    sliceOf n c (c + k) = (min c n, (min (c + k) n - min c n).toNat) := by
  unfold sliceOf
  simp only
  rw [if_neg (by omega), if_neg (by omega)]

/-- What the crop offset is: it moves the image with border back to within half a pixel. -/
theorem cropOffset_spec (rows cols : Nat) (t : Aff) (hdet : t.a * t.d - t.b * t.c ≠ 0) :
    ∃ (c : Int × Int) (δ : ℝ × ℝ), cropOffset rows cols t = .ok c ∧ |δ.1| ≤ 1 / 2 ∧ |δ.2| ≤ 1 / 2 ∧
      ∀ p : ℝ × ℝ, (borderTrans rows cols t).apply p = t.apply (p.1 - c.1 + δ.1, p.2 - c.2 + δ.2) := by
  set u := t.tx + 0.05 * (rows : ℝ) with hu
  set v := t.ty + 0.05 * (cols : ℝ) with hv
  set det := t.a * t.d - t.b * t.c with hd
  refine ⟨(roundHalfEven ((t.d * u - t.b * v) / det), roundHalfEven ((t.a * v - t.c * u) / det)),
    (roundHalfEven ((t.d * u - t.b * v) / det) - (t.d * u - t.b * v) / det,
     roundHalfEven ((t.a * v - t.c * u) / det) - (t.a * v - t.c * u) / det),
    ?_, roundHalfEven_close _, roundHalfEven_close _, ?_⟩
  · unfold cropOffset
    simp only
    rw [if_neg hdet]
  · intro p
    have e1 : t.a * ((t.d * u - t.b * v) / det) + t.b * ((t.a * v - t.c * u) / det) = u := by
      field_simp
      rw [hd]; ring
    have e2 : t.c * ((t.d * u - t.b * v) / det) + t.d * ((t.a * v - t.c * u) / det) = v := by
      field_simp
      rw [hd]; ring
    unfold Aff.apply borderTrans
    simp only
    refine Prod.ext ?_ ?_
    · show t.a * p.1 + t.b * p.2 + -(0.05 * (rows : ℝ)) = _
      have : -(0.05 * (rows : ℝ)) = t.tx - u := by rw [hu]; ring
      rw [this]
      simp only
      linear_combination e1
    · show t.c * p.1 + t.d * p.2 + -(0.05 * (cols : ℝ)) = _
      have : -(0.05 * (cols : ℝ)) = t.ty - v := by rw [hv]; ring
      rw [this]
      simp only
      linear_combination e2

theorem warpPoints_aff {sample : Img ℝ → ℝ × ℝ → ℝ} {clean : Nat → Nat → Img Bool → Img Bool}
    {rows cols : Nat} {im : Img ℝ} {t : Aff} {out : Nat × Nat} {c : Int × Int}
    (hc : cropOffset rows cols t = .ok c) :
    warpPoints sample clean rows cols im (.aff t) out =
      .ok (nonzeroT (sliceOf (borderShape rows cols t).1 c.2 (c.2 + out.1)).2
        (sliceOf (borderShape rows cols t).2 c.1 (c.1 + out.2)).2 fun y x =>
          clean (borderShape rows cols t).1 (borderShape rows cols t).2
            (fun y x => open Classical in decide (0.1 < sample im ((borderTrans rows cols t).apply ((x : ℝ), (y : ℝ)))))
            (y + (sliceOf (borderShape rows cols t).1 c.2 (c.2 + out.1)).1)
            (x + (sliceOf (borderShape rows cols t).2 c.1 (c.1 + out.2)).1)) := by
  unfold warpPoints
  simp only [hc]
  rfl

/-- Where the boundary is, in an image with the pixel grid of the DIC map moved by `c` pixels and by
`δ`, at most half a pixel in each direction. -/
noncomputable def Spec.onBoundary (sample : Img ℝ → ℝ × ℝ → ℝ) (im : Img ℝ) (t : ℝ × ℝ → ℝ × ℝ) (c : Int × Int)
    (δ : ℝ × ℝ) : Img Bool :=
  fun y x => open Classical in decide (0.1 < sample im (t ((x : ℝ) - c.1 + δ.1, (y : ℝ) - c.2 + δ.2)))

/-- **C100**: for an affine transform, if the offset of the border is not negative, a pixel of the DIC map
is a boundary point exactly when it lies on the thinned line of positions that the transform takes to a
boundary of the EBSD map, up to half a pixel, and in the image with border. -/
theorem C100_points (sample : Img ℝ → ℝ × ℝ → ℝ) (clean : Nat → Nat → Img Bool → Img Bool)
    (rows cols : Nat) (im : Img ℝ) (t : Aff) (hdet : t.a * t.d - t.b * t.c ≠ 0) (H W : Nat) :
    ∃ (c : Int × Int) (δ : ℝ × ℝ), cropOffset rows cols t = .ok c ∧ |δ.1| ≤ 1 / 2 ∧ |δ.2| ≤ 1 / 2 ∧
      (0 ≤ c.1 ∧ 0 ≤ c.2 → ∃ points, warpPoints sample clean rows cols im (.aff t) (H, W) = .ok points ∧
        points.Nodup ∧ ∀ p, p ∈ points ↔ InMap H W p ∧
          (p.1 + c.1 < (borderShape rows cols t).2 ∧ p.2 + c.2 < (borderShape rows cols t).1) ∧
          clean (borderShape rows cols t).1 (borderShape rows cols t).2 (Spec.onBoundary sample im t.apply c δ)
            (p.2 + c.2) (p.1 + c.1) = true) := by
  obtain ⟨c, δ, hc, h1, h2, hap⟩ := cropOffset_spec rows cols t hdet
  refine ⟨c, δ, hc, h1, h2, fun h0 => ?_⟩
  refine ⟨_, warpPoints_aff hc, nonzeroT_nodup _ _ _, fun p => ?_⟩
  rw [mem_nonzeroT, sliceOf_nonneg h0.1, sliceOf_nonneg h0.2]
  have himg : (fun (y x : Int) => open Classical in decide (0.1 < sample im ((borderTrans rows cols t).apply
      ((x : ℝ), (y : ℝ))))) = Spec.onBoundary sample im t.apply c δ := by
    funext y x
    unfold Spec.onBoundary
    rw [hap]
  rw [himg]
  set H' := (borderShape rows cols t).1
  set W' := (borderShape rows cols t).2
  simp only
  unfold InMap
  constructor
  · rintro ⟨⟨a1, a2, a3, a4⟩, a5⟩
    have e1 : min c.1 (W' : Int) = c.1 := by omega
    have e2 : min c.2 (H' : Int) = c.2 := by omega
    rw [e1, e2] at a5
    exact ⟨by omega, by omega, a5⟩
  · rintro ⟨⟨a1, a2, a3, a4⟩, ⟨b1, b2⟩, a5⟩
    have e1 : min c.1 (W' : Int) = c.1 := by omega
    have e2 : min c.2 (H' : Int) = c.2 := by omega
    rw [e1, e2]
    exact ⟨by omega, a5⟩

theorem nonzeroT_zero_h {h w : Nat} {im : Img Bool} (hz : h = 0 ∨ w = 0) : nonzeroT h w im = [] := by
  rw [nonzeroT_eq_nil]
  intro p hp
  unfold InMap at hp
  omega

/-- An unrotated transform: `s` pixels of the EBSD map to each pixel of the DIC map. -/
def Spec.unrotated (s tx ty : ℝ) : Aff := ⟨s, 0, 0, s, tx, ty⟩

theorem unrotated_det {s : ℝ} (hs : 0 < s) (tx ty : ℝ) :
    (Spec.unrotated s tx ty).a * (Spec.unrotated s tx ty).d -
      (Spec.unrotated s tx ty).b * (Spec.unrotated s tx ty).c ≠ 0 := by
  unfold Spec.unrotated
  simp only [mul_zero, sub_zero]
  positivity

theorem unrotated_crop {s : ℝ} (hs : 0 < s) (tx ty : ℝ) (rows cols : Nat) :
    cropOffset rows cols (Spec.unrotated s tx ty) =
      .ok (roundHalfEven ((tx + 0.05 * rows) / s), roundHalfEven ((ty + 0.05 * cols) / s)) := by
  unfold cropOffset
  simp only
  rw [if_neg (unrotated_det hs tx ty)]
  unfold Spec.unrotated
  simp only [mul_zero, zero_mul, sub_zero]
  have e : ∀ u : ℝ, s * u / (s * s) = u / s := by
    intro u
    field_simp
  rw [e, e]

theorem unrotated_shape {s : ℝ} (hs : 0 < s) (tx ty : ℝ) (rows cols : Nat) :
    borderShape rows cols (Spec.unrotated s tx ty) =
      (⌊(rows : ℝ) * 1.4 / s⌋.toNat, ⌊(cols : ℝ) * 1.4 / s⌋.toNat) := by
  unfold borderShape Aff.scale Spec.unrotated
  have : Real.sqrt (s ^ 2) = s := Real.sqrt_sq hs.le
  simp only [ne_eq, OfNat.ofNat_ne_zero, not_false_eq_true, zero_pow, add_zero, zero_add, this]

/-- **C100**: for maps that are not rotated against each other, with the DIC map inside the EBSD map, which
is at most six times as long as wide, all of the DIC map is covered. -/
theorem C100_inside (sample : Img ℝ → ℝ × ℝ → ℝ) (clean : Nat → Nat → Img Bool → Img Bool)
    (rows cols : Nat) (im : Img ℝ) {s tx ty : ℝ} (hs : 0 < s) (H W : Nat)
    (hx : 0 ≤ tx ∧ tx + s * W ≤ cols) (hy : 0 ≤ ty ∧ ty + s * H ≤ rows)
    (hr : rows ≤ 6 * cols ∧ cols ≤ 6 * rows) (hl : 15 * s ≤ rows ∧ 15 * s ≤ cols) :
    ∃ (c : Int × Int) (δ : ℝ × ℝ), |δ.1| ≤ 1 / 2 ∧ |δ.2| ≤ 1 / 2 ∧ 0 ≤ c.1 ∧ 0 ≤ c.2 ∧
      ∃ (points : List Px) (H' W' : Nat), warpPoints sample clean rows cols im (.aff (Spec.unrotated s tx ty)) (H, W) = .ok points ∧
        points.Nodup ∧ c.1 + W ≤ W' ∧ c.2 + H ≤ H' ∧ ∀ p, p ∈ points ↔ InMap H W p ∧
          clean H' W' (Spec.onBoundary sample im (Spec.unrotated s tx ty).apply c δ) (p.2 + c.2) (p.1 + c.1) =
            true := by
  obtain ⟨c, δ, hc, h1, h2, hp⟩ := C100_points sample clean rows cols im (Spec.unrotated s tx ty)
    (unrotated_det hs tx ty) H W
  have hc' := unrotated_crop hs tx ty rows cols
  rw [hc] at hc'
  have hce : c = _ := Except.ok.inj hc'
  have hsh := unrotated_shape hs tx ty rows cols
  have bound : ∀ (t : ℝ) (n m K : Nat), 0 ≤ t → t + s * K ≤ n → m ≤ 6 * n → 15 * s ≤ n →
      0 ≤ roundHalfEven ((t + 0.05 * m) / s) ∧
      roundHalfEven ((t + 0.05 * m) / s) + (K : Int) ≤ (⌊(n : ℝ) * 1.4 / s⌋.toNat : Int) := by
    intro t n m K h0 h1 h2 h3
    have hcl := abs_le.1 (roundHalfEven_close ((t + 0.05 * m) / s))
    have hm : (m : ℝ) ≤ 6 * n := by exact_mod_cast h2
    have hm0 : (0 : ℝ) ≤ m := by positivity
    have hq : 0 ≤ (t + 0.05 * m) / s := by positivity
    have hlow : (-1 : ℝ) < roundHalfEven ((t + 0.05 * m) / s) := by linarith
    have hlow' : (-1 : Int) < roundHalfEven ((t + 0.05 * m) / s) := by exact_mod_cast hlow
    refine ⟨by omega, ?_⟩
    have h4 : (t + 0.05 * m) / s + K + 3 / 2 ≤ (n : ℝ) * 1.4 / s := by
      rw [le_div_iff₀ hs]
      have : ((t + 0.05 * m) / s + K + 3 / 2) * s = t + 0.05 * m + K * s + 3 / 2 * s := by
        field_simp
      rw [this]
      nlinarith
    have h5 := Int.lt_floor_add_one ((n : ℝ) * 1.4 / s)
    have h6 : (roundHalfEven ((t + 0.05 * m) / s) : ℝ) + K < ⌊(n : ℝ) * 1.4 / s⌋ + 1 := by linarith
    have h7 : roundHalfEven ((t + 0.05 * m) / s) + (K : Int) < ⌊(n : ℝ) * 1.4 / s⌋ + 1 := by exact_mod_cast h6
    omega
  have bx := bound tx cols rows W hx.1 hx.2 hr.1 hl.2
  have by' := bound ty rows cols H hy.1 hy.2 hr.2 hl.1
  have hc0 : 0 ≤ c.1 ∧ 0 ≤ c.2 := by rw [hce]; exact ⟨bx.1, by'.1⟩
  obtain ⟨points, e, hn, hm⟩ := hp hc0
  refine ⟨c, δ, h1, h2, hc0.1, hc0.2, points, (borderShape rows cols (Spec.unrotated s tx ty)).1,
    (borderShape rows cols (Spec.unrotated s tx ty)).2, e, hn, ?_, ?_, fun p => ?_⟩
  · rw [hsh, hce]; exact bx.2
  · rw [hsh, hce]; exact by'.2
  · rw [hm p]
    have b1 : c.1 + (W : Int) ≤ (borderShape rows cols (Spec.unrotated s tx ty)).2 := by rw [hsh, hce]; exact bx.2
    have b2 : c.2 + (H : Int) ≤ (borderShape rows cols (Spec.unrotated s tx ty)).1 := by rw [hsh, hce]; exact by'.2
    constructor
    · rintro ⟨a1, -, a2⟩; exact ⟨a1, a2⟩
    · rintro ⟨a1, a2⟩
      exact ⟨a1, by unfold InMap at a1; omega, a2⟩

theorem sliceOf_negative {n : Nat} {c : Int} {k : Nat} (hc : c < 0) (hk : 0 ≤ c + k) (hn : k ≤ n) :
    (sliceOf n c (c + k)).2 = 0 := by
  unfold sliceOf
  simp only
  rw [if_neg (by omega), if_pos hc]
  omega

/-- **C100** fails if the DIC map begins left of the EBSD map by more than 5 % of its number of rows (and half
a pixel) and reaches into it: no boundary points are found, and the boundary image is a boundary everywhere. -/
theorem C100_lost (sample : Img ℝ → ℝ × ℝ → ℝ) (clean : Nat → Nat → Img Bool → Img Bool)
    (rows cols : Nat) (im : Img ℝ) {s tx ty : ℝ} (hs : 0 < s) (H W : Nat)
    (h0 : tx + 0.05 * rows < -(s / 2)) (h1 : 0 ≤ tx + s * W) (h2 : s * W + s ≤ 1.4 * cols) :
    warpPoints sample clean rows cols im (.aff (Spec.unrotated s tx ty)) (H, W) = .ok [] ∧
    ∃ b, boundaryImage H W [] = .ok b ∧ ∀ p, InMap H W p → b p.2 p.1 = true := by
  refine ⟨?_, _, rfl, fun _ _ => rfl⟩
  rw [warpPoints_aff (unrotated_crop hs tx ty rows cols), unrotated_shape hs]
  congr 1
  apply nonzeroT_zero_h
  right
  set q := (tx + 0.05 * rows) / s with hq
  have hcl := abs_le.1 (roundHalfEven_close q)
  have hrows : (0 : ℝ) ≤ rows := by positivity
  apply sliceOf_negative
  · have : q < -(1 / 2) := by
      rw [hq, div_lt_iff₀ hs]; linarith
    have h3 : (roundHalfEven q : ℝ) < 0 := by linarith
    exact_mod_cast h3
  · have : -(W : ℝ) ≤ q := by
      rw [hq, le_div_iff₀ hs]; nlinarith
    have h3 : (-1 : ℝ) < roundHalfEven q + W := by linarith
    have h4 : (-1 : Int) < roundHalfEven q + W := by exact_mod_cast h3
    show 0 ≤ roundHalfEven q + (W : Int)
    omega
  · have : (W : ℝ) + 1 ≤ (cols : ℝ) * 1.4 / s := by
      rw [le_div_iff₀ hs]; linarith
    have h5 := Int.lt_floor_add_one ((cols : ℝ) * 1.4 / s)
    have h6 : (W : ℝ) < ⌊(cols : ℝ) * 1.4 / s⌋ := by linarith
    have h7 : (W : Int) < ⌊(cols : ℝ) * 1.4 / s⌋ := by exact_mod_cast h6
    show W ≤ ⌊(cols : ℝ) * 1.4 / s⌋.toNat
    omega

/-- **C100** fails for maps ten times as high as wide: even with the identity as transform, the last tenth of
the columns has no boundary points. -/
theorem C100_elongated (sample : Img ℝ → ℝ × ℝ → ℝ) (clean : Nat → Nat → Img Bool → Img Bool)
    (rows cols : Nat) (im : Img ℝ) (hr : 10 * cols ≤ rows) {points : List Px}
    (h : warpPoints sample clean rows cols im (.aff (Spec.unrotated 1 0 0)) (rows, cols) = .ok points) :
    ∀ p ∈ points, (p.1 : ℝ) < 0.9 * cols + 1 / 2 := by
  obtain ⟨c, δ, hc, -, -, hp⟩ := C100_points sample clean rows cols im (Spec.unrotated 1 0 0)
    (unrotated_det one_pos 0 0) rows cols
  have hc' := unrotated_crop one_pos 0 0 rows cols
  rw [hc] at hc'
  have hce : c = _ := Except.ok.inj hc'
  have hrows : (0 : ℝ) ≤ rows := by positivity
  have hcols : (0 : ℝ) ≤ cols := by positivity
  have hcl := abs_le.1 (roundHalfEven_close (((0 : ℝ) + 0.05 * rows) / 1))
  have hcl2 := abs_le.1 (roundHalfEven_close (((0 : ℝ) + 0.05 * cols) / 1))
  have pos : ∀ x : Int, (-1 : ℝ) < x → 0 ≤ x := by
    intro x hx
    have : (-1 : Int) < x := by exact_mod_cast hx
    omega
  have hc0 : 0 ≤ c.1 ∧ 0 ≤ c.2 := by
    rw [hce]
    exact ⟨pos _ (by linarith), pos _ (by linarith)⟩
  obtain ⟨points', e, -, hm⟩ := hp hc0
  rw [h] at e
  cases e
  intro p hp
  obtain ⟨-, ⟨h1, -⟩, -⟩ := (hm p).1 hp
  rw [unrotated_shape one_pos, hce] at h1
  have hfl := Int.floor_le ((cols : ℝ) * 1.4 / 1)
  have hnn : 0 ≤ ⌊(cols : ℝ) * 1.4 / 1⌋ := Int.floor_nonneg.2 (by positivity)
  have h2 : p.1 + roundHalfEven (((0 : ℝ) + 0.05 * rows) / 1) < ⌊(cols : ℝ) * 1.4 / 1⌋ := by
    have := h1
    simp only at this
    omega
  have h3 : (p.1 : ℝ) + roundHalfEven (((0 : ℝ) + 0.05 * rows) / 1) < ⌊(cols : ℝ) * 1.4 / 1⌋ := by exact_mod_cast h2
  have h4 : (10 : ℝ) * cols ≤ rows := by exact_mod_cast hr
  linarith

/-- The transform of a map turned by 180 degrees to itself. -/
def Spec.turned (rows cols : Nat) : Aff := ⟨-1, 0, 0, -1, (cols : ℝ) - 1, (rows : ℝ) - 1⟩

/-- **C100** fails for a map turned by 180 degrees: no boundary points are found, although both maps show
the same area. Outside of an image the value is 0; an image without boundaries stays so when thinned. -/
theorem C100_turned (sample : Img ℝ → ℝ × ℝ → ℝ) (clean : Nat → Nat → Img Bool → Img Bool)
    (hsample : ∀ im p, p.1 < -1 / 2 ∨ p.2 < -1 / 2 → sample im p ≤ 0.1)
    (hclean : ∀ h w im, (∀ p, InMap h w p → im p.2 p.1 = false) → ∀ p, InMap h w p → clean h w im p.2 p.1 = false)
    (rows cols : Nat) (hr : 11 ≤ rows) (hcols : 11 ≤ cols) (im : Img ℝ) :
    warpPoints sample clean rows cols im (.aff (Spec.turned rows cols)) (rows, cols) = .ok [] := by
  obtain ⟨c, δ, hc, -⟩ := cropOffset_spec rows cols (Spec.turned rows cols) (by simp [Spec.turned])
  rw [warpPoints_aff hc]
  congr 1
  rw [nonzeroT_eq_nil]
  intro p hp
  set H' := (borderShape rows cols (Spec.turned rows cols)).1
  set W' := (borderShape rows cols (Spec.turned rows cols)).2
  have hin : ∀ (n : Nat) (a b : Int) (k : Int), 0 ≤ k → k < ((sliceOf n a b).2 : Int) →
      0 ≤ k + (sliceOf n a b).1 ∧ k + (sliceOf n a b).1 < n := by
    intro n a b k h0 h1
    unfold sliceOf at h1 ⊢
    simp only at h1 ⊢
    split_ifs at h1 ⊢ <;> omega
  unfold InMap at hp
  have b1 := hin H' c.2 (c.2 + (rows : Int)) p.2 hp.2.2.1 hp.2.2.2
  have b2 := hin W' c.1 (c.1 + (cols : Int)) p.1 hp.1 hp.2.1
  apply hclean _ _ _ _ (p.1 + _, p.2 + _) ⟨b2.1, b2.2, b1.1, b1.2⟩
  intro q hq
  rw [decide_eq_false_iff_not, not_lt]
  apply hsample
  left
  show (Spec.turned rows cols).a * (q.1 : ℝ) + (Spec.turned rows cols).b * (q.2 : ℝ) + -(0.05 * (rows : ℝ)) < -1 / 2
  unfold Spec.turned
  have h1 : (0 : ℝ) ≤ q.1 := by exact_mod_cast hq.1
  have h2 : (11 : ℝ) ≤ rows := by exact_mod_cast hr
  simp only
  linarith

/-- Any other transform is not moved: the points are the pixels that it takes to a boundary. -/
theorem C100_other (sample : Img ℝ → ℝ × ℝ → ℝ) (clean : Nat → Nat → Img Bool → Img Bool)
    (rows cols : Nat) (im : Img ℝ) (f : ℝ × ℝ → ℝ × ℝ) (H W : Nat) :
    ∃ points, warpPoints sample clean rows cols im (.other f) (H, W) = .ok points ∧ points.Nodup ∧
      ∀ p, p ∈ points ↔ InMap H W p ∧
        clean H W (Spec.onBoundary sample im f (0, 0) (0, 0)) p.2 p.1 = true := by
  refine ⟨_, rfl, nonzeroT_nodup _ _ _, fun p => ?_⟩
  rw [mem_nonzeroT]
  have : Spec.onBoundary sample im f (0, 0) (0, 0) =
      fun (y x : Int) => open Classical in decide (0.1 < sample im (f ((x : ℝ), (y : ℝ)))) := by
    funext y x
    simp [Spec.onBoundary]
  rw [this]
  rfl

/-- **C100** from the points of the EBSD boundaries: the image warped is 1 at these points and 0 elsewhere;
without boundaries in the EBSD map there are none in the DIC map. -/
theorem C100_ebsd (sample : Img ℝ → ℝ × ℝ → ℝ) (clean : Nat → Nat → Img Bool → Img Bool)
    (rows cols : Nat) (t : FrameTrans) (out : Nat × Nat) :
    dicBoundaryPoints sample clean rows cols [] t out = .ok [] ∧
    ∀ points : List Px, points ≠ [] → (∀ p ∈ points, InMap rows cols p) →
      dicBoundaryPoints sample clean rows cols points t out =
        warpPoints sample clean rows cols (fun y x => if (x, y) ∈ points then 1 else 0) t out := by
  refine ⟨rfl, fun points hne hin => ?_⟩
  unfold dicBoundaryPoints
  rw [if_neg hne]
  have : boundaryImage rows cols points = .ok fun y x => decide ((x, y) ∈ points) := by
    cases points with
    | nil => exact absurd rfl hne
    | cons a l =>
      unfold boundaryImage
      have hall : ((a :: l).all fun p => inB rows cols p.1 p.2) = true := by
        rw [List.all_eq_true]
        exact fun p hp => inB_iff.2 (hin p hp)
      simp only [hall, if_true]
  rw [this]
  simp [Except.bind]

/-- The hypotheses of `C100_inside` and `C100_lost` are met by an EBSD map of 100 by 200 pixels. -/
example : (0 : ℝ) < 1 / 2 ∧ ((0 : ℝ) ≤ 10 ∧ (10 : ℝ) + 1 / 2 * (300 : Nat) ≤ (200 : Nat)) ∧
    ((0 : ℝ) ≤ 20 ∧ (20 : ℝ) + 1 / 2 * (150 : Nat) ≤ (100 : Nat)) ∧ (100 ≤ 6 * 200 ∧ 200 ≤ 6 * 100) ∧
    (15 * (1 / 2 : ℝ) ≤ (100 : Nat) ∧ 15 * (1 / 2 : ℝ) ≤ (200 : Nat)) ∧
    ((-8 : ℝ) + 0.05 * (100 : Nat) < -(1 / 2 / 2) ∧ (0 : ℝ) ≤ -8 + 1 / 2 * (300 : Nat) ∧
      (1 / 2 : ℝ) * (300 : Nat) + 1 / 2 ≤ 1.4 * (200 : Nat)) := by
  norm_num

/-- The hypotheses of `C100_turned` are met by taking the nearest pixel and no thinning. -/
example : ∃ (sample : Img ℝ → ℝ × ℝ → ℝ) (clean : Nat → Nat → Img Bool → Img Bool),
    (∀ im p, p.1 < -1 / 2 ∨ p.2 < -1 / 2 → sample im p ≤ 0.1) ∧
    (∀ h w im, (∀ p, InMap h w p → im p.2 p.1 = false) → ∀ p, InMap h w p → clean h w im p.2 p.1 = false) ∧
    ∀ im (y x : Int), 0 ≤ y → 0 ≤ x → sample im ((x : ℝ), (y : ℝ)) = im y x := by
  refine ⟨fun im p => open Classical in if p.1 < -1 / 2 ∨ p.2 < -1 / 2 then 0 else im (round p.2) (round p.1),
    fun _ _ im => im, fun im p hp => ?_, fun _ _ _ h => h, fun im y x hy hx => ?_⟩
  · simp only [if_pos hp]; norm_num
  · have h1 : (0 : ℝ) ≤ x := by exact_mod_cast hx
    have h2 : (0 : ℝ) ≤ y := by exact_mod_cast hy
    have : ¬ ((x : ℝ) < -1 / 2 ∨ (y : ℝ) < -1 / 2) := by
      rintro (h | h) <;> linarith
    simp only [if_neg this, round_intCast]

end DefDAP
