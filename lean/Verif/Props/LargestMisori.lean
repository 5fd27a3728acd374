import Verif.Props.MisoriDistance
import Mathlib.Tactic.Linarith
import Mathlib.Tactic.LinearCombination

/-!
C139: the largest misorientation of cubic and of hexagonal crystals.
-/

namespace DefDAP

open Quat Spec Matrix

/-- Sums of squares under weak majorization of four numbers. -/
theorem major4 {a b c d w1 w2 w3 w4 : ℝ} (hab : b ≤ a) (hbc : c ≤ b) (hcd : d ≤ c) (hd : 0 ≤ d)
    (h12 : w2 ≤ w1) (h23 : w3 ≤ w2) (h34 : w4 ≤ w3) (h4 : 0 ≤ w4) (e1 : a ≤ w1) (e2 : a + b ≤ w1 + w2)
    (e3 : a + b + c ≤ w1 + w2 + w3) (e4 : a + b + c + d ≤ w1 + w2 + w3 + w4) :
    a ^ 2 + b ^ 2 + c ^ 2 + d ^ 2 ≤ w1 ^ 2 + w2 ^ 2 + w3 ^ 2 + w4 ^ 2 := by
  have m1 := mul_nonneg (sub_nonneg.2 e1) (sub_nonneg.2 hab)
  have m2 := mul_nonneg (sub_nonneg.2 e2) (sub_nonneg.2 hbc)
  have m3 := mul_nonneg (sub_nonneg.2 e3) (sub_nonneg.2 hcd)
  have m4 := mul_nonneg (sub_nonneg.2 e4) hd
  have n1 := mul_nonneg (sub_nonneg.2 e1) (sub_nonneg.2 h12)
  have n2 := mul_nonneg (sub_nonneg.2 e2) (sub_nonneg.2 h23)
  have n3 := mul_nonneg (sub_nonneg.2 e3) (sub_nonneg.2 h34)
  have n4 := mul_nonneg (sub_nonneg.2 e4) h4
  linarith

/-- Four numbers in order, with the bounds that the rotations of a cube give. -/
theorem cube_sorted {a b c d r M : ℝ} (hr : r ^ 2 = 2) (hr0 : 0 ≤ r) (hab : b ≤ a) (hbc : c ≤ b) (hcd : d ≤ c)
    (hd : 0 ≤ d) (e1 : a ≤ M) (e2 : a + b ≤ r * M) (e3 : a + b + c + d ≤ 2 * M) :
    a ^ 2 + b ^ 2 + c ^ 2 + d ^ 2 ≤ (24 - 16 * r) * M ^ 2 := by
  have hM : 0 ≤ M := by linarith
  obtain ⟨r1, r2⟩ : 1.414 < r ∧ r < 1.415 := ⟨by nlinarith, by nlinarith⟩
  have p1 : 0 ≤ (r - 1) * M := mul_nonneg (by linarith) hM
  have p2 : 0 ≤ (3 - 2 * r) * M := mul_nonneg (by linarith) hM
  have p3 : 0 ≤ (3 * r - 4) * M := mul_nonneg (by linarith) hM
  have p4 : 0 ≤ (2 - r) * M := mul_nonneg (by linarith) hM
  by_cases h1 : (3 - 2 * r) * M ≤ d
  · have h := major4 (w1 := M) (w2 := (r - 1) * M) (w3 := (r - 1) * M) (w4 := (3 - 2 * r) * M) hab hbc hcd hd
      (by linarith) le_rfl (by linarith) p2 e1 (by linarith) (by linarith) (by linarith)
    refine h.trans (le_of_eq ?_)
    linear_combination (6 * M ^ 2) * hr
  · have h1' : d < (3 - 2 * r) * M := not_le.1 h1
    have q1 : 0 ≤ (6 - 4 * r) * M := by linarith
    by_cases h2 : a ≤ (2 * r - 2) * M + d
    · have h := major4 (w1 := (2 * r - 2) * M + d) (w2 := (2 - r) * M - d) (w3 := (2 - r) * M - d) (w4 := d)
        hab hbc hcd hd (by nlinarith) le_rfl (by nlinarith) hd h2 (by linarith) (by linarith) (by linarith)
      refine h.trans ?_
      have m := mul_nonneg hd (sub_nonneg.2 h1'.le)
      have e : ((2 * r - 2) * M + d) ^ 2 + ((2 - r) * M - d) ^ 2 + ((2 - r) * M - d) ^ 2 + d ^ 2 =
          (24 - 16 * r) * M ^ 2 - 4 * (d * ((3 - 2 * r) * M - d)) := by
        linear_combination (6 * M ^ 2) * hr
      rw [e]
      linarith
    · have h2' := not_le.1 h2
      have hb : 0 ≤ b := by linarith
      have hc : 0 ≤ c := by linarith
      have b1 : b ≤ r * M - a := by linarith
      have s1 : b ^ 2 ≤ (r * M - a) ^ 2 := by nlinarith
      have s2 : c ^ 2 ≤ (r * M - a) ^ 2 := by nlinarith
      have s3 : d ^ 2 ≤ (a - (2 * r - 2) * M) ^ 2 := by nlinarith
      have m := mul_nonneg (by linarith : 0 ≤ a - (2 * r - 2) * M) (sub_nonneg.2 e1)
      have e : a ^ 2 + (r * M - a) ^ 2 + (r * M - a) ^ 2 + (a - (2 * r - 2) * M) ^ 2 =
          (24 - 16 * r) * M ^ 2 - 4 * ((a - (2 * r - 2) * M) * (M - a)) := by
        linear_combination (6 * M ^ 2) * hr
      linarith

theorem cube_any {a b c d r M : ℝ} (hr : r ^ 2 = 2) (hr0 : 0 ≤ r) (ha : 0 ≤ a) (hb : 0 ≤ b) (hc : 0 ≤ c)
    (hd : 0 ≤ d) (a1 : a ≤ M) (b1 : b ≤ M) (c1 : c ≤ M) (d1 : d ≤ M) (ab : a + b ≤ r * M) (ac : a + c ≤ r * M)
    (ad : a + d ≤ r * M) (bc : b + c ≤ r * M) (bd : b + d ≤ r * M) (cd : c + d ≤ r * M)
    (s : a + b + c + d ≤ 2 * M) : a ^ 2 + b ^ 2 + c ^ 2 + d ^ 2 ≤ (24 - 16 * r) * M ^ 2 := by
  have fin : ∀ {x y z w : ℝ}, y ≤ x → z ≤ y → w ≤ z → 0 ≤ w → x ≤ M → x + y ≤ r * M → x + y + z + w ≤ 2 * M →
      x ^ 2 + y ^ 2 + z ^ 2 + w ^ 2 ≤ (24 - 16 * r) * M ^ 2 := fun h1 h2 h3 h4 h5 h6 h7 =>
    cube_sorted hr hr0 h1 h2 h3 h4 h5 h6 h7
  rcases le_total a b with h1 | h1 <;> rcases le_total c d with h2 | h2
  · rcases le_total b d with h3 | h3 <;> rcases le_total a c with h4 | h4
    · rcases le_total b c with h5 | h5
      · linarith [fin h2 h5 h1 ha d1 (by linarith) (by linarith)]
      · linarith [fin h3 h5 h4 ha d1 (by linarith) (by linarith)]
    · linarith [fin h3 h1 h4 hc d1 (by linarith) (by linarith)]
    · linarith [fin h3 h2 h4 ha b1 (by linarith) (by linarith)]
    · rcases le_total a d with h5 | h5
      · linarith [fin h3 h5 h4 hc b1 (by linarith) (by linarith)]
      · linarith [fin h1 h5 h2 hc b1 (by linarith) (by linarith)]
  · rcases le_total b c with h3 | h3 <;> rcases le_total a d with h4 | h4
    · rcases le_total b d with h5 | h5
      · linarith [fin h2 h5 h1 ha c1 (by linarith) (by linarith)]
      · linarith [fin h3 h5 h4 ha c1 (by linarith) (by linarith)]
    · linarith [fin h3 h1 h4 hd c1 (by linarith) (by linarith)]
    · linarith [fin h3 h2 h4 ha b1 (by linarith) (by linarith)]
    · rcases le_total a c with h5 | h5
      · linarith [fin h3 h5 h4 hd b1 (by linarith) (by linarith)]
      · linarith [fin h1 h5 h2 hd b1 (by linarith) (by linarith)]
  · rcases le_total a d with h3 | h3 <;> rcases le_total b c with h4 | h4
    · rcases le_total a c with h5 | h5
      · linarith [fin h2 h5 h1 hb d1 (by linarith) (by linarith)]
      · linarith [fin h3 h5 h4 hb d1 (by linarith) (by linarith)]
    · linarith [fin h3 h1 h4 hc d1 (by linarith) (by linarith)]
    · linarith [fin h3 h2 h4 hb a1 (by linarith) (by linarith)]
    · rcases le_total b d with h5 | h5
      · linarith [fin h3 h5 h4 hc a1 (by linarith) (by linarith)]
      · linarith [fin h1 h5 h2 hc a1 (by linarith) (by linarith)]
  · rcases le_total a c with h3 | h3 <;> rcases le_total b d with h4 | h4
    · rcases le_total a d with h5 | h5
      · linarith [fin h2 h5 h1 hb c1 (by linarith) (by linarith)]
      · linarith [fin h3 h5 h4 hb c1 (by linarith) (by linarith)]
    · linarith [fin h3 h1 h4 hd c1 (by linarith) (by linarith)]
    · linarith [fin h3 h2 h4 hb a1 (by linarith) (by linarith)]
    · rcases le_total b c with h5 | h5
      · linarith [fin h3 h5 h4 hd a1 (by linarith) (by linarith)]
      · linarith [fin h1 h5 h2 hd a1 (by linarith) (by linarith)]

/-- The overlap with a variant is that of the relative rotation with the operator. -/
theorem dot_rel (p s r : Quat ℝ) : dot p (mulRaw s r) = dot (mulRaw p (conjRaw r)) s := by
  simp only [dot, mulRaw, conjRaw]; ring

theorem abs_add_le_of {x y m : ℝ} (h1 : |x + y| ≤ m) (h2 : |x - y| ≤ m) : |x| + |y| ≤ m := by
  rw [abs_le] at h1 h2
  rcases abs_cases x with ⟨e, -⟩ | ⟨e, -⟩ <;> rcases abs_cases y with ⟨e', -⟩ | ⟨e', -⟩ <;> rw [e, e'] <;> linarith

theorem root2_bounds {r : ℝ} (hr : r ^ 2 = 2) (hr0 : 0 ≤ r) : 1.414 < r ∧ r < 1.415 :=
  ⟨by nlinarith, by nlinarith⟩

theorem cube_least {r M : ℝ} (hr : r ^ 2 = 2) (hr0 : 0 ≤ r) (hM : 0 ≤ M) (h : 1 ≤ (24 - 16 * r) * M ^ 2) :
    (2 + r) / 4 ≤ M := by
  obtain ⟨r1, r2⟩ := root2_bounds hr hr0
  by_contra hlt
  have hlt := not_le.1 hlt
  have hsq : M ^ 2 < ((2 + r) / 4) ^ 2 := pow_lt_pow_left₀ hlt hM (by norm_num)
  have hK : (24 - 16 * r) * ((2 + r) / 4) ^ 2 = 1 := by linear_combination (-(5 / 2 : ℝ) - r) * hr
  have : (24 - 16 * r) * M ^ 2 < (24 - 16 * r) * ((2 + r) / 4) ^ 2 :=
    mul_lt_mul_of_pos_left hsq (by linarith)
  linarith

theorem cubic_overlap {t : Quat ℝ} (ht : t.IsUnit) {M : ℝ} (h : ∀ s ∈ symEqv .cubic, |dot t s| ≤ M) :
    (2 + Real.sqrt 2) / 4 ≤ M := by
  have hr : Real.sqrt 2 ^ 2 = 2 := Real.sq_sqrt (by norm_num)
  have hr0 := Real.sqrt_nonneg 2
  set r := Real.sqrt 2 with hrd
  have hu := (isUnit_iff t).1 ht
  obtain ⟨x, y, z, w⟩ := t
  simp only [dot] at hu
  have hn : ∀ v : Surd 2, (-v).real = -v.real := fun v => by
    show ((-v.a : ℚ) : ℝ) + ((-v.b : ℚ) : ℝ) * _ = _
    unfold Surd.real; push_cast; ring
  have h0 : (s0 : Surd 2).real = 0 := by simp [Surd.real, s0]
  have h1 : (s1 : Surd 2).real = 1 := by simp [Surd.real, s1]
  have hh : (sh : Surd 2).real = 1 / 2 := by simp [Surd.real, sh]
  have hs : (sr : Surd 2).real = r / 2 := by simp [Surd.real, sr, hrd]; ring
  have hm : ∀ a b c d : Surd 2, (⟨a, b, c, d⟩ : Quat (Surd 2)) ∈ cubicExact →
      |x * a.real + y * b.real + z * c.real + w * d.real| ≤ M := fun a b c d hq =>
    h _ (List.mem_map_of_mem hq)
  have half : ∀ {u v : ℝ}, |u| ≤ M → u = r / 2 * v → |v| ≤ r * M := by
    intro u v h1 h2
    have : v = r * u := by rw [h2]; linear_combination (-v / 2) * hr
    rw [this, abs_mul, abs_of_nonneg hr0]
    exact mul_le_mul_of_nonneg_left h1 hr0
  have ex : |x| ≤ M := by
    have := hm s1 s0 s0 s0 (by simp [cubicExact])
    simpa [h0, h1] using this
  have ey : |y| ≤ M := by
    have := hm s0 s1 s0 s0 (by simp [cubicExact])
    simpa [h0, h1] using this
  have ez : |z| ≤ M := by
    have := hm s0 s0 s1 s0 (by simp [cubicExact])
    simpa [h0, h1] using this
  have ew : |w| ≤ M := by
    have := hm s0 s0 s0 s1 (by simp [cubicExact])
    simpa [h0, h1] using this
  have exy : |x| + |y| ≤ r * M :=
    abs_add_le_of (half (hm sr sr s0 s0 (by simp [cubicExact])) (v := x + y) (by simp [hn, h0, hs]; ring))
      (half (hm sr (-sr) s0 s0 (by simp [cubicExact])) (v := x - y) (by simp [hn, h0, hs]; ring))
  have exz : |x| + |z| ≤ r * M :=
    abs_add_le_of (half (hm sr s0 sr s0 (by simp [cubicExact])) (v := x + z) (by simp [hn, h0, hs]; ring))
      (half (hm sr s0 (-sr) s0 (by simp [cubicExact])) (v := x - z) (by simp [hn, h0, hs]; ring))
  have exw : |x| + |w| ≤ r * M :=
    abs_add_le_of (half (hm sr s0 s0 sr (by simp [cubicExact])) (v := x + w) (by simp [hn, h0, hs]; ring))
      (half (hm sr s0 s0 (-sr) (by simp [cubicExact])) (v := x - w) (by simp [hn, h0, hs]; ring))
  have eyz : |y| + |z| ≤ r * M :=
    abs_add_le_of (half (hm s0 sr sr s0 (by simp [cubicExact])) (v := y + z) (by simp [hn, h0, hs]; ring))
      (by rw [abs_sub_comm]; exact half (hm s0 (-sr) sr s0 (by simp [cubicExact])) (v := z - y) (by simp [hn, h0, hs]; ring))
  have eyw : |y| + |w| ≤ r * M :=
    abs_add_le_of (half (hm s0 sr s0 sr (by simp [cubicExact])) (v := y + w) (by simp [hn, h0, hs]; ring))
      (by rw [abs_sub_comm]; exact half (hm s0 (-sr) s0 sr (by simp [cubicExact])) (v := w - y) (by simp [hn, h0, hs]; ring))
  have ezw : |z| + |w| ≤ r * M :=
    abs_add_le_of (half (hm s0 s0 sr sr (by simp [cubicExact])) (v := z + w) (by simp [hn, h0, hs]; ring))
      (by rw [abs_sub_comm]; exact half (hm s0 s0 (-sr) sr (by simp [cubicExact])) (v := w - z) (by simp [hn, h0, hs]; ring))
  have es : |x| + |y| + |z| + |w| ≤ 2 * M := by
    have f : ∀ {u v : ℝ}, |u| ≤ M → u = 1 / 2 * v → |v| ≤ 2 * M := by
      intro u v h1 h2
      have : v = 2 * u := by rw [h2]; ring
      rw [this, abs_mul, abs_of_nonneg (by norm_num : (0 : ℝ) ≤ 2)]
      linarith
    have f0 := abs_le.1 (f (hm sh sh sh sh (by simp [cubicExact])) (v := x + y + z + w) (by simp [hn, hh]; ring))
    have f1 := abs_le.1 (f (hm sh (-sh) (-sh) (-sh) (by simp [cubicExact])) (v := x - y - z - w) (by simp [hn, hh]; ring))
    have f2 := abs_le.1 (f (hm sh (-sh) sh sh (by simp [cubicExact])) (v := x - y + z + w) (by simp [hn, hh]; ring))
    have f3 := abs_le.1 (f (hm sh sh (-sh) (-sh) (by simp [cubicExact])) (v := x + y - z - w) (by simp [hn, hh]; ring))
    have f4 := abs_le.1 (f (hm sh sh (-sh) sh (by simp [cubicExact])) (v := x + y - z + w) (by simp [hn, hh]; ring))
    have f5 := abs_le.1 (f (hm sh (-sh) sh (-sh) (by simp [cubicExact])) (v := x - y + z - w) (by simp [hn, hh]; ring))
    have f6 := abs_le.1 (f (hm sh sh sh (-sh) (by simp [cubicExact])) (v := x + y + z - w) (by simp [hn, hh]; ring))
    have f7 := abs_le.1 (f (hm sh (-sh) (-sh) sh (by simp [cubicExact])) (v := x - y - z + w) (by simp [hn, hh]; ring))
    rcases abs_cases x with ⟨e1, -⟩ | ⟨e1, -⟩ <;> rcases abs_cases y with ⟨e2, -⟩ | ⟨e2, -⟩ <;>
      rcases abs_cases z with ⟨e3, -⟩ | ⟨e3, -⟩ <;> rcases abs_cases w with ⟨e4, -⟩ | ⟨e4, -⟩ <;>
      rw [e1, e2, e3, e4] <;> linarith
  have hfin := cube_any hr hr0 (abs_nonneg x) (abs_nonneg y) (abs_nonneg z) (abs_nonneg w) ex ey ez ew exy exz exw
    eyz eyw ezw es
  simp only [sq_abs] at hfin
  have hM : 0 ≤ M := (abs_nonneg x).trans ex
  refine cube_least hr hr0 hM ?_
  linarith

/-- Two numbers with the bounds that turns by 30 degrees give. -/
theorem prism_pair {u v r M : ℝ} (hr : r ^ 2 = 3) (r1 : 1.732 < r) (r2 : r < 1.733) (hu : 0 ≤ u) (hv : 0 ≤ v)
    (e1 : u ≤ M) (e2 : v ≤ M) (e3 : r * u + v ≤ 2 * M) (e4 : u + r * v ≤ 2 * M) :
    u ^ 2 + v ^ 2 ≤ (8 - 4 * r) * M ^ 2 := by
  have key : ∀ {u v : ℝ}, 0 ≤ v → v ≤ u → u ≤ M → r * u + v ≤ 2 * M → u ^ 2 + v ^ 2 ≤ (8 - 4 * r) * M ^ 2 := by
    intro u v hv hvu hu h
    have hM : 0 ≤ M := by linarith
    by_cases hc : v ≤ (2 - r) * M
    · have h1 : u ^ 2 ≤ M ^ 2 := pow_le_pow_left₀ (by linarith) hu 2
      have h2 : v ^ 2 ≤ ((2 - r) * M) ^ 2 := pow_le_pow_left₀ hv hc 2
      have e : M ^ 2 + ((2 - r) * M) ^ 2 = (8 - 4 * r) * M ^ 2 := by linear_combination (M ^ 2) * hr
      linarith
    · have hc' := (not_le.1 hc).le
      have h0 : 0 ≤ r * u := mul_nonneg (by linarith) (by linarith)
      have h1 : (r * u) ^ 2 ≤ (2 * M - v) ^ 2 := pow_le_pow_left₀ h0 (by linarith) 2
      have h2 : v ≤ (r - 1) * M := by
        have h3 : (r + 1) * v ≤ (r + 1) * ((r - 1) * M) := by
          have e : (r + 1) * ((r - 1) * M) = 2 * M := by linear_combination M * hr
          have h4 : r * v ≤ r * u := mul_le_mul_of_nonneg_left hvu (by linarith)
          rw [e]; linarith
        exact le_of_mul_le_mul_left h3 (by linarith)
      have m := mul_nonneg (sub_nonneg.2 hc') (sub_nonneg.2 h2)
      have e : (2 * M - v) ^ 2 + 3 * v ^ 2 = 3 * ((8 - 4 * r) * M ^ 2) -
          4 * ((v - (2 - r) * M) * ((r - 1) * M - v)) := by linear_combination (4 * M ^ 2) * hr
      have e' : (r * u) ^ 2 = 3 * u ^ 2 := by rw [mul_pow, hr]
      linarith
  rcases le_total v u with h | h
  · exact key hv h e1 e3
  · have := key hu h e2 (by linarith)
    linarith

theorem root3_bounds {r : ℝ} (hr : r ^ 2 = 3) (hr0 : 0 ≤ r) : 1.732 < r ∧ r < 1.733 :=
  ⟨by nlinarith, by nlinarith⟩

theorem prism_least {r M : ℝ} (hr : r ^ 2 = 3) (hr0 : 0 ≤ r) (hM : 0 ≤ M) (h : 1 ≤ 2 * ((8 - 4 * r) * M ^ 2)) :
    (1 + r) / 4 ≤ M := by
  obtain ⟨r1, r2⟩ := root3_bounds hr hr0
  by_contra hlt
  have hlt := not_le.1 hlt
  have hsq : M ^ 2 < ((1 + r) / 4) ^ 2 := pow_lt_pow_left₀ hlt hM (by norm_num)
  have hK : 2 * (8 - 4 * r) * ((1 + r) / 4) ^ 2 = 1 := by linear_combination (-(r / 2)) * hr
  have : 2 * (8 - 4 * r) * M ^ 2 < 2 * (8 - 4 * r) * ((1 + r) / 4) ^ 2 :=
    mul_lt_mul_of_pos_left hsq (by linarith)
  linarith

theorem hexagonal_overlap {t : Quat ℝ} (ht : t.IsUnit) {M : ℝ} (h : ∀ s ∈ symEqv .hexagonal, |dot t s| ≤ M) :
    (1 + Real.sqrt 3) / 4 ≤ M := by
  have hr : Real.sqrt 3 ^ 2 = 3 := Real.sq_sqrt (by norm_num)
  have hr0 := Real.sqrt_nonneg 3
  set r := Real.sqrt 3 with hrd
  have hu := (isUnit_iff t).1 ht
  obtain ⟨x, y, z, w⟩ := t
  simp only [dot] at hu
  have h0 : (s0 : Surd 3).real = 0 := by simp [Surd.real, s0]
  have h1 : (s1 : Surd 3).real = 1 := by simp [Surd.real, s1]
  have hh : (sh : Surd 3).real = 1 / 2 := by simp [Surd.real, sh]
  have hs : (sr : Surd 3).real = r / 2 := by simp [Surd.real, sr, hrd]; ring
  have hm : ∀ a b c d : Surd 3, (⟨a, b, c, d⟩ : Quat (Surd 3)) ∈ hexagonalExact →
      |x * a.real + y * b.real + z * c.real + w * d.real| ≤ M := fun a b c d hq =>
    h _ (List.mem_map_of_mem hq)
  have f : ∀ {u v : ℝ}, |u| ≤ M → u = 1 / 2 * v → |v| ≤ 2 * M := by
    intro u v h1 h2
    have : v = 2 * u := by rw [h2]; ring
    rw [this, abs_mul, abs_of_nonneg (by norm_num : (0 : ℝ) ≤ 2)]
    linarith
  have ra : ∀ v : ℝ, |r * v| = r * |v| := fun v => by rw [abs_mul, abs_of_nonneg hr0]
  have ex : |x| ≤ M := by
    have := hm s1 s0 s0 s0 (by simp [hexagonalExact])
    simpa [h0, h1] using this
  have ey : |y| ≤ M := by
    have := hm s0 s1 s0 s0 (by simp [hexagonalExact])
    simpa [h0, h1] using this
  have ez : |z| ≤ M := by
    have := hm s0 s0 s1 s0 (by simp [hexagonalExact])
    simpa [h0, h1] using this
  have ew : |w| ≤ M := by
    have := hm s0 s0 s0 s1 (by simp [hexagonalExact])
    simpa [h0, h1] using this
  have exw : r * |x| + |w| ≤ 2 * M := by
    rw [← ra]
    exact abs_add_le_of
      (f (hm sr s0 s0 sh (by simp [hexagonalExact])) (by simp only [h0, hh, hs]; ring))
      (f (hm sr s0 s0 (-sh) (by simp [hexagonalExact])) (by simp only [Surd.real_neg, h0, hh, hs]; ring))
  have ewx : |x| + r * |w| ≤ 2 * M := by
    rw [← ra]
    exact abs_add_le_of
      (f (hm sh s0 s0 sr (by simp [hexagonalExact])) (by simp only [h0, hh, hs]; ring))
      (f (hm sh s0 s0 (-sr) (by simp [hexagonalExact])) (by simp only [Surd.real_neg, h0, hh, hs]; ring))
  have eyz : |y| + r * |z| ≤ 2 * M := by
    rw [← ra]
    exact abs_add_le_of
      (by rw [← abs_neg]; exact f (hm s0 (-sh) (-sr) s0 (by simp [hexagonalExact]))
            (by simp only [Surd.real_neg, h0, hh, hs]; ring))
      (f (hm s0 sh (-sr) s0 (by simp [hexagonalExact])) (by simp only [Surd.real_neg, h0, hh, hs]; ring))
  have ezy : r * |y| + |z| ≤ 2 * M := by
    rw [← ra]
    exact abs_add_le_of
      (by rw [← abs_neg]; exact f (hm s0 (-sr) (-sh) s0 (by simp [hexagonalExact]))
            (by simp only [Surd.real_neg, h0, hh, hs]; ring))
      (f (hm s0 sr (-sh) s0 (by simp [hexagonalExact])) (by simp only [Surd.real_neg, h0, hh, hs]; ring))
  obtain ⟨r1, r2⟩ := root3_bounds hr hr0
  have p1 := prism_pair hr r1 r2 (abs_nonneg x) (abs_nonneg w) ex ew exw ewx
  have p2 := prism_pair hr r1 r2 (abs_nonneg y) (abs_nonneg z) ey ez ezy eyz
  simp only [sq_abs] at p1 p2
  refine prism_least hr hr0 ((abs_nonneg x).trans ex) ?_
  linarith

/-! ### The largest angle -/

/-- The cosine of the largest misorientation angle: of 62.8 degrees for cubic crystals and of 93.8 degrees
for hexagonal ones. -/
noncomputable def Spec.leastCosine : SymGroup → ℝ
  | .cubic => (2 * Real.sqrt 2 - 1) / 4
  | .hexagonal => (Real.sqrt 3 - 2) / 4

/-- The overlap that belongs to it. -/
noncomputable def leastOverlap : SymGroup → ℝ
  | .cubic => (2 + Real.sqrt 2) / 4
  | .hexagonal => (1 + Real.sqrt 3) / 4

theorem leastOverlap_cos (g : SymGroup) : 2 * leastOverlap g ^ 2 - 1 = leastCosine g ∧ 0 ≤ leastOverlap g := by
  have h2 := Real.sqrt_nonneg 2
  have h3 := Real.sqrt_nonneg 3
  have e2 : Real.sqrt 2 ^ 2 = 2 := Real.sq_sqrt (by norm_num)
  have e3 : Real.sqrt 3 ^ 2 = 3 := Real.sq_sqrt (by norm_num)
  cases g
  · simp only [leastOverlap, leastCosine]
    exact ⟨by linear_combination (1 / 8 : ℝ) * e2, by positivity⟩
  · simp only [leastOverlap, leastCosine]
    exact ⟨by linear_combination (1 / 8 : ℝ) * e3, by positivity⟩

theorem misOri_least (g : SymGroup) {p r : Quat ℝ} (hp : p.IsUnit) (hr : r.IsUnit) :
    leastOverlap g ≤ misOri (symEqv g) p r := by
  have ht : (mulRaw p (conjRaw r)).IsUnit := isUnit_mulRaw hp (by
    rw [isUnit_iff] at hr ⊢
    rw [← hr]; simp only [dot, conjRaw]; ring)
  have h : ∀ s ∈ symEqv g, |dot (mulRaw p (conjRaw r)) s| ≤ misOri (symEqv g) p r := by
    intro s hs
    rw [← dot_rel]
    exact misOri_ge _ _ _ _ hs
  cases g
  · exact cubic_overlap ht h
  · exact hexagonal_overlap ht h

theorem cos_misAngle (g : SymGroup) {p r : Quat ℝ} (hp : p.IsUnit) (hr : r.IsUnit) :
    Real.cos (misAngle g p r) = 2 * misOri (symEqv g) p r ^ 2 - 1 := by
  obtain ⟨h0, h1, -⟩ := C40_range g p r hp hr
  unfold misAngle
  rw [Real.cos_two_mul, Real.cos_arccos (by linarith) h1]

/-- Two orientations that are as far apart as can be. -/
noncomputable def farthest : SymGroup → Quat ℝ
  | .cubic => ⟨(2 + Real.sqrt 2) / 4, Real.sqrt 2 / 4, Real.sqrt 2 / 4, (2 - Real.sqrt 2) / 4⟩
  | .hexagonal => ⟨(1 + Real.sqrt 3) / 4, (1 + Real.sqrt 3) / 4, (Real.sqrt 3 - 1) / 4, (Real.sqrt 3 - 1) / 4⟩

theorem farthest_unit (g : SymGroup) : (farthest g).IsUnit := by
  have e2 : Real.sqrt 2 ^ 2 = 2 := Real.sq_sqrt (by norm_num)
  have e3 : Real.sqrt 3 ^ 2 = 3 := Real.sq_sqrt (by norm_num)
  rw [isUnit_iff]
  cases g <;> simp only [farthest, dot]
  · linear_combination (1 / 4 : ℝ) * e2
  · linear_combination (1 / 4 : ℝ) * e3

set_option maxHeartbeats 1000000 in
theorem farthest_cubic : ∀ s ∈ symEqv .cubic, |dot (farthest .cubic) s| ≤ leastOverlap .cubic := by
  have e : Real.sqrt 2 ^ 2 = 2 := Real.sq_sqrt (by norm_num)
  obtain ⟨a1, a2⟩ := root2_bounds e (Real.sqrt_nonneg 2)
  intro s hs
  obtain ⟨q, hq, rfl⟩ := List.mem_map.1 hs
  simp only [cubicExact, List.mem_cons, List.not_mem_nil, or_false] at hq
  have h0 : (s0 : Surd 2).real = 0 := by simp [Surd.real, s0]
  have h1 : (s1 : Surd 2).real = 1 := by simp [Surd.real, s1]
  have hh : (sh : Surd 2).real = 1 / 2 := by simp [Surd.real, sh]
  have hs : (sr : Surd 2).real = Real.sqrt 2 / 2 := by simp [Surd.real, sr]; ring
  simp only [farthest, leastOverlap]
  generalize Real.sqrt 2 = r at *
  have e' : ∀ x : ℝ, x * r * r = 2 * x := fun x => by linear_combination x * e
  rcases hq with rfl | rfl | rfl | rfl | rfl | rfl | rfl | rfl | rfl | rfl | rfl | rfl | rfl | rfl | rfl | rfl | rfl | rfl | rfl | rfl | rfl | rfl | rfl | rfl <;>
  simp only [dot, Quat.real, Surd.real_neg, h0, h1, hh, hs, abs_le] <;>
  constructor <;> nlinarith

set_option maxHeartbeats 1000000 in
theorem farthest_hexagonal : ∀ s ∈ symEqv .hexagonal, |dot (farthest .hexagonal) s| ≤ leastOverlap .hexagonal := by
  have e : Real.sqrt 3 ^ 2 = 3 := Real.sq_sqrt (by norm_num)
  obtain ⟨a1, a2⟩ := root3_bounds e (Real.sqrt_nonneg 3)
  intro s hs
  obtain ⟨q, hq, rfl⟩ := List.mem_map.1 hs
  simp only [hexagonalExact, List.mem_cons, List.not_mem_nil, or_false] at hq
  have h0 : (s0 : Surd 3).real = 0 := by simp [Surd.real, s0]
  have h1 : (s1 : Surd 3).real = 1 := by simp [Surd.real, s1]
  have hh : (sh : Surd 3).real = 1 / 2 := by simp [Surd.real, sh]
  have hs : (sr : Surd 3).real = Real.sqrt 3 / 2 := by simp [Surd.real, sr]; ring
  simp only [farthest, leastOverlap]
  generalize Real.sqrt 3 = r at *
  have e' : ∀ x : ℝ, x * r * r = 3 * x := fun x => by linear_combination x * e
  rcases hq with rfl | rfl | rfl | rfl | rfl | rfl | rfl | rfl | rfl | rfl | rfl | rfl <;>
  simp only [dot, Quat.real, Surd.real_neg, h0, h1, hh, hs, abs_le] <;>
  constructor <;> nlinarith

theorem farthest_overlap (g : SymGroup) : ∀ s ∈ symEqv g, |dot (farthest g) s| ≤ leastOverlap g := by
  cases g
  · exact farthest_cubic
  · exact farthest_hexagonal

/-- **C139**: two cubic crystals are never more than 62.8 degrees apart, two hexagonal ones never more than
93.8 degrees, and there are crystals that far apart. -/
theorem C139_largest (g : SymGroup) :
    (∀ p r : Quat ℝ, p.IsUnit → r.IsUnit → misAngle g p r ≤ Real.arccos (leastCosine g)) ∧
    ∃ p : Quat ℝ, p.IsUnit ∧ misAngle g p ⟨1, 0, 0, 0⟩ = Real.arccos (leastCosine g) := by
  obtain ⟨hc, h0⟩ := leastOverlap_cos g
  have hrange : ∀ {p r : Quat ℝ}, p.IsUnit → r.IsUnit →
      Real.arccos (Real.cos (misAngle g p r)) = misAngle g p r := by
    intro p r hp hr
    refine Real.arccos_cos (C139_zero g p r hp hr).1 ?_
    have := Real.arccos_le_pi_div_two.2 (C40_range g p r hp hr).1
    unfold misAngle
    linarith
  have hle : ∀ p r : Quat ℝ, p.IsUnit → r.IsUnit → misAngle g p r ≤ Real.arccos (leastCosine g) := by
    intro p r hp hr
    rw [← hrange hp hr, cos_misAngle g hp hr, ← hc]
    have h1 := misOri_least g hp hr
    refine Real.arccos_le_arccos ?_
    have := pow_le_pow_left₀ h0 h1 2
    linarith
  refine ⟨hle, farthest g, farthest_unit g, le_antisymm (hle _ _ (farthest_unit g) one_unit) ?_⟩
  obtain ⟨s, hs, e⟩ := misOri_mem g (farthest_unit g) one_unit
  have h2 : misOri (symEqv g) (farthest g) ⟨1, 0, 0, 0⟩ ≤ leastOverlap g := by
    rw [e]
    have : mulRaw s (⟨1, 0, 0, 0⟩ : Quat ℝ) = s := by ext <;> simp [mulRaw]
    rw [this]
    exact farthest_overlap g s hs
  rw [← hrange (farthest_unit g) one_unit, cos_misAngle g (farthest_unit g) one_unit, ← hc]
  refine Real.arccos_le_arccos ?_
  have := pow_le_pow_left₀ (C40_range g _ _ (farthest_unit g) one_unit).1 h2 2
  linarith

end DefDAP
