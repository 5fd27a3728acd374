import Verif.Props.Rdr

/-! C163: which line the measured displacement ratio is the slope of, and what noise does to it. -/

namespace DefDAP
open Spec

section
variable {K : Type} [Field K]

/-- The values of an image in a row of pixels through the pixel `p` with steps `d`. -/
def Spec.rowAt (im : Img K) (ext d : Int × Int) (p : Int × Int) (n : Int) : K :=
  im (p.2 + n * d.2 + ext.2) (p.1 + n * d.1 + ext.1)

/-- The difference from the mean of the row, for rows of `2 m + 1` pixels. -/
noncomputable def Spec.fromMean (m : Nat) (f : Int → K) (n : Int) : K :=
  f n - (∑ i ∈ Finset.Icc (-(m : Int)) m, f i) / (2 * m + 1)

/-- The sum, over all rows, of the squares of what is left of `u` when `k v` is taken off it, each from
the mean of its row. -/
noncomputable def Spec.misfit (m : Nat) (u v : Int × Int → Int → K) (pixels : List (Int × Int)) (k : K) : K :=
  (pixels.map fun p => ∑ n ∈ Finset.Icc (-(m : Int)) m,
    (fromMean m (u p) n - k * fromMean m (v p) n) ^ 2).sum

/-- The sum of the squares of `v`, from the mean of each row. -/
noncomputable def Spec.rowSpread (m : Nat) (v : Int × Int → Int → K) (pixels : List (Int × Int)) : K :=
  (pixels.map fun p => ∑ n ∈ Finset.Icc (-(m : Int)) m, fromMean m (v p) n ^ 2).sum

theorem zip_rows (l pixels : List (Int × Int)) (X Y : Int × Int → Int × Int → K) :
    (List.zipWith (· * ·) ((pixels.map fun p => l.map (X p)).flatten)
      ((pixels.map fun p => l.map (Y p)).flatten)).sum =
      (pixels.map fun p => (l.map fun o => X p o * Y p o).sum).sum := by
  induction pixels with
  | nil => simp
  | cons p t ih =>
    simp only [List.map_cons, List.flatten_cons, List.sum_cons]
    rw [List.zipWith_append (by simp), List.sum_append, ih]
    congr 2
    rw [List.zipWith_map, List.zipWith_self]

theorem square_rows (l pixels : List (Int × Int)) (X : Int × Int → Int × Int → K) :
    (((pixels.map fun p => l.map (X p)).flatten).map fun v => v * v).sum =
      (pixels.map fun p => (l.map fun o => X p o * X p o).sum).sum := by
  induction pixels with
  | nil => simp
  | cons p t ih =>
    simp only [List.map_cons, List.flatten_cons, List.sum_cons, List.map_append, List.sum_append, ih,
      List.map_map]
    rfl

theorem offsets_sum {m : Nat} {d : Int × Int} (hd : d ≠ (0, 0)) {l : List (Int × Int)} (hn : l.Nodup)
    (hmem : ∀ o, o ∈ l ↔ ∃ n : Int, |n| ≤ m ∧ o = (n * d.1, n * d.2)) (f : Int × Int → K) :
    (l.map f).sum = ∑ n ∈ Finset.Icc (-(m : Int)) m, f (n * d.1, n * d.2) := by
  have hinj : ∀ a ∈ Finset.Icc (-(m : Int)) m, ∀ b ∈ Finset.Icc (-(m : Int)) m,
      ((a * d.1, a * d.2) : Int × Int) = (b * d.1, b * d.2) → a = b := by
    intro a _ b _ e
    simp only [Prod.mk.injEq] at e
    by_cases h1 : d.1 = 0
    · have h2 : d.2 ≠ 0 := fun h2 => hd (Prod.ext h1 h2)
      exact mul_right_cancel₀ h2 e.2
    · exact mul_right_cancel₀ h1 e.1
  rw [← Finset.sum_image (f := f) hinj, ← List.sum_toFinset f hn]
  congr 1
  ext o
  rw [List.mem_toFinset, hmem, Finset.mem_image]
  constructor
  · rintro ⟨n, h1, rfl⟩
    exact ⟨n, Finset.mem_Icc.2 (abs_le.1 h1), rfl⟩
  · rintro ⟨n, h1, rfl⟩
    exact ⟨n, abs_le.2 (Finset.mem_Icc.1 h1), rfl⟩

theorem sum_add_scaled {α : Type} (pixels : List α) (A B : α → K) (c : K) :
    (pixels.map A).sum + c * (pixels.map B).sum = (pixels.map fun p => A p + c * B p).sum := by
  induction pixels with
  | nil => simp
  | cons a t ih =>
    simp only [List.map_cons, List.sum_cons, ← ih]
    ring

variable [LinearOrder K] [IsStrictOrderedRing K]

theorem slope_general {x y : List K} (h0 : x.sum = 0) (h1 : y.sum = 0) (hne : ∃ a ∈ x, a ≠ 0) :
    linregressSlope x y = .ok ((List.zipWith (· * ·) x y).sum / (x.map fun v => v * v).sum) := by
  obtain ⟨a, ha, ha0⟩ := hne
  cases x with
  | nil => simp at ha
  | cons b t =>
    unfold linregressSlope
    simp only
    rw [if_neg]
    · rw [centred_of_sum_zero h0, centred_of_sum_zero h1]
    · intro hall
      have hsum := const_sum b _ hall
      rw [h0] at hsum
      have hl : ((b :: t).length : K) ≠ 0 := by exact_mod_cast Nat.succ_ne_zero t.length
      have hb : b = 0 := by
        rcases mul_eq_zero.1 hsum.symm with h | h
        · exact absurd h hl
        · exact h
      exact ha0 (by rw [hall a ha, hb])

/-- **C163**: the measured ratio is the slope of the line that fits best: if `v` changes along one of the
rows of pixels taken, there is a ratio, and for any other one the sum of squares is larger, by the square
of the difference times the sum of the squares of `v`. -/
theorem C163_best {m : Nat} (hm : 0 < m) {angle : ℚ} (h0 : 0 ≤ angle) (h1 : angle ≤ 180) :
    ∃ d, Across angle d ∧ ∀ (h w : Nat) (u v : Img K) (ext : Int × Int) (lines : List (List (Int × Int))),
      (∀ p ∈ lines.flatten, ∀ n : Int, |n| ≤ m →
        (0 ≤ p.1 + n * d.1 + ext.1 ∧ p.1 + n * d.1 + ext.1 < w) ∧
        (0 ≤ p.2 + n * d.2 + ext.2 ∧ p.2 + n * d.2 + ext.2 < h)) →
      (∃ p ∈ lines.flatten, ∃ n n' : Int, |n| ≤ m ∧ |n'| ≤ m ∧ rowAt v ext d p n ≠ rowAt v ext d p n') →
      ∃ r, measureRdr h w u v ext (2 * m + 1) angle lines = .ok r ∧
        0 < rowSpread m (rowAt v ext d) lines.flatten ∧
        ∀ k, misfit m (rowAt u ext d) (rowAt v ext d) lines.flatten k =
          misfit m (rowAt u ext d) (rowAt v ext d) lines.flatten r +
            (k - r) ^ 2 * rowSpread m (rowAt v ext d) lines.flatten := by
  obtain ⟨d, l, hd, hl, hnd, hlen, hmem⟩ := rdrOffsets_across hm h0 h1
  refine ⟨d, hd, fun h w u v ext lines hin hch => ?_⟩
  have hin' : ∀ p ∈ lines.flatten, ∀ o ∈ l, InMap h w (p.1 + o.1 + ext.1, p.2 + o.2 + ext.2) := by
    intro p hp o ho
    obtain ⟨n, hn, rfl⟩ := (hmem o).1 ho
    obtain ⟨⟨a1, a2⟩, a3, a4⟩ := hin p hp n hn
    exact ⟨a1, a2, a3, a4⟩
  have hs (f : Int × Int → K) := offsets_sum hd.1.2.2 hnd hmem f
  let val (im : Img K) (p o : Int × Int) : K := im (p.2 + o.2 + ext.2) (p.1 + o.1 + ext.1)
  let cen (im : Img K) (p o : Int × Int) : K := val im p o - (l.map (val im p)).sum / (2 * m + 1)
  have hcen (im : Img K) (p : Int × Int) : centred (l.map (val im p)) = l.map (cen im p) := by
    unfold centred
    rw [List.map_map, List.length_map, hlen]
    refine List.map_congr_left fun o _ => ?_
    simp only [Function.comp_apply, cen]
    push_cast
    rfl
  have hmean (im : Img K) (p : Int × Int) (n : Int) :
      cen im p (n * d.1, n * d.2) = fromMean m (rowAt im ext d p) n := by
    simp only [cen, hs]
    rfl
  have hsum (im : Img K) : ((lines.flatten.map fun p => l.map (cen im p)).flatten).sum = 0 := by
    have := rows_sum_zero (fun p => l.map (val im p)) lines.flatten
    simpa only [hcen] using this
  have hne : ∃ a ∈ (lines.flatten.map fun p => l.map (cen v p)).flatten, a ≠ 0 := by
    obtain ⟨p, hp, n, n', hn, hn', hne⟩ := hch
    by_contra hall
    push Not at hall
    have hz : ∀ n : Int, |n| ≤ m → rowAt v ext d p n = (l.map (val v p)).sum / (2 * m + 1) := by
      intro n hn
      have ho : (n * d.1, n * d.2) ∈ l := (hmem _).2 ⟨n, hn, rfl⟩
      have := hall (cen v p (n * d.1, n * d.2)) (List.mem_flatten.2 ⟨_, List.mem_map.2 ⟨p, hp, rfl⟩,
        List.mem_map.2 ⟨_, ho, rfl⟩⟩)
      exact sub_eq_zero.1 this
    exact hne ((hz n hn).trans (hz n' hn').symm)
  have hpos := sq_sum_pos hne
  rw [square_rows] at hpos
  have hS : (lines.flatten.map fun p => (l.map fun o => cen v p o * cen v p o).sum).sum =
      rowSpread m (rowAt v ext d) lines.flatten := by
    unfold rowSpread
    congr 1
    refine List.map_congr_left fun p _ => ?_
    rw [hs]
    refine Finset.sum_congr rfl fun n _ => ?_
    rw [hmean, sq]
  obtain ⟨P, hP⟩ : ∃ P, P = (lines.flatten.map fun p => ∑ n ∈ Finset.Icc (-(m : Int)) m,
    fromMean m (rowAt v ext d p) n * fromMean m (rowAt u ext d p) n).sum := ⟨_, rfl⟩
  have hPl : (lines.flatten.map fun p => (l.map fun o => cen v p o * cen u p o).sum).sum = P := by
    rw [hP]
    congr 1
    refine List.map_congr_left fun p _ => ?_
    rw [hs]
    refine Finset.sum_congr rfl fun n _ => ?_
    rw [hmean, hmean]
  rw [hS] at hpos
  refine ⟨P / rowSpread m (rowAt v ext d) lines.flatten, ?_, hpos, ?_⟩
  · unfold measureRdr
    rw [hl]
    show (rdrValues h w u ext l lines.flatten).bind _ = _
    rw [rdrValues_ok u hin', rdrValues_ok v hin']
    show linregressSlope (lines.flatten.map fun p => centred (l.map (val v p))).flatten
      (lines.flatten.map fun p => centred (l.map (val u p))).flatten = _
    simp only [hcen]
    rw [slope_general (hsum v) (hsum u) hne, zip_rows, square_rows, hPl, hS]
  · intro k
    have expand (c : K) : misfit m (rowAt u ext d) (rowAt v ext d) lines.flatten c =
        misfit m (rowAt u ext d) (rowAt v ext d) lines.flatten 0 + (-(2 * c)) * P +
          c ^ 2 * rowSpread m (rowAt v ext d) lines.flatten := by
      rw [hP]
      unfold misfit rowSpread
      rw [sum_add_scaled, sum_add_scaled]
      congr 1
      refine List.map_congr_left fun p _ => ?_
      rw [Finset.mul_sum, Finset.mul_sum, ← Finset.sum_add_distrib, ← Finset.sum_add_distrib]
      refine Finset.sum_congr rfl fun n _ => ?_
      ring
    rw [expand k, expand (P / _)]
    field_simp
    ring

theorem icc_card (m : Nat) : (Finset.Icc (-(m : Int)) m).card = 2 * m + 1 := by
  rw [Int.card_Icc]
  omega

/-- What is left of a row, from its mean, is no larger than before. -/
theorem row_left {m : Nat} (f g : Int → K) (k c ε : K)
    (h : ∀ n : Int, |n| ≤ m → |f n - (k * g n + c)| ≤ ε) :
    ∑ n ∈ Finset.Icc (-(m : Int)) m, (fromMean m f n - k * fromMean m g n) ^ 2 ≤ (2 * m + 1) * ε ^ 2 := by
  have hN : (0 : K) < 2 * m + 1 := by positivity
  have hc : ((Finset.Icc (-(m : Int)) m).card : K) = 2 * m + 1 := by rw [icc_card]; push_cast; ring
  obtain ⟨e, he⟩ : ∃ e : Int → K, ∀ n, e n = f n - (k * g n + c) := ⟨_, fun _ => rfl⟩
  obtain ⟨E, hE⟩ : ∃ E, E = ∑ n ∈ Finset.Icc (-(m : Int)) m, e n := ⟨_, rfl⟩
  have hsum : (∑ n ∈ Finset.Icc (-(m : Int)) m, f n) - k * ∑ n ∈ Finset.Icc (-(m : Int)) m, g n =
      E + (2 * m + 1) * c := by
    rw [hE, Finset.mul_sum, ← Finset.sum_sub_distrib, ← hc, ← nsmul_eq_mul, ← Finset.sum_const,
      ← Finset.sum_add_distrib]
    refine Finset.sum_congr rfl fun n _ => ?_
    rw [he]; ring
  have hd (n : Int) : fromMean m f n - k * fromMean m g n = e n - E / (2 * m + 1) := by
    have : E = (∑ n ∈ Finset.Icc (-(m : Int)) m, f n) - k * ∑ n ∈ Finset.Icc (-(m : Int)) m, g n -
      (2 * m + 1) * c := by rw [hsum]; ring
    rw [this, he]
    unfold fromMean
    field_simp
    ring
  have h1 : ∑ n ∈ Finset.Icc (-(m : Int)) m, (fromMean m f n - k * fromMean m g n) ^ 2 =
      (∑ n ∈ Finset.Icc (-(m : Int)) m, e n ^ 2) - E ^ 2 / (2 * m + 1) := by
    have : ∀ n, (fromMean m f n - k * fromMean m g n) ^ 2 =
        e n ^ 2 - (2 * (E / (2 * m + 1))) * e n + (E / (2 * m + 1)) ^ 2 := fun n => by rw [hd]; ring
    simp only [this]
    rw [Finset.sum_add_distrib, Finset.sum_sub_distrib, ← Finset.mul_sum, ← hE, Finset.sum_const,
      nsmul_eq_mul, hc]
    field_simp
    ring
  have h2 : ∑ n ∈ Finset.Icc (-(m : Int)) m, e n ^ 2 ≤ (2 * m + 1) * ε ^ 2 := by
    rw [← hc, ← nsmul_eq_mul, ← Finset.sum_const]
    refine Finset.sum_le_sum fun n hn => ?_
    rw [he]
    exact sq_le_sq' (by linarith [(abs_le.1 (h n (abs_le.2 (Finset.mem_Icc.1 hn)))).1])
      (abs_le.1 (h n (abs_le.2 (Finset.mem_Icc.1 hn)))).2
  rw [h1]
  have : 0 ≤ E ^ 2 / (2 * m + 1) := by positivity
  linarith

/-- **C163**: if `u` is `k v`, up to a constant for each row of pixels and errors of at most `ε`, the
square of the error of the measured ratio is at most that of `ε` divided by the mean square of `v`, from
the mean of each row. -/
theorem C163_noise {m : Nat} (hm : 0 < m) {angle : ℚ} (h0 : 0 ≤ angle) (h1 : angle ≤ 180) :
    ∃ d, Across angle d ∧ ∀ (h w : Nat) (u v : Img K) (ext : Int × Int) (lines : List (List (Int × Int)))
      (k ε : K),
      (∀ p ∈ lines.flatten, ∀ n : Int, |n| ≤ m →
        (0 ≤ p.1 + n * d.1 + ext.1 ∧ p.1 + n * d.1 + ext.1 < w) ∧
        (0 ≤ p.2 + n * d.2 + ext.2 ∧ p.2 + n * d.2 + ext.2 < h)) →
      (∃ p ∈ lines.flatten, ∃ n n' : Int, |n| ≤ m ∧ |n'| ≤ m ∧ rowAt v ext d p n ≠ rowAt v ext d p n') →
      (∀ p ∈ lines.flatten, ∃ c, ∀ n : Int, |n| ≤ m →
        |rowAt u ext d p n - (k * rowAt v ext d p n + c)| ≤ ε) →
      ∃ r, measureRdr h w u v ext (2 * m + 1) angle lines = .ok r ∧
        (r - k) ^ 2 ≤ ε ^ 2 / (rowSpread m (rowAt v ext d) lines.flatten /
          (lines.flatten.length * (2 * m + 1))) := by
  obtain ⟨d, hd, H⟩ := C163_best (K := K) hm h0 h1
  refine ⟨d, hd, fun h w u v ext lines k ε hin hch hn => ?_⟩
  obtain ⟨r, hr, hpos, hbest⟩ := H h w u v ext lines hin hch
  refine ⟨r, hr, ?_⟩
  have hk : misfit m (rowAt u ext d) (rowAt v ext d) lines.flatten k ≤
      lines.flatten.length * (2 * m + 1) * ε ^ 2 := by
    unfold misfit
    have : ∀ l : List (Int × Int), (∀ p ∈ l, p ∈ lines.flatten) →
        (l.map fun p => ∑ n ∈ Finset.Icc (-(m : Int)) m,
          (fromMean m (rowAt u ext d p) n - k * fromMean m (rowAt v ext d p) n) ^ 2).sum ≤
        l.length * (2 * m + 1) * ε ^ 2 := by
      intro l
      induction l with
      | nil => simp
      | cons p t ih =>
        intro hl
        have i1 := ih fun q hq => hl q (List.mem_cons_of_mem _ hq)
        obtain ⟨c, hc⟩ := hn p (hl p (by simp))
        have i2 := row_left (rowAt u ext d p) (rowAt v ext d p) k c ε hc
        rw [List.map_cons, List.sum_cons, List.length_cons]
        push_cast
        linarith
    exact this _ fun _ h => h
  have h0 : 0 ≤ misfit m (rowAt u ext d) (rowAt v ext d) lines.flatten r := by
    unfold misfit
    refine List.sum_nonneg ?_
    intro x hx
    obtain ⟨p, -, rfl⟩ := List.mem_map.1 hx
    exact Finset.sum_nonneg fun n _ => sq_nonneg _
  have hb := hbest k
  have hN : (0 : K) < lines.flatten.length * (2 * m + 1) := by
    obtain ⟨p, hp, -⟩ := hch
    have : 0 < lines.flatten.length := List.length_pos_of_mem hp
    positivity
  rw [div_div_eq_mul_div, le_div_iff₀ hpos]
  nlinarith

theorem fromMean_lin {m : Nat} {f g h : Int → K} {a b c : K}
    (H : ∀ n : Int, |n| ≤ m → f n = a * g n + b * h n + c) {n : Int} (hn : |n| ≤ m) :
    fromMean m f n = a * fromMean m g n + b * fromMean m h n := by
  have hc : ((Finset.Icc (-(m : Int)) m).card : K) = 2 * m + 1 := by rw [icc_card]; push_cast; ring
  have hN : (0 : K) < 2 * m + 1 := by positivity
  have : ∑ i ∈ Finset.Icc (-(m : Int)) m, f i = a * ∑ i ∈ Finset.Icc (-(m : Int)) m, g i +
      b * ∑ i ∈ Finset.Icc (-(m : Int)) m, h i + (2 * m + 1) * c := by
    rw [Finset.mul_sum, Finset.mul_sum, ← hc, ← nsmul_eq_mul, ← Finset.sum_const,
      ← Finset.sum_add_distrib, ← Finset.sum_add_distrib]
    exact Finset.sum_congr rfl fun i hi => H i (abs_le.2 (Finset.mem_Icc.1 hi))
  unfold fromMean
  rw [this, H n hn]
  field_simp
  ring

/-- The sum, over all rows, of the products of `v` and `e`, each from the mean of its row. -/
noncomputable def Spec.rowProduct (m : Nat) (v e : Int × Int → Int → K) (pixels : List (Int × Int)) : K :=
  (pixels.map fun p => ∑ n ∈ Finset.Icc (-(m : Int)) m, fromMean m (v p) n * fromMean m (e p) n).sum

theorem sums_dilution {m : Nat} {u v v₀ e : Int × Int → Int → K} {k : K} (pixels : List (Int × Int))
    (hu : ∀ p ∈ pixels, ∃ c, ∀ n : Int, |n| ≤ m → u p n = k * v₀ p n + c)
    (hv : ∀ p ∈ pixels, ∀ n : Int, |n| ≤ m → v p n = v₀ p n + e p n) :
    misfit m u v pixels 0 - misfit m u v pixels 1 =
        2 * k * rowSpread m v₀ pixels + 2 * k * rowProduct m v₀ e pixels - rowSpread m v pixels ∧
      rowSpread m v pixels = rowSpread m v₀ pixels + 2 * rowProduct m v₀ e pixels + rowSpread m e pixels := by
  induction pixels with
  | nil => simp [misfit, rowSpread, rowProduct]
  | cons p t ih =>
    obtain ⟨i1, i2⟩ := ih (fun q hq => hu q (List.mem_cons_of_mem _ hq)) fun q hq => hv q (List.mem_cons_of_mem _ hq)
    obtain ⟨c, hc⟩ := hu p (by simp)
    have a1 : ∀ n : Int, |n| ≤ m → fromMean m (u p) n = k * fromMean m (v₀ p) n := fun n hn => by
      rw [fromMean_lin (a := k) (b := 0) (c := c) (g := v₀ p) (h := v₀ p) (fun n hn => by rw [hc n hn]; ring) hn]
      ring
    have a2 : ∀ n : Int, |n| ≤ m → fromMean m (v p) n = fromMean m (v₀ p) n + fromMean m (e p) n :=
      fun n hn => by
        rw [fromMean_lin (a := 1) (b := 1) (c := 0) (g := v₀ p) (h := e p)
          (fun n hn => by rw [hv p (by simp) n hn]; ring) hn]
        ring
    have b1 : (∑ n ∈ Finset.Icc (-(m : Int)) m, (fromMean m (u p) n - 0 * fromMean m (v p) n) ^ 2) -
        ∑ n ∈ Finset.Icc (-(m : Int)) m, (fromMean m (u p) n - 1 * fromMean m (v p) n) ^ 2 =
        2 * k * (∑ n ∈ Finset.Icc (-(m : Int)) m, fromMean m (v₀ p) n ^ 2) +
        2 * k * (∑ n ∈ Finset.Icc (-(m : Int)) m, fromMean m (v₀ p) n * fromMean m (e p) n) -
        ∑ n ∈ Finset.Icc (-(m : Int)) m, fromMean m (v p) n ^ 2 := by
      rw [Finset.mul_sum, Finset.mul_sum, ← Finset.sum_sub_distrib, ← Finset.sum_add_distrib,
        ← Finset.sum_sub_distrib]
      refine Finset.sum_congr rfl fun n hn => ?_
      have hn := abs_le.2 (Finset.mem_Icc.1 hn)
      rw [a1 n hn, a2 n hn]
      ring
    have b2 : (∑ n ∈ Finset.Icc (-(m : Int)) m, fromMean m (v p) n ^ 2) =
        (∑ n ∈ Finset.Icc (-(m : Int)) m, fromMean m (v₀ p) n ^ 2) +
        2 * (∑ n ∈ Finset.Icc (-(m : Int)) m, fromMean m (v₀ p) n * fromMean m (e p) n) +
        ∑ n ∈ Finset.Icc (-(m : Int)) m, fromMean m (e p) n ^ 2 := by
      rw [Finset.mul_sum, ← Finset.sum_add_distrib, ← Finset.sum_add_distrib]
      refine Finset.sum_congr rfl fun n hn => ?_
      rw [a2 n (abs_le.2 (Finset.mem_Icc.1 hn))]
      ring
    unfold misfit rowSpread rowProduct at *
    simp only [List.map_cons, List.sum_cons]
    constructor <;> linarith

/-- **C163**: errors `e` of `v` are not averaged out: with errors that have nothing to do with the slip, in that
the sum of their products with the true `v₀` is zero, the measured ratio is too small by the factor the
errors raise the sum of the squares of `v` by. -/
theorem C163_dilution {m : Nat} (hm : 0 < m) {angle : ℚ} (h0 : 0 ≤ angle) (h1 : angle ≤ 180) :
    ∃ d, Across angle d ∧ ∀ (h w : Nat) (u v : Img K) (ext : Int × Int) (lines : List (List (Int × Int)))
      (v₀ e : Int × Int → Int → K) (k : K),
      (∀ p ∈ lines.flatten, ∀ n : Int, |n| ≤ m →
        (0 ≤ p.1 + n * d.1 + ext.1 ∧ p.1 + n * d.1 + ext.1 < w) ∧
        (0 ≤ p.2 + n * d.2 + ext.2 ∧ p.2 + n * d.2 + ext.2 < h)) →
      (∃ p ∈ lines.flatten, ∃ n n' : Int, |n| ≤ m ∧ |n'| ≤ m ∧ rowAt v ext d p n ≠ rowAt v ext d p n') →
      (∀ p ∈ lines.flatten, ∃ c, ∀ n : Int, |n| ≤ m → rowAt u ext d p n = k * v₀ p n + c) →
      (∀ p ∈ lines.flatten, ∀ n : Int, |n| ≤ m → rowAt v ext d p n = v₀ p n + e p n) →
      rowProduct m v₀ e lines.flatten = 0 →
      measureRdr h w u v ext (2 * m + 1) angle lines =
        .ok (k * (rowSpread m v₀ lines.flatten / (rowSpread m v₀ lines.flatten + rowSpread m e lines.flatten))) := by
  obtain ⟨d, hd, H⟩ := C163_best (K := K) hm h0 h1
  refine ⟨d, hd, fun h w u v ext lines v₀ e k hin hch hu hv hz => ?_⟩
  obtain ⟨r, hr, hpos, hbest⟩ := H h w u v ext lines hin hch
  obtain ⟨s1, s2⟩ := sums_dilution (m := m) (u := rowAt u ext d) (v := rowAt v ext d) lines.flatten hu hv
  rw [hz] at s1 s2
  have b0 := hbest 0
  have b1 := hbest 1
  have : rowSpread m v₀ lines.flatten + rowSpread m e lines.flatten = rowSpread m (rowAt v ext d) lines.flatten := by
    rw [s2]; ring
  rw [hr, this]
  congr 1
  rw [← mul_div_assoc, eq_div_iff hpos.ne']
  linarith

/-- **C163**: errors of `v` in one row: slip by `k a` and `a` per pixel across a vertical line, and errors
of `v` of at most `2 ε`, give the ratio `k a² / (a² + 3 ε²)`. -/
theorem C163_dilution_row (a ε k : K) (ha : a ≠ 0) :
    measureRdr 1 3 (fun _ x => k * (a * (x - 1))) (fun _ x => a * (x - 1) + ε * (if x = 1 then -2 else 1)) (0, 0) 3 0
      [[(1, 0)]] = .ok (k * a ^ 2 / (a ^ 2 + 3 * ε ^ 2)) := by
  have hin : ∀ p ∈ [((1 : Int), (0 : Int))], ∀ o ∈ [((-1 : Int), (0 : Int)), (0, 0), (1, 0)],
      InMap 1 3 (p.1 + o.1 + (0, 0).1, p.2 + o.2 + (0, 0).2) := by
    simp [InMap]
  have hp : 0 < a ^ 2 + 3 * ε ^ 2 := by positivity
  unfold measureRdr
  rw [rdrOffsets_three_zero]
  have e1 : rdrValues 1 3 (fun _ x => k * (a * ((x : K) - 1))) (0, 0) [(-1, 0), (0, 0), (1, 0)] [(1, 0)] =
      .ok [-(k * a), 0, k * a] := by
    rw [rdrValues_ok _ hin]
    simp [centred]
  have e2 : rdrValues 1 3 (fun _ x => a * ((x : K) - 1) + ε * (if x = 1 then -2 else 1)) (0, 0)
      [(-1, 0), (0, 0), (1, 0)] [(1, 0)] = .ok [-a + ε, -2 * ε, a + ε] := by
    rw [rdrValues_ok _ hin]
    simp [centred]
    refine ⟨?_, ?_, ?_⟩ <;> ring
  have hf : [[((1 : Int), (0 : Int))]].flatten = [(1, 0)] := rfl
  simp only [Except.bind, hf, e1, e2]
  rw [slope_general]
  · congr 1
    simp only [List.zipWith_cons_cons, List.zipWith_nil_right, List.map_cons, List.map_nil, List.sum_cons,
      List.sum_nil]
    rw [div_eq_div_iff (by nlinarith) hp.ne']
    ring
  · simp
    ring
  · simp
  · by_cases h : a + ε = 0
    · exact ⟨-a + ε, by simp, fun h' => ha (by linarith)⟩
    · exact ⟨a + ε, by simp, h⟩

/-- Across a vertical line in the middle of a map of three columns, `v` changes, and `u` is `v / 2 + 1` with
an error of one tenth in the last column. -/
example : ∃ (d : Int × Int), Across 0 d ∧ ∃ (u v : Img ℚ),
    (∀ p ∈ [((1 : Int), (0 : Int))], ∀ n : Int, |n| ≤ (1 : Nat) →
        (0 ≤ p.1 + n * d.1 + 0 ∧ p.1 + n * d.1 + 0 < 3) ∧ (0 ≤ p.2 + n * d.2 + 0 ∧ p.2 + n * d.2 + 0 < 1)) ∧
    (∀ p ∈ [((1 : Int), (0 : Int))], ∃ c, ∀ n : Int, |n| ≤ (1 : Nat) →
        |rowAt u (0, 0) d p n - (1 / 2 * rowAt v (0, 0) d p n + c)| ≤ 1 / 10) ∧
    rowAt v (0, 0) d (1, 0) 1 ≠ rowAt v (0, 0) d (1, 0) (-1) := by
  have h8 : 0 ≤ Real.sin (Real.pi / 8) :=
    Real.sin_nonneg_of_nonneg_of_le_pi (by have := Real.pi_pos; linarith) (by have := Real.pi_pos; linarith)
  refine ⟨(1, 0), ⟨by simp, by simpa using h8⟩, fun _ x => if 1 < x then 21 / 10 else 1,
    fun _ x => if 1 < x then 2 else 0, ?_, ?_, ?_⟩
  · intro p hp n hn
    rw [abs_le] at hn
    simp only [List.mem_cons, List.not_mem_nil, or_false] at hp
    subst hp
    simp only [mul_one, mul_zero]
    omega
  · intro p _
    refine ⟨1, fun n _ => ?_⟩
    unfold rowAt
    dsimp only
    split_ifs <;> norm_num [abs_le]
  · norm_num [rowAt]

end

end DefDAP
