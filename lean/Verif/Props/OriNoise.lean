import Verif.Props.KamBounds
import Verif.Props.NyeBound
import Verif.Props.MisoriDistance

/-!
C157: how far errors of orientation, wrong orientations and a cut of the file reach in the maps of kernel
average misorientation and dislocation density.
-/

namespace DefDAP
open Spec Quat Matrix

/-- A positive, linear average over the pixels of `N`. -/
structure IsAvg (N : Int → Int → Prop) (A : (Int → Int → ℝ) → ℝ) : Prop where
  mono : ∀ f g, (∀ i j, N i j → f i j ≤ g i j) → A f ≤ A g
  lin : ∀ (f g : Int → Int → ℝ) (a b c : ℝ), A (fun i j => a * f i j + b * g i j + c) = a * A f + b * A g + c

theorem avg_angle {N : Int → Int → Prop} {A : (Int → Int → ℝ) → ℝ} (hA : IsAvg N A) {a b : Int → Int → ℝ}
    {ε : ℝ} (hε : 0 ≤ ε) (ha0 : ∀ i j, N i j → 0 ≤ a i j) (ha1 : ∀ i j, N i j → a i j ≤ Real.pi / 2)
    (hb0 : ∀ i j, N i j → 0 ≤ b i j) (hb1 : ∀ i j, N i j → b i j ≤ Real.pi / 2)
    (hab : ∀ i j, N i j → b i j ≤ a i j + ε) :
    Real.arccos (A fun i j => Real.cos (b i j)) ≤ Real.arccos (A fun i j => Real.cos (a i j)) + ε := by
  have hpi := Real.pi_pos
  have const : ∀ c : ℝ, A (fun _ _ => c) = c := by
    intro c
    have := hA.lin (fun _ _ => 0) (fun _ _ => 0) 0 0 c
    simpa using this
  have hb : 0 ≤ A fun i j => Real.cos (b i j) := by
    have := hA.mono (fun _ _ => 0) (fun i j => Real.cos (b i j)) fun i j h =>
      Real.cos_nonneg_of_neg_pi_div_two_le_of_le (by linarith [hb0 i j h]) (hb1 i j h)
    rwa [const] at this
  by_cases hbig : Real.pi / 2 < ε
  · have := Real.arccos_le_pi_div_two.2 hb
    have := Real.arccos_nonneg (A fun i j => Real.cos (a i j))
    linarith
  push Not at hbig
  set m := A fun i j => Real.cos (a i j) with hm
  set s := A fun i j => Real.sin (a i j) with hs
  have m0 : 0 ≤ m := by
    have := hA.mono (fun _ _ => 0) (fun i j => Real.cos (a i j)) fun i j h =>
      Real.cos_nonneg_of_neg_pi_div_two_le_of_le (by linarith [ha0 i j h]) (ha1 i j h)
    rwa [const] at this
  have m1 : m ≤ 1 := by
    have := hA.mono (fun i j => Real.cos (a i j)) (fun _ _ => 1) fun i j _ => Real.cos_le_one _
    rwa [const] at this
  -- the mean of the sines is at most the sine of the mean angle
  have hsm : s ^ 2 + m ^ 2 ≤ 1 := by
    have h1 := hA.mono (fun i j => (2 * s) * Real.sin (a i j) + (2 * m) * Real.cos (a i j) + (-(s ^ 2 + m ^ 2)))
      (fun _ _ => 1) fun i j _ => by
        nlinarith [sq_nonneg (s - Real.sin (a i j)), sq_nonneg (m - Real.cos (a i j)), Real.sin_sq_add_cos_sq (a i j)]
    rw [const, hA.lin, ← hm, ← hs] at h1
    nlinarith
  have hsin : s ≤ Real.sin (Real.arccos m) := by
    rw [Real.sin_arccos]
    exact Real.le_sqrt_of_sq_le (by linarith)
  have hcosm : Real.cos (Real.arccos m) = m := Real.cos_arccos (by linarith) m1
  have hA2 : Real.arccos m ≤ Real.pi / 2 := Real.arccos_le_pi_div_two.2 m0
  have hA0 := Real.arccos_nonneg m
  have hle : Real.cos (Real.arccos m + ε) ≤ A fun i j => Real.cos (b i j) := by
    rw [Real.cos_add, hcosm]
    have h2 := hA.mono (fun i j => Real.cos ε * Real.cos (a i j) + (-Real.sin ε) * Real.sin (a i j) + 0)
      (fun i j => Real.cos (b i j)) fun i j h => by
        have : Real.cos (a i j + ε) ≤ Real.cos (b i j) :=
          Real.cos_le_cos_of_nonneg_of_le_pi (hb0 i j h) (by linarith [ha1 i j h]) (hab i j h)
        rw [Real.cos_add] at this
        linarith
    rw [hA.lin, ← hm, ← hs] at h2
    have h3 := Real.sin_nonneg_of_nonneg_of_le_pi hε (by linarith)
    nlinarith
  calc Real.arccos (A fun i j => Real.cos (b i j)) ≤ Real.arccos (Real.cos (Real.arccos m + ε)) :=
        Real.arccos_le_arccos hle
    _ = Real.arccos m + ε := Real.arccos_cos (by linarith) (by linarith)

theorem mean_mono (n : Nat) (i : Int) (v w : Int → ℝ) (h : ∀ k ∈ Spec.lineNeighbours n i, v k ≤ w k) :
    Spec.neighbourMean n i v ≤ Spec.neighbourMean n i w := by
  unfold Spec.neighbourMean
  exact div_le_div_of_nonneg_right (List.sum_le_sum h) (Nat.cast_nonneg _)

theorem mean_lin (n : Nat) (hn : 2 ≤ n) (i : Int) (h0 : 0 ≤ i) (h1 : i < n) (v w : Int → ℝ) (a b c : ℝ) :
    Spec.neighbourMean n i (fun k => a * v k + b * w k + c) =
      a * Spec.neighbourMean n i v + b * Spec.neighbourMean n i w + c := by
  unfold Spec.neighbourMean
  by_cases d : i = 0
  · subst d
    rw [neighbours_first n hn]
    simp
  · by_cases d : i = (n : Int) - 1
    · rw [neighbours_last n hn i d]
      simp
    · rw [neighbours_mid n i (by omega) (by omega)]
      simp only [List.map_cons, List.map_nil, List.sum_cons, List.sum_nil, List.length_cons, List.length_nil]
      norm_num
      ring

theorem kam_avg {rows cols : Nat} (hr : 2 ≤ rows) (hc : 2 ≤ cols) {i j : Int} (hm : InGrid rows cols i j) :
    IsAvg (fun r c => InGrid rows cols r c ∧ NextTo i j r c) fun f =>
      (Spec.neighbourMean rows i (fun r => f r j) + Spec.neighbourMean cols j (fun c => f i c)) / 2 := by
  constructor
  · intro f g h
    obtain ⟨h1, h2⟩ := overlap_neighbours hm fun r c a b => h r c ⟨a, b⟩
    have a1 := mean_mono rows i (fun r => f r j) (fun r => g r j) h1
    have a2 := mean_mono cols j (fun c => f i c) (fun c => g i c) h2
    linarith
  · intro f g a b c
    obtain ⟨h0, h1, h2, h3⟩ := hm
    have a1 := mean_lin rows hr i h0 h1 (fun r => f r j) (fun r => g r j) a b c
    have a2 := mean_lin cols hc j h2 h3 (fun c => f i c) (fun c => g i c) a b c
    rw [a1, a2]
    ring

theorem kam_le {rows cols : Nat} {q q' : Int → Int → Quat ℝ} {kam kam' : Int → Int → ℝ}
    (hk : calcKam rows cols q = .ok kam) (hk' : calcKam rows cols q' = .ok kam')
    (hu : Spec.UnitMap rows cols q) (hu' : Spec.UnitMap rows cols q') {i j : Int} (hm : InGrid rows cols i j)
    {δ : ℝ} (hi : rotationAngle (rotMatrix (q i j) * (rotMatrix (q' i j))ᵀ) ≤ δ)
    (hn : ∀ r c, InGrid rows cols r c → NextTo i j r c →
      rotationAngle (rotMatrix (q r c) * (rotMatrix (q' r c))ᵀ) ≤ δ) : kam' i j ≤ kam i j + 2 * δ := by
  obtain ⟨hr, hc⟩ := kam_sizes hk
  obtain ⟨k1, e1, hv⟩ := C63_value rows cols hr hc q hu
  obtain ⟨k2, e2, hv'⟩ := C63_value rows cols hr hc q' hu'
  rw [hk] at e1
  rw [hk'] at e2
  cases e1
  cases e2
  rw [hv i j hm, hv' i j hm]
  have hδ : 0 ≤ δ := le_trans (Real.arccos_nonneg _) hi
  have ui := hu i j hm
  have ui' := hu' i j hm
  have hcos : ∀ {x y : Quat ℝ}, x.IsUnit → y.IsUnit → Real.cos (Real.arccos |dot x y|) = |dot x y| :=
    fun {x y} hx hy => Real.cos_arccos (by linarith [abs_nonneg (dot x y)]) (abs_dot_le_one hx hy)
  have key := avg_angle (kam_avg hr hc hm) (a := fun r c => Real.arccos |dot (q i j) (q r c)|)
    (b := fun r c => Real.arccos |dot (q' i j) (q' r c)|) hδ (fun _ _ _ => Real.arccos_nonneg _)
    (fun _ _ _ => Real.arccos_le_pi_div_two.2 (abs_nonneg _)) (fun _ _ _ => Real.arccos_nonneg _)
    (fun _ _ _ => Real.arccos_le_pi_div_two.2 (abs_nonneg _)) fun r c ⟨hg, hx⟩ => by
      have t1 := arccos_triangle ui' ui (hu' r c hg)
      have t2 := arccos_triangle ui (hu r c hg) (hu' r c hg)
      have d1 := hi
      have d2 := hn r c hg hx
      rw [rotationAngle_eq ui ui', dot_comm (q i j) (q' i j)] at d1
      rw [rotationAngle_eq (hu r c hg) (hu' r c hg)] at d2
      linarith
  have l : ∀ (p : Int → Int → Quat ℝ), Spec.UnitMap rows cols p →
      (Spec.neighbourMean rows i (fun r => Real.cos (Real.arccos |dot (p i j) (p r j)|)) +
        Spec.neighbourMean cols j (fun c => Real.cos (Real.arccos |dot (p i j) (p i c)|))) / 2 =
      (Spec.neighbourMean rows i (fun r => Spec.overlap (p i j) (p r j)) +
          Spec.neighbourMean cols j (fun c => Spec.overlap (p i j) (p i c))) / 2 := by
    intro p hp
    obtain ⟨g1, g2⟩ := overlap_neighbours hm fun r c a _ => hcos (hp i j hm) (hp r c a)
    have a1 := le_antisymm (mean_mono rows i _ (fun r => Spec.overlap (p i j) (p r j)) fun k h => (g1 k h).le)
      (mean_mono rows i (fun r => Spec.overlap (p i j) (p r j)) _ fun k h => (g1 k h).ge)
    have a2 := le_antisymm (mean_mono cols j _ (fun c => Spec.overlap (p i j) (p i c)) fun k h => (g2 k h).le)
      (mean_mono cols j (fun c => Spec.overlap (p i j) (p i c)) _ fun k h => (g2 k h).ge)
    rw [a1, a2]
  rw [← l q hu, ← l q' hu']
  linarith

/-- The angle between two orientations of a map. -/
theorem angle_comm {p r : Quat ℝ} (hp : p.IsUnit) (hr : r.IsUnit) :
    rotationAngle (rotMatrix p * (rotMatrix r)ᵀ) = rotationAngle (rotMatrix r * (rotMatrix p)ᵀ) := by
  rw [rotationAngle_eq hp hr, rotationAngle_eq hr hp, dot_comm]

/-- **C157** If the orientations of a pixel and its neighbours are wrong by at most `δ`, its kernel average
is wrong by at most `2δ`, whatever the other orientations are. -/
theorem C157_kam {rows cols : Nat} {q q' : Int → Int → Quat ℝ} {kam kam' : Int → Int → ℝ}
    (hk : calcKam rows cols q = .ok kam) (hk' : calcKam rows cols q' = .ok kam')
    (hu : Spec.UnitMap rows cols q) (hu' : Spec.UnitMap rows cols q') (i j : Int) (hm : InGrid rows cols i j)
    (δ : ℝ) (hi : rotationAngle (rotMatrix (q i j) * (rotMatrix (q' i j))ᵀ) ≤ δ)
    (hn : ∀ r c, InGrid rows cols r c → NextTo i j r c →
      rotationAngle (rotMatrix (q r c) * (rotMatrix (q' r c))ᵀ) ≤ δ) : |kam' i j - kam i j| ≤ 2 * δ := by
  have h1 := kam_le hk hk' hu hu' hm hi hn
  have h2 := kam_le hk' hk hu' hu hm (δ := δ) (by rwa [angle_comm (hu' i j hm) (hu i j hm)]) fun r c hg hx => by
    rw [angle_comm (hu' r c hg) (hu r c hg)]
    exact hn r c hg hx
  exact abs_le.2 ⟨by linarith, by linarith⟩

/-- One map is the part of another whose first pixel is in row `top` and column `left`. -/
structure Spec.Window (rows cols rows' cols' : Nat) (top left : Nat) (q q' : Int → Int → Quat ℝ) : Prop where
  below : top + rows' ≤ rows
  right : left + cols' ≤ cols
  same : ∀ i j, InGrid rows' cols' i j → q' i j = q (top + i) (left + j)

theorem window_line {n n' t : Nat} (ht : t + n' ≤ n) {i : Int} (h0 : 0 ≤ i) (h1 : i < n')
    (hfirst : i = 0 → t = 0) (hlast : i = n' - 1 → t + n' = n) (v : Int → ℝ) :
    Spec.neighbourMean n (t + i) v = Spec.neighbourMean n' i fun k => v (t + k) := by
  have e1 : (0 ≤ (t : Int) + i - 1 ∧ (t : Int) + i - 1 < n) = (0 ≤ i - 1 ∧ i - 1 < (n' : Int)) := by
    apply propext
    constructor <;> intro h
    · have : i ≠ 0 := fun e => by have := hfirst e; omega
      omega
    · omega
  have e2 : (0 ≤ (t : Int) + i + 1 ∧ (t : Int) + i + 1 < n) = (0 ≤ i + 1 ∧ i + 1 < (n' : Int)) := by
    apply propext
    constructor <;> intro h
    · have : i ≠ n' - 1 := fun e => by have := hlast e; omega
      omega
    · omega
  unfold Spec.neighbourMean Spec.lineNeighbours
  by_cases a : 0 ≤ i - 1 ∧ i - 1 < (n' : Int) <;> by_cases b : 0 ≤ i + 1 ∧ i + 1 < (n' : Int) <;>
    simp only [List.filter_cons, List.filter_nil, e1, e2, a, b, decide_false] <;>
    simp [← add_assoc, ← add_sub_assoc]

/-- **C157** A part of a map has the kernel averages of the whole map, except at those of its edges that
are not edges of the whole map. -/
theorem C157_kam_part {rows cols rows' cols' top left : Nat} {q q' : Int → Int → Quat ℝ}
    (hw : Spec.Window rows cols rows' cols' top left q q') {kam kam' : Int → Int → ℝ}
    (hk : calcKam rows cols q = .ok kam) (hk' : calcKam rows' cols' q' = .ok kam')
    (hu : Spec.UnitMap rows cols q) (i j : Int) (hm : InGrid rows' cols' i j)
    (h1 : i = 0 → top = 0) (h2 : i = rows' - 1 → top + rows' = rows) (h3 : j = 0 → left = 0)
    (h4 : j = cols' - 1 → left + cols' = cols) : kam' i j = kam (top + i) (left + j) := by
  obtain ⟨hr, hc⟩ := kam_sizes hk
  obtain ⟨hr', hc'⟩ := kam_sizes hk'
  have hin : ∀ {i j}, InGrid rows' cols' i j → InGrid rows cols (top + i) (left + j) := by
    rintro i j ⟨a, b, c, d⟩
    have := hw.below
    have := hw.right
    exact ⟨by omega, by omega, by omega, by omega⟩
  have hu' : Spec.UnitMap rows' cols' q' := fun i j h => by
    rw [hw.same i j h]
    exact hu _ _ (hin h)
  obtain ⟨k1, e1, hv⟩ := C63_value rows cols hr hc q hu
  obtain ⟨k2, e2, hv'⟩ := C63_value rows' cols' hr' hc' q' hu'
  rw [hk] at e1
  rw [hk'] at e2
  cases e1
  cases e2
  rw [hv _ _ (hin hm), hv' i j hm, window_line hw.below hm.1 hm.2.1 h1 h2,
    window_line hw.right hm.2.2.1 hm.2.2.2 h3 h4]
  obtain ⟨g1, g2⟩ := overlap_neighbours hm (P := fun r c => Spec.overlap (q' i j) (q' r c) =
    Spec.overlap (q (top + i) (left + j)) (q (top + r) (left + c))) fun r c a _ => by
      rw [hw.same i j hm, hw.same r c a]
  rw [le_antisymm (mean_mono rows' i _ _ fun k h => (g1 k h).le) (mean_mono rows' i _ _ fun k h => (g1 k h).ge),
    le_antisymm (mean_mono cols' j _ _ fun k h => (g2 k h).le) (mean_mono cols' j _ _ fun k h => (g2 k h).ge)]

/-- **C157** The dislocation density and tensor of a pixel depend on its orientation and that of the pixel
below it only: a wrong orientation spoils at most two pixels. -/
theorem C157_gnd (syms : List (Quat ℝ)) (step : ℝ) {rows cols : Nat} {q q' : Int → Int → Quat ℝ} (j i : Int)
    (h0 : q' j i = q j i) (h1 : j + 1 < rows → q' (j + 1) i = q (j + 1) i) :
    (calcNye syms step rows cols q').1 j i = (calcNye syms step rows cols q).1 j i ∧
    (calcNye syms step rows cols q').2 j i = (calcNye syms step rows cols q).2 j i := by
  have hb : nyeBetas syms step rows cols q' j i = nyeBetas syms step rows cols q j i := by
    rw [nyeBetas_at, nyeBetas_at]
    split_ifs with h
    · rw [h0, h1 (by omega)]
    · rfl
  simp only [calcNye, hb, and_self]

/-- **C157** A part of a map has the dislocation densities and tensors of the whole map, except in its last
row and column. -/
theorem C157_gnd_part (syms : List (Quat ℝ)) (step : ℝ) {rows cols rows' cols' top left : Nat}
    {q q' : Int → Int → Quat ℝ} (hw : Spec.Window rows cols rows' cols' top left q q') (j i : Int)
    (hm : InGrid rows' cols' j i) (h1 : j = rows' - 1 → top + rows' = rows)
    (h2 : i = cols' - 1 → left + cols' = cols) :
    (calcNye syms step rows' cols' q').1 j i = (calcNye syms step rows cols q).1 (top + j) (left + i) ∧
    (calcNye syms step rows' cols' q').2 j i = (calcNye syms step rows cols q).2 (top + j) (left + i) := by
  have hb : nyeBetas syms step rows' cols' q' j i = nyeBetas syms step rows cols q (top + j) (left + i) := by
    obtain ⟨a, b, c, d⟩ := hm
    have w1 := hw.below
    have w2 := hw.right
    rw [nyeBetas_at, nyeBetas_at]
    by_cases h : 0 ≤ j ∧ j < (rows' : Int) - 1 ∧ 0 ≤ i ∧ i < (cols' : Int) - 1
    · rw [if_pos h, if_pos (by omega), hw.same j i ⟨a, b, c, d⟩, hw.same (j + 1) i ⟨by omega, by omega, c, d⟩,
        add_assoc]
    · rw [if_neg h, if_neg]
      intro k
      rcases (by omega : j = rows' - 1 ∨ i = cols' - 1) with e | e
      · have := h1 e
        omega
      · have := h2 e
        omega
  simp only [calcNye, hb, and_self]

/-- **C157** If the orientations of a pixel and the one below are within `deg` degrees of one orientation
of the crystal, the density is at most `18 sin deg` over the Burgers vector and the step size. -/
theorem C157_floor {g : SymGroup} {step : ℝ} {rows cols : Nat} {q : Int → Int → Quat ℝ} (hs : 0 < step)
    (hu : Spec.UnitMap rows cols q) (j i : Int) (hm : InGrid rows cols j i) (hj : j + 1 < rows)
    (ref : Quat ℝ) (href : ref.IsUnit) (deg : ℝ) (hdeg : deg ≤ 90)
    (h0 : Close g deg (rotMatrix (q j i)) (rotMatrix ref))
    (h1 : Close g deg (rotMatrix (q (j + 1) i)) (rotMatrix ref)) :
    (calcNye (symEqv g) step rows cols q).1 j i ≤
      18 * Real.sin (deg * (Real.pi / 180)) / ((14 / 100000000000) * (step * (1 / 1000000))) := by
  have hpi := Real.pi_pos
  have hm1 : InGrid rows cols (j + 1) i := ⟨by have := hm.1; omega, hj, hm.2.2⟩
  have a0 := (C40_angle g _ _ (hu _ _ hm) href deg).2 h0
  have a1 := (C40_angle g _ _ (hu _ _ hm1) href deg).2 h1
  have t := C139_triangle g _ ref _ (hu _ _ hm) href (hu _ _ hm1)
  rw [C139_symmetric g ref _ href (hu _ _ hm1)] at t
  obtain ⟨V, hV, hle⟩ := (C40_angle g _ _ (hu _ _ hm) (hu _ _ hm1) (2 * deg)).1 (by unfold misAngle at t; linarith)
  refine (C148_bound hs hu j i hm V hV).trans (div_le_div_of_nonneg_right ?_ (by positivity))
  have h3 : 0 ≤ rotationAngle (rotMatrix (q j i) * (V * rotMatrix (q (j + 1) i))ᵀ) := Real.arccos_nonneg _
  have := Real.sin_le_sin_of_le_of_le_pi_div_two
    (x := rotationAngle (rotMatrix (q j i) * (V * rotMatrix (q (j + 1) i))ᵀ) / 2) (y := deg * (Real.pi / 180))
    (by linarith) (by nlinarith) (by linarith)
  linarith

/-- Hypotheses of C157 met: one wrong orientation in a 3x3 map of one orientation changes the kernel
averages next to it, but not that of the opposite corner, and not by more than twice its error; the lower
right 2x2 part is without the error. -/
example : ∃ q q' : Int → Int → Quat ℝ, Spec.UnitMap 3 3 q ∧ Spec.UnitMap 3 3 q' ∧ q' 0 0 ≠ q 0 0 ∧
    (∀ kam kam', calcKam 3 3 q = .ok kam → calcKam 3 3 q' = .ok kam' →
      kam' 2 2 = kam 2 2 ∧ |kam' 0 0 - kam 0 0| ≤ 2 * (2 * Real.arccos (4 / 5))) ∧
    Spec.Window 3 3 2 2 1 1 q' q := by
  have u1 : (⟨1, 0, 0, 0⟩ : Quat ℝ).IsUnit := by simp [Quat.IsUnit]
  have u2 : (⟨4 / 5, 3 / 5, 0, 0⟩ : Quat ℝ).IsUnit := by
    simp only [Quat.IsUnit]
    norm_num
  have hu : Spec.UnitMap 3 3 fun _ _ => ⟨1, 0, 0, 0⟩ := fun _ _ _ => u1
  have hu' : Spec.UnitMap 3 3 fun i j => if i = 0 ∧ j = 0 then ⟨4 / 5, 3 / 5, 0, 0⟩ else ⟨1, 0, 0, 0⟩ := by
    intro i j _
    dsimp only
    split_ifs
    exacts [u2, u1]
  have z : rotationAngle (rotMatrix (⟨1, 0, 0, 0⟩ : Quat ℝ) * (rotMatrix ⟨1, 0, 0, 0⟩)ᵀ) = 0 := by
    rw [rotationAngle_eq u1 u1]
    simp [dot]
  have a : rotationAngle (rotMatrix (⟨1, 0, 0, 0⟩ : Quat ℝ) * (rotMatrix ⟨4 / 5, 3 / 5, 0, 0⟩)ᵀ) =
      2 * Real.arccos (4 / 5) := by
    rw [rotationAngle_eq u1 u2]
    simp only [dot]
    norm_num
  have hpos : 0 ≤ 2 * Real.arccos (4 / 5) := by have := Real.arccos_nonneg (4 / 5); linarith
  refine ⟨_, _, hu, hu', ?_, ?_, ?_⟩
  · simp
  · intro kam kam' hk hk'
    constructor
    · have := C157_kam hk hk' hu hu' 2 2 (by simp [InGrid]) 0 (by simp [z]) (by
        intro r c _ hx
        have : ¬ (r = 0 ∧ c = 0) := by rintro ⟨rfl, rfl⟩; simp [NextTo] at hx
        simp [this, z])
      rw [mul_zero] at this
      exact sub_eq_zero.1 (abs_nonpos_iff.1 this)
    · refine C157_kam hk hk' hu hu' 0 0 (by simp [InGrid]) _ (by simp [a]) ?_
      intro r c _ _
      split_ifs
      · rw [a]
      · rw [z]
        exact hpos
  · refine ⟨by norm_num, by norm_num, fun i j h => ?_⟩
    have := h.1
    rw [if_neg (by push_cast; omega)]

end DefDAP
