import Verif.Props.LineTool

/-! C169: profiles along lines: the other direction, noise, units and steepness. -/

namespace DefDAP

open Spec

theorem linspace_back (a b : ℝ) {n k : Nat} (hn : 2 ≤ n) (hk : k < n) :
    linspace b a n k = linspace a b n (n - 1 - k) := by
  rw [linspace_eq b a hn, linspace_eq a b hn]
  have h2 : ((n - 1 - k : ℕ) : ℝ) = (n : ℝ) - 1 - k := by
    rw [Nat.cast_sub (by omega), Nat.cast_sub (by omega)]
    simp
  have h3 : (n : ℝ) - 1 ≠ 0 := by
    have : (2 : ℝ) ≤ n := by exact_mod_cast hn
    linarith
  rw [h2]
  field_simp
  ring

theorem lineLength_back (x0 y0 x1 y1 : ℝ) : lineLength (x1, y1, x0, y0) = lineLength (x0, y0, x1, y1) := by
  unfold lineLength
  congr 1
  ring

theorem profile_get {h w : Nat} {im : Img ℝ} {l : ℝ × ℝ × ℝ × ℝ} {k : Nat} {d v : ℝ}
    (hk : (lineProfile h w im l)[k]? = some (d, v)) : k < profileCount l ∧
      d = linspace 0 (lineLength l) (profileCount l) k ∧ v = interp h w im (profilePoint l k) := by
  unfold lineProfile at hk
  rw [List.getElem?_map] at hk
  by_cases h1 : k < profileCount l
  · rw [List.getElem?_range h1] at hk
    simp only [Option.map_some, Option.some.injEq, Prod.mk.injEq] at hk
    exact ⟨h1, hk.1.symm, hk.2.symm⟩
  · rw [List.getElem?_eq_none (by simpa using h1)] at hk
    cases hk

/-- **C169**: a line drawn in the other direction gives the same profile, seen from the other end. -/
theorem C169_other_way (h w : Nat) (im : Img ℝ) (x0 y0 x1 y1 : ℝ) :
    lineProfile h w im (x1, y1, x0, y0) =
      ((lineProfile h w im (x0, y0, x1, y1)).map fun dv => (dist2 (x1, y1) (x0, y0) - dv.1, dv.2)).reverse := by
  have hL : lineLength (x0, y0, x1, y1) = dist2 (x1, y1) (x0, y0) := by
    unfold lineLength dist2
    rw [add_comm]
  have hb := lineLength_back x0 y0 x1 y1
  have hc : profileCount (x1, y1, x0, y0) = profileCount (x0, y0, x1, y1) := by
    unfold profileCount
    rw [hb]
  obtain ⟨c1, c2, c3⟩ := profileCount_pos (x0, y0, x1, y1)
  rw [← hL]
  apply List.ext_getElem
  · simp [lineProfile, hc]
  · intro k hk hk'
    have hkn : k < profileCount (x0, y0, x1, y1) := by simpa [lineProfile, hc] using hk
    rw [List.getElem_reverse]
    simp only [lineProfile, List.getElem_map, List.getElem_range, List.length_map, List.length_range, hb, hc,
      profilePoint]
    rcases Nat.lt_or_ge (profileCount (x0, y0, x1, y1)) 2 with hn | hn
    · have h1 : profileCount (x0, y0, x1, y1) = 1 := by omega
      have hL0 : lineLength (x0, y0, x1, y1) = 0 := by
        have h0 : 0 ≤ lineLength (x0, y0, x1, y1) := Real.sqrt_nonneg _
        rw [h1] at c2
        push_cast at c2
        linarith
      have hs : (y1 - y0) ^ 2 + (x1 - x0) ^ 2 = 0 := by
        unfold lineLength at hL0
        exact (Real.sqrt_eq_zero (by positivity)).1 hL0
      have e1 : x1 = x0 := by nlinarith [sq_nonneg (y1 - y0), sq_nonneg (x1 - x0)]
      have e2 : y1 = y0 := by nlinarith [sq_nonneg (y1 - y0), sq_nonneg (x1 - x0)]
      rw [hL0, h1, e1, e2]
      simp [linspace]
    · rw [linspace_back x0 x1 hn hkn, linspace_back y0 y1 hn hkn, Prod.mk.injEq]
      refine ⟨?_, rfl⟩
      rw [linspace_eq _ _ hn, linspace_eq _ _ hn]
      have h2 : ((profileCount (x0, y0, x1, y1) - 1 - k : ℕ) : ℝ) = (profileCount (x0, y0, x1, y1) : ℝ) - 1 - k := by
        rw [Nat.cast_sub (by omega), Nat.cast_sub (by omega)]
        simp
      have h3 : (profileCount (x0, y0, x1, y1) : ℝ) - 1 ≠ 0 := by
        have : (2 : ℝ) ≤ profileCount (x0, y0, x1, y1) := by exact_mod_cast hn
        linarith
      rw [h2]
      field_simp
      ring

theorem interp_linear (h w : Nat) (im im' : Img ℝ) (a b c : ℝ) (p : ℝ × ℝ) :
    interp h w (fun y x => a * im y x + b * im' y x + c) p = a * interp h w im p + b * interp h w im' p + c := by
  unfold interp
  ring

/-- **C169**: the profile of a sum of maps is the sum of their profiles, and in other units it is the profile in these
units. -/
theorem C169_units (h w : Nat) (im im' : Img ℝ) (a b c : ℝ) (l : ℝ × ℝ × ℝ × ℝ) (k : Nat) (d v v' : ℝ)
    (h1 : (lineProfile h w im l)[k]? = some (d, v)) (h2 : (lineProfile h w im' l)[k]? = some (d, v')) :
    (lineProfile h w (fun y x => a * im y x + b * im' y x + c) l)[k]? = some (d, a * v + b * v' + c) := by
  obtain ⟨hk, rfl, rfl⟩ := profile_get h1
  obtain ⟨-, -, rfl⟩ := profile_get h2
  unfold lineProfile
  rw [List.getElem?_map, List.getElem?_range hk, Option.map_some, interp_linear]

/-- **C169**: with noise of at most `ε` in the map the profile is at most `ε` off. -/
theorem C169_noise {h w : Nat} (hh : 0 < h) (hw : 0 < w) (im im' : Img ℝ) (ε : ℝ)
    (hε : ∀ i j : Int, 0 ≤ i ∧ i < w → 0 ≤ j ∧ j < h → |im j i - im' j i| ≤ ε) (l : ℝ × ℝ × ℝ × ℝ) (k : Nat)
    (d d' v v' : ℝ) (h1 : (lineProfile h w im l)[k]? = some (d, v))
    (h2 : (lineProfile h w im' l)[k]? = some (d', v')) : d = d' ∧ |v - v'| ≤ ε := by
  obtain ⟨hk, rfl, rfl⟩ := profile_get h1
  obtain ⟨-, rfl, rfl⟩ := profile_get h2
  refine ⟨rfl, ?_⟩
  have hlin := interp_linear h w im im' 1 (-1) 0 (profilePoint l k)
  have hb := (C96_values hh hw (fun y x => 1 * im y x + -1 * im' y x + 0)).2 (-ε) ε
    (fun i j hi hj => by have := abs_le.1 (hε i j hi hj); constructor <;> linarith [this.1, this.2]) (profilePoint l k)
  rw [hlin] at hb
  rw [abs_le]
  constructor <;> linarith [hb.1, hb.2]

/-- Linear interpolation between the values at integers. -/
theorem lin_steep {g : Int → ℝ} {D : ℝ} (hg : ∀ i, |g (i + 1) - g i| ≤ D) (x x' : ℝ) :
    |((1 - (x' - ⌊x'⌋)) * g ⌊x'⌋ + (x' - ⌊x'⌋) * g (⌊x'⌋ + 1)) - ((1 - (x - ⌊x⌋)) * g ⌊x⌋ + (x - ⌊x⌋) * g (⌊x⌋ + 1))|
      ≤ D * |x' - x| := by
  have hD : 0 ≤ D := le_trans (abs_nonneg _) (hg 0)
  have hsum : ∀ (m : Int) (n : Nat), |g (m + n) - g m| ≤ D * n := by
    intro m n
    induction n with
    | zero => simp
    | succ n ih =>
      have h1 := hg (m + n)
      have e : g (m + ((n + 1 : ℕ) : Int)) - g m = (g (m + n + 1) - g (m + n)) + (g (m + n) - g m) := by
        push_cast
        rw [← add_assoc]
        ring
      rw [e]
      refine le_trans (abs_add_le _ _) ?_
      push_cast
      linarith
  have key : ∀ x x' : ℝ, x ≤ x' → |((1 - (x' - ⌊x'⌋)) * g ⌊x'⌋ + (x' - ⌊x'⌋) * g (⌊x'⌋ + 1)) -
      ((1 - (x - ⌊x⌋)) * g ⌊x⌋ + (x - ⌊x⌋) * g (⌊x⌋ + 1))| ≤ D * (x' - x) := by
    intro x x' hx
    have f1 := Int.floor_le x
    have f2 := Int.lt_floor_add_one x
    have f3 := Int.floor_le x'
    have f4 := Int.lt_floor_add_one x'
    rcases (Int.floor_mono hx).lt_or_eq with hlt | heq
    · obtain ⟨n, hn⟩ : ∃ n : Nat, ⌊x'⌋ = ⌊x⌋ + 1 + n := ⟨(⌊x'⌋ - ⌊x⌋ - 1).toNat, by omega⟩
      have e : ((1 - (x' - ⌊x'⌋)) * g ⌊x'⌋ + (x' - ⌊x'⌋) * g (⌊x'⌋ + 1)) -
          ((1 - (x - ⌊x⌋)) * g ⌊x⌋ + (x - ⌊x⌋) * g (⌊x⌋ + 1)) =
          (x' - ⌊x'⌋) * (g (⌊x'⌋ + 1) - g ⌊x'⌋) + (g ⌊x'⌋ - g (⌊x⌋ + 1)) +
            (1 - (x - ⌊x⌋)) * (g (⌊x⌋ + 1) - g ⌊x⌋) := by ring
      rw [e]
      refine le_trans (abs_add_three _ _ _) ?_
      have h1 := hsum (⌊x⌋ + 1) n
      rw [← hn] at h1
      have a1 : |(x' - ⌊x'⌋) * (g (⌊x'⌋ + 1) - g ⌊x'⌋)| ≤ (x' - ⌊x'⌋) * D := by
        rw [abs_mul, abs_of_nonneg (by linarith)]
        exact mul_le_mul_of_nonneg_left (hg _) (by linarith)
      have a2 : |(1 - (x - ⌊x⌋)) * (g (⌊x⌋ + 1) - g ⌊x⌋)| ≤ (1 - (x - ⌊x⌋)) * D := by
        rw [abs_mul, abs_of_nonneg (by linarith)]
        exact mul_le_mul_of_nonneg_left (hg _) (by linarith)
      have hn' : (⌊x'⌋ : ℝ) = ⌊x⌋ + 1 + n := by exact_mod_cast hn
      have e2 : D * (x' - x) = (x' - ⌊x'⌋) * D + D * n + (1 - (x - ⌊x⌋)) * D := by rw [hn']; ring
      linarith
    · have e : ((1 - (x' - ⌊x'⌋)) * g ⌊x'⌋ + (x' - ⌊x'⌋) * g (⌊x'⌋ + 1)) -
          ((1 - (x - ⌊x⌋)) * g ⌊x⌋ + (x - ⌊x⌋) * g (⌊x⌋ + 1)) = (x' - x) * (g (⌊x'⌋ + 1) - g ⌊x'⌋) := by
        rw [heq]; ring
      rw [e, abs_mul, abs_of_nonneg (by linarith), mul_comm]
      exact mul_le_mul_of_nonneg_right (hg _) (by linarith)
  rcases le_total x x' with hx | hx
  · rw [abs_of_nonneg (show 0 ≤ x' - x by linarith)]
    exact key x x' hx
  · rw [abs_sub_comm, abs_sub_comm x' x, abs_of_nonneg (show 0 ≤ x - x' by linarith)]
    exact key x' x hx

theorem clamp_step (n : Nat) (hn : 0 < n) (i : Int) : clampIdx n (i + 1) = clampIdx n i ∨
    (clampIdx n (i + 1) = clampIdx n i + 1 ∧ 0 ≤ clampIdx n i ∧ clampIdx n i + 1 < n) := by
  unfold clampIdx
  omega

theorem clamp_range (n : Nat) (hn : 0 < n) (i : Int) : 0 ≤ clampIdx n i ∧ clampIdx n i < n := by
  unfold clampIdx
  omega

/-- Values of neighbouring pixels of a map that differ by at most `D`. -/
def Spec.Steps (h w : Nat) (im : Img ℝ) (D : ℝ) : Prop :=
  (∀ i j : Int, 0 ≤ i ∧ i + 1 < w → 0 ≤ j ∧ j < h → |im j (i + 1) - im j i| ≤ D) ∧
  ∀ i j : Int, 0 ≤ i ∧ i < w → 0 ≤ j ∧ j + 1 < h → |im (j + 1) i - im j i| ≤ D

theorem interp_steep {h w : Nat} (hh : 0 < h) (hw : 0 < w) {im : Img ℝ} {D : ℝ} (hD : 0 ≤ D) (hs : Steps h w im D)
    (p q : ℝ × ℝ) : |interp h w im q - interp h w im p| ≤ D * (|q.1 - p.1| + |q.2 - p.2|) := by
  have vx : ∀ j i : Int, |im (clampIdx h j) (clampIdx w (i + 1)) - im (clampIdx h j) (clampIdx w i)| ≤ D := by
    intro j i
    rcases clamp_step w hw i with h1 | ⟨h1, h2, h3⟩
    · rw [h1, sub_self, abs_zero]; exact hD
    · rw [h1]; exact hs.1 _ _ ⟨h2, h3⟩ (clamp_range h hh j)
  have vy : ∀ j i : Int, |im (clampIdx h (j + 1)) (clampIdx w i) - im (clampIdx h j) (clampIdx w i)| ≤ D := by
    intro j i
    rcases clamp_step h hh j with h1 | ⟨h1, h2, h3⟩
    · rw [h1, sub_self, abs_zero]; exact hD
    · rw [h1]; exact hs.2 _ _ (clamp_range w hw i) ⟨h2, h3⟩
  have mix : ∀ t a b : ℝ, 0 ≤ t → t ≤ 1 → |a| ≤ D → |b| ≤ D → |(1 - t) * a + t * b| ≤ D := by
    intro t a b h0 h1 ha hb
    refine le_trans (abs_add_le _ _) ?_
    rw [abs_mul, abs_mul, abs_of_nonneg h0, abs_of_nonneg (by linarith : 0 ≤ 1 - t)]
    have := mul_le_mul_of_nonneg_left ha (by linarith : 0 ≤ 1 - t)
    have := mul_le_mul_of_nonneg_left hb h0
    linarith
  have fr : ∀ x : ℝ, 0 ≤ x - ⌊x⌋ ∧ x - ⌊x⌋ ≤ 1 := fun x =>
    ⟨by linarith [Int.floor_le x], by linarith [Int.lt_floor_add_one x]⟩
  have h1 : |interp h w im (q.1, p.2) - interp h w im p| ≤ D * |q.1 - p.1| := by
    have hl := lin_steep (D := D) (g := fun i => (1 - (p.2 - ⌊p.2⌋)) * im (clampIdx h ⌊p.2⌋) (clampIdx w i) +
      (p.2 - ⌊p.2⌋) * im (clampIdx h (⌊p.2⌋ + 1)) (clampIdx w i)) (fun i => by
        have := mix (p.2 - ⌊p.2⌋) _ _ (fr p.2).1 (fr p.2).2 (vx ⌊p.2⌋ i) (vx (⌊p.2⌋ + 1) i)
        refine le_trans (le_of_eq ?_) this
        congr 1
        ring) p.1 q.1
    refine le_trans (le_of_eq ?_) hl
    unfold interp
    congr 1
    ring
  have h2 : |interp h w im q - interp h w im (q.1, p.2)| ≤ D * |q.2 - p.2| := by
    have hl := lin_steep (D := D) (g := fun j => (1 - (q.1 - ⌊q.1⌋)) * im (clampIdx h j) (clampIdx w ⌊q.1⌋) +
      (q.1 - ⌊q.1⌋) * im (clampIdx h j) (clampIdx w (⌊q.1⌋ + 1))) (fun j => by
        have := mix (q.1 - ⌊q.1⌋) _ _ (fr q.1).1 (fr q.1).2 (vy j ⌊q.1⌋) (vy j (⌊q.1⌋ + 1))
        refine le_trans (le_of_eq ?_) this
        congr 1
        ring) p.2 q.2
    exact hl
  have e : interp h w im q - interp h w im p
      = (interp h w im q - interp h w im (q.1, p.2)) + (interp h w im (q.1, p.2) - interp h w im p) := by ring
  rw [e]
  refine le_trans (abs_add_le _ _) ?_
  linarith

/-- **C169**: if the values of neighbouring pixels differ by at most `D`, a profile rises and falls by at most `√2 D` for
every pixel along the line. -/
theorem C169_steep {h w : Nat} (hh : 0 < h) (hw : 0 < w) (im : Img ℝ) (D : ℝ) (hD : 0 ≤ D) (hs : Steps h w im D)
    (l : ℝ × ℝ × ℝ × ℝ) (k k' : Nat) (d d' v v' : ℝ) (h1 : (lineProfile h w im l)[k]? = some (d, v))
    (h2 : (lineProfile h w im l)[k']? = some (d', v')) : |v' - v| ≤ Real.sqrt 2 * D * |d' - d| := by
  obtain ⟨hk, hd, hv⟩ := profile_get h1
  obtain ⟨hk', hd', hv'⟩ := profile_get h2
  obtain ⟨x0, y0, x1, y1⟩ := l
  rw [hv, hv']
  refine le_trans (interp_steep hh hw hD hs _ _) ?_
  have h0 : 0 ≤ lineLength (x0, y0, x1, y1) := Real.sqrt_nonneg _
  have hL2 : lineLength (x0, y0, x1, y1) ^ 2 = (y1 - y0) ^ 2 + (x1 - x0) ^ 2 := Real.sq_sqrt (by positivity)
  rcases Nat.lt_or_ge (profileCount (x0, y0, x1, y1)) 2 with hn | hn
  · have e : k' = k := by omega
    subst e
    rw [hd, hd']
    simp
  · simp only [profilePoint] at *
    rw [hd, hd', linspace_eq _ _ hn, linspace_eq _ _ hn, linspace_eq _ _ hn, linspace_eq _ _ hn, linspace_eq _ _ hn,
      linspace_eq _ _ hn]
    set L := lineLength (x0, y0, x1, y1) with hL
    set N : ℝ := (profileCount (x0, y0, x1, y1) : ℝ) - 1 with hN
    have e1 : x0 + k' / N * (x1 - x0) - (x0 + k / N * (x1 - x0)) = (k' / N - k / N) * (x1 - x0) := by ring
    have e2 : y0 + k' / N * (y1 - y0) - (y0 + k / N * (y1 - y0)) = (k' / N - k / N) * (y1 - y0) := by ring
    have e3 : 0 + k' / N * (L - 0) - (0 + k / N * (L - 0)) = (k' / N - k / N) * L := by ring
    rw [e1, e2, e3, abs_mul, abs_mul, abs_mul, abs_of_nonneg h0]
    have hsum : |x1 - x0| + |y1 - y0| ≤ Real.sqrt 2 * L := by
      refine le_trans (le_abs_self _) (abs_le_of_sq_le_sq (a := |x1 - x0| + |y1 - y0|) ?_ (by positivity))
      rw [mul_pow, Real.sq_sqrt (by norm_num), hL2]
      nlinarith [sq_abs (x1 - x0), sq_abs (y1 - y0), sq_nonneg (|x1 - x0| - |y1 - y0|)]
    have := mul_le_mul_of_nonneg_left hsum (mul_nonneg hD (abs_nonneg ((k' : ℝ) / N - k / N)))
    linarith

/-- A map with small steps, and noise. -/
example : Steps 3 4 (fun y x => (x : ℝ) / 2 + (y : ℝ) / 4) (1 / 2) ∧
    ∀ i j : Int, 0 ≤ i ∧ i < (4 : Nat) → 0 ≤ j ∧ j < (3 : Nat) →
      |((i : ℝ) / 2 + (j : ℝ) / 4) - ((i : ℝ) / 2 + (j : ℝ) / 4 + 1 / 8)| ≤ 1 / 8 := by
  refine ⟨⟨fun i j _ _ => ?_, fun i j _ _ => ?_⟩, fun i j _ _ => ?_⟩
  · push_cast
    rw [abs_le]
    constructor <;> linarith
  · push_cast
    rw [abs_le]
    constructor <;> linarith
  · rw [abs_le]
    constructor <;> linarith

end DefDAP
