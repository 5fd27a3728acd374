import Verif.Model.LineTool
import Mathlib.Tactic.Linarith
import Mathlib.Tactic.FieldSimp
import Mathlib.Tactic.Ring
import Mathlib.Tactic.Positivity

/-! # C96: drawing lines and profiles along them -/

namespace DefDAP

/-- The point pressed, for a press on the plot. -/
def Spec.pressed : LineEvent → Option (ℝ × ℝ)
  | .press true x y => some (x, y)
  | _ => none

/-- The last point pressed on the plot, if any. -/
def Spec.lastPress : List LineEvent → Option (ℝ × ℝ)
  | [] => none
  | e :: es => (Spec.lastPress es).or (Spec.pressed e)

/-- The lines of a session: one for each release on the plot that has a press before it, from the last
press to it. -/
inductive Spec.Lines : List LineEvent → List (ℝ × ℝ × ℝ × ℝ) → Prop
  | start : Spec.Lines [] []
  | line {es ls p x y} : Spec.Lines es ls → Spec.lastPress es = some p →
      Spec.Lines (es ++ [.release true x y]) (ls ++ [(p.1, p.2, x, y)])
  | early {es ls x y} : Spec.Lines es ls → Spec.lastPress es = none →
      Spec.Lines (es ++ [.release true x y]) ls
  | outside {es ls x y} : Spec.Lines es ls → Spec.Lines (es ++ [.release false x y]) ls
  | press {es ls b x y} : Spec.Lines es ls → Spec.Lines (es ++ [.press b x y]) ls

theorem lastPress_snoc (e : LineEvent) : ∀ es : List LineEvent, Spec.lastPress (es ++ [e]) =
    (Spec.pressed e).or (Spec.lastPress es)
  | [] => by simp [Spec.lastPress]
  | a :: es => by
    rw [List.cons_append, Spec.lastPress, lastPress_snoc e es, Spec.lastPress, Option.or_assoc]

theorem lineRun_snoc (e : LineEvent) : ∀ (es : List LineEvent) (st : LineSt),
    lineRun st (es ++ [e]) = match lineSlice (lineRun st es).1 e with
      | .error _ => lineRun st es
      | .ok (st', none) => (st', (lineRun st es).2)
      | .ok (st', some a) => (st', (lineRun st es).2 ++ [a])
  | [], st => by
    simp only [List.nil_append, lineRun]
    rcases lineSlice st e with _ | ⟨st', _ | a⟩ <;> rfl
  | x :: es, st => by
    rw [List.cons_append, lineRun, lineRun]
    rcases hx : lineSlice st x with _ | ⟨st', _ | a⟩
    · exact lineRun_snoc e es st
    · exact lineRun_snoc e es st'
    · simp only
      rw [lineRun_snoc e es st']
      rcases lineSlice (lineRun st' es).1 e with _ | ⟨st'', _ | b⟩ <;> rfl

/-- **C96**: in every session, the action is called once for each release on the plot that has a
press before it, with the line from the last press to the release, and the arrow shown is the last
of these lines. -/
theorem C96_lines {es : List LineEvent} {ls : List (ℝ × ℝ × ℝ × ℝ)} (h : Spec.Lines es ls) :
    (lineRun ⟨none, none⟩ es).2 = ls ∧ (lineRun ⟨none, none⟩ es).1.arrow = ls.getLast? ∧
      (lineRun ⟨none, none⟩ es).1.p1 = Spec.lastPress es := by
  induction h with
  | start => exact ⟨rfl, rfl, rfl⟩
  | @line es ls p x y _ hp ih =>
    rw [lineRun_snoc, lineSlice, ih.2.2, hp, lastPress_snoc]
    simp [ih.1, hp, Spec.pressed]
  | @early es ls x y _ hp ih =>
    rw [lineRun_snoc, lineSlice, ih.2.2, hp, lastPress_snoc]
    simp [ih.1, hp, ih.2.1, ih.2.2, Spec.pressed]
  | @outside es ls x y _ ih =>
    rw [lineRun_snoc, lineSlice, lastPress_snoc]
    simp [ih.1, ih.2.1, ih.2.2, Spec.pressed]
  | @press es ls b x y _ ih =>
    cases b
    · rw [lineRun_snoc, lineSlice, lastPress_snoc]
      simp [ih.1, ih.2.1, ih.2.2, Spec.pressed]
    · rw [lineRun_snoc, lineSlice, lastPress_snoc]
      simp [ih.1, ih.2.1, ih.2.2, Spec.pressed]

/-- **C96** fails for a drag that starts outside of the plot: if there was a line before, a new one is
drawn, from the start of the earlier one. -/
theorem C96_stale (es : List LineEvent) (ls : List (ℝ × ℝ × ℝ × ℝ)) (h : Spec.Lines es ls)
    (x0 y0 x1 y1 x y x' y' : ℝ) :
    (lineRun ⟨none, none⟩ (es ++ [.press true x0 y0] ++ [.release true x1 y1] ++ [.press false x y] ++
      [.release true x' y'])).2 = ls ++ [(x0, y0, x1, y1)] ++ [(x0, y0, x', y')] := by
  have h1 : Spec.Lines (es ++ [.press true x0 y0]) ls := .press h
  have h2 : Spec.Lines (es ++ [.press true x0 y0] ++ [.release true x1 y1]) (ls ++ [(x0, y0, x1, y1)]) :=
    .line (p := (x0, y0)) h1 (by rw [lastPress_snoc]; rfl)
  have h3 : Spec.Lines (es ++ [.press true x0 y0] ++ [.release true x1 y1] ++ [.press false x y])
      (ls ++ [(x0, y0, x1, y1)]) := .press h2
  exact (C96_lines (.line (p := (x0, y0)) (x := x') (y := y') h3
    (by rw [lastPress_snoc, lastPress_snoc, lastPress_snoc]; rfl))).1

/-! ### Profiles -/

/-- The distance of two points. -/
noncomputable def Spec.dist2 (p q : ℝ × ℝ) : ℝ := Real.sqrt ((p.1 - q.1) ^ 2 + (p.2 - q.2) ^ 2)

theorem profileCount_pos (l : ℝ × ℝ × ℝ × ℝ) : 1 ≤ profileCount l ∧
    lineLength l + 1 ≤ profileCount l ∧ (profileCount l : ℝ) < lineLength l + 2 := by
  have h0 : 0 ≤ lineLength l := Real.sqrt_nonneg _
  unfold profileCount
  have h1 : (1 : ℤ) ≤ ⌈lineLength l + 1⌉ := by
    rw [Int.one_le_ceil_iff]; linarith
  have h2 := Int.le_ceil (lineLength l + 1)
  have h3 := Int.ceil_lt_add_one (lineLength l + 1)
  have h4 : ((⌈lineLength l + 1⌉.toNat : Nat) : ℝ) = (⌈lineLength l + 1⌉ : ℝ) := by
    have : ((⌈lineLength l + 1⌉.toNat : Nat) : ℤ) = ⌈lineLength l + 1⌉ := Int.toNat_of_nonneg (by omega)
    exact_mod_cast this
  exact ⟨by omega, by rw [h4]; exact h2, by rw [h4]; linarith⟩

theorem linspace_eq (a b : ℝ) {n k : Nat} (hn : 2 ≤ n) :
    linspace a b n k = a + (k / ((n : ℝ) - 1)) * (b - a) := by
  unfold linspace
  rw [if_neg (by omega)]
  ring

/-- **C96**: the profile has a value at the start of the line and one at its end, at most one pixel
apart; the distance plotted with each value is the distance of its point from the start. -/
theorem C96_profile (h w : Nat) (im : Img ℝ) (l : ℝ × ℝ × ℝ × ℝ) :
    (lineProfile h w im l).length = profileCount l ∧ 1 ≤ profileCount l ∧
    profilePoint l 0 = (l.1, l.2.1) ∧
    (0 < lineLength l → profilePoint l (profileCount l - 1) = (l.2.2.1, l.2.2.2)) ∧
    (∀ k, k < profileCount l → ∃ d, (lineProfile h w im l)[k]? = some (d, interp h w im (profilePoint l k)) ∧
      d = Spec.dist2 (profilePoint l k) (l.1, l.2.1)) ∧
    ∀ k, k + 1 < profileCount l → Spec.dist2 (profilePoint l (k + 1)) (profilePoint l k) ≤ 1 := by
  obtain ⟨c1, c2, c3⟩ := profileCount_pos l
  have hlen : 0 ≤ lineLength l := Real.sqrt_nonneg _
  obtain ⟨x0, y0, x1, y1⟩ := l
  set n := profileCount (x0, y0, x1, y1) with hn
  have hd : ∀ a b s : ℝ, 0 ≤ s → Spec.dist2 (a + s * (x1 - x0), b + s * (y1 - y0)) (a, b) =
      s * lineLength (x0, y0, x1, y1) := by
    intro a b s hs
    unfold Spec.dist2 lineLength
    have e : (a + s * (x1 - x0) - a) ^ 2 + (b + s * (y1 - y0) - b) ^ 2 =
        s ^ 2 * ((y1 - y0) ^ 2 + (x1 - x0) ^ 2) := by ring
    simp only [e]
    rw [Real.sqrt_mul (sq_nonneg s), Real.sqrt_sq hs]
  refine ⟨by simp [lineProfile, ← hn], c1, ?_, ?_, ?_, ?_⟩
  · unfold profilePoint linspace
    simp
  · intro hp
    have h2 : 2 ≤ n := by
      by_contra hlt
      have : n = 1 := by omega
      rw [this] at c2
      norm_num at c2
      linarith
    unfold profilePoint
    rw [← hn, linspace_eq _ _ h2, linspace_eq _ _ h2]
    have hc : ((n - 1 : Nat) : ℝ) = (n : ℝ) - 1 := by push_cast [Nat.cast_sub c1]; ring
    have hne : (n : ℝ) - 1 ≠ 0 := by
      have : (2 : ℝ) ≤ n := by exact_mod_cast h2
      linarith
    rw [hc, div_self hne]
    simp
  · intro k hk
    refine ⟨linspace 0 (lineLength (x0, y0, x1, y1)) n k, by simp [lineProfile, ← hn, hk], ?_⟩
    by_cases h2 : 2 ≤ n
    · have hs : (0 : ℝ) ≤ k / ((n : ℝ) - 1) := by
        have : (2 : ℝ) ≤ n := by exact_mod_cast h2
        apply div_nonneg (by positivity); linarith
      unfold profilePoint
      rw [← hn, linspace_eq _ _ h2, linspace_eq _ _ h2, linspace_eq _ _ h2, hd x0 y0 _ hs]
      ring
    · have : n = 1 := by omega
      unfold profilePoint linspace Spec.dist2
      rw [← hn, this]
      simp
  · intro k hk
    have h2 : 2 ≤ n := by omega
    have h2' : (2 : ℝ) ≤ n := by exact_mod_cast h2
    have hpos : (0 : ℝ) < (n : ℝ) - 1 := by linarith
    unfold profilePoint
    rw [← hn, linspace_eq _ _ h2, linspace_eq _ _ h2, linspace_eq _ _ h2, linspace_eq _ _ h2]
    have e1 : ∀ a b : ℝ, a + ((k + 1 : Nat) : ℝ) / ((n : ℝ) - 1) * b =
        (a + (k : ℝ) / ((n : ℝ) - 1) * b) + 1 / ((n : ℝ) - 1) * b := by
      intro a b; push_cast; ring
    simp only [e1]
    rw [hd _ _ _ (by positivity), one_div, inv_mul_le_iff₀ hpos]
    linarith

theorem clampIdx_in {n : Nat} {i : Int} (h : 0 ≤ i ∧ i < n) : clampIdx n i = i := by
  unfold clampIdx; omega

/-- **C96**: a point of the profile that is the centre of a pixel has the value of the pixel, and the
profile lies between the least and the greatest value of the map. -/
theorem C96_values {h w : Nat} (hh : 0 < h) (hw : 0 < w) (im : Img ℝ) :
    (∀ i j : Int, 0 ≤ i ∧ i < w → 0 ≤ j ∧ j < h → interp h w im ((i : ℝ), (j : ℝ)) = im j i) ∧
    ∀ (lo hi : ℝ), (∀ i j : Int, 0 ≤ i ∧ i < w → 0 ≤ j ∧ j < h → lo ≤ im j i ∧ im j i ≤ hi) →
      ∀ p, lo ≤ interp h w im p ∧ interp h w im p ≤ hi := by
  refine ⟨fun i j hi hj => ?_, fun lo hi hb p => ?_⟩
  · unfold interp
    simp [clampIdx_in hi, clampIdx_in hj]
  · have hv : ∀ j i : Int, lo ≤ im (clampIdx h j) (clampIdx w i) ∧ im (clampIdx h j) (clampIdx w i) ≤ hi := by
      intro j i
      apply hb
      · unfold clampIdx; omega
      · unfold clampIdx; omega
    have s0 : 0 ≤ p.1 - ⌊p.1⌋ := by linarith [Int.floor_le p.1]
    have s1 : 0 ≤ 1 - (p.1 - ⌊p.1⌋) := by linarith [Int.lt_floor_add_one p.1]
    have t0 : 0 ≤ p.2 - ⌊p.2⌋ := by linarith [Int.floor_le p.2]
    have t1 : 0 ≤ 1 - (p.2 - ⌊p.2⌋) := by linarith [Int.lt_floor_add_one p.2]
    have mix : ∀ s a b : ℝ, 0 ≤ s → 0 ≤ 1 - s → (lo ≤ a ∧ a ≤ hi) → (lo ≤ b ∧ b ≤ hi) →
        lo ≤ (1 - s) * a + s * b ∧ (1 - s) * a + s * b ≤ hi := by
      intro s a b h0 h1 ha hb
      constructor
      · nlinarith [mul_le_mul_of_nonneg_left ha.1 h1, mul_le_mul_of_nonneg_left hb.1 h0]
      · nlinarith [mul_le_mul_of_nonneg_left ha.2 h1, mul_le_mul_of_nonneg_left hb.2 h0]
    unfold interp
    exact mix _ _ _ t0 t1 (mix _ _ _ s0 s1 (hv _ _) (hv _ _)) (mix _ _ _ s0 s1 (hv _ _) (hv _ _))

theorem clamp_mix {n : Nat} {i : Int} (h0 : 0 ≤ i) (h1 : i + 1 < n) {x : ℝ} (hx : (i : ℝ) ≤ x) (hx' : x ≤ i + 1)
    (f : Int → ℝ) :
    (1 - (x - ⌊x⌋)) * f (clampIdx n ⌊x⌋) + (x - ⌊x⌋) * f (clampIdx n (⌊x⌋ + 1)) =
      (1 - (x - i)) * f i + (x - i) * f (i + 1) := by
  rcases hx'.lt_or_eq with hlt | heq
  · have hf : ⌊x⌋ = i := Int.floor_eq_iff.2 ⟨hx, hlt⟩
    rw [hf, clampIdx_in ⟨h0, by omega⟩, clampIdx_in ⟨by omega, h1⟩]
  · have hf : ⌊x⌋ = i + 1 := by
      rw [heq]
      exact_mod_cast Int.floor_intCast (R := ℝ) (i + 1)
    rw [hf, clampIdx_in (i := i + 1) ⟨by omega, h1⟩, heq]
    push_cast
    ring

/-- The four pixels `(i, j)`, `(i + 1, j)`, `(i, j + 1)`, `(i + 1, j + 1)` of the map have the values of the
surface `a + b x + c y + e x y`. -/
def Spec.CellSurface (im : Img ℝ) (i j : Int) (a b c e : ℝ) : Prop :=
  ∀ di dj : Int, (di = 0 ∨ di = 1) → (dj = 0 ∨ dj = 1) →
    im (j + dj) (i + di) = a + b * ((i + di : Int) : ℝ) + c * ((j + dj : Int) : ℝ) +
      e * ((i + di : Int) : ℝ) * ((j + dj : Int) : ℝ)

/-- **C96**: what is plotted. The points of the profile divide the line equally, in parts of at most one
pixel and no more of them than needed; the distance plotted is that from the start of the line; the value
plotted is, at the centre of a pixel, that of the pixel, and between four pixels that of the surface
through their values. -/
theorem C96_line (h w : Nat) (im : Img ℝ) (x0 y0 x1 y1 : ℝ) :
    ∃ parts : Nat, (lineProfile h w im (x0, y0, x1, y1)).length = parts + 1 ∧
      Spec.dist2 (x1, y1) (x0, y0) ≤ parts ∧ (parts : ℝ) < Spec.dist2 (x1, y1) (x0, y0) + 1 ∧
      ∀ (k : Nat) (d v : ℝ), (lineProfile h w im (x0, y0, x1, y1))[k]? = some (d, v) →
        ∃ x y : ℝ, x = x0 + k / parts * (x1 - x0) ∧ y = y0 + k / parts * (y1 - y0) ∧
          d = k / parts * Spec.dist2 (x1, y1) (x0, y0) ∧
          (∀ i j : Int, 0 ≤ i ∧ i < w → 0 ≤ j ∧ j < h → x = i → y = j → v = im j i) ∧
          ∀ i j : Int, 0 ≤ i ∧ i + 1 < w → 0 ≤ j ∧ j + 1 < h → (i : ℝ) ≤ x ∧ x ≤ i + 1 →
            (j : ℝ) ≤ y ∧ y ≤ j + 1 → ∀ a b c e, Spec.CellSurface im i j a b c e →
              v = a + b * x + c * y + e * x * y := by
  have hlen : lineLength (x0, y0, x1, y1) = Spec.dist2 (x1, y1) (x0, y0) := by
    unfold lineLength Spec.dist2
    rw [add_comm]
  obtain ⟨c1, c2, c3⟩ := profileCount_pos (x0, y0, x1, y1)
  set n := profileCount (x0, y0, x1, y1) with hn
  obtain ⟨m, hm⟩ : ∃ m, n = m + 1 := ⟨n - 1, by omega⟩
  have hls : ∀ (a b : ℝ) (k : Nat), linspace a b n k = a + k / m * (b - a) := by
    intro a b k
    by_cases h2 : 2 ≤ n
    · rw [linspace_eq _ _ h2, hm]; push_cast; ring
    · have : m = 0 := by omega
      unfold linspace
      rw [if_pos (by omega), this]; simp
  rw [hm, hlen] at c2 c3
  push_cast at c2 c3
  refine ⟨m, by simp [lineProfile, ← hn, hm], by linarith, by linarith, fun k d v hk => ?_⟩
  have hk' : k < n := by
    have := (List.getElem?_eq_some_iff.1 hk).1
    simpa [lineProfile, ← hn] using this
  have hv : (linspace 0 (lineLength (x0, y0, x1, y1)) n k,
      interp h w im (profilePoint (x0, y0, x1, y1) k)) = (d, v) := by
    simpa [lineProfile, ← hn, hk'] using hk
  simp only [Prod.mk.injEq] at hv
  obtain ⟨hd, hv⟩ := hv
  have hp : profilePoint (x0, y0, x1, y1) k = (x0 + k / m * (x1 - x0), y0 + k / m * (y1 - y0)) := by
    unfold profilePoint
    rw [← hn, hls, hls]
  rw [hp] at hv
  refine ⟨_, _, rfl, rfl, by rw [← hd, hls, hlen]; ring, fun i j hi hj hx hy => ?_,
    fun i j hi hj hx hy a b c e hs => ?_⟩
  · rw [← hv, hx, hy]
    unfold interp
    simp [clampIdx_in hi, clampIdx_in hj]
  · rw [← hv]
    generalize x0 + k / m * (x1 - x0) = x at *
    generalize y0 + k / m * (y1 - y0) = y at *
    unfold interp
    simp only
    rw [clamp_mix hi.1 hi.2 hx.1 hx.2 (fun q => im (clampIdx h ⌊y⌋) q),
      clamp_mix hi.1 hi.2 hx.1 hx.2 (fun q => im (clampIdx h (⌊y⌋ + 1)) q)]
    rw [clamp_mix hj.1 hj.2 hy.1 hy.2 (fun q => (1 - (x - i)) * im q i + (x - i) * im q (i + 1))]
    have e00 := hs 0 0 (.inl rfl) (.inl rfl)
    have e10 := hs 1 0 (.inr rfl) (.inl rfl)
    have e01 := hs 0 1 (.inl rfl) (.inr rfl)
    have e11 := hs 1 1 (.inr rfl) (.inr rfl)
    simp only [add_zero] at e00 e10 e01 e11
    rw [e00, e10, e01, e11]
    push_cast
    ring

/-- Every four values are those of such a surface. -/
example : Spec.CellSurface (fun y x => if y = 0 ∧ x = 0 then 3 else 0) 0 0 3 (-3) (-3) 3 := by
  intro di dj h1 h2
  rcases h1 with rfl | rfl <;> rcases h2 with rfl | rfl <;> norm_num

/-- Along a row of pixels the profile is the row. -/
theorem C96_row {h w : Nat} (im : Img ℝ) {i j : Int} {n : Nat} (hi : 0 ≤ i ∧ i + n < w)
    (hj : 0 ≤ j ∧ j < h) :
    lineProfile h w im ((i : ℝ), (j : ℝ), ((i + n : Int) : ℝ), (j : ℝ)) =
      (List.range (n + 1)).map fun (k : Nat) => ((k : ℝ), im j (i + (k : Int))) := by
  have hl : lineLength ((i : ℝ), (j : ℝ), ((i + n : Int) : ℝ), (j : ℝ)) = n := by
    unfold lineLength
    push_cast
    rw [show ((j : ℝ) - j) ^ 2 + ((i : ℝ) + n - i) ^ 2 = (n : ℝ) ^ 2 by ring]
    exact Real.sqrt_sq (Nat.cast_nonneg n)
  have hc : profileCount ((i : ℝ), (j : ℝ), ((i + n : Int) : ℝ), (j : ℝ)) = n + 1 := by
    unfold profileCount
    rw [hl]
    have : ((n : ℝ) + 1) = ((n + 1 : Nat) : ℤ) := by push_cast; ring
    rw [this, Int.ceil_intCast]
    simp
  unfold lineProfile
  rw [hc, hl]
  apply List.map_congr_left
  intro k hk
  rw [List.mem_range] at hk
  have hp : profilePoint ((i : ℝ), (j : ℝ), ((i + n : Int) : ℝ), (j : ℝ)) k = (((i + k : Int) : ℝ), (j : ℝ)) := by
    unfold profilePoint linspace
    rw [hc]
    by_cases hn : n = 0
    · subst hn
      have : k = 0 := by omega
      subst this
      simp
    · have : ¬ n + 1 ≤ 1 := by omega
      have hn' : (n : ℝ) ≠ 0 := by exact_mod_cast hn
      rw [if_neg this, if_neg this]
      push_cast
      rw [show (i : ℝ) + n - i = n by ring, show (n : ℝ) + 1 - 1 = n by ring, div_self hn']
      simp
  have hx : linspace 0 (n : ℝ) (n + 1) k = k := by
    unfold linspace
    by_cases hn : n = 0
    · subst hn
      have : k = 0 := by omega
      subst this
      simp
    · have : ¬ n + 1 ≤ 1 := by omega
      have hn' : (n : ℝ) ≠ 0 := by exact_mod_cast hn
      rw [if_neg this]
      push_cast
      rw [show (n : ℝ) + 1 - 1 = n by ring, sub_zero, div_self hn']
      ring
  rw [hp, hx]
  congr 1
  unfold interp
  have h1 : clampIdx w (i + k) = i + k := clampIdx_in ⟨by omega, by omega⟩
  simp only [Int.floor_intCast, sub_self]
  rw [h1, clampIdx_in hj]
  ring

/-- Two drags, with a press outside of the plot in between that draws nothing. -/
example : Spec.Lines ([] ++ [.press true 0 0] ++ [.release true 3 4] ++ [.press false 9 9]) ([] ++ [(0, 0, 3, 4)]) :=
  .press (.line (p := (0, 0)) (.press .start) (by simp [Spec.lastPress, Spec.pressed]))

end DefDAP
