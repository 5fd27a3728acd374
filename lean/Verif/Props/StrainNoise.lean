import Verif.Props.StrainMaps

/-!
C155: how far noise, a single wrong displacement, a cut of the file and a slip step reach in the strain
maps of a DIC map.
-/

namespace DefDAP
open Matrix

/-- The two pixels are the same or next to each other in a row or column. -/
def Spec.Touching (i j i' j' : Int) : Prop := (i = i' ∧ |j - j'| ≤ 1) ∨ (j = j' ∧ |i - i'| ≤ 1)

theorem gradient1_local {n : Nat} (hn : 2 ≤ n) {h : ℝ} {f g : Int → ℝ} {i : Int} (h0 : 0 ≤ i) (h1 : i < n)
    (hfg : ∀ k : Int, 0 ≤ k → k < n → |i - k| ≤ 1 → f k = g k) : gradient1 n h f i = gradient1 n h g i := by
  have hk : ∀ k : Int, 0 ≤ k → k < n → i - k ≤ 1 → k - i ≤ 1 → f k = g k := fun k a b c d =>
    hfg k a b (abs_le.2 ⟨by omega, c⟩)
  unfold gradient1
  split_ifs
  · rw [hk 1 (by omega) (by omega) (by omega) (by omega), hk 0 (by omega) (by omega) (by omega) (by omega)]
  · rw [hk (n - 1) (by omega) (by omega) (by omega) (by omega),
      hk (n - 2) (by omega) (by omega) (by omega) (by omega)]
  · rw [hk (i + 1) (by omega) (by omega) (by omega) (by omega),
      hk (i - 1) (by omega) (by omega) (by omega) (by omega)]

theorem strainMaps_ok {rows cols : Nat} (hr : 2 ≤ rows) (hc : 2 ≤ cols) (h : ℝ) (u : Fin 2 → Int → Int → ℝ) :
    ∃ m, strainMaps rows cols h u = .ok m ∧ ∀ i j,
      m.f i j 0 0 = gradient1 cols h (fun c => u 0 i c) j + 1 ∧
      m.f i j 0 1 = gradient1 rows h (fun r => u 0 r j) i ∧
      m.f i j 1 0 = gradient1 cols h (fun c => u 1 i c) j ∧
      m.f i j 1 1 = gradient1 rows h (fun r => u 1 r j) i + 1 ∧
      m.e i j = greenStrain (m.f i j) ∧ m.maxShear i j = maxShear (m.e i j) := by
  obtain ⟨f, hf, hv⟩ := defgrad_ok rows cols h u hr hc
  refine ⟨strainsOf f, by rw [strainMaps, hf]; rfl, fun i j => ?_⟩
  obtain ⟨a, b, c, d⟩ := hv i j
  exact ⟨a, b, c, d, rfl, rfl⟩

theorem same_maps {m m' : StrainMaps} {i j i' j' : Int} (he : m.e i j = greenStrain (m.f i j))
    (he' : m'.e i' j' = greenStrain (m'.f i' j')) (hs : m.maxShear i j = maxShear (m.e i j))
    (hs' : m'.maxShear i' j' = maxShear (m'.e i' j')) (h00 : m.f i j 0 0 = m'.f i' j' 0 0)
    (h01 : m.f i j 0 1 = m'.f i' j' 0 1) (h10 : m.f i j 1 0 = m'.f i' j' 1 0)
    (h11 : m.f i j 1 1 = m'.f i' j' 1 1) :
    m.f i j = m'.f i' j' ∧ m.e i j = m'.e i' j' ∧ m.maxShear i j = m'.maxShear i' j' := by
  have hf : m.f i j = m'.f i' j' := by
    ext a b
    fin_cases a <;> fin_cases b <;> assumption
  have hE : m.e i j = m'.e i' j' := by rw [he, he', hf]
  exact ⟨hf, hE, by rw [hs, hs', hE]⟩

variable {rows cols : Nat} {h : ℝ} {u v : Fin 2 → Int → Int → ℝ}

/-- **C155** The maps at a pixel depend on the displacements of the pixel and its four neighbours only: a
wrong displacement spoils at most five pixels. -/
theorem C155_local (hr : 2 ≤ rows) (hc : 2 ≤ cols) (h : ℝ) (u v : Fin 2 → Int → Int → ℝ) :
    ∃ m m', strainMaps rows cols h u = .ok m ∧ strainMaps rows cols h v = .ok m' ∧
      ∀ i j, Spec.InGrid rows cols i j →
        (∀ i' j', Spec.InGrid rows cols i' j' → Spec.Touching i j i' j' → ∀ c, u c i' j' = v c i' j') →
        m.f i j = m'.f i j ∧ m.e i j = m'.e i j ∧ m.maxShear i j = m'.maxShear i j := by
  obtain ⟨m, hm, hv⟩ := strainMaps_ok hr hc h u
  obtain ⟨m', hm', hv'⟩ := strainMaps_ok hr hc h v
  refine ⟨m, m', hm, hm', fun i j hg hs => ?_⟩
  obtain ⟨a00, a01, a10, a11, ae, as⟩ := hv i j
  obtain ⟨b00, b01, b10, b11, be, bs⟩ := hv' i j
  have gx : ∀ c, gradient1 cols h (fun x => u c i x) j = gradient1 cols h (fun x => v c i x) j := fun c =>
    gradient1_local hc hg.2.2.1 hg.2.2.2 fun k p q r =>
      hs i k ⟨hg.1, hg.2.1, p, q⟩ (Or.inl ⟨rfl, r⟩) c
  have gy : ∀ c, gradient1 rows h (fun x => u c x j) i = gradient1 rows h (fun x => v c x j) i := fun c =>
    gradient1_local hr hg.1 hg.2.1 fun k p q r =>
      hs k j ⟨p, q, hg.2.2.1, hg.2.2.2⟩ (Or.inr ⟨rfl, r⟩) c
  exact same_maps ae be as bs (by rw [a00, b00, gx]) (by rw [a01, b01, gy]) (by rw [a10, b10, gx])
    (by rw [a11, b11, gy])

theorem gradient1_noise {n : Nat} (hn : 2 ≤ n) {h ε : ℝ} (hh : 0 < h) {f g : Int → ℝ} {i : Int} (h0 : 0 ≤ i)
    (h1 : i < n) (hfg : ∀ k : Int, 0 ≤ k → k < n → |f k - g k| ≤ ε) :
    |gradient1 n h f i - gradient1 n h g i| ≤ 2 * ε / h ∧
      (0 < i → i < n - 1 → |gradient1 n h f i - gradient1 n h g i| ≤ ε / h) := by
  have pair : ∀ a b : Int, 0 ≤ a → a < n → 0 ≤ b → b < n → |(f a - f b) - (g a - g b)| ≤ 2 * ε := by
    intro a b p q r s
    have x := abs_le.1 (hfg a p q)
    have y := abs_le.1 (hfg b r s)
    rw [abs_le]
    constructor <;> linarith
  have hε : 0 ≤ ε := (abs_nonneg _).trans (hfg i h0 h1)
  have edge : ∀ a b : Int, 0 ≤ a → a < n → 0 ≤ b → b < n →
      |(f a - f b) / h - (g a - g b) / h| ≤ 2 * ε / h := by
    intro a b p q r s
    rw [← sub_div, abs_div, abs_of_pos hh]
    exact div_le_div_of_nonneg_right (pair a b p q r s) hh.le
  have mid : ∀ a b : Int, 0 ≤ a → a < n → 0 ≤ b → b < n →
      |(f a - f b) / (2 * h) - (g a - g b) / (2 * h)| ≤ ε / h := by
    intro a b p q r s
    rw [← sub_div, abs_div, abs_of_pos (by linarith : (0 : ℝ) < 2 * h)]
    rw [show ε / h = 2 * ε / (2 * h) by field_simp]
    exact div_le_div_of_nonneg_right (pair a b p q r s) (by linarith)
  have hle : ε / h ≤ 2 * ε / h := div_le_div_of_nonneg_right (by linarith) hh.le
  unfold gradient1
  split_ifs with p q
  · exact ⟨edge 1 0 (by omega) (by omega) (by omega) (by omega), fun r => by omega⟩
  · exact ⟨edge _ _ (by omega) (by omega) (by omega) (by omega), fun _ r => by omega⟩
  · have := mid (i + 1) (i - 1) (by omega) (by omega) (by omega) (by omega)
    exact ⟨this.trans hle, fun _ _ => this⟩

/-- **C155** Displacements that differ by at most `ε` give derivatives that differ by at most `2 ε` over
the binning, and by half of it away from the ends of rows and columns. -/
theorem C155_noise (hr : 2 ≤ rows) (hc : 2 ≤ cols) (hh : 0 < h) (ε : ℝ)
    (hε : ∀ c i j, Spec.InGrid rows cols i j → |u c i j - v c i j| ≤ ε) :
    ∃ m m', strainMaps rows cols h u = .ok m ∧ strainMaps rows cols h v = .ok m' ∧
      ∀ i j, Spec.InGrid rows cols i j → ∀ c x,
        |m.f i j c x - m'.f i j c x| ≤ 2 * ε / h ∧
        (Spec.Inside rows cols i j x → |m.f i j c x - m'.f i j c x| ≤ ε / h) := by
  obtain ⟨m, hm, hv⟩ := strainMaps_ok hr hc h u
  obtain ⟨m', hm', hv'⟩ := strainMaps_ok hr hc h v
  refine ⟨m, m', hm, hm', fun i j hg c x => ?_⟩
  obtain ⟨a00, a01, a10, a11, -⟩ := hv i j
  obtain ⟨b00, b01, b10, b11, -⟩ := hv' i j
  have gx := fun c => gradient1_noise hc hh hg.2.2.1 hg.2.2.2 (f := fun x => u c i x) (g := fun x => v c i x)
    (ε := ε) fun k p q => hε c i k ⟨hg.1, hg.2.1, p, q⟩
  have gy := fun c => gradient1_noise hr hh hg.1 hg.2.1 (f := fun x => u c x j) (g := fun x => v c x j)
    (ε := ε) fun k p q => hε c k j ⟨p, q, hg.2.2.1, hg.2.2.2⟩
  fin_cases c <;> fin_cases x
  · simpa [a00, b00, Spec.Inside] using gx 0
  · simpa [a01, b01, Spec.Inside] using gy 0
  · simpa [a10, b10, Spec.Inside] using gx 1
  · simpa [a11, b11, Spec.Inside] using gy 1

theorem shear_triangle (a b c d : ℝ) :
    |Real.sqrt (a ^ 2 + b ^ 2) - Real.sqrt (c ^ 2 + d ^ 2)| ≤ Real.sqrt ((a - c) ^ 2 + (b - d) ^ 2) := by
  have tri : ∀ a b c d : ℝ, Real.sqrt (a ^ 2 + b ^ 2) ≤
      Real.sqrt (c ^ 2 + d ^ 2) + Real.sqrt ((a - c) ^ 2 + (b - d) ^ 2) := by
    intro a b c d
    have h1 := Real.sqrt_nonneg (c ^ 2 + d ^ 2)
    have h2 := Real.sqrt_nonneg ((a - c) ^ 2 + (b - d) ^ 2)
    refine Real.sqrt_le_iff.2 ⟨by linarith, ?_⟩
    have e1 := Real.sq_sqrt (show 0 ≤ c ^ 2 + d ^ 2 by positivity)
    have e2 := Real.sq_sqrt (show 0 ≤ (a - c) ^ 2 + (b - d) ^ 2 by positivity)
    have cs : c * (a - c) + d * (b - d) ≤
        Real.sqrt (c ^ 2 + d ^ 2) * Real.sqrt ((a - c) ^ 2 + (b - d) ^ 2) := by
      rw [← Real.sqrt_mul (by positivity)]
      refine Real.le_sqrt_of_sq_le ?_
      nlinarith [sq_nonneg (c * (b - d) - d * (a - c))]
    nlinarith
  rw [abs_le]
  constructor
  · have := tri c d a b
    rw [show (c - a) ^ 2 + (d - b) ^ 2 = (a - c) ^ 2 + (b - d) ^ 2 by ring] at this
    linarith
  · linarith [tri a b c d]

/-- **C155** The strains follow the deformation gradient: if the entries of two gradients are at most `M`
in size and differ by at most `δ`, the strains differ by at most `2 M δ` and the maximum shears by at most
`3 M δ`. -/
theorem C155_strain (F G : Matrix (Fin 2) (Fin 2) ℝ) (M δ : ℝ) (hF : ∀ c x, |F c x| ≤ M)
    (hG : ∀ c x, |G c x| ≤ M) (hd : ∀ c x, |F c x - G c x| ≤ δ) :
    (∀ c x, |greenStrain F c x - greenStrain G c x| ≤ 2 * M * δ) ∧
    |maxShear (greenStrain F) - maxShear (greenStrain G)| ≤ 3 * M * δ := by
  have hM : 0 ≤ M := (abs_nonneg _).trans (hF 0 0)
  have hδ : 0 ≤ δ := (abs_nonneg _).trans (hd 0 0)
  have prod : ∀ k x y, |F k x * F k y - G k x * G k y| ≤ 2 * M * δ := by
    intro k x y
    rw [show F k x * F k y - G k x * G k y = F k x * (F k y - G k y) + (F k x - G k x) * G k y by ring]
    refine (abs_add_le _ _).trans ?_
    rw [abs_mul, abs_mul]
    have h1 := mul_le_mul (hF k x) (hd k y) (abs_nonneg _) hM
    have h2 := mul_le_mul (hd k x) (hG k y) (abs_nonneg _) hδ
    linarith
  have hE : ∀ c x, |greenStrain F c x - greenStrain G c x| ≤ 2 * M * δ := by
    intro c x
    have e : greenStrain F c x - greenStrain G c x =
        1 / 2 * ((F 0 c * F 0 x - G 0 c * G 0 x) + (F 1 c * F 1 x - G 1 c * G 1 x)) := by
      unfold greenStrain
      simp only [Fin.sum_univ_two]
      split_ifs <;> ring
    rw [e, abs_mul, abs_of_pos (by norm_num : (0 : ℝ) < 1 / 2)]
    have := abs_add_le (F 0 c * F 0 x - G 0 c * G 0 x) (F 1 c * F 1 x - G 1 c * G 1 x)
    have h1 := prod 0 c x
    have h2 := prod 1 c x
    linarith
  refine ⟨hE, ?_⟩
  unfold maxShear
  refine (shear_triangle _ _ _ _).trans ?_
  refine Real.sqrt_le_iff.2 ⟨by positivity, ?_⟩
  have e00 := abs_le.1 (hE 0 0)
  have e11 := abs_le.1 (hE 1 1)
  have e01 := abs_le.1 (hE 0 1)
  have s1 : ((greenStrain F 0 0 - greenStrain F 1 1) / 2 - (greenStrain G 0 0 - greenStrain G 1 1) / 2) ^ 2 ≤
      (2 * M * δ) ^ 2 := sq_le_sq' (by linarith) (by linarith)
  have s2 : (greenStrain F 0 1 - greenStrain G 0 1) ^ 2 ≤ (2 * M * δ) ^ 2 := sq_le_sq' e01.1 e01.2
  nlinarith [mul_nonneg hM hδ, sq_nonneg (M * δ)]

theorem gradient1_window {n n' : Nat} (hn' : 2 ≤ n') {s : Int} (h : ℝ) {f g : Int → ℝ}
    (hs : 0 ≤ s) (hfit : s + n' ≤ n) (hfg : ∀ k : Int, 0 ≤ k → k < n' → g k = f (k + s)) {i : Int}
    (h0 : 0 ≤ i) (h1 : i < n') (hl : s = 0 ∨ 0 < i) (hr : s + n' = n ∨ i < n' - 1) :
    gradient1 n' h g i = gradient1 n h f (i + s) := by
  unfold gradient1
  by_cases a : i = 0
  · have e : s = 0 := by omega
    subst e a
    simp [hfg 1 (by omega) (by omega), hfg 0 (by omega) (by omega)]
  · rw [if_neg a, if_neg (show ¬i + s = 0 by omega)]
    by_cases b : i = n' - 1
    · rw [if_pos b, if_pos (show i + s = n - 1 by omega), hfg _ (by omega) (by omega), hfg _ (by omega) (by omega)]
      congr 3
      · omega
      · omega
    · rw [if_neg b, if_neg (show ¬i + s = n - 1 by omega), hfg _ (by omega) (by omega), hfg _ (by omega) (by omega)]
      rw [show i + 1 + s = i + s + 1 by ring, show i - 1 + s = i + s - 1 by ring]

/-- **C155** A file with a rectangular part of the displacements gives the same maps as the whole file at
every pixel that is not on an edge where something was cut off. -/
theorem C155_part (hr : 2 ≤ rows) (hc : 2 ≤ cols) (h : ℝ) (u v : Fin 2 → Int → Int → ℝ) (rows' cols' : Nat)
    (hr' : 2 ≤ rows') (hc' : 2 ≤ cols') (top left : Int) (ht : 0 ≤ top) (hl : 0 ≤ left)
    (hb : top + rows' ≤ rows) (hri : left + cols' ≤ cols)
    (hv : ∀ c i j, Spec.InGrid rows' cols' i j → v c i j = u c (i + top) (j + left)) :
    ∃ m m', strainMaps rows cols h u = .ok m ∧ strainMaps rows' cols' h v = .ok m' ∧
      ∀ i j, Spec.InGrid rows' cols' i j → (top = 0 ∨ 0 < i) → (top + rows' = rows ∨ i < rows' - 1) →
        (left = 0 ∨ 0 < j) → (left + cols' = cols ∨ j < cols' - 1) →
        m'.f i j = m.f (i + top) (j + left) ∧ m'.e i j = m.e (i + top) (j + left) ∧
          m'.maxShear i j = m.maxShear (i + top) (j + left) := by
  obtain ⟨m, hm, hu⟩ := strainMaps_ok hr hc h u
  obtain ⟨m', hm', hv'⟩ := strainMaps_ok hr' hc' h v
  refine ⟨m, m', hm, hm', fun i j hg p1 p2 p3 p4 => ?_⟩
  obtain ⟨a00, a01, a10, a11, ae, as⟩ := hu (i + top) (j + left)
  obtain ⟨b00, b01, b10, b11, be, bs⟩ := hv' i j
  have gx : ∀ c, gradient1 cols' h (fun x => v c i x) j =
      gradient1 cols h (fun x => u c (i + top) x) (j + left) := fun c =>
    gradient1_window hc' h hl hri (fun k p q => hv c i k ⟨hg.1, hg.2.1, p, q⟩) hg.2.2.1 hg.2.2.2 p3 p4
  have gy : ∀ c, gradient1 rows' h (fun x => v c x j) i =
      gradient1 rows h (fun x => u c x (j + left)) (i + top) := fun c =>
    gradient1_window hr' h ht hb (fun k p q => hv c k j ⟨p, q, hg.2.2.1, hg.2.2.2⟩) hg.1 hg.2.1 p1 p2
  exact same_maps be ae bs as (by rw [a00, b00, gx]) (by rw [a01, b01, gy]) (by rw [a10, b10, gx])
    (by rw [a11, b11, gy])

/-- The displacements of a slip step: everything from column `k` on is moved by `d`. -/
def Spec.slipStep (k : Int) (d : Fin 2 → ℝ) (c : Fin 2) (_ j : Int) : ℝ := if k ≤ j then d c else 0

/-- **C155** A slip step between two columns shows in exactly these two columns, as a gradient of the step
over twice the binning. For a step along the columns the maximum shear there is half of this gradient times
the square root of one plus a quarter of its square. -/
theorem C155_step (hr : 2 ≤ rows) (hc : 2 ≤ cols) (h : ℝ) (k : Int) (h2 : 2 ≤ k) (hk : k ≤ cols - 2)
    (d : Fin 2 → ℝ) :
    ∃ m, strainMaps rows cols h (Spec.slipStep k d) = .ok m ∧
      ∀ i j, Spec.InGrid rows cols i j →
        (j = k - 1 ∨ j = k → m.f i j = !![1 + d 0 / (2 * h), 0; d 1 / (2 * h), 1] ∧
          (d 0 = 0 → m.maxShear i j =
            |d 1 / (2 * h)| / 2 * Real.sqrt (1 + (d 1 / (2 * h)) ^ 2 / 4))) ∧
        (¬(j = k - 1 ∨ j = k) → m.f i j = 1 ∧ m.e i j = 0 ∧ m.maxShear i j = 0) := by
  obtain ⟨m, hm, hv⟩ := strainMaps_ok hr hc h (Spec.slipStep k d)
  refine ⟨m, hm, fun i j hg => ?_⟩
  obtain ⟨a00, a01, a10, a11, ae, as⟩ := hv i j
  obtain ⟨-, -, j0, j1⟩ := hg
  have gy : ∀ c, gradient1 rows h (fun x => Spec.slipStep k d c x j) i = 0 := by
    intro c
    simp [gradient1, Spec.slipStep]
  constructor
  · intro hj
    have gx : ∀ c, gradient1 cols h (fun x => Spec.slipStep k d c i x) j = d c / (2 * h) := by
      intro c
      unfold gradient1 Spec.slipStep
      rw [if_neg (by omega), if_neg (by omega)]
      beta_reduce
      rw [if_pos (by omega), if_neg (by omega), sub_zero]
    have hf : m.f i j = !![1 + d 0 / (2 * h), 0; d 1 / (2 * h), 1] := by
      ext a b
      fin_cases a <;> fin_cases b <;> simp [a00, a01, a10, a11, gx, gy] <;> ring
    refine ⟨hf, fun hd => ?_⟩
    rw [as, ae, hf, hd]
    set g := d 1 / (2 * h)
    have e00 : greenStrain !![1 + 0 / (2 * h), 0; g, 1] 0 0 = g ^ 2 / 2 := by
      simp [greenStrain, Fin.sum_univ_two]; ring
    have e11 : greenStrain !![1 + 0 / (2 * h), 0; g, 1] 1 1 = 0 := by
      simp [greenStrain, Fin.sum_univ_two]
    have e01 : greenStrain !![1 + 0 / (2 * h), 0; g, 1] 0 1 = g / 2 := by
      simp [greenStrain, Fin.sum_univ_two]; ring
    unfold maxShear
    rw [e00, e11, e01, show ((g ^ 2 / 2 - 0) / 2) ^ 2 + (g / 2) ^ 2 = (g / 2) ^ 2 * (1 + g ^ 2 / 4) by ring,
      Real.sqrt_mul (sq_nonneg _), Real.sqrt_sq_eq_abs, abs_div]
    norm_num
  · intro hj
    have gx : ∀ c, gradient1 cols h (fun x => Spec.slipStep k d c i x) j = 0 := by
      intro c
      unfold gradient1 Spec.slipStep
      beta_reduce
      split_ifs <;> first | omega | simp
    have hf : m.f i j = 1 := by
      ext a b
      fin_cases a <;> fin_cases b <;> simp [a00, a01, a10, a11, gx, gy]
    have he : m.e i j = 0 := by
      rw [ae, hf, C61_green]
      simp [Spec.green]
    refine ⟨hf, he, ?_⟩
    rw [as, he]
    simp [maxShear]

/-- A step of one pixel along the columns, between columns 2 and 3 of a map of 2 by 6 pixels with a binning
of 4: displacements that do differ, in a map large enough. -/
example : (2 : Int) ≤ 3 ∧ (3 : Int) ≤ (6 : Nat) - 2 ∧ Spec.slipStep 3 ![0, 1] 1 0 3 ≠ Spec.slipStep 3 ![0, 1] 1 0 2 ∧
    Spec.Touching 0 2 0 3 ∧ ¬Spec.Touching 0 2 0 4 := by
  refine ⟨by norm_num, by norm_num, by simp [Spec.slipStep], Or.inl ⟨rfl, by norm_num⟩, ?_⟩
  simp [Spec.Touching]

end DefDAP
