import Verif.Props.SlipSymmetry
import Verif.Props.EquivIdc

/-!
C150: how large the largest Schmid factor of a crystal is, over all orientations and loads.
-/

namespace DefDAP

open Quat Matrix

/-- The files with the twelve slip systems of close packed planes and directions of cubic crystals. -/
def Spec.twelveFiles : List SlipFile := [fccFile, fccDamaskFile, bcc110File]

/-- The product of the components of a vector along plane normal and slip direction, from indices. -/
def rowProd (v : Fin 3 → ℝ) (row : List Int) : ℝ :=
  (row.getD 0 0 * v 0 + row.getD 1 0 * v 1 + row.getD 2 0 * v 2) *
    (row.getD 3 0 * v 0 + row.getD 4 0 * v 1 + row.getD 5 0 * v 2)

theorem twelve_bound (x y z s : ℝ) (hs : s = 2 / 3 * (x * x + y * y + z * z))
    (h1 : |(x + y + z) * (y - z)| < s) (h2 : |(x + y + z) * (z - x)| < s)
    (h3 : |(x + y + z) * (x - y)| < s) (h4 : |(x + y - z) * (y + z)| < s)
    (h5 : |(x + y - z) * (x + z)| < s) (h6 : |(x + y - z) * (x - y)| < s)
    (h7 : |(y + z - x) * (y - z)| < s) (h8 : |(y + z - x) * (x + z)| < s)
    (h9 : |(y + z - x) * (x + y)| < s) (h10 : |(x - y + z) * (y + z)| < s)
    (h11 : |(x - y + z) * (z - x)| < s) (h12 : |(x - y + z) * (x + y)| < s) : False := by
  rw [abs_lt] at h1 h2 h3 h4 h5 h6 h7 h8 h9 h10 h11 h12
  have key : ∀ a b c : ℝ, 0 ≤ c → c ≤ b → b ≤ a →
      2 / 3 * (a * a + b * b + c * c) ≤ (a + b - c) * (a + c) := by
    intro a b c hc hb ha
    nlinarith [mul_nonneg hc hc, mul_nonneg hc (sub_nonneg.mpr hb), mul_nonneg hc (sub_nonneg.mpr ha),
      mul_nonneg (sub_nonneg.mpr hb) (sub_nonneg.mpr ha), mul_self_nonneg (b - c),
      mul_self_nonneg (a - b)]
  have key' : ∀ a b c : ℝ, 0 ≤ a → 0 ≤ b → 0 ≤ c →
      s = 2 / 3 * (a * a + b * b + c * c) →
      (a + b - c) * (a + c) < s → (a + b - c) * (b + c) < s → (a - b + c) * (a + b) < s →
      (a - b + c) * (b + c) < s → (b + c - a) * (a + b) < s → (b + c - a) * (a + c) < s → False := by
    intro a b c ha hb hc e k1 k2 k3 k4 k5 k6
    rcases le_total a b with u | u <;> rcases le_total b c with v | v <;>
      rcases le_total a c with w | w
    · linarith [key c b a ha u v]
    · linarith [key c b a ha u v]
    · linarith [key b c a ha w v]
    · linarith [key b a c hc w u]
    · linarith [key c a b hb u w]
    · linarith [key a c b hb v w]
    · linarith [key a b c hc v u]
    · linarith [key a b c hc v u]
  rcases le_total 0 x with hx | hx <;> rcases le_total 0 y with hy | hy <;>
    rcases le_total 0 z with hz | hz
  · exact key' x y z hx hy hz hs (by linarith) (by linarith) (by linarith) (by linarith) (by linarith) (by linarith)
  · exact key' x y (-z) hx hy (by linarith) (by linarith) (by linarith) (by linarith) (by linarith) (by linarith) (by linarith) (by linarith)
  · exact key' x (-y) z hx (by linarith) hz (by linarith) (by linarith) (by linarith) (by linarith) (by linarith) (by linarith) (by linarith)
  · exact key' x (-y) (-z) hx (by linarith) (by linarith) (by linarith) (by linarith) (by linarith) (by linarith) (by linarith) (by linarith) (by linarith)
  · exact key' (-x) y z (by linarith) hy hz (by linarith) (by linarith) (by linarith) (by linarith) (by linarith) (by linarith) (by linarith)
  · exact key' (-x) y (-z) (by linarith) hy (by linarith) (by linarith) (by linarith) (by linarith) (by linarith) (by linarith) (by linarith) (by linarith)
  · exact key' (-x) (-y) z (by linarith) (by linarith) hz (by linarith) (by linarith) (by linarith) (by linarith) (by linarith) (by linarith) (by linarith)
  · exact key' (-x) (-y) (-z) (by linarith) (by linarith) (by linarith) (by linarith) (by linarith) (by linarith) (by linarith) (by linarith) (by linarith) (by linarith)

/-- One of the twelve products is large. -/
theorem twelve_row (file : SlipFile) (hf : file ∈ Spec.twelveFiles) (v : Fin 3 → ℝ) :
    ∃ row ∈ file.rows, 2 / 3 * (v ⬝ᵥ v) ≤ |rowProd v row| := by
  by_contra hno
  push Not at hno
  have hs : 2 / 3 * (v ⬝ᵥ v) = 2 / 3 * (v 0 * v 0 + v 1 * v 1 + v 2 * v 2) := by
    simp [dotProduct, Fin.sum_univ_three]
  simp only [Spec.twelveFiles, List.mem_cons, List.not_mem_nil, or_false] at hf
  have flip : ∀ (a b s : ℝ), |a| < s → (b = a ∨ b = -a) → |b| < s := by
    rintro a b s h (rfl | rfl)
    · exact h
    · rwa [abs_neg]
  rcases hf with rfl | rfl | rfl
  · refine twelve_bound (v 0) (v 1) (v 2) _ hs ?_ ?_ ?_ ?_ ?_ ?_ ?_ ?_ ?_ ?_ ?_ ?_
    · exact flip _ _ _ (hno [1, 1, 1, 0, 1, -1] (by decide)) (Or.inl (by
        simp only [rowProd, List.getD_cons_zero, List.getD_cons_succ]; push_cast; ring))
    · exact flip _ _ _ (hno [1, 1, 1, -1, 0, 1] (by decide)) (Or.inl (by
        simp only [rowProd, List.getD_cons_zero, List.getD_cons_succ]; push_cast; ring))
    · exact flip _ _ _ (hno [1, 1, 1, 1, -1, 0] (by decide)) (Or.inl (by
        simp only [rowProd, List.getD_cons_zero, List.getD_cons_succ]; push_cast; ring))
    · exact flip _ _ _ (hno [1, 1, -1, 0, 1, 1] (by decide)) (Or.inl (by
        simp only [rowProd, List.getD_cons_zero, List.getD_cons_succ]; push_cast; ring))
    · exact flip _ _ _ (hno [1, 1, -1, -1, 0, -1] (by decide)) (Or.inr (by
        simp only [rowProd, List.getD_cons_zero, List.getD_cons_succ]; push_cast; ring))
    · exact flip _ _ _ (hno [1, 1, -1, 1, -1, 0] (by decide)) (Or.inl (by
        simp only [rowProd, List.getD_cons_zero, List.getD_cons_succ]; push_cast; ring))
    · exact flip _ _ _ (hno [-1, 1, 1, 0, 1, -1] (by decide)) (Or.inl (by
        simp only [rowProd, List.getD_cons_zero, List.getD_cons_succ]; push_cast; ring))
    · exact flip _ _ _ (hno [-1, 1, 1, 1, 0, 1] (by decide)) (Or.inl (by
        simp only [rowProd, List.getD_cons_zero, List.getD_cons_succ]; push_cast; ring))
    · exact flip _ _ _ (hno [-1, 1, 1, -1, -1, 0] (by decide)) (Or.inr (by
        simp only [rowProd, List.getD_cons_zero, List.getD_cons_succ]; push_cast; ring))
    · exact flip _ _ _ (hno [1, -1, 1, 0, -1, -1] (by decide)) (Or.inr (by
        simp only [rowProd, List.getD_cons_zero, List.getD_cons_succ]; push_cast; ring))
    · exact flip _ _ _ (hno [1, -1, 1, -1, 0, 1] (by decide)) (Or.inl (by
        simp only [rowProd, List.getD_cons_zero, List.getD_cons_succ]; push_cast; ring))
    · exact flip _ _ _ (hno [1, -1, 1, 1, 1, 0] (by decide)) (Or.inl (by
        simp only [rowProd, List.getD_cons_zero, List.getD_cons_succ]; push_cast; ring))
  · refine twelve_bound (v 0) (v 1) (v 2) _ hs ?_ ?_ ?_ ?_ ?_ ?_ ?_ ?_ ?_ ?_ ?_ ?_
    · exact flip _ _ _ (hno [1, 1, 1, 0, 1, -1] (by decide)) (Or.inl (by
        simp only [rowProd, List.getD_cons_zero, List.getD_cons_succ]; push_cast; ring))
    · exact flip _ _ _ (hno [1, 1, 1, -1, 0, 1] (by decide)) (Or.inl (by
        simp only [rowProd, List.getD_cons_zero, List.getD_cons_succ]; push_cast; ring))
    · exact flip _ _ _ (hno [1, 1, 1, 1, -1, 0] (by decide)) (Or.inl (by
        simp only [rowProd, List.getD_cons_zero, List.getD_cons_succ]; push_cast; ring))
    · exact flip _ _ _ (hno [-1, -1, 1, 0, -1, -1] (by decide)) (Or.inl (by
        simp only [rowProd, List.getD_cons_zero, List.getD_cons_succ]; push_cast; ring))
    · exact flip _ _ _ (hno [-1, -1, 1, 1, 0, 1] (by decide)) (Or.inr (by
        simp only [rowProd, List.getD_cons_zero, List.getD_cons_succ]; push_cast; ring))
    · exact flip _ _ _ (hno [-1, -1, 1, -1, 1, 0] (by decide)) (Or.inl (by
        simp only [rowProd, List.getD_cons_zero, List.getD_cons_succ]; push_cast; ring))
    · exact flip _ _ _ (hno [1, -1, -1, 0, -1, 1] (by decide)) (Or.inl (by
        simp only [rowProd, List.getD_cons_zero, List.getD_cons_succ]; push_cast; ring))
    · exact flip _ _ _ (hno [1, -1, -1, -1, 0, -1] (by decide)) (Or.inl (by
        simp only [rowProd, List.getD_cons_zero, List.getD_cons_succ]; push_cast; ring))
    · exact flip _ _ _ (hno [1, -1, -1, 1, 1, 0] (by decide)) (Or.inr (by
        simp only [rowProd, List.getD_cons_zero, List.getD_cons_succ]; push_cast; ring))
    · exact flip _ _ _ (hno [-1, 1, -1, 0, 1, 1] (by decide)) (Or.inr (by
        simp only [rowProd, List.getD_cons_zero, List.getD_cons_succ]; push_cast; ring))
    · exact flip _ _ _ (hno [-1, 1, -1, 1, 0, -1] (by decide)) (Or.inl (by
        simp only [rowProd, List.getD_cons_zero, List.getD_cons_succ]; push_cast; ring))
    · exact flip _ _ _ (hno [-1, 1, -1, -1, -1, 0] (by decide)) (Or.inl (by
        simp only [rowProd, List.getD_cons_zero, List.getD_cons_succ]; push_cast; ring))
  · refine twelve_bound (v 0) (v 1) (v 2) _ hs ?_ ?_ ?_ ?_ ?_ ?_ ?_ ?_ ?_ ?_ ?_ ?_
    · exact flip _ _ _ (hno [0, 1, -1, 1, 1, 1] (by decide)) (Or.inl (by
        simp only [rowProd, List.getD_cons_zero, List.getD_cons_succ]; push_cast; ring))
    · exact flip _ _ _ (hno [-1, 0, 1, 1, 1, 1] (by decide)) (Or.inl (by
        simp only [rowProd, List.getD_cons_zero, List.getD_cons_succ]; push_cast; ring))
    · exact flip _ _ _ (hno [1, -1, 0, 1, 1, 1] (by decide)) (Or.inl (by
        simp only [rowProd, List.getD_cons_zero, List.getD_cons_succ]; push_cast; ring))
    · exact flip _ _ _ (hno [0, 1, 1, 1, 1, -1] (by decide)) (Or.inl (by
        simp only [rowProd, List.getD_cons_zero, List.getD_cons_succ]; push_cast; ring))
    · exact flip _ _ _ (hno [-1, 0, -1, 1, 1, -1] (by decide)) (Or.inr (by
        simp only [rowProd, List.getD_cons_zero, List.getD_cons_succ]; push_cast; ring))
    · exact flip _ _ _ (hno [1, -1, 0, 1, 1, -1] (by decide)) (Or.inl (by
        simp only [rowProd, List.getD_cons_zero, List.getD_cons_succ]; push_cast; ring))
    · exact flip _ _ _ (hno [0, 1, -1, -1, 1, 1] (by decide)) (Or.inl (by
        simp only [rowProd, List.getD_cons_zero, List.getD_cons_succ]; push_cast; ring))
    · exact flip _ _ _ (hno [1, 0, 1, -1, 1, 1] (by decide)) (Or.inl (by
        simp only [rowProd, List.getD_cons_zero, List.getD_cons_succ]; push_cast; ring))
    · exact flip _ _ _ (hno [-1, -1, 0, -1, 1, 1] (by decide)) (Or.inr (by
        simp only [rowProd, List.getD_cons_zero, List.getD_cons_succ]; push_cast; ring))
    · exact flip _ _ _ (hno [0, -1, -1, 1, -1, 1] (by decide)) (Or.inr (by
        simp only [rowProd, List.getD_cons_zero, List.getD_cons_succ]; push_cast; ring))
    · exact flip _ _ _ (hno [-1, 0, 1, 1, -1, 1] (by decide)) (Or.inl (by
        simp only [rowProd, List.getD_cons_zero, List.getD_cons_succ]; push_cast; ring))
    · exact flip _ _ _ (hno [1, 1, 0, 1, -1, 1] (by decide)) (Or.inl (by
        simp only [rowProd, List.getD_cons_zero, List.getD_cons_succ]; push_cast; ring))

theorem idcDot_cast (a b : List Int) : (fun i => (idcFun a i : ℝ)) ⬝ᵥ (fun i => (idcFun b i : ℝ)) =
    (idcDot a b : ℝ) := by
  simp [dotProduct, Fin.sum_univ_three, idcDot]

/-- The largest Schmid factor of a loaded file and what it is taken from. -/
theorem largest_exists {ori : Quat ℝ} {load : Fin 3 → ℝ} {gs : List (List SlipSystem)}
    (hne : gs.flatten ≠ []) :
    ∃ m, maxSchmid (schmidFactors ori load gs) none none = .ok m ∧
      (∃ ss ∈ gs.flatten, m = schmidFactor (transformVector ori load) ss) ∧
      ∀ ss ∈ gs.flatten, schmidFactor (transformVector ori load) ss ≤ m := by
  unfold maxSchmid schmidFactors
  rw [← List.map_flatten]
  obtain ⟨m, hm⟩ : ∃ m, listMax (gs.flatten.map (schmidFactor (transformVector ori load))) = .ok m := by
    cases h : gs.flatten with
    | nil => exact absurd h hne
    | cons a t => exact ⟨_, rfl⟩
  refine ⟨m, hm, ?_⟩
  rw [listMax_spec] at hm
  obtain ⟨ss, hss, e⟩ := List.mem_map.mp hm.1
  exact ⟨⟨ss, hss, e.symm⟩, fun s hs => hm.2 _ (List.mem_map.mpr ⟨s, hs, rfl⟩)⟩

theorem twelve_shape : ∀ file ∈ Spec.twelveFiles, 2 ≤ file.rows.length ∧
    (∀ row ∈ file.rows, row.length = 2 * Spec.indexCount .cubic) ∧
    ∀ row ∈ file.rows, idcDot (row.take 3) (row.take 3) * idcDot (row.drop 3) (row.drop 3) = 6 := by
  decide +kernel

theorem twelve_good : ∀ file ∈ Spec.twelveFiles, fileGood 3 file.rows = true := by decide +kernel

theorem twelve_corner : ∀ file ∈ Spec.twelveFiles, ∀ row ∈ file.rows,
    |idcDot [1, 1, 1] (row.take 3) * idcDot [1, 1, 1] (row.drop 3)| ≤ 2 := by
  decide +kernel

/-- What is in a loaded file of cubic slip systems. -/
theorem cubic_loaded {dflt : String} {ca : Option ℝ} {file : SlipFile} (h2 : 2 ≤ file.rows.length)
    (hr : ∀ row ∈ file.rows, row.length = 2 * Spec.indexCount .cubic)
    {gs : List (List SlipSystem)} {cols : List String}
    (h : loadSlip dflt .cubic ca file = .ok (gs, cols)) :
    (∀ ss ∈ gs.flatten, ∃ row ∈ file.rows, ss.planeIdc = row.take 3 ∧ ss.dirIdc = row.drop 3 ∧
      ss.normal = cubicVec (row.take 3) ∧ ss.slip = cubicVec (row.drop 3)) ∧
    ∀ row ∈ file.rows, ∃ ss ∈ gs.flatten,
      ss.normal = cubicVec (row.take 3) ∧ ss.slip = cubicVec (row.drop 3) := by
  obtain ⟨l, gs', h1, hg, h3, h4⟩ := loadSlip_ok dflt .cubic ca (Or.inl rfl) file h2 hr
  rw [h] at h1
  cases h1
  have hperm := (C55_partition l gs hg).1
  constructor
  · intro ss hss
    have hss := hperm.mem_iff.mp hss
    have : (ss.planeIdc, ss.dirIdc) ∈ file.rows.map fun row => (row.take 3, row.drop 3) := by
      have := List.mem_map_of_mem (f := fun ss : SlipSystem => (ss.planeIdc, ss.dirIdc)) hss
      rw [h3] at this
      exact this
    obtain ⟨row, hrow, e⟩ := List.mem_map.mp this
    obtain ⟨e1, e2⟩ := Prod.mk.inj e
    have := cubic_system (h4 ss hss)
    exact ⟨row, hrow, e1.symm, e2.symm, e1 ▸ this.1, e2 ▸ this.2⟩
  · intro row hrow
    have : (row.take 3, row.drop 3) ∈ l.map fun ss => (ss.planeIdc, ss.dirIdc) := by
      rw [h3]
      exact List.mem_map.mpr ⟨row, hrow, rfl⟩
    obtain ⟨ss, hss, e⟩ := List.mem_map.mp this
    obtain ⟨e1, e2⟩ := Prod.mk.inj e
    have := cubic_system (h4 ss hss)
    exact ⟨ss, hperm.mem_iff.mpr hss, e1 ▸ this.1, e2 ▸ this.2⟩

/-- The Schmid factor of a row, for a load in crystal coordinates. -/
theorem row_factor (v : Fin 3 → ℝ) (row : List Int)
    (h6 : idcDot (row.take 3) (row.take 3) * idcDot (row.drop 3) (row.drop 3) = 6)
    (hlen : row.length = 6) :
    |(v ⬝ᵥ cubicVec (row.take 3)) * (v ⬝ᵥ cubicVec (row.drop 3))| = |rowProd v row| / Real.sqrt 6 := by
  have hv : ∀ l : List Int, v ⬝ᵥ cubicVec l =
      (v ⬝ᵥ fun i => (idcFun l i : ℝ)) / Real.sqrt (idcDot l l : ℝ) := by
    intro l
    unfold cubicVec unitVec
    rw [idcDot_cast]
    simp [dotProduct, Fin.sum_univ_three]
    ring
  rcases row with _ | ⟨a, _ | ⟨b, _ | ⟨c, _ | ⟨d, _ | ⟨e, _ | ⟨f, _ | ⟨g, t⟩⟩⟩⟩⟩⟩⟩ <;> simp at hlen
  rw [hv, hv, div_mul_div_comm, abs_div, ← Real.sqrt_mul (by
    rw [← idcDot_cast]
    simp only [dotProduct, Fin.sum_univ_three]
    exact add_nonneg (add_nonneg (mul_self_nonneg _) (mul_self_nonneg _)) (mul_self_nonneg _))]
  have h6' : (idcDot ([a, b, c, d, e, f].take 3) ([a, b, c, d, e, f].take 3) : ℝ) *
      (idcDot ([a, b, c, d, e, f].drop 3) ([a, b, c, d, e, f].drop 3) : ℝ) = 6 := by exact_mod_cast h6
  rw [h6', abs_of_nonneg (Real.sqrt_nonneg 6)]
  congr 2
  simp [rowProd, dotProduct, Fin.sum_univ_three, idcFun]
  ring

theorem sqrt6 : Real.sqrt 6 * Real.sqrt 6 = 6 := Real.mul_self_sqrt (by norm_num)

/-- **C150** Take the slip systems of one of the files with the twelve slip systems of close packed
planes and directions of cubic crystals. Whatever the orientation and the unit load, the largest Schmid
factor, the value a map of Schmid factors shows, is between `sqrt 6 / 9`, about 0.27, and one half. -/
theorem C150_cubic (dflt : String) (ca : Option ℝ) (file : SlipFile) (hf : file ∈ Spec.twelveFiles)
    (gs : List (List SlipSystem)) (cols : List String)
    (h : loadSlip dflt .cubic ca file = .ok (gs, cols))
    (ori : Quat ℝ) (ho : ori.IsUnit) (load : Fin 3 → ℝ) (hl : load ⬝ᵥ load = 1) :
    ∃ m, maxSchmid (schmidFactors ori load gs) none none = .ok m ∧ Real.sqrt 6 / 9 ≤ m ∧ m ≤ 1 / 2 := by
  obtain ⟨s1, s2, s3⟩ := twelve_shape file hf
  obtain ⟨c1, c2⟩ := cubic_loaded s1 s2 h
  obtain ⟨row, hrow, hb⟩ := twelve_row file hf (transformVector ori load)
  obtain ⟨ss, hss, e1, e2⟩ := c2 row hrow
  obtain ⟨m, hm, -, hmax⟩ := largest_exists (ori := ori) (load := load)
    (List.ne_nil_of_mem hss)
  refine ⟨m, hm, le_trans ?_ (hmax ss hss), ?_⟩
  · rw [schmidFactor, e1, e2, row_factor _ row (s3 row hrow) (s2 row hrow)]
    rw [transform_dot ori ho, hl] at hb
    rw [le_div_iff₀ (Real.sqrt_pos.mpr (by norm_num))]
    nlinarith [sqrt6]
  · refine (C87_range ori ho load hl gs ?_ m hm).2
    obtain ⟨gs', h1, -, h3, -⟩ := file_consistent dflt .cubic ca (Or.inl rfl) file (twelve_good file hf)
    rw [h] at h1
    cases h1
    exact fun grp hg ss hs => h3 ss (List.mem_flatten.2 ⟨grp, hg, hs⟩)

/-- The lower bound is reached: by a crystal along the axes of the map, loaded along a space diagonal
of its cube. -/
theorem C150_cubic_least (dflt : String) (ca : Option ℝ) (file : SlipFile)
    (hf : file ∈ Spec.twelveFiles) (gs : List (List SlipSystem)) (cols : List String)
    (h : loadSlip dflt .cubic ca file = .ok (gs, cols)) :
    ∃ load : Fin 3 → ℝ, load ⬝ᵥ load = 1 ∧
      maxSchmid (schmidFactors ⟨1, 0, 0, 0⟩ load gs) none none = .ok (Real.sqrt 6 / 9) := by
  have hl : cubicVec [1, 1, 1] ⬝ᵥ cubicVec [1, 1, 1] = 1 := by
    refine unitVec_unit _ fun h => ?_
    have := congrFun h 0
    simp [idcFun] at this
  refine ⟨cubicVec [1, 1, 1], hl, ?_⟩
  obtain ⟨s1, s2, s3⟩ := twelve_shape file hf
  obtain ⟨c1, c2⟩ := cubic_loaded s1 s2 h
  obtain ⟨m, hm, hlo, -⟩ := C150_cubic dflt ca file hf gs cols h ⟨1, 0, 0, 0⟩ (by simp [Quat.IsUnit])
    (cubicVec [1, 1, 1]) hl
  rw [hm]
  congr 1
  refine le_antisymm ?_ hlo
  obtain ⟨⟨g, hg, hmg⟩, -⟩ := (C87_maximum _ m).1 hm
  obtain ⟨grp, hgrp, rfl⟩ := List.mem_map.mp hg
  obtain ⟨ss, hss, rfl⟩ := List.mem_map.mp hmg
  obtain ⟨row, hrow, -, -, e1, e2⟩ := c1 ss (List.mem_flatten.mpr ⟨grp, hgrp, hss⟩)
  rw [schmidFactor, one_transform, e1, e2, cubic_factor, ← Real.sqrt_mul (by
    rw [← idcDot_cast]
    simp only [dotProduct, Fin.sum_univ_three]
    exact add_nonneg (add_nonneg (mul_self_nonneg _) (mul_self_nonneg _)) (mul_self_nonneg _))]
  have h6 : (idcDot (row.take 3) (row.take 3) : ℝ) * (idcDot (row.drop 3) (row.drop 3) : ℝ) = 6 := by
    exact_mod_cast s3 row hrow
  have h3 : (idcDot [1, 1, 1] [1, 1, 1] : ℝ) = 3 := by
    norm_num [idcDot, idcFun]
  have hk : |((idcDot [1, 1, 1] (row.take 3) * idcDot [1, 1, 1] (row.drop 3) : Int) : ℝ)| ≤ 2 := by
    exact_mod_cast twelve_corner file hf row hrow
  rw [h6, h3, div_le_iff₀ (by positivity)]
  nlinarith [sqrt6]

theorem bcc_sub : (∀ row ∈ bcc110File.rows, row ∈ bccFile.rows) ∧ 2 ≤ bccFile.rows.length ∧
    ∀ row ∈ bccFile.rows, row.length = 2 * Spec.indexCount .cubic := by
  decide +kernel

/-- The lower bound holds for `cubic_bcc` too; the upper one does not, some of its directions are not in
their plane (`C129_bcc`). -/
theorem C150_bcc (dflt : String) (ca : Option ℝ) :
    ∃ gs cols, loadSlip dflt .cubic ca bccFile = .ok (gs, cols) ∧
      (∀ ori : Quat ℝ, ori.IsUnit → ∀ load : Fin 3 → ℝ, load ⬝ᵥ load = 1 →
        ∃ m, maxSchmid (schmidFactors ori load gs) none none = .ok m ∧ Real.sqrt 6 / 9 ≤ m) ∧
      ∃ load : Fin 3 → ℝ, load ⬝ᵥ load = 1 ∧
        ∃ m, maxSchmid (schmidFactors ⟨1, 0, 0, 0⟩ load gs) none none = .ok m ∧ 1 / 2 < m := by
  obtain ⟨gs, cols, m, -, h, hd, -, -, hm, hlt, -⟩ := C129_bcc dflt ca
  refine ⟨gs, cols, h, ?_, diagonalLoad, hd, m, hm, hlt⟩
  intro ori ho load hl
  obtain ⟨b1, b2, b3⟩ := bcc_sub
  obtain ⟨c1, c2⟩ := cubic_loaded b2 b3 h
  have hf : bcc110File ∈ Spec.twelveFiles := by simp [Spec.twelveFiles]
  obtain ⟨-, -, s3⟩ := twelve_shape bcc110File hf
  obtain ⟨row, hrow, hb⟩ := twelve_row bcc110File hf (transformVector ori load)
  obtain ⟨ss, hss, e1, e2⟩ := c2 row (b1 row hrow)
  obtain ⟨m, hm, -, hmax⟩ := largest_exists (ori := ori) (load := load) (List.ne_nil_of_mem hss)
  refine ⟨m, hm, le_trans ?_ (hmax ss hss)⟩
  rw [schmidFactor, e1, e2, row_factor _ row (s3 row hrow) (b3 row (b1 row hrow))]
  rw [transform_dot ori ho, hl] at hb
  rw [le_div_iff₀ (Real.sqrt_pos.mpr (by norm_num))]
  nlinarith [sqrt6]

theorem transform_back (q : Quat ℝ) (hq : q.IsUnit) (hn : q.North) (w : Fin 3 → ℝ) :
    transformVector q (transformVector (conjugate q) w) = w := by
  rw [conj_matrix, transform_matrix q hn, Matrix.mulVec_mulVec, mul_eq_one_comm.mp (C36_rotation q hq).2.1,
    Matrix.one_mulVec]

/-- The upper bound is reached in every orientation, with every file but `cubic_bcc`: by a load half way
between plane normal and slip direction of a slip system. -/
theorem C150_half (dflt : String) (cs : CrystalName) (ca : Option ℝ) (file : SlipFile)
    (hld : Spec.Loadable dflt cs ca) (hf : (cs, file) ∈ symmetricFiles)
    (gs : List (List SlipSystem)) (cols : List String)
    (h : loadSlip dflt cs ca file = .ok (gs, cols)) (ori : Quat ℝ) (ho : ori.IsUnit) (hn : ori.North) :
    ∃ load : Fin 3 → ℝ, load ⬝ᵥ load = 1 ∧
      maxSchmid (schmidFactors ori load gs) none none = .ok (1 / 2) := by
  have hgood : fileGood (Spec.indexCount cs) file.rows = true := by
    simp only [symmetricFiles, List.mem_cons, Prod.mk.injEq, List.not_mem_nil, or_false] at hf
    rcases hf with ⟨rfl, rfl⟩ | ⟨rfl, rfl⟩ | ⟨rfl, rfl⟩ | ⟨rfl, rfl⟩ | ⟨rfl, rfl⟩ <;> decide +kernel
  obtain ⟨gs', h1, hlen, h3, -⟩ := file_consistent dflt cs ca hld file hgood
  rw [h] at h1
  cases h1
  have hne : gs.flatten ≠ [] := by
    intro e
    rw [e] at hlen
    have : 0 < file.rows.length := by
      simp only [symmetricFiles, List.mem_cons, Prod.mk.injEq, List.not_mem_nil, or_false] at hf
      rcases hf with ⟨rfl, rfl⟩ | ⟨rfl, rfl⟩ | ⟨rfl, rfl⟩ | ⟨rfl, rfl⟩ | ⟨rfl, rfl⟩ <;> decide
    simp at hlen
    omega
  obtain ⟨ss, hss⟩ := List.exists_mem_of_ne_nil _ hne
  obtain ⟨u1, u2, u3⟩ := h3 ss hss
  have h2 : Real.sqrt 2 * Real.sqrt 2 = 2 := Real.mul_self_sqrt (by norm_num)
  have hsu : (Real.sqrt 2 / 2) * (Real.sqrt 2 / 2) = 1 / 2 := by linarith
  set w : Fin 3 → ℝ := (Real.sqrt 2 / 2) • (ss.normal + ss.slip) with hw
  have hww : w ⬝ᵥ w = 1 := by
    rw [hw, smul_dotProduct, dotProduct_smul, add_dotProduct, dotProduct_add, dotProduct_add, u1, u2, u3,
      dotProduct_comm ss.slip ss.normal, u3, smul_eq_mul, smul_eq_mul, ← mul_assoc, hsu]
    norm_num
  have hload : transformVector (conjugate ori) w ⬝ᵥ transformVector (conjugate ori) w = 1 := by
    rw [transform_dot _ (isUnit_conj ho), hww]
  refine ⟨transformVector (conjugate ori) w, hload, ?_⟩
  obtain ⟨m, hm, -, hmax⟩ := largest_exists (ori := ori) (load := transformVector (conjugate ori) w) hne
  rw [hm]
  congr 1
  refine le_antisymm (C87_range ori ho _ hload gs
    (fun grp hg s hs => h3 s (List.mem_flatten.2 ⟨grp, hg, hs⟩)) m hm).2 ?_
  refine le_trans (le_of_eq ?_) (hmax ss hss)
  rw [schmidFactor, transform_back ori ho hn, hw, smul_dotProduct, smul_dotProduct, add_dotProduct,
    add_dotProduct, u1, u2, u3, dotProduct_comm ss.slip ss.normal, u3]
  simp only [smul_eq_mul, add_zero, zero_add, mul_one]
  rw [hsu]
  norm_num

/-- What is in a loaded file of hexagonal slip systems. -/
theorem hex_loaded {dflt : String} {ca : ℝ} (hca : 1 / 10 ^ 10 ≤ ca)
    (hv : dflt.toLower = "hkl" ∨ dflt.toLower = "oi" ∨ dflt.toLower = "tsl")
    {file : SlipFile} (h2 : 2 ≤ file.rows.length)
    (hr : ∀ row ∈ file.rows, row.length = 2 * Spec.indexCount .hexagonal)
    {gs : List (List SlipSystem)} {cols : List String}
    (h : loadSlip dflt .hexagonal (some ca) file = .ok (gs, cols)) :
    ∃ b, (∀ ss ∈ gs.flatten, ∃ row ∈ file.rows,
      ss.normal = hexPlaneVec b ca (row.take 4) ∧ ss.slip = hexDirVec b ca (row.drop 4)) ∧
    ∀ row ∈ file.rows, ∃ ss ∈ gs.flatten,
      ss.normal = hexPlaneVec b ca (row.take 4) ∧ ss.slip = hexDirVec b ca (row.drop 4) := by
  obtain ⟨b, hb⟩ := hexL_mat dflt ca hca hv
  obtain ⟨l, gs', h1, hg, h3, h4⟩ := loadSlip_ok dflt .hexagonal (some ca)
    (Or.inr ⟨rfl, hv, ca, rfl, hca⟩) file h2 hr
  rw [h] at h1
  cases h1
  have hperm := (C55_partition l gs hg).1
  have hsys : ∀ ss ∈ l, ∀ row ∈ file.rows, (row.take 4, row.drop 4) = (ss.planeIdc, ss.dirIdc) →
      ss.normal = hexPlaneVec b ca (row.take 4) ∧ ss.slip = hexDirVec b ca (row.drop 4) := by
    intro ss hss row hrow e
    obtain ⟨e1, e2⟩ := Prod.mk.inj e
    have hl : row.length = 8 := hr row hrow
    have := hex_system hb (by rw [← e1, List.length_take]; omega)
      (by rw [← e2, List.length_drop]; omega) (h4 ss hss)
    rw [e1, e2]
    exact this
  refine ⟨b, ?_, ?_⟩
  · intro ss hss
    have hss := hperm.mem_iff.mp hss
    have : (ss.planeIdc, ss.dirIdc) ∈ file.rows.map fun row => (row.take 4, row.drop 4) := by
      have := List.mem_map_of_mem (f := fun ss : SlipSystem => (ss.planeIdc, ss.dirIdc)) hss
      rw [h3] at this
      exact this
    obtain ⟨row, hrow, e⟩ := List.mem_map.mp this
    exact ⟨row, hrow, hsys ss hss row hrow e⟩
  · intro row hrow
    have : (row.take 4, row.drop 4) ∈ l.map fun ss => (ss.planeIdc, ss.dirIdc) := by
      rw [h3]
      exact List.mem_map.mpr ⟨row, hrow, rfl⟩
    obtain ⟨ss, hss, e⟩ := List.mem_map.mp this
    exact ⟨ss, hperm.mem_iff.mpr hss, hsys ss hss row hrow e.symm⟩

theorem hex_shapes : ∀ file ∈ [hexNocaFile, hexWithcaFile], 2 ≤ file.rows.length ∧
    ∀ row ∈ file.rows, row.length = 2 * Spec.indexCount .hexagonal := by
  decide +kernel

theorem noca_flat : ∀ row ∈ hexNocaFile.rows, (idcPair (row.drop 4)).2 = 0 := by decide +kernel

/-- **C150** With the slip systems of `hexagonal_noca` a crystal loaded along its c axis has no Schmid
factor but zero. -/
theorem C150_noca (dflt : String) (ca : ℝ) (hca : 1 / 10 ^ 10 ≤ ca)
    (hv : dflt.toLower = "hkl" ∨ dflt.toLower = "oi" ∨ dflt.toLower = "tsl")
    (gs : List (List SlipSystem)) (cols : List String)
    (h : loadSlip dflt .hexagonal (some ca) hexNocaFile = .ok (gs, cols)) :
    maxSchmid (schmidFactors ⟨1, 0, 0, 0⟩ ![0, 0, 1] gs) none none = .ok 0 := by
  obtain ⟨s1, s2⟩ := hex_shapes hexNocaFile (by simp)
  obtain ⟨b, c1, c2⟩ := hex_loaded hca hv s1 s2 h
  obtain ⟨ss0, hss0, -⟩ := c2 _ (List.getElem_mem (Nat.lt_of_lt_of_le (by norm_num : 0 < 2) s1))
  obtain ⟨m, hm, ⟨ss, hss, e⟩, -⟩ := largest_exists (ori := ⟨1, 0, 0, 0⟩) (load := ![0, 0, 1])
    (List.ne_nil_of_mem hss0)
  rw [hm]
  congr 1
  obtain ⟨row, hrow, -, e2⟩ := c1 ss hss
  rw [e, schmidFactor, one_transform, e2, hexDirVec]
  have hz : (hexMat b ca *ᵥ ![((idcPair (row.drop 4)).1 0 : ℝ) - (idcPair (row.drop 4)).1 2,
    ((idcPair (row.drop 4)).1 1 : ℝ) - (idcPair (row.drop 4)).1 2, ((idcPair (row.drop 4)).2 : ℝ)]) 2 = 0 := by
    rw [noca_flat row hrow]
    cases b <;> simp [hexMat, hexHkl, hexTsl, Matrix.mulVec, dotProduct, Fin.sum_univ_three]
  have : (![0, 0, 1] : Fin 3 → ℝ) ⬝ᵥ unitVec (hexMat b ca *ᵥ
      ![((idcPair (row.drop 4)).1 0 : ℝ) - (idcPair (row.drop 4)).1 2,
      ((idcPair (row.drop 4)).1 1 : ℝ) - (idcPair (row.drop 4)).1 2, ((idcPair (row.drop 4)).2 : ℝ)]) = 0 := by
    rw [show (![0, 0, 1] : Fin 3 → ℝ) ⬝ᵥ unitVec (hexMat b ca *ᵥ
      ![((idcPair (row.drop 4)).1 0 : ℝ) - (idcPair (row.drop 4)).1 2,
      ((idcPair (row.drop 4)).1 1 : ℝ) - (idcPair (row.drop 4)).1 2, ((idcPair (row.drop 4)).2 : ℝ)]) =
      unitVec (hexMat b ca *ᵥ
      ![((idcPair (row.drop 4)).1 0 : ℝ) - (idcPair (row.drop 4)).1 2,
      ((idcPair (row.drop 4)).1 1 : ℝ) - (idcPair (row.drop 4)).1 2, ((idcPair (row.drop 4)).2 : ℝ)]) 2 by
        simp [dotProduct, Fin.sum_univ_three]]
    rw [unitVec, hz, zero_div]
  rw [this, mul_zero, abs_zero]

theorem dot_unitVec_zero (v x : Fin 3 → ℝ) (h : v ⬝ᵥ unitVec x = 0) : v ⬝ᵥ x = 0 := by
  have e : v ⬝ᵥ unitVec x = v ⬝ᵥ x / Real.sqrt (x ⬝ᵥ x) := by
    simp only [unitVec, dotProduct, Fin.sum_univ_three]
    ring
  rw [e, div_eq_zero_iff] at h
  rcases h with h | h
  · exact h
  · have h0 : x ⬝ᵥ x ≤ 0 := Real.sqrt_eq_zero'.mp h
    simp only [dotProduct, Fin.sum_univ_three] at h0 ⊢
    have z : ∀ i, x i = 0 := by
      intro i
      have := mul_self_nonneg (x 0)
      have := mul_self_nonneg (x 1)
      have := mul_self_nonneg (x 2)
      fin_cases i <;> exact mul_self_eq_zero.mp (by dsimp; linarith)
    rw [z 0, z 1, z 2]
    ring

/-- The products of the components along axes of the base. -/
theorem hexMat_gram (b : Bool) (ca : ℝ) (u d : Fin 3 → ℝ) :
    (hexMat b ca *ᵥ u) ⬝ᵥ (hexMat b ca *ᵥ d) =
      u 0 * d 0 + u 1 * d 1 - (u 0 * d 1 + u 1 * d 0) / 2 + ca ^ 2 * (u 2 * d 2) := by
  have h3 : Real.sqrt 3 * Real.sqrt 3 = 3 := Real.mul_self_sqrt (by norm_num)
  cases b <;> simp [hexMat, hexHkl, hexTsl, Matrix.mulVec, dotProduct, Fin.sum_univ_three] <;>
    ring_nf <;> rw [show Real.sqrt 3 ^ 2 = 3 by rw [sq, h3]] <;> ring

theorem withca_rows : ∀ row ∈ [[0, 0, 0, 1, 1, 1, -2, 0], [0, 0, 0, 1, 1, -2, 1, 0],
    [1, 0, -1, 0, 1, -2, 1, 0], [0, 1, -1, 0, -2, 1, 1, 0], [1, 0, -1, 1, -1, -1, 2, 3]],
    row ∈ hexWithcaFile.rows := by decide +kernel

/-- **C150** With the slip systems of `hexagonal_withca` every crystal has, for every load, a positive
Schmid factor; none is above one half. -/
theorem C150_withca (dflt : String) (ca : ℝ) (hca : 1 / 10 ^ 10 ≤ ca)
    (hv : dflt.toLower = "hkl" ∨ dflt.toLower = "oi" ∨ dflt.toLower = "tsl")
    (gs : List (List SlipSystem)) (cols : List String)
    (h : loadSlip dflt .hexagonal (some ca) hexWithcaFile = .ok (gs, cols))
    (ori : Quat ℝ) (ho : ori.IsUnit) (load : Fin 3 → ℝ) (hl : load ⬝ᵥ load = 1) :
    ∃ m, maxSchmid (schmidFactors ori load gs) none none = .ok m ∧ 0 < m ∧ m ≤ 1 / 2 := by
  have hpos : 0 < ca := lt_of_lt_of_le (by norm_num) hca
  obtain ⟨s1, s2⟩ := hex_shapes hexWithcaFile (by simp)
  obtain ⟨b, c1, c2⟩ := hex_loaded hca hv s1 s2 h
  obtain ⟨ss0, hss0, -⟩ := c2 _ (List.getElem_mem (Nat.lt_of_lt_of_le (by norm_num : 0 < 2) s1))
  obtain ⟨m, hm, -, hmax⟩ := largest_exists (ori := ori) (load := load) (List.ne_nil_of_mem hss0)
  obtain ⟨gs', h1, -, h3, -⟩ := file_consistent dflt .hexagonal (some ca)
    (Or.inr ⟨rfl, hv, ca, rfl, hca⟩) hexWithcaFile (by decide +kernel)
  rw [h] at h1
  cases h1
  refine ⟨m, hm, ?_, (C87_range ori ho load hl gs
    (fun grp hg ss hs => h3 ss (List.mem_flatten.2 ⟨grp, hg, hs⟩)) m hm).2⟩
  by_contra hno
  set v := transformVector ori load with hvdef
  have hvv : v ⬝ᵥ v = 1 := by rw [hvdef, transform_dot ori ho, hl]
  set u := (createQ (hexMat b ca))ᵀ *ᵥ v with hu
  have hL := dual_right b hpos
  have hvu : v = hexMat b ca *ᵥ u := by rw [hu, Matrix.mulVec_mulVec, hL.1, Matrix.one_mulVec]
  have hplane : ∀ l : List Int, v ⬝ᵥ hexPlaneVec b ca l = 0 →
      u 0 * (idcPair l).1 0 + u 1 * (idcPair l).1 1 + u 2 * (idcPair l).2 = 0 := by
    intro l hz
    have := dot_unitVec_zero _ _ hz
    rw [Matrix.dotProduct_mulVec, ← Matrix.mulVec_transpose, ← hu] at this
    simpa [dotProduct, Fin.sum_univ_three] using this
  have hdir : ∀ l : List Int, v ⬝ᵥ hexDirVec b ca l = 0 →
      u 0 * (((idcPair l).1 0 : ℝ) - (idcPair l).1 2) + u 1 * (((idcPair l).1 1 : ℝ) - (idcPair l).1 2) -
        (u 0 * (((idcPair l).1 1 : ℝ) - (idcPair l).1 2) +
          u 1 * (((idcPair l).1 0 : ℝ) - (idcPair l).1 2)) / 2 + ca ^ 2 * (u 2 * (idcPair l).2) = 0 := by
    intro l hz
    have := dot_unitVec_zero _ _ hz
    rw [hvu, hexMat_gram] at this
    simpa using this
  have hrow : ∀ row ∈ hexWithcaFile.rows, v ⬝ᵥ hexPlaneVec b ca (row.take 4) = 0 ∨
      v ⬝ᵥ hexDirVec b ca (row.drop 4) = 0 := by
    intro row hrow
    obtain ⟨ss, hss, e1, e2⟩ := c2 row hrow
    have := hmax ss hss
    rw [schmidFactor, e1, e2] at this
    exact mul_eq_zero.mp (abs_nonpos_iff.mp (this.trans (not_lt.mp hno)))
  have hall : ∀ row ∈ hexWithcaFile.rows, _ ∨ _ := fun row hr =>
    (hrow row hr).imp (hplane _) (hdir _)
  have r1 := hall _ (withca_rows _ (List.mem_cons_self ..))
  have r2 := hall [0, 0, 0, 1, 1, -2, 1, 0] (withca_rows _ (by decide))
  have r3 := hall [1, 0, -1, 0, 1, -2, 1, 0] (withca_rows _ (by decide))
  have r4 := hall [0, 1, -1, 0, -2, 1, 1, 0] (withca_rows _ (by decide))
  have r5 := hall [1, 0, -1, 1, -1, -1, 2, 3] (withca_rows _ (by decide))
  simp [idcPair] at r1 r2 r3 r4 r5
  have hu2 : u 2 = 0 := by
    by_contra hne
    have q1 := r1.resolve_left hne
    have q2 := r2.resolve_left hne
    have e1 : u 1 = 0 := by linarith
    have e0 : u 0 = 0 := by linarith
    rw [e0, e1] at r5
    rcases r5 with r | r
    · exact hne (by linarith)
    · have : ca ^ 2 * u 2 = 0 := by linarith
      rcases mul_eq_zero.mp this with r | r
      · exact absurd r (by positivity)
      · exact hne r
  have hz : u 0 = 0 ∧ u 1 = 0 := by
    rcases r3 with a | a <;> rcases r4 with c | c <;> constructor <;> linarith
  have : v ⬝ᵥ v = 0 := by
    rw [hvu, hexMat_gram, hu2, hz.1, hz.2]
    ring
  linarith

/-- The files load: the crystal structures of nickel (face-centred cubic) and titanium (hexagonal), loaded
along the x axis of the map. -/
example : ∃ gs cols m, loadSlip "hkl" .cubic none fccFile = .ok (gs, cols) ∧
    maxSchmid (schmidFactors ⟨1, 0, 0, 0⟩ ![1, 0, 0] gs) none none = .ok m ∧
    Real.sqrt 6 / 9 ≤ m ∧ m ≤ 1 / 2 := by
  obtain ⟨gs, h, -⟩ := file_consistent "hkl" .cubic none (Or.inl rfl) fccFile (by decide +kernel)
  obtain ⟨m, hm⟩ := C150_cubic "hkl" none fccFile (by simp [Spec.twelveFiles]) gs _ h ⟨1, 0, 0, 0⟩
    (by simp [Quat.IsUnit]) ![1, 0, 0] (by simp [dotProduct, Fin.sum_univ_three])
  exact ⟨gs, _, m, h, hm⟩

example : ∃ gs cols m, loadSlip "hkl" .hexagonal (some 1.587) hexWithcaFile = .ok (gs, cols) ∧
    maxSchmid (schmidFactors ⟨1, 0, 0, 0⟩ ![1, 0, 0] gs) none none = .ok m ∧ 0 < m ∧ m ≤ 1 / 2 := by
  have hv : "hkl".toLower = "hkl" := by with_unfolding_all rfl
  obtain ⟨gs, h, -⟩ := file_consistent "hkl" .hexagonal (some 1.587)
    (Or.inr ⟨rfl, Or.inl hv, _, rfl, by norm_num⟩) hexWithcaFile (by decide +kernel)
  obtain ⟨m, hm⟩ := C150_withca "hkl" 1.587 (by norm_num) (Or.inl hv) gs _ h ⟨1, 0, 0, 0⟩
    (by simp [Quat.IsUnit]) ![1, 0, 0] (by simp [dotProduct, Fin.sum_univ_three])
  exact ⟨gs, _, m, h, hm⟩

end DefDAP
