import Verif.Model.Rdr
import Verif.Model.GrainMech
import Verif.Proofs.GrainData
import Mathlib.Analysis.SpecialFunctions.Trigonometric.Basic
import Mathlib.Tactic.FieldSimp

/-! # C98: measuring relative displacement ratios; C99: the report of all grains -/

namespace DefDAP

open Spec (InMap)

/-- `d` is a step to a neighbouring pixel, at most 22.5 degrees from perpendicular to a slip line with
this angle to the y axis. -/
def Spec.Across (angle : ℚ) (d : Int × Int) : Prop :=
  (|d.1| ≤ 1 ∧ |d.2| ≤ 1 ∧ d ≠ (0, 0)) ∧
  |(d.1 : ℝ) * Real.sin (angle * Real.pi / 180) + (d.2 : ℝ) * Real.cos (angle * Real.pi / 180)| ≤
    Real.sin (Real.pi / 8) * Real.sqrt ((d.1 : ℝ) ^ 2 + (d.2 : ℝ) ^ 2)

theorem pyIndex_five {k : Int} (h : 0 ≤ k ∧ k ≤ 4) : pyIndex 5 k = .ok k.toNat := by
  unfold pyIndex
  rw [if_pos ⟨h.1, by push_cast; omega⟩]

theorem rdrReach_odd (m : Nat) : rdrReach (2 * m + 1) = m := by
  unfold rdrReach truncInt
  have e : (((2 * (m : Int) + 1 - 1 : Int) : ℚ) / 2) = ((m : Int) : ℚ) := by push_cast; ring
  rw [e, if_pos (by positivity), Int.floor_intCast]
  simp

/-- The offsets for one row of the table. -/
theorem offsets_mem (a b : Int) {m : Nat} (hm : 0 < m) (o : Int × Int) :
    o ∈ (((List.range m).map fun (i : Nat) =>
      [(a, b), (0, 0), (-a, -b)].map fun t => (t.1 * ((i : Int) + 1), t.2 * ((i : Int) + 1))).flatten) ↔
      ∃ n : Int, |n| ≤ m ∧ o = (n * a, n * b) := by
  simp only [List.mem_flatten, List.mem_map, List.mem_range]
  constructor
  · rintro ⟨_, ⟨i, hi, rfl⟩, ho⟩
    simp only [List.map_cons, List.map_nil, List.mem_cons, List.not_mem_nil, or_false] at ho
    rcases ho with rfl | rfl | rfl
    · exact ⟨i + 1, by rw [abs_of_nonneg (by omega)]; omega, by simp only [Prod.mk.injEq]; constructor <;> ring⟩
    · exact ⟨0, by simp, by simp⟩
    · exact ⟨-(i + 1), by rw [abs_neg, abs_of_nonneg (by omega)]; omega,
        by simp only [Prod.mk.injEq]; constructor <;> ring⟩
  · rintro ⟨n, hn, rfl⟩
    rw [abs_le] at hn
    rcases lt_trichotomy n 0 with h | h | h
    · refine ⟨_, ⟨(-n - 1).toNat, by omega, rfl⟩, ?_⟩
      have : (((-n - 1).toNat : Nat) : Int) + 1 = -n := by omega
      simp only [this, List.map_cons, List.map_nil, List.mem_cons, Prod.mk.injEq]
      right; right; left
      constructor <;> ring
    · subst h
      refine ⟨_, ⟨0, hm, rfl⟩, ?_⟩
      simp
    · refine ⟨_, ⟨(n - 1).toNat, by omega, rfl⟩, ?_⟩
      have : (((n - 1).toNat : Nat) : Int) + 1 = n := by omega
      simp only [this, List.map_cons, List.map_nil, List.mem_cons, Prod.mk.injEq]
      left
      constructor <;> ring

theorem rdrOffsets_row {m : Nat} (hm : 0 < m) {angle : ℚ} {k : Nat} {a b : Int}
    (hk : pyIndex 5 (roundEven (angle / 45)) = .ok k)
    (ht : rdrTuples.getD k [] = [(a, b), (0, 0), (-a, -b)]) (hab : a ≠ 0 ∨ b ≠ 0) :
    ∃ l, rdrOffsets (2 * m + 1) angle = .ok l ∧ l.Nodup ∧ l.length = 2 * m + 1 ∧
      ∀ o, o ∈ l ↔ ∃ n : Int, |n| ≤ m ∧ o = (n * a, n * b) := by
  unfold rdrOffsets
  rw [hk]
  show ∃ l, (if rdrReach (2 * m + 1) = 0 then _ else _) = _ ∧ _
  rw [rdrReach_odd, if_neg (by omega), ht]
  refine ⟨_, rfl, ?_, ?_, ?_⟩
  · exact (List.mergeSort_perm _ _).nodup_iff.2 (List.nodup_dedup _)
  · rw [List.length_mergeSort]
    have hp : ((((List.range m).map fun (i : Nat) =>
        [(a, b), (0, 0), (-a, -b)].map fun t => (t.1 * ((i : Int) + 1), t.2 * ((i : Int) + 1))).flatten).dedup).Perm
        ((List.range (2 * m + 1)).map fun (i : Nat) => (((i : Int) - m) * a, ((i : Int) - m) * b)) := by
      rw [List.perm_ext_iff_of_nodup (List.nodup_dedup _)]
      · intro o
        rw [List.mem_dedup, offsets_mem a b hm]
        simp only [List.mem_map, List.mem_range]
        constructor
        · rintro ⟨n, hn, rfl⟩
          rw [abs_le] at hn
          refine ⟨(n + m).toNat, by omega, ?_⟩
          have : (((n + m).toNat : Nat) : Int) - m = n := by omega
          rw [this]
        · rintro ⟨i, hi, rfl⟩
          exact ⟨i - m, by rw [abs_le]; omega, rfl⟩
      · rw [List.nodup_map_iff_inj_on List.nodup_range]
        intro x _ y _ hxy
        simp only [Prod.mk.injEq] at hxy
        have : ((x : Int) - m) = (y : Int) - m := by
          rcases hab with h | h
          · exact mul_right_cancel₀ h hxy.1
          · exact mul_right_cancel₀ h hxy.2
        omega
    rw [hp.length_eq]; simp
  · intro o
    rw [List.mem_mergeSort, List.mem_dedup]
    exact offsets_mem a b hm o

theorem sin_diff_le {x y : ℝ} (h : |x - y| ≤ Real.pi / 8) : |Real.sin (x - y)| ≤ Real.sin (Real.pi / 8) := by
  have hp := Real.pi_pos
  rw [abs_le] at h ⊢
  constructor
  · rw [← Real.sin_neg]
    exact Real.sin_le_sin_of_le_of_le_pi_div_two (by linarith) (by linarith) (by linarith)
  · exact Real.sin_le_sin_of_le_of_le_pi_div_two (by linarith) (by linarith) (by linarith)

theorem across_of {angle : ℚ} {k : Int} (hk : |(k : ℚ) - angle / 45| ≤ 1 / 2) {d : Int × Int} {s : ℝ}
    (h1 : |d.1| ≤ 1 ∧ |d.2| ≤ 1 ∧ d ≠ (0, 0)) (hs : |s| = Real.sqrt ((d.1 : ℝ) ^ 2 + (d.2 : ℝ) ^ 2))
    (hx : (d.1 : ℝ) = s * Real.cos (k * Real.pi / 4)) (hy : (d.2 : ℝ) = -(s * Real.sin (k * Real.pi / 4))) :
    Spec.Across angle d := by
  refine ⟨h1, ?_⟩
  rw [hx, hy]
  have e : s * Real.cos (k * Real.pi / 4) * Real.sin (angle * Real.pi / 180) +
      -(s * Real.sin (k * Real.pi / 4)) * Real.cos (angle * Real.pi / 180) =
      s * Real.sin (angle * Real.pi / 180 - k * Real.pi / 4) := by
    rw [Real.sin_sub]; ring
  rw [e, abs_mul, ← hx, ← neg_eq_iff_eq_neg.2 hy, neg_neg, ← hs, mul_comm]
  apply mul_le_mul_of_nonneg_right _ (abs_nonneg s)
  apply sin_diff_le
  have hk' : |(k : ℝ) - angle / 45| ≤ 1 / 2 := by
    have := (Rat.cast_le (K := ℝ)).2 hk
    push_cast at this
    exact this
  have e2 : (angle : ℝ) * Real.pi / 180 - k * Real.pi / 4 = -((k : ℝ) - angle / 45) * (Real.pi / 4) := by ring
  rw [e2, abs_mul, abs_neg, abs_of_pos (show 0 < Real.pi / 4 by positivity)]
  have hp := Real.pi_pos
  nlinarith

/-- The offsets of a slip line. -/
theorem rdrOffsets_across {m : Nat} (hm : 0 < m) {angle : ℚ} (h0 : 0 ≤ angle) (h1 : angle ≤ 180) :
    ∃ d l, Spec.Across angle d ∧ rdrOffsets (2 * m + 1) angle = .ok l ∧ l.Nodup ∧ l.length = 2 * m + 1 ∧
      ∀ o, o ∈ l ↔ ∃ n : Int, |n| ≤ m ∧ o = (n * d.1, n * d.2) := by
  have hc := roundEven_close (angle / 45)
  set k := roundEven (angle / 45) with hk
  have hk0 : 0 ≤ k := by
    have h := (abs_le.1 hc).1
    have : (-1 : ℚ) < k := by
      have : 0 ≤ angle / 45 := by positivity
      linarith
    have : (-1 : Int) < k := by exact_mod_cast this
    omega
  have hk4 : k ≤ 4 := by
    have h := (abs_le.1 hc).2
    have : (k : ℚ) < 5 := by
      have : angle / 45 ≤ 4 := by linarith
      linarith
    have : k < 5 := by exact_mod_cast this
    omega
  have hs2 : Real.sqrt 2 * Real.sqrt 2 = 2 := Real.mul_self_sqrt (by norm_num)
  have c1 : Real.cos (Real.pi / 4) = Real.sqrt 2 / 2 := Real.cos_pi_div_four
  have s1 : Real.sin (Real.pi / 4) = Real.sqrt 2 / 2 := Real.sin_pi_div_four
  have hcase : k = 0 ∨ k = 1 ∨ k = 2 ∨ k = 3 ∨ k = 4 := by omega
  have hidx : pyIndex 5 (roundEven (angle / 45)) = .ok k.toNat := pyIndex_five ⟨hk0, hk4⟩
  rcases hcase with h | h | h | h | h
  · obtain ⟨l, r⟩ := rdrOffsets_row hm (a := -1) (b := 0) hidx (by rw [h]; rfl) (.inl (by norm_num))
    refine ⟨(-1, 0), l, across_of hc (s := -1) (by simp) (by simp) ?_ ?_, r⟩ <;> rw [h] <;> simp
  · obtain ⟨l, r⟩ := rdrOffsets_row hm (a := 1) (b := -1) hidx (by rw [h]; rfl) (.inl (by norm_num))
    refine ⟨(1, -1), l, across_of hc (s := Real.sqrt 2) (by simp) ?_ ?_ ?_, r⟩
    · rw [abs_of_nonneg (Real.sqrt_nonneg 2)]; norm_num
    · rw [h]; simp only [Int.cast_one, one_mul]; rw [c1]; linarith
    · rw [h]; simp only [Int.cast_one, one_mul]; rw [s1]; push_cast; linarith
  · obtain ⟨l, r⟩ := rdrOffsets_row hm (a := 0) (b := -1) hidx (by rw [h]; rfl) (.inr (by norm_num))
    have e : ((2 : Int) : ℝ) * Real.pi / 4 = Real.pi / 2 := by push_cast; ring
    refine ⟨(0, -1), l, across_of hc (s := 1) (by simp) (by simp) ?_ ?_, r⟩ <;> rw [h, e] <;> simp
  · obtain ⟨l, r⟩ := rdrOffsets_row hm (a := 1) (b := 1) hidx (by rw [h]; rfl) (.inl (by norm_num))
    have e : ((3 : Int) : ℝ) * Real.pi / 4 = Real.pi - Real.pi / 4 := by push_cast; ring
    refine ⟨(1, 1), l, across_of hc (s := -Real.sqrt 2) (by simp) ?_ ?_ ?_, r⟩
    · rw [abs_neg, abs_of_nonneg (Real.sqrt_nonneg 2)]; norm_num
    · rw [h, e, Real.cos_pi_sub, c1]; push_cast; linarith
    · rw [h, e, Real.sin_pi_sub, s1]; push_cast; linarith
  · obtain ⟨l, r⟩ := rdrOffsets_row hm (a := -1) (b := 0) hidx (by rw [h]; rfl) (.inl (by norm_num))
    have e : ((4 : Int) : ℝ) * Real.pi / 4 = Real.pi := by push_cast; ring
    refine ⟨(-1, 0), l, across_of hc (s := 1) (by simp) (by simp) ?_ ?_, r⟩ <;> rw [h, e] <;> simp

/-! ### The regression -/

section
variable {K : Type} [Field K] [LinearOrder K] [IsStrictOrderedRing K]

theorem centred_sum (l : List K) : (centred l).sum = 0 := by
  rcases eq_or_ne l [] with rfl | h
  · simp [centred]
  · have hn : (l.length : K) ≠ 0 := by
      have : 0 < l.length := List.length_pos_iff.2 h
      exact_mod_cast this.ne'
    have e : ∀ (c : K) (t : List K), (t.map fun v => v - c).sum = t.sum - t.length * c := by
      intro c t
      induction t with
      | nil => simp
      | cons a t ih => simp only [List.map_cons, List.sum_cons, ih, List.length_cons]; push_cast; ring
    unfold centred
    rw [e]
    field_simp
    ring

theorem centred_affine (f g : Int × Int → K) (k κ : K) (l : List (Int × Int)) (h : ∀ o ∈ l, f o = k * g o + κ) :
    centred (l.map f) = (centred (l.map g)).map fun v => k * v := by
  have e : (l.map f).sum = k * (l.map g).sum + l.length * κ := by
    induction l with
    | nil => simp
    | cons a t ih =>
      simp only [List.map_cons, List.sum_cons, List.length_cons]
      rw [ih (fun o ho => h o (by simp [ho])), h a (by simp)]
      push_cast; ring
  unfold centred
  simp only [List.map_map, List.length_map]
  apply List.map_congr_left
  intro o ho
  have hn : (l.length : K) ≠ 0 := by
    have : 0 < l.length := List.length_pos_iff.2 (List.ne_nil_of_mem ho)
    exact_mod_cast this.ne'
  simp only [Function.comp_apply, h o ho, e]
  field_simp
  ring

theorem centred_of_sum_zero {l : List K} (h : l.sum = 0) : centred l = l := by
  simp [centred, h]

theorem zip_scale (k : K) : ∀ x : List K,
    (List.zipWith (· * ·) x (x.map fun v => k * v)).sum = k * (x.map fun v => v * v).sum
  | [] => by simp
  | a :: x => by
    simp only [List.map_cons, List.zipWith_cons_cons, List.sum_cons, zip_scale k x]
    ring

theorem sq_sum_pos : ∀ {x : List K}, (∃ a ∈ x, a ≠ 0) → 0 < (x.map fun v => v * v).sum
  | [], ⟨_, h, _⟩ => by simp at h
  | b :: x, h => by
    have hnn : 0 ≤ (x.map fun v => v * v).sum := List.sum_nonneg (by
      intro v hv
      obtain ⟨w, -, rfl⟩ := List.mem_map.1 hv
      exact mul_self_nonneg w)
    rw [List.map_cons, List.sum_cons]
    by_cases hb : b = 0
    · subst hb
      obtain ⟨a, ha, ha0⟩ := h
      rcases List.mem_cons.1 ha with rfl | ha
      · exact absurd rfl ha0
      · have := sq_sum_pos ⟨a, ha, ha0⟩
        simpa using this
    · have : 0 < b * b := mul_self_pos.2 hb
      linarith

theorem const_sum (c : K) : ∀ x : List K, (∀ b ∈ x, b = c) → x.sum = x.length * c
  | [], _ => by simp
  | a :: x, h => by
    rw [List.sum_cons, const_sum c x (fun b hb => h b (by simp [hb])), h a (by simp), List.length_cons]
    push_cast; ring

theorem slope_exact (k : K) {x : List K} (h0 : x.sum = 0) (hne : ∃ a ∈ x, a ≠ 0) :
    linregressSlope x (x.map fun v => k * v) = .ok k := by
  have hpos := sq_sum_pos hne
  obtain ⟨a, ha, ha0⟩ := hne
  cases x with
  | nil => simp at ha
  | cons b t =>
    unfold linregressSlope
    simp only
    rw [if_neg]
    · have hs : ((b :: t).map fun v => k * v).sum = 0 := by rw [List.sum_map_mul_left, List.map_id']; simp [h0]
      rw [centred_of_sum_zero h0, centred_of_sum_zero hs, zip_scale, mul_div_assoc, div_self hpos.ne', mul_one]
    · intro hall
      have hsum := const_sum b _ hall
      rw [h0] at hsum
      have hl : ((b :: t).length : K) ≠ 0 := by exact_mod_cast Nat.succ_ne_zero t.length
      have hb : b = 0 := by
        rcases mul_eq_zero.1 hsum.symm with h | h
        · exact absurd h hl
        · exact h
      exact ha0 (by rw [hall a ha, hb])

theorem rdrValues_ok {h w : Nat} (im : Img K) {ext : Int × Int} {offsets pixels : List (Int × Int)}
    (hin : ∀ p ∈ pixels, ∀ o ∈ offsets, InMap h w (p.1 + o.1 + ext.1, p.2 + o.2 + ext.2)) :
    rdrValues h w im ext offsets pixels = .ok ((pixels.map fun p =>
      centred (offsets.map fun o => im (p.2 + o.2 + ext.2) (p.1 + o.1 + ext.1))).flatten) := by
  unfold rdrValues
  rw [mapM_ok (g := fun p => centred (offsets.map fun o => im (p.2 + o.2 + ext.2) (p.1 + o.1 + ext.1)))]
  · rfl
  · intro p hp
    unfold rdrRow
    rw [mapM_ok (g := fun o => im (p.2 + o.2 + ext.2) (p.1 + o.1 + ext.1))]
    · rfl
    · intro o ho
      exact npRead_ok im (hin p hp o ho)

theorem rows_sum_zero (f : Int × Int → List K) : ∀ pixels : List (Int × Int),
    ((pixels.map fun p => centred (f p)).flatten).sum = 0
  | [] => by simp
  | p :: t => by simp [centred_sum, rows_sum_zero f t]

/-- **C98**: across a slip line with an angle between 0 and 180 degrees, `2 m + 1` pixels are taken
through each of its pixels, in a direction across the line; and if the displacement satisfies `u = k v + c`
on each of these rows, with any constants `c`, and `v` changes along at least one of them, the ratio
measured is exactly `k`. -/
theorem C98_exact {m : Nat} (hm : 0 < m) {angle : ℚ} (h0 : 0 ≤ angle) (h1 : angle ≤ 180) :
    ∃ d, Spec.Across angle d ∧ ∀ (h w : Nat) (u v : Img K) (ext : Int × Int) (lines : List (List (Int × Int)))
      (k : K),
      (∀ l ∈ lines, ∀ p ∈ l, ∀ n : Int, |n| ≤ m →
        (0 ≤ p.1 + n * d.1 + ext.1 ∧ p.1 + n * d.1 + ext.1 < w) ∧
        (0 ≤ p.2 + n * d.2 + ext.2 ∧ p.2 + n * d.2 + ext.2 < h)) →
      (∀ l ∈ lines, ∀ p ∈ l, ∃ c, ∀ n : Int, |n| ≤ m →
        u (p.2 + n * d.2 + ext.2) (p.1 + n * d.1 + ext.1) =
          k * v (p.2 + n * d.2 + ext.2) (p.1 + n * d.1 + ext.1) + c) →
      (∃ l ∈ lines, ∃ p ∈ l, ∃ n n' : Int, |n| ≤ m ∧ |n'| ≤ m ∧
        v (p.2 + n * d.2 + ext.2) (p.1 + n * d.1 + ext.1) ≠
          v (p.2 + n' * d.2 + ext.2) (p.1 + n' * d.1 + ext.1)) →
      measureRdr h w u v ext (2 * m + 1) angle lines = .ok k := by
  obtain ⟨d, l, hd, hl, -, -, hmem⟩ := rdrOffsets_across hm h0 h1
  refine ⟨d, hd, fun h w u v ext lines k hin hrow hch => ?_⟩
  have hpx : ∀ p ∈ lines.flatten, ∃ l ∈ lines, p ∈ l := fun p hp => by simpa using hp
  have hin' : ∀ p ∈ lines.flatten, ∀ o ∈ l, InMap h w (p.1 + o.1 + ext.1, p.2 + o.2 + ext.2) := by
    intro p hp o ho
    obtain ⟨n, hn, rfl⟩ := (hmem o).1 ho
    obtain ⟨ln, h2, h3⟩ := hpx p hp
    obtain ⟨⟨a1, a2⟩, a3, a4⟩ := hin ln h2 p h3 n hn
    exact ⟨a1, a2, a3, a4⟩
  unfold measureRdr
  rw [hl]
  show (rdrValues h w u ext l lines.flatten).bind _ = _
  rw [rdrValues_ok u hin', rdrValues_ok v hin']
  set V := (lines.flatten.map fun p =>
      centred (l.map fun o => v (p.2 + o.2 + ext.2) (p.1 + o.1 + ext.1))).flatten with hV
  have hU : (lines.flatten.map fun p =>
      centred (l.map fun o => u (p.2 + o.2 + ext.2) (p.1 + o.1 + ext.1))).flatten = V.map fun x => k * x := by
    rw [hV]
    conv_rhs => rw [List.map_flatten, List.map_map]
    congr 1
    apply List.map_congr_left
    intro p hp
    obtain ⟨ln, h2, h3⟩ := hpx p hp
    obtain ⟨c, hc⟩ := hrow ln h2 p h3
    simp only [Function.comp_apply]
    apply centred_affine _ _ k c
    intro o ho
    obtain ⟨n, hn, rfl⟩ := (hmem o).1 ho
    exact hc n hn
  rw [hU]
  show linregressSlope V (V.map fun x => k * x) = _
  apply slope_exact
  · exact rows_sum_zero (fun p => l.map fun o => v (p.2 + o.2 + ext.2) (p.1 + o.1 + ext.1)) lines.flatten
  · obtain ⟨ln, h2, p, h3, n, n', hn, hn', hne⟩ := hch
    by_contra hall
    push Not at hall
    have hp : p ∈ lines.flatten := List.mem_flatten.2 ⟨ln, h2, h3⟩
    have hz : ∀ n : Int, |n| ≤ m → v (p.2 + n * d.2 + ext.2) (p.1 + n * d.1 + ext.1) =
        (l.map fun o => v (p.2 + o.2 + ext.2) (p.1 + o.1 + ext.1)).sum /
          ((l.map fun o => v (p.2 + o.2 + ext.2) (p.1 + o.1 + ext.1)).length : K) := by
      intro n hn
      have ho : (n * d.1, n * d.2) ∈ l := (hmem _).2 ⟨n, hn, rfl⟩
      have hv := hall (v (p.2 + n * d.2 + ext.2) (p.1 + n * d.1 + ext.1) -
        (l.map fun o => v (p.2 + o.2 + ext.2) (p.1 + o.1 + ext.1)).sum /
          ((l.map fun o => v (p.2 + o.2 + ext.2) (p.1 + o.1 + ext.1)).length : K)) (by
        rw [hV]
        refine List.mem_flatten.2 ⟨_, List.mem_map.2 ⟨p, hp, rfl⟩, ?_⟩
        unfold centred
        exact List.mem_map.2 ⟨_, List.mem_map.2 ⟨_, ho, rfl⟩, rfl⟩)
      exact sub_eq_zero.1 hv
    exact hne ((hz n hn).trans (hz n' hn').symm)

theorem centred_shift (f g : Int × Int → K) (κ : K) (l : List (Int × Int)) (h : ∀ o ∈ l, f o = g o + κ) :
    centred (l.map f) = centred (l.map g) := by
  rw [centred_affine f g 1 κ l (by simpa using h)]
  simp

/-- **C98**: moving the whole map, or moving it by a different amount for each row of pixels taken, does
not change the ratio, nor whether there is one. -/
theorem C98_shift {m : Nat} (hm : 0 < m) {angle : ℚ} (h0 : 0 ≤ angle) (h1 : angle ≤ 180) :
    ∃ d, Spec.Across angle d ∧ ∀ (h w : Nat) (u v u' v' : Img K) (ext : Int × Int)
      (lines : List (List (Int × Int))),
      (∀ l ∈ lines, ∀ p ∈ l, ∀ n : Int, |n| ≤ m →
        (0 ≤ p.1 + n * d.1 + ext.1 ∧ p.1 + n * d.1 + ext.1 < w) ∧
        (0 ≤ p.2 + n * d.2 + ext.2 ∧ p.2 + n * d.2 + ext.2 < h)) →
      (∀ l ∈ lines, ∀ p ∈ l, ∃ a b, ∀ n : Int, |n| ≤ m →
        u' (p.2 + n * d.2 + ext.2) (p.1 + n * d.1 + ext.1) =
          u (p.2 + n * d.2 + ext.2) (p.1 + n * d.1 + ext.1) + a ∧
        v' (p.2 + n * d.2 + ext.2) (p.1 + n * d.1 + ext.1) =
          v (p.2 + n * d.2 + ext.2) (p.1 + n * d.1 + ext.1) + b) →
      measureRdr h w u' v' ext (2 * m + 1) angle lines = measureRdr h w u v ext (2 * m + 1) angle lines := by
  obtain ⟨d, l, hd, hl, -, -, hmem⟩ := rdrOffsets_across hm h0 h1
  refine ⟨d, hd, fun h w u v u' v' ext lines hin hsh => ?_⟩
  have hpx : ∀ p ∈ lines.flatten, ∃ l ∈ lines, p ∈ l := fun p hp => by simpa using hp
  have hin' : ∀ p ∈ lines.flatten, ∀ o ∈ l, InMap h w (p.1 + o.1 + ext.1, p.2 + o.2 + ext.2) := by
    intro p hp o ho
    obtain ⟨n, hn, rfl⟩ := (hmem o).1 ho
    obtain ⟨ln, h2, h3⟩ := hpx p hp
    obtain ⟨⟨a1, a2⟩, a3, a4⟩ := hin ln h2 p h3 n hn
    exact ⟨a1, a2, a3, a4⟩
  have key : ∀ (x x' : Img K), (∀ p ∈ lines.flatten, ∃ a, ∀ n : Int, |n| ≤ m →
      x' (p.2 + n * d.2 + ext.2) (p.1 + n * d.1 + ext.1) =
        x (p.2 + n * d.2 + ext.2) (p.1 + n * d.1 + ext.1) + a) →
      rdrValues h w x' ext l lines.flatten = rdrValues h w x ext l lines.flatten := by
    intro x x' hx
    rw [rdrValues_ok x hin', rdrValues_ok x' hin']
    congr 2
    apply List.map_congr_left
    intro p hp
    obtain ⟨a, ha⟩ := hx p hp
    apply centred_shift _ _ a
    intro o ho
    obtain ⟨n, hn, rfl⟩ := (hmem o).1 ho
    exact ha n hn
  unfold measureRdr
  rw [hl]
  show (rdrValues h w u' ext l lines.flatten).bind _ = (rdrValues h w u ext l lines.flatten).bind _
  rw [key u u', key v v']
  · intro p hp
    obtain ⟨ln, h2, h3⟩ := hpx p hp
    obtain ⟨a, b, hab⟩ := hsh ln h2 p h3
    exact ⟨b, fun n hn => (hab n hn).2⟩
  · intro p hp
    obtain ⟨ln, h2, h3⟩ := hpx p hp
    obtain ⟨a, b, hab⟩ := hsh ln h2 p h3
    exact ⟨a, fun n hn => (hab n hn).1⟩

end

/-- **C98**: if the displacement across the lines of a group comes from slip on one slip system, so that it
is parallel to its slip direction in the sample frame (the image y axis points down), the ratio measured is
the one calculated for that slip system. -/
theorem C98_theory {m : Nat} (hm : 0 < m) {angle : ℚ} (h0 : 0 ≤ angle) (h1 : angle ≤ 180) :
    ∃ d, Spec.Across angle d ∧ ∀ (ori : Quat ℝ) (ss : SlipSystem) (h w : Nat) (u v : Img ℝ) (ext : Int × Int)
      (lines : List (List (Int × Int))) (t : Img ℝ),
      (∀ l ∈ lines, ∀ p ∈ l, ∀ n : Int, |n| ≤ m →
        (0 ≤ p.1 + n * d.1 + ext.1 ∧ p.1 + n * d.1 + ext.1 < w) ∧
        (0 ≤ p.2 + n * d.2 + ext.2 ∧ p.2 + n * d.2 + ext.2 < h)) →
      (∀ l ∈ lines, ∀ p ∈ l, ∃ a b, ∀ n : Int, |n| ≤ m →
        u (p.2 + n * d.2 + ext.2) (p.1 + n * d.1 + ext.1) =
          t (p.2 + n * d.2 + ext.2) (p.1 + n * d.1 + ext.1) *
            Quat.transformVector (Quat.conjugate ori) ss.slip 0 + a ∧
        v (p.2 + n * d.2 + ext.2) (p.1 + n * d.1 + ext.1) =
          t (p.2 + n * d.2 + ext.2) (p.1 + n * d.1 + ext.1) *
            -Quat.transformVector (Quat.conjugate ori) ss.slip 1 + b) →
      (∃ l ∈ lines, ∃ p ∈ l, ∃ n n' : Int, |n| ≤ m ∧ |n'| ≤ m ∧
        t (p.2 + n * d.2 + ext.2) (p.1 + n * d.1 + ext.1) ≠
          t (p.2 + n' * d.2 + ext.2) (p.1 + n' * d.1 + ext.1)) →
      Quat.transformVector (Quat.conjugate ori) ss.slip 1 ≠ 0 →
      ∃ r, measureRdr h w u v ext (2 * m + 1) angle lines = .ok r ∧ grainRdr ori [[ss]] = [[r]] := by
  obtain ⟨d, hd, key⟩ := C98_exact (K := ℝ) hm h0 h1
  refine ⟨d, hd, fun ori ss h w u v ext lines t hin huv hch hne => ?_⟩
  set bx := Quat.transformVector (Quat.conjugate ori) ss.slip 0 with hbx
  set by' := Quat.transformVector (Quat.conjugate ori) ss.slip 1 with hby
  refine ⟨-bx / by', ?_, by simp [grainRdr, hbx, hby]⟩
  apply key h w u v ext lines _ hin
  · intro l hl p hp
    obtain ⟨a, b, hab⟩ := huv l hl p hp
    refine ⟨a + bx / by' * b, fun n hn => ?_⟩
    rw [(hab n hn).1, (hab n hn).2]
    field_simp
    ring
  · obtain ⟨l, hl, p, hp, n, n', hn, hn', hne'⟩ := hch
    obtain ⟨a, b, hab⟩ := huv l hl p hp
    refine ⟨l, hl, p, hp, n, n', hn, hn', ?_⟩
    rw [(hab n hn).2, (hab n' hn').2]
    intro h
    apply hne'
    have h2 := add_right_cancel h
    exact mul_right_cancel₀ (neg_ne_zero.2 hne) h2

theorem rdrOffsets_three {angle : ℚ} (hk : roundEven (angle / 45) = -1 ∨ roundEven (angle / 45) = 0) :
    rdrOffsets 3 angle = .ok [(-1, 0), (0, 0), (1, 0)] := by
  have hsort : ([(-1, 0), (0, 0), (1, 0)] : List (Int × Int)).mergeSort rowLe = [(-1, 0), (0, 0), (1, 0)] :=
    List.mergeSort_of_pairwise (by decide +kernel)
  unfold rdrOffsets
  rcases hk with hk | hk <;> rw [hk]
  · rw [show pyIndex 5 (-1) = .ok 4 by decide +kernel]
    show (if rdrReach 3 = 0 then _ else _) = _
    rw [if_neg (by decide +kernel)]
    exact congrArg _ ((congrArg (List.mergeSort · rowLe) (by decide +kernel)).trans hsort)
  · rw [show pyIndex 5 0 = .ok 0 by decide +kernel]
    show (if rdrReach 3 = 0 then _ else _) = _
    rw [if_neg (by decide +kernel)]
    exact congrArg _ ((congrArg (List.mergeSort · rowLe) (by decide +kernel)).trans hsort)

theorem rdrOffsets_three_zero : rdrOffsets 3 0 = .ok [(-1, 0), (0, 0), (1, 0)] :=
  rdrOffsets_three (.inr (by decide +kernel))

/-- **C98** fails at the left side of the map: across a vertical line on its first column, the pixel to the
left is taken from the last column. -/
theorem C98_left_edge {K : Type} {h w : Nat} (hw : 2 ≤ w) (im : Img K) {y : Int} (hy : 0 ≤ y ∧ y < h) :
    rdrOffsets 3 0 = .ok [(-1, 0), (0, 0), (1, 0)] ∧
    rdrRow h w im (0, 0) [(-1, 0), (0, 0), (1, 0)] (0, y) = .ok [im y (w - 1), im y 0, im y 1] := by
  refine ⟨rdrOffsets_three_zero, ?_⟩
  have e1 : npIdx h y = .ok y := npIdx_ok hy.1 hy.2
  have e2 : npIdx w (-1) = .ok ((w : Int) - 1) := by
    unfold npIdx
    rw [if_neg (by omega), if_pos (by omega)]
    congr 1
  have e3 : npIdx w 0 = .ok 0 := npIdx_ok le_rfl (by omega)
  have e4 : npIdx w 1 = .ok 1 := npIdx_ok (by omega) (by omega)
  have r : ∀ x x' : Int, npIdx w x = .ok x' → npRead h w im (x, y) = .ok (im y x') := by
    intro x x' hx
    unfold npRead
    simp only [e1, hx]
    rfl
  unfold rdrRow
  simp only [List.mapM_cons, List.mapM_nil, zero_add, add_zero, r _ _ e2, r _ _ e3, r _ _ e4]
  rfl

/-- At the right side of the map, a vertical line on the last column can not be measured. -/
theorem C98_right_edge {h w : Nat} (hw : 1 ≤ w) (u v : Img ℚ) {y : Int} (hy : 0 ≤ y ∧ y < h)
    (l : List (Int × Int)) (ls : List (List (Int × Int))) :
    measureRdr h w u v (0, 0) 3 0 ((((w : Int) - 1, y) :: l) :: ls) = .error .indexError := by
  have e1 : npIdx h y = .ok y := npIdx_ok hy.1 hy.2
  have e4 : npIdx w ((w : Int) - 1 + 1 + 0) = .error .indexError := by
    unfold npIdx
    rw [if_neg (by omega), if_neg (by omega)]
  have r : ∀ x x' : Int, npIdx w x = .ok x' → npRead h w u (x, y) = .ok (u y x') := by
    intro x x' hx
    unfold npRead
    simp only [e1, hx]
    rfl
  have r' : npRead h w u ((w : Int) - 1 + 1 + 0, y) = .error .indexError := by
    unfold npRead
    simp only [e1, e4]
    rfl
  have hrow : rdrRow h w u (0, 0) [(-1, 0), (0, 0), (1, 0)] ((w : Int) - 1, y) = .error .indexError := by
    unfold rdrRow
    obtain ⟨a, ha⟩ : ∃ a, npIdx w ((w : Int) - 1 + -1 + 0) = .ok a := by
      unfold npIdx
      rcases Nat.lt_or_ge 1 w with h | h
      · exact ⟨_, if_pos (by omega)⟩
      · rw [if_neg (by omega), if_pos (by omega)]; exact ⟨_, rfl⟩
    obtain ⟨b, hb⟩ : ∃ a, npIdx w ((w : Int) - 1 + 0 + 0) = .ok a := ⟨_, npIdx_ok (by omega) (by omega)⟩
    have z : y + 0 + 0 = y := by omega
    simp only [List.mapM_cons, z, r _ _ ha, r _ _ hb, r']
    rfl
  unfold measureRdr
  rw [rdrOffsets_three_zero]
  show (rdrValues h w u (0, 0) [(-1, 0), (0, 0), (1, 0)] _).bind _ = _
  have : rdrValues h w u (0, 0) [(-1, 0), (0, 0), (1, 0)]
      ((((w : Int) - 1, y) :: l) :: ls).flatten = .error .indexError := by
    unfold rdrValues
    rw [List.flatten_cons, List.cons_append, List.mapM_cons, hrow]
    rfl
  rw [this]
  rfl

/-- **C98** fails for the negative angles that a correction angle gives: between -67.5 and -22.5 degrees the
pixels are taken along a row of the map, which is not across the line. -/
theorem C98_negative {angle : ℚ} (h0 : -67.5 < angle) (h1 : angle < -22.5) :
    rdrOffsets 3 angle = .ok [(-1, 0), (0, 0), (1, 0)] ∧
    ¬ Spec.Across angle (1, 0) ∧ ¬ Spec.Across angle (-1, 0) := by
  have hk : roundEven (angle / 45) = -1 := by
    have hc := roundEven_close (angle / 45)
    rw [abs_le] at hc
    have a1 : (-2 : ℚ) < roundEven (angle / 45) := by
      have : (-1.5 : ℚ) < angle / 45 := by linarith
      linarith [hc.1]
    have a2 : (roundEven (angle / 45) : ℚ) < 0 := by
      have : angle / 45 < (-0.5 : ℚ) := by linarith
      linarith [hc.2]
    have b1 : (-2 : Int) < roundEven (angle / 45) := by exact_mod_cast a1
    have b2 : roundEven (angle / 45) < 0 := by exact_mod_cast a2
    omega
  have h0' : ((-67.5 : ℚ) : ℝ) < (angle : ℝ) := Rat.cast_lt.2 h0
  have h1' : (angle : ℝ) < ((-22.5 : ℚ) : ℝ) := Rat.cast_lt.2 h1
  norm_num at h0' h1'
  have hpi := Real.pi_pos
  have hs : Real.sin (Real.pi / 8) < Real.sin (-((angle : ℝ) * Real.pi / 180)) :=
    Real.sin_lt_sin_of_lt_of_le_pi_div_two (by linarith) (by nlinarith) (by nlinarith)
  have h8 : 0 ≤ Real.sin (Real.pi / 8) :=
    Real.sin_nonneg_of_nonneg_of_le_pi (by linarith) (by linarith)
  rw [Real.sin_neg] at hs
  refine ⟨rdrOffsets_three (.inl hk), ?_, ?_⟩
  · rintro ⟨-, h⟩
    simp only [Int.cast_one, Int.cast_zero, zero_mul, add_zero, one_mul, one_pow] at h
    rw [zero_pow two_ne_zero, add_zero, Real.sqrt_one, mul_one] at h
    linarith [neg_le_abs (Real.sin ((angle : ℝ) * Real.pi / 180))]
  · rintro ⟨-, h⟩
    simp only [Int.cast_neg, Int.cast_one, Int.cast_zero, zero_mul, add_zero, neg_one_mul, abs_neg] at h
    rw [zero_pow two_ne_zero, add_zero, neg_one_sq, Real.sqrt_one, mul_one] at h
    linarith [neg_le_abs (Real.sin ((angle : ℝ) * Real.pi / 180))]

/-- **C98**: a measurement sets the ratio of its group to that measured over all lines of the group, and
changes nothing else. -/
theorem C98_saved (draw : Int → Int → Int → Int → List (Int × Int)) (h w : Nat) (u v : Img ℚ)
    (ext : Int × Int) (length : Int) (st st' : LineState) (group : Nat)
    (hok : calcRdr draw h w u v ext length st group = .ok st') :
    ∃ (g : SlipGroup) (r : ℚ) (pixels : List (List (Int × Int))), st.groups[group]? = some g ∧
      (st.lines.filter fun l => decide (l.group = (group : Int))).mapM (linePixels draw) = .ok pixels ∧
      measureRdr h w u v ext length g.angle pixels = .ok r ∧
      st'.lines = st.lines ∧ st'.groups[group]? = some { g with rdr := some r } ∧
      st'.groups.length = st.groups.length ∧ ∀ k, k ≠ group → st'.groups[k]? = st.groups[k]? := by
  unfold calcRdr at hok
  split_ifs at hok with hl
  rcases Nat.lt_or_ge group st.groups.length with hlt | hge
  · have hi : pyIndex st.groups.length (group : Int) = .ok group := by
      unfold pyIndex
      rw [if_pos ⟨by omega, by omega⟩]; simp
    rw [hi] at hok
    change (match st.groups[group]? with
      | none => _
      | some g => _) = _ at hok
    obtain ⟨g, hg⟩ : ∃ g, st.groups[group]? = some g := ⟨_, List.getElem?_eq_getElem hlt⟩
    rw [hg] at hok
    simp only at hok
    cases hp : (st.lines.filter fun l => decide (l.group = (group : Int))).mapM (linePixels draw) with
    | error e => rw [hp] at hok; exact absurd hok (by intro h; cases h)
    | ok pixels =>
      rw [hp] at hok
      change (measureRdr h w u v ext length g.angle pixels).bind _ = _ at hok
      cases hr : measureRdr h w u v ext length g.angle pixels with
      | error e => rw [hr] at hok; exact absurd hok (by intro h; cases h)
      | ok r =>
        rw [hr] at hok
        have : st' = { st with groups := st.groups.set group { g with rdr := some r } } := by
          injection hok with h; exact h.symm
        subst this
        exact ⟨g, r, pixels, hg, rfl, hr, rfl, by simp [hlt], by simp, fun k hk => by
          simp [Ne.symm hk]⟩
  · exfalso
    have hi : pyIndex st.groups.length (group : Int) = .error .indexError := by
      unfold pyIndex
      rw [if_neg (by omega), if_neg (by omega)]
    rw [hi] at hok
    cases hok

/-- `p` is a pixel of a line of the group, drawn between the corners of the line cut to whole numbers. -/
def Spec.GroupPixel (draw : Int → Int → Int → Int → List (Int × Int)) (lines : List SlipLine) (group : Int)
    (p : Int × Int) : Prop :=
  ∃ l ∈ lines, l.group = group ∧ ∃ x0 y0 x1 y1 : ℚ, l.points = [x0, y0, x1, y1] ∧
    p ∈ draw (truncInt x0) (truncInt y0) (truncInt x1) (truncInt y1)

theorem mapM_linePixels (draw : Int → Int → Int → Int → List (Int × Int)) : ∀ lines : List SlipLine,
    (∀ l ∈ lines, l.points.length = 4) → ∃ pixels, lines.mapM (linePixels draw) = .ok pixels ∧
      ∀ p, (∃ ps ∈ pixels, p ∈ ps) ↔ ∃ l ∈ lines, ∃ x0 y0 x1 y1 : ℚ, l.points = [x0, y0, x1, y1] ∧
        p ∈ draw (truncInt x0) (truncInt y0) (truncInt x1) (truncInt y1)
  | [], _ => ⟨[], rfl, by simp⟩
  | l :: t, h => by
    obtain ⟨ps, hps, ht⟩ := mapM_linePixels draw t fun x hx => h x (by simp [hx])
    have hl := h l (by simp)
    obtain ⟨x0, y0, x1, y1, e⟩ : ∃ x0 y0 x1 y1 : ℚ, l.points = [x0, y0, x1, y1] := by
      match hp : l.points, hl with
      | [a, b, c, d], _ => exact ⟨a, b, c, d, rfl⟩
    refine ⟨draw (truncInt x0) (truncInt y0) (truncInt x1) (truncInt y1) :: ps, ?_, fun p => ?_⟩
    · rw [List.mapM_cons, hps]
      simp only [linePixels, e]
      rfl
    · simp only [List.mem_cons, exists_eq_or_imp, ht p]
      refine or_congr_left ⟨fun hp => ⟨x0, y0, x1, y1, e, hp⟩, ?_⟩
      rintro ⟨a, b, c, d, e', hp⟩
      rw [e] at e'
      simp only [List.cons.injEq, and_true] at e'
      obtain ⟨rfl, rfl, rfl, rfl⟩ := e'
      exact hp

/-- **C98**, of a measurement in the inspector: if the displacement satisfies `u = k v + c` on each of the
rows of pixels taken across the lines of a group, and `v` changes along one of them, then the measurement
succeeds, saves `k` as the ratio of the group and changes nothing else. -/
theorem C98_measured {m : Nat} (hm : 0 < m) (draw : Int → Int → Int → Int → List (Int × Int)) (h w : Nat)
    (u v : Img ℚ) (ext : Int × Int) (st : LineState) (group : Nat) (g : SlipGroup)
    (hg : st.groups[group]? = some g) (h0 : 0 ≤ g.angle) (h1 : g.angle ≤ 180)
    (h4 : ∀ l ∈ st.lines, l.points.length = 4) :
    ∃ d, Spec.Across g.angle d ∧ ∀ k : ℚ,
      (∀ p, Spec.GroupPixel draw st.lines group p → ∀ n : Int, |n| ≤ m →
        InMap h w (p.1 + n * d.1 + ext.1, p.2 + n * d.2 + ext.2)) →
      (∀ p, Spec.GroupPixel draw st.lines group p → ∃ c, ∀ n : Int, |n| ≤ m →
        u (p.2 + n * d.2 + ext.2) (p.1 + n * d.1 + ext.1) =
          k * v (p.2 + n * d.2 + ext.2) (p.1 + n * d.1 + ext.1) + c) →
      (∃ p, Spec.GroupPixel draw st.lines group p ∧ ∃ n n' : Int, |n| ≤ m ∧ |n'| ≤ m ∧
        v (p.2 + n * d.2 + ext.2) (p.1 + n * d.1 + ext.1) ≠
          v (p.2 + n' * d.2 + ext.2) (p.1 + n' * d.1 + ext.1)) →
      ∃ st', calcRdr draw h w u v ext (2 * m + 1) st group = .ok st' ∧ st'.lines = st.lines ∧
        st'.groups[group]? = some { g with rdr := some k } ∧ st'.groups.length = st.groups.length ∧
        ∀ j, j ≠ group → st'.groups[j]? = st.groups[j]? := by
  obtain ⟨d, hd, key⟩ := C98_exact (K := ℚ) hm h0 h1
  refine ⟨d, hd, fun k hin hrow hch => ?_⟩
  obtain ⟨pixels, hpix, hmem⟩ := mapM_linePixels draw
    (st.lines.filter fun l => decide (l.group = (group : Int))) fun l hl => h4 l (List.mem_filter.1 hl).1
  have hgp : ∀ p, (∃ ps ∈ pixels, p ∈ ps) ↔ Spec.GroupPixel draw st.lines group p := by
    intro p
    rw [hmem p]
    unfold Spec.GroupPixel
    constructor
    · rintro ⟨l, hl, r⟩
      rw [List.mem_filter, decide_eq_true_eq] at hl
      exact ⟨l, hl.1, hl.2, r⟩
    · rintro ⟨l, hl, hlg, r⟩
      exact ⟨l, List.mem_filter.2 ⟨hl, decide_eq_true hlg⟩, r⟩
  have hk := key h w u v ext pixels k
    (fun l hl p hp n hn => by
      obtain ⟨a1, a2, a3, a4⟩ := hin p ((hgp p).1 ⟨l, hl, hp⟩) n hn
      exact ⟨⟨a1, a2⟩, a3, a4⟩)
    (fun l hl p hp => hrow p ((hgp p).1 ⟨l, hl, hp⟩))
    (by
      obtain ⟨p, hp, r⟩ := hch
      obtain ⟨l, hl, hpl⟩ := (hgp p).2 hp
      exact ⟨l, hl, p, hpl, r⟩)
  have hne : st.lines ≠ [] := by
    obtain ⟨p, ⟨l, hl, -⟩, -⟩ := hch
    exact List.ne_nil_of_mem hl
  have hlt : group < st.groups.length := (List.getElem?_eq_some_iff.1 hg).1
  have hi : pyIndex st.groups.length (group : Int) = .ok group := by
    unfold pyIndex
    rw [if_pos ⟨by omega, by omega⟩]; simp
  refine ⟨{ st with groups := st.groups.set group { g with rdr := some k } }, ?_, rfl, by simp [hlt],
    by simp, fun j hj => by simp [Ne.symm hj]⟩
  unfold calcRdr
  rw [if_neg hne, hi]
  show (match st.groups[group]? with
    | none => _
    | some g => _) = _
  rw [hg]
  simp only [hpix]
  show (measureRdr h w u v ext (2 * m + 1) g.angle pixels).bind _ = _
  rw [hk]
  rfl

/-- The inspector of the example: one line from (2, 1) to (2, 2) in the first of two groups. -/
def Spec.exampleLines : LineState :=
  ⟨[⟨[2, 1, 5 / 2, 2], 0, 0, false⟩], [⟨0, 0, [], [], none⟩, ⟨1, 90, [], [], none⟩]⟩

/-- The hypotheses of `C98_measured` hold for slip across column 2 of a map of five rows and six columns
with `u = v / 2 + 1`: the ratio saved is one half. -/
theorem exampleLines_measured : ∃ st', calcRdr (fun x0 y0 x1 y1 => [(x0, y0), (x1, y1)]) 5 6
      (fun _ x => if 2 < x then 2 else 1) (fun _ x => if 2 < x then 2 else 0) (0, 0) 3 Spec.exampleLines 0 =
      .ok st' ∧ st'.groups = [⟨0, 0, [], [], some (1 / 2)⟩, ⟨1, 90, [], [], none⟩] := by
  have hp : ∀ p, Spec.GroupPixel (fun x0 y0 x1 y1 => [(x0, y0), (x1, y1)]) Spec.exampleLines.lines 0 p ↔
      p = (2, 1) ∨ p = (2, 2) := by
    intro p
    have e1 : truncInt 2 = 2 := by decide +kernel
    have e2 : truncInt (5 / 2) = 2 := by decide +kernel
    have e3 : truncInt 1 = 1 := by decide +kernel
    constructor
    · rintro ⟨l, hl, -, x0, y0, x1, y1, e, h⟩
      simp only [Spec.exampleLines, List.mem_singleton] at hl
      subst hl
      simp only [List.cons.injEq, and_true] at e
      obtain ⟨rfl, rfl, rfl, rfl⟩ := e
      simpa [e1, e2, e3] using h
    · intro h
      refine ⟨_, List.mem_singleton.2 rfl, rfl, 2, 1, 5 / 2, 2, rfl, ?_⟩
      simpa [e1, e2, e3] using h
  obtain ⟨d, ⟨⟨hd1, hd2, hd0⟩, hd3⟩, key⟩ := C98_measured (m := 1) (by omega)
    (fun x0 y0 x1 y1 => [(x0, y0), (x1, y1)]) 5 6
    (fun _ x => if 2 < x then 2 else 1) (fun _ x => if 2 < x then 2 else 0) (0, 0) Spec.exampleLines 0
    ⟨0, 0, [], [], none⟩ rfl (by norm_num) (by norm_num) (by simp [Spec.exampleLines])
  have hx : d.1 ≠ 0 := by
    intro e
    have hy : |(d.2 : ℝ)| = 1 := by
      have : d.2 ≠ 0 := fun e2 => hd0 (Prod.ext e e2)
      have : |d.2| = 1 := by
        have := abs_pos.2 this
        omega
      exact_mod_cast this
    have hs : Real.sin (Real.pi / 8) < 1 := by
      have hpi := Real.pi_pos
      have := Real.sin_lt_sin_of_lt_of_le_pi_div_two (x := Real.pi / 8) (y := Real.pi / 2)
        (by linarith) le_rfl (by linarith)
      rwa [Real.sin_pi_div_two] at this
    have hsq : (d.2 : ℝ) ^ 2 = 1 := by rw [← sq_abs, hy]; norm_num
    simp only [e, Rat.cast_zero, zero_mul, zero_div, Real.sin_zero, Real.cos_zero, mul_zero, mul_one, zero_add, hy,
      Int.cast_zero, ne_eq, OfNat.ofNat_ne_zero, not_false_eq_true, zero_pow, hsq, Real.sqrt_one] at hd3
    linarith
  obtain ⟨st', h1, -, h2, h3, h4⟩ := key (1 / 2)
    (by
      intro p h n hn
      have b1 : |n * d.1| ≤ 1 := by
        rw [abs_mul]
        exact (mul_le_mul hn hd1 (abs_nonneg _) (by simp)).trans (by simp)
      have b2 : |n * d.2| ≤ 1 := by
        rw [abs_mul]
        exact (mul_le_mul hn hd2 (abs_nonneg _) (by simp)).trans (by simp)
      rw [abs_le] at b1 b2
      rcases (hp p).1 h with rfl | rfl <;> unfold InMap <;> simp only <;> omega)
    (by
      intro p _
      refine ⟨1, fun n _ => ?_⟩
      dsimp only
      split_ifs <;> norm_num)
    (by
      refine ⟨(2, 1), (hp _).2 (.inl rfl), 1, -1, by simp, by simp, ?_⟩
      rw [abs_le] at hd1
      have : d.1 = 1 ∨ d.1 = -1 := by omega
      rcases this with e | e <;> rw [e] <;> norm_num)
  refine ⟨st', h1, List.ext_getElem? fun j => ?_⟩
  rcases j with - | j
  · exact h2
  · rw [h4 (j + 1) (by omega)]
    rfl

/-- **C98**: what is refused: without any line, and for a group that does not exist, it is an
`IndexError`; for a group without lines a `ValueError`. -/
theorem C98_refused (draw : Int → Int → Int → Int → List (Int × Int)) (h w : Nat) (u v : Img ℚ)
    (ext : Int × Int) (m : Nat) (hm : 0 < m) (st : LineState) (group : Nat) :
    (st.lines = [] → calcRdr draw h w u v ext (2 * m + 1) st group = .error .indexError) ∧
    (st.groups.length ≤ group → calcRdr draw h w u v ext (2 * m + 1) st group = .error .indexError) ∧
    (∀ g, st.lines ≠ [] → st.groups[group]? = some g → 0 ≤ g.angle → g.angle ≤ 180 →
      (∀ l ∈ st.lines, l.group ≠ group) →
      calcRdr draw h w u v ext (2 * m + 1) st group = .error .valueError) := by
  refine ⟨fun hl => by simp [calcRdr, hl], fun hge => ?_, fun g hl hg h0 h1 hno => ?_⟩
  · unfold calcRdr
    have hi : pyIndex st.groups.length (group : Int) = .error .indexError := by
      unfold pyIndex
      rw [if_neg (by omega), if_neg (by omega)]
    rw [hi]
    split_ifs <;> rfl
  · unfold calcRdr
    rw [if_neg hl]
    have hlt : group < st.groups.length := (List.getElem?_eq_some_iff.1 hg).1
    have hi : pyIndex st.groups.length (group : Int) = .ok group := by
      unfold pyIndex
      rw [if_pos ⟨by omega, by omega⟩]; simp
    rw [hi]
    show (match st.groups[group]? with
      | none => _
      | some g => _) = _
    rw [hg]
    have : (st.lines.filter fun l => decide (l.group = (group : Int))) = [] := by
      rw [List.filter_eq_nil_iff]
      intro l hl'
      simpa using hno l hl'
    simp only [this]
    obtain ⟨d, l, -, hoff, -⟩ := rdrOffsets_across hm h0 h1
    show (measureRdr h w u v ext (2 * m + 1) g.angle []).bind _ = _
    have : measureRdr h w u v ext (2 * m + 1) g.angle [] = .error .valueError := by
      unfold measureRdr
      rw [hoff]
      rfl
    rw [this]
    rfl

/-- A displacement for which the hypotheses of `C98_exact` hold: slip across column 2 of a map of three
rows and six columns, on a vertical line of two pixels, `u = v / 2 + 1`. -/
example : ∃ (d : Int × Int), Spec.Across 0 d ∧ ∃ (u v : Img ℚ),
    (∀ p ∈ [((2 : Int), (0 : Int)), (2, 1)], ∀ n : Int, |n| ≤ (1 : Nat) →
        (0 ≤ p.1 + n * d.1 ∧ p.1 + n * d.1 < 6) ∧ (0 ≤ p.2 + n * d.2 ∧ p.2 + n * d.2 < 3)) ∧
    (∀ p ∈ [((2 : Int), (0 : Int)), (2, 1)], ∃ c, ∀ n : Int, |n| ≤ (1 : Nat) →
        u (p.2 + n * d.2) (p.1 + n * d.1) = 1 / 2 * v (p.2 + n * d.2) (p.1 + n * d.1) + c) ∧
    v 0 (2 + 1 * d.1) ≠ v 0 (2 + -1 * d.1) := by
  have h8 : 0 ≤ Real.sin (Real.pi / 8) :=
    Real.sin_nonneg_of_nonneg_of_le_pi (by have := Real.pi_pos; linarith) (by have := Real.pi_pos; linarith)
  refine ⟨(1, 0), ⟨by simp, by simpa using h8⟩, fun _ x => if 2 < x then 2 else 1, fun _ x => if 2 < x then 2 else 0, ?_, ?_, ?_⟩
  · intro p hp n hn
    rw [abs_le] at hn
    simp only [List.mem_cons, List.not_mem_nil, or_false] at hp
    rcases hp with rfl | rfl <;> simp only [mul_one, mul_zero] <;> omega
  · intro p _
    refine ⟨1, fun n _ => ?_⟩
    dsimp only
    split_ifs <;> norm_num
  · norm_num

/-! ### The report -/

/-- The rows a reader expects: one for each group of each grain with lines, in order, with the number, the
Euler angles and the largest Schmid factor of the grain. -/
noncomputable def Spec.reportRows (eulers : ReportGrain → ℝ × ℝ × ℝ) (best : ReportGrain → ℝ) (grains : List ReportGrain) :
    List ReportRow :=
  (grains.zipIdx.map fun g =>
    if g.1.st.lines = [] then [] else g.1.st.groups.map fun grp => ⟨g.2, eulers g.1, best g.1, grp⟩).flatten

theorem npMaxList_spec {l : List ℝ} (h : l ≠ []) : ∃ m, npMaxList l = .ok m ∧ m ∈ l ∧ ∀ x ∈ l, x ≤ m := by
  cases l with
  | nil => exact absurd rfl h
  | cons a t =>
    refine ⟨_, rfl, ?_⟩
    have : ∀ (t : List ℝ) (a : ℝ),
        (t.foldl (fun m x => open Classical in if m < x then x else m) a = a ∨
          t.foldl (fun m x => open Classical in if m < x then x else m) a ∈ t) ∧
        a ≤ t.foldl (fun m x => open Classical in if m < x then x else m) a ∧
        ∀ x ∈ t, x ≤ t.foldl (fun m x => open Classical in if m < x then x else m) a := by
      intro t
      induction t with
      | nil => intro a; simp
      | cons b t ih =>
        intro a
        rw [List.foldl_cons]
        obtain ⟨i1, i2, i3⟩ := ih (open Classical in if a < b then b else a)
        have hab : a ≤ (open Classical in if a < b then b else a) ∧ b ≤ (open Classical in if a < b then b else a) := by
          split_ifs with h
          · exact ⟨h.le, le_rfl⟩
          · exact ⟨le_rfl, not_lt.1 h⟩
        refine ⟨?_, hab.1.trans i2, ?_⟩
        · rcases i1 with i1 | i1
          · rw [i1]
            split_ifs
            · simp
            · simp
          · right; simp [i1]
        · intro x hx
          rcases List.mem_cons.1 hx with rfl | hx
          · exact hab.2.trans i2
          · exact i3 x hx
    obtain ⟨h1, h2, h3⟩ := this t a
    refine ⟨?_, ?_⟩
    · rcases h1 with h1 | h1
      · rw [h1]; simp
      · simp [h1]
    · intro x hx
      rcases List.mem_cons.1 hx with rfl | hx
      · exact h2
      · exact h3 x hx

/-- **C99**: the report has one row for each group of each grain with lines, in order, with its own
number, group and largest Schmid factor; but the Euler angles in all rows are those of the grain shown in
the inspector. -/
theorem C99_report (selected : ℝ × ℝ × ℝ) (grains : List ReportGrain)
    (hs : ∀ g ∈ grains, g.st.lines ≠ [] → g.schmid.flatten ≠ []) :
    ∃ best : ReportGrain → ℝ,
      (∀ g ∈ grains, g.st.lines ≠ [] → best g ∈ g.schmid.flatten ∧ ∀ x ∈ g.schmid.flatten, x ≤ best g) ∧
      batchReport selected grains = .ok (Spec.reportRows (fun _ => selected) best grains) := by
  refine ⟨fun g => (npMaxList g.schmid.flatten).toOption.getD 0, fun g hg hl => ?_, ?_⟩
  · obtain ⟨m, h1, h2, h3⟩ := npMaxList_spec (hs g hg hl)
    simp only [h1]
    exact ⟨h2, h3⟩
  · unfold batchReport Spec.reportRows
    rw [mapM_ok (g := fun g => if g.1.st.lines = [] then [] else g.1.st.groups.map fun grp =>
      ⟨g.2, selected, (npMaxList g.1.schmid.flatten).toOption.getD 0, grp⟩)]
    · rfl
    · intro g hg
      have hg' : g.1 ∈ grains := List.fst_mem_of_mem_zipIdx hg
      unfold reportGrain
      split_ifs with hl
      · rfl
      · obtain ⟨m, h1, -⟩ := npMaxList_spec (hs g.1 hg' hl)
        apply mapM_ok
        intro grp _
        rw [h1]
        rfl

/-- **C99** fails: whenever two grains with groups have different orientations, some row does not have the
orientation of its grain. -/
theorem C99_orientations (selected : ℝ × ℝ × ℝ) {grains : List ReportGrain} {rows : List ReportRow}
    (h : batchReport selected grains = .ok rows) {i j : Nat} {a b : ReportGrain} (hi : grains[i]? = some a)
    (hj : grains[j]? = some b) (ha : a.st.lines ≠ [] ∧ a.st.groups ≠ [])
    (hb : b.st.lines ≠ [] ∧ b.st.groups ≠ []) (hne : a.eulers ≠ b.eulers) :
    ∃ r ∈ rows, ∃ g, grains[r.grain]? = some g ∧ r.eulers ≠ g.eulers := by
  have hmem : ∀ (k : Nat) (g : ReportGrain), grains[k]? = some g → g.st.lines ≠ [] → g.st.groups ≠ [] →
      ∃ r ∈ rows, r.grain = k ∧ r.eulers = selected := by
    intro k g hk hl hg
    unfold batchReport at h
    cases hm : grains.zipIdx.mapM fun g => reportGrain selected g.2 g.1 with
    | error e => rw [hm] at h; cases h
    | ok rs =>
      rw [hm] at h
      have hrows : rows = rs.flatten := by injection h with h; exact h.symm
      have : (g, k) ∈ grains.zipIdx := by
        rw [List.mk_mem_zipIdx_iff_getElem?]; exact hk
      have hall : ∀ (l : List (ReportGrain × Nat)) (rs : List (List ReportRow)),
          l.mapM (fun g => reportGrain selected g.2 g.1) = .ok rs →
          ∀ x ∈ l, ∃ r ∈ rs, reportGrain selected x.2 x.1 = .ok r := by
        intro l
        induction l with
        | nil => intro rs _ x hx; simp at hx
        | cons y l ih =>
          intro rs hrs x hx
          rw [List.mapM_cons] at hrs
          cases hy : reportGrain selected y.2 y.1 with
          | error e => rw [hy] at hrs; cases hrs
          | ok r =>
            rw [hy] at hrs
            cases hl : l.mapM (fun g => reportGrain selected g.2 g.1) with
            | error e => rw [hl] at hrs; cases hrs
            | ok rs' =>
              rw [hl] at hrs
              have : rs = r :: rs' := by injection hrs with h; exact h.symm
              subst this
              rcases List.mem_cons.1 hx with rfl | hx
              · exact ⟨r, by simp, hy⟩
              · obtain ⟨r', h1, h2⟩ := ih rs' hl x hx
                exact ⟨r', by simp [h1], h2⟩
      obtain ⟨r, hr1, hr2⟩ := hall _ _ hm _ this
      unfold reportGrain at hr2
      rw [if_neg hl] at hr2
      obtain ⟨grp, gs, hgs⟩ := List.exists_cons_of_ne_nil hg
      simp only [hgs, List.mapM_cons] at hr2
      cases hx : npMaxList g.schmid.flatten with
      | error e => rw [hx] at hr2; cases hr2
      | ok m =>
        rw [hx] at hr2
        cases hl' : gs.mapM (fun grp => (Except.ok m : Except Err ℝ).map fun m => (⟨k, selected, m, grp⟩ : ReportRow)) with
        | error e => rw [hl'] at hr2; cases hr2
        | ok t =>
          rw [hl'] at hr2
          have : r = ⟨k, selected, m, grp⟩ :: t := by injection hr2 with h; exact h.symm
          refine ⟨⟨k, selected, m, grp⟩, ?_, rfl, rfl⟩
          rw [hrows]
          exact List.mem_flatten.2 ⟨r, hr1, by simp [this]⟩
  obtain ⟨ra, ha1, ha2, ha3⟩ := hmem i a hi ha.1 ha.2
  obtain ⟨rb, hb1, hb2, hb3⟩ := hmem j b hj hb.1 hb.2
  by_cases hs : selected = a.eulers
  · exact ⟨rb, hb1, b, by rw [hb2, hj], by rw [hb3, hs]; exact hne⟩
  · exact ⟨ra, ha1, a, by rw [ha2, hi], by rw [ha3]; exact hs⟩

/-- Two grains with a line and a group each. -/
example : ∃ grains : List ReportGrain, ∃ a b, grains[0]? = some a ∧ grains[1]? = some b ∧
    (a.st.lines ≠ [] ∧ a.st.groups ≠ []) ∧ (b.st.lines ≠ [] ∧ b.st.groups ≠ []) ∧ a.eulers ≠ b.eulers ∧
    ∀ g ∈ grains, g.schmid.flatten ≠ [] := by
  refine ⟨[⟨⟨[⟨[0, 0, 0, 5], 0, 0, false⟩], [⟨0, 0, [], [], none⟩]⟩, (0, 0, 0), [[1 / 2]]⟩,
    ⟨⟨[⟨[0, 0, 5, 5], 45, 0, false⟩], [⟨0, 45, [], [], none⟩]⟩, (1, 0, 0), [[1 / 3]]⟩], _, _, rfl, rfl, ?_⟩
  simp

end DefDAP
