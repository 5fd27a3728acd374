import Verif.Props.SymTables

/-! C43: the average orientation. -/

namespace DefDAP

open Quat

/-- The variants of an orientation in the table. -/
noncomputable def variants (l : List (Quat ℝ)) (q : Quat ℝ) : List (Quat ℝ) :=
  q :: (l.tail.map fun s => mul s q)

/-- Sum of two quaternions. -/
noncomputable def Quat.plus (p q : Quat ℝ) : Quat ℝ :=
  ⟨p.q0 + q.q0, p.q1 + q.q1, p.q2 + q.q2, p.q3 + q.q3⟩

theorem average_eq {l : List (Quat ℝ)} (hl : SymTable l) (q : Quat ℝ) (qs : List (Quat ℝ)) :
    averageOri (calcSymEqvs l (q :: qs)) (qs.length + 1) =
      .ok (normalise (make false
        (qs.foldl (fun av p => averageStep av (variants l p)) q))) := by
  have h0 : column (calcSymEqvs l (q :: qs)) 0 = variants l q := column_table hl _ 0 q rfl
  rw [averageOri, h0, variants]
  simp only [Nat.add_sub_cancel]
  congr 3
  have gen : ∀ (ps pre : List (Quat ℝ)) (av : Quat ℝ), pre ++ ps = q :: qs →
      (List.range' pre.length ps.length).foldl
        (fun av k => averageStep av (column (calcSymEqvs l (q :: qs)) k)) av =
      ps.foldl (fun av p => averageStep av (variants l p)) av := by
    intro ps
    induction ps with
    | nil => intros; rfl
    | cons p t ih =>
      intro pre av hpre
      rw [List.length_cons, List.range'_succ, List.foldl_cons, List.foldl_cons]
      have hk : (q :: qs)[pre.length]? = some p := by rw [← hpre]; simp
      have hcol : column (calcSymEqvs l (q :: qs)) pre.length = variants l p :=
        column_table hl _ _ p hk
      rw [hcol]
      have := ih (pre ++ [p]) (averageStep av (variants l p)) (by simpa using hpre)
      simpa using this
  exact gen qs [q] q rfl

theorem mem_variants {l : List (Quat ℝ)} {q v : Quat ℝ} (h : v ∈ variants l q) :
    v = q ∨ ∃ s ∈ l, v = mul s q := by
  rcases List.mem_cons.1 h with rfl | h
  · exact .inl rfl
  · obtain ⟨s, hs, rfl⟩ := List.mem_map.1 h
    exact .inr ⟨s, List.mem_of_mem_tail hs, rfl⟩

/-- One round adds the first variant with the largest overlap. -/
theorem averageStep_spec (av : Quat ℝ) (vars : List (Quat ℝ)) (hne : vars ≠ []) :
    ∃ (i : Nat) (v : Quat ℝ), vars[i]? = some v ∧ averageStep av vars = av.plus v ∧
      (∀ w ∈ vars, |dot w av| ≤ |dot v av|) ∧
      ∀ (j : Nat) (w : Quat ℝ), j < i → vars[j]? = some w → |dot w av| < |dot v av| := by
  obtain ⟨m, h1, h2, h3⟩ := argmax_spec (vars.map fun v => |dot v av|) (by simpa using hne)
  rw [List.getElem?_map] at h1
  cases h : vars[argmax (vars.map fun v => |dot v av|)]? with
  | none => rw [h] at h1; simp at h1
  | some v =>
    rw [h] at h1
    have hm : |dot v av| = m := by simpa using h1
    refine ⟨_, v, h, ?_, ?_, ?_⟩
    · simp only [averageStep, h, Quat.plus]
    · intro w hw; rw [hm]; exact h2 _ (List.mem_map.2 ⟨w, hw, rfl⟩)
    · intro j w hj hw
      rw [hm]
      exact h3 j _ hj (by simp [hw])

/-- If the orientation itself is at least as close to the current sum as all its variants, it is
added. -/
theorem averageStep_self {l : List (Quat ℝ)} (av p : Quat ℝ)
    (h : ∀ w ∈ variants l p, |dot w av| ≤ |dot p av|) :
    averageStep av (variants l p) = av.plus p := by
  obtain ⟨i, v, hi, hv, h1, h2⟩ := averageStep_spec av (variants l p) (by simp [variants])
  cases i with
  | zero => simp only [variants, List.getElem?_cons_zero, Option.some.injEq] at hi; rw [hv, hi]
  | succ i =>
    have := h2 0 p (Nat.succ_pos i) (by simp [variants])
    exact absurd this (not_lt.2 (h v (List.mem_of_getElem? hi)))

theorem isUnit_normalise {q : Quat ℝ} (h : q.q0 ≠ 0) : (normalise q).IsUnit := by
  have hp : 0 < dot q q := by
    simp only [dot]
    nlinarith [mul_self_pos.2 h, mul_self_nonneg q.q1, mul_self_nonneg q.q2, mul_self_nonneg q.q3]
  have hs : Real.sqrt (dot q q) ≠ 0 := (Real.sqrt_pos.2 hp).ne'
  have h2 : Real.sqrt (dot q q) ^ 2 = dot q q := Real.sq_sqrt hp.le
  simp only [Quat.IsUnit, normalise, Quat.norm]
  rw [div_pow, div_pow, div_pow, div_pow, h2, ← add_div, ← add_div, ← add_div]
  rw [div_eq_one_iff_eq hp.ne']
  simp only [dot]; ring

/-- **C43 (unit).** The average of northern orientations, the first of them strictly northern, is
a unit northern quaternion. -/
theorem C43_unit (g : SymGroup) (q : Quat ℝ) (qs : List (Quat ℝ)) (hq : 0 < q.q0)
    (hn : ∀ p ∈ qs, p.North) :
    ∃ m, averageOri (calcSymEqvs (symEqv g) (q :: qs)) (qs.length + 1) = .ok m ∧
      m.IsUnit ∧ m.North := by
  refine ⟨_, average_eq (symEqv_table g) q qs, ?_⟩
  have key : ∀ (ps : List (Quat ℝ)) (av : Quat ℝ), 0 < av.q0 → (∀ p ∈ ps, p.North) →
      0 < (ps.foldl (fun av p => averageStep av (variants (symEqv g) p)) av).q0 := by
    intro ps
    induction ps with
    | nil => intro av h _; exact h
    | cons p t ih =>
      intro av h hps
      rw [List.foldl_cons]
      apply ih _ _ (fun x hx => hps x (List.mem_cons_of_mem _ hx))
      obtain ⟨i, v, hi, hv, -, -⟩ := averageStep_spec av (variants (symEqv g) p) (by simp [variants])
      have hvn : 0 ≤ v.q0 := by
        rcases mem_variants (List.mem_of_getElem? hi) with rfl | ⟨s, -, rfl⟩
        · exact hps _ List.mem_cons_self
        · exact north_make _
      rw [hv]
      simp only [Quat.plus]
      linarith
  have h0 := key qs q hq hn
  rw [make_north h0.le]
  refine ⟨isUnit_normalise h0.ne', ?_⟩
  simp only [North, normalise]
  exact div_nonneg h0.le (Real.sqrt_nonneg _)

/-- **C43 (copies).** The average of copies of one unit northern orientation is that
orientation. -/
theorem C43_copies (g : SymGroup) (q : Quat ℝ) (hu : q.IsUnit) (hn : q.North) (n : Nat) :
    averageOri (calcSymEqvs (symEqv g) (List.replicate (n + 1) q)) (n + 1) = .ok q := by
  have hl := symEqv_table g
  have h1 : (List.replicate n q).length = n := by simp
  have := average_eq hl q (List.replicate n q)
  rw [h1] at this
  rw [List.replicate_succ, this]
  have scale : ∀ (c : ℝ) (w : Quat ℝ), dot w ⟨c * q.q0, c * q.q1, c * q.q2, c * q.q3⟩ =
      c * dot w q := by intro c w; simp only [dot]; ring
  have key : ∀ (n : Nat) (c : ℝ), 0 < c →
      (List.replicate n q).foldl (fun av p => averageStep av (variants (symEqv g) p))
        ⟨c * q.q0, c * q.q1, c * q.q2, c * q.q3⟩ =
      ⟨(c + n) * q.q0, (c + n) * q.q1, (c + n) * q.q2, (c + n) * q.q3⟩ := by
    intro n
    induction n with
    | zero => intro c _; simp
    | succ n ih =>
      intro c hc
      rw [List.replicate_succ, List.foldl_cons, averageStep_self]
      · have := ih (c + 1) (by linarith)
        rw [show (⟨c * q.q0, c * q.q1, c * q.q2, c * q.q3⟩ : Quat ℝ).plus q =
          ⟨(c + 1) * q.q0, (c + 1) * q.q1, (c + 1) * q.q2, (c + 1) * q.q3⟩ by
            simp only [Quat.plus]; ext <;> simp only [] <;> ring, this]
        push_cast
        ext <;> simp only [] <;> ring
      · intro w hw
        rw [scale, scale, abs_mul, abs_mul, (isUnit_iff q).1 hu, abs_one]
        apply mul_le_mul_of_nonneg_left _ (abs_nonneg c)
        rcases mem_variants hw with rfl | ⟨s, hs, rfl⟩
        · exact abs_dot_le_one hu hu
        · exact abs_dot_le_one (isUnit_mul (hl.unit s hs) hu) hu
  have hk := key n 1 one_pos
  simp only [one_mul] at hk
  have hc : (0 : ℝ) < 1 + n := by positivity
  rw [show q = ⟨q.q0, q.q1, q.q2, q.q3⟩ from rfl] at hk ⊢
  rw [hk, make_north (mul_nonneg hc.le hn)]
  congr 1
  have hd : Quat.norm ⟨(1 + n) * q.q0, (1 + n) * q.q1, (1 + n) * q.q2, (1 + n) * q.q3⟩ = 1 + n := by
    rw [Quat.norm, show dot (⟨(1 + (n : ℝ)) * q.q0, (1 + n) * q.q1, (1 + n) * q.q2, (1 + n) * q.q3⟩ :
      Quat ℝ) ⟨(1 + n) * q.q0, (1 + n) * q.q1, (1 + n) * q.q2, (1 + n) * q.q3⟩ =
      (1 + n) ^ 2 * dot q q by simp only [dot]; ring, (isUnit_iff q).1 hu, mul_one,
      Real.sqrt_sq hc.le]
  simp only [normalise, hd]
  ext <;> simp only [] <;> field_simp

/-! ### Close orientations -/

theorem dot_sq_le (x y : Quat ℝ) : dot x y ^ 2 ≤ dot x x * dot y y := by
  simp only [dot]
  nlinarith [sq_nonneg (x.q0 * y.q1 - x.q1 * y.q0), sq_nonneg (x.q0 * y.q2 - x.q2 * y.q0),
    sq_nonneg (x.q0 * y.q3 - x.q3 * y.q0), sq_nonneg (x.q1 * y.q2 - x.q2 * y.q1),
    sq_nonneg (x.q1 * y.q3 - x.q3 * y.q1), sq_nonneg (x.q2 * y.q3 - x.q3 * y.q2)]

theorem dot_plus_left (x y z : Quat ℝ) : dot (x.plus y) z = dot x z + dot y z := by
  simp only [dot, Quat.plus]; ring

theorem dot_plus_right (x y z : Quat ℝ) : dot z (x.plus y) = dot z x + dot z y := by
  simp only [dot, Quat.plus]; ring

/-- Of two orientations less than 30 degrees apart (as rotations), with positive overlap, no other
variant of the first is closer to the second. -/
theorem variant_not_closer {l : List (Quat ℝ)} (hl : SymTable l) {p r : Quat ℝ} (hp : p.IsUnit)
    (hpn : p.North) (hr : r.IsUnit) {c : ℝ} (hc : 0 < c) (hc2 : (2 + Real.sqrt 3) / 4 < c ^ 2)
    (h : c ≤ dot p r) : ∀ w ∈ variants l p, |dot w r| ≤ dot p r := by
  intro w hw
  have hpos : 0 < dot p r := hc.trans_le h
  rcases mem_variants hw with rfl | ⟨s, hs, rfl⟩
  · rw [abs_of_pos hpos]
  · rcases hl.far s hs with rfl | hfar
    · rw [mul_one_north hpn, abs_of_pos hpos]
    · by_contra hcon
      push Not at hcon
      obtain ⟨z, hz, hzu, hzr, hzp⟩ : ∃ z : Quat ℝ, (z = mul s p ∨ z = (mul s p).neg) ∧
          dot z z = 1 ∧ dot z r = |dot (mul s p) r| ∧ |dot p z| ≤ Real.sqrt 3 / 2 := by
        have hu := isUnit_mul (hl.unit s hs) hp
        have hsp : |dot p (mul s p)| ≤ Real.sqrt 3 / 2 := by
          rw [abs_dot_mul]
          have : dot p (mulRaw s p) = s.q0 * dot p p := by simp only [dot, mulRaw]; ring
          rw [this, (isUnit_iff p).1 hp, mul_one]
          exact hfar
        rcases abs_cases (dot (mul s p) r) with ⟨e, -⟩ | ⟨e, -⟩
        · exact ⟨_, .inl rfl, (isUnit_iff _).1 hu, e.symm, hsp⟩
        · refine ⟨_, .inr rfl, (isUnit_iff _).1 (isUnit_neg.2 hu), ?_, ?_⟩
          · rw [dot_neg_left, e]
          · rw [dot_neg_right, abs_neg]; exact hsp
      have h1 := dot_sq_le (p.plus z) r
      rw [(isUnit_iff r).1 hr, mul_one, dot_plus_left, dot_plus_left, dot_plus_right,
        dot_plus_right, (isUnit_iff p).1 hp, hzu, dot_comm z p, hzr] at h1
      have h2 := (abs_le.1 hzp).2
      have h3 : 2 * c ≤ dot p r + |dot (mul s p) r| := by linarith
      have h4 : (2 * c) ^ 2 ≤ (dot p r + |dot (mul s p) r|) ^ 2 :=
        pow_le_pow_left₀ (by linarith) h3 2
      nlinarith

/-- **C43 (close).** If every two of the orientations have a positive overlap of at least
`c`, where `c` is more than the cosine of 15 degrees (all of them within 30 degrees of each other
and on the same side of the border between the hemispheres), then the average has an overlap of
at least `c` with each of them. This is false for orientations close as rotations but
on different sides of that border (`C43_not_close`). -/
theorem C43_close (g : SymGroup) (q : Quat ℝ) (qs : List (Quat ℝ)) (c : ℝ) (hc : 0 < c)
    (hc2 : (2 + Real.sqrt 3) / 4 < c ^ 2) (hu : ∀ p ∈ q :: qs, p.IsUnit)
    (hn : ∀ p ∈ q :: qs, p.North) (hclose : ∀ p ∈ q :: qs, ∀ r ∈ q :: qs, c ≤ dot p r) :
    ∃ m, averageOri (calcSymEqvs (symEqv g) (q :: qs)) (qs.length + 1) = .ok m ∧
      ∀ p ∈ q :: qs, c ≤ dot m p := by
  have hl := symEqv_table g
  refine ⟨_, average_eq hl q qs, ?_⟩
  have key : ∀ (ps : List (Quat ℝ)) (av : Quat ℝ) (n : ℝ), (∀ p ∈ ps, p ∈ q :: qs) → 0 < n →
      (∀ p ∈ q :: qs, (∀ w ∈ variants (symEqv g) p, |dot w av| ≤ dot p av) ∧
        c * n ≤ dot p av ∧ dot p av ≤ n) → 0 ≤ av.q0 → dot av av ≤ n ^ 2 →
      ∃ n' : ℝ, 0 < n' ∧
        (∀ p ∈ q :: qs, c * n' ≤ dot p
          (ps.foldl (fun av p => averageStep av (variants (symEqv g) p)) av)) ∧
        0 ≤ (ps.foldl (fun av p => averageStep av (variants (symEqv g) p)) av).q0 ∧
        dot (ps.foldl (fun av p => averageStep av (variants (symEqv g) p)) av)
          (ps.foldl (fun av p => averageStep av (variants (symEqv g) p)) av) ≤ n' ^ 2 := by
    intro ps
    induction ps with
    | nil =>
      intro av n _ hn0 hP h0 hd
      exact ⟨n, hn0, fun p hp => (hP p hp).2.1, h0, hd⟩
    | cons p t ih =>
      intro av n hsub hn0 hP h0 hd
      have hp := hsub p List.mem_cons_self
      rw [List.foldl_cons]
      have hself : averageStep av (variants (symEqv g) p) = av.plus p := by
        apply averageStep_self
        intro w hw
        exact ((hP p hp).1 w hw).trans (le_abs_self _)
      rw [hself]
      apply ih (av.plus p) (n + 1) (fun x hx => hsub x (List.mem_cons_of_mem _ hx)) (by linarith)
      · intro r hr
        refine ⟨?_, ?_, ?_⟩
        · intro w hw
          rw [dot_plus_right, dot_plus_right]
          have h1 := (hP r hr).1 w hw
          have h2 := variant_not_closer hl (hu r hr) (hn r hr) (hu p hp) hc hc2
            (hclose r hr p hp) w hw
          exact (abs_add_le _ _).trans (by linarith)
        · rw [dot_plus_right]
          have := (hP r hr).2.1
          have := hclose r hr p hp
          linarith
        · rw [dot_plus_right]
          have := (hP r hr).2.2
          have := (abs_le.1 (abs_dot_le_one (hu r hr) (hu p hp))).2
          linarith
      · have := hn p hp
        simp only [North] at this
        simp only [Quat.plus]; linarith
      · rw [dot_plus_left, dot_plus_right, dot_plus_right, dot_comm av p, (isUnit_iff p).1 (hu p hp)]
        have := (hP p hp).2.2
        nlinarith
  have hq := List.mem_cons_self (a := q) (l := qs)
  obtain ⟨n, hn0, h1, h2, h3⟩ := key qs q 1 (fun p hp => List.mem_cons_of_mem _ hp) one_pos
    (fun p hp => ⟨variant_not_closer hl (hu p hp) (hn p hp) (hu q hq) hc hc2 (hclose p hp q hq),
      by rw [mul_one]; exact hclose p hp q hq,
      (abs_le.1 (abs_dot_le_one (hu p hp) (hu q hq))).2⟩) (hn q hq)
    (by rw [(isUnit_iff q).1 (hu q hq)]; norm_num)
  intro p hp
  generalize hav : qs.foldl (fun av p => averageStep av (variants (symEqv g) p)) q = av at *
  rw [make_north h2]
  have h4 := h1 p hp
  have hpos : 0 < dot p av := lt_of_lt_of_le (mul_pos hc hn0) h4
  have hdpos : 0 < dot av av := by
    have := dot_sq_le p av
    rw [(isUnit_iff p).1 (hu p hp), one_mul] at this
    exact lt_of_lt_of_le (by positivity) this
  have hs : 0 < Real.sqrt (dot av av) := Real.sqrt_pos.2 hdpos
  have hsn : Real.sqrt (dot av av) ≤ n := by
    rw [show n = Real.sqrt (n ^ 2) from (Real.sqrt_sq hn0.le).symm]
    exact Real.sqrt_le_sqrt h3
  have : dot (normalise av) p = dot p av / Real.sqrt (dot av av) := by
    simp only [normalise, Quat.norm]
    generalize Real.sqrt (dot av av) = x
    simp only [dot]; ring
  rw [this, le_div_iff₀ hs]
  exact (mul_le_mul_of_nonneg_left hsn hc.le).trans h4

/-- The operators are far from half turns about the axis `[3, 0, 4]`. -/
theorem hexagonal_far (S C : ℝ) (hS0 : 0 < S) (hS1 : S ≤ 1 / 100) (hC0 : 0 ≤ C) (hC1 : C ≤ 1)
    (k : ℝ) (hk : k = 1 ∨ k = -1) (s : Quat ℝ) (hs : s ∈ symEqv .hexagonal) :
    |dot ⟨1, 0, 0, 0⟩ (mulRaw s ⟨S, k * (3 / 5 * C), 0, k * (4 / 5 * C)⟩)| < 82 / 100 := by
  have h3a : Real.sqrt 3 ^ 2 = 3 := Real.sq_sqrt (by norm_num)
  have h3n : 0 ≤ Real.sqrt 3 := Real.sqrt_nonneg _
  have h3l : 17 / 10 ≤ Real.sqrt 3 := by nlinarith
  have h3u : Real.sqrt 3 ≤ 174 / 100 := by nlinarith
  have hC3 : Real.sqrt 3 * C ≤ 174 / 100 := by nlinarith
  have hC3' : 0 ≤ Real.sqrt 3 * C := by positivity
  have hS3 : Real.sqrt 3 * S ≤ 2 / 100 := by nlinarith
  have hS3' : 0 ≤ Real.sqrt 3 * S := by positivity
  have hd : dot ⟨1, 0, 0, 0⟩ (mulRaw s ⟨S, k * (3 / 5 * C), 0, k * (4 / 5 * C)⟩) =
      s.q0 * S - k * (s.q1 * (3 / 5 * C) + s.q3 * (4 / 5 * C)) := by
    simp only [dot, mulRaw]; ring
  rw [hd]
  obtain ⟨t, ht, rfl⟩ := List.mem_map.1 (show s ∈ hexagonalExact.map Quat.real from hs)
  simp only [hexagonalExact, List.mem_cons, List.not_mem_nil, or_false] at ht
  rw [abs_lt]
  rcases hk with rfl | rfl <;>
    rcases ht with rfl | rfl | rfl | rfl | rfl | rfl | rfl | rfl | rfl | rfl | rfl | rfl <;>
    simp only [Quat.real, real_s0, real_s1, real_sh, real_sr, Surd.real_neg, Nat.cast_ofNat] <;>
    constructor <;> linarith

/-- **C43 (counterexample).** The average need not be close to the orientations: for every `e > 0`
there are two unit, strictly northern orientations of hexagonal symmetry whose misorientation
(as a cosine) is above `1 - e`, while that of the average to either is below 0.82, an angle of
more than 69 degrees. -/
theorem C43_not_close (e : ℝ) (he : 0 < e) :
    ∃ p r m : Quat ℝ, p.IsUnit ∧ r.IsUnit ∧ 0 < p.q0 ∧ 0 < r.q0 ∧
      1 - e < misOri (symEqv .hexagonal) p r ∧
      averageOri (calcSymEqvs (symEqv .hexagonal) [p, r]) 2 = .ok m ∧
      misOri (symEqv .hexagonal) m p < 82 / 100 ∧ misOri (symEqv .hexagonal) m r < 82 / 100 := by
  have hl := symEqv_table .hexagonal
  obtain ⟨S, hS0, hS1, hSe⟩ : ∃ S : ℝ, 0 < S ∧ S ≤ 1 / 100 ∧ S ≤ e :=
    ⟨min (1 / 100) e, lt_min (by norm_num) he, min_le_left _ _, min_le_right _ _⟩
  have hS2 : S ^ 2 ≤ 1 / 10000 := by nlinarith
  set C := Real.sqrt (1 - S ^ 2) with hC
  have hC2 : C ^ 2 = 1 - S ^ 2 := Real.sq_sqrt (by linarith)
  have hC0 : 0 ≤ C := Real.sqrt_nonneg _
  have hC1 : C ≤ 1 := by nlinarith
  have h3a : Real.sqrt 3 ^ 2 = 3 := Real.sq_sqrt (by norm_num)
  have h3n : 0 ≤ Real.sqrt 3 := Real.sqrt_nonneg _
  have h3l : 17 / 10 ≤ Real.sqrt 3 := by nlinarith
  have h3u : Real.sqrt 3 ≤ 174 / 100 := by nlinarith
  set p : Quat ℝ := ⟨S, 3 / 5 * C, 0, 4 / 5 * C⟩ with hp
  set r : Quat ℝ := ⟨S, -(3 / 5 * C), 0, -(4 / 5 * C)⟩ with hr
  have hpu : p.IsUnit := by simp only [Quat.IsUnit, hp]; nlinarith
  have hru : r.IsUnit := by simp only [Quat.IsUnit, hr]; nlinarith
  have hmu : (⟨1, 0, 0, 0⟩ : Quat ℝ).IsUnit := by simp [Quat.IsUnit]
  have hpr : |dot r p| = C ^ 2 - S ^ 2 := by
    have : dot r p = -(C ^ 2 - S ^ 2) := by simp only [dot, hp, hr]; ring
    rw [this, abs_neg, abs_of_nonneg (by rw [hC2]; linarith)]
  have hSC : S * C ≤ 1 / 100 := by nlinarith
  have hSC0 : 0 ≤ S * C := by positivity
  refine ⟨p, r, ⟨1, 0, 0, 0⟩, hpu, hru, hS0, hS0, ?_, ?_, ?_, ?_⟩
  · have := misOri_ge (symEqv .hexagonal) p r _ (head_mem hl)
    rw [mul_one_left, dot_comm, hpr] at this
    nlinarith
  · have := average_eq hl p [r]
    simp only [List.length_singleton, List.foldl_cons, List.foldl_nil, Nat.reduceAdd] at this
    rw [this, averageStep_self]
    · have hsum : p.plus r = ⟨2 * S, 0, 0, 0⟩ := by
        simp only [Quat.plus, hp, hr]; ext <;> simp only [] <;> ring
      rw [hsum, make_north (by simp only []; linarith)]
      have : Quat.norm ⟨2 * S, 0, 0, 0⟩ = 2 * S := by
        rw [Quat.norm, show dot (⟨2 * S, 0, 0, 0⟩ : Quat ℝ) ⟨2 * S, 0, 0, 0⟩ = (2 * S) ^ 2 by
          simp only [dot]; ring, Real.sqrt_sq (by linarith)]
      simp only [normalise, this, zero_div]
      rw [div_self (by linarith)]
    · intro w hw
      rw [hpr]
      rcases mem_variants hw with rfl | ⟨s, hs, rfl⟩
      · rw [hpr]
      · rcases hl.far s hs with rfl | hfar
        · rw [mul_one_north (show r.North from hS0.le), hpr]
        · rw [dot_comm, abs_dot_mul]
          have hx : dot p (mulRaw s r) =
              -(s.q0 * (C ^ 2 - S ^ 2)) + (S * C) * (6 / 5 * s.q1 + 8 / 5 * s.q3) := by
            simp only [dot, mulRaw, hp, hr]; ring
          have hsu := hl.unit s hs
          simp only [Quat.IsUnit] at hsu
          have b1 : |s.q1| ≤ 1 := (sq_le_one_iff_abs_le_one _).1
            (by nlinarith [sq_nonneg s.q0, sq_nonneg s.q2, sq_nonneg s.q3])
          have b3 : |s.q3| ≤ 1 := (sq_le_one_iff_abs_le_one _).1
            (by nlinarith [sq_nonneg s.q0, sq_nonneg s.q2, sq_nonneg s.q1])
          have hD : 9998 / 10000 ≤ C ^ 2 - S ^ 2 := by rw [hC2]; linarith
          rw [hx]
          have e1 : |-(s.q0 * (C ^ 2 - S ^ 2))| ≤ 87 / 100 * (C ^ 2 - S ^ 2) := by
            rw [abs_neg, abs_mul, abs_of_nonneg (show (0 : ℝ) ≤ C ^ 2 - S ^ 2 by linarith)]
            exact mul_le_mul_of_nonneg_right (by linarith) (by linarith)
          have e2 : |(S * C) * (6 / 5 * s.q1 + 8 / 5 * s.q3)| ≤ 1 / 100 * (14 / 5) := by
            rw [abs_mul, abs_of_nonneg hSC0]
            apply mul_le_mul hSC _ (abs_nonneg _) (by norm_num)
            rw [abs_le] at b1 b3 ⊢
            constructor <;> linarith
          exact (abs_add_le _ _).trans (by linarith)
  · obtain ⟨s, hs, h⟩ := (misOri_greatest hl _ p hmu hpu).1
    have := hexagonal_far S C hS0 hS1 hC0 hC1 1 (.inl rfl) s hs
    simp only [one_mul] at this
    rw [h]; exact this
  · obtain ⟨s, hs, h⟩ := (misOri_greatest hl _ r hmu hru).1
    have := hexagonal_far S C hS0 hS1 hC0 hC1 (-1) (.inr rfl) s hs
    simp only [neg_mul, one_mul] at this
    rw [h]; exact this

/-- Orientations as `C43_close` asks for: two about eleven degrees apart. -/
example : let p : Quat ℝ := ⟨1, 0, 0, 0⟩
    let r : Quat ℝ := ⟨399 / 401, 40 / 401, 0, 0⟩
    (2 + Real.sqrt 3) / 4 < (99 / 100 : ℝ) ^ 2 ∧ p.IsUnit ∧ r.IsUnit ∧ p.North ∧ r.North ∧
    99 / 100 ≤ dot p r ∧ 99 / 100 ≤ dot p p ∧ 99 / 100 ≤ dot r r := by
  have h3a : Real.sqrt 3 ^ 2 = 3 := Real.sq_sqrt (by norm_num)
  have h3n : 0 ≤ Real.sqrt 3 := Real.sqrt_nonneg _
  refine ⟨by nlinarith, ?_, ?_, ?_, ?_, ?_, ?_, ?_⟩ <;>
    simp only [Quat.IsUnit, North, dot] <;> norm_num

end DefDAP
