import Verif.Proofs.Dic
import Verif.Proofs.NumText

/-! C70: the check of DIC data. -/

namespace DefDAP

/-! ### Specification -/

/-- Coordinates on a grid of spacing `b`; both axes may run either way. -/
def Spec.RegularGrid (d : DicData) (b x0 y0 sx sy : ℚ) : Prop :=
  0 < b ∧ (sx = 1 ∨ sx = -1) ∧ (sy = 1 ∨ sy = -1) ∧
  ∀ r c, r < d.rows → c < d.cols → d.x r c = x0 + sx * b * c ∧ d.y r c = y0 + sy * b * r

/-! ### Proofs -/

theorem grid_x {rows cols : Nat} {f : Nat → Nat → ℚ} {b x0 sx : ℚ} (hb : 0 < b)
    (hs : sx = 1 ∨ sx = -1) (hr : 0 < rows) (hc : 2 ≤ cols)
    (h : ∀ r c, r < rows → c < cols → f r c = x0 + sx * b * c) :
    minOf (absDiffs (rowMajor rows cols f)) = .ok b := by
  have habs : |sx| = 1 := by rcases hs with rfl | rfl <;> simp
  have hval : ∀ k, k + 1 < rows * cols →
      |f ((k + 1) / cols) ((k + 1) % cols) - f (k / cols) (k % cols)| =
        b * |(((k + 1) % cols : Nat) : ℚ) - ((k % cols : Nat) : ℚ)| := by
    intro k hk
    have h1 : (k + 1) / cols < rows := Nat.div_lt_of_lt_mul (by rw [mul_comm]; exact hk)
    have h2 : k / cols < rows := Nat.div_lt_of_lt_mul (by rw [mul_comm]; omega)
    rw [h _ _ h1 (Nat.mod_lt _ (by omega)), h _ _ h2 (Nat.mod_lt _ (by omega))]
    have e : x0 + sx * b * (((k + 1) % cols : Nat) : ℚ) - (x0 + sx * b * ((k % cols : Nat) : ℚ)) =
        sx * (b * ((((k + 1) % cols : Nat) : ℚ) - ((k % cols : Nat) : ℚ))) := by ring
    rw [e, abs_mul, habs, one_mul, abs_mul, abs_of_pos hb]
  rw [minOf_iff]
  constructor
  · rw [absDiffs_grid]
    have hk : 0 + 1 < rows * cols := by nlinarith
    refine ⟨0, hk, ?_⟩
    rw [hval 0 hk, Nat.zero_add, Nat.mod_eq_of_lt (by omega : 1 < cols), Nat.zero_mod]
    simp
  · intro a ha
    obtain ⟨k, hk, rfl⟩ := (absDiffs_grid _ _ _ _).mp ha
    rw [hval k hk]
    have : (1 : ℚ) ≤ |(((k + 1) % cols : Nat) : ℚ) - ((k % cols : Nat) : ℚ)| := by
      rcases step_mod (k := k) hc with e | ⟨e1, e2⟩
      · rw [e]
        push_cast
        rw [add_sub_cancel_left, abs_one]
      · rw [e1, e2, abs_sub_comm]
        have : (1 : ℚ) ≤ ((cols - 1 : Nat) : ℚ) := by exact_mod_cast (by omega : 1 ≤ cols - 1)
        rw [Nat.cast_zero, sub_zero, abs_of_nonneg (by linarith)]
        exact this
    nlinarith

theorem grid_y {rows cols : Nat} {f : Nat → Nat → ℚ} {b y0 sy : ℚ} (hb : 0 < b)
    (hs : sy = 1 ∨ sy = -1) (hr : 2 ≤ rows) (hc : 0 < cols)
    (h : ∀ r c, r < rows → c < cols → f r c = y0 + sy * b * r) :
    maxOf (absDiffs (rowMajor rows cols f)) = .ok b := by
  have habs : |sy| = 1 := by rcases hs with rfl | rfl <;> simp
  have hval : ∀ k, k + 1 < rows * cols →
      |f ((k + 1) / cols) ((k + 1) % cols) - f (k / cols) (k % cols)| =
        b * |(((k + 1) / cols : Nat) : ℚ) - ((k / cols : Nat) : ℚ)| := by
    intro k hk
    have h1 : (k + 1) / cols < rows := Nat.div_lt_of_lt_mul (by rw [mul_comm]; exact hk)
    have h2 : k / cols < rows := Nat.div_lt_of_lt_mul (by rw [mul_comm]; omega)
    rw [h _ _ h1 (Nat.mod_lt _ (by omega)), h _ _ h2 (Nat.mod_lt _ (by omega))]
    have e : y0 + sy * b * (((k + 1) / cols : Nat) : ℚ) - (y0 + sy * b * ((k / cols : Nat) : ℚ)) =
        sy * (b * ((((k + 1) / cols : Nat) : ℚ) - ((k / cols : Nat) : ℚ))) := by ring
    rw [e, abs_mul, habs, one_mul, abs_mul, abs_of_pos hb]
  rw [maxOf_iff]
  constructor
  · rw [absDiffs_grid]
    have hk : cols - 1 + 1 < rows * cols := by
      rw [Nat.sub_add_cancel hc]
      nlinarith
    refine ⟨cols - 1, hk, ?_⟩
    rw [hval _ hk, Nat.sub_add_cancel hc, Nat.div_self hc, Nat.div_eq_of_lt (by omega)]
    simp
  · intro a ha
    obtain ⟨k, hk, rfl⟩ := (absDiffs_grid _ _ _ _).mp ha
    rw [hval k hk]
    rcases step_div (k := k) hc with e | e
    · rw [e, sub_self, abs_zero, mul_zero]
      exact hb.le
    · rw [e]
      push_cast
      rw [add_sub_cancel_left, abs_one, mul_one]

/-- Extremes of a coordinate that depends on one of the indices. -/
theorem grid_extent {l : List ℚ} {n : Nat} {b z s : ℚ} (hb : 0 < b) (hs : s = 1 ∨ s = -1)
    (hn : 0 < n) (h : ∀ a, a ∈ l ↔ ∃ i, i < n ∧ a = z + s * b * i) :
    ∃ lo hi, maxOf l = .ok hi ∧ minOf l = .ok lo ∧ (hi - lo) / b + 1 = n := by
  have hcast : ((n - 1 : Nat) : ℚ) = (n : ℚ) - 1 := by
    rw [Nat.cast_sub hn, Nat.cast_one]
  have hle : ∀ i : Nat, i < n → (i : ℚ) ≤ (n : ℚ) - 1 := by
    intro i hi
    rw [← hcast]
    exact_mod_cast (by omega : i ≤ n - 1)
  have h0 : ∀ i : Nat, (0 : ℚ) ≤ i := fun i => by positivity
  rcases hs with rfl | rfl
  · refine ⟨z, z + b * (n - 1), ?_, ?_, by field_simp; ring⟩
    · rw [maxOf_iff]
      refine ⟨(h _).mpr ⟨n - 1, by omega, by rw [hcast]; ring⟩, ?_⟩
      intro a ha
      obtain ⟨i, hi, rfl⟩ := (h a).mp ha
      have := mul_le_mul_of_nonneg_left (hle i hi) hb.le
      linarith
    · rw [minOf_iff]
      refine ⟨(h _).mpr ⟨0, hn, by push_cast; ring⟩, ?_⟩
      intro a ha
      obtain ⟨i, hi, rfl⟩ := (h a).mp ha
      have := mul_nonneg hb.le (h0 i)
      linarith
  · refine ⟨z - b * (n - 1), z, ?_, ?_, by field_simp; ring⟩
    · rw [maxOf_iff]
      refine ⟨(h _).mpr ⟨0, hn, by push_cast; ring⟩, ?_⟩
      intro a ha
      obtain ⟨i, hi, rfl⟩ := (h a).mp ha
      have := mul_nonneg hb.le (h0 i)
      linarith
    · rw [minOf_iff]
      refine ⟨(h _).mpr ⟨n - 1, by omega, by rw [hcast]; ring⟩, ?_⟩
      intro a ha
      obtain ⟨i, hi, rfl⟩ := (h a).mp ha
      have := mul_le_mul_of_nonneg_left (hle i hi) hb.le
      linarith

/-- **C70**: data on a regular grid passes the check with the binning and shape of the grid, and
with no other. -/
theorem C70_accept (d : DicData) (b x0 y0 sx sy : ℚ) (h : Spec.RegularGrid d b x0 y0 sx sy)
    (hr : 2 ≤ d.rows) (hc : 2 ≤ d.cols) (m : DicMeta) :
    checkDic m d = .ok () ↔ m.binning = b ∧ m.shape = ((d.rows : Int), (d.cols : Int)) := by
  obtain ⟨hb, hsx, hsy, hg⟩ := h
  have hx := grid_x hb hsx (by omega) hc (fun r c h1 h2 => (hg r c h1 h2).1)
  have hy := grid_y hb hsy hr (by omega) (fun r c h1 h2 => (hg r c h1 h2).2)
  obtain ⟨xl, xh, hx1, hx2, hxe⟩ := grid_extent (l := rowMajor d.rows d.cols d.x) (n := d.cols)
    (z := x0) hb hsx (by omega) (by
      intro a
      rw [rowMajor_mem]
      constructor
      · rintro ⟨r, c, h1, h2, rfl⟩
        exact ⟨c, h2, (hg r c h1 h2).1⟩
      · rintro ⟨c, h2, rfl⟩
        exact ⟨0, c, by omega, h2, (hg 0 c (by omega) h2).1⟩)
  obtain ⟨yl, yh, hy1, hy2, hye⟩ := grid_extent (l := rowMajor d.rows d.cols d.y) (n := d.rows)
    (z := y0) hb hsy (by omega) (by
      intro a
      rw [rowMajor_mem]
      constructor
      · rintro ⟨r, c, h1, h2, rfl⟩
        exact ⟨r, h1, (hg r c h1 h2).2⟩
      · rintro ⟨r, h1, rfl⟩
        exact ⟨r, 0, h1, by omega, (hg r 0 h1 (by omega)).2⟩)
  unfold checkDic
  simp only [hx, hy, Except.bind, true_and]
  by_cases hm : b = m.binning
  · rw [if_pos hm]
    unfold checkShape
    simp only [hx1, hx2, hy1, hy2, Except.bind]
    rw [← hm, if_neg hb.ne', hxe, hye, truncInt_nat, truncInt_nat]
    constructor
    · intro he
      refine ⟨rfl, ?_⟩
      by_contra hne
      rw [if_neg (fun e => hne e.symm)] at he
      exact absurd he (by simp)
    · rintro ⟨_, e⟩
      rw [if_pos e.symm]
  · rw [if_neg hm]
    constructor
    · intro he; exact absurd he (by simp)
    · rintro ⟨e, _⟩; exact absurd e.symm hm

/-- **C70**: a grid of one row or one column is refused, whatever the metadata says. -/
theorem C70_thin (d : DicData) (b x0 y0 sx sy : ℚ) (h : Spec.RegularGrid d b x0 y0 sx sy)
    (hr : 0 < d.rows) (hc : 0 < d.cols) (h1 : d.rows = 1 ∨ d.cols = 1) (m : DicMeta) :
    checkDic m d = .error .valueError := by
  obtain ⟨hb, hsx, hsy, hg⟩ := h
  unfold checkDic
  simp only
  cases hmin : minOf (absDiffs (rowMajor d.rows d.cols d.x)) with
  | error e =>
    have : e = .valueError := by
      cases hl : absDiffs (rowMajor d.rows d.cols d.x) with
      | nil => rw [hl] at hmin; unfold minOf at hmin; injection hmin with h; exact h.symm
      | cons a t => rw [hl] at hmin; unfold minOf at hmin; exact absurd hmin (by simp)
    rw [this]
    rfl
  | ok bx =>
    cases hmax : maxOf (absDiffs (rowMajor d.rows d.cols d.y)) with
    | error e =>
      have : e = .valueError := by
        cases hl : absDiffs (rowMajor d.rows d.cols d.y) with
        | nil => rw [hl] at hmax; unfold maxOf at hmax; injection hmax with h; exact h.symm
        | cons a t => rw [hl] at hmax; unfold maxOf at hmax; exact absurd hmax (by simp)
      rw [this]
      rfl
    | ok by' =>
      simp only [Except.bind]
      rw [if_neg]
      rintro ⟨e, _⟩
      obtain ⟨hx1, hx2⟩ := (minOf_iff _ _).mp hmin
      obtain ⟨hy1, hy2⟩ := (maxOf_iff _ _).mp hmax
      rcases h1 with h1 | h1
      · -- one row: y does not change
        have hlen : 1 < d.cols := by
          obtain ⟨k, hk, _⟩ := (absDiffs_grid _ _ _ _).mp hx1
          rw [h1] at hk
          omega
        have hx := grid_x hb hsx hr hlen (fun r c h1 h2 => (hg r c h1 h2).1)
        rw [hmin] at hx
        injection hx with hx
        obtain ⟨k, hk, hv⟩ := (absDiffs_grid _ _ _ _).mp hy1
        rw [h1, one_mul] at hk
        rw [Nat.div_eq_of_lt hk, Nat.div_eq_of_lt (by omega : k < d.cols),
          (hg 0 _ hr (Nat.mod_lt _ hc)).2, (hg 0 _ hr (Nat.mod_lt _ hc)).2, sub_self, abs_zero] at hv
        linarith
      · -- one column: x does not change
        have hrows : 1 < d.rows := by
          obtain ⟨k, hk, _⟩ := (absDiffs_grid _ _ _ _).mp hy1
          rw [h1] at hk
          omega
        have hy := grid_y hb hsy hrows hc (fun r c h1 h2 => (hg r c h1 h2).2)
        rw [hmax] at hy
        injection hy with hy
        obtain ⟨k, hk, hv⟩ := (absDiffs_grid _ _ _ _).mp hx1
        rw [h1, mul_one] at hk
        rw [h1, Nat.div_one, Nat.div_one, Nat.mod_one, Nat.mod_one, (hg _ 0 hk hc).1,
          (hg _ 0 (by omega) hc).1, sub_self, abs_zero] at hv
        linarith

/-- **C70**: what acceptance means for any data: the binning is the smallest step in x and the
largest in y, and the shape is that of the extent of the coordinates. -/
theorem C70_sound (m : DicMeta) (d : DicData) (h : checkDic m d = .ok ()) :
    let xs := rowMajor d.rows d.cols d.x
    let ys := rowMajor d.rows d.cols d.y
    (m.binning ∈ absDiffs xs ∧ ∀ a ∈ absDiffs xs, m.binning ≤ a) ∧
    (m.binning ∈ absDiffs ys ∧ ∀ a ∈ absDiffs ys, a ≤ m.binning) ∧ 0 < m.binning ∧
    ∃ x0 ∈ xs, ∃ x1 ∈ xs, ∃ y0 ∈ ys, ∃ y1 ∈ ys,
      (∀ a ∈ xs, x0 ≤ a ∧ a ≤ x1) ∧ (∀ a ∈ ys, y0 ≤ a ∧ a ≤ y1) ∧
      m.shape = (⌊(y1 - y0) / m.binning⌋ + 1, ⌊(x1 - x0) / m.binning⌋ + 1) := by
  intro xs ys
  unfold checkDic at h
  simp only at h
  cases hmin : minOf (absDiffs xs) with
  | error e => rw [hmin] at h; exact absurd h (by simp [Except.bind])
  | ok bx =>
    rw [hmin] at h
    cases hmax : maxOf (absDiffs ys) with
    | error e => rw [hmax] at h; exact absurd h (by simp [Except.bind])
    | ok by' =>
      rw [hmax] at h
      simp only [Except.bind] at h
      split at h
      · next hb =>
        obtain ⟨e1, e2⟩ := hb
        subst e1
        rw [e2] at hmin hmax
        refine ⟨(minOf_iff _ _).mp hmin, (maxOf_iff _ _).mp hmax, ?_⟩
        have hb0 : 0 ≤ m.binning := by
          obtain ⟨i, p, q, _, _, e⟩ := (absDiffs_mem _ _).mp ((minOf_iff _ _).mp hmin).1
          rw [e]
          exact abs_nonneg _
        unfold checkShape at h
        cases hx1 : maxOf xs with
        | error e => rw [hx1] at h; exact absurd h (by simp [Except.bind])
        | ok x1 =>
        cases hx0 : minOf xs with
        | error e => rw [hx1, hx0] at h; exact absurd h (by simp [Except.bind])
        | ok x0 =>
        cases hy1 : maxOf ys with
        | error e => rw [hx1, hx0, hy1] at h; exact absurd h (by simp [Except.bind])
        | ok y1 =>
        cases hy0 : minOf ys with
        | error e => rw [hx1, hx0, hy1, hy0] at h; exact absurd h (by simp [Except.bind])
        | ok y0 =>
        rw [hx1, hx0, hy1, hy0] at h
        simp only [Except.bind] at h
        split at h
        · exact absurd h (by simp)
        · next hne =>
          have hpos : 0 < m.binning := lt_of_le_of_ne hb0 (Ne.symm hne)
          split at h
          · next hs =>
            rw [maxOf_iff] at hx1 hy1
            rw [minOf_iff] at hx0 hy0
            have tr : ∀ a c : ℚ, c ≤ a →
                truncInt ((a - c) / m.binning + 1) = ⌊(a - c) / m.binning⌋ + 1 := by
              intro a c hac
              have h0 : 0 ≤ (a - c) / m.binning := div_nonneg (by linarith) hb0
              unfold truncInt
              rw [if_pos (by linarith), Int.floor_add_one]
            refine ⟨hpos, x0, hx0.1, x1, hx1.1, y0, hy0.1, y1, hy1.1,
              fun a ha => ⟨hx0.2 a ha, hx1.2 a ha⟩, fun a ha => ⟨hy0.2 a ha, hy1.2 a ha⟩, ?_⟩
            rw [← hs, tr _ _ (hy1.2 _ hy0.1), tr _ _ (hx1.2 _ hx0.1)]
          · exact absurd h (by simp)
      · exact absurd h (by simp)

/-- A table with four entries per line, flattened. -/
theorem flatten_four : ∀ (l : List (List ℚ)), (∀ a ∈ l, a.length = 4) → ∀ (k i : Nat) (a : List ℚ),
    l[k]? = some a → i < 4 → l.flatten.getD (k * 4 + i) 0 = a.getD i 0 := by
  intro l
  induction l with
  | nil => intro _ k i a h; simp at h
  | cons x l ih =>
    intro hl k i a hk hi
    have hx : x.length = 4 := hl x (by simp)
    rw [List.flatten_cons, List.getD_eq_getElem?_getD, List.getD_eq_getElem?_getD]
    cases k with
    | zero =>
      rw [List.getElem?_cons_zero] at hk
      injection hk with hk
      subst hk
      rw [Nat.zero_mul, Nat.zero_add, List.getElem?_append_left (by omega)]
    | succ k =>
      rw [List.getElem?_cons_succ] at hk
      rw [List.getElem?_append_right (by omega), hx]
      have := ih (fun a ha => hl a (by simp [ha])) k i a hk hi
      rw [List.getD_eq_getElem?_getD, List.getD_eq_getElem?_getD] at this
      rw [← this]
      congr 2
      omega

/-- **C70**: a DaVis file whose header gives binning and shape of a regular grid and which lists the
grid row by row is read with these values. -/
theorem C70_davis (d : DicData) (b : Nat) (x0 y0 sx sy : ℚ)
    (h : Spec.RegularGrid d b x0 y0 sx sy) (hr : 2 ≤ d.rows) (hc : 2 ≤ d.cols)
    (header name version other : Str) (rest : List Str)
    (hh : splitWs header = name :: version :: other :: intStr b :: intStr d.rows ::
      intStr d.cols :: rest) :
    ∃ d', loadDavis header 4
        (rowMajor d.rows d.cols fun r c => [d.x r c, d.y r c, d.u r c, d.v r c]) =
      .ok (⟨b, ((d.rows : Int), (d.cols : Int))⟩, d') ∧ d'.rows = d.rows ∧ d'.cols = d.cols ∧
      ∀ r c, r < d.rows → c < d.cols →
        d'.x r c = d.x r c ∧ d'.y r c = d.y r c ∧ d'.u r c = d.u r c ∧ d'.v r c = d.v r c := by
  set table := rowMajor d.rows d.cols fun r c => [d.x r c, d.y r c, d.u r c, d.v r c] with ht
  have hn : 0 < d.rows * d.cols := Nat.mul_pos (by omega) (by omega)
  have hdepth : d.rows * d.cols * 4 / (d.rows * d.cols) = 4 := Nat.mul_div_cancel_left 4 hn
  have hentry : ∀ r c, r < d.rows → c < d.cols → ∀ i < 4,
      table.flatten.getD ((r * d.cols + c) * 4 + i) 0 =
        [d.x r c, d.y r c, d.u r c, d.v r c].getD i 0 := by
    intro r c h1 h2 i hi
    have hk : r * d.cols + c < d.rows * d.cols := by nlinarith
    refine flatten_four table ?_ _ i _ ?_ hi
    · intro a ha
      obtain ⟨r, c, _, _, rfl⟩ := (rowMajor_mem _ _ _ _).mp ha
      rfl
    · rw [ht, rowMajor_get _ _ _ _ hk]
      have e1 : (r * d.cols + c) / d.cols = r := by
        rw [Nat.add_comm, Nat.add_mul_div_right _ _ (by omega), Nat.div_eq_of_lt h2, Nat.zero_add]
      have e2 : (r * d.cols + c) % d.cols = c := by
        rw [Nat.add_comm, Nat.add_mul_mod_self_right, Nat.mod_eq_of_lt h2]
      rw [e1, e2]
  have hshape : reshapeTable 4 table ((d.rows : Int), (d.cols : Int)) =
      .ok (4, fun i r c => table.flatten.getD ((r * d.cols + c) * 4 + i) 0) := by
    unfold reshapeTable
    simp only [Int.toNat_natCast]
    rw [ht, rowMajor_length, if_pos ⟨by omega, by omega, Nat.mul_mod_right _ _⟩, hdepth]
  let a : Nat → Nat → Nat → ℚ := fun i r c => table.flatten.getD ((r * d.cols + c) * 4 + i) 0
  let d' : DicData := ⟨d.rows, d.cols, a 0, a 1, a 2, a 3⟩
  have hcheck : checkDic ⟨b, ((d.rows : Int), (d.cols : Int))⟩ d' = .ok () := by
    refine (C70_accept d' b x0 y0 sx sy ?_ hr hc _).mpr ⟨rfl, rfl⟩
    refine ⟨h.1, h.2.1, h.2.2.1, ?_⟩
    intro r c h1 h2
    obtain ⟨e1, e2⟩ := h.2.2.2 r c h1 h2
    refine ⟨?_, ?_⟩
    · rw [← e1]; exact hentry r c h1 h2 0 (by omega)
    · rw [← e2]; exact hentry r c h1 h2 1 (by omega)
  refine ⟨d', ?_, rfl, rfl, ?_⟩
  · unfold loadDavis
    simp only [hh, List.getElem?_cons_zero, List.getElem?_cons_succ, Except.bind,
      parseInt_intStr, hshape]
    rw [if_neg (by omega)]
    unfold checkedDic
    have e : (⟨((b : Int) : ℚ), ((d.rows : Int), (d.cols : Int))⟩ : DicMeta) =
        ⟨(b : ℚ), ((d.rows : Int), (d.cols : Int))⟩ := by rw [Int.cast_natCast]
    rw [e]
    show (checkDic _ d').bind _ = _
    rw [hcheck]
    rfl
  · intro r c h1 h2
    exact ⟨hentry r c h1 h2 0 (by omega), hentry r c h1 h2 1 (by omega),
      hentry r c h1 h2 2 (by omega), hentry r c h1 h2 3 (by omega)⟩

/-- **C70**: the shape of the arrays is not checked. The two rows of a grid of three columns, given
as one row of six, are accepted with a shape of two rows and three columns. -/
theorem C70_array_shape :
    let d : DicData := ⟨1, 6, fun _ c => (c % 3 : Nat), fun _ c => (c / 3 : Nat), fun _ _ => 0,
      fun _ _ => 0⟩
    checkDic ⟨1, (2, 3)⟩ d = .ok () ∧
    loadPivBinary ⟨1, (2, 3)⟩ d = .ok (⟨1, (2, 3)⟩, ⟨1, 6, flipRows 1 d.x, flipRows 1 d.y,
      flipRows 1 d.u, flipRows 1 d.v⟩) := by
  intro d
  have h : checkDic ⟨1, (2, 3)⟩ d = .ok () := by decide +kernel
  refine ⟨h, ?_⟩
  unfold loadPivBinary
  rw [if_pos (by decide +kernel)]
  unfold checkedDic
  have : checkDic ⟨1, (2, 3)⟩ ⟨1, 6, flipRows 1 d.x, flipRows 1 d.y, flipRows 1 d.u,
      flipRows 1 d.v⟩ = .ok () := by decide +kernel
  show (checkDic ⟨1, (2, 3)⟩ ⟨1, 6, flipRows 1 d.x, flipRows 1 d.y, flipRows 1 d.u,
      flipRows 1 d.v⟩).bind _ = _
  rw [this]
  rfl

/-! ### Non-vacuity -/

/-- A grid of three rows and two columns with y running down. -/
def exGrid : DicData :=
  ⟨3, 2, fun _ c => 2 + 4 * c, fun r _ => 10 - 4 * r, fun r c => r + c, fun _ _ => 1⟩

theorem exGrid_regular : Spec.RegularGrid exGrid 4 2 10 1 (-1) := by
  refine ⟨by norm_num, Or.inl rfl, Or.inr rfl, ?_⟩
  intro r c _ _
  exact ⟨by show (2 : ℚ) + 4 * c = _; ring, by show (10 : ℚ) - 4 * r = _; ring⟩

/-- Accepted with its own shape, refused with the transposed one. -/
example : checkDic ⟨4, (3, 2)⟩ exGrid = .ok () ∧
    checkDic ⟨4, (2, 3)⟩ exGrid ≠ .ok () :=
  ⟨(C70_accept _ _ _ _ _ _ exGrid_regular (by decide) (by decide) _).mpr ⟨rfl, rfl⟩,
   fun h => absurd ((C70_accept _ _ _ _ _ _ exGrid_regular (by decide) (by decide) _).mp h).2
    (by decide)⟩

set_option maxRecDepth 20000 in
/-- A header for it. -/
example : ∃ m d, loadDavis (lit "#DaVis 8.4.0 2D-vector 4 3 2 x") 4
    (rowMajor 3 2 fun r c => [exGrid.x r c, exGrid.y r c, exGrid.u r c, exGrid.v r c]) =
      .ok (m, d) := by
  obtain ⟨d, h, _⟩ := C70_davis exGrid 4 2 10 1 (-1) exGrid_regular (by decide) (by decide)
    (lit "#DaVis 8.4.0 2D-vector 4 3 2 x") (lit "#DaVis") (lit "8.4.0") (lit "2D-vector")
    [lit "x"] (by decide +kernel)
  exact ⟨_, _, h⟩

end DefDAP
