import Verif.Props.DicPlace

/-! C151: the same displacement field, saved in different formats, loads as the same map. -/

namespace DefDAP

/-! ### Specification -/

/-- The rows of a PyVale file for a grid of points `b` pixels apart, the first at `(x0, y0)`, with
the displacements `u`, `v` of the points. The points are listed row by row. The rows may come from
the largest y (`down`), and each row from the largest x (`left`). -/
def Spec.valeRaster (b x0 y0 rows cols : Nat) (left down : Bool) (u v : Nat → Nat → ℚ) :
    List ValeRow :=
  rowMajor rows cols fun i j =>
    let r := if down then rows - 1 - i else i
    let c := if left then cols - 1 - j else j
    ⟨x0 + b * c, y0 + b * r, u r c, v r c⟩

/-- The same rows listed column by column. -/
def Spec.valeColumns (b x0 y0 rows cols : Nat) (u v : Nat → Nat → ℚ) : List ValeRow :=
  rowMajor cols rows fun c r => ⟨x0 + b * c, y0 + b * r, u r c, v r c⟩

/-- The loaded data of the grid: the point of row `r` and column `c`, with its displacement. -/
def Spec.HoldsField (l : Except Err (DicMeta × DicData)) (b x0 y0 : ℚ) (rows cols : Nat)
    (u v : Nat → Nat → ℚ) : Prop :=
  ∃ d, l = .ok (⟨b, ((rows : Int), (cols : Int))⟩, d) ∧ d.rows = rows ∧ d.cols = cols ∧
    ∀ r c, r < rows → c < cols →
      d.x r c = x0 + b * c ∧ d.y r c = y0 + b * r ∧ d.u r c = u r c ∧ d.v r c = v r c

/-! ### Proofs -/

theorem intRange_of {l : List Int} {lo hi : Int} (h1 : lo ∈ l) (h2 : hi ∈ l)
    (h : ∀ a ∈ l, lo ≤ a ∧ a ≤ hi) : intRange l = .ok (lo, hi) := by
  cases l with
  | nil => exact absurd h1 (by simp)
  | cons a t =>
    have hok : intRange (a :: t) = .ok (t.foldl min a, t.foldl max a) := rfl
    obtain ⟨e1, e2, e3⟩ := intRange_spec hok
    rw [hok]
    have a1 := h _ e1
    have a2 := h _ e2
    have a3 := e3 _ h1
    have a4 := e3 _ h2
    congr 2
    · omega
    · omega

/-- A list of the points of a grid is read if its spacing is found. -/
theorem vale_points (b x0 y0 rows cols : Nat) (u v : Nat → Nat → ℚ) (l : List ValeRow) (hb : 0 < b)
    (hr : 2 ≤ rows) (hc : 2 ≤ cols)
    (hbin : dicBinning (l.map fun p => (p.x : ℚ)) (l.map fun p => (p.y : ℚ)) = .ok (b : Int))
    (hm : ∀ p, p ∈ l ↔ ∃ r c : Nat, r < rows ∧ c < cols ∧
      p = ⟨x0 + b * c, y0 + b * r, u r c, v r c⟩) :
    Spec.HoldsField (loadPyVale l) b x0 y0 rows cols u v := by
  have hbz : (0 : Int) < b := by exact_mod_cast hb
  have hbq : (0 : ℚ) < b := by exact_mod_cast hb
  obtain ⟨R, rfl⟩ : ∃ R, rows = R + 1 := ⟨rows - 1, by omega⟩
  obtain ⟨C, rfl⟩ : ∃ C, cols = C + 1 := ⟨cols - 1, by omega⟩
  have hys : intRange (l.map ValeRow.y) = .ok ((y0 : Int), (y0 : Int) + b * R) := by
    apply intRange_of
    · exact List.mem_map.mpr ⟨_, (hm _).mpr ⟨0, 0, by omega, by omega, rfl⟩, by simp⟩
    · exact List.mem_map.mpr ⟨_, (hm _).mpr ⟨R, 0, by omega, by omega, rfl⟩, rfl⟩
    · intro a ha
      obtain ⟨p, hp, rfl⟩ := List.mem_map.mp ha
      obtain ⟨r, c, h1, h2, rfl⟩ := (hm p).mp hp
      have : (r : Int) ≤ R := by exact_mod_cast (by omega : r ≤ R)
      have h0 : (0 : Int) ≤ r := by positivity
      constructor
      · show (y0 : Int) ≤ y0 + b * r
        nlinarith
      · show (y0 : Int) + b * r ≤ y0 + b * R
        nlinarith
  have hxs : intRange (l.map ValeRow.x) = .ok ((x0 : Int), (x0 : Int) + b * C) := by
    apply intRange_of
    · exact List.mem_map.mpr ⟨_, (hm _).mpr ⟨0, 0, by omega, by omega, rfl⟩, by simp⟩
    · exact List.mem_map.mpr ⟨_, (hm _).mpr ⟨0, C, by omega, by omega, rfl⟩, rfl⟩
    · intro a ha
      obtain ⟨p, hp, rfl⟩ := List.mem_map.mp ha
      obtain ⟨r, c, h1, h2, rfl⟩ := (hm p).mp hp
      have : (c : Int) ≤ C := by exact_mod_cast (by omega : c ≤ C)
      have h0 : (0 : Int) ≤ c := by positivity
      constructor
      · show (x0 : Int) ≤ x0 + b * c
        nlinarith
      · show (x0 : Int) + b * c ≤ x0 + b * C
        nlinarith
  have hload : ∃ d, loadPyVale l = .ok (⟨b, ((R + 1 : Nat), (C + 1 : Nat))⟩, d) ∧
      d.rows = R + 1 ∧ d.cols = C + 1 ∧ (∀ r c, d.x r c = x0 + b * c ∧ d.y r c = y0 + b * r) := by
    unfold loadPyVale
    rw [hbin, hys, hxs]
    simp only [Except.bind]
    have e1 : ∀ a n : Int, (a + b * n - a) = b * n := fun a n => by ring
    have e2 : ∀ n : Int, (b : Int) * n / b = n := fun n => Int.mul_ediv_cancel_left _ hbz.ne'
    rw [if_neg hbz.ne', e1, e1, if_pos ⟨Int.mul_emod_right _ _, Int.mul_emod_right _ _⟩, e2, e2]
    have e3 : ∀ n : Nat, ((n : Int) + 1).toNat = n + 1 := fun n => by omega
    rw [e3, e3]
    unfold checkedDic
    rw [(C70_accept _ (b : ℚ) x0 y0 1 1 ⟨hbq, Or.inl rfl, Or.inl rfl, ?_⟩ hr hc _).mpr
      ⟨Int.cast_natCast b, by push_cast; rfl⟩]
    · refine ⟨_, rfl, rfl, rfl, ?_⟩
      intro r c
      constructor <;> push_cast <;> rfl
    · intro r c _ _
      constructor <;> push_cast <;> ring
  obtain ⟨d, hd, h1, h2, hxy⟩ := hload
  refine ⟨d, hd, h1, h2, ?_⟩
  intro r c hr' hc'
  refine ⟨(hxy r c).1, (hxy r c).2, ?_⟩
  have hgrid : ∀ p ∈ l, ∀ q ∈ l, (b : Int) ∣ p.x - q.x ∧ (b : Int) ∣ p.y - q.y := by
    intro p hp q hq
    obtain ⟨r1, c1, _, _, rfl⟩ := (hm p).mp hp
    obtain ⟨r2, c2, _, _, rfl⟩ := (hm q).mp hq
    exact ⟨⟨(c1 : Int) - c2, by show (x0 : Int) + b * c1 - (x0 + b * c2) = _; ring⟩,
      ⟨(r1 : Int) - r2, by show (y0 : Int) + b * r1 - (y0 + b * r2) = _; ring⟩⟩
  have hpl := (C72_placed l _ d (b : Int) hd (Int.cast_natCast b).symm hgrid).2.2 r c
  rw [(hxy r c).1, (hxy r c).2] at hpl
  rcases hpl with ⟨hno, _⟩ | ⟨pre, p, post, hl, ⟨px, py⟩, _, pu, pv⟩
  · exfalso
    refine hno _ ((hm _).mpr ⟨r, c, hr', hc', rfl⟩) ⟨?_, ?_⟩ <;> push_cast <;> rfl
  · obtain ⟨r', c', _, _, rfl⟩ := (hm p).mp (by rw [hl]; simp)
    have hc2 : c' = c := by
      push_cast at px
      have : (b : ℚ) * c' = b * c := by linarith
      exact_mod_cast mul_left_cancel₀ hbq.ne' this
    have hr2 : r' = r := by
      push_cast at py
      have : (b : ℚ) * r' = b * r := by linarith
      exact_mod_cast mul_left_cancel₀ hbq.ne' this
    subst hc2 hr2
    exact ⟨pu, pv⟩

/-- **C151**: a PyVale file that lists the points of a grid row by row is read, whichever way its
rows and columns run, and every point has its own displacement. -/
theorem C151_pyvale (b x0 y0 rows cols : Nat) (left down : Bool) (u v : Nat → Nat → ℚ) (hb : 0 < b)
    (hr : 2 ≤ rows) (hc : 2 ≤ cols) :
    Spec.HoldsField (loadPyVale (Spec.valeRaster b x0 y0 rows cols left down u v)) b x0 y0 rows cols
      u v := by
  have hbq : (0 : ℚ) < b := by exact_mod_cast hb
  have flip : ∀ (s : Bool) (z n : Nat), ∃ z0 sz : ℚ, (sz = 1 ∨ sz = -1) ∧ ∀ i : Nat, i < n →
      (z : ℚ) + b * ((if s then n - 1 - i else i : Nat) : ℚ) = z0 + sz * b * i := by
    intro s z n
    cases s with
    | false => exact ⟨z, 1, Or.inl rfl, fun i _ => by simp⟩
    | true =>
      refine ⟨z + b * ((n : ℚ) - 1), -1, Or.inr rfl, fun i hi => ?_⟩
      simp only [if_true]
      rw [Nat.cast_sub (by omega), Nat.cast_sub (by omega)]
      push_cast
      ring
  obtain ⟨x1, sx, hsx, hx⟩ := flip left x0 cols
  obtain ⟨y1, sy, hsy, hy⟩ := flip down y0 rows
  refine vale_points b x0 y0 rows cols u v _ hb hr hc ?_ ?_
  · unfold dicBinning Spec.valeRaster
    rw [rowMajor_map, rowMajor_map,
      grid_x (b := (b : ℚ)) (x0 := x1) (sx := sx) hbq hsx (by omega) hc ?_,
      grid_y (b := (b : ℚ)) (y0 := y1) (sy := sy) hbq hsy hr (by omega) ?_]
    · simp only [Except.bind]
      rw [if_pos trivial, truncInt_nat]
    · intro r c h1 h2
      rw [← hy r h1]
      push_cast
      rfl
    · intro r c h1 h2
      rw [← hx c h2]
      push_cast
      rfl
  · intro p
    unfold Spec.valeRaster
    rw [rowMajor_mem]
    have inv : ∀ (s : Bool) (n i : Nat), i < n → (if s then n - 1 - i else i) < n ∧
        (if s then n - 1 - (if s then n - 1 - i else i) else (if s then n - 1 - i else i)) = i := by
      intro s n i hi
      cases s
      · simp [hi]
      · simp only [if_true]
        omega
    constructor
    · rintro ⟨r, c, h1, h2, rfl⟩
      exact ⟨_, _, (inv down rows r h1).1, (inv left cols c h2).1, rfl⟩
    · rintro ⟨r, c, h1, h2, rfl⟩
      refine ⟨_, _, (inv down rows r h1).1, (inv left cols c h2).1, ?_⟩
      simp only [(inv down rows r h1).2, (inv left cols c h2).2]

/-- **C151**: one field of displacements, saved by each of the four programs, loads as one map.
The sub-windows have an even number of pixels, so that their centres are whole pixels. -/
theorem C151_same (k rows cols : Nat) (u v : Nat → Nat → ℚ) (left down : Bool) (hk : 0 < k)
    (hr : 2 ≤ rows) (hc : 2 ≤ cols) (header name version other : Str) (rest : List Str)
    (hh : splitWs header = name :: version :: other :: intStr (2 * k : Nat) :: intStr rows ::
      intStr cols :: rest) :
    let b := 2 * k
    let field (l : Except Err (DicMeta × DicData)) : Prop :=
      Spec.HoldsField l b (b / 2) (b / 2) rows cols u v
    let up (f : Nat → Nat → ℚ) : Nat → Nat → ℚ := fun r c => f (rows - 1 - r) c
    field (loadDavis header 4 (rowMajor rows cols fun r c =>
      [(b : ℚ) / 2 + b * c, (b : ℚ) / 2 + b * r, u r c, v r c])) ∧
    field (loadPivText (Spec.pivTable b rows cols false (up u) (up v))) ∧
    field (loadPivBinary ⟨b, (rows, cols)⟩ ⟨rows, cols, fun _ c => (b : ℚ) / 2 + b * c,
      fun r _ => (b : ℚ) / 2 + b * ((rows : ℚ) - 1 - r), up u, up v⟩) ∧
    field (loadPyVale (Spec.valeRaster b k k rows cols left down u v)) := by
  intro b field up
  have hb : 0 < b := by omega
  have hbq : (0 : ℚ) < b := by exact_mod_cast hb
  have hup : ∀ (f : Nat → Nat → ℚ) (r c : Nat), r < rows → up f (rows - 1 - r) c = f r c := by
    intro f r c h
    show f (rows - 1 - (rows - 1 - r)) c = f r c
    congr 1
    omega
  refine ⟨?_, ?_, ?_, ?_⟩
  · obtain ⟨d, h1, h2, h3, h4⟩ := C70_davis ⟨rows, cols, fun _ c => (b : ℚ) / 2 + b * c,
      fun r _ => (b : ℚ) / 2 + b * r, u, v⟩ b (b / 2) (b / 2) 1 1
      ⟨hbq, Or.inl rfl, Or.inl rfl, fun r c _ _ => ⟨by ring, by ring⟩⟩ hr hc header name version
      other rest hh
    exact ⟨d, h1, h2, h3, h4⟩
  · obtain ⟨d, h1, h2, h3, h4⟩ := C71_descending b rows cols (up u) (up v) hb hr hc
    refine ⟨d, h1, h2, h3, fun r c hr' hc' => ?_⟩
    obtain ⟨e1, e2, e3, e4⟩ := h4 r c hr' hc'
    exact ⟨e1, e2, e3.trans (hup u r c hr'), e4.trans (hup v r c hr')⟩
  · obtain ⟨d, h1, h2, h3, ⟨_, _, _, hg⟩, h4⟩ := C71_binary
      ⟨rows, cols, fun _ c => (b : ℚ) / 2 + b * c,
        fun r _ => (b : ℚ) / 2 + b * ((rows : ℚ) - 1 - r), up u, up v⟩ b (b / 2)
      (b / 2 + b * ((rows : ℚ) - 1)) 1 (-1)
      ⟨hbq, Or.inl rfl, Or.inr rfl, fun r c _ _ => ⟨by ring, by ring⟩⟩ hr hc
    refine ⟨d, h1, h2, h3, fun r c hr' hc' => ?_⟩
    obtain ⟨e1, e2⟩ := hg r c (by rw [h2]; exact hr') (by rw [h3]; exact hc')
    obtain ⟨e3, e4⟩ := h4 r c hr' hc'
    refine ⟨?_, ?_, e3.trans (hup u r c hr'), e4.trans (hup v r c hr')⟩
    · rw [e1]; ring
    · rw [e2]; ring
  · have h := C151_pyvale b k k rows cols left down u v hb hr hc
    have e : (k : ℚ) = (b : ℚ) / 2 := by
      show (k : ℚ) = ((2 * k : Nat) : ℚ) / 2
      push_cast
      ring
    rw [e] at h
    exact h

/-- **C151**: the same points listed column by column are refused: the smallest difference in x is
then taken between points of one column. -/
theorem C151_columns (b x0 y0 rows cols : Nat) (u v : Nat → Nat → ℚ) (hb : 0 < b)
    (hr : 2 ≤ rows) (hc : 1 ≤ cols) :
    loadPyVale (Spec.valeColumns b x0 y0 rows cols u v) = .error .assertionError := by
  have hbq : (1 : ℚ) ≤ b := by exact_mod_cast hb
  have hn : 0 + 1 < cols * rows := by nlinarith
  have hmin : minOf (absDiffs ((Spec.valeColumns b x0 y0 rows cols u v).map fun p => (p.x : ℚ))) =
      .ok 0 := by
    unfold Spec.valeColumns
    rw [rowMajor_map, minOf_iff]
    constructor
    · rw [absDiffs_grid]
      refine ⟨0, hn, ?_⟩
      rw [Nat.zero_add, Nat.div_eq_of_lt (by omega : 1 < rows), Nat.zero_div, sub_self, abs_zero]
    · intro a ha
      obtain ⟨_, _, rfl⟩ := (absDiffs_grid _ _ _ _).mp ha
      exact abs_nonneg _
  obtain ⟨m, hm, hm1⟩ : ∃ m, maxOf (absDiffs ((Spec.valeColumns b x0 y0 rows cols u v).map
      fun p => (p.y : ℚ))) = .ok m ∧ 1 ≤ m := by
    have hmem : (b : ℚ) ∈ absDiffs ((Spec.valeColumns b x0 y0 rows cols u v).map
        fun p => (p.y : ℚ)) := by
      unfold Spec.valeColumns
      rw [rowMajor_map, absDiffs_grid]
      refine ⟨0, hn, ?_⟩
      rw [Nat.zero_add, Nat.mod_eq_of_lt (by omega : 1 < rows), Nat.zero_mod]
      push_cast
      rw [mul_one, mul_zero, add_zero, add_sub_cancel_left, abs_of_nonneg (by linarith)]
    cases hmax : maxOf (absDiffs ((Spec.valeColumns b x0 y0 rows cols u v).map
        fun p => (p.y : ℚ))) with
    | error e =>
      cases hl : absDiffs ((Spec.valeColumns b x0 y0 rows cols u v).map fun p => (p.y : ℚ)) with
      | nil => rw [hl] at hmem; exact absurd hmem (by simp)
      | cons a t => rw [hl] at hmax; unfold maxOf at hmax; exact absurd hmax (by simp)
    | ok m => exact ⟨m, rfl, hbq.trans (((maxOf_iff _ _).mp hmax).2 _ hmem)⟩
  unfold loadPyVale dicBinning
  rw [hmin, hm]
  simp only [Except.bind]
  rw [if_neg]
  have h0 : truncInt 0 = 0 := by simp [truncInt]
  rw [h0]
  unfold truncInt
  rw [if_pos (by linarith)]
  have : (1 : Int) ≤ ⌊m⌋ := Int.le_floor.mpr (by exact_mod_cast hm1)
  omega

/-! ### Non-vacuity -/

/-- Windows of eight pixels, three rows and two columns; no row or column repeats another. -/
example := C151_same 4 3 2 (fun r c => 10 * r + c) (fun r c => (r : ℚ) - 7 * c) false true
  (by decide) (by decide) (by decide) "#DaVis 8.0 2D-vector 8 3 2 \"\" \"pixel\"".toList
  "#DaVis".toList "8.0".toList "2D-vector".toList ["\"\"".toList, "\"pixel\"".toList]
  (by decide +kernel)

example := C151_columns 8 4 4 3 2 (fun r c => 10 * r + c) (fun _ _ => 0) (by decide) (by decide)
  (by decide)

end DefDAP
