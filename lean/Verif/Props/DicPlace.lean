import Verif.Props.DicCheck

/-! C71: the row order of OpenPIV data. C72: where PyVale data is placed. -/

namespace DefDAP

/-! ### Specification -/

/-- The text file of OpenPIV for a grid of windows of `b` pixels: the centres of the windows are
listed row by row, with y running up the file (`up`) or down. -/
def Spec.pivTable (b rows cols : Nat) (up : Bool) (u v : Nat → Nat → ℚ) : List PivRow :=
  rowMajor rows cols fun r c =>
    ⟨b / 2 + b * c, if up then b / 2 + b * r else b / 2 + b * ((rows : ℚ) - 1 - r), u r c, v r c⟩

/-! ### Proofs -/

theorem checkedDic_ok {m m' : DicMeta} {d d' : DicData} (h : checkedDic m d = .ok (m', d')) :
    m' = m ∧ d' = d ∧ checkDic m d = .ok () := by
  unfold checkedDic at h
  cases hc : checkDic m d with
  | error e => rw [hc] at h; exact absurd h (by simp [Except.bind])
  | ok _ =>
    rw [hc] at h
    simp only [Except.bind, Except.ok.injEq, Prod.mk.injEq] at h
    exact ⟨h.1.symm, h.2.symm, rfl⟩

/-- **C71**: whatever a text file holds, if it is read then its rows come out in reverse order. -/
theorem C71_reversed (table : List PivRow) (m : DicMeta) (d : DicData)
    (h : loadPivText table = .ok (m, d)) :
    table.length = d.rows * d.cols ∧ ∀ r c, r < d.rows → c < d.cols →
      ∃ p, table[(d.rows - 1 - r) * d.cols + c]? = some p ∧
        d.x r c = p.x ∧ d.y r c = p.y ∧ d.u r c = p.u ∧ d.v r c = p.v := by
  unfold loadPivText at h
  cases hb : dicBinning (table.map PivRow.x) (table.map PivRow.y) with
  | error e => rw [hb] at h; exact absurd h (by simp [Except.bind])
  | ok b =>
  cases hy : maxOf (table.map PivRow.y) with
  | error e => rw [hb, hy] at h; exact absurd h (by simp [Except.bind])
  | ok ymax =>
  cases hx : maxOf (table.map PivRow.x) with
  | error e => rw [hb, hy, hx] at h; exact absurd h (by simp [Except.bind])
  | ok xmax =>
  rw [hb, hy, hx] at h
  simp only [Except.bind] at h
  split at h
  · exact absurd h (by simp)
  · split at h
    · next hs =>
      split at h
      · obtain ⟨_, hd, _⟩ := checkedDic_ok h
        set rows := truncInt ((ymax + b / 2) / b)
        set cols := truncInt ((xmax + b / 2) / b)
        have hlen : table.length = rows.toNat * cols.toNat := by
          have : ((rows.toNat * cols.toNat : Nat) : Int) = rows * cols := by
            push_cast
            rw [Int.toNat_of_nonneg hs.1.le, Int.toNat_of_nonneg hs.2.1.le]
          omega
        rw [hd]
        refine ⟨hlen, ?_⟩
        intro r c hr hc
        have hk : (rows.toNat - 1 - r) * cols.toNat + c < table.length := by
          rw [hlen]
          have h1 : rows.toNat - 1 - r + 1 ≤ rows.toNat := by
            have : r < rows.toNat := hr
            omega
          have h2 := Nat.mul_le_mul_right cols.toNat h1
          rw [Nat.add_mul, Nat.one_mul] at h2
          have : c < cols.toNat := hc
          omega
        refine ⟨table[(rows.toNat - 1 - r) * cols.toNat + c], List.getElem?_eq_getElem hk, ?_⟩
        have e : ∀ f : PivRow → ℚ, flipRows rows.toNat (pivArray table cols.toNat f) r c =
            f table[(rows.toNat - 1 - r) * cols.toNat + c] := by
          intro f
          unfold flipRows pivArray
          rw [List.getD_eq_getElem?_getD, List.getElem?_map, List.getElem?_eq_getElem hk]
          rfl
        exact ⟨e _, e _, e _, e _⟩
      · exact absurd h (by simp)
    · exact absurd h (by simp)

theorem rowMajor_map {α β : Type} (g : α → β) (rows cols : Nat) (f : Nat → Nat → α) :
    (rowMajor rows cols f).map g = rowMajor rows cols fun r c => g (f r c) := by
  unfold rowMajor
  rw [List.map_flatMap]
  congr 1
  funext r
  rw [List.map_map]
  rfl

theorem rowMajor_at {α : Type} (rows cols : Nat) (f : Nat → Nat → α) {r c : Nat} (hr : r < rows)
    (hc : c < cols) : (rowMajor rows cols f)[r * cols + c]? = some (f r c) := by
  have hk : r * cols + c < rows * cols := by nlinarith
  rw [rowMajor_get _ _ _ _ hk]
  have e1 : (r * cols + c) / cols = r := by
    rw [Nat.add_comm, Nat.add_mul_div_right _ _ (by omega), Nat.div_eq_of_lt hc, Nat.zero_add]
  have e2 : (r * cols + c) % cols = c := by
    rw [Nat.add_comm, Nat.add_mul_mod_self_right, Nat.mod_eq_of_lt hc]
  rw [e1, e2]

theorem flipTest_step {l : List ℚ} (h : ∀ i p q, l[i]? = some p → l[i + 1]? = some q → q ≠ p) :
    flipTest l = true := by
  unfold flipTest
  rw [List.all_eq_true]
  intro e he
  obtain ⟨i, hi⟩ := List.mem_iff_getElem?.mp he
  rw [List.getElem?_zipWith] at hi
  cases hp : l[i]? with
  | none => rw [hp] at hi; simp at hi
  | some p =>
    cases hq : l.tail[i]? with
    | none => rw [hp, hq] at hi; simp at hi
    | some q =>
      rw [hp, hq] at hi
      simp only [Option.some.injEq] at hi
      rw [List.getElem?_tail] at hq
      have := h i p q hp hq
      rw [← hi, decide_eq_true_eq]
      intro e0
      exact this (by linarith)

/-- The first column of a grid with y running up or down changes at every row. -/
theorem flipTest_grid {rows : Nat} {f : Nat → ℚ} {b y0 sy : ℚ} (hb : 0 < b)
    (hs : sy = 1 ∨ sy = -1) (h : ∀ r < rows, f r = y0 + sy * b * r) :
    flipTest ((List.range rows).map f) = true := by
  apply flipTest_step
  intro i p q hp hq
  rw [List.getElem?_map] at hp hq
  have hi : i + 1 < rows := by
    by_contra hc
    rw [List.getElem?_eq_none (by simp; omega)] at hq
    exact absurd hq (by simp)
  rw [List.getElem?_range (by omega)] at hp
  rw [List.getElem?_range hi] at hq
  simp only [Option.map_some, Option.some.injEq] at hp hq
  rw [h i (by omega)] at hp
  rw [h _ hi] at hq
  rw [← hp, ← hq]
  push_cast
  intro e
  have : sy * b = 0 := by linarith
  rcases hs with rfl | rfl <;> linarith

/-- A file of OpenPIV is read, for any size of grid and either order of rows. -/
theorem piv_loads (b rows cols : Nat) (up : Bool) (u v : Nat → Nat → ℚ) (hb : 0 < b)
    (hr : 2 ≤ rows) (hc : 2 ≤ cols) :
    ∃ d, loadPivText (Spec.pivTable b rows cols up u v) =
        .ok (⟨b, ((rows : Int), (cols : Int))⟩, d) ∧ d.rows = rows ∧ d.cols = cols := by
  have hbq : (0 : ℚ) < b := by exact_mod_cast hb
  have hx : (Spec.pivTable b rows cols up u v).map PivRow.x =
      rowMajor rows cols fun _ c => (b : ℚ) / 2 + b * c := by
    unfold Spec.pivTable; rw [rowMajor_map]
  have hy : (Spec.pivTable b rows cols up u v).map PivRow.y =
      rowMajor rows cols fun r _ => if up then (b : ℚ) / 2 + b * r
        else b / 2 + b * ((rows : ℚ) - 1 - r) := by
    unfold Spec.pivTable; rw [rowMajor_map]
  -- y in the form of a regular grid
  obtain ⟨y0, sy, hsy, hye⟩ : ∃ y0 sy : ℚ, (sy = 1 ∨ sy = -1) ∧ ∀ r : Nat,
      (if up then (b : ℚ) / 2 + b * r else b / 2 + b * ((rows : ℚ) - 1 - r)) =
        y0 + sy * b * r := by
    cases up with
    | true => exact ⟨b / 2, 1, Or.inl rfl, fun r => by simp⟩
    | false =>
      refine ⟨b / 2 + b * ((rows : ℚ) - 1), -1, Or.inr rfl, fun r => ?_⟩
      simp only [Bool.false_eq_true, if_false]
      ring
  have hy' : (Spec.pivTable b rows cols up u v).map PivRow.y =
      rowMajor rows cols fun r _ => y0 + sy * b * r := by
    rw [hy]; congr 1; funext r c; exact hye r
  have hbin : dicBinning ((Spec.pivTable b rows cols up u v).map PivRow.x)
      ((Spec.pivTable b rows cols up u v).map PivRow.y) = .ok (b : Int) := by
    unfold dicBinning
    rw [hx, hy', grid_x (b := (b : ℚ)) (x0 := b / 2) (sx := 1) hbq (Or.inl rfl) (by omega) hc
        (fun r c _ _ => by ring),
      grid_y (b := (b : ℚ)) (y0 := y0) (sy := sy) hbq hsy hr (by omega) (fun r c _ _ => rfl)]
    simp only [Except.bind]
    rw [if_pos trivial, truncInt_nat]
  have hrc : ((rows - 1 : Nat) : ℚ) = rows - 1 := by rw [Nat.cast_sub (by omega), Nat.cast_one]
  have hcc : ((cols - 1 : Nat) : ℚ) = cols - 1 := by rw [Nat.cast_sub (by omega), Nat.cast_one]
  have hmy : maxOf ((Spec.pivTable b rows cols up u v).map PivRow.y) =
      .ok ((b : ℚ) / 2 + b * (rows - 1)) := by
    rw [hy, maxOf_iff]
    constructor
    · rw [rowMajor_mem]
      cases up with
      | true => exact ⟨rows - 1, 0, by omega, by omega, by simp only [if_true]; rw [hrc]⟩
      | false =>
        refine ⟨0, 0, by omega, by omega, ?_⟩
        simp
    · intro a ha
      obtain ⟨r, c, h1, _, rfl⟩ := (rowMajor_mem _ _ _ _).mp ha
      have hle : (r : ℚ) ≤ rows - 1 := by
        rw [← hrc]; exact_mod_cast (by omega : r ≤ rows - 1)
      have h0 : (0 : ℚ) ≤ r := by positivity
      cases up with
      | true => simp only [if_true]; nlinarith
      | false => simp only [Bool.false_eq_true, if_false]; nlinarith
  have hmx : maxOf ((Spec.pivTable b rows cols up u v).map PivRow.x) =
      .ok ((b : ℚ) / 2 + b * (cols - 1)) := by
    rw [hx, maxOf_iff]
    constructor
    · rw [rowMajor_mem]
      exact ⟨0, cols - 1, by omega, by omega, by rw [hcc]⟩
    · intro a ha
      obtain ⟨r, c, _, h2, rfl⟩ := (rowMajor_mem _ _ _ _).mp ha
      have hle : (c : ℚ) ≤ cols - 1 := by
        rw [← hcc]; exact_mod_cast (by omega : c ≤ cols - 1)
      nlinarith
  have hlen : (Spec.pivTable b rows cols up u v).length = rows * cols := by
    unfold Spec.pivTable; rw [rowMajor_length]
  have sh : ∀ n : Nat, truncInt (((b : ℚ) / 2 + b * ((n : ℚ) - 1) + ((b : Int) : ℚ) / 2) /
      ((b : Int) : ℚ)) = n := by
    intro n
    have : ((b : ℚ) / 2 + b * ((n : ℚ) - 1) + ((b : Int) : ℚ) / 2) / ((b : Int) : ℚ) = n := by
      rw [Int.cast_natCast]
      field_simp
      ring
    rw [this, truncInt_nat]
  have harr : ∀ (f : PivRow → ℚ) (r c : Nat), r < rows → c < cols →
      pivArray (Spec.pivTable b rows cols up u v) cols f r c =
        f ⟨b / 2 + b * c, if up then b / 2 + b * r else b / 2 + b * ((rows : ℚ) - 1 - r), u r c,
          v r c⟩ := by
    intro f r c h1 h2
    unfold pivArray Spec.pivTable
    rw [rowMajor_map, List.getD_eq_getElem?_getD, rowMajor_at _ _ _ h1 h2]
    rfl
  let t := Spec.pivTable b rows cols up u v
  refine ⟨⟨rows, cols, flipRows rows (pivArray t cols PivRow.x),
    flipRows rows (pivArray t cols PivRow.y), flipRows rows (pivArray t cols PivRow.u),
    flipRows rows (pivArray t cols PivRow.v)⟩, ?_, rfl, rfl⟩
  unfold loadPivText
  rw [hbin, hmy, hmx]
  simp only [Except.bind]
  rw [if_neg (by omega), sh, sh, Int.toNat_natCast, Int.toNat_natCast, hlen,
    if_pos ⟨by omega, by omega, by push_cast; ring⟩]
  have hft : flipTest ((List.range rows).map fun i => pivArray t cols PivRow.y i 0) = true := by
    refine flipTest_grid (b := (b : ℚ)) (y0 := y0) (sy := sy) hbq hsy ?_
    intro r h1
    rw [harr _ r 0 h1 (by omega)]
    exact hye r
  rw [if_pos hft]
  unfold checkedDic
  have hfr : ∀ r, r < rows → ((rows - 1 - r : Nat) : ℚ) = rows - 1 - r := by
    intro r h
    rw [Nat.cast_sub (by omega), hrc]
  have hchk : checkDic ⟨((b : Int) : ℚ), ((rows : Int), (cols : Int))⟩
      ⟨rows, cols, flipRows rows (pivArray t cols PivRow.x),
        flipRows rows (pivArray t cols PivRow.y), flipRows rows (pivArray t cols PivRow.u),
        flipRows rows (pivArray t cols PivRow.v)⟩ = .ok () := by
    refine (C70_accept _ (b : ℚ) (b / 2) (y0 + sy * b * (rows - 1)) 1 (-sy) ?_ hr hc _).mpr
      ⟨Int.cast_natCast b, rfl⟩
    refine ⟨hbq, Or.inl rfl, ?_, ?_⟩
    · rcases hsy with rfl | rfl <;> simp
    · intro r c h1 h2
      have h1' : r < rows := h1
      have h2' : c < cols := h2
      constructor
      · show pivArray t cols PivRow.x (rows - 1 - r) c = _
        rw [harr _ _ _ (by omega) h2']
        ring
      · show pivArray t cols PivRow.y (rows - 1 - r) c = _
        rw [harr _ _ _ (by omega) h2']
        show (if up then (b : ℚ) / 2 + b * ((rows - 1 - r : Nat) : ℚ)
          else b / 2 + b * ((rows : ℚ) - 1 - ((rows - 1 - r : Nat) : ℚ))) = _
        rw [hye, hfr r h1']
        ring
  rw [hchk]
  simp only [Except.bind, Int.cast_natCast]
  rfl

/-- **C71**: a file listed from the largest y to the smallest is read with y increasing from row
to row, each displacement staying at its coordinates. -/
theorem C71_descending (b rows cols : Nat) (u v : Nat → Nat → ℚ) (hb : 0 < b) (hr : 2 ≤ rows)
    (hc : 2 ≤ cols) : ∃ d, loadPivText (Spec.pivTable b rows cols false u v) =
      .ok (⟨b, ((rows : Int), (cols : Int))⟩, d) ∧ d.rows = rows ∧ d.cols = cols ∧
      ∀ r c, r < rows → c < cols → d.x r c = b / 2 + b * c ∧ d.y r c = b / 2 + b * r ∧
        d.u r c = u (rows - 1 - r) c ∧ d.v r c = v (rows - 1 - r) c := by
  obtain ⟨d, hd, h1, h2⟩ := piv_loads b rows cols false u v hb hr hc
  refine ⟨d, hd, h1, h2, ?_⟩
  intro r c hr' hc'
  obtain ⟨p, hp, ex, ey, eu, ev⟩ := (C71_reversed _ _ _ hd).2 r c (by omega) (by omega)
  rw [h1, h2] at hp
  unfold Spec.pivTable at hp
  rw [rowMajor_at _ _ _ (by omega) hc'] at hp
  injection hp with hp
  subst hp
  refine ⟨ex, ?_, eu, ev⟩
  rw [ey]
  simp only [Bool.false_eq_true, if_false]
  rw [Nat.cast_sub (by omega), Nat.cast_sub (by omega), Nat.cast_one]
  ring

/-- **C71**: a file listed from the smallest y to the largest is turned round as well, so that y
decreases from row to row. -/
theorem C71_ascending (b rows cols : Nat) (u v : Nat → Nat → ℚ) (hb : 0 < b) (hr : 2 ≤ rows)
    (hc : 2 ≤ cols) : ∃ d, loadPivText (Spec.pivTable b rows cols true u v) =
      .ok (⟨b, ((rows : Int), (cols : Int))⟩, d) ∧ d.rows = rows ∧ d.cols = cols ∧
      (∀ r c, r + 1 < rows → c < cols → d.y (r + 1) c < d.y r c) ∧
      ∀ r c, r < rows → c < cols → d.u r c = u (rows - 1 - r) c ∧ d.v r c = v (rows - 1 - r) c := by
  obtain ⟨d, hd, h1, h2⟩ := piv_loads b rows cols true u v hb hr hc
  have key : ∀ r c, r < rows → c < cols → d.y r c = b / 2 + b * ((rows : ℚ) - 1 - r) ∧
      d.u r c = u (rows - 1 - r) c ∧ d.v r c = v (rows - 1 - r) c := by
    intro r c hr' hc'
    obtain ⟨p, hp, ex, ey, eu, ev⟩ := (C71_reversed _ _ _ hd).2 r c (by omega) (by omega)
    rw [h1, h2] at hp
    unfold Spec.pivTable at hp
    rw [rowMajor_at _ _ _ (by omega) hc'] at hp
    injection hp with hp
    subst hp
    refine ⟨?_, eu, ev⟩
    rw [ey]
    simp only [if_true]
    rw [Nat.cast_sub (by omega), Nat.cast_sub (by omega), Nat.cast_one]
  refine ⟨d, hd, h1, h2, ?_, fun r c h h' => (key r c h h').2⟩
  intro r c hr' hc'
  rw [(key r c (by omega) hc').1, (key (r + 1) c hr' hc').1]
  have hbq : (0 : ℚ) < b := by exact_mod_cast hb
  push_cast
  nlinarith

/-- **C71**: arrays of OpenPIV on a regular grid are turned round whichever way y runs. -/
theorem C71_binary (d : DicData) (b x0 y0 sx sy : ℚ) (h : Spec.RegularGrid d b x0 y0 sx sy)
    (hr : 2 ≤ d.rows) (hc : 2 ≤ d.cols) :
    ∃ d', loadPivBinary ⟨b, ((d.rows : Int), (d.cols : Int))⟩ d =
        .ok (⟨b, ((d.rows : Int), (d.cols : Int))⟩, d') ∧ d'.rows = d.rows ∧ d'.cols = d.cols ∧
      Spec.RegularGrid d' b x0 (y0 + sy * b * (d.rows - 1)) sx (-sy) ∧
      ∀ r c, r < d.rows → c < d.cols →
        d'.u r c = d.u (d.rows - 1 - r) c ∧ d'.v r c = d.v (d.rows - 1 - r) c := by
  obtain ⟨hb, hsx, hsy, hg⟩ := h
  let d' : DicData := ⟨d.rows, d.cols, flipRows d.rows d.x, flipRows d.rows d.y,
    flipRows d.rows d.u, flipRows d.rows d.v⟩
  have hgrid : Spec.RegularGrid d' b x0 (y0 + sy * b * (d.rows - 1)) sx (-sy) := by
    refine ⟨hb, hsx, ?_, ?_⟩
    · rcases hsy with rfl | rfl <;> simp
    · intro r c h1 h2
      have h1' : r < d.rows := h1
      obtain ⟨e1, e2⟩ := hg (d.rows - 1 - r) c (by omega) h2
      refine ⟨e1, ?_⟩
      show d.y (d.rows - 1 - r) c = _
      rw [e2, Nat.cast_sub (by omega), Nat.cast_sub (by omega), Nat.cast_one]
      ring
  refine ⟨d', ?_, rfl, rfl, hgrid, fun r c _ _ => ⟨rfl, rfl⟩⟩
  unfold loadPivBinary
  rw [if_pos (flipTest_grid hb hsy fun r hr' => (hg r 0 hr' (by omega)).2)]
  unfold checkedDic
  show (checkDic _ d').bind _ = _
  rw [(C70_accept d' b x0 _ sx (-sy) hgrid hr hc _).mpr ⟨rfl, rfl⟩]
  rfl

/-! ### PyVale -/

theorem intRange_spec {l : List Int} {lo hi : Int} (h : intRange l = .ok (lo, hi)) :
    lo ∈ l ∧ hi ∈ l ∧ ∀ a ∈ l, lo ≤ a ∧ a ≤ hi := by
  cases l with
  | nil => unfold intRange at h; exact absurd h (by simp)
  | cons a t =>
    unfold intRange at h
    simp only [Except.ok.injEq, Prod.mk.injEq] at h
    obtain ⟨rfl, rfl⟩ := h
    have hmin : ∀ (t : List Int) (a : Int), (t.foldl min a ∈ a :: t) ∧
        ∀ b ∈ a :: t, t.foldl min a ≤ b := by
      intro t
      induction t with
      | nil => intro a; simp
      | cons c t ih =>
        intro a
        obtain ⟨h1, h2⟩ := ih (min a c)
        rw [List.foldl_cons]
        constructor
        · rcases List.mem_cons.mp h1 with h | h
          · rw [h]
            rcases min_choice a c with e | e <;> rw [e] <;> simp
          · simp [h]
        · intro b hb
          have hm := h2 (min a c) (by simp)
          rcases List.mem_cons.mp hb with rfl | hb
          · exact hm.trans (min_le_left _ _)
          · rcases List.mem_cons.mp hb with rfl | hb
            · exact hm.trans (min_le_right _ _)
            · exact h2 b (by simp [hb])
    have hmax : ∀ (t : List Int) (a : Int), (t.foldl max a ∈ a :: t) ∧
        ∀ b ∈ a :: t, b ≤ t.foldl max a := by
      intro t
      induction t with
      | nil => intro a; simp
      | cons c t ih =>
        intro a
        obtain ⟨h1, h2⟩ := ih (max a c)
        rw [List.foldl_cons]
        constructor
        · rcases List.mem_cons.mp h1 with h | h
          · rw [h]
            rcases max_choice a c with e | e <;> rw [e] <;> simp
          · simp [h]
        · intro b hb
          have hm := h2 (max a c) (by simp)
          rcases List.mem_cons.mp hb with rfl | hb
          · exact (le_max_left _ _).trans hm
          · rcases List.mem_cons.mp hb with rfl | hb
            · exact (le_max_right _ _).trans hm
            · exact h2 b (by simp [hb])
    exact ⟨(hmin t a).1, (hmax t a).1, fun b hb => ⟨(hmin t a).2 b hb, (hmax t a).2 b hb⟩⟩

/-- Both components come from the same row, the last one placed at the node. -/
theorem scatter_spec (ix iy : ValeRow → Int) (r c : Nat) : ∀ (rows : List ValeRow),
    ((∀ p ∈ rows, ¬(iy p = r ∧ ix p = c)) ∧ ∀ f, scatter rows ix iy f r c = 0) ∨
    (∃ pre p post, rows = pre ++ p :: post ∧ (iy p = r ∧ ix p = c) ∧
      (∀ q ∈ post, ¬(iy q = r ∧ ix q = c)) ∧ ∀ f, scatter rows ix iy f r c = f p) := by
  intro rows
  induction rows using List.reverseRecOn with
  | nil => exact Or.inl ⟨by simp, fun f => rfl⟩
  | append_singleton l p ih =>
    have hs : ∀ f, scatter (l ++ [p]) ix iy f r c =
        if iy p = (r : Int) ∧ ix p = (c : Int) then f p else scatter l ix iy f r c := by
      intro f
      unfold scatter
      rw [List.foldl_append]
      rfl
    by_cases hp : iy p = (r : Int) ∧ ix p = (c : Int)
    · right
      exact ⟨l, p, [], rfl, hp, by simp, fun f => by rw [hs, if_pos hp]⟩
    · rcases ih with ⟨h1, h2⟩ | ⟨pre, q, post, e, hq, hpost, hv⟩
      · left
        refine ⟨?_, fun f => by rw [hs, if_neg hp, h2]⟩
        intro q hq
        rcases List.mem_append.mp hq with hq | hq
        · exact h1 q hq
        · rw [List.mem_singleton.mp hq]; exact hp
      · right
        refine ⟨pre, q, post ++ [p], by rw [e]; simp, hq, ?_, fun f => by rw [hs, if_neg hp, hv]⟩
        intro a ha
        rcases List.mem_append.mp ha with ha | ha
        · exact hpost a ha
        · rw [List.mem_singleton.mp ha]; exact hp

/-- **C72**: the nodes of the loaded grid and what is at each: the value of the last row of the file
in the window that starts at the node, or zero. Every row is in one of the windows. -/
theorem C72_windows (rows : List ValeRow) (m : DicMeta) (d : DicData)
    (h : loadPyVale rows = .ok (m, d)) :
    ∃ b : Int, m.binning = b ∧ 0 < b ∧ m.shape = ((d.rows : Int), (d.cols : Int)) ∧
      ∃ x0 y0 : Int, (∃ p ∈ rows, p.x = x0) ∧ (∃ p ∈ rows, p.y = y0) ∧
      (∀ r c, d.x r c = x0 + b * c ∧ d.y r c = y0 + b * r) ∧
      (∀ p ∈ rows, ∃ r c : Nat, r < d.rows ∧ c < d.cols ∧
        (x0 + b * c ≤ p.x ∧ p.x < x0 + b * c + b) ∧ (y0 + b * r ≤ p.y ∧ p.y < y0 + b * r + b)) ∧
      ∀ r c : Nat,
        let here : ValeRow → Prop := fun p =>
          (x0 + b * c ≤ p.x ∧ p.x < x0 + b * c + b) ∧ (y0 + b * r ≤ p.y ∧ p.y < y0 + b * r + b)
        ((∀ p ∈ rows, ¬ here p) ∧ d.u r c = 0 ∧ d.v r c = 0) ∨
        (∃ pre p post, rows = pre ++ p :: post ∧ here p ∧ (∀ q ∈ post, ¬ here q) ∧
          d.u r c = p.u ∧ d.v r c = p.v) := by
  unfold loadPyVale at h
  cases hb : dicBinning (rows.map fun p => (p.x : ℚ)) (rows.map fun p => (p.y : ℚ)) with
  | error e => rw [hb] at h; exact absurd h (by simp [Except.bind])
  | ok b =>
  cases hys : intRange (rows.map ValeRow.y) with
  | error e => rw [hb, hys] at h; exact absurd h (by simp [Except.bind])
  | ok ys =>
  cases hxs : intRange (rows.map ValeRow.x) with
  | error e => rw [hb, hys, hxs] at h; exact absurd h (by simp [Except.bind])
  | ok xs =>
  rw [hb, hys, hxs] at h
  simp only [Except.bind] at h
  obtain ⟨y0, y1⟩ := ys
  obtain ⟨x0, x1⟩ := xs
  obtain ⟨hy0, hy1, hyr⟩ := intRange_spec hys
  obtain ⟨hx0, hx1, hxr⟩ := intRange_spec hxs
  split at h
  · exact absurd h (by simp)
  · split at h
    · next hdiv =>
      obtain ⟨hm, hd, hchk⟩ := checkedDic_ok h
      have hpos : (0 : ℚ) < (b : ℚ) := (C70_sound _ _ hchk).2.2.1
      have hbpos : 0 < b := by exact_mod_cast hpos
      simp only at hdiv
      have hny : 0 ≤ (y1 - y0) / b := Int.ediv_nonneg (by have := (hyr y1 hy1).1; omega) hbpos.le
      have hnx : 0 ≤ (x1 - x0) / b := Int.ediv_nonneg (by have := (hxr x1 hx1).1; omega) hbpos.le
      have win : ∀ (z lo : Int) (k : Nat), (z - lo) / b = (k : Int) ↔
          lo + b * k ≤ z ∧ z < lo + b * k + b := by
        intro z lo k
        rw [Int.ediv_eq_iff_of_pos hbpos]
        have : (k : Int) * b = b * k := mul_comm _ _
        rw [this]
        omega
      refine ⟨b, by rw [hm], hbpos, ?_, x0, y0, ?_, ?_, ?_, ?_, ?_⟩
      · rw [hm, hd]
        simp only
        rw [Int.toNat_of_nonneg (by omega), Int.toNat_of_nonneg (by omega)]
      · obtain ⟨p, hp, e⟩ := List.mem_map.mp hx0; exact ⟨p, hp, e⟩
      · obtain ⟨p, hp, e⟩ := List.mem_map.mp hy0; exact ⟨p, hp, e⟩
      · intro r c
        rw [hd]
        exact ⟨rfl, rfl⟩
      · intro p hp
        have px := hxr p.x (List.mem_map_of_mem hp)
        have py := hyr p.y (List.mem_map_of_mem hp)
        have hqy : 0 ≤ (p.y - y0) / b := Int.ediv_nonneg (by omega) hbpos.le
        have hqx : 0 ≤ (p.x - x0) / b := Int.ediv_nonneg (by omega) hbpos.le
        have hqy' : (p.y - y0) / b ≤ (y1 - y0) / b := Int.ediv_le_ediv hbpos (by omega)
        have hqx' : (p.x - x0) / b ≤ (x1 - x0) / b := Int.ediv_le_ediv hbpos (by omega)
        refine ⟨((p.y - y0) / b).toNat, ((p.x - x0) / b).toNat, ?_, ?_, ?_, ?_⟩
        · rw [hd]; simp only; omega
        · rw [hd]; simp only; omega
        · exact (win _ _ _).mp (Int.toNat_of_nonneg hqx).symm
        · exact (win _ _ _).mp (Int.toNat_of_nonneg hqy).symm
      · intro r c here
        have key := scatter_spec (fun p => (p.x - x0) / b) (fun p => (p.y - y0) / b) r c rows
        have hh : ∀ p : ValeRow, ((p.y - y0) / b = (r : Int) ∧ (p.x - x0) / b = (c : Int)) ↔
            here p := by
          intro p
          rw [win, win]
          exact and_comm
        simp only [hh] at key
        rw [hd]
        rcases key with ⟨h1, h2⟩ | ⟨pre, p, post, e, h1, h2, h3⟩
        · exact Or.inl ⟨h1, h2 _, h2 _⟩
        · exact Or.inr ⟨pre, p, post, e, h1, h2, h3 _, h3 _⟩
    · exact absurd h (by simp)

/-- **C72**: if the coordinates in the file differ by multiples of the binning, the displacement of
every row is at the node with its coordinates, unless a later row has the same ones, and all other
nodes are zero. -/
theorem C72_placed (rows : List ValeRow) (m : DicMeta) (d : DicData) (b : Int)
    (h : loadPyVale rows = .ok (m, d)) (hb : m.binning = b)
    (hg : ∀ p ∈ rows, ∀ q ∈ rows, b ∣ p.x - q.x ∧ b ∣ p.y - q.y) :
    (∀ p ∈ rows, ∃ r c, r < d.rows ∧ c < d.cols ∧ d.x r c = p.x ∧ d.y r c = p.y) ∧
    (∀ r c r' c', r < d.rows → c < d.cols → d.x r c = d.x r' c' → d.y r c = d.y r' c' →
      r = r' ∧ c = c') ∧
    ∀ r c, ((∀ p ∈ rows, ¬((p.x : ℚ) = d.x r c ∧ (p.y : ℚ) = d.y r c)) ∧
        d.u r c = 0 ∧ d.v r c = 0) ∨
      (∃ pre p post, rows = pre ++ p :: post ∧ ((p.x : ℚ) = d.x r c ∧ (p.y : ℚ) = d.y r c) ∧
        (∀ q ∈ post, ¬((q.x : ℚ) = d.x r c ∧ (q.y : ℚ) = d.y r c)) ∧
        d.u r c = p.u ∧ d.v r c = p.v) := by
  obtain ⟨b', hb', hpos, _, x0, y0, ⟨px, hpx, ex⟩, ⟨py, hpy, ey⟩, hc, hin, hval⟩ :=
    C72_windows rows m d h
  have e : b' = b := by
    have : (b' : ℚ) = (b : ℚ) := by rw [← hb', hb]
    exact_mod_cast this
  subst e
  have node : ∀ (z lo : Int) (k : Nat), b' ∣ z - lo →
      ((lo + b' * k ≤ z ∧ z < lo + b' * k + b') ↔ z = lo + b' * k) := by
    rintro z lo k ⟨t, ht⟩
    constructor
    · rintro ⟨h1, h2⟩
      have h3 : b' * k ≤ b' * t := by omega
      have h4 : b' * t < b' * (k + 1) := by rw [mul_add, mul_one]; omega
      have h5 := le_of_mul_le_mul_left h3 hpos
      have h6 := lt_of_mul_lt_mul_left h4 hpos.le
      have : t = k := by omega
      rw [this] at ht
      omega
    · intro h; omega
  have hx : ∀ p ∈ rows, b' ∣ p.x - x0 := fun p hp => by rw [← ex]; exact (hg p hp px hpx).1
  have hy : ∀ p ∈ rows, b' ∣ p.y - y0 := fun p hp => by rw [← ey]; exact (hg p hp py hpy).2
  have cast : ∀ (p : ValeRow) (r c : Nat), ((p.x : ℚ) = d.x r c ∧ (p.y : ℚ) = d.y r c) ↔
      (p.x = x0 + b' * c ∧ p.y = y0 + b' * r) := by
    intro p r c
    rw [(hc r c).1, (hc r c).2]
    constructor
    · rintro ⟨h1, h2⟩; exact ⟨by exact_mod_cast h1, by exact_mod_cast h2⟩
    · rintro ⟨h1, h2⟩; exact ⟨by exact_mod_cast h1, by exact_mod_cast h2⟩
  refine ⟨?_, ?_, ?_⟩
  · intro p hp
    obtain ⟨r, c, h1, h2, h3, h4⟩ := hin p hp
    have := (cast p r c).mpr ⟨(node _ _ _ (hx p hp)).mp h3, (node _ _ _ (hy p hp)).mp h4⟩
    exact ⟨r, c, h1, h2, this.1.symm, this.2.symm⟩
  · intro r c r' c' _ _ h1 h2
    rw [(hc r c).1, (hc r' c').1] at h1
    rw [(hc r c).2, (hc r' c').2] at h2
    have hbq : (b' : ℚ) ≠ 0 := by exact_mod_cast hpos.ne'
    have h1' : (c : ℚ) = c' := mul_left_cancel₀ hbq (by linarith)
    have h2' : (r : ℚ) = r' := mul_left_cancel₀ hbq (by linarith)
    exact ⟨by exact_mod_cast h2', by exact_mod_cast h1'⟩
  · intro r c
    have hh : ∀ p ∈ rows, ((p.x : ℚ) = d.x r c ∧ (p.y : ℚ) = d.y r c) ↔
        ((x0 + b' * c ≤ p.x ∧ p.x < x0 + b' * c + b') ∧
          (y0 + b' * r ≤ p.y ∧ p.y < y0 + b' * r + b')) := by
      intro p hp
      rw [cast, node _ _ _ (hx p hp), node _ _ _ (hy p hp)]
    rcases hval r c with ⟨h1, h2⟩ | ⟨pre, p, post, e, h1, h2, h3⟩
    · exact Or.inl ⟨fun p hp hc => h1 p hp ((hh p hp).mp hc), h2⟩
    · right
      refine ⟨pre, p, post, e, (hh p (by rw [e]; simp)).mpr h1, ?_, h3⟩
      intro q hq hc
      exact h2 q hq ((hh q (by rw [e]; simp [hq])).mp hc)

/-- Four points, of which the second is between two rows of nodes. -/
def exOffGrid : List ValeRow := [⟨0, 0, 1, 1⟩, ⟨2, 1, 2, 2⟩, ⟨4, 2, 3, 3⟩, ⟨6, 4, 4, 4⟩]

/-- **C72**: without that condition a row can be put at a node with other coordinates: here y of 1
at a node with y of 0. -/
theorem C72_off_grid : ∃ m d, loadPyVale exOffGrid = .ok (m, d) ∧
    (⟨2, 1, 2, 2⟩ : ValeRow) ∈ exOffGrid ∧ d.u 0 1 = 2 ∧ d.x 0 1 = 2 ∧ d.y 0 1 = 0 := by
  have h : (loadPyVale exOffGrid).isOk = true := by decide +kernel
  cases hl : loadPyVale exOffGrid with
  | error e => rw [hl] at h; exact absurd h (by simp [Except.isOk, Except.toBool])
  | ok a =>
    obtain ⟨m, d⟩ := a
    refine ⟨m, d, rfl, by simp [exOffGrid], ?_⟩
    have h2 : (loadPyVale exOffGrid).map (fun a => (a.2.u 0 1, a.2.x 0 1, a.2.y 0 1)) =
        .ok (2, 2, 0) := by decide +kernel
    rw [hl] at h2
    simp only [Except.map, Except.ok.injEq, Prod.mk.injEq] at h2
    exact h2

/-! ### Non-vacuity -/

/-- A grid of three rows and two columns. -/
example := C71_ascending 4 3 2 (fun r c => r + c) (fun _ _ => 0) (by decide) (by decide) (by decide)

example := C71_binary exGrid 4 2 10 1 (-1) exGrid_regular (by decide) (by decide)

/-- Five of the six points of a grid, the first given twice. -/
def exSparse : List ValeRow :=
  [⟨10, 20, 1, 1⟩, ⟨14, 20, 2, 2⟩, ⟨10, 24, 3, 3⟩, ⟨14, 28, 4, 4⟩, ⟨10, 28, 5, 5⟩, ⟨14, 24, 6, 6⟩,
    ⟨10, 20, 7, 7⟩]

/-- It is read, with three rows and two columns; the node given twice has the second value. -/
example : ∃ m d, loadPyVale exSparse = .ok (m, d) ∧ m.binning = ((4 : Int) : ℚ) ∧
    m.shape = (3, 2) ∧ d.u 0 0 = 7 ∧
    ∀ p ∈ exSparse, ∀ q ∈ exSparse, (4 : Int) ∣ p.x - q.x ∧ (4 : Int) ∣ p.y - q.y := by
  have h2 : (loadPyVale exSparse).map (fun a => (a.1.binning, a.1.shape, a.2.u 0 0)) =
      .ok (((4 : Int) : ℚ), (3, 2), 7) := by decide +kernel
  cases hl : loadPyVale exSparse with
  | error e => rw [hl] at h2; exact absurd h2 (by simp [Except.map])
  | ok a =>
    rw [hl] at h2
    simp only [Except.map, Except.ok.injEq, Prod.mk.injEq] at h2
    exact ⟨a.1, a.2, rfl, h2.1, h2.2.1, h2.2.2, by decide⟩

end DefDAP
