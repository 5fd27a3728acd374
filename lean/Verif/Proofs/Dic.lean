import Verif.Model.Dic
import Mathlib.Tactic.Linarith
import Mathlib.Tactic.Ring
import Mathlib.Tactic.Positivity
import Mathlib.Tactic.FieldSimp
import Mathlib.Data.Rat.Floor

/-! Lists of numbers from grids. -/

namespace DefDAP

theorem foldl_min_rat : ∀ (t : List ℚ) (a : ℚ), (t.foldl min a = a ∨ t.foldl min a ∈ t) ∧
    t.foldl min a ≤ a ∧ ∀ b ∈ t, t.foldl min a ≤ b := by
  intro t
  induction t with
  | nil => intro a; exact ⟨Or.inl rfl, le_refl _, by simp⟩
  | cons c t ih =>
    intro a
    obtain ⟨h1, h2, h3⟩ := ih (min a c)
    rw [List.foldl_cons]
    refine ⟨?_, h2.trans (min_le_left _ _), ?_⟩
    · rcases h1 with h1 | h1
      · rw [h1]
        rcases min_choice a c with e | e
        · exact Or.inl e
        · right; rw [e]; simp
      · right; exact List.mem_cons_of_mem _ h1
    · intro b hb
      rcases List.mem_cons.mp hb with rfl | hb
      · exact h2.trans (min_le_right _ _)
      · exact h3 b hb

theorem foldl_max_rat : ∀ (t : List ℚ) (a : ℚ), (t.foldl max a = a ∨ t.foldl max a ∈ t) ∧
    a ≤ t.foldl max a ∧ ∀ b ∈ t, b ≤ t.foldl max a := by
  intro t
  induction t with
  | nil => intro a; exact ⟨Or.inl rfl, le_refl _, by simp⟩
  | cons c t ih =>
    intro a
    obtain ⟨h1, h2, h3⟩ := ih (max a c)
    rw [List.foldl_cons]
    refine ⟨?_, (le_max_left _ _).trans h2, ?_⟩
    · rcases h1 with h1 | h1
      · rw [h1]
        rcases max_choice a c with e | e
        · exact Or.inl e
        · right; rw [e]; simp
      · right; exact List.mem_cons_of_mem _ h1
    · intro b hb
      rcases List.mem_cons.mp hb with rfl | hb
      · exact (le_max_right _ _).trans h2
      · exact h3 b hb

theorem minOf_iff (l : List ℚ) (m : ℚ) : minOf l = .ok m ↔ m ∈ l ∧ ∀ a ∈ l, m ≤ a := by
  cases l with
  | nil => simp [minOf]
  | cons a t =>
    obtain ⟨h1, h2, h3⟩ := foldl_min_rat t a
    have hm : t.foldl min a ∈ a :: t := by
      rcases h1 with h | h
      · rw [h]; simp
      · exact List.mem_cons_of_mem _ h
    have hl : ∀ b ∈ a :: t, t.foldl min a ≤ b := by
      intro b hb
      rcases List.mem_cons.mp hb with rfl | hb
      · exact h2
      · exact h3 b hb
    constructor
    · intro h
      have e : t.foldl min a = m := by simpa [minOf] using h
      rw [← e]
      exact ⟨hm, hl⟩
    · rintro ⟨h, h'⟩
      have e : t.foldl min a = m := le_antisymm (hl m h) (h' _ hm)
      simp [minOf, e]

theorem maxOf_iff (l : List ℚ) (m : ℚ) : maxOf l = .ok m ↔ m ∈ l ∧ ∀ a ∈ l, a ≤ m := by
  cases l with
  | nil => simp [maxOf]
  | cons a t =>
    obtain ⟨h1, h2, h3⟩ := foldl_max_rat t a
    have hm : t.foldl max a ∈ a :: t := by
      rcases h1 with h | h
      · rw [h]; simp
      · exact List.mem_cons_of_mem _ h
    have hl : ∀ b ∈ a :: t, b ≤ t.foldl max a := by
      intro b hb
      rcases List.mem_cons.mp hb with rfl | hb
      · exact h2
      · exact h3 b hb
    constructor
    · intro h
      have e : t.foldl max a = m := by simpa [maxOf] using h
      rw [← e]
      exact ⟨hm, hl⟩
    · rintro ⟨h, h'⟩
      have e : t.foldl max a = m := le_antisymm (h' _ hm) (hl m h)
      simp [maxOf, e]

theorem absDiffs_mem (l : List ℚ) (a : ℚ) : a ∈ absDiffs l ↔
    ∃ i p q, l[i]? = some p ∧ l[i + 1]? = some q ∧ a = |q - p| := by
  unfold absDiffs
  rw [List.mem_iff_getElem?]
  constructor
  · rintro ⟨i, h⟩
    rw [List.getElem?_zipWith_eq_some] at h
    obtain ⟨p, q, hp, hq, e⟩ := h
    exact ⟨i, p, q, hp, by rw [List.getElem?_tail] at hq; exact hq, e.symm⟩
  · rintro ⟨i, p, q, hp, hq, e⟩
    refine ⟨i, ?_⟩
    rw [List.getElem?_zipWith_eq_some]
    exact ⟨p, q, hp, by rw [List.getElem?_tail]; exact hq, e.symm⟩

theorem rowMajor_length {α : Type} (rows cols : Nat) (f : Nat → Nat → α) :
    (rowMajor rows cols f).length = rows * cols := by
  unfold rowMajor
  simp [List.length_flatMap]

theorem rowMajor_succ {α : Type} (rows cols : Nat) (f : Nat → Nat → α) :
    rowMajor (rows + 1) cols f = rowMajor rows cols f ++ (List.range cols).map (f rows) := by
  unfold rowMajor
  rw [List.range_succ, List.flatMap_append]
  simp

theorem rowMajor_get {α : Type} : ∀ (rows cols : Nat) (f : Nat → Nat → α) (k : Nat),
    k < rows * cols → (rowMajor rows cols f)[k]? = some (f (k / cols) (k % cols)) := by
  intro rows
  induction rows with
  | zero => intro cols f k h; simp at h
  | succ n ih =>
    intro cols f k h
    rw [rowMajor_succ]
    have hc : 0 < cols := by
      rcases Nat.eq_zero_or_pos cols with e | e
      · rw [e] at h; simp at h
      · exact e
    by_cases hk : k < n * cols
    · rw [List.getElem?_append_left (by rw [rowMajor_length]; exact hk)]
      exact ih cols f k hk
    · have hge : n * cols ≤ k := not_lt.mp hk
      have hlt : k - n * cols < cols := by
        have : (n + 1) * cols = n * cols + cols := by ring
        omega
      rw [List.getElem?_append_right (by rw [rowMajor_length]; exact hge), rowMajor_length,
        List.getElem?_map, List.getElem?_range hlt]
      have h1 : k / cols = n := by
        rw [Nat.div_eq_iff hc]
        constructor <;> omega
      have h2 : k % cols = k - n * cols := by
        have := Nat.div_add_mod k cols
        rw [h1, mul_comm] at this
        omega
      rw [h1, h2]
      rfl

theorem rowMajor_none {α : Type} (rows cols : Nat) (f : Nat → Nat → α) {k : Nat} {a : α}
    (h : (rowMajor rows cols f)[k]? = some a) : k < rows * cols := by
  by_contra hc
  rw [List.getElem?_eq_none (by rw [rowMajor_length]; omega)] at h
  exact absurd h (by simp)

theorem rowMajor_mem {α : Type} (rows cols : Nat) (f : Nat → Nat → α) (a : α) :
    a ∈ rowMajor rows cols f ↔ ∃ r c, r < rows ∧ c < cols ∧ f r c = a := by
  unfold rowMajor
  simp only [List.mem_flatMap, List.mem_map, List.mem_range]
  constructor
  · rintro ⟨r, hr, c, hc, e⟩
    exact ⟨r, c, hr, hc, e⟩
  · rintro ⟨r, c, hr, hc, e⟩
    exact ⟨r, hr, c, hc, e⟩

/-- The differences of a grid in row-major order. -/
theorem absDiffs_grid (rows cols : Nat) (f : Nat → Nat → ℚ) (a : ℚ) :
    a ∈ absDiffs (rowMajor rows cols f) ↔ ∃ k, k + 1 < rows * cols ∧
      a = |f ((k + 1) / cols) ((k + 1) % cols) - f (k / cols) (k % cols)| := by
  rw [absDiffs_mem]
  constructor
  · rintro ⟨i, p, q, hp, hq, e⟩
    have h := rowMajor_none _ _ _ hq
    rw [rowMajor_get _ _ _ _ h] at hq
    rw [rowMajor_get _ _ _ _ (by omega)] at hp
    injection hq with hq
    injection hp with hp
    exact ⟨i, h, by rw [e, ← hp, ← hq]⟩
  · rintro ⟨k, hk, e⟩
    exact ⟨k, _, _, rowMajor_get _ _ _ _ (by omega), rowMajor_get _ _ _ _ hk, e⟩

theorem truncInt_nat (n : Nat) : truncInt (n : ℚ) = n := by
  unfold truncInt
  rw [if_pos (by positivity)]
  exact Int.floor_natCast n

theorem truncInt_int (n : Int) : truncInt (n : ℚ) = n := by
  unfold truncInt
  split
  · exact Int.floor_intCast n
  · exact Int.ceil_intCast n

/-- Steps of the column number. -/
theorem step_mod {cols k : Nat} (hc : 2 ≤ cols) :
    (k + 1) % cols = k % cols + 1 ∨ ((k + 1) % cols = 0 ∧ k % cols = cols - 1) := by
  have hlt := Nat.mod_lt k (by omega : 0 < cols)
  rw [Nat.add_mod, Nat.mod_eq_of_lt (by omega : 1 < cols)]
  by_cases h : k % cols + 1 < cols
  · left; exact Nat.mod_eq_of_lt h
  · right
    have e : k % cols + 1 = cols := by omega
    rw [e, Nat.mod_self]
    omega

/-- Steps of the row number. -/
theorem step_div {cols k : Nat} (hc : 0 < cols) :
    (k + 1) / cols = k / cols ∨ (k + 1) / cols = k / cols + 1 := by
  have h1 : k / cols ≤ (k + 1) / cols := Nat.div_le_div_right (Nat.le_succ k)
  have h2 : (k + 1) / cols ≤ (k + cols) / cols := Nat.div_le_div_right (by omega)
  rw [Nat.add_div_right _ hc] at h2
  omega

end DefDAP
