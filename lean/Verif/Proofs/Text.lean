import Verif.Model.Text

/-! Facts about strings and lines. -/

namespace DefDAP

/-! ### Strip -/

/-- Neither end of the string is white space. -/
def Trimmed (t : Str) : Prop :=
  (∀ c r, t = c :: r → isWs c = false) ∧ ∀ c r, t = r ++ [c] → isWs c = false

theorem dropWhile_ws {a t : Str} (ha : ∀ c ∈ a, isWs c = true) :
    (a ++ t).dropWhile isWs = t.dropWhile isWs := by
  rw [List.dropWhile_append_of_pos ha]

theorem dropWhile_head {t : Str} (h : ∀ c r, t = c :: r → isWs c = false) :
    t.dropWhile isWs = t := by
  cases t with
  | nil => rfl
  | cons c r => simp [List.dropWhile_cons, h c r rfl]

theorem strip_pad {a t b : Str} (ha : ∀ c ∈ a, isWs c = true) (hb : ∀ c ∈ b, isWs c = true)
    (ht : Trimmed t) : strip (a ++ t ++ b) = t := by
  unfold strip
  rw [List.append_assoc, dropWhile_ws ha]
  by_cases h : t = []
  · subst h
    simp only [List.nil_append]
    have : b.dropWhile isWs = [] := by
      have := dropWhile_ws (t := []) hb
      simpa using this
    rw [this]
    rfl
  · have h1 : (t ++ b).dropWhile isWs = t ++ b := by
      apply dropWhile_head
      intro c r e
      cases t with
      | nil => exact absurd rfl h
      | cons x y =>
        simp only [List.cons_append, List.cons.injEq] at e
        rw [← e.1]
        exact ht.1 x y rfl
    rw [h1, List.reverse_append, dropWhile_ws (by simpa using hb), dropWhile_head, List.reverse_reverse]
    intro c r e
    apply ht.2 c r.reverse
    rw [← List.reverse_reverse t, e, List.reverse_cons]

theorem takeWhile_all {p : Char → Bool} {s : Str} {c : Char} (h : c ∈ s.takeWhile p) :
    p c = true := by
  induction s with
  | nil => simp at h
  | cons x t ih =>
    rw [List.takeWhile_cons] at h
    split at h
    · rcases List.mem_cons.1 h with rfl | h
      · assumption
      · exact ih h
    · simp at h

/-- What `strip` returns. -/
theorem strip_spec (s : Str) : ∃ a b, s = a ++ strip s ++ b ∧ (∀ c ∈ a, isWs c = true) ∧
    (∀ c ∈ b, isWs c = true) ∧ Trimmed (strip s) := by
  have e1 : s = s.takeWhile isWs ++ s.dropWhile isWs := (List.takeWhile_append_dropWhile).symm
  set u := (s.dropWhile isWs).reverse with hu
  have e2 : u = u.takeWhile isWs ++ u.dropWhile isWs := (List.takeWhile_append_dropWhile).symm
  have e3 : s.dropWhile isWs = (u.dropWhile isWs).reverse ++ (u.takeWhile isWs).reverse := by
    rw [← List.reverse_append, ← e2, hu, List.reverse_reverse]
  have hs : strip s = (u.dropWhile isWs).reverse := rfl
  refine ⟨s.takeWhile isWs, (u.takeWhile isWs).reverse, ?_, ?_, ?_, ?_, ?_⟩
  · rw [hs, List.append_assoc, ← e3]
    exact e1
  · intro c hc
    exact takeWhile_all hc
  · intro c hc
    exact takeWhile_all (List.mem_reverse.1 hc)
  · intro c r h
    rw [← hs, h] at e3
    have h2 := List.head?_dropWhile_not isWs s
    rw [e3] at h2
    simpa using h2
  · intro c r h
    rw [hs] at h
    have h2 := List.head?_dropWhile_not isWs u
    have : u.dropWhile isWs = c :: r.reverse := by
      rw [← List.reverse_reverse (u.dropWhile isWs), h]
      simp
    rw [this] at h2
    simpa using h2

theorem strip_trimmed {t : Str} (ht : Trimmed t) : strip t = t := by
  have := strip_pad (a := []) (b := []) (by simp) (by simp) ht
  simpa using this

/-! ### Split -/

theorem splitWhen_ne (p : Char → Bool) (s : Str) : splitWhen p s ≠ [] := by
  induction s with
  | nil => simp [splitWhen]
  | cons c t ih =>
    unfold splitWhen
    split
    · simp
    · split <;> simp

theorem splitWhen_none {p : Char → Bool} {s : Str} (h : ∀ c ∈ s, p c = false) :
    splitWhen p s = [s] := by
  induction s with
  | nil => rfl
  | cons c t ih =>
    rw [splitWhen, ih fun x hx => h x (List.mem_cons_of_mem _ hx)]
    simp [h c (by simp)]

theorem splitWhen_append {p : Char → Bool} (a : Str) (c : Char) (b : Str) (hc : p c = true) :
    splitWhen p (a ++ c :: b) = splitWhen p a ++ splitWhen p b := by
  induction a with
  | nil => simp [splitWhen, hc]
  | cons x t ih =>
    rw [List.cons_append, splitWhen, ih, splitWhen]
    split
    · simp
    · cases h : splitWhen p t with
      | nil => exact absurd h (splitWhen_ne p t)
      | cons y r => simp

theorem splitSep_one {sep : Char} {s : Str} (h : sep ∉ s) : splitSep sep s = [s] := by
  apply splitWhen_none
  intro c hc
  simp only [decide_eq_false_iff_not]
  rintro rfl
  exact h hc

theorem splitSep_cons {sep : Char} {a b : Str} (h : sep ∉ a) :
    splitSep sep (a ++ sep :: b) = a :: splitSep sep b := by
  unfold splitSep
  rw [splitWhen_append _ _ _ (by simp)]
  have := splitSep_one h
  unfold splitSep at this
  rw [this]
  rfl

/-- The number of pieces is one more than the number of separators. -/
theorem splitSep_length (sep : Char) (s : Str) : (splitSep sep s).length = s.count sep + 1 := by
  unfold splitSep
  induction s with
  | nil => rfl
  | cons c t ih =>
    rw [splitWhen, List.count_cons]
    split
    · rename_i h
      simp only [decide_eq_true_eq] at h
      rw [List.length_cons, ih]
      simp [h]
    · rename_i h
      simp only [decide_eq_true_eq] at h
      cases h2 : splitWhen (fun c => decide (c = sep)) t with
      | nil => exact absurd h2 (splitWhen_ne _ _)
      | cons y r =>
        rw [h2] at ih
        simp only [List.length_cons] at ih ⊢
        simp [h, ih]

/-! ### Lines -/

theorem linesOf_line {s rest : Str} (h : '\n' ∉ s) :
    linesOf (s ++ '\n' :: rest) = (s ++ ['\n']) :: linesOf rest := by
  induction s with
  | nil => simp [linesOf]
  | cons c t ih =>
    have hc : c ≠ '\n' := fun e => h (by simp [e])
    rw [List.cons_append, linesOf, if_neg hc, ih fun hh => h (List.mem_cons_of_mem _ hh)]
    simp

/-- The lines of a text put together from lines. -/
theorem linesOf_flatten {ls : List Str} (h : ∀ l ∈ ls, '\n' ∉ l) :
    linesOf (ls.map fun l => l ++ ['\n']).flatten = ls.map fun l => l ++ ['\n'] := by
  induction ls with
  | nil => rfl
  | cons a t ih =>
    rw [List.map_cons, List.flatten_cons, List.append_assoc]
    have := linesOf_line (rest := (t.map fun l => l ++ ['\n']).flatten) (h a (by simp))
    rw [List.singleton_append, this, ih fun l hl => h l (List.mem_cons_of_mem _ hl)]

end DefDAP
