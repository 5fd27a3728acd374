import Verif.Proofs.Text
import Verif.Props.Indices
import Mathlib.Tactic.IntervalCases
import Mathlib.Tactic.Positivity
import Mathlib.Tactic.FieldSimp

/-! Writing numbers as text and reading them back. -/

namespace DefDAP

/-- The characters of a written number. -/
def numChar (c : Char) : Bool := isDig c || c = '-' || c = '.'

theorem digChar_cases {n : Nat} (h : n < 10) :
    isDig (digChar n) = true ∧ (digChar n).toNat - 48 = n ∧ isWs (digChar n) = false := by
  interval_cases n <;> decide

theorem natStr_lt {n : Nat} (h : n < 10) : natStr n = [digChar n] := by
  unfold natStr
  rw [if_pos h]

theorem natStr_ge {n : Nat} (h : ¬ n < 10) :
    natStr n = natStr (n / 10) ++ [digChar (n % 10)] := by
  conv_lhs => unfold natStr
  rw [if_neg h]

theorem natStr_digits (n : Nat) : ∀ c ∈ natStr n, isDig c = true := by
  induction n using Nat.strong_induction_on with
  | _ n ih =>
    by_cases h : n < 10
    · rw [natStr_lt h]
      intro c hc
      rw [List.mem_singleton.mp hc]
      exact (digChar_cases h).1
    · rw [natStr_ge h]
      intro c hc
      rcases List.mem_append.mp hc with hc | hc
      · exact ih (n / 10) (by omega) c hc
      · rw [List.mem_singleton.mp hc]
        exact (digChar_cases (by omega)).1

theorem natStr_ne (n : Nat) : natStr n ≠ [] := by
  by_cases h : n < 10
  · rw [natStr_lt h]; simp
  · rw [natStr_ge h]; simp

theorem readNat_step (s : Str) (c : Char) : readNat (s ++ [c]) = 10 * readNat s + (c.toNat - 48) := by
  simp [readNat, List.foldl_append]

theorem readNat_natStr (n : Nat) : readNat (natStr n) = n := by
  induction n using Nat.strong_induction_on with
  | _ n ih =>
    by_cases h : n < 10
    · rw [natStr_lt h]
      have := (digChar_cases h).2.1
      simp [readNat, this]
    · rw [natStr_ge h, readNat_step, ih (n / 10) (by omega), (digChar_cases (by omega)).2.1]
      omega

theorem readNat_append (a b : Str) : readNat (a ++ b) = readNat a * 10 ^ b.length + readNat b := by
  induction b using List.reverseRecOn with
  | nil => simp [readNat]
  | append_singleton b c ih =>
    rw [← List.append_assoc, readNat_step, ih, readNat_step]
    simp only [List.length_append, List.length_singleton, pow_succ]
    ring

theorem natStr_length {k : Nat} : ∀ {n : Nat}, n < 10 ^ (k + 1) → (natStr n).length ≤ k + 1 := by
  induction k with
  | zero =>
    intro n h
    rw [natStr_lt (by simpa using h)]
    simp
  | succ k ih =>
    intro n h
    by_cases h' : n < 10
    · rw [natStr_lt h']; simp
    · rw [natStr_ge h', List.length_append, List.length_singleton]
      have : n / 10 < 10 ^ (k + 1) := by
        rw [Nat.div_lt_iff_lt_mul (by norm_num)]
        calc n < 10 ^ (k + 1 + 1) := h
          _ = 10 ^ (k + 1) * 10 := by ring
      have := ih this
      omega

theorem padZeros_length {k n : Nat} (h : n < 10 ^ (k + 1)) :
    (padZeros (k + 1) (natStr n)).length = k + 1 := by
  have := natStr_length h
  unfold padZeros
  rw [List.length_append, List.length_replicate]
  omega

theorem readNat_zeros (m : Nat) (s : Str) : readNat (List.replicate m '0' ++ s) = readNat s := by
  rw [readNat_append]
  have : readNat (List.replicate m '0') = 0 := by
    induction m with
    | zero => rfl
    | succ m ih => rw [List.replicate_succ', readNat_step, ih]; rfl
  rw [this]
  simp

theorem padZeros_digits (m n : Nat) : ∀ c ∈ padZeros m (natStr n), isDig c = true := by
  intro c hc
  rcases List.mem_append.mp hc with hc | hc
  · rw [List.eq_of_mem_replicate hc]; decide
  · exact natStr_digits n c hc

theorem isDig_num {c : Char} (h : isDig c = true) : numChar c = true := by simp [numChar, h]

theorem numChar_ws {c : Char} (h : numChar c = true) : isWs c = false := by
  unfold numChar isDig at h
  unfold isWs
  simp only [Bool.or_eq_true, Bool.and_eq_true, decide_eq_true_eq] at h
  rcases h with (⟨h1, h2⟩ | h) | h
  · have h1 : (48 : Nat) ≤ c.toNat := by
      have := Char.le_def.mp h1
      exact this
    simp only [Bool.or_eq_false_iff, decide_eq_false_iff_not]
    refine ⟨⟨⟨⟨⟨?_, ?_⟩, ?_⟩, ?_⟩, ?_⟩, ?_⟩ <;> (rintro rfl; revert h1; decide)
  · subst h; decide
  · subst h; decide

theorem parseNat_natStr (n : Nat) : parseNat (natStr n) = .ok n := by
  unfold parseNat
  rw [if_pos, readNat_natStr]
  rw [Bool.and_eq_true]
  exact ⟨by simpa using natStr_ne n, List.all_eq_true.mpr (natStr_digits n)⟩

theorem trimmed_num {s : Str} (h : ∀ c ∈ s, numChar c = true) : strip s = s := by
  apply strip_trimmed
  constructor
  · intro c r e
    exact numChar_ws (h c (by rw [e]; simp))
  · intro c r e
    exact numChar_ws (h c (by rw [e]; simp))

theorem intStr_num (z : Int) : ∀ c ∈ intStr z, numChar c = true := by
  unfold intStr
  split
  · intro c hc
    rcases List.mem_cons.mp hc with rfl | hc
    · decide
    · exact isDig_num (natStr_digits _ c hc)
  · exact fun c hc => isDig_num (natStr_digits _ c hc)

theorem intStr_ne (z : Int) : intStr z ≠ [] := by
  unfold intStr
  split
  · simp
  · exact natStr_ne _

theorem parseInt_digits {s : Str} (h : ∀ c ∈ s, isDig c = true) (hs : strip s = s) :
    parseInt s = (parseNat s).bind fun n => .ok (n : Int) := by
  unfold parseInt
  rw [hs]
  split
  · exact absurd (h '-' (by simp)) (by decide)
  · exact absurd (h '+' (by simp)) (by decide)
  · rfl

theorem parseInt_intStr (z : Int) : parseInt (intStr z) = .ok z := by
  by_cases h : z < 0
  · have e : intStr z = '-' :: natStr z.natAbs := by unfold intStr; rw [if_pos h]
    unfold parseInt
    rw [trimmed_num (intStr_num z), e]
    simp only [parseNat_natStr, Except.bind]
    congr 1
    omega
  · have e : intStr z = natStr z.natAbs := by unfold intStr; rw [if_neg h]
    rw [e, parseInt_digits (natStr_digits _) (by rw [← e]; exact trimmed_num (intStr_num z)),
      parseNat_natStr]
    simp only [Except.bind]
    congr 1
    omega

/-! ### Fixed point -/

/-- The number of units in the last place. -/
noncomputable def fixedUnits (n : Nat) (x : ℝ) : Nat := (npRound (|x| * 10 ^ n)).toNat

theorem takeWhile_stop {p : Char → Bool} {a : Str} {c : Char} {b : Str} (ha : ∀ x ∈ a, p x = true)
    (hc : p c = false) : (a ++ c :: b).takeWhile p = a ∧ (a ++ c :: b).dropWhile p = c :: b := by
  induction a with
  | nil => simp [hc]
  | cons x t ih =>
    have := ih (fun y hy => ha y (by simp [hy]))
    simp [ha x (by simp), this.1, this.2]

theorem takeWhile_full {p : Char → Bool} {a : Str} (ha : ∀ x ∈ a, p x = true) :
    a.takeWhile p = a ∧ a.dropWhile p = [] := by
  induction a with
  | nil => simp
  | cons x t ih =>
    have := ih (fun y hy => ha y (by simp [hy]))
    simp [ha x (by simp), this.1, this.2]

theorem parseUnsigned_fixed (n k : Nat) :
    parseUnsigned (natStr (k / 10 ^ (n + 1)) ++
      '.' :: padZeros (n + 1) (natStr (k % 10 ^ (n + 1)))) = .ok ((k : ℚ) / 10 ^ (n + 1)) := by
  have hlt : k % 10 ^ (n + 1) < 10 ^ (n + 1) := Nat.mod_lt _ (by positivity)
  have h1 := takeWhile_stop (p := isDig) (c := '.')
    (b := padZeros (n + 1) (natStr (k % 10 ^ (n + 1)))) (natStr_digits (k / 10 ^ (n + 1)))
    (by decide)
  have h2 := takeWhile_full (padZeros_digits (n + 1) (k % 10 ^ (n + 1)))
  unfold parseUnsigned
  simp only [h1.1, h1.2, h2.1, h2.2]
  rw [if_neg (by simp [natStr_ne])]
  simp only [parseExp]
  rw [readNat_append, padZeros_length hlt, readNat_natStr]
  congr 2
  have : readNat (padZeros (n + 1) (natStr (k % 10 ^ (n + 1)))) = k % 10 ^ (n + 1) := by
    unfold padZeros
    rw [readNat_zeros, readNat_natStr]
  rw [this, Nat.div_add_mod']

theorem fixedStr_num (n : Nat) (x : ℝ) : ∀ c ∈ fixedStr n x, numChar c = true := by
  intro c hc
  unfold fixedStr at hc
  simp only [List.mem_append, List.mem_cons] at hc
  rcases hc with hc | hc | rfl | hc
  · split at hc
    · rw [List.mem_singleton.mp hc]; decide
    · simp at hc
  · exact isDig_num (natStr_digits _ c hc)
  · decide
  · exact isDig_num (padZeros_digits _ _ c hc)

theorem fixedStr_ne (n : Nat) (x : ℝ) : fixedStr n x ≠ [] := by
  unfold fixedStr
  simp

theorem parseFloat_fixed (n : Nat) (x : ℝ) : parseFloat (fixedStr (n + 1) x) =
    .ok (open Classical in if x < 0 then -((fixedUnits (n + 1) x : ℚ) / 10 ^ (n + 1))
      else (fixedUnits (n + 1) x : ℚ) / 10 ^ (n + 1)) := by
  have hs := trimmed_num (fixedStr_num (n + 1) x)
  unfold parseFloat
  rw [hs]
  by_cases h : x < 0
  · have e : fixedStr (n + 1) x = '-' :: (natStr (fixedUnits (n + 1) x / 10 ^ (n + 1)) ++
        '.' :: padZeros (n + 1) (natStr (fixedUnits (n + 1) x % 10 ^ (n + 1)))) := by
      unfold fixedStr fixedUnits
      simp only [if_pos h, List.singleton_append]
    rw [e, if_pos h]
    simp only [parseUnsigned_fixed, Except.bind]
  · have e : fixedStr (n + 1) x = natStr (fixedUnits (n + 1) x / 10 ^ (n + 1)) ++
        '.' :: padZeros (n + 1) (natStr (fixedUnits (n + 1) x % 10 ^ (n + 1))) := by
      unfold fixedStr fixedUnits
      simp only [if_neg h, List.nil_append]
    rw [if_neg h, e]
    obtain ⟨c, t, hct⟩ := List.exists_cons_of_ne_nil (natStr_ne (fixedUnits (n + 1) x / 10 ^ (n + 1)))
    have hd := natStr_digits (fixedUnits (n + 1) x / 10 ^ (n + 1)) c (by rw [hct]; simp)
    rw [← parseUnsigned_fixed n (fixedUnits (n + 1) x)]
    generalize hw : padZeros (n + 1) (natStr (fixedUnits (n + 1) x % 10 ^ (n + 1))) = w
    rw [hct]
    split
    · next u he =>
      rw [List.cons_append, List.cons.injEq] at he
      rw [he.1] at hd
      exact absurd hd (by decide)
    · next u he =>
      rw [List.cons_append, List.cons.injEq] at he
      rw [he.1] at hd
      exact absurd hd (by decide)
    · rfl

/-- What reading a written number gives: within half a unit of the last place, and a whole number of
units. -/
theorem parseFloat_fixedStr (n : Nat) (x : ℝ) : ∃ q : ℚ, parseFloat (fixedStr (n + 1) x) = .ok q ∧
    |(q : ℝ) - x| ≤ 1 / 2 / 10 ^ (n + 1) ∧ ∃ m : Int, q = m / 10 ^ (n + 1) := by
  have hp : (0 : ℝ) < 10 ^ (n + 1) := by positivity
  have hx : (0 : ℝ) ≤ |x| * 10 ^ (n + 1) := by positivity
  have hr0 : 0 ≤ npRound (|x| * 10 ^ (n + 1)) := by
    have := Int.floor_nonneg.mpr hx
    rcases npRound_cases (|x| * 10 ^ (n + 1)) with ⟨e, _⟩ | ⟨e, _⟩ <;> omega
  have hk : ((fixedUnits (n + 1) x : ℕ) : ℝ) = (npRound (|x| * 10 ^ (n + 1)) : ℝ) := by
    have : ((fixedUnits (n + 1) x : ℕ) : ℤ) = npRound (|x| * 10 ^ (n + 1)) :=
      Int.toNat_of_nonneg hr0
    rw [← this]
    norm_cast
  have hb : |(|x| * 10 ^ (n + 1)) - (fixedUnits (n + 1) x : ℝ)| ≤ 1 / 2 := by
    rw [hk, abs_le]
    have h0 := Int.floor_le (|x| * 10 ^ (n + 1))
    have h1 := Int.lt_floor_add_one (|x| * 10 ^ (n + 1))
    rcases npRound_cases (|x| * 10 ^ (n + 1)) with ⟨e, h⟩ | ⟨e, h⟩ <;> rw [e] <;>
      constructor <;> push_cast <;> linarith
  have hb' : abs ((fixedUnits (n + 1) x : ℝ) / 10 ^ (n + 1) - |x|) ≤ 1 / 2 / 10 ^ (n + 1) := by
    have e : (fixedUnits (n + 1) x : ℝ) / 10 ^ (n + 1) - |x| =
        -(|x| * 10 ^ (n + 1) - (fixedUnits (n + 1) x : ℝ)) / 10 ^ (n + 1) := by
      field_simp
      ring
    rw [e, abs_div, abs_neg, abs_of_pos hp]
    exact div_le_div_of_nonneg_right hb hp.le
  refine ⟨_, parseFloat_fixed n x, ?_, ?_⟩
  · by_cases h : x < 0
    · rw [if_pos h]
      rw [abs_of_neg h] at hb'
      push_cast
      rw [← abs_neg]
      convert hb' using 2
      ring
    · rw [if_neg h]
      rw [abs_of_nonneg (not_lt.mp h)] at hb'
      push_cast
      exact hb'
  · by_cases h : x < 0
    · rw [if_pos h]
      exact ⟨-(fixedUnits (n + 1) x : ℤ), by push_cast; ring⟩
    · rw [if_neg h]
      exact ⟨(fixedUnits (n + 1) x : ℤ), by push_cast; ring⟩

/-- Rounding keeps whole numbers of units. -/
theorem pyRound_units (n : Nat) (m : Int) : pyRound n ((m : ℝ) / 10 ^ n) = m / 10 ^ n := by
  unfold pyRound
  rw [div_mul_cancel₀ _ (by positivity), npRound_int]

end DefDAP
