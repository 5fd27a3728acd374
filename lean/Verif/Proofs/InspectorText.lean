import Verif.Model.InspectorFile
import Verif.Proofs.NumText

/-! Proofs about the values written to and read from the file of the grain inspector. -/

namespace DefDAP

variable {F : Type}

/-- What Python guarantees for finite floats: `float(repr(x)) == x`, written with digits, signs, a
point and an exponent, and never as an integer. -/
structure FloatText.Lawful (T : FloatText F) : Prop where
  parse_repr : ∀ x, T.parse (T.repr x) = some x
  chars : ∀ x, ∀ c ∈ T.repr x, isNumLit c = true
  notInt : ∀ x, '.' ∈ T.repr x ∨ 'e' ∈ T.repr x
  parse_nil : T.parse [] = none

mutual
/-- The value without numpy types. -/
def PyVal.plain : PyVal F → PyVal F
  | .int z => .int z
  | .npInt z => .int z
  | .flt x => .flt x
  | .npFlt x => .flt x
  | .list l => .list (PyVal.plainList l)
def PyVal.plainList : List (PyVal F) → List (PyVal F)
  | [] => []
  | v :: l => v.plain :: PyVal.plainList l
end

mutual
/-- There is a numpy scalar in the value. -/
def PyVal.hasNumpy : PyVal F → Bool
  | .int _ => false
  | .npInt _ => true
  | .flt _ => false
  | .npFlt _ => true
  | .list l => PyVal.anyNumpy l
def PyVal.anyNumpy : List (PyVal F) → Bool
  | [] => false
  | v :: l => v.hasNumpy || PyVal.anyNumpy l
end

theorem plainList_eq (l : List (PyVal F)) : PyVal.plainList l = l.map PyVal.plain := by
  induction l with
  | nil => rfl
  | cons v l ih => simp [PyVal.plainList, ih]

theorem anyNumpy_eq (l : List (PyVal F)) : PyVal.anyNumpy l = l.any PyVal.hasNumpy := by
  induction l with
  | nil => rfl
  | cons v l ih => simp [PyVal.anyNumpy, ih]

theorem isNumLit_num {c : Char} (h : numChar c = true) : isNumLit c = true := by
  unfold numChar at h
  unfold isNumLit
  simp only [Bool.or_eq_true, decide_eq_true_eq] at h ⊢
  tauto

theorem intStr_lit (z : Int) : ∀ c ∈ intStr z, isNumLit c = true :=
  fun c hc => isNumLit_num (intStr_num z c hc)

/-- A text that starts with a number starts neither with a blank nor a bracket. -/
theorem isNumLit_start {c : Char} (h : isNumLit c = true) : c ≠ ' ' ∧ c ≠ '[' ∧ c ≠ ']' ∧ c ≠ '\n' ∧
    c ≠ '\\' ∧ c ≠ 'n' ∧ c ≠ 'r' ∧ c ≠ 's' := by
  refine ⟨?_, ?_, ?_, ?_, ?_, ?_, ?_, ?_⟩ <;> rintro rfl <;> exact absurd h (by decide)

/-- What may follow a value. -/
def Ends (rest : Str) : Prop := ∀ c t, rest = c :: t → isNumLit c = false

theorem takeWhile_lit {a rest : Str} (ha : ∀ c ∈ a, isNumLit c = true) (hr : Ends rest) :
    (a ++ rest).takeWhile isNumLit = a ∧ (a ++ rest).dropWhile isNumLit = rest := by
  induction a with
  | nil =>
    cases rest with
    | nil => simp
    | cons c t => simp [hr c t rfl]
  | cons c a ih =>
    have := ih fun x hx => ha x (by simp [hx])
    simp [ha c (by simp), this]

theorem readNumber_int (T : FloatText F) (z : Int) {rest : Str} (hr : Ends rest) :
    readNumber T (intStr z ++ rest) = some (.int z, rest) := by
  unfold readNumber
  simp only [(takeWhile_lit (intStr_lit z) hr).1, (takeWhile_lit (intStr_lit z) hr).2,
    parseInt_intStr]

theorem trimmed_lit {s : Str} (h : ∀ c ∈ s, isNumLit c = true) : strip s = s := by
  have hw : ∀ c ∈ s, isWs c = false := by
    intro c hc
    have h' := h c hc
    cases hx : isWs c with
    | false => rfl
    | true =>
      unfold isWs at hx
      simp only [Bool.or_eq_true, decide_eq_true_eq] at hx
      rcases hx with ((((rfl | rfl) | rfl) | rfl) | rfl) | rfl <;> exact absurd h' (by decide)
  refine strip_trimmed ⟨?_, ?_⟩
  · intro c r e
    exact hw c (by rw [e]; simp)
  · intro c r e
    exact hw c (by rw [e]; simp)

theorem parseNat_bad {s : Str} {c : Char} (hc : c ∈ s) (hd : isDig c = false) :
    parseNat s = .error .valueError := by
  unfold parseNat
  rw [if_neg]
  simp only [Bool.and_eq_true, List.all_eq_true, not_and, not_forall]
  intro _
  exact ⟨c, hc, by simp [hd]⟩

theorem parseInt_bad {s : Str} (hs : ∀ c ∈ s, isNumLit c = true) (h : '.' ∈ s ∨ 'e' ∈ s) :
    parseInt s = .error .valueError := by
  obtain ⟨c, hc, hd, h1, h2⟩ : ∃ c ∈ s, isDig c = false ∧ c ≠ '-' ∧ c ≠ '+' := by
    rcases h with h | h
    · exact ⟨_, h, by decide, by decide, by decide⟩
    · exact ⟨_, h, by decide, by decide, by decide⟩
  unfold parseInt
  rw [trimmed_lit hs]
  split
  · rw [parseNat_bad (c := c) (by simpa [h1] using hc) hd]; rfl
  · rw [parseNat_bad (c := c) (by simpa [h2] using hc) hd]; rfl
  · rw [parseNat_bad (c := c) hc hd]; rfl

theorem readNumber_flt {T : FloatText F} (hT : T.Lawful) (x : F) {rest : Str} (hr : Ends rest) :
    readNumber T (T.repr x ++ rest) = some (.flt x, rest) := by
  unfold readNumber
  simp only [(takeWhile_lit (hT.chars x) hr).1, (takeWhile_lit (hT.chars x) hr).2,
    parseInt_bad (hT.chars x) (hT.notInt x), hT.parse_repr]
  rfl

theorem repr_ne {T : FloatText F} (hT : T.Lawful) (x : F) : T.repr x ≠ [] := by
  intro e
  have := hT.notInt x
  rw [e] at this
  simp at this

/-- A value written as a number is read by the reader of numbers. -/
theorem readVal_number (T : FloatText F) {s rest : Str} (n : Nat) (hs : s ≠ [])
    (hc : ∀ c ∈ s, isNumLit c = true) : readVal T (n + 1) (s ++ rest) = readNumber T (s ++ rest) := by
  cases s with
  | nil => exact absurd rfl hs
  | cons c t =>
    have h := isNumLit_start (hc c (by simp))
    have e : skipSp ((c :: t) ++ rest) = (c :: t) ++ rest := by
      unfold skipSp
      rw [List.cons_append, List.dropWhile_cons_of_neg (by simp [h.1])]
    unfold readVal
    rw [e]
    split
    · next h' =>
      rw [List.cons_append] at h'
      injection h' with h' _
      exact absurd h' h.2.1
    · rfl

/-- The first character of a value. -/
theorem reprVal_start {T : FloatText F} (hT : T.Lawful) (np2 : Bool) (v : PyVal F) :
    ∃ c t, reprVal T np2 v = c :: t ∧ (c = '[' ∨ c = 'n' ∨ isNumLit c = true) := by
  have num : ∀ s : Str, s ≠ [] → (∀ c ∈ s, isNumLit c = true) →
      ∃ c t, s = c :: t ∧ (c = '[' ∨ c = 'n' ∨ isNumLit c = true) := by
    intro s hs hc
    cases s with
    | nil => exact absurd rfl hs
    | cons c t => exact ⟨c, t, rfl, Or.inr (Or.inr (hc c (by simp)))⟩
  cases v with
  | int z => exact num _ (intStr_ne z) (intStr_lit z)
  | npInt z =>
    unfold reprVal
    cases np2 with
    | false => exact num _ (intStr_ne z) (intStr_lit z)
    | true => exact ⟨'n', _, rfl, Or.inr (Or.inl rfl)⟩
  | flt x => exact num _ (repr_ne hT x) (hT.chars x)
  | npFlt x =>
    unfold reprVal
    cases np2 with
    | false => exact num _ (repr_ne hT x) (hT.chars x)
    | true => exact ⟨'n', _, rfl, Or.inr (Or.inl rfl)⟩
  | list l => exact ⟨'[', _, rfl, Or.inl rfl⟩

theorem skipSp_repr {T : FloatText F} (hT : T.Lawful) (np2 : Bool) (v : PyVal F) (rest : Str) :
    skipSp (reprVal T np2 v ++ rest) = reprVal T np2 v ++ rest := by
  obtain ⟨c, t, e, h⟩ := reprVal_start hT np2 v
  rw [e]
  unfold skipSp
  rw [List.cons_append, List.dropWhile_cons_of_neg]
  simp only [decide_eq_true_eq]
  rcases h with rfl | rfl | h
  · decide
  · decide
  · exact (isNumLit_start h).1

theorem ends_tail (T : FloatText F) (np2 : Bool) (l : List (PyVal F)) (rest : Str) :
    Ends (reprTail T np2 l ++ rest) := by
  intro c t e
  cases l with
  | nil =>
    simp [reprTail] at e
    rw [← e.1]
    decide
  | cons v l =>
    simp [reprTail, lit] at e
    rw [← e.1]
    decide

/-- After the bracket of a list with entries. -/
theorem readVal_list {T : FloatText F} (hT : T.Lawful) (np2 : Bool) (n : Nat) (v : PyVal F)
    (l : List (PyVal F)) (rest : Str) :
    readVal T (n + 1) (reprVal T np2 (.list (v :: l)) ++ rest) =
      (readItems T n (reprVal T np2 v ++ (reprTail T np2 l ++ rest))).map
        fun p => (.list p.1, p.2) := by
  have e : reprVal T np2 (.list (v :: l)) ++ rest =
      '[' :: (reprVal T np2 v ++ (reprTail T np2 l ++ rest)) := by
    rw [reprVal, reprItems, List.cons_append, List.append_assoc]
  rw [e]
  unfold readVal
  have e1 : skipSp ('[' :: (reprVal T np2 v ++ (reprTail T np2 l ++ rest))) =
      '[' :: (reprVal T np2 v ++ (reprTail T np2 l ++ rest)) := by
    unfold skipSp
    rw [List.dropWhile_cons_of_neg (by decide)]
  rw [e1]
  simp only
  rw [skipSp_repr hT]
  obtain ⟨c, t, ev, h⟩ := reprVal_start hT np2 v
  rw [ev]
  split
  · next h' =>
    rw [List.cons_append] at h'
    injection h' with h' _
    rcases h with rfl | rfl | h
    · exact absurd h' (by decide)
    · exact absurd h' (by decide)
    · exact absurd h' (isNumLit_start h).2.2.1
  · rfl

/-- One entry of a list and what follows. -/
theorem readItems_step {T : FloatText F} (hT : T.Lawful) (np2 : Bool) (n : Nat) (v v' : PyVal F)
    (l : List (PyVal F)) (rest : Str)
    (h : readVal T n (reprVal T np2 v ++ (reprTail T np2 l ++ rest)) =
      some (v', reprTail T np2 l ++ rest)) :
    readItems T (n + 1) (reprVal T np2 v ++ (reprTail T np2 l ++ rest)) =
      match (generalizing := false) l with
      | [] => some ([v'], rest)
      | w :: l => (readItems T n (reprVal T np2 w ++ (reprTail T np2 l ++ rest))).map
          fun q => (v' :: q.1, q.2) := by
  conv_lhs => unfold readItems
  rw [h]
  simp only [Option.bind_some]
  cases l with
  | nil =>
    have e : skipSp (reprTail T np2 [] ++ rest) = ']' :: rest := by
      unfold skipSp
      rw [reprTail, List.singleton_append, List.dropWhile_cons_of_neg (by decide)]
    rw [e]
    rfl
  | cons w l =>
    have e : skipSp (reprTail T np2 (w :: l) ++ rest) =
        ',' :: ' ' :: (reprVal T np2 w ++ (reprTail T np2 l ++ rest)) := by
      unfold skipSp
      rw [reprTail]
      simp [lit, List.append_assoc]
    rw [e]
    simp only
    have e2 : skipSp (' ' :: (reprVal T np2 w ++ (reprTail T np2 l ++ rest))) =
        reprVal T np2 w ++ (reprTail T np2 l ++ rest) := by
      have := skipSp_repr hT np2 w (reprTail T np2 l ++ rest)
      unfold skipSp at this ⊢
      rw [List.dropWhile_cons_of_pos (by decide), this]
    rw [e2]

mutual
/-- A value is read back without its numpy types. -/
theorem readVal_repr {T : FloatText F} (hT : T.Lawful) (np2 : Bool) : ∀ (v : PyVal F),
    (np2 = true → v.hasNumpy = false) → ∀ (n : Nat) (rest : Str),
    (reprVal T np2 v).length ≤ n → Ends rest →
    readVal T n (reprVal T np2 v ++ rest) = some (v.plain, rest)
  | .int z, _, n, rest, hn, hr => by
    have hpos : 0 < (intStr z).length := List.length_pos_iff.mpr (intStr_ne z)
    rw [reprVal] at hn ⊢
    obtain ⟨k, rfl⟩ : ∃ k, n = k + 1 := ⟨n - 1, by omega⟩
    rw [readVal_number T k (intStr_ne z) (intStr_lit z), readNumber_int T z hr]
    rfl
  | .npInt z, h, n, rest, hn, hr => by
    cases np2 with
    | true => exact absurd (h rfl) (by simp [PyVal.hasNumpy])
    | false =>
      have hpos : 0 < (intStr z).length := List.length_pos_iff.mpr (intStr_ne z)
      rw [reprVal, if_neg (by decide)] at hn ⊢
      obtain ⟨k, rfl⟩ : ∃ k, n = k + 1 := ⟨n - 1, by omega⟩
      rw [readVal_number T k (intStr_ne z) (intStr_lit z), readNumber_int T z hr]
      rfl
  | .flt x, _, n, rest, hn, hr => by
    have hpos : 0 < (T.repr x).length := List.length_pos_iff.mpr (repr_ne hT x)
    rw [reprVal] at hn ⊢
    obtain ⟨k, rfl⟩ : ∃ k, n = k + 1 := ⟨n - 1, by omega⟩
    rw [readVal_number T k (repr_ne hT x) (hT.chars x), readNumber_flt hT x hr]
    rfl
  | .npFlt x, h, n, rest, hn, hr => by
    cases np2 with
    | true => exact absurd (h rfl) (by simp [PyVal.hasNumpy])
    | false =>
      have hpos : 0 < (T.repr x).length := List.length_pos_iff.mpr (repr_ne hT x)
      rw [reprVal, if_neg (by decide)] at hn ⊢
      obtain ⟨k, rfl⟩ : ∃ k, n = k + 1 := ⟨n - 1, by omega⟩
      rw [readVal_number T k (repr_ne hT x) (hT.chars x), readNumber_flt hT x hr]
      rfl
  | .list [], _, n, rest, hn, hr => by
    obtain ⟨k, rfl⟩ : ∃ k, n = k + 1 := ⟨n - 1, by simp [reprVal, reprItems] at hn; omega⟩
    simp [reprVal, reprItems, readVal, skipSp, PyVal.plain, PyVal.plainList]
  | .list (v :: l), h, n, rest, hn, hr => by
    have hl : (reprVal T np2 (.list (v :: l))).length =
        (reprVal T np2 v).length + (reprTail T np2 l).length + 1 := by
      simp [reprVal, reprItems]
    rw [hl] at hn
    obtain ⟨k, rfl⟩ : ∃ k, n = k + 1 := ⟨n - 1, by omega⟩
    rw [readVal_list hT, readItems_repr hT np2 v l (fun e => by
      have := h e
      simp only [PyVal.hasNumpy, PyVal.anyNumpy, Bool.or_eq_false_iff] at this
      exact this) k rest (by omega)]
    rfl
/-- Entries of a list are read back. -/
theorem readItems_repr {T : FloatText F} (hT : T.Lawful) (np2 : Bool) : ∀ (v : PyVal F)
    (l : List (PyVal F)), (np2 = true → v.hasNumpy = false ∧ PyVal.anyNumpy l = false) →
    ∀ (n : Nat) (rest : Str), (reprVal T np2 v).length + (reprTail T np2 l).length ≤ n →
    readItems T n (reprVal T np2 v ++ (reprTail T np2 l ++ rest)) =
      some (v.plain :: PyVal.plainList l, rest)
  | v, [], h, n, rest, hn => by
    simp only [reprTail, List.length_singleton] at hn
    obtain ⟨k, rfl⟩ : ∃ k, n = k + 1 := ⟨n - 1, by omega⟩
    rw [readItems_step hT np2 k v v.plain [] rest
      (readVal_repr hT np2 v (fun e => (h e).1) k _ (by omega) (ends_tail _ _ _ _))]
    rfl
  | v, w :: l, h, n, rest, hn => by
    have hl : (reprTail T np2 (w :: l)).length =
        (reprVal T np2 w).length + (reprTail T np2 l).length + 2 := by
      simp [reprTail, lit]
    rw [hl] at hn
    obtain ⟨k, rfl⟩ : ∃ k, n = k + 1 := ⟨n - 1, by omega⟩
    rw [readItems_step hT np2 k v v.plain (w :: l) rest
      (readVal_repr hT np2 v (fun e => (h e).1) k _ (by omega) (ends_tail _ _ _ _))]
    simp only
    rw [readItems_repr hT np2 w l (fun e => by
      have := (h e).2
      simp only [PyVal.anyNumpy, Bool.or_eq_false_iff] at this
      exact this) k rest (by omega)]
    rfl
end

theorem readVal_np {T : FloatText F} (hT : T.Lawful) (n : Nat) (t : Str) :
    readVal T n ('n' :: t) = none := by
  cases n with
  | zero => simp [readVal]
  | succ n =>
    have e : skipSp ('n' :: t) = 'n' :: t := by
      unfold skipSp
      rw [List.dropWhile_cons_of_neg (by decide)]
    have hp : parseInt [] = .error .valueError := by decide +kernel
    have hn : isNumLit 'n' = false := by decide
    unfold readVal
    rw [e]
    unfold readNumber
    simp [hn, hp, hT.parse_nil]

mutual
/-- With numpy scalars written with their types a value cannot be read. -/
theorem readVal_numpy {T : FloatText F} (hT : T.Lawful) : ∀ (v : PyVal F), v.hasNumpy = true →
    ∀ (n : Nat) (rest : Str), (reprVal T true v).length ≤ n →
    readVal T n (reprVal T true v ++ rest) = none
  | .int z, h, _, _, _ => absurd h (by simp [PyVal.hasNumpy])
  | .npInt z, _, n, rest, _ => by
    have e : reprVal T true (.npInt z) ++ rest =
        'n' :: (lit "p.int64(" ++ intStr z ++ [')'] ++ rest) := by
      simp [reprVal, lit]
    rw [e, readVal_np hT]
  | .flt x, h, _, _, _ => absurd h (by simp [PyVal.hasNumpy])
  | .npFlt x, _, n, rest, _ => by
    have e : reprVal T true (.npFlt x) ++ rest =
        'n' :: (lit "p.float64(" ++ T.repr x ++ [')'] ++ rest) := by
      simp [reprVal, lit]
    rw [e, readVal_np hT]
  | .list [], h, _, _, _ => absurd h (by simp [PyVal.hasNumpy, PyVal.anyNumpy])
  | .list (v :: l), h, n, rest, hn => by
    have hl : (reprVal T true (.list (v :: l))).length =
        (reprVal T true v).length + (reprTail T true l).length + 1 := by
      simp [reprVal, reprItems]
    rw [hl] at hn
    obtain ⟨k, rfl⟩ : ∃ k, n = k + 1 := ⟨n - 1, by omega⟩
    rw [readVal_list hT, readItems_numpy hT v l (by
      simpa [PyVal.hasNumpy, PyVal.anyNumpy] using h) k rest (by omega)]
    rfl
theorem readItems_numpy {T : FloatText F} (hT : T.Lawful) : ∀ (v : PyVal F)
    (l : List (PyVal F)), (v.hasNumpy = true ∨ PyVal.anyNumpy l = true) →
    ∀ (n : Nat) (rest : Str), (reprVal T true v).length + (reprTail T true l).length ≤ n →
    readItems T n (reprVal T true v ++ (reprTail T true l ++ rest)) = none
  | v, [], h, n, rest, hn => by
    have h : v.hasNumpy = true := by simpa [PyVal.anyNumpy] using h
    cases n with
    | zero => simp [readItems]
    | succ k =>
      simp only [reprTail, List.length_singleton] at hn
      unfold readItems
      rw [readVal_numpy hT v h k _ (by omega)]
      rfl
  | v, w :: l, h, n, rest, hn => by
    have hl : (reprTail T true (w :: l)).length =
        (reprVal T true w).length + (reprTail T true l).length + 2 := by
      simp [reprTail, lit]
    rw [hl] at hn
    obtain ⟨k, rfl⟩ : ∃ k, n = k + 1 := ⟨n - 1, by omega⟩
    by_cases hv : v.hasNumpy = true
    · unfold readItems
      rw [readVal_numpy hT v hv k _ (by omega)]
      rfl
    · have hv' : v.hasNumpy = false := by simpa using hv
      rw [readItems_step hT true k v v.plain (w :: l) rest
        (readVal_repr hT true v (fun _ => hv') k _ (by omega) (ends_tail _ _ _ _))]
      simp only
      rw [readItems_numpy hT w l (by
        rcases h with h | h
        · exact absurd h hv
        · simpa [PyVal.anyNumpy] using h) k rest (by omega)]
      rfl
end

/-! ### Characters -/

/-- Characters of a written value. -/
def valChar (c : Char) : Bool := isNumLit c || decide (c ∈ lit "[], ()npitfloat64")

mutual
theorem reprVal_chars {T : FloatText F} (hT : T.Lawful) (np2 : Bool) : ∀ (v : PyVal F),
    ∀ c ∈ reprVal T np2 v, valChar c = true
  | .int z => fun c hc => by
    unfold valChar
    rw [intStr_lit z c (by simpa [reprVal] using hc)]
    rfl
  | .npInt z => fun c hc => by
    cases np2 with
    | false =>
      unfold valChar
      rw [intStr_lit z c (by simpa [reprVal] using hc)]
      rfl
    | true =>
      rw [reprVal, if_pos rfl, List.mem_append, List.mem_append] at hc
      rcases hc with (hc | hc) | hc
      · exact (by decide : ∀ c ∈ lit "np.int64(", valChar c = true) c hc
      · unfold valChar
        rw [intStr_lit z c hc]
        rfl
      · rw [List.mem_singleton.mp hc]; decide
  | .flt x => fun c hc => by
    unfold valChar
    rw [hT.chars x c (by simpa [reprVal] using hc)]
    rfl
  | .npFlt x => fun c hc => by
    cases np2 with
    | false =>
      unfold valChar
      rw [hT.chars x c (by simpa [reprVal] using hc)]
      rfl
    | true =>
      rw [reprVal, if_pos rfl, List.mem_append, List.mem_append] at hc
      rcases hc with (hc | hc) | hc
      · exact (by decide : ∀ c ∈ lit "np.float64(", valChar c = true) c hc
      · unfold valChar
        rw [hT.chars x c hc]
        rfl
      · rw [List.mem_singleton.mp hc]; decide
  | .list [] => fun c hc => by
    simp [reprVal, reprItems] at hc
    rcases hc with rfl | rfl <;> decide
  | .list (v :: l) => fun c hc => by
    rw [reprVal, reprItems, List.mem_cons, List.mem_append] at hc
    rcases hc with rfl | hc | hc
    · decide
    · exact reprVal_chars hT np2 v c hc
    · exact reprTail_chars hT np2 l c hc
theorem reprTail_chars {T : FloatText F} (hT : T.Lawful) (np2 : Bool) : ∀ (l : List (PyVal F)),
    ∀ c ∈ reprTail T np2 l, valChar c = true
  | [] => fun c hc => by
    rw [reprTail, List.mem_singleton] at hc
    rw [hc]
    decide
  | v :: l => fun c hc => by
    rw [reprTail, List.mem_append, List.mem_append] at hc
    rcases hc with hc | hc | hc
    · simp [lit] at hc
      rcases hc with rfl | rfl <;> decide
    · exact reprVal_chars hT np2 v c hc
    · exact reprTail_chars hT np2 l c hc
end

theorem valChar_not {T : FloatText F} (hT : T.Lawful) (np2 : Bool) (v : PyVal F) {c : Char}
    (h : valChar c = false) : c ∉ reprVal T np2 v := by
  intro hc
  rw [reprVal_chars hT np2 v c hc] at h
  exact absurd h (by decide)

/-! ### Lines of values -/

/-- The text of a line as `load_file` reads it. -/
theorem split_line {T : FloatText F} (hT : T.Lawful) (np2 : Bool) (v : PyVal F) :
    (splitSep '\\' (reprVal T np2 v ++ ['\n'])).headD [] = reprVal T np2 v ++ ['\n'] := by
  rw [splitSep_one]
  · rfl
  · intro h
    rcases List.mem_append.mp h with h | h
    · exact valChar_not hT np2 v (by decide) h
    · exact absurd (List.mem_singleton.mp h) (by decide)

theorem literalEval_repr {T : FloatText F} (hT : T.Lawful) (np2 : Bool) (v : PyVal F)
    (h : np2 = true → v.hasNumpy = false) :
    literalEval T (reprVal T np2 v ++ ['\n']) = .ok v.plain := by
  unfold literalEval
  rw [readVal_repr hT np2 v h _ ['\n'] (by simp; omega) (by
    intro c t e
    injection e with e _
    rw [← e]
    decide)]
  rfl

theorem literalEval_numpy {T : FloatText F} (hT : T.Lawful) (v : PyVal F)
    (h : v.hasNumpy = true) : literalEval T (reprVal T true v ++ ['\n']) = .error .valueError := by
  unfold literalEval
  rw [readVal_numpy hT v h _ ['\n'] (by simp; omega)]

/-- The line of a value. -/
def valLine (T : FloatText F) (np2 : Bool) (v : PyVal F) : Str := reprVal T np2 v ++ ['\n']

theorem evalLines_repr {T : FloatText F} (hT : T.Lawful) (np2 : Bool) (l : List (PyVal F))
    (h : np2 = true → ∀ v ∈ l, v.hasNumpy = false) :
    evalLines T (l.map (valLine T np2)) = .ok (l.map PyVal.plain) := by
  induction l with
  | nil => rfl
  | cons v l ih =>
    rw [List.map_cons, evalLines, valLine, split_line hT, literalEval_repr hT np2 v
      (fun e => h e v (by simp)), ih fun e w hw => h e w (by simp [hw])]
    rfl

theorem evalLines_numpy {T : FloatText F} (hT : T.Lawful) (l : List (PyVal F))
    (h : ∃ v ∈ l, v.hasNumpy = true) :
    evalLines T (l.map (valLine T true)) = .error .valueError := by
  induction l with
  | nil => simp at h
  | cons v l ih =>
    rw [List.map_cons, evalLines, valLine, split_line hT]
    by_cases hv : v.hasNumpy = true
    · rw [literalEval_numpy hT v hv]
      rfl
    · rw [literalEval_repr hT true v (fun _ => by simpa using hv), ih (by
        obtain ⟨w, hw, h⟩ := h
        rcases List.mem_cons.mp hw with rfl | hw
        · exact absurd h hv
        · exact ⟨w, hw, h⟩)]
      rfl

end DefDAP
