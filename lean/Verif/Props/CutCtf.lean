import Verif.Props.CtfRoundTrip

/-! C140: loading a CTF file whose writing was interrupted. -/

namespace DefDAP
open Spec

/-! ### Words of a text that is cut off -/

theorem splitWhen_cut (p : Char → Bool) (s t : Str) : ∃ h r h' r',
    splitWhen p s = h :: r ∧ splitWhen p (s ++ t) = h' :: r' ∧ h <+: h' ∧
    (r.filter fun w => !w.isEmpty).length ≤ (r'.filter fun w => !w.isEmpty).length := by
  induction s with
  | nil =>
    obtain ⟨h', r', e⟩ := List.exists_cons_of_ne_nil (splitWhen_ne p t)
    exact ⟨[], [], h', r', rfl, e, List.nil_prefix, by simp⟩
  | cons c s ih =>
    obtain ⟨h, r, h', r', e, e', hp, hl⟩ := ih
    by_cases hc : p c = true
    · refine ⟨[], h :: r, [], h' :: r', ?_, ?_, List.nil_prefix, ?_⟩
      · rw [splitWhen, if_pos hc, e]
      · rw [List.cons_append, splitWhen, if_pos hc, e']
      · cases h with
        | nil =>
          have : (r'.filter fun w => !w.isEmpty).length ≤
              ((h' :: r').filter fun w => !w.isEmpty).length := by
            rw [List.filter_cons]
            split <;> simp
          exact le_trans hl this
        | cons x h =>
          cases h' with
          | nil => exact absurd hp (by simp)
          | cons x' h' =>
            simp only [List.filter_cons, List.isEmpty_cons, Bool.not_false, if_true,
              List.length_cons]
            omega
    · refine ⟨c :: h, r, c :: h', r', ?_, ?_, ?_, hl⟩
      · rw [splitWhen, if_neg hc, e]
      · rw [List.cons_append, splitWhen, if_neg hc, e']
      · obtain ⟨u, rfl⟩ := hp
        exact ⟨u, rfl⟩

/-- A text that is cut off has no more words. -/
theorem splitWs_cut (s t : Str) : (splitWs s).length ≤ (splitWs (s ++ t)).length := by
  obtain ⟨h, r, h', r', e, e', hp, hl⟩ := splitWhen_cut isWs s t
  unfold splitWs
  rw [e, e']
  cases h with
  | nil =>
    have : (r'.filter fun w => !w.isEmpty).length ≤
        ((h' :: r').filter fun w => !w.isEmpty).length := by
      rw [List.filter_cons]
      split <;> simp
    exact le_trans hl this
  | cons x h =>
    cases h' with
    | nil => exact absurd hp (by simp)
    | cons x' h' =>
      simp only [List.filter_cons, List.isEmpty_cons, Bool.not_false, if_true, List.length_cons]
      omega

/-! ### Lines of a text that is cut off -/

theorem linesOf_lines {ls : List Str} (h : ∀ l ∈ ls, '\n' ∉ l) (p : Str) :
    linesOf ((ls.map fun l => l ++ ['\n']).flatten ++ p) =
      (ls.map fun l => l ++ ['\n']) ++ linesOf p := by
  induction ls with
  | nil => rfl
  | cons a t ih =>
    rw [List.map_cons, List.flatten_cons, List.append_assoc, List.append_assoc]
    have := linesOf_line (rest := (t.map fun l => l ++ ['\n']).flatten ++ p) (h a (by simp))
    rw [List.singleton_append, this, ih fun l hl => h l (List.mem_cons_of_mem _ hl)]
    rfl

theorem linesOf_plain {p : Str} (hne : p ≠ []) (h : '\n' ∉ p) : linesOf p = [p] := by
  induction p with
  | nil => exact absurd rfl hne
  | cons c t ih =>
    have hc : c ≠ '\n' := fun e => h (by simp [e])
    rw [linesOf, if_neg hc]
    cases t with
    | nil => rfl
    | cons d t => rw [ih (by simp) fun hh => h (List.mem_cons_of_mem _ hh)]

/-- A text that is cut off: whole lines, then the start of the next. -/
theorem cut_text : ∀ (ls : List Str) (t : Str),
    t <+: (ls.map fun l => l ++ ['\n']).flatten →
    ∃ (a : List Str) (p : Str), t = (a.map fun l => l ++ ['\n']).flatten ++ p ∧
      ((a = ls ∧ p = []) ∨ ∃ l b, ls = a ++ l :: b ∧ p <+: l) := by
  intro ls
  induction ls with
  | nil =>
    intro t ht
    exact ⟨[], [], by simpa using ht, Or.inl ⟨rfl, rfl⟩⟩
  | cons l ls ih =>
    intro t ht
    rw [List.map_cons, List.flatten_cons] at ht
    have ht : t <+: l ++ ['\n'] ∨ ∃ u, t = (l ++ ['\n']) ++ u ∧
        u <+: (ls.map fun l => l ++ ['\n']).flatten := by
      obtain ⟨v, hv⟩ := ht
      rcases List.append_eq_append_iff.mp hv with ⟨a', h1, _⟩ | ⟨a', h1, h2⟩
      · exact Or.inl ⟨a', h1.symm⟩
      · exact Or.inr ⟨a', h1, ⟨v, h2.symm⟩⟩
    rcases ht with ht | ⟨u, hu, hp⟩
    · rcases List.prefix_concat_iff.mp ht with rfl | ht
      · cases ls with
        | nil => exact ⟨[l], [], by simp, Or.inl ⟨rfl, rfl⟩⟩
        | cons m ms => exact ⟨[l], [], by simp, Or.inr ⟨m, ms, rfl, List.nil_prefix⟩⟩
      · exact ⟨[], t, by simp, Or.inr ⟨l, ls, rfl, ht⟩⟩
    · obtain ⟨a, p, e, h⟩ := ih u hp
      refine ⟨l :: a, p, by rw [hu, e]; simp, ?_⟩
      rcases h with ⟨rfl, rfl⟩ | ⟨x, b, rfl, hx⟩
      · exact Or.inl ⟨rfl, rfl⟩
      · exact Or.inr ⟨x, b, rfl, hx⟩

/-! ### The header -/

theorem hasSub_cut {k x y : Str} (h : x <+: y) (hy : hasSub k y = false) : hasSub k x = false := by
  unfold hasSub at *
  rw [decide_eq_false_iff_not] at *
  exact fun hk => hy (hk.trans h.isInfix)

theorem except_bind_ok {α β : Type} {e : Except Err α} {f : α → Except Err β} {b : β}
    (h : e.bind f = .ok b) : ∃ a, e = .ok a ∧ f a = .ok b := by
  cases e with
  | error x => exact absurd h (by simp [Except.bind])
  | ok a => exact ⟨a, rfl, h⟩

theorem ctfPhases_left : ∀ (n : Nat) (lines : List Str) (r : List PhaseData × List Str),
    ctfPhases n lines = .ok r → r.2 = lines.drop n ∧ n ≤ lines.length := by
  intro n
  induction n with
  | zero =>
    intro lines r h
    have : r = ([], lines) := by
      simp only [ctfPhases] at h
      exact (Except.ok.inj h).symm
    subst this
    exact ⟨rfl, Nat.zero_le _⟩
  | succ n ih =>
    intro lines r h
    cases lines with
    | nil => exact absurd h (by simp [ctfPhases])
    | cons l lines =>
      rw [ctfPhases] at h
      obtain ⟨p, _, h⟩ := except_bind_ok h
      obtain ⟨q, hq, h⟩ := except_bind_ok h
      obtain ⟨h1, h2⟩ := ih lines q hq
      have : r = (p :: q.1, q.2) := (Except.ok.inj h).symm
      subst this
      exact ⟨h1, by simpa using h2⟩

theorem ctfTable_left {i n : Nat} {lines : List Str} {t : List PhaseData × Str × Nat}
    (h : ctfTable i n lines = .ok t) :
    1 ≤ n ∧ lines[n]? = some t.2.1 ∧ t.2.2 = i + n + 2 := by
  unfold ctfTable at h
  obtain ⟨r, hr, h⟩ := except_bind_ok h
  obtain ⟨h1, h2⟩ := ctfPhases_left n lines r hr
  cases hl : r.2 with
  | nil => rw [hl] at h; exact absurd h (by simp)
  | cons x y =>
    rw [hl] at h
    cases n with
    | zero => exact absurd h (by simp)
    | succ j =>
      have : t = (r.1, x, i + j + 3) := (Except.ok.inj h).symm
      subst this
      refine ⟨by omega, ?_, by simp only; omega⟩
      rw [hl] at h1
      have : (lines.drop (j + 1))[0]? = some x := by rw [← h1]; rfl
      rwa [List.getElem?_drop] at this

theorem ctfHeader_short : ∀ (b c : List Str), (∀ x ∈ b, hasSub (lit "Phases") x = false) →
    c.length ≤ 1 → ∀ i s r, ctfHeader (b ++ c) i s = .ok r → r.2 = none := by
  have last : ∀ (l : List Str), l = [] → ∀ i s r, ctfHeader l i s = .ok r → r.2 = none := by
    rintro l rfl i s r h
    rw [ctfHeader] at h
    rw [← Except.ok.inj h]
  have table : ∀ i n (l : List Str), l = [] → ∀ t, ctfTable i n l ≠ .ok t := by
    rintro i n l rfl t h
    have := (ctfTable_left h).2.1
    simp at this
  intro b
  induction b with
  | nil =>
    intro c _ hc i s r h
    cases c with
    | nil => exact last _ rfl _ _ _ h
    | cons x c =>
      have hc : c = [] := by simpa using hc
      rw [List.nil_append, ctfHeader] at h
      split at h
      · obtain ⟨_, _, h⟩ := except_bind_ok h
        exact last _ hc _ _ _ h
      split at h
      · obtain ⟨_, _, h⟩ := except_bind_ok h
        exact last _ hc _ _ _ h
      split at h
      · obtain ⟨_, _, h⟩ := except_bind_ok h
        exact last _ hc _ _ _ h
      split at h
      · obtain ⟨_, _, h⟩ := except_bind_ok h
        exact last _ hc _ _ _ h
      split at h
      · obtain ⟨_, _, h⟩ := except_bind_ok h
        exact last _ hc _ _ _ h
      split at h
      · obtain ⟨_, _, h⟩ := except_bind_ok h
        exact last _ hc _ _ _ h
      split at h
      · obtain ⟨_, _, h⟩ := except_bind_ok h
        obtain ⟨t, ht, _⟩ := except_bind_ok h
        exact absurd ht (table _ _ _ hc t)
      · exact last _ hc _ _ _ h
  | cons x b ih =>
    intro c hb hc i s r h
    have ih := ih c (fun y hy => hb y (List.mem_cons_of_mem _ hy)) hc
    rw [List.cons_append, ctfHeader, hb x (by simp)] at h
    split at h
    · obtain ⟨_, _, h⟩ := except_bind_ok h
      exact ih _ _ _ h
    split at h
    · obtain ⟨_, _, h⟩ := except_bind_ok h
      exact ih _ _ _ h
    split at h
    · obtain ⟨_, _, h⟩ := except_bind_ok h
      exact ih _ _ _ h
    split at h
    · obtain ⟨_, _, h⟩ := except_bind_ok h
      exact ih _ _ _ h
    split at h
    · obtain ⟨_, _, h⟩ := except_bind_ok h
      exact ih _ _ _ h
    split at h
    · obtain ⟨_, _, h⟩ := except_bind_ok h
      exact ih _ _ _ h
    · exact ih _ _ _ h

/-! ### The table -/

theorem tableRows_length (cols : List (Nat × Str × FieldType)) : ∀ (lines : List Str)
    (table : List (List ℚ)), tableRows cols lines = .ok table → table.length ≤ lines.length := by
  intro lines
  induction lines with
  | nil =>
    intro table h
    rw [tableRows] at h
    rw [← Except.ok.inj h]
    simp
  | cons l lines ih =>
    intro table h
    rw [tableRows] at h
    split at h
    · have := ih _ h
      simp only [List.length_cons]
      omega
    · obtain ⟨row, _, h⟩ := except_bind_ok h
      obtain ⟨rows, hr, h⟩ := except_bind_ok h
      rw [← Except.ok.inj h]
      simpa using ih _ hr

theorem tableRows_last (cols : List (Nat × Str × FieldType)) (p : Str) : ∀ (lines : List Str)
    (table : List (List ℚ)), tableRows cols (lines ++ [p]) = .ok table →
    table.length ≤ lines.length ∨
      ∃ row, cols.mapM (rowCell (splitWs (p.takeWhile fun c => decide (c ≠ '#')))) = .ok row := by
  intro lines
  induction lines with
  | nil =>
    intro table h
    rw [List.nil_append, tableRows] at h
    split at h
    · left
      simpa using tableRows_length _ _ _ h
    · obtain ⟨row, hr, h⟩ := except_bind_ok h
      exact Or.inr ⟨row, hr⟩
  | cons l lines ih =>
    intro table h
    rw [List.cons_append, tableRows] at h
    split at h
    · rcases ih _ h with h | h
      · left
        simp only [List.length_cons]
        omega
      · exact Or.inr h
    · obtain ⟨row, _, h⟩ := except_bind_ok h
      obtain ⟨rows, hr, h⟩ := except_bind_ok h
      rw [← Except.ok.inj h]
      rcases ih _ hr with h | h
      · left
        simpa using h
      · exact Or.inr h

theorem tableRows_words (cols : List (Nat × Str × FieldType)) (p q : Str)
    (h : splitWs (p.takeWhile fun c => decide (c ≠ '#')) =
      splitWs (q.takeWhile fun c => decide (c ≠ '#'))) : ∀ lines : List Str,
    tableRows cols (lines ++ [p]) = tableRows cols (lines ++ [q]) := by
  intro lines
  induction lines with
  | nil =>
    simp only [List.nil_append, tableRows, h]
  | cons l lines ih =>
    rw [List.cons_append, List.cons_append, tableRows, tableRows, ih]

theorem ctfPhases_more : ∀ (ph more : List Str),
    ctfPhases ph.length (ph ++ more) = (ctfPhases ph.length ph).bind fun r => .ok (r.1, more) := by
  intro ph more
  induction ph with
  | nil => rfl
  | cons l ph ih =>
    rw [List.length_cons, List.cons_append, ctfPhases, ctfPhases, ih]
    cases ctfPhase l with
    | error e => rfl
    | ok p =>
      cases ctfPhases ph.length ph with
      | error e => rfl
      | ok r => rfl

theorem ctfTable_more (i : Nat) (ph : List Str) (x : Str) (b c : List Str) :
    ctfTable i ph.length (ph ++ x :: b) = ctfTable i ph.length (ph ++ x :: c) := by
  unfold ctfTable
  rw [ctfPhases_more, ctfPhases_more]
  cases ctfPhases ph.length ph with
  | error e => rfl
  | ok r => rfl

/-! ### A map file that is cut off -/

/-- The lines of the header before the phases. -/
noncomputable def ctfFront (m : CtfMap) : List Str := (ctfHead m).take 13

/-- The title line. -/
def ctfTitles : Str := lit "Phase\tX\tY\tBands\tError\tEuler1\tEuler2\tEuler3\tMAD\tBC\tBS"

theorem ctfHead_parts (m : CtfMap) :
    ctfHead m = ctfFront m ++ m.phases.map phaseText ++ [ctfTitles] := by
  unfold ctfFront ctfHead
  simp [ctfTitles]

theorem ctfFront_length (m : CtfMap) : (ctfFront m).length = 13 := by
  unfold ctfFront ctfHead
  simp

theorem ctfFront_plain (m : CtfMap) :
    ∀ l ∈ (ctfFront m).take 12, hasSub (lit "Phases") (l ++ ['\n']) = false := by
  intro l hl
  have hl : l ∈ [lit "Channel Text File", lit "Prj\t", lit "Author\t", lit "JobMode\tGrid",
   lit "XCells" ++ '\t' :: intStr m.cols, lit "YCells" ++ '\t' :: intStr m.rows,
   lit "XStep" ++ '\t' :: fixedStr 4 m.step, lit "YStep" ++ '\t' :: fixedStr 4 m.step,
   lit "AcqE1" ++ '\t' :: fixedStr 4 (deg m.acquisition.eulerAngles.1),
   lit "AcqE2" ++ '\t' :: fixedStr 4 (deg m.acquisition.eulerAngles.2.1),
   lit "AcqE3" ++ '\t' :: fixedStr 4 (deg m.acquisition.eulerAngles.2.2),
   lit "Euler angles refer to Sample Coordinate system (CS0)!"] := by
    simpa [ctfFront, ctfHead] using hl
  simp only [List.mem_cons, List.not_mem_nil, or_false] at hl
  rcases hl with rfl | rfl | rfl | rfl | rfl | rfl | rfl | rfl | rfl | rfl | rfl | rfl
  · decide +kernel
  · decide +kernel
  · decide +kernel
  · decide +kernel
  · rw [(headKeys (intStr_num _) _).2.2.2.2.2.2]; decide +kernel
  · rw [(headKeys (intStr_num _) _).2.2.2.2.2.2]; decide +kernel
  · rw [(headKeys (fixedStr_num _ _) _).2.2.2.2.2.2]; decide +kernel
  · rw [(headKeys (fixedStr_num _ _) _).2.2.2.2.2.2]; decide +kernel
  · rw [(headKeys (fixedStr_num _ _) _).2.2.2.2.2.2]; decide +kernel
  · rw [(headKeys (fixedStr_num _ _) _).2.2.2.2.2.2]; decide +kernel
  · rw [(headKeys (fixedStr_num _ _) _).2.2.2.2.2.2]; decide +kernel
  · decide +kernel

theorem ctfHeader_front (m : CtfMap) :
    ∃ s : CtfState, s.x = some (m.cols : Int) ∧ s.y = some (m.rows : Int) ∧ ∀ rest : List Str,
      ctfHeader ((ctfFront m).map (fun l => l ++ ['\n']) ++ rest) 0 ⟨none, none, 0, 0, 0, 0⟩ =
        (ctfTable 12 m.phases.length rest).bind fun t => .ok (s, some t) := by
  obtain ⟨st, hst, -⟩ := parseFixed4 m.step
  obtain ⟨a1, ha1, -⟩ := parseFixed4 (deg m.acquisition.eulerAngles.1)
  obtain ⟨a2, ha2, -⟩ := parseFixed4 (deg m.acquisition.eulerAngles.2.1)
  obtain ⟨a3, ha3, -⟩ := parseFixed4 (deg m.acquisition.eulerAngles.2.2)
  refine ⟨⟨some m.cols, some m.rows, st, a1, a2, a3⟩, rfl, rfl, fun rest => ?_⟩
  obtain ⟨k1, k2, k3, k4, k5, k6⟩ := noKey_plain
  have e : ctfFront m = [lit "Channel Text File", lit "Prj\t", lit "Author\t", lit "JobMode\tGrid",
   lit "XCells" ++ '\t' :: intStr m.cols, lit "YCells" ++ '\t' :: intStr m.rows,
   lit "XStep" ++ '\t' :: fixedStr 4 m.step, lit "YStep" ++ '\t' :: fixedStr 4 m.step,
   lit "AcqE1" ++ '\t' :: fixedStr 4 (deg m.acquisition.eulerAngles.1),
   lit "AcqE2" ++ '\t' :: fixedStr 4 (deg m.acquisition.eulerAngles.2.1),
   lit "AcqE3" ++ '\t' :: fixedStr 4 (deg m.acquisition.eulerAngles.2.2),
   lit "Euler angles refer to Sample Coordinate system (CS0)!",
   lit "Phases" ++ '\t' :: intStr m.phases.length] := by
    simp [ctfFront, ctfHead]
  rw [e]
  simp only [List.map_cons, List.map_nil, List.cons_append, List.nil_append, List.append_assoc]
  rw [ctfHeader_skip k1, ctfHeader_skip k2, ctfHeader_skip k3, ctfHeader_skip k4]
  have hx := fun num => (List.append_assoc (lit "XCells") ('\t' :: num) ['\n']).symm
  have hy := fun num => (List.append_assoc (lit "YCells") ('\t' :: num) ['\n']).symm
  have hs := fun num => (List.append_assoc (lit "XStep") ('\t' :: num) ['\n']).symm
  have hs' := fun num => (List.append_assoc (lit "YStep") ('\t' :: num) ['\n']).symm
  have h1 := fun num => (List.append_assoc (lit "AcqE1") ('\t' :: num) ['\n']).symm
  have h2 := fun num => (List.append_assoc (lit "AcqE2") ('\t' :: num) ['\n']).symm
  have h3 := fun num => (List.append_assoc (lit "AcqE3") ('\t' :: num) ['\n']).symm
  have hp := fun num => (List.append_assoc (lit "Phases") ('\t' :: num) ['\n']).symm
  simp only [List.cons_append] at hx hy hs hs' h1 h2 h3 hp
  rw [hx, ctfHeader_x (intStr_ne _) (intStr_num _) _ _ _ (parseInt_intStr _),
    hy, ctfHeader_y (intStr_ne _) (intStr_num _) _ _ _ (parseInt_intStr _),
    hs, ctfHeader_step (fixedStr_ne _ _) (fixedStr_num _ _) _ _ _ hst,
    hs', ctfHeader_skip (noKey_num (fixedStr_num _ _) k5),
    h1, ctfHeader_acq1 (fixedStr_ne _ _) (fixedStr_num _ _) _ _ _ ha1,
    h2, ctfHeader_acq2 (fixedStr_ne _ _) (fixedStr_num _ _) _ _ _ ha2,
    h3, ctfHeader_acq3 (fixedStr_ne _ _) (fixedStr_num _ _) _ _ _ ha3,
    ctfHeader_skip k6,
    hp, ctfHeader_phases (intStr_ne _) (intStr_num _) _ _ _ (parseInt_intStr _),
    Int.toNat_natCast]

/-- What loading a text needs. -/
theorem loadCtf_ok {t : Str} {d : CtfData} (h : loadCtf t = .ok d) :
    ∃ s x y q cols table, ctfHeader (linesOf t) 0 ⟨none, none, 0, 0, 0, 0⟩ = .ok (s, some q) ∧
      s.y = some y ∧ s.x = some x ∧ loadColumns 0 (splitWs q.2.1) = .ok cols ∧
      tableRows cols ((linesOf t).drop q.2.2) = .ok table ∧
      lit "BS" ∈ cols.map (fun f => f.2.1) ∧ (table.length : Int) = y * x := by
  unfold loadCtf at h
  obtain ⟨⟨s, o⟩, h1, h⟩ := except_bind_ok h
  obtain ⟨y, hy, h⟩ := except_bind_ok h
  obtain ⟨x, hx, h⟩ := except_bind_ok h
  obtain ⟨q, hq, h⟩ := except_bind_ok h
  obtain ⟨cols, hc, h⟩ := except_bind_ok h
  obtain ⟨_, _, h⟩ := except_bind_ok h
  obtain ⟨table, ht, h⟩ := except_bind_ok h
  obtain ⟨bc, _, h⟩ := except_bind_ok h
  obtain ⟨bs, hb, h⟩ := except_bind_ok h
  have bound_ok : ∀ {α : Type} {o : Option α} {a : α}, bound o = .ok a → o = some a := by
    intro α o a h
    cases o with
    | none => exact absurd h (by simp [bound])
    | some b => rw [bound] at h; rw [Except.ok.inj h]
  have e := bound_ok hq
  simp only at e
  subst e
  unfold tableColumn at hb
  split at hb
  · rename_i hm
    split at hb
    · rename_i hl
      exact ⟨s, x, y, q, cols, table, h1, bound_ok hy, bound_ok hx, hc, ht, hm, hl.1⟩
    · exact absurd hb (by simp)
  · exact absurd hb (by simp)

/-- No start of the title line but the whole line gives all columns. -/
theorem titles_cut {p : Str} (hp : p <+: ctfTitles) (hne : p ≠ ctfTitles)
    {cols : List (Nat × Str × FieldType)} (hc : loadColumns 0 (splitWs p) = .ok cols) :
    lit "BS" ∉ cols.map (fun f => f.2.1) := by
  have key : ∀ p ∈ ctfTitles.inits, p = ctfTitles ∨
      (match loadColumns 0 (splitWs p) with
        | .error _ => true
        | .ok cols => decide (lit "BS" ∉ cols.map (fun f => f.2.1))) = true := by
    decide +kernel
  rcases key p (List.mem_inits p ctfTitles |>.mpr hp) with h | h
  · exact absurd h hne
  · rw [hc] at h
    simpa using h

theorem joinSep_concat (sep : Char) (x : Str) : ∀ {toks : List Str}, toks ≠ [] →
    joinSep sep (toks ++ [x]) = joinSep sep toks ++ sep :: x := by
  intro toks
  induction toks with
  | nil => intro h; exact absurd rfl h
  | cons a t ih =>
    intro _
    cases t with
    | nil => rfl
    | cons b t =>
      show a ++ sep :: joinSep sep ((b :: t) ++ [x]) = (a ++ sep :: joinSep sep (b :: t)) ++ sep :: x
      rw [ih (by simp), List.append_assoc]
      rfl

theorem pixel_words (m : CtfMap) (r c : Nat) : ∃ toks : List Str, toks.length = 10 ∧
    (∀ t ∈ toks, t ≠ [] ∧ ∀ c ∈ t, isWs c = false) ∧
    pixelText m r c = joinSep '\t' toks ++ ['\t', '0'] := by
  refine ⟨[intStr (m.phase r c), fixedStr 3 (c * m.step), fixedStr 3 (r * m.step), lit "10",
     intStr (if m.phase r c = 0 then 3 else 0), fixedStr 3 (deg (m.quat r c).eulerAngles.1),
     fixedStr 3 (deg (m.quat r c).eulerAngles.2.1), fixedStr 3 (deg (m.quat r c).eulerAngles.2.2),
     lit "0.0000", intStr (m.contrast r c)], rfl, ?_, ?_⟩
  · intro t ht
    have := pixel_toks m r c t (by
      simp only [List.mem_cons, List.not_mem_nil, or_false] at ht ⊢
      rcases ht with h | h | h | h | h | h | h | h | h | h <;> simp [h])
    exact num_tok this.1 this.2
  · exact joinSep_concat '\t' (lit "0") (toks := [intStr (m.phase r c), fixedStr 3 (c * m.step),
     fixedStr 3 (r * m.step), lit "10", intStr (if m.phase r c = 0 then 3 else 0),
     fixedStr 3 (deg (m.quat r c).eulerAngles.1), fixedStr 3 (deg (m.quat r c).eulerAngles.2.1),
     fixedStr 3 (deg (m.quat r c).eulerAngles.2.2), lit "0.0000", intStr (m.contrast r c)]) (by simp)

theorem splitWs_tab {s : Str} : splitWs (s ++ ['\t']) = splitWs (s ++ ['\n']) := by
  unfold splitWs
  rw [splitWhen_append _ _ _ (by decide), splitWhen_append _ _ _ (by decide)]

/-- A line of a pixel that is cut off lacks its last value. -/
theorem pixel_cut {m : CtfMap} {r c : Nat} {p : Str} (hp : p <+: pixelText m r c)
    (hne : p ≠ pixelText m r c) : (splitWs p).length ≤ 10 := by
  obtain ⟨toks, hl, ht, e⟩ := pixel_words m r c
  have e' : pixelText m r c = (joinSep '\t' toks ++ ['\t']) ++ ['0'] := by
    rw [e, List.append_assoc]; rfl
  rw [e'] at hp hne
  rcases List.prefix_concat_iff.mp hp with h | ⟨u, hu⟩
  · exact absurd h hne
  · have := splitWs_cut p u
    rw [hu, splitWs_tab, splitWs_join (by intro h; rw [h] at hl; simp at hl) ht, hl] at this
    exact this

theorem mapM_each_ok {α β : Type} {f : α → Except Err β} : ∀ {l : List α} {r : List β},
    l.mapM f = .ok r → ∀ x ∈ l, ∃ y, f x = .ok y := by
  intro l
  induction l with
  | nil => intro r _ x hx; exact absurd hx (by simp)
  | cons a l ih =>
    intro r h x hx
    rw [List.mapM_cons] at h
    obtain ⟨y, hy, h⟩ := except_bind_ok h
    obtain ⟨z, hz, h⟩ := except_bind_ok h
    rcases List.mem_cons.mp hx with rfl | hx
    · exact ⟨y, hy⟩
    · exact ih hz x hx

theorem linesOf_short {p l : Str} (hp : p <+: l) (hl : '\n' ∉ l) :
    (p = [] ∧ linesOf p = []) ∨ linesOf p = [p] := by
  by_cases h : p = []
  · left
    exact ⟨h, by rw [h]; rfl⟩
  · right
    exact linesOf_plain h fun hh => hl (hp.subset hh)

/-- **C140**: a file whose writing was interrupted is not loaded: if the start of what is written
for a map can be loaded, then at most the last line break is missing. -/
theorem C140_cut (m : CtfMap) (h : Writable m) (text : Str) (hw : writeCtf false m = .ok text)
    (t : Str) (ht : t <+: text) (d : CtfData) (hd : loadCtf t = .ok d) :
    t = text ∨ t ++ ['\n'] = text := by
  have htext : text = ((ctfHead m ++ pixelLines m).map fun l => l ++ ['\n']).flatten := by
    rw [← pixelLines_eq]
    exact (Except.ok.inj hw).symm
  have hnl := ctf_lines h
  rw [htext] at ht
  obtain ⟨a, p, e, hap⟩ := cut_text _ t ht
  rcases hap with ⟨ha, hp⟩ | ⟨l, b, hls, hp⟩
  · left
    rw [e, htext, ha, hp, List.append_nil]
  have hna : ∀ x ∈ a, '\n' ∉ x := fun x hx => hnl x (by rw [hls]; simp [hx])
  have hnp : '\n' ∉ l := hnl l (by rw [hls]; simp)
  have hL : linesOf t = (a.map fun l => l ++ ['\n']) ++ linesOf p := by rw [e, linesOf_lines hna]
  have hp1 : (linesOf p).length ≤ 1 := by
    rcases linesOf_short hp hnp with ⟨_, h⟩ | h <;> simp [h]
  obtain ⟨s, x, y, q, cols, table, hh, hy, hx, hc, htab, hbs, hlen⟩ := loadCtf_ok hd
  have hpre : a <+: ctfHead m ++ pixelLines m := ⟨l :: b, hls.symm⟩
  have hlenN : a.length + 1 + b.length = m.phases.length + 14 + m.rows * m.cols := by
    have := congrArg List.length hls
    rw [List.length_append, ctfHead_length, pixelLines, List.length_map, pixels_length] at this
    simp only [List.length_append, List.length_cons] at this
    omega
  -- the header is complete
  have h13 : 13 ≤ a.length := by
    by_contra hlt
    rw [hL] at hh
    have := ctfHeader_short (a.map fun l => l ++ ['\n']) (linesOf p) (by
      intro z hz
      obtain ⟨w, hw, rfl⟩ := List.mem_map.mp hz
      apply ctfFront_plain m
      have : a <+: (ctfFront m).take 12 := by
        rw [List.prefix_take_iff]
        refine ⟨?_, by omega⟩
        rw [ctfFront, List.prefix_take_iff]
        refine ⟨?_, by omega⟩
        exact List.prefix_of_prefix_length_le hpre (List.prefix_append _ _)
          (by rw [ctfHead_length]; omega)
      exact this.subset hw) hp1 _ _ _ hh
    exact absurd this (by simp)
  have hfront : ctfFront m <+: a := by
    refine List.prefix_of_prefix_length_le ?_ hpre (by rw [ctfFront_length]; omega)
    exact (List.take_prefix _ _).trans (List.prefix_append _ _)
  obtain ⟨a2, rfl⟩ := hfront
  obtain ⟨s', hsx, hsy, hhead⟩ := ctfHeader_front m
  rw [hL, List.map_append, List.append_assoc, hhead] at hh
  obtain ⟨q', hq, hh⟩ := except_bind_ok hh
  have hh := Except.ok.inj hh
  simp only [Prod.mk.injEq, Option.some.injEq] at hh
  obtain ⟨rfl, rfl⟩ := hh
  obtain ⟨hn, htitle, hskip⟩ := ctfTable_left hq
  rw [hsx, Option.some.injEq] at hx
  rw [hsy, Option.some.injEq] at hy
  subst hx hy
  have hR : table.length = m.rows * m.cols := by exact_mod_cast hlen
  have hshort := tableRows_length _ _ _ htab
  rw [hR, hL, List.length_drop, List.length_append, List.length_map, hskip] at hshort
  have hrest := (List.getElem?_eq_some_iff.mp htitle).1
  rw [List.length_append, List.length_map] at hrest
  rw [List.length_append, ctfFront_length] at hlenN hshort
  have hb : b = [] := List.eq_nil_of_length_eq_zero (by omega)
  have hp2 : (linesOf p).length = 1 := by omega
  subst hb
  have hpl : linesOf p = [p] := by
    rcases linesOf_short hp hnp with ⟨_, h⟩ | h
    · rw [h] at hp2; exact absurd hp2 (by simp)
    · exact h
  have ha2 : a2.length = m.phases.length + m.rows * m.cols := by
    simp only [List.length_nil] at hlenN
    omega
  by_cases hpe : p = l
  · right
    rw [e, htext, hls, hpe]
    simp
  exfalso
  have hls' : m.phases.map phaseText ++ ctfTitles :: pixelLines m = a2 ++ [l] := by
    rw [ctfHead_parts, List.append_assoc, List.append_assoc, List.append_assoc,
      List.append_cancel_left_eq] at hls
    simpa using hls
  rw [hpl] at htitle
  by_cases hR0 : m.rows * m.cols = 0
  · -- the titles are cut off
    have hpx : pixelLines m = [] := by
      rw [pixelLines]
      apply List.eq_nil_of_length_eq_zero
      rw [List.length_map, pixels_length, hR0]
    rw [hpx] at hls'
    have hl : ctfTitles = l := by
      have := (List.append_inj' hls' rfl).2
      simpa using this
    rw [List.getElem?_append_right (by rw [List.length_map]; omega), List.length_map, ha2, hR0,
      Nat.add_zero, Nat.sub_self, List.getElem?_cons_zero, Option.some.injEq] at htitle
    rw [← htitle] at hc
    exact titles_cut (hl ▸ hp) (hl ▸ hpe) hc hbs
  · -- the last pixel is cut off
    have hpx : pixelLines m ≠ [] := by
      intro h0
      have := congrArg List.length h0
      rw [pixelLines, List.length_map, pixels_length] at this
      exact hR0 this
    obtain ⟨px, z, hz⟩ := List.eq_nil_or_concat (pixelLines m) |>.resolve_left hpx
    rw [hz] at hls'
    have hinj := List.append_inj' (s₁ := m.phases.map phaseText ++ ctfTitles :: px)
      (t₁ := [z]) (s₂ := a2) (t₂ := [l]) (by simpa using hls') rfl
    have hl : z = l := by simpa using hinj.2
    have ht1 : q'.2.1 = ctfTitles ++ ['\n'] := by
      rw [← hinj.1, List.map_append, List.append_assoc,
        List.getElem?_append_right (by simp)] at htitle
      simpa using htitle.symm
    have hcols : cols = ctfCols := by
      rw [ht1, ctfTitles, loadColumns_title] at hc
      exact (Except.ok.inj hc).symm
    obtain ⟨w, -, hw⟩ : ∃ w ∈ Spec.pixels m.rows m.cols, pixelText m w.1 w.2 = l := by
      have : l ∈ pixelLines m := by rw [hz, ← hl]; simp
      exact List.mem_map.mp this
    have hdrop : (linesOf t).drop q'.2.2 = ((linesOf t).dropLast).drop q'.2.2 ++ [p] := by
      rw [hL, hpl, List.dropLast_concat, List.drop_append_of_le_length]
      rw [List.length_map, List.length_append, ctfFront_length, hskip]
      omega
    rw [hdrop] at htab
    rcases tableRows_last _ _ _ _ htab with h1 | ⟨row, h1⟩
    · rw [hR, hL, hpl, List.dropLast_concat, List.length_drop, List.length_map, List.length_append,
        ctfFront_length, hskip] at h1
      omega
    · rw [hcols] at h1
      obtain ⟨v, hv⟩ := mapM_each_ok h1 (10, lit "BS", .uint8) (by simp [ctfCols])
      have hhash : p.takeWhile (fun c => decide (c ≠ '#')) = p := by
        apply takeWhile_id
        intro x hx
        rw [decide_eq_true_eq]
        rintro rfl
        have := hp.subset hx
        rw [← hw] at this
        exact pixel_not m w.1 w.2 (by decide) (by decide) this
      rw [hhash, rowCell, List.getElem?_eq_none (pixel_cut (hw ▸ hp) (hw ▸ hpe))] at hv
      exact absurd hv (by simp)

/-- **C140**: the last line break does not matter. -/
theorem C140_last_break (m : CtfMap) (h : Writable m) (text : Str)
    (hw : writeCtf false m = .ok text) (t : Str) (ht : t ++ ['\n'] = text) :
    loadCtf t = loadCtf text := by
  have htext : text = ((ctfHead m ++ pixelLines m).map fun l => l ++ ['\n']).flatten := by
    rw [← pixelLines_eq]
    exact (Except.ok.inj hw).symm
  have hnl := ctf_lines h
  obtain ⟨s, hsx, hsy, hhead⟩ := ctfHeader_front m
  have key : ∀ (a : List Str) (l : Str), ctfHead m ++ pixelLines m = a ++ [l] → l ≠ [] →
      linesOf t = (a.map fun l => l ++ ['\n']) ++ [l] ∧
      linesOf text = (a.map fun l => l ++ ['\n']) ++ [l ++ ['\n']] := by
    intro a l hls hne
    have hna : ∀ x ∈ a, '\n' ∉ x := fun x hx => hnl x (by rw [hls]; simp [hx])
    have hnp : '\n' ∉ l := hnl l (by rw [hls]; simp)
    have e : t = (a.map fun l => l ++ ['\n']).flatten ++ l := by
      rw [htext, hls, List.map_append, List.flatten_append] at ht
      have : t ++ ['\n'] = ((a.map fun l => l ++ ['\n']).flatten ++ l) ++ ['\n'] := by
        rw [ht]; simp
      exact List.append_cancel_right this
    constructor
    · rw [e, linesOf_lines hna, linesOf_plain hne hnp]
    · rw [htext, linesOf_flatten hnl, hls, List.map_append]
      rfl
  by_cases hpx : pixelLines m = []
  · obtain ⟨h1, h2⟩ := key (ctfFront m ++ m.phases.map phaseText) ctfTitles
      (by rw [hpx, ctfHead_parts, List.append_nil]) (by decide)
    unfold loadCtf
    simp only [h1, h2, List.map_append, List.append_assoc, hhead]
    have hph : ∀ x : Str, ctfTable 12 m.phases.length
        (((m.phases.map phaseText).map fun l => l ++ ['\n']) ++ [x]) =
        (ctfPhases m.phases.length ((m.phases.map phaseText).map fun l => l ++ ['\n'])).bind
          fun r => match m.phases.length with
            | 0 => .error .unboundLocalError
            | j + 1 => .ok (r.1, x, 12 + j + 3) := by
      intro x
      have := ctfPhases_more ((m.phases.map phaseText).map fun l => l ++ ['\n']) [x]
      rw [List.length_map, List.length_map] at this
      unfold ctfTable
      rw [this]
      cases ctfPhases m.phases.length ((m.phases.map phaseText).map fun l => l ++ ['\n']) <;> rfl
    rw [hph, hph]
    cases ctfPhases m.phases.length ((m.phases.map phaseText).map fun l => l ++ ['\n']) with
    | error e => rfl
    | ok r =>
      cases hn : m.phases.length with
      | zero => rfl
      | succ j =>
        have hw : splitWs ctfTitles = splitWs (ctfTitles ++ ['\n']) := by decide +kernel
        have hd : ∀ x : Str, (((ctfFront m).map fun l => l ++ ['\n']) ++
            (((m.phases.map phaseText).map fun l => l ++ ['\n']) ++ [x])).drop (12 + j + 3) =
            [] := by
          intro x
          apply List.drop_eq_nil_of_le
          simp only [List.length_append, List.length_map, ctfFront_length, hn, List.length_cons,
            List.length_nil]
          omega
        simp only [Except.bind, bound, hsx, hsy, hw, hd]
  · obtain ⟨px, z, hz⟩ := List.eq_nil_or_concat (pixelLines m) |>.resolve_left hpx
    obtain ⟨w, -, hw⟩ : ∃ w ∈ Spec.pixels m.rows m.cols, pixelText m w.1 w.2 = z := by
      have : z ∈ pixelLines m := by rw [hz]; simp
      exact List.mem_map.mp this
    obtain ⟨toks, hl, ht, e⟩ := pixel_words m w.1 w.2
    have hzw : ∀ c ∈ z, decide (c ≠ '#') = true := by
      intro x hx
      rw [decide_eq_true_eq]
      rintro rfl
      rw [← hw] at hx
      exact pixel_not m w.1 w.2 (by decide) (by decide) hx
    have hwords : splitWs (z.takeWhile fun c => decide (c ≠ '#')) =
        splitWs ((z ++ ['\n']).takeWhile fun c => decide (c ≠ '#')) := by
      rw [takeWhile_id hzw, takeWhile_id (s := z ++ ['\n'])]
      · unfold splitWs
        rw [splitWhen_append _ _ _ (by decide)]
        simp [splitWhen]
      · intro c hc
        rcases List.mem_append.mp hc with hc | hc
        · exact hzw c hc
        · rw [List.mem_singleton.mp hc]; decide
    obtain ⟨h1, h2⟩ := key (ctfFront m ++ (m.phases.map phaseText ++ ctfTitles :: px)) z
      (by rw [hz, ctfHead_parts]; simp) (by rw [← hw, e]; simp)
    unfold loadCtf
    simp only [h1, h2, List.map_append, List.append_assoc, hhead, List.map_cons, List.cons_append]
    have hm := ctfTable_more 12 ((m.phases.map phaseText).map fun l => l ++ ['\n'])
      (ctfTitles ++ ['\n']) ((px.map fun l => l ++ ['\n']) ++ [z])
      ((px.map fun l => l ++ ['\n']) ++ [z ++ ['\n']])
    rw [List.length_map, List.length_map] at hm
    rw [hm]
    cases hq : ctfTable 12 m.phases.length (((m.phases.map phaseText).map fun l => l ++ ['\n']) ++
      (ctfTitles ++ ['\n']) :: ((px.map fun l => l ++ ['\n']) ++ [z ++ ['\n']])) with
    | error e => rfl
    | ok q =>
      have hskip := (ctfTable_left hq).2.2
      have hd : ∀ x : Str, (((ctfFront m).map fun l => l ++ ['\n']) ++
          (((m.phases.map phaseText).map fun l => l ++ ['\n']) ++ (ctfTitles ++ ['\n']) ::
            ((px.map fun l => l ++ ['\n']) ++ [x]))).drop q.2.2 =
          (px.map fun l => l ++ ['\n']) ++ [x] := by
        intro x
        rw [← List.append_assoc, List.append_cons]
        apply List.drop_left'
        simp only [List.length_append, List.length_map, ctfFront_length, List.length_cons,
          List.length_nil, hskip]
        omega
      simp only [Except.bind, bound, hsx, hsy, hd, tableRows_words _ _ _ hwords]

/-- The map of two by three pixels with two phases: without its last line break its file is a
shorter text, which is loaded. -/
example : ∃ text d, Writable exampleCtf ∧ writeCtf false exampleCtf = .ok text ∧
    text.dropLast <+: text ∧ text.dropLast ≠ text ∧ loadCtf text.dropLast = .ok d ∧
    text.dropLast ++ ['\n'] = text := by
  have hW : Writable exampleCtf := by
    refine ⟨?_, ?_⟩
    · intro p hp
      simp only [exampleCtf, List.mem_cons, List.not_mem_nil, or_false] at hp
      rcases hp with rfl | rfl
      · exact ⟨Or.inr rfl, by decide, by decide⟩
      · exact ⟨Or.inl rfl, by decide, by decide⟩
    · intro r c hr hc
      have hr : r < 2 := hr
      have hc : c < 3 := hc
      show (r + c) % 3 < 256 ∧ 100 * r + c < 256
      omega
  obtain ⟨text, d, hw, hd, -⟩ := C65_round_trip exampleCtf hW (by simp [exampleCtf])
  have htext : text = ((ctfHead exampleCtf ++ pixelLines exampleCtf).map
      fun l => l ++ ['\n']).flatten := by
    rw [← pixelLines_eq]
    exact (Except.ok.inj hw).symm
  have hlast : ∃ t, text = t ++ ['\n'] := by
    obtain ⟨a, z, hz⟩ := List.eq_nil_or_concat (ctfHead exampleCtf ++ pixelLines exampleCtf)
      |>.resolve_left (by
        intro h0
        have := congrArg List.length h0
        rw [List.length_append, ctfHead_length] at this
        simp at this)
    rw [htext, hz]
    exact ⟨(a.map fun l => l ++ ['\n']).flatten ++ z, by simp⟩
  obtain ⟨t, rfl⟩ := hlast
  refine ⟨t ++ ['\n'], d, hW, hw, List.dropLast_prefix _, ?_, ?_, ?_⟩
  · rw [List.dropLast_concat]
    intro h
    have := congrArg List.length h
    simp at this
  · rw [List.dropLast_concat, C140_last_break exampleCtf hW _ hw t rfl, hd]
  · rw [List.dropLast_concat]

end DefDAP
